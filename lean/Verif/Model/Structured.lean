import Verif.Model.Einsum
import Verif.Model.Empirical
import Verif.Model.Rules
import Verif.Spec.Box

/-!
# Model of the NTK by structured derivatives

`empirical.py`, lines 704-912 (`_structured_derivatives_ntk_fn`), 1518-1541, 1670-1713 and 1771-2051, and `rules.py`, lines 212-270.
`vmap_axes` is `None` (so `fx_axis` is `None`) and the output of the network is one array.
-/

namespace NT.Emp
open NT NT.Arr NT.Spec NT.Einsum
open scoped BigOperators

variable {α : Type}

/-! ## The contraction of two uses of a parameter -/

/-- `df_dy_dims_2` and `out_dims` of `_get_dims`, empirical.py:1688-1713; `df1`, `df2` are the shapes of the arrays and `df_dy_dims_1` is `0, 1, ...`. -/
def getDims (df1 df2 : List ℕ) (n : ℕ) (T D : List ℕ) : Except Err (List ℤ × List ℤ) :=
  (List.range n).foldlM (fun (d : List ℤ × List ℤ) i =>
    if i ∈ T then
      if df1.getD i 0 = df2.getD i 0 then .ok (d.1.set i (i : ℤ), d.2) else .error .assertion
    else if i ∈ D then
      if df1.getD i 0 = df2.getD i 0 then .ok (d.1.set i (i : ℤ), d.2 ++ [(i : ℤ)]) else .error .assertion
    else .ok (d.1, d.2 ++ [(i : ℤ), d.1.getD i 0]))
    ((List.range df2.length).map fun x : ℕ => ((df1.length + x : ℕ) : ℤ), [])

/-- A loop `for i, a in enumerate(axes): dims[n + a] = id(i)`, empirical.py:759-764 and 783-795. -/
def relabel (dims : List ℤ) (n : ℕ) (axes : List ℕ) (id : ℕ → ℤ) : List ℤ :=
  axes.zipIdx.foldl (fun d ai => d.set (n + ai.1) (id ai.2)) dims

/-- The loop that gives the free axes of `dy_dw` the labels they have in `df_dy`, empirical.py:797-809. -/
def shareFree (n : ℕ) (d : List ℤ) (s : Structure) (w : List ℤ) : List ℤ :=
  (List.range' n (d.length - n)).foldl (fun w i =>
    if i - n ∈ s.outTrace ++ s.outDiagonal ++ s.outBroadcast then w else w.set (i - n) (d.getD i 0)) w

/-- One step of the loops of `contract`, empirical.py:748-822: the contraction of `df_dy` and `dy_dw` of one use of a parameter in the first network with
those of one use in the second.  `n` is the rank of the outputs, `T`, `D` the canonical traced and diagonal axes.  The labels `df_dy_dims_1` of
`_get_dims` are `0, 1, ...`.  The checks of `_check_einsum_no_broadcast` (a `ValueError`) for sizes are those of `einsum`. -/
def contractPair [Zero α] [One α] [Add α] [Mul α] (n : ℕ) (T D : List ℕ) (df1 df2 j1 j2 : Arr α) (s1 s2 : Structure) : Except Err (Arr α) := do
  let (d2, out) ← getDims df1.shape df2.shape n T D
  let d1 := (List.range df1.ndim).map fun x : ℕ => (x : ℤ)
  if s1.outTrace.length ≠ s2.outTrace.length then .error .notImplemented
  else if (s1.outTrace ≠ [] ∧ df1.ndim ≤ n) ∨ (s2.outTrace ≠ [] ∧ df2.ndim ≤ n) then .error .zeroDivision
  else
    let p := df1.ndim + df2.ndim
    let d1 := relabel d1 n (s1.outTrace.map (· % (df1.ndim - n))) fun i => ((p + i : ℕ) : ℤ)
    let d2 := relabel d2 n (s2.outTrace.map (· % (df2.ndim - n))) fun i => ((p + i : ℕ) : ℤ)
    let w1 := (List.range j1.ndim).map fun x : ℕ => (x : ℤ) - j1.ndim
    let w2 := (List.range j2.ndim).map fun x : ℕ => (x : ℤ) - j2.ndim
    if s1.outDiagonal.length ≠ s2.outDiagonal.length then .error .notImplemented
    else if (∃ a ∈ s1.outDiagonal, df1.ndim ≤ n + a ∨ j1.ndim ≤ a) ∨ (∃ a ∈ s2.outDiagonal, df2.ndim ≤ n + a ∨ j2.ndim ≤ a) then .error .indexError
    else
      let q : ℤ := 100000 - df1.ndim - df2.ndim - j1.ndim - j2.ndim
      let d1 := relabel d1 n s1.outDiagonal fun i => q - i
      let w1 := relabel w1 0 s1.outDiagonal fun i => q - i
      let d2 := relabel d2 n s2.outDiagonal fun i => q - i
      let w2 := relabel w2 0 s2.outDiagonal fun i => q - i
      let w1 := shareFree n d1 s1 w1
      let w2 := shareFree n d2 s2 w2
      if d1.Nodup ∧ w1.Nodup ∧ w2.Nodup ∧ d2.Nodup then einsum [(df1, d1), (j1, w1), (j2, w2), (df2, d2)] out
      else .error .valueError

/-- The sum of two arrays of which `none` stands for the scalar `jnp.zeros(())`. -/
def plus [Add α] : Option (Arr α) → Option (Arr α) → Option (Arr α)
  | none, b => b
  | some a, none => some a
  | some a, some b => some (addSame a b)

/-- A use of a parameter: `df_dy`, `dy_dw` and its structure. -/
abbrev Use (α : Type) := Arr α × Arr α × Structure

/-- `contract`, empirical.py:731-825, for the uses of one parameter.  (`dy_dw` that are symbolic zeros, which are skipped, are arrays of zeros here.) -/
def contractUses [Zero α] [One α] [Add α] [Mul α] (n : ℕ) (T D : List ℕ) (us1 us2 : List (Use α)) : Except Err (Option (Arr α)) := do
  let terms ← (us1.flatMap fun a => us2.map fun b => (a, b)).mapM fun ab =>
    contractPair n T D ab.1.1 ab.2.1 ab.1.2.1 ab.2.2.1 ab.1.2.2 ab.2.2.2
  .ok ((terms.map some).foldl plus none)

/-- `_ntk_shape`, empirical.py:1670-1685. -/
def ntkShape (fx1 fx2 T D : List ℕ) : Except Err (List ℕ) :=
  if ∀ x ∈ (fx1.zip fx2).zipIdx, x.2 ∈ T ++ D → x.1.1 = x.1.2 then
    .ok ((fx1.zip fx2).zipIdx.flatMap fun x => if x.2 ∈ T then [] else if x.2 ∈ D then [x.1.1] else [x.1.1, x.1.2])
  else .error .assertion

/-- `sum_and_contract`, empirical.py:715-840; `us1`, `us2` are the uses of the leaves of the parameters.  `broadcast_to` is modelled for the scalar zero and for
arrays that have the shape. -/
def sumAndContract [Field α] (fx1 fx2 : List ℕ) (trace diagonal : List ℤ) (us1 us2 : List (List (Use α))) : Except Err (Arr α) := do
  let size ← sizeAtRaw fx1 trace
  let D ← axesList diagonal fx1.length
  let T ← axesList trace fx1.length
  let ls ← (us1.zip us2).mapM fun ab => contractUses fx1.length T D ab.1 ab.2
  let shape ← ntkShape fx1 fx2 T D
  match ls.foldl plus none with
  | none => .ok ⟨shape, fun _ => 0⟩
  | some a => if a.shape = shape then .ok (divBy a (size : α)) else .error .valueError

/-! ## The linearized network -/

/-- An operand of an equation: the leaf `l` of the parameters (`jaxpr.invars`), the output of the equation `n`, or a value that does not depend on
the parameters (a constant or a literal). -/
inductive Operand
  | param (l : ℕ)
  | var (n : ℕ)
  | const
deriving DecidableEq, Repr

/-- An equation of the jaxpr of the linearized network, with one output (others raise, empirical.py:2039-2044).  `jac k` is the derivative of the output with
respect to the operand `k`: that JAX's transpose rules are adjoint to it is assumed.  `struct k` is `get_structure`, rules.py:151-209, and
`dydw k s` the compact Jacobian, empirical.py:1918-1948, `Rules.compact` for primitives with rules. -/
structure Eqn (α : Type) where
  out : List ℕ
  args : List Operand
  shapes : List (List ℕ)
  jac : ℕ → List ℕ → List ℕ → α
  isReshape : Bool := false
  struct : ℕ → Except Err Structure
  dydw : ℕ → Structure → Except Err (Arr α)

/-- `jaxpr` of `ad.linearize`, empirical.py:1814; the output of equation `n` is the variable `n`. -/
structure Jaxpr (α : Type) where
  params : List (List ℕ)
  eqns : List (Eqn α)
  out : Operand

namespace Jaxpr

/-- One round of `visit`, empirical.py:2010-2015: the outputs, not met before, of the equations with an operand in `vs`. -/
def nextVisit (J : Jaxpr α) (vs : List Operand) (need : List ℕ) : List ℕ :=
  (List.range J.eqns.length).filter fun n => n ∉ need ∧ ∃ v ∈ vs, ∃ e ∈ J.eqns[n]?, v ∈ e.args

/-- `visit`, empirical.py:2004-2017; the recursion ends because each round adds variables. -/
def visit (J : Jaxpr α) : ℕ → List Operand → List ℕ → List ℕ
  | 0, _, need => need
  | fuel + 1, vs, need =>
    if vs = [] then need
    else visit J fuel ((J.nextVisit vs need).map .var) (need ++ J.nextVisit vs need)

/-- `_get_vars_needing_cts_in`, empirical.py:1995-2023. -/
def needCts (J : Jaxpr α) : List ℕ := J.visit (J.eqns.length + 2) ((List.range J.params.length).map .param) []

variable [Field α]

/-- The cotangents: `ct_env`, with zero for the variables that are not there (`Zero`, empirical.py:1860). -/
abbrev Env (α : Type) := ℕ → List ℕ → α

/-- `_backprop_step`, empirical.py:2026-2051, on the equation `n`: its cotangent is removed from the environment and, if one of its operands needs a
cotangent, the cotangents of its operands are added. -/
def backStep (J : Jaxpr α) (env : Env α) (n : ℕ) : Env α :=
  match J.eqns[n]? with
  | none => env
  | some e =>
    let popped : Env α := fun v => if v = n then 0 else env v
    if ∃ v ∈ J.needCts, .var v ∈ e.args then
      fun v i => popped v i + ∑ k ∈ (Finset.range e.args.length).filter (fun k => e.args[k]? = some (.var v)),
        ∑ o ∈ box e.out, env n o * e.jac k o i
    else popped

/-- The environment after the last `d` equations, empirical.py:1869-1894; the cotangent of the output is `seed`. -/
def envAfter (J : Jaxpr α) (seed : List ℕ → α) : ℕ → Env α
  | 0 => fun v => if J.out = .var v then seed else 0
  | d + 1 => J.backStep (J.envAfter seed d) (J.eqns.length - 1 - d)

/-- `cts_in` of the equation `n`. -/
def ctsIn (J : Jaxpr α) (seed : List ℕ → α) (n : ℕ) : List ℕ → α := J.envAfter seed (J.eqns.length - 1 - n) n

/-- The uses of the leaf `l` as operand of an equation (number of the equation, number of the operand), in the order of empirical.py:1883-1899. -/
def uses (J : Jaxpr α) (l : ℕ) : List (ℕ × ℕ) :=
  (List.range J.eqns.length).reverse.flatMap fun n =>
    match J.eqns[n]? with
    | none => []
    | some e => ((List.range e.args.length).filter fun k => e.args[k]? = some (.param l)).map fun k => (n, k)

/-- `df_dy` of the operand `k` of the equation `e`, number `n`, for all rows of the standard basis: empirical.py:1784-1785, 1902-1907.  A `reshape` is read with the
shape of its operand. -/
def dfDy (J : Jaxpr α) (fx : List ℕ) (n k : ℕ) (e : Eqn α) : Arr α :=
  let ct : ℕ → Arr α := fun r => ⟨e.out, J.ctsIn (fun o => ((eye fx.prod).reshape (fx.prod :: fx)).get (r :: o)) n⟩
  let y := if e.isReshape then e.shapes.getD k [] else e.out
  let rows : Arr α := ⟨fx.prod :: y, fun x => (if e.isReshape then (ct (x.headD 0)).reshape y else ct (x.headD 0)).get x.tail⟩
  rows.reshape (fx ++ y)

/-- `df_dy` of the identity, if a parameter is the output: empirical.py:1960-1966. -/
def dfDyId (fx : List ℕ) : Arr α := ((eye fx.prod).reshape (fx.prod :: fx)).reshape (fx ++ fx)

/-- `get_structure_cache`, rules.py:212-258, for the leaf `l`. -/
def structureCache (J : Jaxpr α) (l : ℕ) : Except Err (Option Structure) := do
  let ss ← (J.uses l).reverse.mapM fun u => match J.eqns[u.1]? with
    | none => .error .keyError
    | some e => e.struct u.2
  Structure.common ((if J.out = .param l then [Rules.eyeS 0 (J.params.getD l []) (J.params.getD l [])] else []) ++ ss)

/-- `df_dy`, `dy_dw` and the structure of the use `u` of a leaf whose uses have the structure `c` in common, empirical.py:1896-1958. -/
def useAt (J : Jaxpr α) (fx : List ℕ) (c : Structure) (u : ℕ × ℕ) : Except Err (Use α) :=
  match J.eqns[u.1]? with
  | none => .error .keyError
  | some e => do
    let s ← (← e.struct u.2).meet c
    let j ← e.dydw u.2 s
    .ok (J.dfDy fx u.1 u.2 e, j, s)

/-- The uses of the leaf `l`: `_backward_pass` in both modes, empirical.py:1831-1992.  (A leaf without a use has no entry in the cache.) -/
def usesOf (J : Jaxpr α) (fx : List ℕ) (l : ℕ) : Except Err (List (Use α)) := do
  match ← J.structureCache l with
  | none => .ok []
  | some c =>
    let us ← (J.uses l).mapM (J.useAt fx c)
    if J.out = .param l then
      let p := J.params.getD l []
      let s ← (Rules.eyeS 0 p p).meet c
      let j ← Rules.compact Rules.eyeJ s 0 p ⟨[], fun _ => 0⟩ p
      .ok (us ++ [(dfDyId fx, j, s)])
    else .ok us

end Jaxpr

/-- `ntk_fn` of `_structured_derivatives_ntk_fn`, empirical.py:842-910, for networks with the linearizations `J1`, `J2` and outputs of shapes `fx1`, `fx2`. -/
def structuredNtk [Field α] (J1 J2 : Jaxpr α) (fx1 fx2 : List ℕ) (trace diagonal : List ℤ) : Except Err (Arr α) := do
  let us1 ← (List.range J1.params.length).mapM (J1.usesOf fx1)
  let us2 ← (List.range J2.params.length).mapM (J2.usesOf fx2)
  sumAndContract fx1 fx2 trace diagonal us1 us2

end NT.Emp
