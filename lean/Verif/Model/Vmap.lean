import Verif.Model.EmpiricalNtk
import Verif.Model.Structured
import Verif.Model.Lax

/-!
# `vmap_axes` of the empirical NTK

`neural_tangents/_src/empirical.py`, lines 542-701 with `vmap_axes`, and the functions they use.  The network `f` takes the parameters and its inputs: `x` and the
keyword arguments (arrays).  `vmap(g, in_axes, out_axes)` of JAX is modelled by its documented meaning: `g` of the slices of the mapped inputs, stacked.
-/

namespace NT.Emp

open NT.Arr NT.Spec

variable {L : ℕ} {P : Fin L → List ℕ}

/-- A network: parameters, `x`, keyword arguments. -/
abbrev ApplyFn (P : Fin L → List ℕ) := Params P → List (Arr ℝ) → Arr ℝ

/-- `vmap_axes`: the axis of each input (`x` first, then the keyword arguments; `none` if it is not mapped), and that of the output. -/
structure VmapAxes where
  inp : List (Option ℤ)
  out : Option ℤ

/-- `_mod` of an axis, empirical.py:1616-1622. -/
def modAxis (a : Option ℤ) (n : ℕ) : Except Err (Option ℕ) :=
  match a with
  | none => .ok none
  | some a => if n = 0 then .error .zeroDivision else .ok (some (a % (n : ℤ)).toNat)

/-- `_canonicalize_axes`, empirical.py:1633-1656: the axes modulo the ranks of the first inputs `X` and of their output `fx`. -/
def canonicalizeAxes (V : VmapAxes) (X : List (Arr ℝ)) (fx : Arr ℝ) : Except Err (List (Option ℕ) × Option ℕ) := do
  let inp ← (V.inp.zip X).mapM fun ax => modAxis ax.1 ax.2.ndim
  let out ← modAxis V.out fx.ndim
  return (inp, out)

/-- The example `e` of an input as the network gets it: the slice of `vmap`, with the axis restored by `_expand_dims`, empirical.py:1461-1466. -/
def exampleOf (a : Option ℕ) (x : Arr ℝ) (e : ℕ) : Arr ℝ :=
  match a with
  | none => x
  | some a => (x.take e a).expandDims [a]

/-- The example `e` of all inputs. -/
def examplesOf (axes : List (Option ℕ)) (X : List (Arr ℝ)) (e : ℕ) : List (Arr ℝ) := List.zipWith (fun a x => exampleOf a x e) axes X

/-- `_squeeze`, empirical.py:1582-1613, of an axis that has size 1 or 0. -/
def squeezeAt (o : ℕ) (y : Arr ℝ) : Arr ℝ := ⟨y.shape.eraseIdx o, fun i => if y.shape.getD o 0 = 0 then 0 else y.get (i.take o ++ 0 :: i.drop o)⟩

/-- `_squeeze(fx, fx_axis)` in `_f`, empirical.py:1468-1470. -/
def squeezeOpt (o : Option ℕ) (y : Arr ℝ) : Arr ℝ :=
  match o with
  | none => y
  | some o => squeezeAt o y

/-- `jnp.squeeze` raises for axes of other sizes than 1; those of size 0 are treated by `_squeeze`. -/
def squeezable (o : Option ℕ) (y : Arr ℝ) : Prop := ∀ a ∈ o, y.shape.getD a 0 ≤ 1

instance (o : Option ℕ) (y : Arr ℝ) : Decidable (squeezable o y) := by unfold squeezable; cases o <;> simp <;> infer_instance

/-- `_get_f_params`, empirical.py:1453-1472, as a function of the parameters. -/
def fParams (f : ApplyFn P) (o : Option ℕ) (X : List (Arr ℝ)) : Params P → Arr ℝ := fun θ => squeezeOpt o (f θ X)

/-- The size of the mapped axes; `vmap` raises if they differ. -/
def mapSize (axes : List (Option ℕ)) (X : List (Arr ℝ)) : Except Err ℕ :=
  let sizes := (axes.zip X).filterMap fun ax => ax.1.bind fun a => ax.2.shape[a]?
  if sizes.length = (axes.zip X).countP (fun ax => ax.1.isSome) ∧ ∀ s ∈ sizes, s = sizes.headD 0 then .ok (sizes.headD 0) else .error .valueError

/-- `vmap(..., out_axes=o)`: the results for the examples, stacked at the axis `o`. -/
def stackAt {α : Type} (o n : ℕ) (g : ℕ → Arr α) : Arr α :=
  ⟨(g 0).shape.take o ++ n :: (g 0).shape.drop o, fun k => (g (k.getD o 0)).get (k.eraseIdx o)⟩

/-- Two nested `vmap`s, empirical.py:688-692: the inner one, over `n1` first examples, with `out_axes=o1`, and the outer one, over `n2` second examples, with
`out_axes=o2`. -/
def stackPairs {α : Type} (o2 o1 n1 n2 : ℕ) (g : ℕ → ℕ → Arr α) : Arr α := stackAt o2 n2 fun e2 => stackAt o1 n1 fun e1 => g e1 e2

/-- Whether anything is mapped, empirical.py:609, 681. -/
def mapped (axes : List (Option ℕ)) : Prop := ∃ a ∈ axes, a.isSome

instance (axes : List (Option ℕ)) : Decidable (mapped axes) := by unfold mapped; infer_instance

/-- `j_fn(x, *args)`, empirical.py:603-612; an output axis `None` of a mapped function raises a `ValueError`. -/
noncomputable def jacobiansV (f : ApplyFn P) (θ : Params P) (axes : List (Option ℕ)) (o : Option ℕ) (X : List (Arr ℝ)) : Except Err (Fin L → Arr ℝ) :=
  if mapped axes then do
    let n ← mapSize axes X
    if squeezable o (f θ (examplesOf axes X 0)) then
      match o with
      | none => .error .valueError
      | some o => .ok fun l => stackAt o n fun e => jacobianLeaf (fParams f (some o) (examplesOf axes X e)) θ l
    else .error .valueError
  else if squeezable o (f θ X) then .ok (jacobianLeaf (fParams f o X) θ) else .error .valueError

/-- `ntk_fn` of `_jacobian_contraction_ntk_fn`, empirical.py:565-618.  `X1` are `x1` and its keyword arguments, `X2` `x2` and its keyword arguments or `none` if
`x2 is None`. -/
noncomputable def ntkJacobianV (f : ApplyFn P) (θ : Params P) (V : VmapAxes) (X1 : List (Arr ℝ)) (X2 : Option (List (Arr ℝ))) (trace diagonal : List ℤ) :
    Except Err (Arr ℝ) := do
  let (axes, o) ← canonicalizeAxes V X1 (f θ X1)
  let j1 ← jacobiansV f θ axes o X1
  let j2 ← match X2 with
    | none => .ok j1
    | some X2 => jacobiansV f θ axes o X2
  jacobianContraction (f θ X1).shape trace diagonal (List.ofFn j1) (List.ofFn j2)

/-- `get_ntk` of `_ntk_vector_products_ntk_fn`, empirical.py:667-692.  With mapped inputs, `x2 = x1` if `x2 is None`, but its keyword arguments are those of the second
inputs: `X2` are here `x2` or `x1` followed by the keyword arguments of the second inputs, and `same` tells whether `x2 is None`.  The inner `vmap` puts the
examples of the first inputs at the axis `o`, the outer one those of the second inputs at the axis `ndim + o`. -/
noncomputable def ntkFullV (f : ApplyFn P) (θ : Params P) (axes : List (Option ℕ)) (o : Option ℕ) (X1 X2 : List (Arr ℝ)) (same : Bool) : Except Err (Arr ℝ) :=
  if mapped axes then do
    let n2 ← mapSize axes X2
    let n1 ← mapSize axes X1
    if squeezable o (f θ (examplesOf axes X1 0)) ∧ squeezable o (f θ (examplesOf axes X2 0)) then
      match o with
      | none => .error .valueError
      | some o => .ok (stackPairs ((f θ X1).ndim + o) o n1 n2 fun e1 e2 =>
          ntkFull (fParams f (some o) (examplesOf axes X1 e1)) (fParams f (some o) (examplesOf axes X2 e2)) θ)
    else .error .valueError
  else
    let X2 := if same then X1 else X2
    if squeezable o (f θ X1) ∧ squeezable o (f θ X2) then .ok (ntkFull (fParams f o X1) (fParams f o X2) θ) else .error .valueError

/-- `ntk_fn` of `_ntk_vector_products_ntk_fn`, empirical.py:631-699. -/
noncomputable def ntkVectorProductsV (f : ApplyFn P) (θ : Params P) (V : VmapAxes) (X1 X2 : List (Arr ℝ)) (same : Bool) (trace diagonal : List ℤ) :
    Except Err (Arr ℝ) := do
  let (axes, o) ← canonicalizeAxes V X1 (f θ X1)
  traceAndDiagonal (← ntkFullV f θ axes o X1 X2 same) trace diagonal

end NT.Emp
