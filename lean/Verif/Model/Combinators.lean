import Verif.Model.Arr
import Verif.Model.Tree

/-!
# `serial`, `parallel`, `repeat`: `neural_tangents/_src/stax/combinators.py`

Layers are triples of functions on abstract keys, shapes, parameters, activations and kernels.  The
functions `ostax.serial` and `ostax.parallel` of `jax.example_libraries.stax` (which do the work for
`init_fn` and `apply_fn`) are modelled by their code.  `split` is `jax.random.split(rng)` and `splitN`
is `jax.random.split(rng, n)`.
-/

namespace NT.Comb
open NT

/-- Parameters of a network: nested lists of the parameters of its layers. -/
inductive Params (P : Type) where
  | leaf (p : P)
  | node (l : List (Params P))

/-- What `_set_shapes` needs to know of kernels: the shapes they carry.  For trees of kernels these are
trees of shapes and `withShapes` is a `tree_map`, which raises if the structures differ
(requirements.py:864-879). -/
structure Shaped (K S : Type) where
  shape1 : K → S
  shape2 : K → S
  withShapes : K → S → S → Except Err K

/-- A layer: `init_fn`, `apply_fn`, `kernel_fn` (after the decorator `layer`).  `outShape` is the shape
of `apply_fn(init_fn(rng, shape)[1], x)` for `x` of shape `shape`, computed by `eval_shape`; it is the
error `notImplemented` for a layer without `apply_fn`. -/
structure Layer (Key S P X K : Type) where
  init : Key → S → Except Err (S × Params P)
  apply : Params P → X → Option Key → Except Err X
  outShape : S → Except Err S
  kernel : K → Except Err K

variable {Key S P X K : Type}

/-- `_propagate_shape`, requirements.py:833-854. -/
def propagate (outShape : S → Except Err S) (s : S) : Except Err S :=
  match outShape s with
  | .error .notImplemented => .ok s
  | r => r

/-- `_set_shapes`, requirements.py:857-879. -/
def setShapes (sh : Shaped K S) (outShape : S → Except Err S) (kin kout : K) : Except Err K :=
  match propagate outShape (sh.shape1 kin) with
  | .error e => .error e
  | .ok s1 =>
    match propagate outShape (sh.shape2 kin) with
    | .error e => .error e
    | .ok s2 => sh.withShapes kout s1 s2

/-- `kernel_fn_kernel` of `_preprocess_kernel_fn`, requirements.py:933-935: what the decorator `layer`
(requirements.py:50-78) makes of a `kernel_fn` when it is called on kernels. -/
def decorate (sh : Shaped K S) (outShape : S → Except Err S) (kernelFn : K → Except Err K) (k : K) :
    Except Err K :=
  match kernelFn k with
  | .error e => .error e
  | .ok out => setShapes sh outShape k out

mutual
/-- `tree_map` of a function of one tree, requirements.py:866-869. -/
def treeMap {A B : Type} (f : A → B) : Tree A → Tree B
  | .leaf a => .leaf (f a)
  | .node b ts => .node b (treeMapList f ts)
/-- `treeMap` on the children. -/
def treeMapList {A B : Type} (f : A → B) : List (Tree A) → List (Tree B)
  | [] => []
  | t :: ts => treeMap f t :: treeMapList f ts
end

mutual
/-- `tree_map(set_shape_fn, out_kernel, shape1, shape2)`, requirements.py:877-879: a `ValueError` if the
structures differ. -/
def treeSet {D Sh : Type} (g : D → Sh → Sh → D) : Tree D → Tree Sh → Tree Sh → Except Err (Tree D)
  | .leaf k, .leaf s, .leaf t => .ok (.leaf (g k s t))
  | .node b ks, .node b1 ss, .node b2 ts =>
    if b = b1 ∧ b = b2 then
      match treeSetList g ks ss ts with
      | .error e => .error e
      | .ok r => .ok (.node b r)
    else .error .valueError
  | _, _, _ => .error .valueError
/-- `treeSet` on the children. -/
def treeSetList {D Sh : Type} (g : D → Sh → Sh → D) : List (Tree D) → List (Tree Sh) → List (Tree Sh) →
    Except Err (List (Tree D))
  | [], [], [] => .ok []
  | k :: ks, s :: ss, t :: ts =>
    match treeSet g k s t with
    | .error e => .error e
    | .ok r =>
      match treeSetList g ks ss ts with
      | .error e => .error e
      | .ok rs => .ok (r :: rs)
  | _, _, _ => .error .valueError
end

/-- Trees of kernels carry trees of shapes, requirements.py:864-879. -/
def treeShaped {D Sh : Type} (s1 s2 : D → Sh) (g : D → Sh → Sh → D) : Shaped (Tree D) (Tree Sh) where
  shape1 := treeMap s1
  shape2 := treeMap s2
  withShapes := treeSet g

/-! ## serial -/

/-- `init_fun` of `ostax.serial`. -/
def serialInit (split : Key → Key × Key) : List (Layer Key S P X K) → Key → S →
    Except Err (S × List (Params P))
  | [], _, s => .ok (s, [])
  | l :: ls, rng, s =>
    match l.init (split rng).2 s with
    | .error e => .error e
    | .ok (s', p) =>
      match serialInit split ls (split rng).1 s' with
      | .error e => .error e
      | .ok (s'', ps) => .ok (s'', p :: ps)

/-- The loop of `apply_fun` of `ostax.serial`: `zip` stops at the shortest list. -/
def serialApply : List (Layer Key S P X K) → List (Params P) → List (Option Key) → X → Except Err X
  | l :: ls, p :: ps, r :: rs, x =>
    match l.apply p x r with
    | .error e => .error e
    | .ok y => serialApply ls ps rs y
  | _, _, _, x => .ok x

/-- `rngs` of `apply_fun`, in `ostax.serial` and `ostax.parallel`. -/
def rngs (splitN : Key → Nat → List Key) (n : Nat) : Option Key → List (Option Key)
  | some r => (splitN r n).map some
  | none => List.replicate n none

/-- A sequence of functions, one after the other. -/
def runAll {A : Type} : List (A → Except Err A) → A → Except Err A
  | [], a => .ok a
  | f :: fs, a =>
    match f a with
    | .error e => .error e
    | .ok b => runAll fs b

/-- `serial`, combinators.py:40-68.  Of no layers it is a `ValueError` (`zip(*layers)` cannot be
unpacked). -/
def serial (sh : Shaped K S) (split : Key → Key × Key) (splitN : Key → Nat → List Key)
    (ls : List (Layer Key S P X K)) : Except Err (Layer Key S P X K) :=
  if ls.isEmpty then .error .valueError
  else
    let outShape := runAll (ls.map (·.outShape))
    .ok {
      init := fun rng s => (serialInit split ls rng s).map fun r => (r.1, .node r.2)
      apply := fun params x rng =>
        match params with
        | .node ps => serialApply ls ps (rngs splitN ls.length rng) x
        | .leaf _ => .error .typeError
      outShape := outShape
      kernel := decorate sh outShape (runAll (ls.map (·.kernel))) }

/-! ## repeat -/

/-- The `n` first rounds of `init_fn_scan` of `repeat`, combinators.py:131-136; the stacked parameters
are the list of their slices. -/
def repeatParams (split : Key → Key × Key) (l : Layer Key S P X K) (s : S) : Nat → Key →
    Except Err (List (Params P))
  | 0, _ => .ok []
  | n + 1, rng =>
    match l.init (split rng).2 s with
    | .error e => .error e
    | .ok (_, p) =>
      match repeatParams split l s n (split rng).1 with
      | .error e => .error e
      | .ok ps => .ok (p :: ps)

/-- `kernel_fn_repeat`, combinators.py:147-158.  `lax.scan` checks (before it runs, for any length) that
the body keeps the static data of the carry, else a `TypeError`. -/
def repeatKernel {M : Type} [DecidableEq M] (metaOf : K → M) (f : K → Except Err K) (n : Nat) (k : K) :
    Except Err K :=
  if n = 0 then .ok k
  else
    match f k with
    | .error e => .error e
    | .ok k1 =>
      match f k1 with
      | .error e => .error e
      | .ok k2 =>
        if metaOf k2 = metaOf k1 then runAll (List.replicate (n - 1) f) k1 else .error .typeError

/-- `repeat`, combinators.py:71-163. -/
def «repeat» {M : Type} [DecidableEq M] [DecidableEq S] (sh : Shaped K S) (split : Key → Key × Key)
    (metaOf : K → M) (l : Layer Key S P X K) (n : Nat) : Layer Key S P X K where
  init rng s :=
    match l.init rng s with
    | .error e => .error e
    | .ok (s', _) =>
      if s' ≠ s then .error .valueError
      else (repeatParams split l s n rng).map fun ps => (s', .node ps)
  apply params x rng :=
    match params with
    | .node ps => runAll ((ps.take n).map fun p y => l.apply p y rng) x
    | .leaf _ => .error .typeError
  outShape := runAll (List.replicate n l.outShape)
  kernel := decorate sh (runAll (List.replicate n l.outShape)) (repeatKernel metaOf l.kernel n)

/-! ## parallel -/

/-- `init_fun` of `ostax.parallel`: `zip` of functions, keys and shapes. -/
def parallelInit {Sh : Type} : List (Layer Key (Tree Sh) P X K) → List Key → List (Tree Sh) →
    Except Err (List (Tree Sh) × List (Params P))
  | l :: ls, r :: rs, s :: ss =>
    match l.init r s with
    | .error e => .error e
    | .ok (s', p) =>
      match parallelInit ls rs ss with
      | .error e => .error e
      | .ok (ss', ps) => .ok (s' :: ss', p :: ps)
  | _, _, _ => .ok ([], [])

/-- `type(input_shape)(zip(*...))` unpacked into shapes and parameters, combinators.py:187-188: the shapes
are a tuple whatever the type of `input_shape`; of no branches nothing can be unpacked. -/
def unzipInit {Sh : Type} : Except Err (List (Tree Sh) × List (Params P)) →
    Except Err (Tree Sh × Params P)
  | .error e => .error e
  | .ok ([], _) => .error .valueError
  | .ok (ss, ps) => .ok (.node false ss, .node ps)

/-- `apply_fun` of `ostax.parallel`. -/
def parallelApply {A : Type} : List (Layer Key S P (Tree A) K) → List (Params P) → List (Tree A) →
    List (Option Key) → Except Err (List (Tree A))
  | l :: ls, p :: ps, x :: xs, r :: rs =>
    match l.apply p x r with
    | .error e => .error e
    | .ok y =>
      match parallelApply ls ps xs rs with
      | .error e => .error e
      | .ok ys => .ok (y :: ys)
  | _, _, _, _ => .ok []

/-- `f(k) for k, f in zip(ks, fs)`. -/
def zipRun {A : Type} : List (A → Except Err A) → List A → Except Err (List A)
  | f :: fs, a :: as =>
    match f a with
    | .error e => .error e
    | .ok b =>
      match zipRun fs as with
      | .error e => .error e
      | .ok bs => .ok (b :: bs)
  | _, _ => .ok []

/-- A function on branches as a function on trees: `type(ks)(...)`; a single leaf is a `TypeError`. -/
def onBranches {A : Type} (f : List (Tree A) → Except Err (List (Tree A))) :
    Tree A → Except Err (Tree A)
  | .node b ts => (f ts).map (.node b)
  | .leaf _ => .error .typeError

/-- `parallel`, combinators.py:166-198. -/
def parallel {Sh A D : Type} (sh : Shaped (Tree D) (Tree Sh)) (splitN : Key → Nat → List Key)
    (ls : List (Layer Key (Tree Sh) P (Tree A) (Tree D))) :
    Except Err (Layer Key (Tree Sh) P (Tree A) (Tree D)) :=
  if ls.isEmpty then .error .valueError
  else
    let outShape := onBranches (zipRun (ls.map (·.outShape)))
    .ok {
      init := fun rng s =>
        match s with
        | .node _ ss =>
          unzipInit (parallelInit ls (splitN rng ls.length) ss)
        | .leaf _ => .error .typeError
      apply := fun params x rng =>
        match params with
        | .node ps => onBranches (fun xs => parallelApply ls ps xs (rngs splitN ls.length rng)) x
        | .leaf _ => .error .typeError
      outShape := outShape
      kernel := decorate sh outShape (onBranches (zipRun (ls.map (·.kernel)))) }

end NT.Comb
