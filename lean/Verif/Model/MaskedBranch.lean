import Verif.Model.MaskedApply
import Verif.Model.Branching
import Verif.Model.Network

/-!
# Finite networks with branches and masks

`stax/branching.py`, `stax/combinators.py`, `stax/requirements.py:203-226`.
-/

namespace NT.Masked
open NT NT.Network Arr

/-- `FanInSum` and `FanInProd`, branching.py:55-186. -/
inductive AFan where
  | sum
  | prod

/-- `+` and `jnp.multiply`. -/
noncomputable def AFan.op : AFan → ℝ → ℝ → ℝ
  | .sum => (· + ·)
  | .prod => (· * ·)

/-- An elementwise operation on arrays of the same rank, with broadcasting. -/
def binary (op : ℝ → ℝ → ℝ) (x y : Arr ℝ) : Except Err (Arr ℝ) :=
  match Masks.bcast x.shape y.shape with
  | none => .error .typeError
  | some s => .ok ⟨s, fun i => op (x.get (Masks.clip i x.shape)) (y.get (Masks.clip i y.shape))⟩

/-- A loop over arrays that stops at the first error. -/
def foldArrs (op : ℝ → ℝ → ℝ) : Arr ℝ → List (Arr ℝ) → Except Err (Arr ℝ)
  | x, [] => .ok x
  | x, y :: ys =>
    match binary op x y with
    | .error e => .error e
    | .ok z => foldArrs op z ys

/-- `apply_fn` of `FanInSum` (`sum(inputs)` of `jax.example_libraries.stax`, branching.py:66) and of `FanInProd` (branching.py:134-135); neither reads the
mask.  No inputs at all: `TypeError` for the product; the sum would be the number 0, not modelled. -/
noncomputable def AFan.apply (f : AFan) : List (Arr ℝ) → Except Err (Arr ℝ)
  | [] => .error .typeError
  | x :: xs => foldArrs f.op x xs

/-- `apply_fn_with_masking`, requirements.py:203-226, for several inputs; the mask function of both is `_sum_masks` (branching.py:114-115, 183-184). -/
noncomputable def AFan.applyWithMasking (f : AFan) (maskConstant : Option ℝ) (inputs : List Arg) : Except Err Arg := do
  let xs := inputs.map (getMaskedArray maskConstant)
  let outputs ← f.apply (xs.map (·.value))
  let outputsMask ← Masks.sum (xs.map (·.mask))
  return match outputsMask with
    | none => .array outputs
    | some m => .masked ⟨outputs, some m⟩

/-- The axis of `FanInConcat`: `jnp.concatenate` and `axis %= len(input_shapes[0])` (branching.py:346) count negative axes from the end;
`jnp.concatenate` raises for axes out of range and for no inputs at all. -/
def concatAxisOf (axis : Int) : List (Arr ℝ) → Except Err Nat
  | [] => .error .valueError
  | x :: _ => if -(x.ndim : Int) ≤ axis ∧ axis < x.ndim then .ok (axis % (x.ndim : Int)).toNat else .error .valueError

/-- `apply_fn_with_masking`, requirements.py:203-226, of `FanInConcat`, branching.py:189-297: `apply_fn` is `jnp.concatenate(inputs, axis)` of
`jax.example_libraries.stax` (branching.py:204), the mask function is `_concat_masks` (branching.py:294-295) of the masks and the shapes of the inputs. -/
noncomputable def concatWithMasking (axis : Int) (maskConstant : Option ℝ) (inputs : List Arg) : Except Err Arg := do
  let xs := inputs.map (getMaskedArray maskConstant)
  let a ← concatAxisOf axis (xs.map (·.value))
  let outputs ← concatE (xs.map (·.value)) a
  let outputsMask ← Masks.concat (xs.map (·.mask)) (xs.map (·.value.shape)) a
  return match outputsMask with
    | none => .array outputs
    | some m => .masked ⟨outputs, some m⟩

/-- Networks: layers with their parameters, `FanOut`, fan-in layers, `serial` and `parallel`. -/
inductive ANet where
  | layer (l : ALayer)
  | fanOut (n : Nat)
  | fanIn (f : AFan)
  | concat (axis : Int)
  | seq (a b : ANet)
  | par (n : Nat) (branches : Fin n → ANet)

/-- `apply_fn` of a network: combinators.py:40-68 (`serial`), 186-187 (`parallel`, which passes `mask_constant` to every branch; the numbers of branches and
inputs must agree), branching.py:50 (`FanOut`: copies, not masked).  A layer given several inputs, or several branches given one, raise. -/
noncomputable def ANet.run (maskConstant : Option ℝ) : ANet → Vals Arg → Except Err (Vals Arg)
  | .layer l, .one a =>
    match l.applyWithMasking maskConstant a with
    | .error e => .error e
    | .ok a' => .ok (.one a')
  | .layer _, .many _ => .error .attributeError
  | .fanOut n, v => .ok (.many (List.replicate n v))
  | .fanIn _, .one _ => .error .typeError
  | .fanIn f, .many l =>
    match Vals.ones l with
    | none => .error .attributeError
    | some as =>
      match f.applyWithMasking maskConstant as with
      | .error e => .error e
      | .ok a' => .ok (.one a')
  | .concat _, .one _ => .error .typeError
  | .concat axis, .many l =>
    match Vals.ones l with
    | none => .error .attributeError
    | some as =>
      match concatWithMasking axis maskConstant as with
      | .error e => .error e
      | .ok a' => .ok (.one a')
  | .seq a b, v =>
    match a.run maskConstant v with
    | .error e => .error e
    | .ok v' => b.run maskConstant v'
  | .par _ _, .one _ => .error .typeError
  | .par n branches, .many l =>
    if h : l.length = n then
      match collect n fun i => (branches i).run maskConstant (l[i]'(by rw [h]; exact i.2)) with
      | .error e => .error e
      | .ok r => .ok (.many r)
    else .error .valueError

end NT.Masked
