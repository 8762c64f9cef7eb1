import Verif.Model.Masked

/-!
# Kernels of branched networks with masks

`stax.FanOut`, `stax.FanInSum`, `stax.FanInProd`, `stax.FanInConcat`, `stax.parallel` and `stax.serial` on kernels that carry masks.
-/

namespace NT.Masked
open NT NT.Network

/-- The mask functions of the fan-in layers: `_sum_masks`, branching.py:114-115 (`FanInSum`) and 183-184 (`FanInProd`), and `_concat_masks`,
branching.py:294-295 (`FanInConcat`), with `axis %= len(input_shapes[0])` (branching.py:346); no branches at all raise in `kernel_fn` too, here already in
the mask function. -/
def fanMask : Fan → List (Option (Arr Bool)) → List (List Nat) → Except Err (Option (Arr Bool))
  | .sum, ms, _ => Masks.sum ms
  | .prod, ms, _ => Masks.sum ms
  | .concat _, _, [] => .error .valueError
  | .concat axis, ms, s :: ss => Masks.concat ms (s :: ss) (axis % (s.length : Int)).toNat

/-- `kernel_fn_with_masking`, requirements.py:228-246, of the fan-in layers, which do not remask (`remask_kernel=False`, branching.py:56, 121, 190): the
masks of the branches are combined, and replace those of the output. -/
noncomputable def fanWithMasking (f : Fan) (ks : List (Kernel ℝ)) : Except Err (Kernel ℝ) := do
  let m1 ← fanMask f (ks.map (·.mask1)) (ks.map (·.shape1))
  let m2 ← fanMask f (ks.map (·.mask2)) (ks.map (·.shape2))
  let k' ← f.kernelFn ks
  .ok { k' with mask1 := m1, mask2 := m2 }

/-- Networks: layers and fan-in layers with the output shapes of their `init_fn`, `FanOut`, `serial` and `parallel`. -/
inductive MNet where
  | layer (l : MLayer) (out : List Nat → List Nat)
  | fanOut (n : Nat)
  | fanIn (f : Fan) (out : List (List Nat) → List Nat)
  | seq (a b : MNet)
  | par (n : Nat) (branches : Fin n → MNet)

/-- `kernel_fn` of a network on kernels with masks: combinators.py:60-66 (`serial`), 188-196 (`parallel`; the numbers of branches and of kernels must agree),
branching.py:51 (`FanOut`: copies, with their masks), and the shapes set by the decorator `layer`, requirements.py:857-879.  A layer given several kernels,
or several branches given one, raise. -/
noncomputable def MNet.run : MNet → Vals (Kernel ℝ) → Except Err (Vals (Kernel ℝ))
  | .layer l out, .one k =>
    match l.withMasking k with
    | .error e => .error e
    | .ok k' => .ok (.one (setShapes (out k.shape1) (out k.shape2) k'))
  | .layer _ _, .many _ => .error .attributeError
  | .fanOut n, v => .ok (.many (List.replicate n v))
  | .fanIn _ _, .one _ => .error .typeError
  | .fanIn f out, .many l =>
    match Vals.ones l with
    | none => .error .attributeError
    | some ks =>
      match fanWithMasking f ks with
      | .error e => .error e
      | .ok k' => .ok (.one (setShapes (out (ks.map (·.shape1))) (out (ks.map (·.shape2))) k'))
  | .seq a b, v =>
    match a.run v with
    | .error e => .error e
    | .ok v' => b.run v'
  | .par _ _, .one _ => .error .typeError
  | .par n branches, .many l =>
    if h : l.length = n then
      match collect n fun i => (branches i).run (l[i]'(by rw [h]; exact i.2)) with
      | .error e => .error e
      | .ok r => .ok (.many r)
    else .error .valueError

end NT.Masked
