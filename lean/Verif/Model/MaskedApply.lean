import Verif.Model.Masked
import Verif.Model.Inputs
import Verif.Model.LayerNorm

/-!
# Finite networks with masks: `apply_fn` of layers decorated with `supports_masking`

`stax/requirements.py:137-368`, `stax/linear.py`.
-/

namespace NT.Masked
open NT Arr

/-- `MaskedArray`, requirements.py:303-325, for arrays. -/
structure MaskedArray where
  value : Arr ℝ
  mask : Option (Arr Bool)

/-- What `apply_fn` takes and returns: an array or a `MaskedArray`. -/
inductive Arg where
  | array (x : Arr ℝ)
  | masked (x : MaskedArray)

/-- `_get_masked_array`, requirements.py:328-368.  A `nan` mask constant is not modelled. -/
noncomputable def getMaskedArray (maskConstant : Option ℝ) : Arg → MaskedArray
  | .array x => ⟨(Inputs.maskedArray x maskConstant).1, (Inputs.maskedArray x maskConstant).2⟩
  | .masked x => ⟨Kernel.maskArr x.value x.mask, x.mask⟩

/-- Whether `jnp.broadcast_to` takes an array of the shape `s` to the shape `t` of the same rank. -/
def broadcasts (s t : List Nat) : Bool := s.length == t.length && (List.zipWith (fun a b => a == b || a == 1) s t).all id

/-- `apply_fn` of `_GlobalPool` with the argument `mask`, linear.py:1766-1771, requirements.py:1118-1157: a sum does not read the mask; a mean is the sum of
*all* entries, divided by the number of those that are not masked, at least 1. -/
noncomputable def globalApply (d : GlobalPool) (x : Arr ℝ) (mask : Option (Arr Bool)) : Except Err (Arr ℝ) :=
  match d.type, mask with
  | .avg, some m =>
    if !broadcasts m.shape x.shape then .error .valueError
    else
      let ba := (d.batchAxis % (x.ndim : Int)).toNat
      let ca := (d.channelAxis % (x.ndim : Int)).toNat
      let S := gather ((List.range x.ndim).filter fun i => !([ba, ca].contains i)) x.shape
      let bf := decide (ba < ca)
      let at' := fun (i p : List Nat) => actIdx ba ca (i.getD (if bf then 0 else 1) 0) (i.getD (if bf then 1 else 0) 0) p
      .ok ⟨if bf then [x.shape.getD ba 0, x.shape.getD ca 0] else [x.shape.getD ca 0, x.shape.getD ba 0],
        fun i => (sumOver S fun p => x.get (at' i p)) /
          (max (S.prod - sumOver S fun p => if m.get (bcastIdx m.shape (at' i p)) then 1 else 0) 1 : ℕ)⟩
  | _, _ => .ok (d.apply x)

/-- Layers with their parameters. -/
inductive ALayer where
  | dense (d : Dense) (W : Arr ℝ) (b : Option (Arr ℝ))
  | conv (d : Conv) (W : Arr ℝ) (b : Option (Arr ℝ))
  | pool (d : Pool)
  | act (φ : ℝ → ℝ)
  | dropout (d : Dropout) (keep : List Nat → Bool)
  | identity
  | globalPool (d : GlobalPool)
  | layerNorm (axis : List Int) (eps : ℝ)

/-- The mask function of the layer is that of `MLayer.maskFn`; it does not depend on the nonlinearity.
`LayerNorm` has none (linear.py:2585), as `Identity`. -/
def ALayer.mlayer : ALayer → MLayer
  | .dense d _ _ => .dense d
  | .conv d _ _ => .conv d
  | .pool d => .pool d
  | .act _ => .act (fun k => .ok k) false
  | .dropout d _ => .dropout d
  | .identity => .identity
  | .globalPool d => .globalPool d
  | .layerNorm _ _ => .identity

/-- `apply_fn(params, inputs, mask=mask)`: linear.py:880-897 (`Dense`), 1286-1319 (`_Conv`), 1593-1627 (`_Pool`), 2610 (`Dropout`), 114 (`Identity`),
1766-1771 (`_GlobalPool`), 2507-2511 (`LayerNorm`), elementwise.py:1256-1258 (nonlinearities).  Only global pooling and
`LayerNorm` read the mask. -/
noncomputable def ALayer.apply : ALayer → Arr ℝ → Option (Arr Bool) → Except Err (Arr ℝ)
  | .dense d W b, x, _ => d.apply W b x
  | .conv d W b, x, _ => d.apply W b x
  | .pool d, x, _ => .ok (d.apply x)
  | .act φ, x, _ => .ok (x.map φ)
  | .dropout d keep, x, _ => .ok (d.apply keep x)
  | .identity, x, _ => .ok x
  | .globalPool d, x, m => globalApply d x m
  | .layerNorm axis eps, x, m => layerNormApply axis eps x m

/-- `apply_fn_with_masking`, requirements.py:203-226, for a single input. -/
noncomputable def ALayer.applyWithMasking (l : ALayer) (maskConstant : Option ℝ) (inputs : Arg) : Except Err Arg := do
  let x := getMaskedArray maskConstant inputs
  let outputs ← l.apply x.value x.mask
  let outputsMask ← onMask l.mlayer.maskFn x.mask
  return match outputsMask with
    | none => .array outputs
    | some m => .masked ⟨outputs, m⟩

/-- `apply_fn` of `serial` (combinators.py:40-68), which passes `mask_constant` to every layer. -/
noncomputable def applyAll (maskConstant : Option ℝ) : List ALayer → Arg → Except Err Arg
  | [], x => .ok x
  | l :: ls, x => do applyAll maskConstant ls (← l.applyWithMasking maskConstant x)

/-- `unmask_fn`, requirements.py:256-297. -/
noncomputable def unmask : Arg → Arr ℝ
  | .array x => x
  | .masked x => Kernel.maskArr x.value x.mask

end NT.Masked
