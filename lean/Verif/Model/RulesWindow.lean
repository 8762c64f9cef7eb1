import Verif.Model.RulesConv

/-!
# The rule of `reduce_window_sum`

`neural_tangents/_src/utils/rules.py`, lines 891-913, the default Jacobian of empirical.py:2225-2244, and the documented meaning of `lax.reduce_window_sum`
(JAX, not part of `/repo`).
-/

namespace NT.Rules
open NT Arr
variable {α : Type}

/-- The parameters of `reduce_window_sum`, by axis. -/
structure WindowParams where
  window : List ℕ
  strides : List ℕ
  padding : List (ℤ × ℤ)
  baseDilation : List ℕ
  windowDilation : List ℕ

namespace WindowParams

/-- The position, in the padded and dilated operand, that the offset `q` of the window at the output position `y` reads, counted from the first entry. -/
def pos (p : WindowParams) (a y q : ℕ) : ℤ := y * p.strides.getD a 0 + q * p.windowDilation.getD a 0 - (p.padding.getD a (0, 0)).1

/-- The size of the output along the axis `a`, of size `n`. -/
def outSize (p : WindowParams) (a n : ℕ) : ℕ :=
  let padded : ℤ := ConvParams.dilate n (p.baseDilation.getD a 0) + (p.padding.getD a (0, 0)).1 + (p.padding.getD a (0, 0)).2
  let window : ℤ := ConvParams.dilate (p.window.getD a 0) (p.windowDilation.getD a 0)
  if padded < window then 0 else ((padded - window) / p.strides.getD a 0 + 1).toNat

/-- The shape of the output. -/
def outShape (p : WindowParams) (inp : List ℕ) : List ℕ := inp.mapIdx fun a n => p.outSize a n

/-- The checks of `lax.reduce_window_sum`: a parameter for each axis, and positive sizes, strides and dilations. -/
def Valid (p : WindowParams) (inp : List ℕ) : Prop :=
  (p.window.length = inp.length ∧ p.strides.length = inp.length ∧ p.padding.length = inp.length ∧ p.baseDilation.length = inp.length ∧
    p.windowDilation.length = inp.length) ∧
  (∀ s ∈ p.window, 0 < s) ∧ (∀ s ∈ p.strides, 0 < s) ∧ (∀ s ∈ p.baseDilation, 0 < s) ∧ ∀ s ∈ p.windowDilation, 0 < s

instance (p : WindowParams) (inp : List ℕ) : Decidable (p.Valid inp) := by unfold Valid; infer_instance

/-- `lax.reduce_window_sum(x, ...)`. -/
def sum [Zero α] [Add α] (p : WindowParams) (x : Arr α) : Except Err (Arr α) :=
  if p.Valid x.shape then
    .ok ⟨p.outShape x.shape, fun o => sumOver p.window fun q =>
      let pos := fun a => p.pos a (o.getD a 0) (q.getD a 0)
      if ∀ a, a < x.ndim → 0 ≤ pos a ∧ pos a % p.baseDilation.getD a 0 = 0 ∧ pos a / p.baseDilation.getD a 0 < (x.shape.getD a 0 : ℕ) then
        x.get ((List.range x.ndim).map fun a => (pos a / p.baseDilation.getD a 0).toNat)
      else 0⟩
  else .error .typeError

end WindowParams

/-- `_reduce_window_sum_s`, rules.py:891-911. -/
def windowS (idx : ℕ) (p : WindowParams) (out : List ℕ) : Structure :=
  let trace := (List.range out.length).filter fun a => p.baseDilation.getD a 0 = 1 ∧ p.padding.getD a (0, 0) = (0, 0) ∧ p.windowDilation.getD a 0 = 1 ∧
    p.window.getD a 0 = 1 ∧ p.strides.getD a 0 = 1
  { outTrace := trace, inTrace := trace, inTraceIdxs := [idx] }

/-- The default Jacobian of a linear primitive `f`, in forward mode, empirical.py:2225-2249: `f` on the standard basis, and an assertion on the shape.
(Reverse mode gives the same by transposition.) -/
def vanillaJ [Zero α] [One α] (f : Arr α → Except Err (Arr α)) (inp : List ℕ) (_ : Arr α) (out : List ℕ) : Except Err (Arr α) := do
  let y ← f ⟨inp, fun _ => 0⟩
  if y.shape = out then
    .ok ⟨out ++ inp, fun k => match f ⟨inp, fun i => if i = k.drop out.length then 1 else 0⟩ with
      | .ok y => y.get (k.take out.length)
      | .error _ => 0⟩
  else .error .assertion

end NT.Rules
