import Verif.Spec.Window
import Verif.Model.ConvTranspose

/-!
# Transposed convolutions along one or several axes

Input position `i` meets filter entry `f` at output position `i * s + shift - f`, where `s` is the stride.  Outputs
outside the axis are dropped or, for circular padding, taken modulo its size.
-/

namespace NT.Spec

/-- The number of output positions along an axis of size `n`. -/
def upDim (pad : Padding) (n w s : ℕ) : ℕ :=
  match pad with
  | .valid => n * s + (w - s)
  | _ => n * s

/-- The output position of input position 0 and filter entry 0. -/
def upShift (pad : Padding) (w s : ℕ) : ℕ :=
  match pad with
  | .valid => w - 1
  | _ => w - 1 - (w - s) / 2

/-- The input position that meets filter entry `f` at output position `o`. -/
def upPos (pad : Padding) (n : ℕ) (v : ℕ × ℕ) (o f : ℕ) : Option ℕ :=
  let z : ℤ := o + f - upShift pad v.1 v.2
  let z := if pad = .circular then z % (n * v.2 : ℕ) else z
  if 0 ≤ z ∧ z < (n * v.2 : ℕ) ∧ (v.2 : ℤ) ∣ z then some (z / v.2).toNat else none

/-- `upDim` for all axes; `ws` lists filter size and stride of each axis. -/
def upDims (pad : Padding) (S : List ℕ) (ws : List (ℕ × ℕ)) : List ℕ :=
  List.zipWith (fun n v => upDim pad n v.1 v.2) S ws

/-- `upPos` for all axes. -/
def upIdx (pad : Padding) : List ℕ → List (ℕ × ℕ) → List ℕ → List ℕ → Option (List ℕ) := alongAxes (upPos pad)

-- filter 3, stride 2 on 3 positions
example : upDim .same 3 3 2 = 6 ∧ upPos .same 3 (3, 2) 0 2 = some 0 ∧ upPos .same 3 (3, 2) 0 0 = none ∧
    upPos .circular 3 (3, 2) 0 0 = some 2 ∧ upDim .valid 3 3 2 = 7 ∧ upPos .valid 3 (3, 2) 6 0 = some 2 := by
  decide

end NT.Spec
