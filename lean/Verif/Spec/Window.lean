import Verif.Spec.Box
import Verif.Model.Window

/-!
# Sliding windows over one or several axes

The window at output position `o` covers the `w` positions from `o * s - lo` on, where `s` is the stride.
`lo` is 0 without padding; with padding the output has `ceil (n / s)` positions, `lo` is half (rounded
down) of the number of positions by which the windows exceed the axis.  Positions outside the axis are
zero (`none`) or, for circular padding, taken modulo `n`.
-/

namespace NT.Spec

/-- The number of output positions along an axis of size `n`. -/
def outDim (pad : Padding) (n w s : ℕ) : ℕ :=
  match pad with
  | .valid => if w ≤ n then (n - w) / s + 1 else 0
  | _ => (n + s - 1) / s

/-- By how much the first window starts before the axis. -/
def leftPad (pad : Padding) (n w s : ℕ) : ℤ :=
  match pad with
  | .valid => 0
  | _ => max 0 (((outDim pad n w s : ℤ) - 1) * s + w - n) / 2

/-- The position that entry `f` of the window at `o` reads. -/
def readPos (pad : Padding) (n w s o f : ℕ) : Option ℕ :=
  let z : ℤ := o * s + f - leftPad pad n w s
  match pad with
  | .circular => some (z % n).toNat
  | _ => if 0 ≤ z ∧ z < n then some z.toNat else none

/-- `outDim` for all axes; `ws` lists window size and stride of each axis. -/
def outDims (pad : Padding) : List ℕ → List (ℕ × ℕ) → List ℕ
  | n :: S, (w, s) :: ws => outDim pad n w s :: outDims pad S ws
  | _, _ => []

/-- `readPos` for all axes. -/
def readIdx (pad : Padding) : List ℕ → List (ℕ × ℕ) → List ℕ → List ℕ → Option (List ℕ)
  | n :: S, (w, s) :: ws, o :: os, f :: fs =>
    match readPos pad n w s o f, readIdx pad S ws os fs with
    | some p, some r => some (p :: r)
    | _, _ => none
  | [], [], [], [] => some []
  | _, _, _, _ => none

/-- All offsets within a window. -/
def offsets (ws : List (ℕ × ℕ)) : Finset (List ℕ) := box (ws.map Prod.fst)

/-- The value of `F` at a pair of positions read, 0 if one is outside. -/
def read2 (F : List ℕ → List ℕ → ℝ) : Option (List ℕ) → Option (List ℕ) → ℝ
  | some p, some q => F p q
  | _, _ => 0

-- window 3, stride 2 on 5 positions: outputs at 0, 2, 4
example : outDim .same 5 3 2 = 3 ∧ readPos .same 5 3 2 0 0 = none ∧ readPos .same 5 3 2 1 0 = some 1 ∧
    readPos .circular 5 3 2 0 0 = some 4 ∧ outDim .valid 5 3 2 = 2 ∧ readPos .valid 5 3 2 1 2 = some 4 := by
  decide

end NT.Spec
