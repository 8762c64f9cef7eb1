import Verif.Model.Dot
import Verif.Model.Kernel
import Mathlib.Data.Real.Basic
import Mathlib.Data.Int.Cast.Lemmas

/-!
# Sliding windows: padding, `lax.reduce_window`, circular padding
-/

namespace NT
open Arr

/-- `Padding`, `neural_tangents/_src/stax/linear.py:54-69`. -/
inductive Padding
  | circular
  | same
  | valid
  deriving DecidableEq

/-- `lax.padtype_to_pads` for one axis of size `n` with `'SAME'`, window `w`, stride `s`: the output size is
`ceil(n / s)` and `max(0, (out - 1) * s + w - n)` zeros are added, half of them (rounded down) in front.
(JAX primitive, not in /repo.) -/
def samePads (n w s : Nat) : Nat × Nat :=
  let out := (n + s - 1) / s
  let total := out * s + w - (n + s)
  (total / 2, total - total / 2)

/-- `lax.padtype_to_pads` for one axis.  `CIRCULAR` is never passed to it. -/
def padsOf (pad : Padding) (n w s : Nat) : Nat × Nat :=
  match pad with
  | .same => samePads n w s
  | _ => (0, 0)

/-- The output size of a sliding window over one padded axis (JAX primitive). -/
def windowOut (m w s : Nat) : Nat := if m < w then 0 else (m - w) / s + 1

/-- The position read by offset `f` of the window at output position `o`, if it is not in the padding. -/
def tap1 (n lo s o f : Nat) : Option Nat :=
  if lo ≤ o * s + f ∧ o * s + f < lo + n then some (o * s + f - lo) else none

/-- The shape of the output of `lax.reduce_window`; `ws` lists the window size and stride of each axis. -/
def windowShape (pad : Padding) : List Nat → List (Nat × Nat) → List Nat
  | n :: S, (w, s) :: ws =>
    windowOut ((padsOf pad n w s).1 + n + (padsOf pad n w s).2) w s :: windowShape pad S ws
  | _, _ => []

/-- The multi-index read by offset `f` of the window at `o`. -/
def tapIdx (pad : Padding) : List Nat → List (Nat × Nat) → List Nat → List Nat → Option (List Nat)
  | n :: S, (w, s) :: ws, o :: os, f :: fs =>
    match tap1 n (padsOf pad n w s).1 s o f, tapIdx pad S ws os fs with
    | some p, some r => some (p :: r)
    | _, _ => none
  | [], [], [], [] => some []
  | _, _, _, _ => none

/-- The value read, 0 in the padding. -/
def readTap (g : List Nat → ℝ) : Option (List Nat) → ℝ
  | some p => g p
  | none => 0

/-- `lax.reduce_window(x, 0, lax.add, window, strides, padding)` (JAX primitive, not in /repo). -/
noncomputable def reduceWindow (x : Arr ℝ) (ws : List (Nat × Nat)) (pad : Padding) : Arr ℝ :=
  ⟨windowShape pad x.shape ws, fun o =>
    sumOver (ws.map Prod.fst) fun f => readTap x.get (tapIdx pad x.shape ws o f)⟩

/-- Index in an array of size `n` of entry `k` of the array padded periodically with `lo` entries in front. -/
def wrap1 (n lo k : Nat) : Nat := (((k : Int) - lo) % n).toNat

/-- `_same_pad_for_filter_shape`, linear.py:2974-3019, with mode `'wrap'`: `jnp.pad` with the pads of `'SAME'`.
Simplified: `ws` lists window and stride for each axis of `x`; the axes that are not in `axes` have window
and stride 1, for which the pads are zero. -/
def samePadWrap {α : Type} (x : Arr α) (ws : List (Nat × Nat)) : Arr α :=
  ⟨List.zipWith (fun n v => (samePads n v.1 v.2).1 + n + (samePads n v.1 v.2).2) x.shape ws,
   fun i => x.get (List.zipWith (fun nv k => wrap1 nv.1 (samePads nv.1 nv.2.1 nv.2.2).1 k) (x.shape.zip ws) i)⟩

/-- `pads` of `_same_pad_for_filter_shape`, linear.py:3012-3017: the pads of `'SAME'` at `axes`, none elsewhere. -/
def axisPads (shape filter strides axes : List Nat) : List (Nat × Nat) :=
  (axes.zip (filter.zip strides)).foldl (fun l v => l.set v.1 (samePads (shape.getD v.1 0) v.2.1 v.2.2))
    (List.replicate shape.length (0, 0))

/-- `_same_pad_for_filter_shape`, linear.py:2974-3019, with mode `'wrap'`: `jnp.pad(x, pads, 'wrap')`. -/
def samePadFor {α : Type} (x : Arr α) (filter strides axes : List Nat) : Arr α :=
  let pads := axisPads x.shape filter strides axes
  ⟨List.zipWith (fun n v => v.1 + n + v.2) x.shape pads,
   fun i => x.get (List.zipWith (fun nv k => wrap1 nv.1 nv.2.1 k) (x.shape.zip pads) i)⟩

end NT
