import Verif.Model.Dot
import Verif.Spec.JoinIdx
import Mathlib.Algebra.Field.Defs

/-!
# Kernels with traced and diagonal axes

A kernel between two outputs of rank `n` has an entry `K i j` for every pair of multi-indices.  The
documented layout of empirical kernels (empirical.py:335-341) drops the traced axes, keeps diagonal axes
once and has all other axes twice, side by side.
-/

namespace NT.Spec

open NT.Arr

/-- The coordinates of the entry of the kernel for the multi-indices `i` and `j`. -/
def pairIdx (n : ℕ) (T D : List ℕ) (i j : List ℕ) : List ℕ :=
  (List.range n).flatMap fun a =>
    if a ∈ T then [] else if a ∈ D then [i.getD a 0] else [i.getD a 0, j.getD a 0]

example : pairIdx 4 [2] [1] [10, 11, 12, 13] [20, 11, 22, 23] = [10, 20, 11, 13, 23] := by decide

/-- The multi-index `i` with the coordinates of the axes `T` replaced by `t`. -/
def putAt (T t i : List ℕ) : List ℕ :=
  (List.range i.length).map fun a => if a ∈ T then t.getD (T.idxOf a) 0 else i.getD a 0

example : putAt [3, 1] [7, 8] [10, 11, 12, 13] = [10, 8, 12, 7] := by decide

/-- `T` lists, in increasing order, the axes of an array of rank `n` named by `raw`, where `-1` is the last axis,
`-2` the one before and so on. -/
structure IsAxes (n : ℕ) (raw : List ℤ) (T : List ℕ) : Prop where
  increasing : T.Pairwise (· < ·)
  inBounds : ∀ r ∈ raw, -(n : ℤ) ≤ r ∧ r < n
  mem : ∀ a, a ∈ T ↔ a < n ∧ ((a : ℤ) ∈ raw ∨ (a : ℤ) - n ∈ raw)

/-- No axis is named twice. -/
def DistinctAxes (n : ℕ) (raw : List ℤ) : Prop := (raw.map fun r : ℤ => if 0 ≤ r then r else r + n).Nodup

/-- Traced and diagonal axes of an output of rank `n`. -/
structure ReducedAxes (n : ℕ) (trace diagonal : List ℤ) (T D : List ℕ) : Prop where
  trace : IsAxes n trace T
  diagonal : IsAxes n diagonal D
  disjoint : ∀ a ∈ T, a ∉ D

/-- The coordinates of `i` along axes other than `T` are within the shape `S`. -/
def InRangeOff (T i S : List ℕ) : Prop := i.length = S.length ∧ ∀ a < S.length, a ∉ T → i.getD a 0 < S.getD a 0

/-- `out` holds the kernel `K` between outputs of shapes `S1`, `S2`, summed over the coordinates of the
axes `T`, which are shared by the two outputs, and restricted to equal coordinates along `D`. -/
structure Reduced {α : Type} [Zero α] [Add α] (S1 S2 T D : List ℕ) (K : List ℕ → List ℕ → α) (out : Arr α) : Prop where
  shape : out.shape = pairIdx S1.length T D S1 S2
  get : ∀ i j, InRangeOff T i S1 → InRangeOff T j S2 → (∀ a ∈ D, i.getD a 0 = j.getD a 0) →
    out.get (pairIdx S1.length T D i j) = sumOver (sizesAt T S1) fun t => K (putAt T t i) (putAt T t j)

/-- `out` holds the kernel `K` averaged over the coordinates of the axes `T`, which are shared by the two outputs, and restricted to
equal coordinates along `D`. -/
structure ReducedMean {α : Type} [Field α] (S1 S2 T D : List ℕ) (K : List ℕ → List ℕ → α) (out : Arr α) : Prop where
  shape : out.shape = pairIdx S1.length T D S1 S2
  get : ∀ i j, InRangeOff T i S1 → InRangeOff T j S2 → (∀ a ∈ D, i.getD a 0 = j.getD a 0) →
    out.get (pairIdx S1.length T D i j) =
      (sumOver (sizesAt T S1) fun t => K (putAt T t i) (putAt T t j)) / ((sizesAt T S1).prod : ℕ)

end NT.Spec
