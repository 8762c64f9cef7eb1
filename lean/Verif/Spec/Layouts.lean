import Verif.Spec.Semantics

/-!
# The same kernel with and without the covariances between examples of one input
-/

namespace NT.Spec
open NT NT.Network NT.Arr

/-- The state of a kernel that stores the covariances of one input for all pairs of its examples, or only of each example with itself. -/
def State.withBatch (db : Bool) (s : State) : State := { s with info := { s.info with diagonalBatch := db } }

/-- `a'` is the diagonal of `a` over its first two axes. -/
def BatchDiagonal (a a' : Arr ℝ) : Prop :=
  ∃ n P, a.shape = n :: n :: P ∧ a'.shape = n :: P ∧ ∀ i t, i < n → InRange t P → a'.get (i :: t) = a.get (i :: i :: t)

/-- `k` stores the covariances of each input for all pairs of examples, `k'` only those of each example with itself; everything else is the same. A tangent
kernel may also be the number 0. -/
structure SameUpToBatch (k k' : Kernel ℝ) : Prop where
  nngp : k'.nngp ≋ k.nngp
  ntk : OptRel (fun a a' => ((a.shape = [] ∨ a'.shape = []) ∧ (∀ i, InRange i a.shape → a.get i = 0) ∧ ∀ i, InRange i a'.shape → a'.get i = 0) ∨ a' ≋ a)
    k.ntk k'.ntk
  cov1 : BatchDiagonal k.cov1 k'.cov1
  cov2 : OptRel BatchDiagonal k.cov2 k'.cov2
  diagonalBatch : k.diagonalBatch = false
  static : k'.static = { k.static with diagonalBatch := true }
  same : k'.x1IsX2 ≋ k.x1IsX2
  mask1 : k'.mask1 = k.mask1
  mask2 : k'.mask2 = k.mask2

/-- The state of a kernel that stores only the covariances of equal positions. -/
def State.diagonal (s : State) : State := { s with info := { s.info with diagonalSpatial := true, isReversed := false } }

/-- `a'` is the diagonal of `a` over the pairs of spatial axes, which in `a` are in reversed order if `rev`. -/
def SpatialDiagonal (rev : Bool) (a a' : Arr ℝ) : Prop :=
  ∃ B S, a.shape = B ++ pos false rev S S ∧ a'.shape = B ++ S ∧ ∀ b p, InRange b B → InRange p S → a'.get (b ++ p) = a.get (b ++ pos false rev p p)

/-- The array is 0 everywhere. -/
def IsZero (a : Arr ℝ) : Prop := ∀ i, InRange i a.shape → a.get i = 0

/-- `k` stores the covariances of all pairs of positions, `k'` only those of equal positions; everything else is the same. A tangent kernel may also be the
number 0. -/
structure SameUpToSpatial (k k' : Kernel ℝ) : Prop where
  nngp : SpatialDiagonal k.isReversed k.nngp k'.nngp
  ntk : OptRel (fun a a' => ((a.shape = [] ∨ a'.shape = []) ∧ IsZero a ∧ IsZero a') ∨
    SpatialDiagonal k.isReversed a a') k.ntk k'.ntk
  cov1 : SpatialDiagonal k.isReversed k.cov1 k'.cov1
  cov2 : OptRel (SpatialDiagonal k.isReversed) k.cov2 k'.cov2
  diagonalSpatial : k.diagonalSpatial = false
  static : k'.static = { k.static with diagonalSpatial := true, isReversed := false }
  same : k'.x1IsX2 ≋ k.x1IsX2
  mask1 : k'.mask1 = k.mask1
  mask2 : k'.mask2 = k.mask2

/-- The two kernels are equal. A tangent kernel may also be the number 0. -/
structure SameContent (k k' : Kernel ℝ) : Prop where
  nngp : k'.nngp ≋ k.nngp
  ntk : OptRel (fun a a' => ((a.shape = [] ∨ a'.shape = []) ∧ IsZero a ∧ IsZero a') ∨ a' ≋ a) k.ntk k'.ntk
  cov1 : k'.cov1 ≋ k.cov1
  cov2 : OptRel (fun a a' => a' ≋ a) k.cov2 k'.cov2
  static : k'.static = k.static
  same : k'.x1IsX2 ≋ k.x1IsX2
  mask1 : k'.mask1 = k.mask1
  mask2 : k'.mask2 = k.mask2

/-- The layers that combine covariances of equal positions into covariances of equal positions.  linear.py:899-901, 1321-1324; elementwise.py:1262 -/
def _root_.NT.Network.Layer.Local : Layer → Prop
  | .dense _ => True
  | .conv _ => True
  | .convTranspose _ => True
  | .dropout _ => True
  | .layerNorm _ _ _ _ => True
  | .act _ => True
  | .identity => True
  | .index _ => True
  | _ => False

/-- All layers of the network are of this kind. -/
inductive Local : Net → Prop
  | layer {l : Layer} {out : List ℕ → List ℕ} : l.Local → Local (.layer l out)
  | fanOut {n : ℕ} : Local (.fanOut n)
  | fanIn {f : Fan} {out : List (List ℕ) → List ℕ} : Local (.fanIn f out)
  | seq {a b : Net} : Local a → Local b → Local (.seq a b)
  | par {n : ℕ} {branches : Fin n → Net} : (∀ i, Local (branches i)) → Local (.par n branches)

end NT.Spec
