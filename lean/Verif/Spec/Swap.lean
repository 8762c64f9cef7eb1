import Verif.Spec.Dual
import Verif.Spec.Semantics

/-!
# Swapping the two inputs of a kernel
-/

namespace NT.Spec
open NT NT.Network NT.Arr

/-- Covariances between `x2` and `x1` from those between `x1` and `x2`. -/
def swap2 (F : List ℕ → List ℕ → List ℕ → ℝ) (b p q : List ℕ) : ℝ := F [b.getD 1 0, b.getD 0 0] q p

/-- The content of the kernel of `(x2, x1)`, from that of `(x1, x2)`. -/
def _root_.NT.Logical.swap (L : Logical ℝ) : Logical ℝ where
  n1 := L.n2
  n2 := L.n1
  S1 := L.S2
  S2 := L.S1
  k12 := swap2 L.k12
  k11 := L.second
  k22 := L.k22.map fun _ => L.k11
  ntk := L.ntk.map swap2

/-- `a'` is `a` with the two batch axes transposed and the two axes of each pair of spatial axes swapped. -/
structure SwappedArr (ds rev : Bool) (a a' : Arr ℝ) : Prop where
  shapes : ∃ n1 n2 S1 S2, S1.length = S2.length ∧ a.shape = n1 :: n2 :: pos ds rev S1 S2 ∧ a'.shape = n2 :: n1 :: pos ds rev S2 S1 ∧
    ∀ i j p q, i < n1 → j < n2 → InRange p S1 → InRange q S2 → (ds = true → p = q) →
      a'.get (j :: i :: pos ds rev q p) = a.get (i :: j :: pos ds rev p q)

/-- `k'` is `k` with the two inputs swapped: batch axes transposed, paired spatial axes swapped, covariances of the inputs and shapes
exchanged. If `k` has no covariance of the second inputs (they are the first), then neither has `k'`. A tangent kernel may also be the number 0. -/
structure Swapped (k k' : Kernel ℝ) : Prop where
  nngp : SwappedArr k.diagonalSpatial k.isReversed k.nngp k'.nngp
  ntk : OptRel (fun a a' => ((a.shape = [] ∨ a'.shape = []) ∧ (∀ i, InRange i a.shape → a.get i = 0) ∧ ∀ i, InRange i a'.shape → a'.get i = 0) ∨
    SwappedArr k.diagonalSpatial k.isReversed a a') k.ntk k'.ntk
  cov1 : k'.cov1 ≋ k.cov2.getD k.cov1
  cov2 : OptRel (· ≋ ·) k'.cov2 (k.cov2.map fun _ => k.cov1)
  static : k'.static = { k.static with shape1 := k.shape2, shape2 := k.shape1 }

/-- The state of the kernels of `(x2, x1)`. -/
def State.swap (s : State) : State where
  L := s.L.swap
  info := { s.info with shape1 := s.info.shape2, shape2 := s.info.shape1 }
  same := s.same
  full := s.full

end NT.Spec
