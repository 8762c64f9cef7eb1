import Verif.Spec.Semantics

/-!
# Kernels of a batch with itself: `x2=None` and `x2=x1`
-/

namespace NT.Spec
open NT NT.Network NT.Arr

/-- The content of `kernel_fn(x1, x1)`, from that of `kernel_fn(x1, None)`: the covariances of the second inputs are present. -/
def _root_.NT.Logical.explicit (L : Logical ℝ) : Logical ℝ := { L with k22 := some L.second }

/-- The state with the covariances of the second inputs. -/
def State.explicit (s : State) : State := { s with L := s.L.explicit }

/-- `k'` holds the same as `k`, and has a covariance of the second inputs, that of the first; `k` has none.  A tangent kernel may also be the number 0. -/
structure Completed (k k' : Kernel ℝ) : Prop where
  nngp : k'.nngp ≋ k.nngp
  ntk : OptRel (fun a a' => ((a.shape = [] ∨ a'.shape = []) ∧ (∀ i, InRange i a.shape → a.get i = 0) ∧ ∀ i, InRange i a'.shape → a'.get i = 0) ∨ a' ≋ a)
    k.ntk k'.ntk
  cov1 : k'.cov1 ≋ k.cov1
  cov2 : ∃ c, k'.cov2 = some c ∧ c ≋ k.cov1
  none : k.cov2 = none
  static : k'.static = k.static
  same : k'.x1IsX2 ≋ k.x1IsX2
  mask1 : k'.mask1 = k.mask1
  mask2 : k'.mask2 = k.mask2

end NT.Spec
