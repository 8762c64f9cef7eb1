import Verif.Spec.Layout
import Verif.Spec.GaussPair

/-!
# The kernel after an elementwise function of Gaussian outputs

If the outputs of a network are jointly Gaussian with mean zero and the covariances in `L`, then after the elementwise
function `φ` the covariance of two outputs is `E[φ(u) φ(v)]` for the Gaussian pair `(u, v)` with these covariances, and
the tangent kernel is multiplied by `E[φ'(u) φ'(v)]`.
-/

namespace NT
open MeasureTheory
variable {α : Type}

/-- The covariance of the second inputs: that of the first if there are none. -/
def Logical.second (L : Logical α) : List ℕ → List ℕ → List ℕ → α := L.k22.getD L.k11

/-- Without second inputs, they are the first ones. -/
def Logical.Closed (L : Logical α) : Prop := L.k22 = none → L.n2 = L.n1 ∧ L.S2 = L.S1

/-- The variances in `L` satisfy `C`. -/
structure Logical.Vars (L : Logical ℝ) (C : ℝ → Prop) : Prop where
  one : ∀ i p, i < L.n1 → InRange p L.S1 → C (L.k11 [i, i] p p)
  two : ∀ F, L.k22 = some F → ∀ i p, i < L.n2 → InRange p L.S2 → C (F [i, i] p p)

namespace Spec

/-- `L'` is the kernel `L` after the elementwise function `φ` with derivative `dφ`. -/
structure DualOf (φ dφ : ℝ → ℝ) (L L' : Logical ℝ) : Prop where
  dims : (L'.n1, L'.n2, L'.S1, L'.S2) = (L.n1, L.n2, L.S1, L.S2)
  k12 : ∀ i j p q, i < L.n1 → j < L.n2 → InRange p L.S1 → InRange q L.S2 → ∀ P,
    GaussPair P (L.k11 [i, i] p p) (L.k12 [i, j] p q) (L.second [j, j] q q) →
    L'.k12 [i, j] p q = ∫ x, φ x.1 * φ x.2 ∂P
  k11 : ∀ i j p q, i < L.n1 → j < L.n1 → InRange p L.S1 → InRange q L.S1 → ∀ P,
    GaussPair P (L.k11 [i, i] p p) (L.k11 [i, j] p q) (L.k11 [j, j] q q) →
    L'.k11 [i, j] p q = ∫ x, φ x.1 * φ x.2 ∂P
  k22 : OptRel (fun F' F => ∀ i j p q, i < L.n2 → j < L.n2 → InRange p L.S2 → InRange q L.S2 → ∀ P,
    GaussPair P (F [i, i] p p) (F [i, j] p q) (F [j, j] q q) → F' [i, j] p q = ∫ x, φ x.1 * φ x.2 ∂P) L'.k22 L.k22
  ntk : OptRel (fun F' F => ∀ i j p q, i < L.n1 → j < L.n2 → InRange p L.S1 → InRange q L.S2 → ∀ P,
    GaussPair P (L.k11 [i, i] p p) (L.k12 [i, j] p q) (L.second [j, j] q q) →
    F' [i, j] p q = F [i, j] p q * ∫ x, dφ x.1 * dφ x.2 ∂P) L'.ntk L.ntk

end Spec
end NT
