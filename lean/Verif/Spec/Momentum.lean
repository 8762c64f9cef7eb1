import Verif.Spec.Predict

/-!
# Gradient descent with momentum in function space
-/

namespace NT.Spec
open Matrix

/-- Discrete gradient descent with momentum on the loss `1 / (2 N) ‖f - Y‖²` in function space: velocity `z`, outputs `f`, kernel `K`. -/
structure Descent {ι κ : Type} [Fintype ι] (rate momentum N : ℝ) (K : Matrix ι ι ℝ) (Y : Matrix ι κ ℝ) (f z : ℕ → Matrix ι κ ℝ) : Prop where
  start : z 0 = 0
  velocity : ∀ k, z (k + 1) = momentum • z k + (1 / N) • (K * (f k - Y))
  step : ∀ k, f (k + 1) = f k - rate • z (k + 1)

/-- The component of the error `f - Y` along `v`, in the column `r`. -/
def component {ι κ : Type} [Fintype ι] (v : ι → ℝ) (f Y : Matrix ι κ ℝ) (r : κ) : ℝ := ∑ p, v p * (f p r - Y p r)

/-- `top` returns the largest eigenvalue of a symmetric matrix. -/
def TopEigenvalue (top : Arr ℝ → ℝ) : Prop :=
  ∀ n A, A.shape = [n, n] → (mat n n A).IsSymm → 0 < n → IsGreatest {μ | ∃ v ≠ 0, mat n n A *ᵥ v = μ • v} (top A)

end NT.Spec
