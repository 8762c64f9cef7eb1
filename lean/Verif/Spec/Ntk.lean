import Verif.Model.EmpiricalNtk
import Verif.Spec.Reduce

/-!
# The empirical neural tangent kernel
-/

namespace NT.Spec

open NT.Emp

variable {L : ℕ} {P : Fin L → List ℕ}

/-- `⟨∇ f1_i, ∇ f2_j⟩`, the inner product over all parameters of the gradients of two entries of the outputs. -/
noncomputable def tangentAt (f1 f2 : Params P → Arr ℝ) (θ : Params P) (i j : List ℕ) : ℝ :=
  inner ℝ (gradient (fun θ => (f1 θ).get i) θ) (gradient (fun θ => (f2 θ).get j) θ)

end NT.Spec
