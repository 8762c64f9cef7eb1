import Verif.Spec.Linear
import Verif.Model.EmpiricalNtk

/-!
# The linearization of a network
-/

namespace NT.Spec
open NT NT.Emp NT.Arr

variable {L : ℕ} {P : Fin L → List ℕ}

/-- The entries of a tangent of the parameters. -/
noncomputable def leaves (u : Params P) (l : ℕ) (w : List ℕ) : ℝ :=
  if h : ∃ hl : l < L, w ∈ box (P ⟨l, hl⟩) then u ⟨⟨l, h.1⟩, ⟨w, h.2⟩⟩ else 0

/-- The jaxpr `J` is a linearization of the network `f` at the parameters `θ` (`jax.linearize`, empirical.py:1814): it is well formed, has the leaves of the
parameters as inputs and computes the derivative of `f` at `θ` in each direction. -/
structure Linearizes (J : Jaxpr ℝ) (f : Params P → Arr ℝ) (θ : Params P) : Prop where
  typed : Typed J (f θ).shape
  params : J.params = List.ofFn P
  value : ∀ (u : Params P) (i : List ℕ), InRange i (f θ).shape → outValue J (leaves u) i = fderiv ℝ (fun θ => (f θ).get i) θ u

end NT.Spec
