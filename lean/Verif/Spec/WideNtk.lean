import Verif.Spec.Wide

/-!
# What is fixed when the widths of a network with tangent kernel vary
-/

namespace NT.Spec
open NT

/-- A stage with the derivative of its nonlinearity and its parameterization: `scale = none` for `parameterization='ntk'`, and `scale = some N` for
`parameterization='standard'` where `N` is the number of input channels divided by the scale `s[0]` of the input channels. -/
structure NtkStage extends Stage where
  scale : Option ℝ
  deriv : ℝ → ℝ

/-- The layer, on inputs of `c` channels, has the given parameterization. -/
def ParamIs (c : ℕ) (d : Dense) : Option ℝ → Prop
  | none => d.param = .ntk
  | some N => d.param = .standard ∧ (c : ℝ) / d.s.1 = N

/-- The layers, on inputs of `c` channels, have the given parameterizations. -/
def Scaled : ℕ → List (Dense × Option Act) → List (Option ℝ) → Prop
  | c, d :: ds, g :: gs => ParamIs c d.1 g ∧ Scaled d.1.width ds gs
  | _, [], [] => True
  | _, _, _ => False

end NT.Spec
