import Verif.Model.Predict

/-!
# `max_learning_rate`, `neural_tangents/_src/predict.py:1103-1150`
-/

namespace NT.Predict
open NT Arr

/-- `max_learning_rate`, predict.py:1141-1150: `top` is the last value returned by `eigvalsh`; the result `none` stands for the
infinity or NaN of a division by zero. -/
noncomputable def maxLearningRate (top : Arr ℝ → ℝ) (ntk : Arr ℝ) (size : Option ℕ) (momentum eps : ℝ) : Except Err (Option ℝ) := do
  let k ← make2d ntk
  let factor := size.getD (k.shape.getD 0 0)
  if top k + eps = 0 then return none
  else return some (2 * (1 + momentum) * factor / (top k + eps))

end NT.Predict
