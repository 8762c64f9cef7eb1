import Mathlib.Analysis.Calculus.LineDeriv.Basic
import Verif.Model.Arr

/-!
# `linearize` and `taylor_expand`

`neural_tangents/_src/empirical.py`, lines 161-237.  Trees of arrays of a fixed structure are elements of a normed space: the parameters of
`E`, the outputs of `F`, so that `_sub`, `_add` and `_div` (lines 1566-1577), which act leaf by leaf, are the operations of the space.
`x` stands for the other arguments.
-/

namespace NT.Taylor

variable {E F X : Type} [NormedAddCommGroup E] [NormedSpace ℝ E] [NormedAddCommGroup F] [NormedSpace ℝ F]

/-- `jax.jvp(f, (p,), (v,))`: the value and the directional derivative. -/
noncomputable def jvp (f : E → F) (p v : E) : F × F := (f p, lineDeriv ℝ f p v)

/-- `linearize`, empirical.py:161-190. -/
noncomputable def linearize (f : E → X → F) (params : E) : E → X → F := fun p x =>
  let dparams := p - params
  let r := jvp (fun param => f param x) params dparams
  r.1 + r.2

/-- `taylorize_r`, empirical.py:219-230.  `fuel` is the depth of recursion Python allows; a deeper recursion raises `RecursionError`, a subclass of
`RuntimeError`, here `assertion`. -/
noncomputable def taylorizeR (fuel : ℕ) (f : E → F) (params dparams : E) (degree : ℤ) (currentDegree : ℕ) : Except Err F :=
  match fuel with
  | 0 => .error .assertion
  | fuel + 1 =>
    if (currentDegree : ℤ) = degree then .ok (f params)
    else
      let fJvp := fun p => (jvp f p dparams).2
      match taylorizeR fuel fJvp params dparams degree (currentDegree + 1) with
      | .error e => .error e
      | .ok df => .ok (f params + ((currentDegree + 1 : ℕ) : ℝ)⁻¹ • df)

/-- `taylor_expand`, empirical.py:193-237. -/
noncomputable def taylorExpand (fuel : ℕ) (f : E → X → F) (params : E) (degree : ℤ) : E → X → Except Err F := fun p x =>
  let dparams := p - params
  taylorizeR fuel (fun param => f param x) params dparams degree 0

end NT.Taylor
