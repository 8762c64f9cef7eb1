import Verif.Model.Taylor
import Verif.Tac
import Mathlib.Analysis.Calculus.FDeriv.Add
import Mathlib.Analysis.Calculus.FDeriv.Mul
import Mathlib.LinearAlgebra.AffineSpace.AffineMap
import Mathlib.Analysis.Calculus.Deriv.Pow

/-!
# C70: `linearize` is the first-order Taylor polynomial

`linearize(f, params)(p, x)` is affine in `p`, equals `f` at `p = params`, has the same parameter gradient there, and is exact when `f` is
affine in its parameters.
-/

namespace NT.C70
open NT.Taylor Asymptotics Filter Topology

variable {E F X : Type} [NormedAddCommGroup E] [NormedSpace ℝ E] [NormedAddCommGroup F] [NormedSpace ℝ F]

lemma linearize_eq (f : E → X → F) (w : E) (x : X) (hf : DifferentiableAt ℝ (fun p => f p x) w) (p : E) :
    linearize f w p x = f w x + fderiv ℝ (fun q => f q x) w (p - w) := by
  simp only [linearize, jvp]
  rw [hf.lineDeriv_eq_fderiv]

/-- The linearization is affine in the parameters. -/
theorem affine (f : E → X → F) (w : E) (x : X) (hf : DifferentiableAt ℝ (fun p => f p x) w) :
    ∃ g : E →ᵃ[ℝ] F, ∀ p, linearize f w p x = g p := by
  refine ⟨⟨fun p => f w x + fderiv ℝ (fun q => f q x) w (p - w), (fderiv ℝ (fun q => f q x) w).toLinearMap, fun p v => ?_⟩,
    fun p => linearize_eq f w x hf p⟩
  simp only [vadd_eq_add, ContinuousLinearMap.coe_coe]
  rw [add_sub_assoc, map_add]
  abel

/-- At the expansion point it has the value of the function, for any function. -/
theorem value (f : E → X → F) (w : E) (x : X) : linearize f w w x = f w x := by
  simp [linearize, jvp, lineDeriv]

/-- It has everywhere the derivative that the function has at the expansion point. -/
theorem gradient (f : E → X → F) (w : E) (x : X) (hf : DifferentiableAt ℝ (fun p => f p x) w) (p : E) :
    HasFDerivAt (fun q => linearize f w q x) (fderiv ℝ (fun q => f q x) w) p := by
  have : (fun q => linearize f w q x) = fun q => f w x + fderiv ℝ (fun q => f q x) w (q - w) :=
    funext fun q => linearize_eq f w x hf q
  rw [this]
  have h := ((fderiv ℝ (fun q => f q x) w).hasFDerivAt (x := p - w)).comp p ((hasFDerivAt_id p).sub_const w)
  simpa using h.const_add (f w x)

/-- The error is of higher order than the distance from the expansion point. -/
theorem error_small (f : E → X → F) (w : E) (x : X) (hf : DifferentiableAt ℝ (fun p => f p x) w) :
    (fun p => f p x - linearize f w p x) =o[𝓝 w] fun p => p - w := by
  have h := hf.hasFDerivAt.isLittleO
  refine h.congr_left fun p => ?_
  rw [linearize_eq f w x hf p]
  abel

/-- The linearization of a function that is affine in its parameters is the function. -/
theorem exact_affine (f : E → X → F) (w : E) (x : X) (A : E →L[ℝ] F) (b : F) (hf : ∀ p, f p x = A p + b) (p : E) :
    linearize f w p x = f p x := by
  have e : (fun p => f p x) = fun p => A p + b := funext hf
  have hd : HasFDerivAt (fun p => f p x) A w := by
    rw [e]
    exact A.hasFDerivAt.add_const b
  rw [linearize_eq f w x hd.differentiableAt, hd.fderiv, hf, hf, map_sub]
  abel

/-- No other affine function has the value and the derivative of the function. -/
theorem unique (f : E → X → F) (w : E) (x : X) (hf : DifferentiableAt ℝ (fun p => f p x) w) (A : E →L[ℝ] F) (b : F)
    (hv : A w + b = f w x) (hg : HasFDerivAt (fun p => f p x) A w) (p : E) : A p + b = linearize f w p x := by
  rw [linearize_eq f w x hf, hg.fderiv, ← hv, map_sub]
  abel

/-- Linearizing again, anywhere, changes nothing. -/
theorem idempotent (f : E → X → F) (w v : E) (x : X) (hf : DifferentiableAt ℝ (fun p => f p x) w) (p : E) :
    linearize (linearize f w) v p x = linearize f w p x := by
  refine exact_affine (linearize f w) v x (fderiv ℝ (fun q => f q x) w) (f w x - fderiv ℝ (fun q => f q x) w w) (fun q => ?_) p
  rw [linearize_eq f w x hf, map_sub]
  abel

/-! ### A concrete case: a square of the parameter times the input -/

example : DifferentiableAt ℝ (fun p : ℝ => p ^ 2 * (5 : ℝ)) 3 := by fun_prop

example (p : ℝ) : linearize (fun (p x : ℝ) => p ^ 2 * x) 3 p 5 = 45 + 30 * (p - 3) := by
  rw [linearize_eq _ _ _ (by fun_prop)]
  have : HasDerivAt (fun p : ℝ => p ^ 2 * (5 : ℝ)) ((2 * 3 ^ 1) * 5) 3 := by
    simpa using (hasDerivAt_pow 2 (3 : ℝ)).mul_const 5
  rw [this.hasFDerivAt.fderiv]
  simp
  ring

end NT.C70
