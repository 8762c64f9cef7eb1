import Verif.Tac
import Verif.Spec.Predict
import Mathlib.Analysis.SpecialFunctions.ExpDeriv
import Mathlib.Analysis.Calculus.MeanValue
import Mathlib.Analysis.Calculus.Deriv.Pi

/-!
# Functions of a symmetric matrix
-/

namespace NT.Spectral
set_option linter.unusedSectionVars false
open Matrix Spec

variable {ι κ ι' : Type} [Fintype ι] [DecidableEq ι] {n : ℕ}

/-- The matrix with eigenvectors `V` and eigenvalues `f`. -/
def fc (V : Matrix ι (Fin n) ℝ) (f : Fin n → ℝ) : Matrix ι ι ℝ := V * diagonal f * Vᵀ

/-- `V` is orthogonal. -/
structure Orth (V : Matrix ι (Fin n) ℝ) : Prop where
  left : Vᵀ * V = 1
  right : V * Vᵀ = 1

variable {V : Matrix ι (Fin n) ℝ}

lemma fc_mul (h : Orth V) (f g : Fin n → ℝ) : fc V f * fc V g = fc V (fun i => f i * g i) := by
  unfold fc
  rw [← diagonal_mul_diagonal]
  calc V * diagonal f * Vᵀ * (V * diagonal g * Vᵀ) = V * diagonal f * (Vᵀ * V) * diagonal g * Vᵀ := by
        simp only [Matrix.mul_assoc]
    _ = _ := by rw [h.left, Matrix.mul_one, Matrix.mul_assoc V]

lemma fc_one (h : Orth V) : fc V (fun _ => 1) = 1 := by
  unfold fc
  rw [diagonal_one, Matrix.mul_one, h.right]

lemma fc_apply (f : Fin n → ℝ) (p q : ι) : fc V f p q = ∑ i, V p i * f i * V q i := by
  simp [fc, Matrix.mul_apply, diagonal_apply]

lemma fc_zero : fc V (fun _ => 0) = 0 := by
  ext p q
  simp [fc_apply]

lemma fc_sub (f g : Fin n → ℝ) : fc V (fun i => f i - g i) = fc V f - fc V g := by
  ext p q
  simp only [fc_apply, Matrix.sub_apply, ← Finset.sum_sub_distrib]
  exact Finset.sum_congr rfl fun i _ => by ring

lemma fc_smul (c : ℝ) (f : Fin n → ℝ) : fc V (fun i => c * f i) = c • fc V f := by
  ext p q
  simp only [fc_apply, Matrix.smul_apply, smul_eq_mul, Finset.mul_sum]
  exact Finset.sum_congr rfl fun i _ => by ring

lemma fc_transpose (f : Fin n → ℝ) : (fc V f)ᵀ = fc V f := by
  ext p q
  simp only [transpose_apply, fc_apply]
  exact Finset.sum_congr rfl fun i _ => by ring

lemma diag_of_fc (h : Orth V) (lam : Fin n → ℝ) : Vᵀ * fc V lam * V = diagonal lam := by
  unfold fc
  calc Vᵀ * (V * diagonal lam * Vᵀ) * V = (Vᵀ * V) * diagonal lam * (Vᵀ * V) := by simp only [Matrix.mul_assoc]
    _ = _ := by rw [h.left]; simp

lemma eval_nonneg (h : Orth V) {lam : Fin n → ℝ} (hp : (fc V lam).PosSemidef) (i : Fin n) : 0 ≤ lam i := by
  have h1 := hp.conjTranspose_mul_mul_same V
  rw [conjTranspose_eq_transpose_of_trivial, diag_of_fc h] at h1
  exact posSemidef_diagonal_iff.1 h1 i

lemma eval_pos (h : Orth V) {lam : Fin n → ℝ} (hp : (fc V lam).PosDef) (i : Fin n) : 0 < lam i := by
  rcases (eval_nonneg h hp.posSemidef i).lt_or_eq with h0 | h0
  · exact h0
  · exfalso
    have hdet := hp.isUnit
    have hz : fc V lam *ᵥ (fun p => V p i) = 0 := by
      have : fc V lam * V = V * diagonal lam := by
        unfold fc
        rw [Matrix.mul_assoc, h.left, Matrix.mul_one]
      ext p
      have e := congrFun (congrFun this p) i
      rw [mul_apply] at e
      simp only [mulVec, dotProduct, Pi.zero_apply]
      rw [e, mul_diagonal, ← h0, mul_zero]
    have hv : (fun p => V p i) = 0 := by
      have := Matrix.mulVec_injective_of_isUnit hdet
      exact this (by simpa using hz)
    have h1 := congrFun (congrFun h.left i) i
    rw [mul_apply, one_apply_eq] at h1
    simp only [transpose_apply] at h1
    have : ∀ p, V p i = 0 := fun p => congrFun hv p
    simp [this] at h1

/-! ### The flow -/

/-- Closed form of the flow. -/
noncomputable def sol (V : Matrix ι (Fin n) ℝ) (lam : Fin n → ℝ) (c : ℝ) (X Y : Matrix ι κ ℝ) (τ : ℝ) : Matrix ι κ ℝ :=
  X + fc V (fun i => Real.exp (-(lam i) * (c * τ)) - 1) * (X - Y)

lemma sol_eq (h : Orth V) (lam : Fin n → ℝ) (c : ℝ) (X Y : Matrix ι κ ℝ) (τ : ℝ) :
    sol V lam c X Y τ - Y = fc V (fun i => Real.exp (-(lam i) * (c * τ))) * (X - Y) := by
  unfold sol
  rw [fc_sub, fc_one h, Matrix.sub_mul, Matrix.one_mul]
  abel

lemma sol_zero (lam : Fin n → ℝ) (c : ℝ) (X Y : Matrix ι κ ℝ) : sol V lam c X Y 0 = X := by
  unfold sol
  have : (fun i : Fin n => Real.exp (-(lam i) * (c * 0)) - 1) = fun _ => 0 := by funext i; simp
  rw [this, fc_zero]
  simp

lemma hasDerivAt_fc (W : Matrix ι κ ℝ) (A : Matrix ι' ι ℝ) (f f' : ℝ → Fin n → ℝ)
    (hf : ∀ τ i, HasDerivAt (fun τ => f τ i) (f' τ i) τ) (τ : ℝ) (p : ι') (r : κ) :
    HasDerivAt (fun τ => (A * (fc V (f τ) * W)) p r) ((A * (fc V (f' τ) * W)) p r) τ := by
  simp only [mul_apply, fc_apply]
  refine HasDerivAt.fun_sum fun q _ => HasDerivAt.const_mul _ (HasDerivAt.fun_sum fun q' _ => HasDerivAt.mul_const ?_ _)
  refine HasDerivAt.fun_sum fun i _ => ?_
  exact ((hf τ i).const_mul _).mul_const _

lemma sol_flow (h : Orth V) (lam : Fin n → ℝ) (c : ℝ) (X Y : Matrix ι κ ℝ) : Flow c (fc V lam) Y (sol V lam c X Y) := by
  intro τ p r
  rw [sol_eq h]
  have hd := hasDerivAt_fc (V := V) (X - Y) (1 : Matrix ι ι ℝ) (fun τ i => Real.exp (-(lam i) * (c * τ)) - 1)
    (fun τ i => -(c * (lam i * Real.exp (-(lam i) * (c * τ))))) (fun τ i => by
      have h1 : HasDerivAt (fun τ => -(lam i) * (c * τ)) (-(lam i) * (c * 1)) τ :=
        ((hasDerivAt_id τ).const_mul c).const_mul _
      exact (h1.exp.sub_const 1).congr_deriv (by ring)) τ p r
  simp only [Matrix.one_mul] at hd
  have hd2 := hd.const_add (X p r)
  refine hd2.congr_deriv ?_
  rw [← Matrix.mul_assoc, fc_mul h]
  have e : (fun i => -(c * (lam i * Real.exp (-(lam i) * (c * τ))))) = fun i => (-c) * (lam i * Real.exp (-(lam i) * (c * τ))) := by
    funext i; ring
  rw [e, fc_smul, Matrix.smul_mul, Matrix.smul_apply, smul_eq_mul]
  ring

/-- The flow has one solution. -/
lemma flow_unique (h : Orth V) {lam : Fin n → ℝ} {c : ℝ} {Y : Matrix ι κ ℝ} {F : ℝ → Matrix ι κ ℝ} (hF : Flow c (fc V lam) Y F)
    (τ : ℝ) : F τ = sol V lam c (F 0) Y τ := by
  have key : ∀ i r τ, (Vᵀ * (F τ - Y)) i r = Real.exp (-(lam i) * (c * τ)) * (Vᵀ * (F 0 - Y)) i r := by
    intro i r
    have hw : ∀ τ, HasDerivAt (fun τ => (Vᵀ * (F τ - Y)) i r) (-(c * lam i * (Vᵀ * (F τ - Y)) i r)) τ := by
      intro τ
      have h1 : HasDerivAt (fun τ => (Vᵀ * (F τ - Y)) i r) (∑ p, V p i * (-(c * (fc V lam * (F τ - Y)) p r))) τ := by
        simp only [mul_apply, transpose_apply, Matrix.sub_apply]
        refine HasDerivAt.fun_sum fun p _ => HasDerivAt.const_mul _ ?_
        have := (hF τ p r).sub_const (Y p r)
        simp only [mul_apply, Matrix.sub_apply] at this
        exact this
      refine h1.congr_deriv ?_
      have e : Vᵀ * (fc V lam * (F τ - Y)) = diagonal lam * (Vᵀ * (F τ - Y)) := by
        unfold fc
        calc Vᵀ * (V * diagonal lam * Vᵀ * (F τ - Y)) = (Vᵀ * V) * diagonal lam * (Vᵀ * (F τ - Y)) := by
              simp only [Matrix.mul_assoc]
          _ = _ := by rw [h.left, Matrix.one_mul]
      have e2 := congrFun (congrFun e i) r
      rw [diagonal_mul, mul_apply] at e2
      simp only [transpose_apply] at e2
      rw [mul_assoc, ← e2, Finset.mul_sum, ← Finset.sum_neg_distrib]
      exact Finset.sum_congr rfl fun p _ => by ring
    have hconst : ∀ τ, HasDerivAt (fun τ => Real.exp (lam i * (c * τ)) * (Vᵀ * (F τ - Y)) i r) 0 τ := by
      intro τ
      have h1 : HasDerivAt (fun τ => lam i * (c * τ)) (lam i * (c * 1)) τ := ((hasDerivAt_id τ).const_mul c).const_mul _
      exact (h1.exp.mul (hw τ)).congr_deriv (by ring)
    intro τ
    have := is_const_of_deriv_eq_zero (fun x => (hconst x).differentiableAt) (fun x => (hconst x).deriv) τ 0
    simp only [mul_zero, Real.exp_zero, one_mul] at this
    rw [← this, ← mul_assoc, ← Real.exp_add]
    simp
  have hmat : Vᵀ * (F τ - Y) = Vᵀ * (sol V lam c (F 0) Y τ - Y) := by
    rw [sol_eq h]
    ext i r
    rw [key i r τ]
    unfold fc
    have : Vᵀ * (V * diagonal (fun i => Real.exp (-(lam i) * (c * τ))) * Vᵀ * (F 0 - Y)) =
        diagonal (fun i => Real.exp (-(lam i) * (c * τ))) * (Vᵀ * (F 0 - Y)) := by
      calc _ = (Vᵀ * V) * diagonal (fun i => Real.exp (-(lam i) * (c * τ))) * (Vᵀ * (F 0 - Y)) := by
            simp only [Matrix.mul_assoc]
        _ = _ := by rw [h.left, Matrix.one_mul]
    rw [this, diagonal_mul]
  have h2 := congrArg (fun M => V * M) hmat
  simp only [← Matrix.mul_assoc, h.right, Matrix.one_mul] at h2
  exact sub_left_injective h2

/-- Closed form of the outputs at other points. -/
noncomputable def solT (V : Matrix ι (Fin n) ℝ) (lam : Fin n → ℝ) (c : ℝ) (K' : Matrix ι' ι ℝ) (X Y : Matrix ι κ ℝ)
    (X' : Matrix ι' κ ℝ) (τ : ℝ) : Matrix ι' κ ℝ :=
  X' + K' * (fc V (fun i => (Real.exp (-(lam i) * (c * τ)) - 1) / lam i) * (X - Y))

lemma solT_zero (lam : Fin n → ℝ) (c : ℝ) (K' : Matrix ι' ι ℝ) (X Y : Matrix ι κ ℝ) (X' : Matrix ι' κ ℝ) :
    solT V lam c K' X Y X' 0 = X' := by
  unfold solT
  have : (fun i : Fin n => (Real.exp (-(lam i) * (c * 0)) - 1) / lam i) = fun _ => 0 := by funext i; simp
  rw [this, fc_zero]
  simp

lemma solT_driven (h : Orth V) (lam : Fin n → ℝ) (hl : ∀ i, lam i ≠ 0) (c : ℝ) (K' : Matrix ι' ι ℝ) (X Y : Matrix ι κ ℝ)
    (X' : Matrix ι' κ ℝ) : Driven c K' Y (sol V lam c X Y) (solT V lam c K' X Y X') := by
  intro τ p r
  rw [sol_eq h]
  have hd := hasDerivAt_fc (V := V) (X - Y) K' (fun τ i => (Real.exp (-(lam i) * (c * τ)) - 1) / lam i)
    (fun τ i => (-c) * Real.exp (-(lam i) * (c * τ))) (fun τ i => by
      have h1 : HasDerivAt (fun τ => -(lam i) * (c * τ)) (-(lam i) * (c * 1)) τ :=
        ((hasDerivAt_id τ).const_mul c).const_mul _
      exact ((h1.exp.sub_const 1).div_const (lam i)).congr_deriv (by field_simp [hl i])) τ p r
  have hd2 := hd.const_add (X' p r)
  refine hd2.congr_deriv ?_
  rw [fc_smul, Matrix.smul_mul, Matrix.mul_smul, Matrix.smul_apply, smul_eq_mul]
  ring

end NT.Spectral
