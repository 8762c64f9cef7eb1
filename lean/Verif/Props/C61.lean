import Verif.Lemmas.Predict2
import Verif.Lemmas.Backend

/-!
# C61: `gradient_descent_mse` solves the gradient flow of the mean squared error

`m.predict bk t fx_train fx_test k_test_train` is the call of the predictor returned by `gradient_descent_mse`.  The trace axes of the
outputs are the columns of the matrices, the other axes their rows.
-/

namespace NT.C61
open NT Arr Spec Matrix Predict

variable {bk : Backend} {m : Mse} {T S R : List ℕ}

lemma expm1_eq (N lam lr τ : ℝ) : expm1Fn N lam (τ * lr) = Real.exp (-(max lam 0) * (lr / N * τ)) - 1 := by
  unfold expm1Fn
  congr 2
  ring

lemma expm1_sol {V : Matrix (box S) (Fin S.prod) ℝ} {lam : Fin S.prod → ℝ} (hl : ∀ i, 0 ≤ lam i) (N lr : ℝ)
    (X Y : Matrix (box S) (box R) ℝ) :
    (fun τ => X + Spectral.fc V (fun i => expm1Fn N (lam i) (τ * lr)) * (X - Y)) = Spectral.sol V lam (lr / N) X Y := by
  funext τ
  unfold Spectral.sol
  simp only [expm1_eq, max_eq_left (hl _)]

lemma invExpm1_sol {S' : List ℕ} {V : Matrix (box S) (Fin S.prod) ℝ} {lam : Fin S.prod → ℝ} (hl : ∀ i, 0 < lam i) (N lr : ℝ)
    (X Y : Matrix (box S) (box R) ℝ) (K' : Matrix (box S') (box S) ℝ) (X' : Matrix (box S') (box R) ℝ) :
    (fun τ => X' + K' * (Spectral.fc V (fun i => invExpm1Fn N (lam i) (τ * lr)) * (X - Y))) =
      Spectral.solT V lam (lr / N) K' X Y X' := by
  funext τ
  unfold Spectral.solT
  simp only [invExpm1Fn, expm1_eq, max_eq_left (hl _).le, abs_of_pos (hl _)]

lemma symm_of {ι : Type} [Fintype ι] {A : Matrix ι ι ℝ} (h : A.PosSemidef) : A.IsSymm := by
  have := h.isHermitian
  rwa [IsHermitian, conjTranspose_eq_transpose_of_trivial] at this

/-- Training outputs: for every positive semidefinite regularised kernel (singular ones included), all targets and all initial
outputs, the predictions at all times are the values of one curve that starts at the initial outputs and follows the gradient flow
`f' = - lr / |y| K (f - y)`. -/
theorem train_flow (hb : bk.Correct) (h : m.Fits bk T S R)
    (hK : (regMat m.diagReg m.absolute (pairMat S S m.kTrainTrain)).PosSemidef) (f : Arr ℝ) (hf : FitsShape m.yTrain.shape (some f)) :
    ∃ F : ℝ → Matrix (box S) (box R) ℝ, F 0 = initView m.yTrain.ndim T S R (some f) ∧
      Flow (m.learningRate / m.yTrain.shape.prod) (regMat m.diagReg m.absolute (pairMat S S m.kTrainTrain))
        (viewAt [] m.yTrain.ndim T S R m.yTrain) F ∧
      ∀ t, ∃ o, m.predict bk (some t) (some f) none none = .ok (o, none) ∧ OutIs o t m.yTrain.ndim T S R m.yTrain.shape F := by
  obtain ⟨V, lam, h1, h2, -, h3, -⟩ := finite_ok hb h (symm_of hK)
  have hl := Spectral.eval_nonneg h1 (h2 ▸ hK)
  refine ⟨Spectral.sol V lam (m.learningRate / m.yTrain.shape.prod) (initView m.yTrain.ndim T S R (some f))
    (viewAt [] m.yTrain.ndim T S R m.yTrain), Spectral.sol_zero _ _ _ _, h2 ▸ Spectral.sol_flow h1 _ _ _ _, fun t => ?_⟩
  have := h3 t f hf
  rwa [expm1_sol hl] at this

/-- Test outputs: for a positive definite regularised kernel, train and test predictions are the values of curves that start at the
initial outputs (zero for `None`), the train curve following the gradient flow and the test curve driven by it,
`f_test' = - lr / |y| K_td (f - y)`. -/
theorem test_flow (hb : bk.Correct) (h : m.Fits bk T S R)
    (hK : (regMat m.diagReg m.absolute (pairMat S S m.kTrainTrain)).PosDef) (fx : Option (Arr ℝ)) (hfx : FitsShape m.yTrain.shape fx)
    (f k : Arr ℝ) (s' S' : List ℕ) (ht : m.TestFits T S R f k s' S') :
    ∃ (F : ℝ → Matrix (box S) (box R) ℝ) (G : ℝ → Matrix (box S') (box R) ℝ),
      F 0 = initView m.yTrain.ndim T S R fx ∧ G 0 = initView m.yTrain.ndim T S' R (some f) ∧
      Flow (m.learningRate / m.yTrain.shape.prod) (regMat m.diagReg m.absolute (pairMat S S m.kTrainTrain))
        (viewAt [] m.yTrain.ndim T S R m.yTrain) F ∧
      Driven (m.learningRate / m.yTrain.shape.prod) (pairMat S' S k) (viewAt [] m.yTrain.ndim T S R m.yTrain) F G ∧
      ∀ t, ∃ o o', m.predict bk (some t) fx (some f) (some k) = .ok (o, o') ∧ (fx = none → o = none) ∧
        (fx.isSome → OutIs o t m.yTrain.ndim T S R m.yTrain.shape F) ∧ OutIs o' t m.yTrain.ndim T S' R s' G := by
  obtain ⟨V, lam, h1, h2, -, -, h3⟩ := finite_ok hb h (symm_of hK.posSemidef)
  have hl := Spectral.eval_pos h1 (h2 ▸ hK)
  refine ⟨Spectral.sol V lam (m.learningRate / m.yTrain.shape.prod) (initView m.yTrain.ndim T S R fx)
    (viewAt [] m.yTrain.ndim T S R m.yTrain),
    Spectral.solT V lam (m.learningRate / m.yTrain.shape.prod) (pairMat S' S k) (initView m.yTrain.ndim T S R fx)
      (viewAt [] m.yTrain.ndim T S R m.yTrain) (initView m.yTrain.ndim T S' R (some f)),
    Spectral.sol_zero _ _ _ _, Spectral.solT_zero _ _ _ _ _ _, h2 ▸ Spectral.sol_flow h1 _ _ _ _,
    Spectral.solT_driven h1 _ (fun i => (hl i).ne') _ _ _ _ _, fun t => ?_⟩
  have := h3 t fx f k s' S' hfx ht
  rw [expm1_sol fun i => (hl i).le, invExpm1_sol hl] at this
  obtain ⟨o, o', g1, g2, g3, g4⟩ := this
  refine ⟨o, o', g1, g2, ?_, g4⟩
  intro hs
  obtain ⟨f0, hf0⟩ := Option.isSome_iff_exists.1 hs
  exact g3 f0 hf0

/-- The flow with given initial outputs is unique, so the previous theorems determine the predictions. -/
theorem flow_unique {ι κ : Type} [Fintype ι] [DecidableEq ι] (c : ℝ) (K : Matrix ι ι ℝ) (hK : K.IsSymm) (Y : Matrix ι κ ℝ)
    (F F' : ℝ → Matrix ι κ ℝ) (h : Flow c K Y F) (h' : Flow c K Y F') (h0 : F 0 = F' 0) : F = F' := by
  obtain ⟨V, lam, h1, h2⟩ := exists_fc K hK
  subst h2
  funext τ
  rw [Spectral.flow_unique h1 h, Spectral.flow_unique h1 h', h0]

/-- So is the driven curve. -/
theorem driven_unique {ι ι' κ : Type} [Fintype ι] (c : ℝ) (K' : Matrix ι' ι ℝ) (Y : Matrix ι κ ℝ) (F : ℝ → Matrix ι κ ℝ)
    (G G' : ℝ → Matrix ι' κ ℝ) (h : Driven c K' Y F G) (h' : Driven c K' Y F G') (h0 : G 0 = G' 0) : G = G' := by
  funext τ
  ext i k
  have hd : ∀ x, HasDerivAt (fun τ => G τ i k - G' τ i k) 0 x := fun x => by
    have := (h x i k).sub (h' x i k)
    rwa [sub_self] at this
  have := is_const_of_deriv_eq_zero (fun x => (hd x).differentiableAt) (fun x => (hd x).deriv) τ 0
  simp only [h0, sub_self] at this
  linarith

/-- For a symmetric kernel that is not positive semidefinite (round-off, indefinite user kernels) the training outputs follow the flow
of its positive part: negative eigenvalues are clipped to zero. -/
theorem train_flow_clipped (hb : bk.Correct) (h : m.Fits bk T S R)
    (hK : (regMat m.diagReg m.absolute (pairMat S S m.kTrainTrain)).IsSymm) (f : Arr ℝ) (hf : FitsShape m.yTrain.shape (some f)) :
    ∃ P Q : Matrix (box S) (box S) ℝ, P.PosSemidef ∧ Q.PosSemidef ∧ P * Q = 0 ∧
      regMat m.diagReg m.absolute (pairMat S S m.kTrainTrain) = P - Q ∧
      ∃ F : ℝ → Matrix (box S) (box R) ℝ, F 0 = initView m.yTrain.ndim T S R (some f) ∧
        Flow (m.learningRate / m.yTrain.shape.prod) P (viewAt [] m.yTrain.ndim T S R m.yTrain) F ∧
        ∀ t, ∃ o, m.predict bk (some t) (some f) none none = .ok (o, none) ∧ OutIs o t m.yTrain.ndim T S R m.yTrain.shape F := by
  obtain ⟨V, lam, h1, h2, -, h3, -⟩ := finite_ok hb h hK
  have psd : ∀ g : Fin S.prod → ℝ, (∀ i, 0 ≤ g i) → (Spectral.fc V g).PosSemidef := by
    intro g hg
    have := (posSemidef_diagonal_iff.2 hg).mul_mul_conjTranspose_same V
    rwa [conjTranspose_eq_transpose_of_trivial] at this
  refine ⟨Spectral.fc V fun i => max (lam i) 0, Spectral.fc V fun i => max (-(lam i)) 0, psd _ fun i => le_max_right _ _,
    psd _ fun i => le_max_right _ _, ?_, ?_, Spectral.sol V (fun i => max (lam i) 0) (m.learningRate / m.yTrain.shape.prod)
      (initView m.yTrain.ndim T S R (some f)) (viewAt [] m.yTrain.ndim T S R m.yTrain), Spectral.sol_zero _ _ _ _,
    Spectral.sol_flow h1 _ _ _ _, fun t => ?_⟩
  · rw [Spectral.fc_mul h1]
    have : (fun i => max (lam i) 0 * max (-(lam i)) 0) = fun _ => 0 := by
      funext i
      rcases le_total 0 (lam i) with h0 | h0
      · rw [max_eq_right (a := -(lam i)) (by linarith), mul_zero]
      · rw [max_eq_right h0, zero_mul]
    rw [this, Spectral.fc_zero]
  · rw [← Spectral.fc_sub, h2]
    congr 1
    funext i
    rcases le_total 0 (lam i) with h0 | h0
    · rw [max_eq_right (a := -(lam i)) (by linarith), max_eq_left h0, sub_zero]
    · rw [max_eq_right h0, max_eq_left (a := -(lam i)) (by linarith)]
      ring
  · have := h3 t f hf
    obtain ⟨o, o1, a, o2, o3, o4⟩ := this
    refine ⟨o, o1, a, o2, o3, fun tj htj => ?_⟩
    rw [o4 tj htj]
    unfold Spectral.sol
    simp only [expm1_eq]

/-- The test predictions of a singular kernel divide by an eigenvalue that is zero (`0 / 0`, a NaN): they are only meaningful for a
regularised kernel. -/
theorem singular_divides_by_zero (hb : bk.Correct) (h : m.Fits bk T S R)
    (hK : (regMat m.diagReg m.absolute (pairMat S S m.kTrainTrain)).IsSymm)
    (hdet : (regMat m.diagReg m.absolute (pairMat S S m.kTrainTrain)).det = 0) :
    ∃ es, eigenspace bk m.kTrainTrain m.diagReg m.absolute = .ok es ∧ ∃ i < S.prod, |es.1.get [i]| = 0 := by
  obtain ⟨V, lam, h1, h2, ⟨es, h3, h4⟩, -⟩ := finite_ok hb h hK
  refine ⟨es, h3, ?_⟩
  by_contra hc
  push Not at hc
  have hne : ∀ i, lam i ≠ 0 := fun i h0 => hc i.1 i.2 (by rw [← h4, h0, abs_zero])
  have hinv : Spectral.fc V lam * Spectral.fc V (fun i => (lam i)⁻¹) = 1 := by
    rw [Spectral.fc_mul h1, ← Spectral.fc_one h1]
    congr 1
    funext i
    exact mul_inv_cancel₀ (hne i)
  have := congrArg det hinv
  rw [det_mul, ← h2, hdet, zero_mul, det_one] at this
  exact zero_ne_one this

/-! ### A concrete case: two training points, one output channel, a relative regulariser -/

noncomputable def exM : Mse where
  kTrainTrain := ⟨[2, 2], fun i => if i.getD 0 0 = i.getD 1 0 then 2 else 1⟩
  yTrain := ⟨[2, 1], fun i => i.getD 0 0⟩
  learningRate := 1 / 2
  diagReg := 1 / 10
  absolute := false
  traceAxes := [-1]

lemma exM_fits : exM.Fits exact [1] [2] [1] where
  axes := by
    show axesOf exact [-1] 2 = _
    unfold axesOf
    rw [show Utils.canonicalizeAxis [-1] 2 = .ok {1} from rfl]
    simp [exact]
  rows := by decide
  cols := by decide
  kernel := by decide
  nonempty := by decide

lemma exM_kernel_posDef : (pairMat [2] [2] exM.kTrainTrain).PosDef := by
  have h : (pairMat [2] [2] exM.kTrainTrain) = 1 + vecMulVec (fun _ => 1) (star fun _ => 1) := by
    ext p q
    obtain ⟨p, hp⟩ := p
    obtain ⟨q, hq⟩ := q
    rw [mem_box] at hp hq
    obtain ⟨i, hi, rfl⟩ : ∃ i, i < 2 ∧ p = [i] := by
      cases hp with
      | cons hi ht => cases ht; exact ⟨_, hi, rfl⟩
    obtain ⟨j, hj, rfl⟩ : ∃ i, i < 2 ∧ q = [i] := by
      cases hq with
      | cons hi ht => cases ht; exact ⟨_, hi, rfl⟩
    simp only [pairMat, exM, interleave, Matrix.add_apply, one_apply, vecMulVec_apply, List.getD_cons_zero, List.getD_cons_succ,
      Pi.star_apply, star_one, mul_one, Subtype.mk.injEq, List.cons.injEq, and_true]
    split_ifs <;> norm_num
  rw [h]
  exact PosDef.one.add_posSemidef (posSemidef_vecMulVec_self_star _)

lemma exM_posDef : (regMat exM.diagReg exM.absolute (pairMat [2] [2] exM.kTrainTrain)).PosDef := by
  have hpd := exM_kernel_posDef
  have htr := hpd.posSemidef.trace_nonneg
  refine hpd.add_posSemidef (PosSemidef.one.smul ?_)
  simp only [exM, Bool.false_eq_true, if_false]
  positivity

example : ∃ F : ℝ → Matrix (box [2]) (box [1]) ℝ, F 0 = initView 2 [1] [2] [1] (some ⟨[2, 1], fun i => 3 - i.getD 0 0⟩) ∧
    Flow (1 / 2 / (2 : ℕ)) (regMat (1 / 10) false (pairMat [2] [2] exM.kTrainTrain)) (viewAt [] 2 [1] [2] [1] exM.yTrain) F ∧
    ∀ t, ∃ o, exM.predict exact (some t) (some ⟨[2, 1], fun i => 3 - i.getD 0 0⟩) none none = .ok (o, none) ∧
      OutIs o t 2 [1] [2] [1] [2, 1] F :=
  train_flow exact_correct exM_fits exM_posDef.posSemidef _ (Or.inl rfl)

example := test_flow exact_correct exM_fits exM_posDef none trivial ⟨[3, 1], fun i => i.getD 0 0⟩ ⟨[3, 2], fun i => i.getD 1 0⟩ [3, 1] [3]
  ⟨rfl, by decide, by decide, by decide, Or.inl rfl⟩

example := train_flow_clipped (m := { exM with kTrainTrain := ⟨[2, 2], fun i => -exM.kTrainTrain.get i⟩ }) (T := [1]) (S := [2]) (R := [1])
  exact_correct ⟨exM_fits.axes, exM_fits.rows, exM_fits.cols, by decide, exM_fits.nonempty⟩ (by
    have h1 : pairMat [2] [2] (⟨[2, 2], fun i => -exM.kTrainTrain.get i⟩ : Arr ℝ) = -pairMat [2] [2] exM.kTrainTrain := rfl
    have h2 := symm_of exM_posDef.posSemidef
    unfold regMat at h2 ⊢
    dsimp only
    rw [h1]
    refine IsSymm.add (IsSymm.neg ?_) (isSymm_one.smul _)
    have := h2.sub (isSymm_one.smul (if exM.absolute then exM.diagReg else
      exM.diagReg * ((pairMat [2] [2] exM.kTrainTrain).trace / Fintype.card (box [2]))))
    rwa [add_sub_cancel_right] at this) ⟨[], fun _ => 0⟩ (Or.inr rfl)

/-- An all-ones kernel of two identical points. -/
noncomputable def exSing : Mse := { exM with kTrainTrain := ⟨[2, 2], fun _ => 1⟩, diagReg := 0 }

lemma exSing_fits : exSing.Fits exact [1] [2] [1] := ⟨exM_fits.axes, exM_fits.rows, exM_fits.cols, by decide, exM_fits.nonempty⟩

lemma exSing_eq : regMat exSing.diagReg exSing.absolute (pairMat [2] [2] exSing.kTrainTrain) = fun _ _ => 1 := by
  ext p q
  simp [regMat, exSing, pairMat, exM]

example := singular_divides_by_zero exact_correct exSing_fits (by rw [exSing_eq]; rfl) (by
  rw [exSing_eq]
  refine det_zero_of_row_eq (i := ⟨[0], by simp [mem_box, InRange]⟩) (j := ⟨[1], by simp [mem_box, InRange]⟩) (by simp) rfl)

example := train_flow exact_correct exSing_fits (by
  rw [exSing_eq]
  have h : (fun _ _ => 1 : Matrix (box [2]) (box [2]) ℝ) = vecMulVec (fun _ => 1) (star fun _ => 1) := by
    ext p q
    simp [vecMulVec_apply]
  rw [h]
  exact posSemidef_vecMulVec_self_star _) ⟨[], fun _ => 0⟩ (Or.inr rfl)

end NT.C61
