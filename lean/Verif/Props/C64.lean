import Verif.Lemmas.Gp2
import Verif.Props.C61

/-!
# C64: Gaussian process inference

`gp_inference` with the NNGP kernel returns the conditional mean and covariance of the test outputs given the noisy training targets.
-/

namespace NT.C64
open NT Arr Spec Matrix NT.Predict MeasureTheory ProbabilityTheory

variable {bk : Backend} {m : Gp} {T S R : List ℕ} {kdd : Arr ℝ}

lemma inv_of {ι : Type} [Fintype ι] [DecidableEq ι] {K : Matrix ι ι ℝ} (h : K.PosDef) : K⁻¹ * K = 1 ∧ K * K⁻¹ = 1 := by
  have hu : IsUnit K.det := (isUnit_iff_isUnit_det _).1 h.isUnit
  exact ⟨nonsing_inv_mul _ hu, mul_nonsing_inv _ hu⟩

/-- A call with the mode `nngp` or `ntkgp` on a test set. -/
lemma gp_ok (hb : bk.Correct) {g : Mode} (hg : g ≠ .ntk) (h : m.Fits bk g T S R kdd)
    (hK : (regMat m.diagReg m.absolute (pairMat S S kdd)).PosDef) {td tt : KArg} {ktd ktt : Arr ℝ} {s' S' : List ℕ}
    (ht : m.TestFits T S R ktd s' S') (e1 : td.attr g.field = .ok (some ktd)) (e2 : tt.attr g.field = .ok (some ktt))
    (h4 : ktt.shape = interleave S' S') :
    ∃ mean cov, m.predict bk g (some td) (some tt) = .ok (mean, some cov) ∧ m.predict bk g (some td) none = .ok (mean, none) ∧
      mean.shape = s' ∧ cov.shape = interleave S' S' ∧
      viewAt [] m.yTrain.ndim T S' R mean = pairMat S' S ktd * ((regMat m.diagReg m.absolute (pairMat S S kdd))⁻¹ *
        viewAt [] m.yTrain.ndim T S R m.yTrain) ∧
      pairMat S' S' cov = pairMat S' S' ktt - pairMat S' S ktd * ((regMat m.diagReg m.absolute (pairMat S S kdd))⁻¹ *
        (pairMat S' S ktd)ᵀ) := by
  obtain ⟨-, -, -, -, -, hS0⟩ := h.lengths hb
  obtain ⟨k, k1, k2⟩ := h.rank
  obtain ⟨y, y1, y2, y3⟩ := mean_ok hb h hK ht
  obtain ⟨c, c1, c2, c3⟩ := covGp_ok (m := m) (ktd := ktd) (kInit := ktd) hb (h.test_length hb ht) hS0 h.kernel ht.kernel ht.kernel h4 hK
    h.order
  have hi : g.init = g.field := by cases g <;> first | rfl | exact absurd rfl hg
  refine ⟨y, c, ?_, ?_, y2, c2, y3, c3⟩
  · unfold Gp.predict Gp.one
    simp only [bind, Except.bind, k1, k2, h.axes, h.field, e1, e2, need, needArr, y1, hi, if_neg (show ¬ (g = Mode.ntk ∧ _) from fun e => hg e.1)]
    cases g
    · simp only [c1]; rfl
    · exact absurd rfl hg
    · simp only [c1]; rfl
  · unfold Gp.predict Gp.one
    simp only [bind, Except.bind, k1, k2, h.axes, h.field, e1, need, y1]
    rfl

/-- **C64.** With `get = 'nngp'` (or `'ntkgp'`) the returned mean and covariance are those of the conditional distribution of the test
outputs given the noisy targets: there is a matrix `A` of regression coefficients, which solves the regularised normal equations, such
that the mean is `A y` for every column `y` of the targets, and, for any centred jointly Gaussian outputs whose covariances are the
given kernels, with the regulariser as the noise of the training outputs, the test outputs given the training outputs `y` are Gaussian
with mean `A y` and the returned covariance. -/
theorem posterior (hb : bk.Correct) {g : Mode} (hg : g ≠ .ntk) (h : m.Fits bk g T S R kdd)
    (hK : (regMat m.diagReg m.absolute (pairMat S S kdd)).PosDef) {td tt : KArg} {ktd ktt : Arr ℝ} {s' S' : List ℕ}
    (ht : m.TestFits T S R ktd s' S') (e1 : td.attr g.field = .ok (some ktd)) (e2 : tt.attr g.field = .ok (some ktt))
    (h4 : ktt.shape = interleave S' S') :
    ∃ mean cov A, m.predict bk g (some td) (some tt) = .ok (mean, some cov) ∧ m.predict bk g (some td) none = .ok (mean, none) ∧
      mean.shape = s' ∧ cov.shape = ktt.shape ∧
      A * regMat m.diagReg m.absolute (pairMat S S kdd) = pairMat S' S ktd ∧
      (∀ p r, viewAt [] m.yTrain.ndim T S' R mean p r = (A *ᵥ fun q => viewAt [] m.yTrain.ndim T S R m.yTrain q r) p) ∧
      pairMat S' S' cov = pairMat S' S' ktt - A * (pairMat S' S ktd)ᵀ ∧
      ∀ {Ω : Type} [MeasurableSpace Ω] (P : Measure Ω) (u : box S → Ω → ℝ) (v : box S' → Ω → ℝ),
        JointGaussian P u v (regMat m.diagReg m.absolute (pairMat S S kdd)) (pairMat S' S ktd) (pairMat S' S' ktt) →
        Conditional P u v (fun y => A *ᵥ y) (pairMat S' S' cov) := by
  obtain ⟨y, c, p1, p2, y2, c2, y3, c3⟩ := gp_ok hb hg h hK ht e1 e2 h4
  obtain ⟨i1, i2⟩ := inv_of hK
  have hA : pairMat S' S ktd * (regMat m.diagReg m.absolute (pairMat S S kdd))⁻¹ * regMat m.diagReg m.absolute (pairMat S S kdd) =
      pairMat S' S ktd := by rw [Matrix.mul_assoc, i1, Matrix.mul_one]
  have hc : pairMat S' S' c = pairMat S' S' ktt -
      pairMat S' S ktd * (regMat m.diagReg m.absolute (pairMat S S kdd))⁻¹ * (pairMat S' S ktd)ᵀ := by rw [c3, Matrix.mul_assoc]
  refine ⟨y, c, pairMat S' S ktd * (regMat m.diagReg m.absolute (pairMat S S kdd))⁻¹, p1, p2, y2, by rw [c2, h4], hA, ?_, hc, ?_⟩
  · intro p r
    rw [y3, ← Matrix.mul_assoc]
    rfl
  · intro Ω _ P u v hj
    rw [hc]
    exact conditional_of_normal hj _ hA

/-- **C64.** The posterior covariance is positive semidefinite when the kernel of the training and test points together is and the
regulariser is not negative. -/
theorem posterior_psd (hb : bk.Correct) {g : Mode} (hg : g ≠ .ntk) (h : m.Fits bk g T S R kdd)
    (hK : (regMat m.diagReg m.absolute (pairMat S S kdd)).PosDef) {td tt : KArg} {ktd ktt : Arr ℝ} {s' S' : List ℕ}
    (ht : m.TestFits T S R ktd s' S') (e1 : td.attr g.field = .ok (some ktd)) (e2 : tt.attr g.field = .ok (some ktt))
    (h4 : ktt.shape = interleave S' S') (hr : 0 ≤ m.diagReg)
    (hjoint : (fromBlocks (pairMat S S kdd) (pairMat S' S ktd)ᵀ (pairMat S' S ktd) (pairMat S' S' ktt)).PosSemidef) :
    ∃ mean cov, m.predict bk g (some td) (some tt) = .ok (mean, some cov) ∧ (pairMat S' S' cov).PosSemidef := by
  obtain ⟨y, c, p1, -, -, -, -, c3⟩ := gp_ok hb hg h hK ht e1 e2 h4
  refine ⟨y, c, p1, ?_⟩
  rw [c3, ← Matrix.mul_assoc]
  have hK0 : (pairMat S S kdd).PosSemidef := by
    have := hjoint.submatrix Sum.inl
    exact this
  have hs : 0 ≤ (if m.absolute then m.diagReg else m.diagReg * ((pairMat S S kdd).trace / Fintype.card (box S))) := by
    have := hK0.trace_nonneg
    split_ifs <;> positivity
  have hreg : (fromBlocks (regMat m.diagReg m.absolute (pairMat S S kdd)) (pairMat S' S ktd)ᵀ (pairMat S' S ktd)
      (pairMat S' S' ktt)).PosSemidef := by
    have h2 : (fromBlocks ((if m.absolute then m.diagReg else m.diagReg * ((pairMat S S kdd).trace / Fintype.card (box S))) •
        (1 : Matrix (box S) (box S) ℝ)) 0 0 (0 : Matrix (box S') (box S') ℝ)).PosSemidef := by
      have : fromBlocks ((if m.absolute then m.diagReg else m.diagReg * ((pairMat S S kdd).trace / Fintype.card (box S))) •
          (1 : Matrix (box S) (box S) ℝ)) 0 0 (0 : Matrix (box S') (box S') ℝ) =
          diagonal (Sum.elim (fun _ => if m.absolute then m.diagReg else m.diagReg * ((pairMat S S kdd).trace / Fintype.card (box S)))
            fun _ => 0) := by
        rw [← fromBlocks_diagonal, smul_one_eq_diagonal, diagonal_zero]
      rw [this]
      refine PosSemidef.diagonal fun i => ?_
      rcases i with i | i
      · exact hs
      · exact le_rfl
    have := hjoint.add h2
    rw [fromBlocks_add] at this
    simpa [regMat] using this
  have hinv : Invertible (regMat m.diagReg m.absolute (pairMat S S kdd)) := hK.isUnit.invertible
  have h3 := (PosDef.fromBlocks₁₁ (pairMat S' S ktd)ᵀ (pairMat S' S' ktt) hK).1 (by simpa using hreg)
  simpa using h3

/-- **C64.** At the training points, without regularisation, the posterior is the noiseless targets: the mean is the targets and the
covariance is zero. -/
theorem posterior_interpolates (hb : bk.Correct) {g : Mode} (hg : g ≠ .ntk) (h : m.Fits bk g T S R kdd) (hr : m.diagReg = 0)
    (hK : (pairMat S S kdd).PosDef) {td tt : KArg} (e1 : td.attr g.field = .ok (some kdd)) (e2 : tt.attr g.field = .ok (some kdd)) :
    ∃ mean cov, m.predict bk g (some td) (some tt) = .ok (mean, some cov) ∧ mean ≋ m.yTrain ∧ cov ≋ ⟨kdd.shape, fun _ => 0⟩ := by
  have hreg : regMat m.diagReg m.absolute (pairMat S S kdd) = pairMat S S kdd := by
    unfold regMat
    rw [hr]
    simp
  have hK' : (regMat m.diagReg m.absolute (pairMat S S kdd)).PosDef := by rw [hreg]; exact hK
  obtain ⟨y, c, p1, p2, y2, c2, y3, c3⟩ := gp_ok hb hg h hK' (s' := m.yTrain.shape) ⟨rfl, h.rows, h.cols, h.kernel⟩ e1 e2 h.kernel
  obtain ⟨i1, i2⟩ := inv_of hK
  obtain ⟨hn, hl, -⟩ := h.lengths hb
  have hsym : (pairMat S S kdd)ᵀ = pairMat S S kdd := by
    have : (pairMat S S kdd).IsSymm := by simpa using hK.isHermitian
    exact this.eq
  rw [hreg, ← Matrix.mul_assoc, i2, Matrix.one_mul] at y3
  rw [hreg, hsym, ← Matrix.mul_assoc, i2, Matrix.one_mul, sub_self] at c3
  refine ⟨y, c, p1, ⟨y2, fun i hi => ?_⟩, ⟨by rw [c2, h.kernel], fun i hi => ?_⟩⟩
  · exact view_entries (tj := []) (uj := []) rfl hl h.rows h.cols y3 (by rw [← y2]; exact hi)
  · rw [c2] at hi
    obtain ⟨p, q, hp, hq, rfl⟩ := exists_interleave S.length (x := i) (by rw [hi.length, interleave_length rfl])
    rw [inRange_interleave hp hq rfl] at hi
    exact congrFun (congrFun c3 ⟨p, mem_box.2 hi.1⟩) ⟨q, mem_box.2 hi.2⟩

/-- **C64.** With `get = 'ntk'` the returned mean and covariance are those of the outputs of networks trained to convergence: if the
initial outputs `u` and `v` at the training and test points are centred with the NNGP kernels as covariances, then
`v + Θtd (Θ + reg)⁻¹ (y - u)` has the returned mean and covariance, for every column `y` of the targets. -/
theorem ntk_ensemble (hb : bk.Correct) (h : m.Fits bk .ntk T S R kdd)
    (hK : (regMat m.diagReg m.absolute (pairMat S S kdd)).PosDef) {td tt : KArg} {ktd kdd0 ktd0 ktt0 : Arr ℝ} {s' S' : List ℕ}
    (ht : m.TestFits T S R ktd s' S') (e1 : td.attr .ntk = .ok (some ktd)) (e0 : td.attr .nngp = .ok (some ktd0))
    (e2 : tt.attr .nngp = .ok (some ktt0)) (e3 : m.kTrainTrain.attr .nngp = .ok (some kdd0)) (n1 : m.kTrainTrain.hasNngp)
    (n2 : td.hasNngp) (h4 : ktt0.shape = interleave S' S') (h5 : kdd0.shape = interleave S S) (h6 : ktd0.shape = interleave S' S) :
    ∃ mean cov B, m.predict bk .ntk (some td) (some tt) = .ok (mean, some cov) ∧ mean.shape = s' ∧ cov.shape = ktt0.shape ∧
      B * regMat m.diagReg m.absolute (pairMat S S kdd) = pairMat S' S ktd ∧
      ∀ {Ω : Type} [MeasurableSpace Ω] (P : Measure Ω) [IsProbabilityMeasure P] (u : box S → Ω → ℝ) (v : box S' → Ω → ℝ),
        (∀ i, MemLp (u i) 2 P) → (∀ j, MemLp (v j) 2 P) → (∀ i, ∫ ω, u i ω ∂P = 0) → (∀ j, ∫ ω, v j ω ∂P = 0) →
        (∀ i i', cov[u i, u i'; P] = pairMat S S kdd0 i i') → (∀ j i, cov[v j, u i; P] = pairMat S' S ktd0 j i) →
        (∀ j j', cov[v j, v j'; P] = pairMat S' S' ktt0 j j') →
        ∀ r, let X := fun (j : box S') ω =>
            v j ω + (B *ᵥ fun q => viewAt [] m.yTrain.ndim T S R m.yTrain q r - u q ω) j
          (∀ j, ∫ ω, X j ω ∂P = viewAt [] m.yTrain.ndim T S' R mean j r) ∧
          ∀ j j', cov[X j, X j'; P] = pairMat S' S' cov j j' := by
  obtain ⟨-, -, -, -, -, hS0⟩ := h.lengths hb
  obtain ⟨k, k1, k2⟩ := h.rank
  obtain ⟨y, y1, y2, y3⟩ := mean_ok hb h hK ht
  obtain ⟨c, c1, c2, c3⟩ := covNtk_ok (m := m) (ktd := ktd) (kInit := ktd0) hb (h.test_length hb ht) hS0 h.kernel ht.kernel h6 h4 h5 hK
    h.order
  obtain ⟨i1, i2⟩ := inv_of hK
  have hA : pairMat S' S ktd * (regMat m.diagReg m.absolute (pairMat S S kdd))⁻¹ * regMat m.diagReg m.absolute (pairMat S S kdd) =
      pairMat S' S ktd := by rw [Matrix.mul_assoc, i1, Matrix.mul_one]
  replace c3 := c3 _ rfl
  rw [← Matrix.mul_assoc] at y3
  revert hA c3 y3
  generalize hB : pairMat S' S ktd * (regMat m.diagReg m.absolute (pairMat S S kdd))⁻¹ = B
  intro y3 hA c3
  refine ⟨y, c, B, ?_, y2, by rw [c2, h4], hA, ?_⟩
  · unfold Gp.predict Gp.one
    have hf : Mode.ntk.field = Field.ntk := rfl
    have hf0 : Mode.ntk.init = Field.nngp := rfl
    have h7 : m.kTrainTrain.attr .ntk = .ok (some kdd) := h.field
    simp only [bind, Except.bind, k1, k2, h.axes, hf, hf0, h7, e1, e2, e0, e3, need, needArr, y1, n1, n2, not_true, or_self, and_false, if_false, c1]
    rfl
  · intro Ω _ P _ u v hu hv mu mv huu hvu hvv r
    obtain ⟨-, q2⟩ := cov_resid hu hv huu hvu hvv B
    have hX : ∀ j, (fun ω => v j ω + (B *ᵥ fun q => viewAt [] m.yTrain.ndim T S R m.yTrain q r - u q ω) j) =
        fun ω => (v j ω - (B *ᵥ fun i => u i ω) j) + (B *ᵥ fun q => viewAt [] m.yTrain.ndim T S R m.yTrain q r) j := by
      intro j
      funext ω
      have : (fun q => viewAt [] m.yTrain.ndim T S R m.yTrain q r - u q ω) =
          (fun q => viewAt [] m.yTrain.ndim T S R m.yTrain q r) - fun q => u q ω := rfl
      rw [this, mulVec_sub]
      simp only [Pi.sub_apply]
      ring
    have hAi : ∀ j, MemLp (fun ω => (B *ᵥ fun i => u i ω) j) 2 P := by
      intro j
      simp only [mulVec, dotProduct]
      exact memLp_finsetSum _ fun i _ => (hu i).const_mul _
    have hs : ∀ j, MemLp (fun ω => v j ω - (B *ᵥ fun i => u i ω) j) 2 P := fun j => (hv j).sub (hAi j)
    have h0 : ∀ j, ∫ ω, (v j ω - (B *ᵥ fun i => u i ω) j) ∂P = 0 := by
      intro j
      rw [integral_sub ((hv j).integrable (by norm_num)) ((hAi j).integrable (by norm_num)), mv]
      simp only [mulVec, dotProduct]
      rw [integral_finsetSum _ fun i _ => ((hu i).integrable (by norm_num)).const_mul _]
      simp [integral_const_mul, mu]
    dsimp only
    refine ⟨fun j => ?_, fun j j' => ?_⟩
    · rw [hX j, integral_add ((hs j).integrable (by norm_num)) (integrable_const _), h0, y3]
      simp [mul_apply, mulVec, dotProduct]
    · rw [hX j, hX j', covariance_add_const_left ((hs j).integrable (by norm_num)),
        covariance_add_const_right ((hs j').integrable (by norm_num)), q2, c3]
      simp only [Matrix.add_apply, Matrix.sub_apply]
      ring

/-- **C64.** Without a test set the result is the targets, with zero covariance. -/
theorem train_set {g : Mode} (h : m.Fits bk g T S R kdd) (tt : Option KArg) :
    m.predict bk g none tt = .ok (m.yTrain, tt.map fun _ => ⟨kdd.shape, fun _ => 0⟩) := by
  obtain ⟨k, k1, k2⟩ := h.rank
  unfold Gp.predict Gp.one
  simp only [bind, Except.bind, k1, h.axes, h.field, need]
  rfl

/-- **C64.** The NTK covariance needs both kernels: arrays are refused. -/
theorem ntk_needs_nngp (hb : bk.Correct) (h : m.Fits bk .ntk T S R kdd)
    (hK : (regMat m.diagReg m.absolute (pairMat S S kdd)).PosDef) {td tt : KArg} {ktd : Arr ℝ} {s' S' : List ℕ}
    (ht : m.TestFits T S R ktd s' S') (e1 : td.attr .ntk = .ok (some ktd)) (hn : ¬ m.kTrainTrain.hasNngp ∨ ¬ td.hasNngp) :
    m.predict bk .ntk (some td) (some tt) = .error .valueError := by
  obtain ⟨k, k1, k2⟩ := h.rank
  obtain ⟨y, y1, y2, y3⟩ := mean_ok hb h hK ht
  have h7 : m.kTrainTrain.attr .ntk = .ok (some kdd) := h.field
  unfold Gp.predict Gp.one
  have hf : Mode.ntk.field = Field.ntk := rfl
  simp only [bind, Except.bind, k1, k2, h.axes, hf, h7, e1, need, needArr, y1, true_and, if_pos hn]

/-- **C64, a departure.** A test-train kernel whose needed attribute is `None` is taken for a call on the training set: the training
targets are returned as predictions for the test set. -/
theorem missing_test_kernel_ignored {g : Mode} (h : m.Fits bk g T S R kdd) {td : KArg} (e1 : td.attr g.field = .ok none) (tt : Option KArg) :
    m.predict bk g (some td) tt = .ok (m.yTrain, tt.map fun _ => ⟨kdd.shape, fun _ => 0⟩) := by
  obtain ⟨k, k1, k2⟩ := h.rank
  unfold Gp.predict Gp.one
  simp only [bind, Except.bind, k1, h.axes, h.field, need, e1]
  rfl

/-! Cases that meet the hypotheses. -/

noncomputable def exK : Arr ℝ := ⟨[2, 2], fun i => if i.getD 0 0 = i.getD 1 0 then 2 else 1⟩

noncomputable def exG : Gp where
  kTrainTrain := .obj (some (some exK)) (some (some exK))
  yTrain := ⟨[2, 1], fun i => i.getD 0 0⟩
  diagReg := 1 / 10
  absolute := false
  traceAxes := [-1]

lemma exG_fits (g : Mode) : exG.Fits exact g [1] [2] [1] exK where
  axes := C61.exM_fits.axes
  rows := by decide
  cols := by decide
  nonempty := by decide
  field := by cases g <;> rfl
  kernel := rfl
  rank := ⟨exK, rfl, rfl⟩
  order := by
    have : pyRange 0 (2 * [2].length) 2 = [0] := rfl
    rw [this]
    simp [exact]

lemma exG_posDef : (regMat exG.diagReg exG.absolute (pairMat [2] [2] exK)).PosDef := C61.exM_posDef

/-- Test kernels of three test points: uncorrelated with the training points but for the first. -/
noncomputable def exTd : Arr ℝ := ⟨[3, 2], fun i => if i.getD 0 0 = 0 then 1 else 0⟩
noncomputable def exTt : Arr ℝ := ⟨[3, 3], fun i => if i.getD 0 0 = i.getD 1 0 then 2 else 0⟩

lemma exTd_fits : exG.TestFits [1] [2] [1] exTd [3, 1] [3] := ⟨rfl, by decide, by decide, rfl⟩

example := posterior exact_correct (g := .nngp) (by decide) (exG_fits _) exG_posDef exTd_fits (td := .arr exTd) (tt := .arr exTt) rfl rfl rfl
example := posterior exact_correct (g := .ntkgp) (by decide) (exG_fits _) exG_posDef exTd_fits (td := .obj none (some (some exTd)))
  (tt := .arr exTt) rfl rfl rfl
example := ntk_ensemble exact_correct (exG_fits _) exG_posDef exTd_fits (td := .obj (some (some exTd)) (some (some exTd)))
  (tt := .arr exTt) rfl rfl rfl rfl rfl rfl rfl rfl rfl

/-- The joint kernel of the training points and of the same points as test points. -/
lemma exJoint : (fromBlocks (pairMat [2] [2] exK) (pairMat [2] [2] exK)ᵀ (pairMat [2] [2] exK) (pairMat [2] [2] exK)).PosSemidef := by
  have hpd : (pairMat [2] [2] exK).PosDef := C61.exM_kernel_posDef
  have hsym : (pairMat [2] [2] exK)ᵀ = pairMat [2] [2] exK := by
    have : (pairMat [2] [2] exK).IsSymm := by simpa using hpd.isHermitian
    exact this.eq
  have hinv : Invertible (pairMat [2] [2] exK) := hpd.isUnit.invertible
  have h := (PosDef.fromBlocks₁₁ (pairMat [2] [2] exK)ᵀ (pairMat [2] [2] exK) hpd).2 (by
    rw [conjTranspose_eq_transpose_of_trivial, transpose_transpose, (inv_of hpd).2, Matrix.one_mul, hsym, sub_self]
    exact PosSemidef.zero)
  simpa using h

example := posterior_psd exact_correct (g := .nngp) (by decide) (exG_fits _) exG_posDef (s' := [2, 1]) (S' := [2]) (ktd := exK)
  (ktt := exK) (td := .arr exK) (tt := .arr exK) ⟨rfl, by decide, by decide, rfl⟩ rfl rfl rfl (by norm_num [exG]) exJoint
example := posterior_interpolates (m := { exG with diagReg := 0 }) (T := [1]) (S := [2]) (R := [1]) (kdd := exK) exact_correct (g := .nngp)
  (by decide)
  ⟨(exG_fits .nngp).axes, (exG_fits .nngp).rows, (exG_fits .nngp).cols, (exG_fits .nngp).nonempty, rfl, rfl, ⟨exK, rfl, rfl⟩,
    (exG_fits .nngp).order⟩
  rfl C61.exM_kernel_posDef (td := .arr exK) (tt := .arr exK) rfl rfl
/-- Outputs as in `posterior` exist. -/
example := exists_joint _ _ _ exJoint
example := train_set (exG_fits .ntk) (some (.arr exTt))
example := ntk_needs_nngp exact_correct (exG_fits _) exG_posDef exTd_fits (td := .arr exTd) (tt := .arr exTt) rfl (Or.inr (by simp [KArg.hasNngp]))
example := missing_test_kernel_ignored (exG_fits .ntk) (td := .obj (some (some exTd)) (some none)) rfl (some (.arr exTt))

end NT.C64
