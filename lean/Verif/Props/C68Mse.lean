import Verif.Props.C68
import Mathlib.Analysis.Calculus.MeanValue
import Mathlib.MeasureTheory.Integral.IntervalIntegral.FundThmCalculus

/-!
# C68 for the mean squared error: the equation that `gradient_descent_mse` solves in closed form
-/

namespace NT.C68
open NT Arr Spec Matrix Predict

variable {bk : Backend} {ode : OdeInt} {m : Gd} {T S R : List ℕ} {t : Arr ℝ} {t0 t1 : ℝ}

/-- The loss `0.5 * mean((fx - y)²)`. -/
noncomputable def mseLoss (y x : Arr ℝ) : ℝ := 1 / 2 * ((∑ i ∈ box y.shape, (x.get i - y.get i) ^ 2) / y.shape.prod)

lemma mse_deriv (y x : Arr ℝ) {i : List ℕ} (hi : InRange i y.shape) :
    HasDerivAt (fun h => mseLoss y (bump x i h)) ((x.get i - y.get i) / y.shape.prod) 0 := by
  unfold mseLoss
  have h1 : ∀ j ∈ box y.shape, HasDerivAt (fun h => ((bump x i h).get j - y.get j) ^ 2) (if j = i then 2 * (x.get i - y.get i) else 0) 0 := by
    intro j _
    by_cases hj : j = i
    · subst hj
      simp only [bump, if_true]
      have h2 : HasDerivAt (fun h : ℝ => x.get j + h - y.get j) 1 0 := ((hasDerivAt_id (0 : ℝ)).const_add _).sub_const _
      refine (h2.pow 2).congr_deriv ?_
      simp
    · simp only [bump, hj, if_false]
      exact hasDerivAt_const _ _
  have h2 := ((HasDerivAt.fun_sum h1).div_const (y.shape.prod : ℝ)).const_mul (1 / 2)
  refine h2.congr_deriv ?_
  rw [Finset.sum_ite_eq' (box y.shape) i, if_pos (mem_box.2 hi)]
  ring

/-- The gradient of the loss exists. -/
lemma mse_gradient (y : Arr ℝ) : IsGradient (mseLoss y) (fun x => ⟨x.shape, fun i => (x.get i - y.get i) / y.shape.prod⟩) y.shape :=
  ⟨fun _ hx => hx, fun x _ _ hi => mse_deriv y x hi⟩

lemma mse_grad_view {y : Arr ℝ} {g : Arr ℝ → Arr ℝ} (hg : IsGradient (mseLoss y) g y.shape) (hS : S = sizesAt (otherAxes y.ndim T) y.shape)
    (hR : R = sizesAt T y.shape) {x : Arr ℝ} (hx : x.shape = y.shape) :
    viewAt [] y.ndim T S R (g x) = (1 / (y.shape.prod : ℝ)) • (viewAt [] y.ndim T S R x - viewAt [] y.ndim T S R y) := by
  ext p r
  have hi := view_inRange (n := y.ndim) rfl hS hR p r
  have := (hg.partials x hx _ hi).unique (mse_deriv y x hi)
  simp only [viewAt, List.nil_append, Matrix.smul_apply, Matrix.sub_apply, smul_eq_mul]
  rw [this]
  ring

/-- A function with zero derivative on an interval is constant. -/
lemma const_on {u : ℝ → ℝ} {a b : ℝ} (h : ∀ τ ∈ Set.Icc a b, HasDerivWithinAt u 0 (Set.Icc a b) τ) : ∀ τ ∈ Set.Icc a b, u τ = u a := by
  refine constant_of_derivWithin_zero (fun τ hτ => (h τ hτ).differentiableWithinAt) fun τ hτ => ?_
  have hab : a < b := hτ.1.trans_lt hτ.2
  exact (h τ ⟨hτ.1, hτ.2.le⟩).derivWithin (uniqueDiffOn_Icc hab τ ⟨hτ.1, hτ.2.le⟩)

/-- Solutions of the flow on an interval agree. -/
lemma flow_on_unique {ι κ : Type} [Fintype ι] [DecidableEq ι] {c a b : ℝ} {K : Matrix ι ι ℝ} (hK : K.IsSymm) {Y : Matrix ι κ ℝ}
    {F G : ℝ → Matrix ι κ ℝ}
    (hF : ∀ τ ∈ Set.Icc a b, ∀ p r, HasDerivWithinAt (fun σ => F σ p r) (-(c * (K * (F τ - Y)) p r)) (Set.Icc a b) τ)
    (hG : ∀ τ ∈ Set.Icc a b, ∀ p r, HasDerivWithinAt (fun σ => G σ p r) (-(c * (K * (G τ - Y)) p r)) (Set.Icc a b) τ)
    (h0 : F a = G a) : ∀ τ ∈ Set.Icc a b, F τ = G τ := by
  obtain ⟨V, lam, h1, rfl⟩ := exists_fc K hK
  have hW : ∀ τ ∈ Set.Icc a b, ∀ i r,
      HasDerivWithinAt (fun σ => (Vᵀ * (F σ - G σ)) i r) (-(c * lam i * (Vᵀ * (F τ - G τ)) i r)) (Set.Icc a b) τ := by
    intro τ hτ i r
    have h2 : HasDerivWithinAt (fun σ => (Vᵀ * (F σ - G σ)) i r) (∑ p, V p i * (-(c * (Spectral.fc V lam * (F τ - G τ)) p r)))
        (Set.Icc a b) τ := by
      simp only [mul_apply (M := Vᵀ), transpose_apply, Matrix.sub_apply]
      refine HasDerivWithinAt.fun_sum fun p _ => HasDerivWithinAt.const_mul _ ?_
      refine ((hF τ hτ p r).sub (hG τ hτ p r)).congr_deriv ?_
      have e : F τ - G τ = (F τ - Y) - (G τ - Y) := by abel
      rw [e, Matrix.mul_sub (Spectral.fc V lam) (F τ - Y), Matrix.sub_apply]
      ring
    refine h2.congr_deriv ?_
    have e : Vᵀ * (Spectral.fc V lam * (F τ - G τ)) = diagonal lam * (Vᵀ * (F τ - G τ)) := by
      unfold Spectral.fc
      calc Vᵀ * (V * diagonal lam * Vᵀ * (F τ - G τ)) = (Vᵀ * V) * diagonal lam * (Vᵀ * (F τ - G τ)) := by
            simp only [Matrix.mul_assoc]
        _ = _ := by rw [h1.left, Matrix.one_mul]
    have e2 := congrFun (congrFun e i) r
    rw [diagonal_mul, mul_apply] at e2
    simp only [transpose_apply] at e2
    rw [mul_assoc, ← e2, Finset.mul_sum, ← Finset.sum_neg_distrib]
    exact Finset.sum_congr rfl fun p _ => by ring
  have hz : ∀ τ ∈ Set.Icc a b, Vᵀ * (F τ - G τ) = 0 := by
    intro τ hτ
    ext i r
    have hconst : ∀ τ ∈ Set.Icc a b, HasDerivWithinAt (fun σ => Real.exp (lam i * (c * σ)) * (Vᵀ * (F σ - G σ)) i r) 0 (Set.Icc a b) τ := by
      intro τ hτ
      have h3 : HasDerivWithinAt (fun σ => lam i * (c * σ)) (lam i * (c * 1)) (Set.Icc a b) τ :=
        ((hasDerivWithinAt_id τ _).const_mul c).const_mul _
      exact (h3.exp.mul (hW τ hτ i r)).congr_deriv (by ring)
    have := const_on hconst τ hτ
    rw [h0, sub_self, Matrix.mul_zero, Matrix.zero_apply, mul_zero] at this
    exact (mul_eq_zero.1 this).resolve_left (Real.exp_ne_zero _)
  intro τ hτ
  have := congrArg (fun M => V * M) (hz τ hτ)
  simp only [Matrix.mul_zero] at this
  rw [← Matrix.mul_assoc, h1.right, Matrix.one_mul] at this
  exact sub_eq_zero.1 this

/-- The entry of an array with the matrix `M`. -/
noncomputable def extend (n : ℕ) (T S R : List ℕ) (M : Matrix (box S) (box R) ℝ) (i : List ℕ) : ℝ :=
  if h : gather (otherAxes n T) i ∈ box S ∧ gather T i ∈ box R then M ⟨_, h.1⟩ ⟨_, h.2⟩ else 0

lemma extend_join {n : ℕ} {s : List ℕ} (hn : T.Nodup) (hl : ∀ k ∈ T, k < n) (hS : S = sizesAt (otherAxes n T) s)
    (hR : R = sizesAt T s) (M : Matrix (box S) (box R) ℝ) (p : box S) (r : box R) : extend n T S R M (joinIdx n T p.1 r.1) = M p r := by
  have e1 : gather (otherAxes n T) (joinIdx n T p.1 r.1) = p.1 := gather_join_other _ _ (by
    rw [(mem_box.1 p.2).length, hS]; simp [sizesAt])
  have e2 : gather T (joinIdx n T p.1 r.1) = r.1 := gather_join hn hl _ _ (by rw [(mem_box.1 r.2).length, hR]; simp [sizesAt])
  unfold extend
  rw [dif_pos ⟨by rw [e1]; exact p.2, by rw [e2]; exact r.2⟩]
  congr 1 <;> exact Subtype.ext (by assumption)

/-- An array curve through `x0` at the time `a` with the matrices `G`. -/
noncomputable def arrCurve (n : ℕ) (T S R s : List ℕ) (x0 : Arr ℝ) (G : ℝ → Matrix (box S) (box R) ℝ) (a σ : ℝ) : Arr ℝ :=
  ⟨s, fun i => x0.get i + (extend n T S R (G σ) i - extend n T S R (G a) i)⟩

lemma arrCurve_start {n : ℕ} {s : List ℕ} {x0 : Arr ℝ} (h : x0.shape = s) (G : ℝ → Matrix (box S) (box R) ℝ) (a : ℝ) :
    arrCurve n T S R s x0 G a a = x0 := by
  obtain ⟨s0, g⟩ := x0
  simp only at h
  subst h
  simp [arrCurve]

lemma arrCurve_view {n : ℕ} {s : List ℕ} {x0 : Arr ℝ} (hn : T.Nodup) (hl : ∀ k ∈ T, k < n) (hS : S = sizesAt (otherAxes n T) s)
    (hR : R = sizesAt T s) {G : ℝ → Matrix (box S) (box R) ℝ} {a : ℝ} (h0 : viewAt [] n T S R x0 = G a) (σ : ℝ) :
    viewAt [] n T S R (arrCurve n T S R s x0 G a σ) = G σ := by
  ext p r
  have := congrFun (congrFun h0 p) r
  simp only [viewAt, List.nil_append] at this
  simp only [viewAt, List.nil_append, arrCurve, extend_join hn hl hS hR, this]
  ring

/-- Its derivative in scaled time. -/
lemma arrCurve_deriv {n : ℕ} {s : List ℕ} {x0 d : Arr ℝ} (hn : T.Nodup) (hl : ∀ k ∈ T, k < n) (hs : s.length = n)
    (hS : S = sizesAt (otherAxes n T) s) (hR : R = sizesAt T s) {G G' : ℝ → Matrix (box S) (box R) ℝ} {a τ rate : ℝ} (hr : 0 < rate)
    (I : Set ℝ) (hG : ∀ τ p r, HasDerivAt (fun τ => G τ p r) (rate * G' τ p r) τ) (hd : d.shape = s)
    (hd' : viewAt [] n T S R d = G' (τ / rate)) : ArrDeriv (fun σ => arrCurve n T S R s x0 G a (σ / rate)) d I τ := by
  refine ⟨fun σ _ => hd.symm, fun i hi => ?_⟩
  rw [hd] at hi
  obtain ⟨p, r, rfl⟩ := exists_joinIdx hs hl hS hR hi
  simp only [arrCurve, extend_join hn hl hS hR]
  have h1 : HasDerivAt (fun σ : ℝ => σ / rate) (1 / rate) τ := (hasDerivAt_id τ).div_const rate
  have h2 := ((HasDerivAt.comp τ (hG (τ / rate) p r) h1).sub_const (G a p r)).const_add (x0.get (joinIdx n T p.1 r.1))
  refine (h2.congr_deriv ?_).hasDerivWithinAt
  have := congrFun (congrFun hd' p) r
  simp only [viewAt, List.nil_append] at this
  rw [this]
  field_simp

/-- Antiderivatives of the residuals. -/
lemma exists_driven {ι ι' κ : Type} [Fintype ι] (c a : ℝ) (K' : Matrix ι' ι ℝ) (Y : Matrix ι κ ℝ) (F : ℝ → Matrix ι κ ℝ)
    (hF : ∀ p r, Continuous fun τ => F τ p r) (X : Matrix ι' κ ℝ) : ∃ G, G a = X ∧ Driven c K' Y F G := by
  refine ⟨fun τ p r => X p r + ∫ u in a..τ, -(c * (K' * (F u - Y)) p r), ?_, ?_⟩
  · ext p r
    simp
  · intro τ p r
    have hc : Continuous fun u => -(c * (K' * (F u - Y)) p r) := by
      simp only [mul_apply, Matrix.sub_apply]
      exact (continuous_const.mul (continuous_finsetSum _ fun q _ => continuous_const.mul ((hF q r).sub continuous_const))).neg
    exact (hc.integral_hasStrictDerivAt a τ).hasDerivAt.const_add _

/-- Flows from a given value at a given time. -/
lemma exists_flow_at {ι κ : Type} [Fintype ι] [DecidableEq ι] (c a : ℝ) {K : Matrix ι ι ℝ} (hK : K.IsSymm) (X Y : Matrix ι κ ℝ) :
    ∃ F, F a = X ∧ Flow c K Y F := by
  obtain ⟨V, lam, h1, rfl⟩ := exists_fc K hK
  refine ⟨fun τ => Spectral.sol V lam c X Y (τ - a), by simp [Spectral.sol_zero], fun τ p r => ?_⟩
  have h2 : HasDerivAt (fun σ : ℝ => σ - a) 1 τ := (hasDerivAt_id τ).sub_const a
  refine (HasDerivAt.comp τ (Spectral.sol_flow h1 lam c X Y (τ - a) p r) h2).congr_deriv ?_
  rw [mul_one]

lemma outIs_of {n : ℕ} {s : List ℕ} {o : Option (Arr ℝ)} {f : ℝ → Arr ℝ} {F : ℝ → Matrix (box S) (box R) ℝ} {I : Set ℝ}
    (hs : s.length = n) (hS : S = sizesAt (otherAxes n T) s) (hR : R = sizesAt T s) (h : ValuesAt o t s f)
    (hI : ∀ tj, InRange tj t.shape → t.get tj ∈ I) (hF : ∀ τ ∈ I, viewAt [] n T S R (f τ) = F τ) : OutIs o t n T S R s F := by
  obtain ⟨a, a1, a2, a3⟩ := h
  refine ⟨a, a1, a2, fun tj htj => ?_⟩
  rw [← hF _ (hI tj htj)]
  ext p r
  simp only [viewAt, List.nil_append]
  exact a3 tj _ htj (view_inRange hs hS hR p r)

lemma flow_continuous {ι κ : Type} [Fintype ι] {c : ℝ} {K : Matrix ι ι ℝ} {Y : Matrix ι κ ℝ} {F : ℝ → Matrix ι κ ℝ} (h : Flow c K Y F)
    (p : ι) (r : κ) : Continuous fun τ => F τ p r :=
  continuous_iff_continuousAt.2 fun τ => (h τ p r).continuousAt

/-- **C68**, mean squared error, training points: for every symmetric kernel the call returns the values of the curve that starts at the
initial outputs and satisfies `f' = - lr / |y| K (f - y)`, the equation of `gradient_descent_mse` (`C61.train_flow`). -/
theorem mse_train (hb : bk.Correct) (hode : ode.Correct) (h : m.Fits bk T S R) (hm : m.momentum = none)
    (hL : IsGradient (mseLoss m.yTrain) m.gradLoss m.yTrain.shape) (hK : (pairMat S S m.kTrainTrain).IsSymm) (ht : Times t t0 t1)
    (fx : Arr ℝ) (hx : FitsShape m.yTrain.shape (some fx)) :
    ∃ F, F (startTime m.learningRate t0) = initView m.yTrain.ndim T S R (some fx) ∧
      Flow (m.learningRate / m.yTrain.shape.prod) (pairMat S S m.kTrainTrain) (viewAt [] m.yTrain.ndim T S R m.yTrain) F ∧
      ∃ o, m.predict bk ode t (.outputs (some fx)) none none = .ok (.one o) ∧ OutIs o t m.yTrain.ndim T S R m.yTrain.shape F := by
  have hrate : m.rate = m.learningRate := by simp [Gd.rate, hm]
  have hfric : m.friction = none := by simp [Gd.friction, hm]
  have hr := h.rate
  obtain ⟨hn, hl, hSl, hRl, hkn⟩ := h.lengths hb
  obtain ⟨-, -, hab, hmem⟩ := times_ok ht hr
  obtain ⟨F, F0, hF⟩ := exists_flow_at (m.learningRate / m.yTrain.shape.prod) (startTime m.learningRate t0) hK
    (initView m.yTrain.ndim T S R (some fx)) (viewAt [] m.yTrain.ndim T S R m.yTrain)
  refine ⟨F, F0, hF, ?_⟩
  obtain ⟨x0, x1, x2, x3⟩ := orZeros_ok (n := m.yTrain.ndim) (some fx) rfl h.rows h.cols hx
  set a := startTime m.learningRate t0 with ha
  have hview : ∀ σ, viewAt [] m.yTrain.ndim T S R (arrCurve m.yTrain.ndim T S R m.yTrain.shape x0 F a σ) = F σ :=
    arrCurve_view hn hl h.rows h.cols (x3.trans F0.symm)
  have hsol : Solves (m.dstate T none) (a * m.learningRate) (t1 * m.learningRate)
      fun σ => ⟨some (arrCurve m.yTrain.ndim T S R m.yTrain.shape x0 F a (σ / m.learningRate)), none, none, none⟩ := by
    intro τ hτ
    obtain ⟨d, d1, d2, d3⟩ := force_ok hb h m.kTrainTrain
      (m.gradLoss (arrCurve m.yTrain.ndim T S R m.yTrain.shape x0 F a (τ / m.learningRate))) m.yTrain.shape S h.kernel
      (hL.shape _ rfl) rfl h.rows h.cols
    refine ⟨⟨some d, none, none, none⟩, ?_, ⟨_, fun σ _ => rfl, ?_⟩, fun _ _ => rfl, fun _ _ => rfl, fun _ _ => rfl⟩
    · simp only [Gd.dstate, bind, Except.bind, pure, Except.pure, d1, hfric]
    · refine arrCurve_deriv (G := F) (G' := fun τ => -(pairMat S S m.kTrainTrain * ((1 / (m.yTrain.shape.prod : ℝ)) • (F τ -
        viewAt [] m.yTrain.ndim T S R m.yTrain)))) hn hl rfl h.rows h.cols hr _ (fun τ p r => (hF τ p r).congr_deriv ?_) d2 ?_
      · rw [Matrix.neg_apply, Matrix.mul_smul, Matrix.smul_apply, smul_eq_mul]
        ring
      · ext p r
        rw [d3, mse_grad_view hL h.rows h.cols (x := arrCurve m.yTrain.ndim T S R m.yTrain.shape x0 F a (τ / m.learningRate)) rfl, hview]
        rfl
  obtain ⟨o, ho⟩ := predict_total (γ := fun σ => ⟨some (arrCurve m.yTrain.ndim T S R m.yTrain.shape x0 F a (σ / m.learningRate)),
      none, none, none⟩) (s' := m.yTrain.shape) (s0 := ⟨some x0, none, none, none⟩) (init := .outputs (some fx))
    (fxTest := none) (ktd := none) hode h ht rfl rfl (by
      simp only [Gd.state0, Gd.parts, bind, Except.bind, pure, Except.pure, x1, hfric]
      rfl) (by
      simp only [hrate]
      rw [mul_div_cancel_right₀ _ hr.ne', arrCurve_start x2]) (by rw [hrate]; exact hsol)
  obtain ⟨f, f1, f2, f3, f4, -⟩ := flow hb hode h hm hL ht (init := .outputs (some fx)) (fxTest := none) hx ho
  have hone : ∃ o', o = .one o' := by
    obtain ⟨s', s0, γ, -, -, -, -, p5⟩ := predict_run hode h ht ho
    exact ⟨_, p5⟩
  obtain ⟨o', rfl⟩ := hone
  refine ⟨o', ho, outIs_of rfl h.rows h.cols (f4 rfl) hmem ?_⟩
  refine flow_on_unique hK (c := m.learningRate / m.yTrain.shape.prod) (Y := viewAt [] m.yTrain.ndim T S R m.yTrain) ?_
    (fun τ _ p r => (hF τ p r).hasDerivWithinAt) (f2.trans F0.symm)
  intro τ hτ p r
  refine (f3 τ hτ p r).congr_deriv ?_
  rw [mse_grad_view hL h.rows h.cols (f1 τ hτ), Matrix.mul_smul, Matrix.smul_apply, smul_eq_mul]
  ring

/-- **C68**, mean squared error, test points: in addition the test outputs are the values of the curve driven by the train residuals,
`f_test' = - lr / |y| K_td (f - y)` (`C61.test_flow`). -/
theorem mse_test (hb : bk.Correct) (hode : ode.Correct) (h : m.Fits bk T S R) (hm : m.momentum = none)
    (hL : IsGradient (mseLoss m.yTrain) m.gradLoss m.yTrain.shape) (hK : (pairMat S S m.kTrainTrain).IsSymm) (ht : Times t t0 t1)
    (fx : Option (Arr ℝ)) (hx : FitsShape m.yTrain.shape fx) (xt k : Arr ℝ) (s' S' : List ℕ) (htf : m.TestFits T S R xt k s' S') :
    ∃ F G, F (startTime m.learningRate t0) = initView m.yTrain.ndim T S R fx ∧
      G (startTime m.learningRate t0) = initView m.yTrain.ndim T S' R (some xt) ∧
      Flow (m.learningRate / m.yTrain.shape.prod) (pairMat S S m.kTrainTrain) (viewAt [] m.yTrain.ndim T S R m.yTrain) F ∧
      Driven (m.learningRate / m.yTrain.shape.prod) (pairMat S' S k) (viewAt [] m.yTrain.ndim T S R m.yTrain) F G ∧
      ∃ o, m.predict bk ode t (.outputs fx) (some xt) (some k) = .ok o ∧
        (fx.isSome → OutIs (trainOf o) t m.yTrain.ndim T S R m.yTrain.shape F) ∧ OutIs (testOf o) t m.yTrain.ndim T S' R s' G := by
  have hrate : m.rate = m.learningRate := by simp [Gd.rate, hm]
  have hfric : m.friction = none := by simp [Gd.friction, hm]
  have hr := h.rate
  obtain ⟨hn, hl, hSl, hRl, hkn⟩ := h.lengths hb
  obtain ⟨-, -, hab, hmem⟩ := times_ok ht hr
  have hSS : S'.length = S.length := by rw [htf.rows, ← hSl]; simp [sizesAt]
  obtain ⟨F, F0, hF⟩ := exists_flow_at (m.learningRate / m.yTrain.shape.prod) (startTime m.learningRate t0) hK
    (initView m.yTrain.ndim T S R fx) (viewAt [] m.yTrain.ndim T S R m.yTrain)
  obtain ⟨G, G0, hG⟩ := exists_driven (m.learningRate / m.yTrain.shape.prod) (startTime m.learningRate t0) (pairMat S' S k)
    (viewAt [] m.yTrain.ndim T S R m.yTrain) F (flow_continuous hF) (initView m.yTrain.ndim T S' R (some xt))
  refine ⟨F, G, F0, G0, hF, hG, ?_⟩
  obtain ⟨x0, x1, x2, x3⟩ := orZeros_ok (n := m.yTrain.ndim) fx rfl h.rows h.cols hx
  obtain ⟨z0, z1, z2, z3⟩ := orZeros_ok (n := m.yTrain.ndim) (some xt) htf.rank htf.rows htf.cols htf.init
  have z1' : broadcastTo xt s' = .ok z0 := z1
  set a := startTime m.learningRate t0 with ha
  have hview : ∀ σ, viewAt [] m.yTrain.ndim T S R (arrCurve m.yTrain.ndim T S R m.yTrain.shape x0 F a σ) = F σ :=
    arrCurve_view hn hl h.rows h.cols (x3.trans F0.symm)
  have hsol : Solves (m.dstate T (some k)) (a * m.learningRate) (t1 * m.learningRate)
      fun σ => ⟨some (arrCurve m.yTrain.ndim T S R m.yTrain.shape x0 F a (σ / m.learningRate)),
        some (arrCurve m.yTrain.ndim T S' R s' z0 G a (σ / m.learningRate)), none, none⟩ := by
    intro τ hτ
    obtain ⟨d, d1, d2, d3⟩ := force_ok hb h m.kTrainTrain
      (m.gradLoss (arrCurve m.yTrain.ndim T S R m.yTrain.shape x0 F a (τ / m.learningRate))) m.yTrain.shape S h.kernel
      (hL.shape _ rfl) rfl h.rows h.cols
    obtain ⟨e, e1, e2, e3⟩ := force_ok hb h k
      (m.gradLoss (arrCurve m.yTrain.ndim T S R m.yTrain.shape x0 F a (τ / m.learningRate))) s' S' htf.kernel
      (hL.shape _ rfl) htf.rank htf.rows htf.cols
    refine ⟨⟨some d, some e, none, none⟩, ?_, ⟨_, fun σ _ => rfl, ?_⟩, ⟨_, fun σ _ => rfl, ?_⟩, fun _ _ => rfl, fun _ _ => rfl⟩
    · simp only [Gd.dstate, bind, Except.bind, pure, Except.pure, d1, e1, hfric, Except.map]
    · refine arrCurve_deriv (G := F) (G' := fun τ => -(pairMat S S m.kTrainTrain * ((1 / (m.yTrain.shape.prod : ℝ)) • (F τ -
        viewAt [] m.yTrain.ndim T S R m.yTrain)))) hn hl rfl h.rows h.cols hr _ (fun τ p r => (hF τ p r).congr_deriv ?_) d2 ?_
      · rw [Matrix.neg_apply, Matrix.mul_smul, Matrix.smul_apply, smul_eq_mul]
        ring
      · ext p r
        rw [d3, mse_grad_view hL h.rows h.cols (x := arrCurve m.yTrain.ndim T S R m.yTrain.shape x0 F a (τ / m.learningRate)) rfl, hview]
        rfl
    · refine arrCurve_deriv (G := G) (G' := fun τ => -(pairMat S' S k * ((1 / (m.yTrain.shape.prod : ℝ)) • (F τ -
        viewAt [] m.yTrain.ndim T S R m.yTrain)))) hn hl htf.rank htf.rows htf.cols hr _ (fun τ p r => (hG τ p r).congr_deriv ?_) e2 ?_
      · rw [Matrix.neg_apply, Matrix.mul_smul, Matrix.smul_apply, smul_eq_mul]
        ring
      · ext p r
        rw [e3, mse_grad_view hL h.rows h.cols (x := arrCurve m.yTrain.ndim T S R m.yTrain.shape x0 F a (τ / m.learningRate)) rfl, hview]
        rfl
  obtain ⟨o, ho⟩ := predict_total (γ := fun σ => ⟨some (arrCurve m.yTrain.ndim T S R m.yTrain.shape x0 F a (σ / m.learningRate)),
      some (arrCurve m.yTrain.ndim T S' R s' z0 G a (σ / m.learningRate)), none, none⟩) (s' := s') (s0 := ⟨some x0, some z0, none, none⟩) (init := .outputs fx)
    (fxTest := some xt) (ktd := some k) hode h ht (by cases fx <;> rfl)
    (fxTestShape_ok (axesOf_self hb h.axes) htf.kernel hSS htf.rank htf.rows (h.cols ▸ htf.cols)) (by
      simp only [Gd.state0, Gd.parts, bind, Except.bind, pure, Except.pure, x1, z1', hfric, Except.map]
      rfl) (by
      simp only [hrate]
      rw [mul_div_cancel_right₀ _ hr.ne', arrCurve_start x2, arrCurve_start z2]) (by rw [hrate]; exact hsol)
  obtain ⟨f, f1, f2, f3, f4, f5⟩ := flow hb hode h hm hL ht (init := .outputs fx) (fxTest := some xt) hx ho
  obtain ⟨g, g1, g2, g3, g4⟩ := f5 xt k s' S' rfl rfl htf
  have hfF : ∀ τ ∈ Set.Icc a t1, viewAt [] m.yTrain.ndim T S R (f τ) = F τ := by
    refine flow_on_unique hK (c := m.learningRate / m.yTrain.shape.prod) (Y := viewAt [] m.yTrain.ndim T S R m.yTrain) ?_
      (fun τ _ p r => (hF τ p r).hasDerivWithinAt) (f2.trans F0.symm)
    intro τ hτ p r
    refine (f3 τ hτ p r).congr_deriv ?_
    rw [mse_grad_view hL h.rows h.cols (f1 τ hτ), Matrix.mul_smul, Matrix.smul_apply, smul_eq_mul]
    ring
  refine ⟨o, ho, fun hs => outIs_of rfl h.rows h.cols (f4 hs) hmem hfF, outIs_of htf.rank htf.rows htf.cols g4 hmem ?_⟩
  intro τ hτ
  ext p r
  have hz : ∀ τ ∈ Set.Icc a t1, HasDerivWithinAt (fun σ => viewAt [] m.yTrain.ndim T S' R (g σ) p r - G σ p r) 0 (Set.Icc a t1) τ := by
    intro τ hτ
    refine ((g3 τ hτ p r).sub (hG τ p r).hasDerivWithinAt).congr_deriv ?_
    rw [mse_grad_view hL h.rows h.cols (f1 τ hτ), Matrix.mul_smul, Matrix.smul_apply, smul_eq_mul, hfF τ hτ]
    ring
  have := const_on hz τ hτ
  have e := congrFun (congrFun (g2.trans G0.symm) p) r
  rw [e, sub_self] at this
  exact sub_eq_zero.1 this

lemma flow_shift {ι κ : Type} [Fintype ι] {c a : ℝ} {K : Matrix ι ι ℝ} {Y : Matrix ι κ ℝ} {F : ℝ → Matrix ι κ ℝ} (h : Flow c K Y F) :
    Flow c K Y fun τ => F (τ + a) :=
  fun τ p r => (h (τ + a) p r).comp_add_const τ a

lemma driven_shift {ι ι' κ : Type} [Fintype ι] {c a : ℝ} {K : Matrix ι' ι ℝ} {Y : Matrix ι κ ℝ} {F : ℝ → Matrix ι κ ℝ}
    {G : ℝ → Matrix ι' κ ℝ} (h : Driven c K Y F G) : Driven c K Y (fun τ => F (τ + a)) fun τ => G (τ + a) :=
  fun τ p r => (h (τ + a) p r).comp_add_const τ a

/-- **C68**, agreement: with the mean squared error, and for every positive definite kernel, `gradient_descent` returns the train and
test outputs that `gradient_descent_mse` without regulariser returns for the times since the start of the integration (the same times
unless the first one is zero). -/
theorem agrees_with_mse (hb : bk.Correct) (hode : ode.Correct) (h : m.Fits bk T S R) (hm : m.momentum = none)
    (hne : m.yTrain.shape.prod ≠ 0) (hL : IsGradient (mseLoss m.yTrain) m.gradLoss m.yTrain.shape)
    (hK : (pairMat S S m.kTrainTrain).PosDef) (ht : Times t t0 t1) (absolute : Bool)
    (fx : Arr ℝ) (hx : FitsShape m.yTrain.shape (some fx)) (xt k : Arr ℝ) (s' S' : List ℕ) (htf : m.TestFits T S R xt k s' S') :
    ∃ o a a' b b', m.predict bk ode t (.outputs (some fx)) (some xt) (some k) = .ok o ∧ trainOf o = some a ∧ testOf o = some a' ∧
      (Mse.mk m.kTrainTrain m.yTrain m.learningRate 0 absolute m.traceAxes).predict bk
        (some (t.map fun τ => τ - startTime m.learningRate t0)) (some fx) (some xt) (some k) = .ok (some b, some b') ∧
      a ≋ b ∧ a' ≋ b' := by
  have hs := C61.symm_of hK.posSemidef
  obtain ⟨-, hl, -⟩ := h.lengths hb
  have hreg : regMat 0 absolute (pairMat S S m.kTrainTrain) = pairMat S S m.kTrainTrain := by
    cases absolute <;> simp [regMat]
  obtain ⟨F, G, f1, f2, f3, f4, o, f5, f6, f7⟩ := mse_test hb hode h hm hL hs ht (some fx) hx xt k s' S' htf
  obtain ⟨F', G', g1, g2, g3, g4, g5⟩ := C61.test_flow
    (m := ⟨m.kTrainTrain, m.yTrain, m.learningRate, 0, absolute, m.traceAxes⟩) (S := S) (R := R) hb ⟨h.axes, h.rows, h.cols, h.kernel, hne⟩
    (by simpa only [hreg] using hK) (some fx) hx xt k s' S' ⟨htf.rank, htf.rows, htf.cols, htf.kernel, htf.init⟩
  dsimp only at g1 g2 g3 g4 g5
  rw [hreg] at g3
  obtain ⟨p, p', g5, -, g6, g7⟩ := g5 (t.map fun τ => τ - startTime m.learningRate t0)
  set a := startTime m.learningRate t0
  have e1 : (fun τ => F (τ + a)) = F' := C61.flow_unique _ _ hs _ _ _ (flow_shift f3) g3 (by rw [zero_add, f1, g1])
  have e2 : (fun τ => G (τ + a)) = G' := C61.driven_unique _ _ _ _ _ _ (driven_shift f4) (by rw [e1]; exact g4) (by rw [zero_add, f2, g2])
  obtain ⟨x, x1, -⟩ := id (f6 rfl)
  obtain ⟨y, y1, -⟩ := id f7
  obtain ⟨b, rfl, -⟩ := id (g6 rfl)
  obtain ⟨b', rfl, -⟩ := id g7
  refine ⟨o, x, y, b, b', f5, x1, y1, g5, outIs_eqv (t := t) (F := F) rfl hl h.rows h.cols (x1 ▸ f6 rfl) (g6 rfl) rfl fun tj _ => ?_,
    outIs_eqv (t := t) (F := G) htf.rank hl htf.rows htf.cols (y1 ▸ f7) g7 rfl fun tj _ => ?_⟩
  · rw [← e1]; simp [Arr.map]
  · rw [← e2]; simp [Arr.map]

/-! ### Instances -/

open Classical in
/-- A solver that returns the values of a solution whenever there is one. -/
noncomputable def exactOde : OdeInt := fun field s0 ts => match ts with
  | [] => .ok []
  | a :: ts => if h : ∃ γ, γ a = s0 ∧ Solves field a ((a :: ts).getLast (by simp)) γ then .ok ((a :: ts).map h.choose) else .error .valueError

lemma exactOde_correct : exactOde.Correct where
  sound := by
    intro field s0 a ts b out _ hb ho
    unfold exactOde at ho
    simp only at ho
    split_ifs at ho with h
    cases ho
    exact ⟨h.choose, h.choose_spec.1, hb ▸ h.choose_spec.2, rfl⟩
  total := by
    intro field s0 a ts b _ hb h
    unfold exactOde
    simp only
    subst hb
    rw [dif_pos h]
    exact ⟨_, rfl⟩

/-- Two training points, one output. -/
noncomputable def exG : Gd where
  gradLoss x := ⟨[2, 1], fun i => 1 / 2 * (x.get i - C61.exM.yTrain.get i)⟩
  kTrainTrain := C61.exM.kTrainTrain
  yTrain := C61.exM.yTrain
  learningRate := 1 / 2
  momentum := none
  traceAxes := [-1]

lemma exG_fits : exG.Fits exact [1] [2] [1] :=
  ⟨C61.exM_fits.axes, by simp, C61.exM_fits.rows, C61.exM_fits.cols, C61.exM_fits.kernel, by norm_num [exG]⟩

lemma exG_gradient : IsGradient (mseLoss exG.yTrain) exG.gradLoss exG.yTrain.shape where
  shape _ _ := rfl
  partials x hx i hi := (mse_deriv exG.yTrain x hi).congr_deriv (by norm_num [exG, C61.exM]; ring)

lemma exTimes : Times ⟨[3], fun i => i.getD 0 0⟩ 0 2 where
  nonempty := by decide
  increasing i j hi hj h := by
    cases hi with
    | cons hi ti => cases ti; cases hj with
      | cons hj tj => cases tj; simpa [ravel] using h
  first := by simp [unravel]
  last := by simp [unravel]
  nonneg := le_rfl

example := mse_train exact_correct exactOde_correct exG_fits rfl exG_gradient (C61.symm_of C61.exM_kernel_posDef.posSemidef) exTimes
  ⟨[2, 1], fun i => 3 - i.getD 0 0⟩ (Or.inl rfl)

example := mse_test exact_correct exactOde_correct exG_fits rfl exG_gradient (C61.symm_of C61.exM_kernel_posDef.posSemidef) exTimes
  none trivial ⟨[3, 1], fun i => i.getD 0 0⟩ ⟨[3, 2], fun i => i.getD 1 0⟩ [3, 1] [3] ⟨rfl, by decide, by decide, by decide, Or.inl rfl⟩

example := agrees_with_mse exact_correct exactOde_correct exG_fits rfl (by decide) exG_gradient C61.exM_kernel_posDef exTimes true
  ⟨[], fun _ => 1⟩ (Or.inr rfl) ⟨[3, 1], fun i => i.getD 0 0⟩ ⟨[3, 2], fun i => i.getD 1 0⟩ [3, 1] [3]
  ⟨rfl, by decide, by decide, by decide, Or.inl rfl⟩

example : ∃ o, exG.predict exact exactOde ⟨[3], fun i => i.getD 0 0⟩ (.outputs (some ⟨[], fun _ => 1⟩)) none none = .ok o ∧
    ∃ f : ℝ → Arr ℝ, GradientFlow (Set.Icc (startTime (1 / 2) 0) 2) (1 / 2) (pairMat [2] [2] exG.kTrainTrain) 2 [1] [1] exG.gradLoss f f := by
  obtain ⟨-, -, -, o, ho, -⟩ := mse_train exact_correct exactOde_correct exG_fits rfl exG_gradient
    (C61.symm_of C61.exM_kernel_posDef.posSemidef) exTimes ⟨[], fun _ => 1⟩ (Or.inr rfl)
  obtain ⟨f, -, -, hf, -⟩ := flow (init := .outputs (some ⟨[], fun _ => 1⟩)) (fxTest := none) exact_correct exactOde_correct exG_fits rfl
    exG_gradient exTimes (Or.inr rfl) ho
  exact ⟨_, ho, f, hf⟩

/-- The same data, the loss `∑ x` and momentum. -/
noncomputable def exH : Gd := { exG with gradLoss := fun _ => ⟨[2, 1], fun _ => 1⟩, momentum := some (1 / 2) }

lemma exH_fits : exH.Fits exact [1] [2] [1] :=
  ⟨C61.exM_fits.axes, by simp, C61.exM_fits.rows, C61.exM_fits.cols, C61.exM_fits.kernel, by norm_num [exH, exG]⟩

lemma exH_gradient : IsGradient (fun x => ∑ i ∈ box [2, 1], x.get i) exH.gradLoss exH.yTrain.shape where
  shape _ _ := rfl
  partials x hx i hi := by
    have : (fun h : ℝ => ∑ j ∈ box [2, 1], (bump x i h).get j) = fun h => ∑ j ∈ box [2, 1], (x.get j + if j = i then h else 0) := by
      funext h
      refine Finset.sum_congr rfl fun j _ => ?_
      simp only [bump]
      split_ifs with e <;> simp [e]
    rw [this]
    have hm : i ∈ box [2, 1] := mem_box.2 hi
    simp only [Finset.sum_add_distrib, Finset.sum_ite_eq', hm, if_true]
    exact (hasDerivAt_id (0 : ℝ)).const_add _

lemma exH_ok : ∃ o, exH.predict exact exactOde ⟨[3], fun i => i.getD 0 0⟩ (.outputs (some ⟨[2, 1], fun i => i.getD 0 0⟩)) none none = .ok o := by
  obtain ⟨d, d1, d2, -⟩ := force_ok exact_correct exH_fits exH.kTrainTrain ⟨[2, 1], fun _ => 1⟩ [2, 1] [2] rfl rfl rfl
    C61.exM_fits.rows C61.exM_fits.cols
  obtain ⟨⟨x0s, x0⟩, x1, x2, -⟩ := orZeros_ok (n := 2) (T := [1]) (S := [2]) (R := [1]) (s := [2, 1]) (some ⟨[2, 1], fun i => (i.getD 0 0 : ℝ)⟩) rfl
    C61.exM_fits.rows C61.exM_fits.cols (Or.inl rfl)
  dsimp only at x2
  subst x2
  set b : ℝ := ((1 / 2 : ℝ) - 1) / √(1 / 2) with hb
  have hbn : b ≠ 0 := by
    rw [hb]
    exact div_ne_zero (by norm_num) (Real.sqrt_ne_zero'.2 (by norm_num))
  set a : ℝ := startTime exH.rate 0 * exH.rate with ha
  have hv : ∀ τ I, HasDerivWithinAt (fun σ => (Real.exp (b * (σ - a)) - 1) / b) (1 + b * ((Real.exp (b * (τ - a)) - 1) / b)) I τ := by
    intro τ I
    have h1 : HasDerivAt (fun σ => b * (σ - a)) (b * 1) τ := ((hasDerivAt_id τ).sub_const a).const_mul b
    refine ((h1.exp.sub_const 1).div_const b).hasDerivWithinAt.congr_deriv ?_
    field_simp
    ring
  have hu : ∀ τ I, HasDerivWithinAt (fun σ => ((Real.exp (b * (σ - a)) - 1) / b - (σ - a)) / b) ((Real.exp (b * (τ - a)) - 1) / b) I τ := by
    intro τ I
    have h2 : HasDerivWithinAt (fun σ => σ - a) 1 I τ := ((hasDerivAt_id τ).sub_const a).hasDerivWithinAt
    refine (((hv τ I).sub h2).div_const b).congr_deriv ?_
    field_simp
    ring
  refine predict_total (s0 := ⟨some ⟨[2, 1], x0⟩, none, some ⟨[2, 1], fun _ => 0⟩, none⟩)
    (γ := fun σ => ⟨some ⟨[2, 1], fun i => x0 i + ((Real.exp (b * (σ - a)) - 1) / b - (σ - a)) / b * d.get i⟩, none,
      some ⟨[2, 1], fun i => (Real.exp (b * (σ - a)) - 1) / b * d.get i⟩, none⟩)
    exactOde_correct exH_fits exTimes rfl rfl (by
      have hf : exH.friction = some b := rfl
      have x1' : Gd.orZeros (some ⟨[2, 1], fun i => (i.getD 0 0 : ℝ)⟩) exH.yTrain.shape = .ok ⟨[2, 1], x0⟩ := x1
      simp only [Gd.state0, Gd.parts, bind, Except.bind, pure, Except.pure, x1', hf]
      rfl) (by rw [← ha]; simp) fun τ hτ => ?_
  refine ⟨⟨some ⟨[2, 1], fun i => (Real.exp (b * (τ - a)) - 1) / b * d.get i⟩, none,
    some ⟨[2, 1], fun i => d.get i + b * ((Real.exp (b * (τ - a)) - 1) / b * d.get i)⟩, none⟩, ?_, ⟨_, fun σ _ => rfl, ?_⟩, fun _ _ => rfl,
    ⟨_, fun σ _ => rfl, ?_⟩, fun _ _ => rfl⟩
  · have hf : exH.friction = some b := rfl
    have hg : ∀ x, exH.gradLoss x = ⟨[2, 1], fun _ => 1⟩ := fun _ => rfl
    simp only [Gd.dstate, bind, Except.bind, pure, Except.pure, hg, d1, hf]
    simp [zipB, d2]
  · exact ⟨fun _ _ => rfl, fun i _ => ((hu τ _).mul_const (d.get i)).const_add _⟩
  · refine ⟨fun _ _ => rfl, fun i _ => ((hv τ _).mul_const (d.get i)).congr_deriv ?_⟩
    dsimp only
    ring

example : ∃ (f : ℝ → Arr ℝ) (v : ℝ → Matrix (box [2]) (box [1]) ℝ),
    HeavyBall (Set.Icc (startTime √(1 / 2) 0) 2) (1 / 2) (1 / 2) (pairMat [2] [2] exH.kTrainTrain) 2 [1] [1] exH.gradLoss f f v := by
  obtain ⟨o, ho⟩ := exH_ok
  obtain ⟨f, v, -, -, -, hf, -⟩ := heavy_ball (init := .outputs (some ⟨[2, 1], fun i => i.getD 0 0⟩)) (fxTest := none) exact_correct
    exactOde_correct exH_fits rfl exH_gradient exTimes (Or.inl rfl) trivial ho
  exact ⟨f, v, hf⟩

end NT.C68
