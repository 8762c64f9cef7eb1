import Verif.Lemmas.GradDesc3
import Verif.Props.C61

/-!
# C68: `gradient_descent` integrates the gradient flow, or the heavy ball with momentum
-/

namespace NT.C68
open NT Arr Spec Matrix Predict

variable {bk : Backend} {ode : OdeInt} {m : Gd} {T S R : List ℕ} {t : Arr ℝ} {t0 t1 : ℝ} {init : OdeInit}
  {fxTest ktd : Option (Arr ℝ)} {o : OdeOut}

lemma train_selected {init : OdeInit} (h : ReturnsTrain init) (fxTest : Option (Arr ℝ)) (out : OdeState) :
    trainOf (Gd.select init fxTest out) = out.fxTrain := by
  cases init with
  | state s => rfl
  | outputs fx =>
    simp only [ReturnsTrain] at h
    obtain ⟨x, rfl⟩ := Option.isSome_iff_exists.1 h
    cases fxTest <;> simp [Gd.select, trainOf]

lemma test_selected {init : OdeInit} {fxTest : Option (Arr ℝ)} {f : Arr ℝ} (h : (initParts init fxTest).fxTest = some f) (out : OdeState) :
    testOf (Gd.select init fxTest out) = out.fxTest := by
  cases init with
  | state s => rfl
  | outputs fx =>
    simp only [initParts] at h
    subst h
    cases fx <;> simp [Gd.select, testOf]

lemma scaled_mem {rate a b τ : ℝ} (hr : 0 < rate) (h : τ ∈ Set.Icc a b) : τ * rate ∈ Set.Icc (a * rate) (b * rate) :=
  ⟨mul_le_mul_of_nonneg_right h.1 hr.le, mul_le_mul_of_nonneg_right h.2 hr.le⟩

/-- **C68**, without momentum. If the call returns, the outputs are the values of curves that start at the given initial values
(zeros for missing ones) and follow the gradient flow of the loss, `f' = - lr K_dd ∇L(f)` on the training points and
`f_test' = - lr K_td ∇L(f)` on the test points. -/
theorem flow (hb : bk.Correct) (hode : ode.Correct) (h : m.Fits bk T S R) (hm : m.momentum = none) {L : Arr ℝ → ℝ}
    (hL : IsGradient L m.gradLoss m.yTrain.shape) (ht : Times t t0 t1) (hx : FitsShape m.yTrain.shape (initParts init fxTest).fxTrain)
    (ho : m.predict bk ode t init fxTest ktd = .ok o) :
    ∃ f : ℝ → Arr ℝ, (∀ τ ∈ Set.Icc (startTime m.learningRate t0) t1, (f τ).shape = m.yTrain.shape) ∧
      viewAt [] m.yTrain.ndim T S R (f (startTime m.learningRate t0)) = initView m.yTrain.ndim T S R (initParts init fxTest).fxTrain ∧
      GradientFlow (Set.Icc (startTime m.learningRate t0) t1) m.learningRate (pairMat S S m.kTrainTrain) m.yTrain.ndim T R m.gradLoss f f ∧
      (ReturnsTrain init → ValuesAt (trainOf o) t m.yTrain.shape f) ∧
      ∀ xt k s' S', (initParts init fxTest).fxTest = some xt → ktd = some k → m.TestFits T S R xt k s' S' →
        ∃ g : ℝ → Arr ℝ, (∀ τ ∈ Set.Icc (startTime m.learningRate t0) t1, (g τ).shape = s') ∧
          viewAt [] m.yTrain.ndim T S' R (g (startTime m.learningRate t0)) = initView m.yTrain.ndim T S' R (some xt) ∧
          GradientFlow (Set.Icc (startTime m.learningRate t0) t1) m.learningRate (pairMat S' S k) m.yTrain.ndim T R m.gradLoss f g ∧
          ValuesAt (testOf o) t s' g := by
  have hrate : m.rate = m.learningRate := by simp [Gd.rate, hm]
  have hr := h.rate
  obtain ⟨hn, hl, hSl, hRl, hkn⟩ := h.lengths hb
  obtain ⟨s1, s0, γ, p1, p2, p3, p4, p5⟩ := predict_run hode h ht ho
  rw [hrate] at p3 p4 p5
  obtain ⟨-, -, hab, -⟩ := times_ok ht hr
  set a := startTime m.learningRate t0 with ha
  obtain ⟨⟨x0, x1, x2⟩, -, x3, -, -⟩ := state0_ok p2
  obtain ⟨y0, y1, y2, y3⟩ := orZeros_ok (n := m.yTrain.ndim) (initParts init fxTest).fxTrain rfl h.rows h.cols hx
  have hy0 : y0 = x0 := by rw [y1] at x1; exact Except.ok.inj x1
  subst hy0
  have hab' := mul_le_mul_of_nonneg_right hab hr.le
  obtain ⟨c1, c2, c3, c4⟩ := curve_ok (γ := γ) (leaf := (·.fxTrain)) (x0 := y0) (s := m.yTrain.shape)
    (P := fun τ d => m.force m.kTrainTrain (m.gradLoss (leafVal (fun σ => (γ σ).fxTrain) τ)) T = .ok d) hab'
    (by rw [p3]; exact x2) y2 (by
      intro τ hτ
      obtain ⟨d, d1, d2, -⟩ := p4 τ hτ
      obtain ⟨x, f, e1, e2, e3, -⟩ := dstate_plain hm d1
      refine ⟨f, by rw [← e3]; exact d2, ?_⟩
      simp only [leafVal, e1]
      exact e2)
  set c := leafVal fun σ => (γ σ).fxTrain with hc
  refine ⟨fun τ => c (τ * m.learningRate), fun τ hτ => c2 _ (scaled_mem hr hτ), ?_, ?_, ?_, ?_⟩
  · beta_reduce
    rw [c3, y3]
  · intro τ hτ p r
    have hτ' := scaled_mem hr hτ
    obtain ⟨d, d1, d2, d3⟩ := c4 _ hτ'
    obtain ⟨f, f1, f2, f3⟩ := force_ok hb h m.kTrainTrain (m.gradLoss (c (τ * m.learningRate))) m.yTrain.shape S h.kernel
      (hL.shape _ (c2 _ hτ')) rfl h.rows h.cols
    rw [f1] at d2
    cases d2
    have := scale_deriv hr (d3 _ (view_inRange (n := m.yTrain.ndim) rfl h.rows h.cols p r))
    refine this.congr_deriv ?_
    have e := f3 p r
    simp only [viewAt, List.nil_append] at e
    rw [e]
    ring
  · intro hret
    rw [p5, train_selected hret]
    exact trim_ok ht hr c1 c2
  · intro xt k s' S' hxt hk htf
    subst hk
    have hSS : S'.length = S.length := by rw [htf.rows, ← hSl]; simp [sizesAt]
    rw [fxTestShape_ok (axesOf_self hb h.axes) htf.kernel hSS htf.rank htf.rows (h.cols ▸ htf.cols)] at p1
    obtain rfl : s' = s1 := by simpa using p1
    obtain ⟨yt, t1', t2⟩ := x3 xt hxt
    obtain ⟨z0, z1, z2, z3⟩ := orZeros_ok (n := m.yTrain.ndim) (some xt) htf.rank htf.rows htf.cols htf.init
    have hz : z0 = yt := by
      have : Gd.orZeros (some xt) s' = .ok yt := t1'
      rw [z1] at this
      exact Except.ok.inj this
    subst hz
    obtain ⟨g1, g2, g3, g4⟩ := curve_ok (γ := γ) (leaf := (·.fxTest)) (x0 := z0) (s := s')
      (P := fun τ d => m.force k (m.gradLoss (leafVal (fun σ => (γ σ).fxTrain) τ)) T = .ok d) hab'
      (by rw [p3]; exact t2) z2 (by
        intro τ hτ
        obtain ⟨d, d1, -, d2, -⟩ := p4 τ hτ
        obtain ⟨x, f, e1, e2, e3, e4, e5⟩ := dstate_plain hm d1
        rcases hf : (γ τ).fxTest with _ | y
        · exfalso
          rw [e5 hf] at d2
          have := d2 _ ⟨le_rfl, hab'⟩
          beta_reduce at this
          rw [p3, t2] at this
          simp at this
        · obtain ⟨k', g, j1, j2, j3⟩ := e4 y hf
          cases j1
          refine ⟨g, by rw [← j3]; exact d2, ?_⟩
          simp only [leafVal, e1]
          exact j2)
    refine ⟨fun τ => leafVal (fun σ => (γ σ).fxTest) (τ * m.learningRate), fun τ hτ => g2 _ (scaled_mem hr hτ), ?_, ?_, ?_⟩
    · beta_reduce
      rw [g3, z3]
    · intro τ hτ p r
      have hτ' := scaled_mem hr hτ
      obtain ⟨d, d1, d2, d3⟩ := g4 _ hτ'
      obtain ⟨f, f1, f2, f3⟩ := force_ok hb h k (m.gradLoss (c (τ * m.learningRate))) s' S' htf.kernel
        (hL.shape _ (c2 _ hτ')) htf.rank htf.rows htf.cols
      rw [f1] at d2
      cases d2
      have := scale_deriv hr (d3 _ (view_inRange htf.rank htf.rows htf.cols p r))
      refine this.congr_deriv ?_
      have e := f3 p r
      simp only [viewAt, List.nil_append] at e
      rw [e]
      ring
    · rw [p5, test_selected hxt]
      exact trim_ok ht hr g1 g2

lemma zip_same {f : ℝ → ℝ → ℝ} {x y z : Arr ℝ} (h : x.shape = y.shape) (hz : zipB f x y = .ok z) (i : List ℕ) :
    z.get i = f (x.get i) (y.get i) := by
  unfold zipB at hz
  rw [if_pos h] at hz
  cases hz
  rfl

/-- **C68**, with momentum `β`. If the call returns, the outputs are the values of curves that start at the given initial values and
follow the heavy ball, `f'' = (β - 1) f' - lr K_dd ∇L(f)` on the training points and `f_test'' = (β - 1) f_test' - lr K_td ∇L(f)` on
the test points; the velocities are `√lr` times the auxiliary variables `qx`, zero if they are not passed. -/
theorem heavy_ball (hb : bk.Correct) (hode : ode.Correct) (h : m.Fits bk T S R) {β : ℝ} (hm : m.momentum = some β) {L : Arr ℝ → ℝ}
    (hL : IsGradient L m.gradLoss m.yTrain.shape) (ht : Times t t0 t1) (hx : FitsShape m.yTrain.shape (initParts init fxTest).fxTrain)
    (hq : FitsShape m.yTrain.shape (initParts init fxTest).qxTrain) (ho : m.predict bk ode t init fxTest ktd = .ok o) :
    ∃ (f : ℝ → Arr ℝ) (v : ℝ → Matrix (box S) (box R) ℝ),
      (∀ τ ∈ Set.Icc (startTime √m.learningRate t0) t1, (f τ).shape = m.yTrain.shape) ∧
      viewAt [] m.yTrain.ndim T S R (f (startTime √m.learningRate t0)) = initView m.yTrain.ndim T S R (initParts init fxTest).fxTrain ∧
      v (startTime √m.learningRate t0) = √m.learningRate • initView m.yTrain.ndim T S R (initParts init fxTest).qxTrain ∧
      HeavyBall (Set.Icc (startTime √m.learningRate t0) t1) m.learningRate β (pairMat S S m.kTrainTrain) m.yTrain.ndim T R m.gradLoss f f v ∧
      (ReturnsTrain init → ValuesAt (trainOf o) t m.yTrain.shape f) ∧
      ∀ xt k s' S', (initParts init fxTest).fxTest = some xt → ktd = some k → m.TestFits T S R xt k s' S' →
        FitsShape s' (initParts init fxTest).qxTest →
        ∃ (g : ℝ → Arr ℝ) (w : ℝ → Matrix (box S') (box R) ℝ),
          (∀ τ ∈ Set.Icc (startTime √m.learningRate t0) t1, (g τ).shape = s') ∧
          viewAt [] m.yTrain.ndim T S' R (g (startTime √m.learningRate t0)) = initView m.yTrain.ndim T S' R (some xt) ∧
          w (startTime √m.learningRate t0) = √m.learningRate • initView m.yTrain.ndim T S' R (initParts init fxTest).qxTest ∧
          HeavyBall (Set.Icc (startTime √m.learningRate t0) t1) m.learningRate β (pairMat S' S k) m.yTrain.ndim T R m.gradLoss f g w ∧
          ValuesAt (testOf o) t s' g := by
  have hrate : m.rate = √m.learningRate := by simp [Gd.rate, hm]
  have hr : 0 < √m.learningRate := Real.sqrt_pos.2 h.rate
  have hsq : √m.learningRate * √m.learningRate = m.learningRate := Real.mul_self_sqrt h.rate.le
  obtain ⟨hn, hl, hSl, hRl, hkn⟩ := h.lengths hb
  obtain ⟨s1, s0, γ, p1, p2, p3, p4, p5⟩ := predict_run hode h ht ho
  rw [hrate] at p3 p4 p5
  obtain ⟨-, -, hab, -⟩ := times_ok ht hr
  set ρ := √m.learningRate with hρ
  set a := startTime ρ t0 with ha
  obtain ⟨⟨x0, x1, x2⟩, -, x3, -, x4⟩ := state0_ok p2
  obtain ⟨⟨q0, q1, q2⟩, q3⟩ := x4 β hm
  obtain ⟨y0, y1, y2, y3⟩ := orZeros_ok (n := m.yTrain.ndim) (initParts init fxTest).fxTrain rfl h.rows h.cols hx
  obtain ⟨r0, r1, r2, r3⟩ := orZeros_ok (n := m.yTrain.ndim) (initParts init fxTest).qxTrain rfl h.rows h.cols hq
  have hy0 : y0 = x0 := by rw [y1] at x1; exact Except.ok.inj x1
  have hr0 : r0 = q0 := by rw [r1] at q1; exact Except.ok.inj q1
  subst hy0 hr0
  have hab' := mul_le_mul_of_nonneg_right hab hr.le
  obtain ⟨c1, c2, c3, c4⟩ := curve_ok (γ := γ) (leaf := (·.fxTrain)) (x0 := y0) (s := m.yTrain.shape)
    (P := fun τ d => d = leafVal (fun σ => (γ σ).qxTrain) τ) hab'
    (by rw [p3]; exact x2) y2 (by
      intro τ hτ
      obtain ⟨d, d1, d2, -⟩ := p4 τ hτ
      obtain ⟨x, q, f, f', e1, e2, e3, e4, -⟩ := dstate_heavy hm d1
      refine ⟨q, by rw [← e4]; exact d2, ?_⟩
      simp only [leafVal, e2]
      rfl)
  obtain ⟨v1, v2, v3, v4⟩ := curve_ok (γ := γ) (leaf := (·.qxTrain)) (x0 := r0) (s := m.yTrain.shape)
    (P := fun τ d => ∃ f, m.force m.kTrainTrain (m.gradLoss (leafVal (fun σ => (γ σ).fxTrain) τ)) T = .ok f ∧
      zipB (fun x y : ℝ => x + (β - 1) / ρ * y) f (leafVal (fun σ => (γ σ).qxTrain) τ) = .ok d) hab'
    (by rw [p3]; exact q2) r2 (by
      intro τ hτ
      obtain ⟨d, d1, -, -, d2, -⟩ := p4 τ hτ
      obtain ⟨x, q, f, f', e1, e2, e3, e4, e5, e6, -⟩ := dstate_heavy hm d1
      refine ⟨f', by rw [← e6]; exact d2, f, ?_⟩
      simp only [leafVal, e1, e2]
      exact ⟨e3, e5⟩)
  set c := leafVal fun σ => (γ σ).fxTrain with hc
  set q := leafVal fun σ => (γ σ).qxTrain with hqd
  have final : ∀ F Q : ℝ, (-F + (β - 1) / ρ * Q) * ρ * ρ = (β - 1) * (ρ * Q) - m.learningRate * F := by
    intro F Q
    rw [← hsq]
    field_simp
    ring
  refine ⟨fun τ => c (τ * ρ), fun τ => ρ • viewAt [] m.yTrain.ndim T S R (q (τ * ρ)), fun τ hτ => c2 _ (scaled_mem hr hτ), ?_, ?_, ?_,
    ?_, ?_⟩
  · beta_reduce
    rw [c3, y3]
  · beta_reduce
    rw [v3, r3]
  · intro τ hτ p r
    have hτ' := scaled_mem hr hτ
    have hin := view_inRange (n := m.yTrain.ndim) rfl h.rows h.cols p r
    constructor
    · obtain ⟨d, d1, d2, d3⟩ := c4 _ hτ'
      refine (scale_deriv hr (d3 _ hin)).congr_deriv ?_
      rw [d2]
      simp only [Matrix.smul_apply, smul_eq_mul, viewAt, List.nil_append]
      ring
    · obtain ⟨d, d1, ⟨f', d2, d2'⟩, d3⟩ := v4 _ hτ'
      obtain ⟨f, f1, f2, f3⟩ := force_ok hb h m.kTrainTrain (m.gradLoss (c (τ * ρ))) m.yTrain.shape S h.kernel
        (hL.shape _ (c2 _ hτ')) rfl h.rows h.cols
      rw [f1] at d2
      cases d2
      have hz := zip_same (by rw [f2, v2 _ hτ']) d2' (joinIdx m.yTrain.ndim T p.1 r.1)
      have e := f3 p r
      simp only [viewAt, List.nil_append] at e
      have := (scale_deriv hr (d3 _ hin)).const_mul ρ
      simp only [Matrix.smul_apply, smul_eq_mul, viewAt, List.nil_append]
      refine this.congr_deriv ?_
      rw [hz, e, ← final]
      ring
  · intro hret
    rw [p5, train_selected hret]
    exact trim_ok ht hr c1 c2
  · intro xt k s' S' hxt hk htf hqt
    subst hk
    have hSS : S'.length = S.length := by rw [htf.rows, ← hSl]; simp [sizesAt]
    rw [fxTestShape_ok (axesOf_self hb h.axes) htf.kernel hSS htf.rank htf.rows (h.cols ▸ htf.cols)] at p1
    obtain rfl : s' = s1 := by simpa using p1
    obtain ⟨yt, t1', t2⟩ := x3 xt hxt
    obtain ⟨qt0, u1, u2⟩ := q3 xt hxt
    obtain ⟨z0, z1, z2, z3⟩ := orZeros_ok (n := m.yTrain.ndim) (some xt) htf.rank htf.rows htf.cols htf.init
    obtain ⟨w0, w1, w2, w3⟩ := orZeros_ok (n := m.yTrain.ndim) (initParts init fxTest).qxTest htf.rank htf.rows htf.cols hqt
    have hz : z0 = yt := by
      have : Gd.orZeros (some xt) s' = .ok yt := t1'
      rw [z1] at this
      exact Except.ok.inj this
    have hw : w0 = qt0 := by rw [w1] at u1; exact Except.ok.inj u1
    subst hz hw
    have hsome : ∀ τ ∈ Set.Icc (a * ρ) (t1 * ρ), ∃ d x f y qt g g', m.dstate T (some k) (γ τ) = .ok d ∧ (γ τ).fxTrain = some x ∧
        (γ τ).fxTest = some y ∧ (γ τ).qxTest = some qt ∧ d.fxTest = some qt ∧ m.force k (m.gradLoss x) T = .ok g ∧
        zipB (fun x y : ℝ => x + (β - 1) / ρ * y) g qt = .ok g' ∧ d.qxTest = some g' ∧
        LeafDeriv (fun σ => (γ σ).fxTest) (some qt) (Set.Icc (a * ρ) (t1 * ρ)) τ ∧
        LeafDeriv (fun σ => (γ σ).qxTest) (some g') (Set.Icc (a * ρ) (t1 * ρ)) τ ∧ f = x := by
      intro τ hτ
      obtain ⟨d, d1, -, d2, -, d3⟩ := p4 τ hτ
      obtain ⟨x, q, f, f', e1, e2, e3, e4, e5, e6, e7, e8⟩ := dstate_heavy hm d1
      rcases hqq : (γ τ).qxTest with _ | qt
      · exfalso
        rw [e7, hqq] at d2
        have := d2 _ ⟨le_rfl, hab'⟩
        beta_reduce at this
        rw [p3, t2] at this
        simp at this
      · rw [hqq] at e7
        rw [e7] at d2
        have hy : (γ τ).fxTest = some (leafVal (fun σ => (γ σ).fxTest) τ) := (leaf_some hτ d2).1 τ hτ
        obtain ⟨k', g, g', j1, j2, j3, j4⟩ := e8 _ qt hy hqq
        cases j1
        rw [j4] at d3
        exact ⟨d, x, x, _, qt, g, g', d1, e1, hy, rfl, e7, j2, j3, j4, d2, d3, rfl⟩
    obtain ⟨g1, g2, g3, g4⟩ := curve_ok (γ := γ) (leaf := (·.fxTest)) (x0 := z0) (s := s')
      (P := fun τ d => d = leafVal (fun σ => (γ σ).qxTest) τ) hab' (by rw [p3]; exact t2) z2 (by
        intro τ hτ
        obtain ⟨d, x, f, y, qt, g, g', i1, i2, i3, i4, i5, i6, i7, i8, i9, i10, -⟩ := hsome τ hτ
        exact ⟨qt, i9, by simp [leafVal, i4]⟩)
    obtain ⟨k1, k2, k3, k4⟩ := curve_ok (γ := γ) (leaf := (·.qxTest)) (x0 := w0) (s := s')
      (P := fun τ d => ∃ f, m.force k (m.gradLoss (leafVal (fun σ => (γ σ).fxTrain) τ)) T = .ok f ∧
        zipB (fun x y : ℝ => x + (β - 1) / ρ * y) f (leafVal (fun σ => (γ σ).qxTest) τ) = .ok d) hab'
      (by rw [p3]; exact u2) w2 (by
        intro τ hτ
        obtain ⟨d, x, f, y, qt, g, g', i1, i2, i3, i4, i5, i6, i7, i8, i9, i10, -⟩ := hsome τ hτ
        exact ⟨g', i10, g, by simpa [leafVal, i2] using i6, by simpa [leafVal, i4] using i7⟩)
    refine ⟨fun τ => leafVal (fun σ => (γ σ).fxTest) (τ * ρ),
      fun τ => ρ • viewAt [] m.yTrain.ndim T S' R (leafVal (fun σ => (γ σ).qxTest) (τ * ρ)), fun τ hτ => g2 _ (scaled_mem hr hτ), ?_, ?_,
      ?_, ?_⟩
    · beta_reduce
      rw [g3, z3]
    · beta_reduce
      rw [k3, w3]
    · intro τ hτ p r
      have hτ' := scaled_mem hr hτ
      have hin := view_inRange htf.rank htf.rows htf.cols p r
      constructor
      · obtain ⟨d, d1, d2, d3⟩ := g4 _ hτ'
        refine (scale_deriv hr (d3 _ hin)).congr_deriv ?_
        rw [d2]
        simp only [Matrix.smul_apply, smul_eq_mul, viewAt, List.nil_append]
        ring
      · obtain ⟨d, d1, ⟨f', d2, d2'⟩, d3⟩ := k4 _ hτ'
        obtain ⟨f, f1, f2, f3⟩ := force_ok hb h k (m.gradLoss (c (τ * ρ))) s' S' htf.kernel
          (hL.shape _ (c2 _ hτ')) htf.rank htf.rows htf.cols
        rw [f1] at d2
        cases d2
        have hz := zip_same (by rw [f2, k2 _ hτ']) d2' (joinIdx m.yTrain.ndim T p.1 r.1)
        have e := f3 p r
        simp only [viewAt, List.nil_append] at e
        have := (scale_deriv hr (d3 _ hin)).const_mul ρ
        simp only [Matrix.smul_apply, smul_eq_mul, viewAt, List.nil_append]
        refine this.congr_deriv ?_
        rw [hz, e, ← final]
        ring
    · rw [p5, test_selected hxt]
      exact trim_ok ht hr g1 g2

end NT.C68
