import Verif.Lemmas.Ensemble3
import Verif.Props.C63
import Mathlib.Topology.Instances.Matrix

/-!
# C65: `gradient_descent_mse_ensemble`
-/

namespace NT.C65
open NT Arr Spec Predict Matrix MeasureTheory ProbabilityTheory Filter Topology

/-- The covariance of the outputs at the training points before training: the NNGP kernel for `get = 'ntk'`; for `get = 'nngp'` the
regularised NNGP kernel. -/
noncomputable def priorTrain (m : Ens) (S : List ℕ) : Field → Matrix (box S) (box S) ℝ
  | .nngp => regMat m.diagReg m.absolute (pairMat S S (m.kdd .nngp))
  | .ntk => pairMat S S (m.kdd .nngp)

/-- The kernel that drives the training. -/
noncomputable abbrev driving (m : Ens) (S : List ℕ) (g : Field) : Matrix (box S) (box S) ℝ :=
  regMat m.diagReg m.absolute (pairMat S S (m.kdd g))

/-- The constant in front of the kernel in the gradient flow of the mean squared error. -/
noncomputable abbrev rate (m : Ens) : ℝ := m.learningRate / m.yTrain.shape.prod

/-- The targets as a matrix. -/
noncomputable abbrev targets (m : Ens) (T S R : List ℕ) : Matrix (box S) (box R) ℝ := viewAt [] m.yTrain.ndim T S R m.yTrain

variable {bk : Backend} {m : Ens} {T S R : List ℕ}

section
variable {V : Matrix (box S) (Fin S.prod) ℝ} {lam : Fin S.prod → ℝ}

lemma fresh_train (hb : bk.Correct) (h : m.Fits bk T S R) (g : Field) (hs : (driving m S g).IsSymm) (get : List Field) (hg : g ∈ get)
    (cov : Bool) :
    ∃ V, ∃ lam : Fin S.prod → ℝ, Spectral.Orth V ∧ driving m S g = Spectral.fc V lam ∧ ∀ t, ∃ mean C,
      m.fresh bk get g (some t) none cov = .ok (mean, C) ∧
      OutIs (some mean) t m.yTrain.ndim T S R m.yTrain.shape (fun τ =>
        (Spectral.fc V fun i => -expm1Fn m.yTrain.shape.prod (lam i) (τ * m.learningRate)) * targets m T S R) ∧
      (cov = false → C = none) ∧ (cov = true → CovIs C t S (m.trainC g V lam)) := by
  obtain ⟨es, V, lam, e1, e2, e3, e4, e5, e6⟩ := eigenspace_ok hb (m.kdd g) S (h.kernel g) m.diagReg m.absolute hs
  refine ⟨V, lam, e3, e4, fun t => ?_⟩
  obtain ⟨mean, C, c1, c2⟩ := ens_train hb h g es V lam e2 e5 e6 (needs get cov) cov (needs_self hg cov)
    (fun hc => by rw [hc]; exact needs_nngp hg) t
  refine ⟨mean, C, ?_, c2⟩
  unfold Ens.fresh
  simp only [h.axes, Bind.bind, Except.bind, Ens.body, e1, Option.map_none, c1]

lemma fresh_test (hb : bk.Correct) (h : m.Fits bk T S R) (g : Field) (hs : (driving m S g).IsSymm) (get : List Field) (hg : g ∈ get)
    (cov : Bool) :
    ∃ V, ∃ lam : Fin S.prod → ℝ, Spectral.Orth V ∧ driving m S g = Spectral.fc V lam ∧ ∀ t x s' S', m.TestFits T S R x s' S' → ∃ mean C,
      m.fresh bk get g (some t) (some x) cov = .ok (mean, C) ∧
      OutIs (some mean) t m.yTrain.ndim T S' R s' (fun τ => pairMat S' S (x.ktd g) *
        ((Spectral.fc V fun i => -invExpm1Fn m.yTrain.shape.prod (lam i) (τ * m.learningRate)) * targets m T S R)) ∧
      (cov = false → C = none) ∧ (cov = true → CovIs C t S' (m.testC x S' g V lam)) := by
  obtain ⟨es, V, lam, e1, e2, e3, e4, e5, e6⟩ := eigenspace_ok hb (m.kdd g) S (h.kernel g) m.diagReg m.absolute hs
  refine ⟨V, lam, e3, e4, fun t x s' S' ht => ?_⟩
  obtain ⟨mean, C, c1, c2⟩ := ens_test hb h g es V lam e2 e5 e6 (needs get cov) cov
    (fun hc => by rw [hc]; exact needs_nngp hg) t get hg x s' S' ht
  refine ⟨mean, C, ?_, c2⟩
  unfold Ens.fresh
  simp only [h.axes, Bind.bind, Except.bind, Ens.body, e1, Option.map_some, c1]

lemma negInv (hl : ∀ i, 0 < lam i) (τ : ℝ) :
    (fun i => -invExpm1Fn m.yTrain.shape.prod (lam i) (τ * m.learningRate)) =
      fun i => (1 - Real.exp (-(lam i) * (rate m * τ))) / lam i := by
  funext i
  rw [negInv_eq (hl i), rate]
  congr 3
  ring

lemma negInv2 (hl : ∀ i, 0 < lam i) (τ : ℝ) :
    (fun i => -invExpm1Fn m.yTrain.shape.prod (lam i) (2 * (τ * m.learningRate))) =
      fun i => (1 - Real.exp (-(lam i) * (rate m * τ)) ^ 2) / lam i := by
  funext i
  rw [negInv_eq (hl i), rate, ← Real.exp_nat_mul]
  congr 3
  push_cast
  ring

lemma expm (hl : ∀ i, 0 ≤ lam i) (τ : ℝ) :
    (fun i => -expm1Fn m.yTrain.shape.prod (lam i) (τ * m.learningRate)) = fun i => 1 - Real.exp (-(lam i) * (rate m * τ)) := by
  funext i
  rw [C61.expm1_eq, max_eq_left (hl i)]
  ring

lemma trainC_nngp (hl : ∀ i, 0 ≤ lam i) (τ : ℝ) :
    m.trainC .nngp V lam τ = Spectral.fc V fun i => lam i * Real.exp (-(lam i) * (rate m * τ)) ^ 2 := by
  unfold Ens.trainC
  dsimp only
  congr 1
  funext i
  rw [max_eq_left (hl i), ← Real.exp_nat_mul, rate]
  congr 2
  push_cast
  ring

lemma trainC_ntk (hl : ∀ i, 0 ≤ lam i) (τ : ℝ) :
    m.trainC .ntk V lam τ = Spectral.fc V (fun i => Real.exp (-(lam i) * (rate m * τ))) * pairMat S S (m.kdd .nngp) *
      Spectral.fc V (fun i => Real.exp (-(lam i) * (rate m * τ))) := by
  unfold Ens.trainC
  have : (fun i => Real.exp (-(max (lam i) 0) * (τ * m.learningRate) / m.yTrain.shape.prod)) =
      fun i => Real.exp (-(lam i) * (rate m * τ)) := by
    funext i
    rw [max_eq_left (hl i), rate]
    congr 1
    ring
  simp only [this, Spectral.fc_transpose]

end

/-- **C65.** The returned mean and covariance at the training points are those of the ensemble of outputs trained by gradient flow: for
random initial outputs `u` that are centred with the prior covariance, each evolving by the flow of the mean squared error under the
kernel, the outputs at the time `t` have the returned mean and, column by column, the returned covariance. -/
theorem ensemble_train (hb : bk.Correct) (h : m.Fits bk T S R) (g : Field) (hK : (driving m S g).PosSemidef) (get : List Field)
    (hg : g ∈ get) (cov : Bool) (t : Arr ℝ) :
    ∃ mean C, m.fresh bk get g (some t) none cov = .ok (mean, C) ∧ mean.shape = t.shape ++ m.yTrain.shape ∧ (C.isSome = cov) ∧
      (∀ c ∈ C, c.shape = t.shape ++ interleave S S) ∧
      ∀ {Ω : Type} [MeasurableSpace Ω] (P : Measure Ω) [IsProbabilityMeasure P] (u : Ω → Matrix (box S) (box R) ℝ)
        (F : Ω → ℝ → Matrix (box S) (box R) ℝ),
        RandomInit P u u (priorTrain m S g) (priorTrain m S g) (priorTrain m S g) →
        (∀ ω, F ω 0 = u ω ∧ Flow (rate m) (driving m S g) (targets m T S R) (F ω)) →
        ∀ tj, InRange tj t.shape → ∀ r,
          (∀ p, viewAt tj m.yTrain.ndim T S R mean p r = ∫ ω, F ω (t.get tj) p r ∂P) ∧
          ∀ c ∈ C, ∀ p q : box S, c.get (tj ++ interleave p.1 q.1) = cov[fun ω => F ω (t.get tj) p r, fun ω => F ω (t.get tj) q r; P] := by
  obtain ⟨V, lam, v1, v2, v3⟩ := fresh_train hb h g (C61.symm_of hK) get hg cov
  have hl := Spectral.eval_nonneg v1 (v2 ▸ hK)
  obtain ⟨mean, C, c1, ⟨_, ha, a1, a2⟩, c3, c4⟩ := v3 t
  cases Option.some.inj ha
  refine ⟨mean, C, c1, a1, ?_, ?_, ?_⟩
  · cases cov with
    | false => rw [c3 rfl]; rfl
    | true => obtain ⟨c, rfl, -⟩ := c4 rfl; rfl
  · intro c hc
    cases cov with
    | false => rw [c3 rfl] at hc; cases hc
    | true => obtain ⟨c', rfl, e, -⟩ := c4 rfl; cases hc; exact e
  · intro Ω _ P _ u F hu hF tj htj r
    set τ := t.get tj
    set E := Spectral.fc V (fun i => Real.exp (-(lam i) * (rate m * τ))) with hE
    have hA : Spectral.fc V (fun i => 1 - Real.exp (-(lam i) * (rate m * τ))) = 1 - E := by
      rw [Spectral.fc_sub, Spectral.fc_one v1]
    have hX : ∀ ω, F ω τ = u ω - (1 - E) * u ω + (1 - E) * targets m T S R := by
      intro ω
      obtain ⟨h0, h1⟩ := hF ω
      rw [v2] at h1
      have := Spectral.sol_eq v1 lam (rate m) (F ω 0) (targets m T S R) τ
      rw [← Spectral.flow_unique v1 h1, h0] at this
      rw [sub_eq_iff_eq_add.1 this, ← hE, Matrix.sub_mul, Matrix.sub_mul, Matrix.one_mul, Matrix.one_mul, Matrix.mul_sub]
      abel
    obtain ⟨q1, q2⟩ := ens_moments hu (1 - E) ((1 - E) * targets m T S R)
    refine ⟨fun p => ?_, fun c hc p q => ?_⟩
    · simp only [hX, q1]
      rw [a2 tj htj]
      dsimp only
      rw [expm hl, hA]
    · cases cov with
      | false => rw [c3 rfl] at hc; cases hc
      | true =>
        obtain ⟨c', rfl, e1, e2⟩ := c4 rfl
        cases hc
        simp only [hX, q2]
        rw [e2 tj htj]
        have hEt : Eᵀ = E := Spectral.fc_transpose _
        have hsym : (priorTrain m S g)ᵀ = priorTrain m S g := by
          ext i j
          rw [transpose_apply, ← hu.cov_uu j i r, ← hu.cov_uu i j r, covariance_comm]
        refine congrFun (congrFun ?_ p) q
        rw [hsym, transpose_sub, transpose_one, hEt]
        have : priorTrain m S g - (1 - E) * priorTrain m S g - priorTrain m S g * (1 - E) + (1 - E) * priorTrain m S g * (1 - E) =
            E * priorTrain m S g * E := by noncomm_ring
        rw [this]
        cases g with
        | ntk => rw [trainC_ntk hl]; rfl
        | nngp =>
          rw [trainC_nngp hl]
          show _ = E * driving m S .nngp * E
          rw [v2, hE, Spectral.fc_mul v1, Spectral.fc_mul v1]
          congr 1
          funext i
          ring

/-- **C65.** The same on a test set: random initial outputs `u` at the training and `v` at the test points, centred with the NNGP kernels
as covariances, the outputs at the test points driven by the residuals at the training points. -/
theorem ensemble_test (hb : bk.Correct) (h : m.Fits bk T S R) (g : Field) (hK : (driving m S g).PosDef) (get : List Field)
    (hg : g ∈ get) (cov : Bool) (t : Arr ℝ) (x : TestSet) (s' S' : List ℕ) (ht : m.TestFits T S R x s' S') :
    ∃ mean C, m.fresh bk get g (some t) (some x) cov = .ok (mean, C) ∧ mean.shape = t.shape ++ s' ∧ (C.isSome = cov) ∧
      (∀ c ∈ C, c.shape = t.shape ++ interleave S' S') ∧
      ∀ {Ω : Type} [MeasurableSpace Ω] (P : Measure Ω) [IsProbabilityMeasure P] (u : Ω → Matrix (box S) (box R) ℝ)
        (v : Ω → Matrix (box S') (box R) ℝ) (F : Ω → ℝ → Matrix (box S) (box R) ℝ) (G : Ω → ℝ → Matrix (box S') (box R) ℝ),
        RandomInit P u v (priorTrain m S g) (pairMat S' S (x.ktd .nngp)) (pairMat S' S' x.ktt) →
        (∀ ω, F ω 0 = u ω ∧ Flow (rate m) (driving m S g) (targets m T S R) (F ω)) →
        (∀ ω, G ω 0 = v ω ∧ Driven (rate m) (pairMat S' S (x.ktd g)) (targets m T S R) (F ω) (G ω)) →
        ∀ tj, InRange tj t.shape → ∀ r,
          (∀ p, viewAt tj m.yTrain.ndim T S' R mean p r = ∫ ω, G ω (t.get tj) p r ∂P) ∧
          ∀ c ∈ C, ∀ p q : box S', c.get (tj ++ interleave p.1 q.1) = cov[fun ω => G ω (t.get tj) p r, fun ω => G ω (t.get tj) q r; P] := by
  obtain ⟨V, lam, v1, v2, v3⟩ := fresh_test hb h g (C61.symm_of hK.posSemidef) get hg cov
  have hl := Spectral.eval_pos v1 (v2 ▸ hK)
  obtain ⟨mean, C, c1, ⟨_, ha, a1, a2⟩, c3, c4⟩ := v3 t x s' S' ht
  cases Option.some.inj ha
  refine ⟨mean, C, c1, a1, ?_, ?_, ?_⟩
  · cases cov with
    | false => rw [c3 rfl]; rfl
    | true => obtain ⟨c, rfl, -⟩ := c4 rfl; rfl
  · intro c hc
    cases cov with
    | false => rw [c3 rfl] at hc; cases hc
    | true => obtain ⟨c', rfl, e, -⟩ := c4 rfl; cases hc; exact e
  · intro Ω _ P _ u v F G hu hF hG tj htj r
    set τ := t.get tj
    set E := Spectral.fc V (fun i => (1 - Real.exp (-(lam i) * (rate m * τ))) / lam i) with hE
    have hX : ∀ ω, G ω τ = v ω - (pairMat S' S (x.ktd g) * E) * u ω + (pairMat S' S (x.ktd g) * E) * targets m T S R := by
      intro ω
      obtain ⟨h0, h1⟩ := hF ω
      obtain ⟨h2, h3⟩ := hG ω
      rw [v2] at h1
      have hFs : F ω = Spectral.sol V lam (rate m) (u ω) (targets m T S R) := by
        funext τ
        rw [← h0]
        exact Spectral.flow_unique v1 h1 τ
      have hd := Spectral.solT_driven v1 lam (fun i => (hl i).ne') (rate m) (pairMat S' S (x.ktd g)) (u ω) (targets m T S R) (v ω)
      rw [← hFs] at hd
      have := C61.driven_unique _ _ _ _ _ _ h3 hd (by rw [h2, Spectral.solT_zero])
      rw [this]
      unfold Spectral.solT
      have hneg : Spectral.fc V (fun i => (Real.exp (-(lam i) * (rate m * τ)) - 1) / lam i) = -E := by
        rw [hE, ← neg_one_smul ℝ (Spectral.fc _ _), ← Spectral.fc_smul]
        congr 1
        funext i
        ring
      rw [hneg, Matrix.neg_mul, Matrix.mul_neg, Matrix.mul_sub, Matrix.mul_sub, Matrix.mul_assoc, Matrix.mul_assoc]
      abel
    obtain ⟨q1, q2⟩ := ens_moments hu (pairMat S' S (x.ktd g) * E) ((pairMat S' S (x.ktd g) * E) * targets m T S R)
    refine ⟨fun p => ?_, fun c hc p q => ?_⟩
    · simp only [hX, q1]
      rw [a2 tj htj]
      dsimp only
      rw [negInv hl, ← hE, Matrix.mul_assoc]
    · cases cov with
      | false => rw [c3 rfl] at hc; cases hc
      | true =>
        obtain ⟨c', rfl, e1, e2⟩ := c4 rfl
        cases hc
        simp only [hX, q2]
        rw [e2 tj htj]
        have hEt : Eᵀ = E := Spectral.fc_transpose _
        refine congrFun (congrFun ?_ p) q
        rw [transpose_mul, hEt]
        cases g with
        | ntk =>
          unfold Ens.testC
          dsimp only
          rw [negInv hl, ← hE]
          simp only [transpose_mul, transpose_transpose, hEt, priorTrain, Matrix.mul_assoc]
          abel
        | nngp =>
          unfold Ens.testC
          dsimp only
          have hid : Spectral.fc V (fun i => -invExpm1Fn m.yTrain.shape.prod (lam i) (2 * (τ * m.learningRate))) =
              E + E - E * driving m S .nngp * E := by
            rw [negInv2 hl, v2, hE, Spectral.fc_mul v1, Spectral.fc_mul v1, ← C62.fc_add, ← Spectral.fc_sub]
            congr 1
            funext i
            have := (hl i).ne'
            field_simp
            ring
          rw [hid]
          simp only [priorTrain, Matrix.mul_assoc, Matrix.mul_add, Matrix.mul_sub, Matrix.add_mul, Matrix.sub_mul]
          abel

/-- A single time. -/
def at' (τ : ℝ) : Arr ℝ := ⟨[], fun _ => τ⟩

/-- **C65.** Before training the mean on a test set is zero and the covariance is the NNGP kernel of the test set. -/
theorem prior_test (hb : bk.Correct) (h : m.Fits bk T S R) (g : Field) (hK : (driving m S g).PosDef) (get : List Field)
    (hg : g ∈ get) (x : TestSet) (s' S' : List ℕ) (ht : m.TestFits T S R x s' S') :
    ∃ mean C, m.fresh bk get g (some (at' 0)) (some x) true = .ok (mean, some C) ∧ mean ≋ ⟨s', fun _ => 0⟩ ∧ C ≋ x.ktt := by
  obtain ⟨V, lam, v1, v2, v3⟩ := fresh_test hb h g (C61.symm_of hK.posSemidef) get hg true
  have hl := Spectral.eval_pos v1 (v2 ▸ hK)
  obtain ⟨mean, C, c1, ⟨_, ha, a1, a2⟩, -, c4⟩ := v3 (at' 0) x s' S' ht
  cases Option.some.inj ha
  obtain ⟨c, rfl, e1, e2⟩ := c4 rfl
  have h0 : Spectral.fc V (fun i => -invExpm1Fn m.yTrain.shape.prod (lam i) (0 * m.learningRate)) = 0 := by
    rw [negInv hl]
    simpa using Spectral.fc_zero (V := V)
  have h0' : Spectral.fc V (fun i => -invExpm1Fn m.yTrain.shape.prod (lam i) (2 * (0 * m.learningRate))) = 0 := by
    rw [negInv2 hl]
    simpa using Spectral.fc_zero (V := V)
  refine ⟨mean, c, c1, ⟨a1, fun i hi => ?_⟩, ⟨by rw [e1, ht.test]; rfl, fun i hi => ?_⟩⟩
  · obtain ⟨-, hT, -⟩ := h.lengths hb
    refine view_entries (tj := []) (uj := []) (a := mean) (b := ⟨s', fun _ => 0⟩) ht.rank hT ht.rows ht.cols ?_
      (by rw [a1] at hi; exact hi)
    rw [a2 [] List.Forall₂.nil]
    show pairMat S' S (x.ktd g) * (Spectral.fc V (fun i => -invExpm1Fn m.yTrain.shape.prod (lam i) (0 * m.learningRate)) * _) = _
    rw [h0, Matrix.zero_mul, Matrix.mul_zero]
    rfl
  · rw [e1] at hi
    replace hi : InRange i (interleave S' S') := hi
    obtain ⟨p, q, hp, hq, rfl⟩ := exists_interleave S'.length (x := i) (by rw [hi.length, interleave_length rfl])
    rw [inRange_interleave hp hq rfl] at hi
    have := e2 [] List.Forall₂.nil ⟨p, mem_box.2 hi.1⟩ ⟨q, mem_box.2 hi.2⟩
    rw [List.nil_append] at this
    rw [this]
    have hC : m.testC x S' g V lam 0 = pairMat S' S' x.ktt := by
      unfold Ens.testC
      cases g with
      | nngp => dsimp only; rw [h0']; simp
      | ntk => dsimp only; rw [h0]; simp
    show m.testC x S' g V lam 0 _ _ = _
    rw [hC]
    rfl

/-- **C65.** Before training the mean at the training points is zero and the covariance is the NNGP kernel for `get = 'ntk'`, the
regularised NNGP kernel for `get = 'nngp'`. -/
theorem prior_train_partial (hb : bk.Correct) (h : m.Fits bk T S R) (g : Field) (hK : (driving m S g).PosSemidef) (get : List Field)
    (hg : g ∈ get) :
    ∃ mean C, m.fresh bk get g (some (at' 0)) none true = .ok (mean, some C) ∧ mean ≋ ⟨m.yTrain.shape, fun _ => 0⟩ ∧
      C.shape = interleave S S ∧ pairMat S S C = priorTrain m S g := by
  obtain ⟨V, lam, v1, v2, v3⟩ := fresh_train hb h g (C61.symm_of hK) get hg true
  have hl := Spectral.eval_nonneg v1 (v2 ▸ hK)
  obtain ⟨mean, C, c1, ⟨_, ha, a1, a2⟩, -, c4⟩ := v3 (at' 0)
  cases Option.some.inj ha
  obtain ⟨c, rfl, e1, e2⟩ := c4 rfl
  have h0 : Spectral.fc V (fun i => -expm1Fn m.yTrain.shape.prod (lam i) (0 * m.learningRate)) = 0 := by
    rw [expm hl]
    simpa using Spectral.fc_zero (V := V)
  refine ⟨mean, c, c1, ⟨a1, fun i hi => ?_⟩, e1, ?_⟩
  · obtain ⟨-, hT, -⟩ := h.lengths hb
    refine view_entries (tj := []) (uj := []) (a := mean) (n := m.yTrain.ndim) (b := ⟨m.yTrain.shape, fun _ => 0⟩) rfl hT h.rows h.cols ?_
      (by rw [a1] at hi; exact hi)
    rw [a2 [] List.Forall₂.nil]
    show Spectral.fc V (fun i => -expm1Fn m.yTrain.shape.prod (lam i) (0 * m.learningRate)) * targets m T S R = _
    rw [h0, Matrix.zero_mul]
    rfl
  · ext p q
    have := e2 [] List.Forall₂.nil p q
    rw [List.nil_append] at this
    show c.get (interleave p.1 q.1) = _
    rw [this]
    show m.trainC g V lam 0 p q = _
    cases g with
    | nngp =>
      rw [trainC_nngp hl]
      simp only [mul_zero, Real.exp_zero, one_pow, mul_one]
      rw [priorTrain, ← v2]
    | ntk =>
      rw [trainC_ntk hl]
      simp only [mul_zero, Real.exp_zero, Spectral.fc_one v1, Matrix.one_mul, Matrix.mul_one]
      rfl

lemma cont_fc {n : ℕ} {ι : Type} [Fintype ι] [DecidableEq ι] (V : Matrix ι (Fin n) ℝ) : Continuous (Spectral.fc V) :=
  (continuous_const.matrix_mul continuous_id.matrix_diagonal).matrix_mul continuous_const

lemma tendsto_fc {n : ℕ} {ι : Type} [Fintype ι] [DecidableEq ι] (V : Matrix ι (Fin n) ℝ) {f : ℝ → Fin n → ℝ} {l : Fin n → ℝ}
    (hf : ∀ i, Tendsto (fun τ => f τ i) atTop (𝓝 (l i))) : Tendsto (fun τ => Spectral.fc V (f τ)) atTop (𝓝 (Spectral.fc V l)) :=
  ((cont_fc V).tendsto l).comp (tendsto_pi_nhds.2 hf)

lemma tendsto_entry {ι κ : Type} {M : ℝ → Matrix ι κ ℝ} {L : Matrix ι κ ℝ} (h : Tendsto M atTop (𝓝 L)) (p : ι) (q : κ) :
    Tendsto (fun τ => M τ p q) atTop (𝓝 (L p q)) :=
  ((continuous_id.matrix_elem p q).tendsto L).comp h

lemma cont_testC {ι ι' : Type} [Fintype ι] [Fintype ι'] (K K0 : Matrix ι' ι ℝ) (Q : Matrix ι ι ℝ) (Z : Matrix ι' ι' ℝ) :
    Continuous fun F : Matrix ι ι ℝ => (F * Kᵀ)ᵀ * Q * (F * Kᵀ) + (Z + -(K * (F * K0ᵀ) + (K * (F * K0ᵀ))ᵀ)) := by
  have hFK : ∀ B : Matrix ι ι' ℝ, Continuous fun F : Matrix ι ι ℝ => F * B := fun B => continuous_id.matrix_mul continuous_const
  have hKF : Continuous fun F : Matrix ι ι ℝ => K * (F * K0ᵀ) := continuous_const.matrix_mul (hFK _)
  exact (((hFK _).matrix_transpose.matrix_mul continuous_const).matrix_mul (hFK _)).add
    (continuous_const.add (hKF.add hKF.matrix_transpose).neg)

lemma fc_inv {ι : Type} [Fintype ι] [DecidableEq ι] {n : ℕ} {V : Matrix ι (Fin n) ℝ} (h : Spectral.Orth V) {lam : Fin n → ℝ}
    (hl : ∀ i, 0 < lam i) : (Spectral.fc V lam)⁻¹ = Spectral.fc V fun i => 1 / lam i := by
  refine inv_eq_left_inv ?_
  rw [Spectral.fc_mul h, ← Spectral.fc_one h]
  congr 1
  funext i
  exact one_div_mul_cancel (hl i).ne'

/-- **C65.** As the training time grows, the mean and the covariance on a test set tend to the result for `t = None`. -/
theorem limit_test (hb : bk.Correct) (h : m.Fits bk T S R) (g : Field) (hK : (driving m S g).PosDef) (hlr : 0 < m.learningRate)
    (get : List Field) (hg : g ∈ get) (x : TestSet) (s' S' : List ℕ) (ht : m.TestFits T S R x s' S') :
    ∃ (mean C : ℝ → Arr ℝ) (meanInf CInf : Arr ℝ), (∀ τ, m.fresh bk get g (some (at' τ)) (some x) true = .ok (mean τ, some (C τ))) ∧
      m.fresh bk get g none (some x) true = .ok (meanInf, some CInf) ∧
      (∀ τ, (mean τ).shape = meanInf.shape ∧ (C τ).shape = CInf.shape) ∧
      (∀ i, InRange i meanInf.shape → Tendsto (fun τ => (mean τ).get i) atTop (𝓝 (meanInf.get i))) ∧
      ∀ i, InRange i CInf.shape → Tendsto (fun τ => (C τ).get i) atTop (𝓝 (CInf.get i)) := by
  obtain ⟨V, lam, v1, v2, v3⟩ := fresh_test hb h g (C61.symm_of hK.posSemidef) get hg true
  have hl := Spectral.eval_pos v1 (v2 ▸ hK)
  obtain ⟨mi, ci, i1, i2, i3, -, i4⟩ := ens_inf hb h g hK get hg true x s' S' ht (needs get true) (needs_self hg true)
    (fun _ => needs_nngp hg)
  obtain ⟨ci, rfl, i5, i6⟩ := i4 rfl
  choose mean C c1 c2 _ c4 using fun τ => v3 (at' τ) x s' S' ht
  choose c c5 c6 c7 using fun τ => c4 τ rfl
  choose mean' ha a1 a2 using c2
  have hmm : mean' = mean := by funext τ; exact (Option.some.inj (ha τ)).symm
  subst hmm
  have hinf : m.fresh bk get g none (some x) true = .ok (mi, some ci) := by
    unfold Ens.fresh
    simp only [h.axes, Bind.bind, Except.bind, Ens.body, Option.map_some, i1]
  have hc : 0 < rate m := div_pos hlr (by exact_mod_cast Nat.pos_of_ne_zero h.nonempty)
  have he : ∀ i, Tendsto (fun τ => Real.exp (-(lam i) * (rate m * τ))) atTop (𝓝 0) := fun i => C63.tendsto_exp _ _ (hl i) hc
  have hF : Tendsto (fun τ => Spectral.fc V fun i => -invExpm1Fn m.yTrain.shape.prod (lam i) (τ * m.learningRate)) atTop
      (𝓝 (driving m S g)⁻¹) := by
    rw [v2, fc_inv v1 hl]
    simp only [negInv hl]
    refine tendsto_fc V fun i => ?_
    have := ((he i).const_sub 1).div_const (lam i)
    rwa [sub_zero] at this
  have hF2 : Tendsto (fun τ => Spectral.fc V fun i => -invExpm1Fn m.yTrain.shape.prod (lam i) (2 * (τ * m.learningRate))) atTop
      (𝓝 (driving m S g)⁻¹) := by
    rw [v2, fc_inv v1 hl]
    simp only [negInv2 hl]
    refine tendsto_fc V fun i => ?_
    have := (((he i).pow 2).const_sub 1).div_const (lam i)
    simpa using this
  refine ⟨mean', c, mi, ci, fun τ => by rw [c1, c5], hinf, fun τ => ⟨by rw [a1, i2]; rfl, by rw [c6, i5]; rfl⟩, fun i hi => ?_,
    fun i hi => ?_⟩
  · obtain ⟨-, hT, -⟩ := h.lengths hb
    rw [i2] at hi
    obtain ⟨p, r, rfl⟩ := exists_joinIdx ht.rank hT ht.rows ht.cols hi
    have hm : ∀ τ, (mean' τ).get (joinIdx m.yTrain.ndim T p.1 r.1) = (pairMat S' S (x.ktd g) *
        ((Spectral.fc V fun i => -invExpm1Fn m.yTrain.shape.prod (lam i) (τ * m.learningRate)) * targets m T S R)) p r := by
      intro τ
      exact congrFun (congrFun (a2 τ [] List.Forall₂.nil) p) r
    have hmi : mi.get (joinIdx m.yTrain.ndim T p.1 r.1) = (pairMat S' S (x.ktd g) * ((driving m S g)⁻¹ * targets m T S R)) p r :=
      congrFun (congrFun i3 p) r
    simp only [hm, hmi]
    refine tendsto_entry ?_ p r
    exact (((continuous_const (y := pairMat S' S (x.ktd g))).matrix_mul (continuous_id.matrix_mul
      (continuous_const (y := targets m T S R)))).tendsto _).comp hF
  · rw [i5] at hi
    obtain ⟨p, q, hp, hq, rfl⟩ := exists_interleave S'.length (x := i) (by rw [hi.length, interleave_length rfl])
    rw [inRange_interleave hp hq rfl] at hi
    have hm : ∀ τ, (c τ).get (interleave p q) = m.testC x S' g V lam τ ⟨p, mem_box.2 hi.1⟩ ⟨q, mem_box.2 hi.2⟩ := by
      intro τ
      exact c7 τ [] List.Forall₂.nil ⟨p, mem_box.2 hi.1⟩ ⟨q, mem_box.2 hi.2⟩
    have hmi := congrFun (congrFun i6 ⟨p, mem_box.2 hi.1⟩) ⟨q, mem_box.2 hi.2⟩
    change ci.get (interleave p q) = _ at hmi
    simp only [hm, hmi]
    refine tendsto_entry ?_ _ _
    cases g with
    | nngp =>
      unfold Ens.testC
      dsimp only
      simp only [← sub_eq_add_neg]
      exact ((continuous_const (y := pairMat S' S' x.ktt)).sub ((continuous_const (y := pairMat S' S (x.ktd .nngp))).matrix_mul
        (continuous_id.matrix_mul (continuous_const (y := (pairMat S' S (x.ktd .nngp))ᵀ)))) |>.tendsto _).comp hF2
    | ntk =>
      unfold Ens.testC
      dsimp only
      have hsy : ((driving m S .ntk)⁻¹)ᵀ = (driving m S .ntk)⁻¹ := by rw [v2, fc_inv v1 hl, Spectral.fc_transpose]
      set K := pairMat S' S (x.ktd .ntk)
      set K0 := pairMat S' S (x.ktd .nngp)
      have hlim : (K * (driving m S .ntk)⁻¹ * pairMat S S (m.kdd .nngp) * (K * (driving m S .ntk)⁻¹)ᵀ -
          (K * (driving m S .ntk)⁻¹ * K0ᵀ + K0 * (K * (driving m S .ntk)⁻¹)ᵀ) + pairMat S' S' x.ktt) =
          (fun F : Matrix (box S) (box S) ℝ => (F * Kᵀ)ᵀ * pairMat S S (m.kdd .nngp) * (F * Kᵀ) +
            (pairMat S' S' x.ktt + -(K * (F * K0ᵀ) + (K * (F * K0ᵀ))ᵀ))) (driving m S .ntk)⁻¹ := by
        simp only [transpose_mul, hsy, transpose_transpose, Matrix.mul_assoc]
        abel
      rw [hlim]
      exact ((cont_testC K K0 (pairMat S S (m.kdd .nngp)) (pairMat S' S' x.ktt)).tendsto (driving m S .ntk)⁻¹).comp hF

/-- **C65.** As the training time grows, the mean at the training points tends to the targets and the covariance to zero, which is the
result for `t = None`. -/
theorem limit_train (hb : bk.Correct) (h : m.Fits bk T S R) (g : Field) (hK : (driving m S g).PosDef) (hlr : 0 < m.learningRate)
    (get : List Field) (hg : g ∈ get) :
    ∃ mean C : ℝ → Arr ℝ, (∀ τ, m.fresh bk get g (some (at' τ)) none true = .ok (mean τ, some (C τ))) ∧
      m.fresh bk get g none none true = .ok (m.yTrain, some ⟨interleave S S, fun _ => 0⟩) ∧
      (∀ τ, (mean τ).shape = m.yTrain.shape ∧ (C τ).shape = interleave S S) ∧
      (∀ i, InRange i m.yTrain.shape → Tendsto (fun τ => (mean τ).get i) atTop (𝓝 (m.yTrain.get i))) ∧
      ∀ i, InRange i (interleave S S) → Tendsto (fun τ => (C τ).get i) atTop (𝓝 0) := by
  obtain ⟨V, lam, v1, v2, v3⟩ := fresh_train hb h g (C61.symm_of hK.posSemidef) get hg true
  have hl := Spectral.eval_pos v1 (v2 ▸ hK)
  have hl0 := fun i => (hl i).le
  choose mean C c1 c2 _ c4 using fun τ => v3 (at' τ)
  choose c c5 c6 c7 using fun τ => c4 τ rfl
  choose mean' ha a1 a2 using c2
  have hmm : mean' = mean := by funext τ; exact (Option.some.inj (ha τ)).symm
  subst hmm
  have hc : 0 < rate m := div_pos hlr (by exact_mod_cast Nat.pos_of_ne_zero h.nonempty)
  have he : ∀ i, Tendsto (fun τ => Real.exp (-(lam i) * (rate m * τ))) atTop (𝓝 0) := fun i => C63.tendsto_exp _ _ (hl i) hc
  refine ⟨mean', c, fun τ => by rw [c1, c5], ?_, fun τ => ⟨by rw [a1]; rfl, by rw [c6]; rfl⟩, fun i hi => ?_, fun i hi => ?_⟩
  · obtain ⟨f, f1⟩ := kddArg_first (m := m) (needs get true) g (needs_self hg true)
    have hf : g.mode.field = g := by cases g <;> rfl
    have hfit : (m.gp T (m.kddArg (needs get true))).Fits bk g.mode T S R (m.kdd g) := by
      refine ⟨axesOf_neg hb h.axes, h.rows, h.cols, h.nonempty, ?_, h.kernel g,
        ⟨_, f1, by rw [ndim, h.kernel, interleave_length rfl]⟩, h.order⟩
      show (m.kddArg _).attr _ = _
      rw [hf, kddArg_attr, if_pos (needs_self hg true)]
    unfold Ens.fresh
    simp only [h.axes, Bind.bind, Except.bind, Ens.body, Option.map_none]
    rw [C64.train_set hfit, h.kernel]
    rfl
  · obtain ⟨-, hT, -⟩ := h.lengths hb
    obtain ⟨p, r, rfl⟩ := exists_joinIdx (n := m.yTrain.ndim) rfl hT h.rows h.cols hi
    have hm : ∀ τ, (mean' τ).get (joinIdx m.yTrain.ndim T p.1 r.1) =
        ((Spectral.fc V fun i => -expm1Fn m.yTrain.shape.prod (lam i) (τ * m.learningRate)) * targets m T S R) p r := by
      intro τ
      exact congrFun (congrFun (a2 τ [] List.Forall₂.nil) p) r
    have hmi : m.yTrain.get (joinIdx m.yTrain.ndim T p.1 r.1) = (Spectral.fc V (fun _ => 1) * targets m T S R) p r := by
      rw [Spectral.fc_one v1, Matrix.one_mul]
      rfl
    simp only [hm, hmi, expm hl0]
    refine tendsto_entry (Tendsto.comp (((continuous_id.matrix_mul (continuous_const (y := targets m T S R)))).tendsto _)
      (tendsto_fc V fun i => ?_)) p r
    simpa using (he i).const_sub 1
  · obtain ⟨p, q, hp, hq, rfl⟩ := exists_interleave S.length (x := i) (by rw [hi.length, interleave_length rfl])
    rw [inRange_interleave hp hq rfl] at hi
    have hm : ∀ τ, (c τ).get (interleave p q) = m.trainC g V lam τ ⟨p, mem_box.2 hi.1⟩ ⟨q, mem_box.2 hi.2⟩ := by
      intro τ
      exact c7 τ [] List.Forall₂.nil ⟨p, mem_box.2 hi.1⟩ ⟨q, mem_box.2 hi.2⟩
    simp only [hm]
    refine tendsto_entry (L := 0) ?_ _ _
    cases g with
    | nngp =>
      rw [show m.trainC .nngp V lam = _ from funext fun τ => trainC_nngp hl0 τ]
      rw [← Spectral.fc_zero (V := V)]
      refine tendsto_fc V fun i => ?_
      simpa using ((he i).pow 2).const_mul (lam i)
    | ntk =>
      rw [show m.trainC .ntk V lam = _ from funext fun τ => trainC_ntk hl0 τ]
      have hE : Tendsto (fun τ => Spectral.fc V fun i => Real.exp (-(lam i) * (rate m * τ))) atTop (𝓝 0) := by
        rw [← Spectral.fc_zero (V := V)]
        exact tendsto_fc V he
      have := Tendsto.comp (((continuous_id.matrix_mul (continuous_const (y := pairMat S S (m.kdd .nngp)))).matrix_mul
        continuous_id).tendsto (0 : Matrix (box S) (box S) ℝ)) hE
      simp only [Function.comp_def, id_eq, Matrix.zero_mul] at this
      exact this

/-- **C65.** With `t = None` and `get = 'nngp'` the result on a test set is the Gaussian process posterior, that of `gp_inference`: there
is a matrix `A` of regression coefficients such that the mean is `A y`, and for centred jointly Gaussian outputs with the given kernels
the test outputs given the noisy training outputs `y` are Gaussian with mean `A y` and the returned covariance. -/
theorem inf_is_posterior (hb : bk.Correct) (h : m.Fits bk T S R) (hK : (driving m S .nngp).PosDef) (get : List Field)
    (hg : .nngp ∈ get) (x : TestSet) (s' S' : List ℕ) (ht : m.TestFits T S R x s' S') :
    ∃ mean C A, m.fresh bk get .nngp none (some x) true = .ok (mean, some C) ∧
      m.fresh bk get .nngp none (some x) false = .ok (mean, none) ∧
      (m.gp T (.arr (m.kdd .nngp))).predict bk .nngp (some (.arr (x.ktd .nngp))) (some (.arr x.ktt)) = .ok (mean, some C) ∧
      mean.shape = s' ∧ C.shape = x.ktt.shape ∧ A * driving m S .nngp = pairMat S' S (x.ktd .nngp) ∧
      (∀ p r, viewAt [] m.yTrain.ndim T S' R mean p r = (A *ᵥ fun q => targets m T S R q r) p) ∧
      ∀ {Ω : Type} [MeasurableSpace Ω] (P : Measure Ω) (u : box S → Ω → ℝ) (v : box S' → Ω → ℝ),
        JointGaussian P u v (driving m S .nngp) (pairMat S' S (x.ktd .nngp)) (pairMat S' S' x.ktt) →
        Conditional P u v (fun y => A *ᵥ y) (pairMat S' S' C) := by
  have fit : ∀ K : KArg, K.attr .nngp = .ok (some (m.kdd .nngp)) → K.first = .ok (m.kdd .nngp) →
      (m.gp T K).Fits bk .nngp T S R (m.kdd .nngp) := fun K h1 h2 =>
    ⟨axesOf_neg hb h.axes, h.rows, h.cols, h.nonempty, h1, h.kernel _, ⟨_, h2, by rw [ndim, h.kernel, interleave_length rfl]⟩, h.order⟩
  have htf : ∀ K : KArg, (m.gp T K).TestFits T S R (x.ktd .nngp) s' S' := fun K => ⟨ht.rank, ht.rows, ht.cols, ht.kernel _⟩
  have hat : ∀ c : Field → Bool, c .nngp = true → (m.kddArg c).attr .nngp = .ok (some (m.kdd .nngp)) ∧
      (m.kddArg c).first = .ok (m.kdd .nngp) := by
    intro c hc
    refine ⟨by rw [kddArg_attr, if_pos hc], ?_⟩
    simp [Ens.kddArg, hc, KArg.first]
  obtain ⟨mean, C, A, p1, p2, p3⟩ := C64.posterior hb (g := .nngp) (by decide) (fit (.arr (m.kdd .nngp)) rfl rfl) hK (htf _)
    (td := .arr (x.ktd .nngp)) (tt := .arr x.ktt) rfl rfl ht.test
  have same : ∀ cov, m.fresh bk get .nngp none (some x) cov = (m.gp T (.arr (m.kdd .nngp))).predict bk .nngp
      (some (.arr (x.ktd .nngp))) (if cov then some (.arr x.ktt) else none) := by
    intro cov
    obtain ⟨e1, e2⟩ := hat (needs get cov) (needs_self hg cov)
    have e3 := ktdArg_attr x get cov .nngp (needs_self hg cov)
    unfold Ens.fresh
    simp only [h.axes, Bind.bind, Except.bind, Ens.body, Option.map_some]
    have : (testTest (some x) cov).map ttArg = if cov then some (.arr x.ktt) else none := by cases cov <;> rfl
    rw [this]
    unfold Gp.predict Gp.one
    have f1 : (m.gp T (m.kddArg (needs get cov))).kTrainTrain.attr .nngp = .ok (some (m.kdd .nngp)) := e1
    have f2 : (m.gp T (m.kddArg (needs get cov))).kTrainTrain.first = .ok (m.kdd .nngp) := e2
    have g1 : (m.gp T (.arr (m.kdd .nngp))).kTrainTrain.attr .nngp = .ok (some (m.kdd .nngp)) := rfl
    have g2 : (m.gp T (.arr (m.kdd .nngp))).kTrainTrain.first = .ok (m.kdd .nngp) := rfl
    have g3 : (KArg.arr (x.ktd .nngp)).attr .nngp = .ok (some (x.ktd .nngp)) := rfl
    have hm : Field.nngp.mode = .nngp := rfl
    have hmf : Mode.nngp.field = .nngp := rfl
    have hmi : Mode.nngp.init = .nngp := rfl
    simp only [hm, hmf, hmi, Bind.bind, Except.bind, f1, f2, g1, g2, g3, e3]
    rfl
  refine ⟨mean, C, A, by rw [same]; exact p1, by rw [same]; exact p2, p1, ?_⟩
  obtain ⟨q1, q2, q3, q4, q5, q6⟩ := p3
  exact ⟨q1, q2, q3, q4, q6⟩

/-! Cases that meet the hypotheses. -/

noncomputable def exE : Ens where
  kdd := fun g => match g with
    | .nngp => C64.exK
    | .ntk => ⟨[2, 2], fun i => 3 * C64.exK.get i⟩
  yTrain := ⟨[2, 1], fun i => i.getD 0 0⟩
  learningRate := 1
  diagReg := 1 / 10
  absolute := false
  traceAxes := [-1]

lemma exE_fits : exE.Fits exact [1] [2] [1] where
  axes := C61.exM_fits.axes
  rows := by decide
  cols := by decide
  nonempty := by decide
  kernel := by intro g; cases g <;> rfl
  order := (C64.exG_fits .nngp).order

lemma exE_posDef (g : Field) : (driving exE [2] g).PosDef := by
  cases g with
  | nngp => exact C64.exG_posDef
  | ntk =>
    have h1 : pairMat [2] [2] (exE.kdd .ntk) = (3 : ℝ) • pairMat [2] [2] C64.exK := rfl
    have h2 : driving exE [2] .ntk = (3 : ℝ) • driving exE [2] .nngp := by
      simp only [driving, regMat, h1, trace_smul, smul_add, smul_smul]
      congr 2
      simp only [exE, Bool.false_eq_true, if_false, smul_eq_mul]
      ring
    rw [h2]
    exact (C64.exG_posDef).smul (by norm_num)

noncomputable def exX : TestSet where
  ktd := fun g => match g with
    | .nngp => C64.exK
    | .ntk => ⟨[2, 2], fun i => 3 * C64.exK.get i⟩
  ktt := C64.exK

lemma exX_fits : exE.TestFits [1] [2] [1] exX [2, 1] [2] := ⟨rfl, by decide, by decide, by intro g; cases g <;> rfl, rfl⟩

/-- Ensembles as in the theorems exist whenever the covariances are those of a positive semidefinite matrix. -/
lemma exists_init {ι ι' κ : Type} [Fintype ι] [Fintype ι'] [DecidableEq ι] [DecidableEq ι'] (K : Matrix ι ι ℝ) (K' : Matrix ι' ι ℝ)
    (K'' : Matrix ι' ι' ℝ) (h : (fromBlocks K K'ᵀ K' K'').PosSemidef) :
    ∃ (P : Measure (EuclideanSpace ℝ (ι ⊕ ι'))) (_ : IsProbabilityMeasure P) (u : _ → Matrix ι κ ℝ) (v : _ → Matrix ι' κ ℝ),
      RandomInit P u v K K' K'' := by
  obtain ⟨P, u, v, hj⟩ := exists_joint K K' K'' h
  have hP : IsProbabilityMeasure P := hj.gauss.isProbabilityMeasure
  have hu : ∀ i, MemLp (u i) 2 P := fun i => (hj.gauss.fst.eval i).memLp_two
  have hv : ∀ i, MemLp (v i) 2 P := fun i => (hj.gauss.snd.eval i).memLp_two
  exact ⟨P, hP, fun ω i _ => u i ω, fun ω i _ => v i ω, fun i _ => hu i, fun i _ => hv i, fun i _ => hj.mean_u i, fun i _ => hj.mean_v i,
    fun i i' _ => hj.cov_uu i i', fun i i' _ => hj.cov_vu i i', fun i i' _ => hj.cov_vv i i'⟩

/-- The flows of the theorems exist. -/
lemma exists_flow (hb : bk.Correct) (h : m.Fits bk T S R) (g : Field) (hK : (driving m S g).PosDef) {S' : List ℕ}
    (K' : Matrix (box S') (box S) ℝ) (u : Matrix (box S) (box R) ℝ) (v : Matrix (box S') (box R) ℝ) :
    ∃ F G, (F 0 = u ∧ Flow (rate m) (driving m S g) (targets m T S R) F) ∧ G 0 = v ∧ Driven (rate m) K' (targets m T S R) F G := by
  obtain ⟨V, lam, v1, v2, -⟩ := fresh_train hb h g (C61.symm_of hK.posSemidef) [g] (by simp) false
  have hl := Spectral.eval_pos v1 (v2 ▸ hK)
  exact ⟨_, _, ⟨Spectral.sol_zero _ _ _ _, v2 ▸ Spectral.sol_flow v1 _ _ _ _⟩, Spectral.solT_zero _ _ _ _ _ _,
    Spectral.solT_driven v1 lam (fun i => (hl i).ne') _ K' u _ v⟩

example := exists_init (κ := box [1]) (priorTrain exE [2] .ntk) (pairMat [2] [2] (exX.ktd .nngp)) (pairMat [2] [2] exX.ktt) C64.exJoint
example := fun u v => exists_flow exact_correct exE_fits .ntk (exE_posDef .ntk) (pairMat [2] [2] (exX.ktd .ntk)) u v
example := ensemble_train exact_correct exE_fits .ntk (exE_posDef .ntk).posSemidef [.ntk] (by decide) true ⟨[3], fun i => i.getD 0 0⟩
example := ensemble_test exact_correct exE_fits .nngp (exE_posDef .nngp) [.nngp, .ntk] (by decide) true ⟨[3], fun i => i.getD 0 0⟩ exX
  [2, 1] [2] exX_fits
example := prior_test exact_correct exE_fits .ntk (exE_posDef .ntk) [.ntk] (by decide) exX [2, 1] [2] exX_fits
example := limit_test exact_correct exE_fits .ntk (exE_posDef .ntk) (by norm_num [exE]) [.ntk] (by decide) exX [2, 1] [2] exX_fits
example := limit_train exact_correct exE_fits .nngp (exE_posDef .nngp) (by norm_num [exE]) [.nngp] (by decide)
example := inf_is_posterior exact_correct exE_fits (exE_posDef .nngp) [.nngp] (by decide) exX [2, 1] [2] exX_fits
example := prior_train_partial exact_correct exE_fits .nngp (exE_posDef .nngp).posSemidef [.nngp] (by decide)

/-- **C65, a departure.** With `get = 'nngp'` and a regulariser the covariance at the training points before training is not the NNGP
kernel: it includes the regulariser. -/
theorem prior_train_regularised : ∃ mean C, exE.fresh exact [.nngp] .nngp (some (at' 0)) none true = .ok (mean, some C) ∧
    C.shape = (exE.kdd .nngp).shape ∧ C.get [0, 0] ≠ (exE.kdd .nngp).get [0, 0] := by
  obtain ⟨mean, C, h1, -, h2, h3⟩ := prior_train_partial exact_correct exE_fits .nngp (exE_posDef .nngp).posSemidef [.nngp] (by decide)
  refine ⟨mean, C, h1, h2, ?_⟩
  have h0 : [0] ∈ box [2] := mem_box.2 (by decide)
  have := congrFun (congrFun h3 ⟨[0], h0⟩) ⟨[0], h0⟩
  change C.get [0, 0] = _ at this
  have hne : Nonempty (box [2]) := ⟨⟨[0], h0⟩⟩
  have htr : 0 < (pairMat [2] [2] C64.exK).trace := (C61.exM_kernel_posDef).trace_pos
  rw [this]
  have hv : priorTrain exE [2] .nngp ⟨[0], h0⟩ ⟨[0], h0⟩ = C64.exK.get [0, 0] + 1 / 10 * ((pairMat [2] [2] C64.exK).trace / Fintype.card (box [2])) := by
    simp only [priorTrain, regMat, Matrix.add_apply, Matrix.smul_apply, one_apply_eq, smul_eq_mul, mul_one]
    rfl
  rw [hv]
  have hc : (0 : ℝ) < Fintype.card (box [2]) := by
    exact_mod_cast Fintype.card_pos_iff.2 hne
  have : 0 < 1 / 10 * ((pairMat [2] [2] C64.exK).trace / Fintype.card (box [2])) := by positivity
  show C64.exK.get [0, 0] + _ ≠ C64.exK.get [0, 0]
  linarith

end NT.C65
