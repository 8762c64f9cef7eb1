import Verif.Lemmas.Ensemble
import Verif.Spec.Ensemble

/-!
# The predictions of `gradient_descent_mse_ensemble` at finite time
-/

namespace NT.Predict
open NT Arr Spec Matrix

variable {bk : Backend} {m : Ens} {T S R : List ℕ}

lemma Ens.Fits.lengths (hb : bk.Correct) (h : m.Fits bk T S R) : T.Nodup ∧ (∀ k ∈ T, k < m.yTrain.ndim) ∧
    S.length = (otherAxes m.yTrain.ndim T).length ∧ R.length = T.length ∧ S.length + R.length = m.yTrain.ndim ∧ S.prod ≠ 0 :=
  Gp.Fits.lengths (m := ⟨.arr (m.kdd .nngp), m.yTrain, m.diagReg, m.absolute, m.traceAxes⟩) (g := .nngp) (kdd := m.kdd .nngp) hb
    ⟨h.axes, h.rows, h.cols, h.nonempty, rfl, h.kernel _, ⟨_, rfl, by rw [ndim, h.kernel, interleave_length rfl]⟩, h.order⟩

lemma Ens.Fits.test_length {s' S' : List ℕ} {x : TestSet} (hb : bk.Correct) (h : m.Fits bk T S R) (ht : m.TestFits T S R x s' S') :
    S'.length = S.length := by
  rw [ht.rows, (h.lengths hb).2.2.1]
  simp [sizesAt]

/-- The flattened targets. -/
lemma Ens.Fits.flat (hb : bk.Correct) (h : m.Fits bk T S R) :
    ∃ z, reshapeHead (m.yTrain.moveaxis T (lastAxes m.yTrain.ndim T.length)) (gather T m.yTrain.shape) = .ok z ∧ z.shape = S.prod :: R ∧
      ∀ (p : box S) (r : box R), z.get (ravel S p.1 :: r.1) = viewAt [] m.yTrain.ndim T S R m.yTrain p r := by
  obtain ⟨hn, hl, -⟩ := h.lengths hb
  obtain ⟨z, z1, z2, z3⟩ := flat_ok m.yTrain T hn hl h.nonempty S R h.rows h.cols
  refine ⟨z, by rw [gather_eq_sizesAt, ← h.cols]; exact z1, z2, fun p r => z3 p.1 r.1 (mem_box.1 p.2) (mem_box.1 r.2)⟩

/-- `reshape_mean`. -/
lemma Ens.reshapeMean_ok (hb : bk.Correct) (h : m.Fits bk T S R) {s' S' : List ℕ} (hs' : s'.length = m.yTrain.ndim)
    (hS' : S' = sizesAt (otherAxes m.yTrain.ndim T) s') (hR' : R = sizesAt T s') (t k d : Arr ℝ) (hk : k.shape = interleave S' S)
    (hd : d.shape = t.shape.prod :: S'.prod :: R) (F : ℝ → Matrix (box S') (box R) ℝ)
    (hF : ∀ j, InRange j t.shape → ∀ p r, d.get (ravel t.shape j :: ravel S' p.1 :: r.1) = F (t.get j) p r) :
    ∃ o, m.reshapeMean T t k d = .ok o ∧ OutIs (some o) t m.yTrain.ndim T S' R s' F := by
  obtain ⟨hn, hl, hSl, hRl, hST, -⟩ := h.lengths hb
  have hSS : S'.length = S.length := by rw [hS', hSl]; simp [sizesAt]
  have hkn : k.ndim = 2 * S'.length := by rw [ndim, hk, interleave_length hSS]
  have hev : gather (pyRange 0 k.ndim 2) k.shape = S' := by
    rw [hkn, even_axes, hk]
    have := gather_even [] S' S [] hSS
    simpa using this
  obtain ⟨e, e1, e2, e3⟩ := unflat_ok d t.shape S' R hd
  have hdn : e.ndim - m.yTrain.ndim = t.shape.length := by
    simp only [ndim, e2, List.length_append] at hST ⊢
    omega
  obtain ⟨b1, b2⟩ := moveaxis_back e t.shape s' T hn (by rw [hs']; exact hl) (by rw [e2, hs', ← hS', ← hR']) _ hdn
  refine ⟨_, by
    unfold Ens.reshapeMean
    simp only [bind, Except.bind, hev, gather_eq_sizesAt, ← h.cols, e1]
    rfl, _, rfl, b1, fun tj htj => ?_⟩
  ext p r
  have hp := mem_box.1 p.2
  have hr := mem_box.1 r.2
  have h4 := b2 tj p.1 r.1 htj.length (by rw [hs', ← hSl, hp.length, hSS]) (by rw [hr.length, hRl])
  rw [hs'] at h4
  unfold viewAt
  rw [h4, e3 _ _ _ htj hp hr, hF tj htj]

lemma Ens.times_get (t : Arr ℝ) (j : List ℕ) (hj : InRange j t.shape) :
    (m.times t).get [ravel t.shape j] = t.get j * m.learningRate := by
  unfold Ens.times
  rw [reshape_get (i := [ravel t.shape j]) (j := j) _ _ (by simpa [Arr.map] using hj) (by simp [ravel, Arr.map])]
  rfl

/-- The covariance on the training set in terms of the eigenvalues. -/
noncomputable def Ens.trainC (m : Ens) (g : Field) (V : Matrix (box S) (Fin S.prod) ℝ) (lam : Fin S.prod → ℝ) (τ : ℝ) :
    Matrix (box S) (box S) ℝ :=
  match g with
  | .nngp => Spectral.fc V fun i => max (lam i) 0 * Real.exp (-2 * max (lam i) 0 * (τ * m.learningRate) / m.yTrain.shape.prod)
  | .ntk => (Spectral.fc V fun i => Real.exp (-(max (lam i) 0) * (τ * m.learningRate) / m.yTrain.shape.prod)) *
      pairMat S S (m.kdd .nngp) * (Spectral.fc V fun i => Real.exp (-(max (lam i) 0) * (τ * m.learningRate) / m.yTrain.shape.prod))ᵀ

/-- The covariance on the test set in terms of the eigenvalues. -/
noncomputable def Ens.testC (m : Ens) (x : TestSet) (S' : List ℕ) (g : Field) (V : Matrix (box S) (Fin S.prod) ℝ) (lam : Fin S.prod → ℝ)
    (τ : ℝ) : Matrix (box S') (box S') ℝ :=
  match g with
  | .nngp => pairMat S' S' x.ktt + -(pairMat S' S (x.ktd .nngp) *
      ((Spectral.fc V fun i => -invExpm1Fn m.yTrain.shape.prod (lam i) (2 * (τ * m.learningRate))) * (pairMat S' S (x.ktd .nngp))ᵀ))
  | .ntk =>
      let F := Spectral.fc V fun i => -invExpm1Fn m.yTrain.shape.prod (lam i) (τ * m.learningRate)
      let K := pairMat S' S (x.ktd .ntk)
      let K0 := pairMat S' S (x.ktd .nngp)
      (F * Kᵀ)ᵀ * pairMat S S (m.kdd .nngp) * (F * Kᵀ) + (pairMat S' S' x.ktt + -(K * (F * K0ᵀ) + (K * (F * K0ᵀ))ᵀ))

lemma needs_self {get : List Field} {g : Field} (hg : g ∈ get) (cov : Bool) : needs get cov g = true := by
  cases g <;> simp [needs, hg]

lemma needs_nngp {get : List Field} {g : Field} (hg : g ∈ get) : needs get true .nngp = true := by
  cases g <;> simp [needs, hg]

lemma kddArg_first (c : Field → Bool) (g : Field) (hg : c g = true) : ∃ f, (m.kddArg c).first = .ok (m.kdd f) := by
  unfold Ens.kddArg
  by_cases h : c .nngp = true
  · exact ⟨.nngp, by simp [h, KArg.first]⟩
  · have : c .ntk = true := by cases g <;> first | exact absurd hg h | exact hg
    exact ⟨.ntk, by simp [h, this, KArg.first]⟩

lemma ktdArg_first (x : TestSet) (get : List Field) (cov : Bool) (g : Field) (hg : g ∈ get) :
    ∃ f, (x.ktdArg get cov).first = .ok (x.ktd f) := by
  unfold TestSet.ktdArg
  have hs := needs_self hg cov
  by_cases h : needs get cov .nngp = true
  · exact ⟨.nngp, by simp [h, KArg.first]⟩
  · have : needs get cov .ntk = true := by cases g <;> first | exact absurd hs h | exact hs
    exact ⟨.ntk, by simp [h, this, KArg.first]⟩

lemma ktdArg_attr (x : TestSet) (get : List Field) (cov : Bool) (g : Field) (h : needs get cov g = true) :
    (x.ktdArg get cov).attr g = .ok (some (x.ktd g)) := by
  unfold TestSet.ktdArg
  cases g
  · simp [h, KArg.attr]
  · by_cases h' : needs get cov .nngp = true <;> simp [h, h', KArg.attr]

lemma kddArg_attr (c : Field → Bool) (g : Field) : (m.kddArg c).attr g = .ok (if c g then some (m.kdd g) else none) := by
  cases g <;> rfl

lemma shape_times (t : Arr ℝ) : (m.times t).shape = [t.shape.prod] := rfl

/-- Predictions on the training set at finite time. -/
lemma ens_train (hb : bk.Correct) (h : m.Fits bk T S R) (g : Field) (es : Arr ℝ × Arr ℝ) (V : Matrix (box S) (Fin S.prod) ℝ)
    (lam : Fin S.prod → ℝ) (hes : es.2.shape = [S.prod, S.prod]) (hV : ∀ (p : box S) i, V p i = es.2.get [ravel S p.1, i.1])
    (hlam : ∀ i, lam i = es.1.get [i.1]) (c : Field → Bool) (cov : Bool) (hcg : c g = true) (hc0 : cov = true → c .nngp = true) (t : Arr ℝ) :
    ∃ mean C, m.finite T es g t (m.kddArg c) none (testTest none cov) = .ok (mean, C) ∧
      OutIs (some mean) t m.yTrain.ndim T S R m.yTrain.shape (fun τ =>
        (Spectral.fc V fun i => -expm1Fn m.yTrain.shape.prod (lam i) (τ * m.learningRate)) * viewAt [] m.yTrain.ndim T S R m.yTrain) ∧
      (cov = false → C = none) ∧ (cov = true → CovIs C t S (m.trainC g V lam)) := by
  obtain ⟨z, z1, z2, z3⟩ := h.flat hb
  obtain ⟨f, f1⟩ := kddArg_first (m := m) c g hcg
  obtain ⟨w, w1, w2, w3⟩ := einsumEig_ok S R es V lam hes hV hlam (fun e t => -expm1Fn m.yTrain.shape.prod e t) z (m.times t) z2 _ z3
  obtain ⟨o, o1, o2⟩ := m.reshapeMean_ok hb h rfl h.rows h.cols t (m.kdd f) w (h.kernel f) (by rw [w2]; rfl) (fun τ =>
        (Spectral.fc V fun i => -expm1Fn m.yTrain.shape.prod (lam i) (τ * m.learningRate)) * viewAt [] m.yTrain.ndim T S R m.yTrain) (by
      intro j hj p r
      rw [w3, m.times_get t j hj])
  cases cov with
  | false =>
    refine ⟨o, none, ?_, o2, fun _ => rfl, by simp⟩
    unfold Ens.finite
    simp only [testTest, bind, Except.bind, z1, Ens.meanFlat, w1, Option.getD_none, f1, o1]
    rfl
  | true =>
    obtain ⟨k0, k1, k2⟩ := rep2_make2d (m.kdd .nngp) S S (h.kernel _) rfl
    have hcov : ∃ d, m.covTrain es g (m.times t) k0 = .ok d ∧ ∃ M, Rep t.shape.prod S S d M ∧
        ∀ j, InRange j t.shape → M (ravel t.shape j) = m.trainC g V lam (t.get j) := by
      cases g with
      | nngp =>
        refine ⟨_, rfl, _, rep_eigFn S es V lam hes hV hlam _ (m.times t) t.shape.prod rfl, fun j hj => ?_⟩
        rw [m.times_get t j hj]
        rfl
      | ntk =>
        obtain ⟨d, d1, d2⟩ := rep_outer (rep_eigFn S es V lam hes hV hlam
          (fun e t => Real.exp (-(max e 0) * t / m.yTrain.shape.prod)) (m.times t) t.shape.prod rfl) k2
        refine ⟨d, d1, _, d2, fun j hj => ?_⟩
        rw [m.times_get t j hj]
        rfl
    obtain ⟨d, d1, M, d2, d3⟩ := hcov
    obtain ⟨C, c1, c2, c3⟩ := reshapeCov_ok (t := t) (h.kernel f) rfl d2
    refine ⟨o, some C, ?_, o2, by simp, fun _ => ⟨C, rfl, c2, fun tj htj p q => by rw [c3 tj htj, d3 tj htj]⟩⟩
    unfold Ens.finite
    simp only [testTest, bind, Except.bind, z1, Ens.meanFlat, w1, Option.getD_none, f1, o1, kddArg_attr, hc0 rfl, if_true, need, k1, d1, c1]
    rfl

/-- Predictions on a test set at finite time. -/
lemma ens_test (hb : bk.Correct) (h : m.Fits bk T S R) (g : Field) (es : Arr ℝ × Arr ℝ) (V : Matrix (box S) (Fin S.prod) ℝ)
    (lam : Fin S.prod → ℝ) (hes : es.2.shape = [S.prod, S.prod]) (hV : ∀ (p : box S) i, V p i = es.2.get [ravel S p.1, i.1])
    (hlam : ∀ i, lam i = es.1.get [i.1]) (c : Field → Bool) (cov : Bool) (hc0 : cov = true → c .nngp = true) (t : Arr ℝ)
    (get : List Field) (hg : g ∈ get) (x : TestSet) (s' S' : List ℕ) (ht : m.TestFits T S R x s' S') :
    ∃ mean C, m.finite T es g t (m.kddArg c) (some (x.ktdArg get cov)) (testTest (some x) cov) = .ok (mean, C) ∧
      OutIs (some mean) t m.yTrain.ndim T S' R s' (fun τ => pairMat S' S (x.ktd g) *
        ((Spectral.fc V fun i => -invExpm1Fn m.yTrain.shape.prod (lam i) (τ * m.learningRate)) *
          viewAt [] m.yTrain.ndim T S R m.yTrain)) ∧
      (cov = false → C = none) ∧ (cov = true → CovIs C t S' (m.testC x S' g V lam)) := by
  obtain ⟨z, z1, z2, z3⟩ := h.flat hb
  obtain ⟨f, f1⟩ := ktdArg_first x get cov g hg
  have hSS := h.test_length hb ht
  have ha := ktdArg_attr x get cov g (needs_self hg cov)
  obtain ⟨kt, kt1, kt2⟩ := rep2_make2d (x.ktd g) S' S (ht.kernel g) hSS
  obtain ⟨w, w1, w2, w3⟩ := einsumEig_ok S R es V lam hes hV hlam (fun e t => -invExpm1Fn m.yTrain.shape.prod e t) z (m.times t) z2 _ z3
  have hleft : ∃ d, leftE kt w = .ok d ∧ d.shape = t.shape.prod :: S'.prod :: R ∧
      ∀ j, InRange j t.shape → ∀ (p : box S') (r : box R), d.get (ravel t.shape j :: ravel S' p.1 :: r.1) =
        (pairMat S' S (x.ktd g) * ((Spectral.fc V fun i => -invExpm1Fn m.yTrain.shape.prod (lam i) (t.get j * m.learningRate)) *
          viewAt [] m.yTrain.ndim T S R m.yTrain)) p r := by
    refine ⟨_, by
      unfold leftE
      simp only [w2, kt2.shape, List.getD_cons_zero, List.getD_cons_succ, if_true]
      rfl, rfl, fun j hj p r => ?_⟩
    simp only [List.getD_cons_zero, List.getD_cons_succ, List.drop_succ_cons, List.drop_zero]
    rw [sum_ravel, mul_apply]
    exact Finset.sum_congr rfl fun q _ => by rw [w3, kt2.get, m.times_get t j hj]
  obtain ⟨d, d1, d2, d3⟩ := hleft
  obtain ⟨o, o1, o2⟩ := m.reshapeMean_ok hb h ht.rank ht.rows ht.cols t (x.ktd f) d (ht.kernel f) d2
    (fun τ => pairMat S' S (x.ktd g) * ((Spectral.fc V fun i => -invExpm1Fn m.yTrain.shape.prod (lam i) (τ * m.learningRate)) *
      viewAt [] m.yTrain.ndim T S R m.yTrain)) d3
  cases cov with
  | false =>
    refine ⟨o, none, ?_, o2, fun _ => rfl, by simp⟩
    unfold Ens.finite
    simp only [testTest, bind, Except.bind, z1, Ens.meanFlat, w1, Option.getD_some, f1, o1, ha, needArr, kt1, d1]
    rfl
  | true =>
    obtain ⟨k0, k1, k2⟩ := rep2_make2d (m.kdd .nngp) S S (h.kernel _) rfl
    obtain ⟨tt, tt1, tt2⟩ := rep2_make2d x.ktt S' S' ht.test rfl
    have hcov : ∃ d, m.covTest es g (m.times t) k0 (x.ktdArg get true) x.ktt = .ok d ∧ ∃ M, Rep t.shape.prod S' S' d M ∧
        ∀ j, InRange j t.shape → M (ravel t.shape j) = m.testC x S' g V lam (t.get j) := by
      unfold Ens.covTest
      simp only [bind, Except.bind, ha, needArr, kt1, tt1]
      cases g with
      | nngp =>
        obtain ⟨a, a1, a2⟩ := rep_right (rep_eigFn S es V lam hes hV hlam
          (fun e t => -invExpm1Fn m.yTrain.shape.prod e (2 * t)) (m.times t) t.shape.prod rfl) kt2
        obtain ⟨b, b1, b2⟩ := rep_left kt2 a2
        obtain ⟨e, e1, e2⟩ := rep_add tt2 (rep_neg b2)
        refine ⟨e, by simp only [a1, b1, e1], _, e2, fun j hj => ?_⟩
        rw [m.times_get t j hj]
        rfl
      | ntk =>
        have hF := rep_eigFn S es V lam hes hV hlam (fun e t => -invExpm1Fn m.yTrain.shape.prod e t) (m.times t) t.shape.prod rfl
        obtain ⟨kn, kn1, kn2⟩ := rep2_make2d (x.ktd .nngp) S' S (ht.kernel _) hSS
        obtain ⟨a, a1, a2⟩ := rep_right hF kt2
        obtain ⟨b, b1, b2⟩ := rep_right hF kn2
        obtain ⟨e, e1, e2⟩ := rep_left kt2 b2
        obtain ⟨u, u1, u2⟩ := rep_zip e2 (rep_transpose e2)
        obtain ⟨v, v1, v2⟩ := rep_inner a2 k2
        obtain ⟨s, s1, s2⟩ := rep_add tt2 (rep_neg u2)
        obtain ⟨y, y1, y2⟩ := rep_zip v2 s2
        refine ⟨y, by
          simp only [a1, ktdArg_attr x get true .nngp (needs_nngp hg), kn1, b1, e1, u1, v1, s1, y1], _, y2, fun j hj => ?_⟩
        rw [m.times_get t j hj]
        rfl
    obtain ⟨d', d1', M, d2', d3'⟩ := hcov
    obtain ⟨C, c1, c2, c3⟩ := reshapeCov_ok (t := t) (ht.kernel f) hSS d2'
    refine ⟨o, some C, ?_, o2, by simp, fun _ => ⟨C, rfl, c2, fun tj htj p q => by rw [c3 tj htj, d3' tj htj]⟩⟩
    unfold Ens.finite
    simp only [testTest, bind, Except.bind, z1, Ens.meanFlat, w1, Option.getD_some, f1, o1, ha, needArr, kt1, d1, kddArg_attr, hc0 rfl, if_true,
      need, k1, Option.map_some, d1', c1]
    rfl

end NT.Predict
