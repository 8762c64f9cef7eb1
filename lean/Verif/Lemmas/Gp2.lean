import Verif.Lemmas.Gp
import Verif.Lemmas.Predict3
import Verif.Lemmas.Posterior

/-!
# The means and covariances of `gp_inference`
-/

namespace NT.Predict
open NT Arr Spec Matrix

variable {bk : Backend} {m : Gp} {g : Mode} {T S R : List ℕ} {kdd : Arr ℝ}

lemma Gp.Fits.lengths (hb : bk.Correct) (h : m.Fits bk g T S R kdd) : T.Nodup ∧ (∀ k ∈ T, k < m.yTrain.ndim) ∧
    S.length = (otherAxes m.yTrain.ndim T).length ∧ R.length = T.length ∧ S.length + R.length = m.yTrain.ndim ∧ S.prod ≠ 0 := by
  obtain ⟨hn, hl, -⟩ := axesOf_ok hb h.axes
  have h1 : S.length = (otherAxes m.yTrain.ndim T).length := by rw [h.rows]; simp [sizesAt]
  have h2 : R.length = T.length := by rw [h.cols]; simp [sizesAt]
  have hperm : (otherAxes m.yTrain.ndim T ++ T).Perm (List.range m.yTrain.ndim) := by
    rw [← freeAxes_eq]
    exact freeAxes_perm _ _ hn hl
  have h3 := hperm.length_eq
  rw [List.length_append, List.length_range, ← h1, ← h2] at h3
  have hSR : S.prod * R.prod = m.yTrain.shape.prod := by
    rw [h.rows, h.cols, ← List.prod_append, ← gather_eq_sizesAt, ← gather_eq_sizesAt, ← gather_append]
    have h4 : (gather (otherAxes m.yTrain.ndim T ++ T) m.yTrain.shape).Perm (gather (List.range m.yTrain.ndim) m.yTrain.shape) :=
      hperm.map _
    rw [h4.prod_eq, gather_range_self m.yTrain.shape m.yTrain.ndim rfl]
  exact ⟨hn, hl, h1, h2, h3, fun e => h.nonempty (by rw [← hSR, e, zero_mul])⟩

lemma Gp.Fits.test_length {s' S' : List ℕ} {ktd : Arr ℝ} (hb : bk.Correct) (h : m.Fits bk g T S R kdd) (ht : m.TestFits T S R ktd s' S') :
    S'.length = S.length := by
  rw [ht.rows, (h.lengths hb).2.2.1]
  simp [sizesAt]

/-- The mean on the test set. -/
lemma mean_ok (hb : bk.Correct) (h : m.Fits bk g T S R kdd) (hK : (regMat m.diagReg m.absolute (pairMat S S kdd)).PosDef)
    {ktd : Arr ℝ} {s' S' : List ℕ} (ht : m.TestFits T S R ktd s' S') :
    ∃ a, m.mean bk (2 * S.length) T kdd ktd = .ok a ∧ a.shape = s' ∧
      viewAt [] m.yTrain.ndim T S' R a = pairMat S' S ktd *
        ((regMat m.diagReg m.absolute (pairMat S S kdd))⁻¹ * viewAt [] m.yTrain.ndim T S R m.yTrain) := by
  obtain ⟨hn, hl, hSl, hRl, hST, hS0⟩ := h.lengths hb
  have hT2 : axesOf bk (T.map fun a : ℕ => (a : Int)) m.yTrain.ndim = .ok T := by
    rw [axesOf_nat _ _ hl]
    have h1 := h.axes
    unfold axesOf at h1
    obtain ⟨F, hF, e⟩ : ∃ F, Utils.canonicalizeAxis m.traceAxes m.yTrain.ndim = .ok F ∧ bk.setIter F = T := by
      revert h1
      cases Utils.canonicalizeAxis m.traceAxes m.yTrain.ndim with
      | error e => simp
      | ok F => intro h1; exact ⟨F, rfl, by simpa [Except.map] using h1⟩
    have : T.toFinset = F := by
      ext k
      rw [List.mem_toFinset, ← e, hb.iter_mem]
    rw [this, e]
  obtain ⟨x, x1, x2, x3⟩ := choSolve_ok hb kdd S h.kernel m.diagReg m.absolute hK m.yTrain (T.map fun a : ℕ => (a : Int)) T R hT2
    h.rows h.cols hS0
  have hSS := h.test_length hb ht
  obtain ⟨e, e1, e2, e3⟩ := pairDot_ok ktd x S' S [] R ht.kernel hSS (by simpa using x2) 0 rfl
  have hen : e.ndim - m.yTrain.ndim = 0 := by
    simp only [ndim, e2, List.length_append] at hST ⊢
    simp only [List.length_nil]
    omega
  obtain ⟨b1, b2⟩ := moveaxis_back e [] s' T hn (by rw [ht.rank]; exact hl) (by rw [e2, ht.rank, ← ht.rows, ← ht.cols]; simp)
    (e.ndim - m.yTrain.ndim) hen
  have hTm : (T.map fun k => e.ndim - m.yTrain.ndim + k) = T := by simp [hen]
  rw [hTm] at b1 b2
  have hfirst : pyRange 0 (2 * S.length / 2) 1 = List.range' 0 S.length := by
    rw [Nat.mul_div_cancel_left _ (by norm_num)]
    exact pyRange_one 0 _
  refine ⟨e.moveaxis (lastAxes e.ndim T.length) T, ?_, b1, ?_⟩
  · unfold Gp.mean
    simp only [bind, Except.bind, x1, getAxes]
    rw [odd_axes, hfirst, e1]
    rfl
  · ext p q
    have hp : p.1.length = S'.length := (mem_box.1 p.2).length
    have hq : q.1.length = R.length := (mem_box.1 q.2).length
    have h4 := b2 [] p.1 q.1 rfl (by rw [ht.rank, ← hSl, hp, hSS]) (by rw [hq, hRl])
    rw [ht.rank, List.nil_append, List.nil_append] at h4
    have h5 := e3 p.1 [] q.1 hp rfl hq
    rw [List.nil_append] at h5
    rw [mul_apply]
    unfold viewAt
    rw [List.nil_append, h4, h5, sum_box]
    refine Finset.sum_congr rfl fun q' _ => ?_
    rw [List.nil_append, x3 q' q]
    rfl

lemma zip_pair {f : ℝ → ℝ → ℝ} {a b : Arr ℝ} {P : List ℕ} (ha : a.shape = interleave P P) (hb : b.shape = interleave P P) :
    ∃ c, zipB f a b = .ok c ∧ c.shape = interleave P P ∧ ∀ p q, pairMat P P c p q = f (pairMat P P a p q) (pairMat P P b p q) :=
  ⟨_, zipB_same a b (by rw [ha, hb]), ha, fun _ _ => rfl⟩

lemma zip_cat {f : ℝ → ℝ → ℝ} {a b : Arr ℝ} {P : List ℕ} (ha : a.shape = P ++ P) (hb : b.shape = P ++ P) :
    ∃ c, zipB f a b = .ok c ∧ c.shape = P ++ P ∧ ∀ p q, catMat P P c p q = f (catMat P P a p q) (catMat P P b p q) :=
  ⟨_, zipB_same a b (by rw [ha, hb]), ha, fun _ _ => rfl⟩

/-- The covariance of the modes `nngp` and `ntkgp`. -/
lemma covGp_ok (hb : bk.Correct) {kdd ktd kInit ktt : Arr ℝ} {S S' : List ℕ} (hS' : S'.length = S.length) (hS0 : S.prod ≠ 0)
    (h1 : kdd.shape = interleave S S) (h2 : ktd.shape = interleave S' S) (h3 : kInit.shape = interleave S' S)
    (h4 : ktt.shape = interleave S' S') (hK : (regMat m.diagReg m.absolute (pairMat S S kdd)).PosDef)
    (hev : bk.setIter (pyRange 0 (2 * S.length) 2).toFinset = pyRange 0 (2 * S.length) 2) :
    ∃ c, m.covGp bk (2 * S.length) kdd ktd kInit ktt = .ok c ∧ c.shape = interleave S' S' ∧
      pairMat S' S' c = pairMat S' S' ktt -
        pairMat S' S ktd * ((regMat m.diagReg m.absolute (pairMat S S kdd))⁻¹ * (pairMat S' S kInit)ᵀ) := by
  obtain ⟨w, w1, w2, w3⟩ := choPair_ok hb kdd S h1 m.diagReg m.absolute hK kInit S' hS' h3 hS0 hev
  obtain ⟨z, z1, z2, z3⟩ := pairCat_ok ktd w S' S S' h2 hS' w2
  obtain ⟨y, y1, y2, y3⟩ := catZip_ok z S' z2
  obtain ⟨c, c1, c2, c3⟩ := zip_pair (f := fun a b => a - b) h4 y2
  refine ⟨c, ?_, c2, ?_⟩
  · unfold Gp.covGp
    simp only [bind, Except.bind, w1, z1, y1, c1]
  · ext p q
    rw [c3, y3, z3, w3]
    rfl

/-- The covariance of the mode `ntk`. -/
lemma covNtk_ok (hb : bk.Correct) {kdd ktd kInit ktt nngpDd : Arr ℝ} {S S' : List ℕ} (hS' : S'.length = S.length) (hS0 : S.prod ≠ 0)
    (h1 : kdd.shape = interleave S S) (h2 : ktd.shape = interleave S' S) (h3 : kInit.shape = interleave S' S)
    (h4 : ktt.shape = interleave S' S') (h5 : nngpDd.shape = interleave S S)
    (hK : (regMat m.diagReg m.absolute (pairMat S S kdd)).PosDef)
    (hev : bk.setIter (pyRange 0 (2 * S.length) 2).toFinset = pyRange 0 (2 * S.length) 2) :
    ∃ c, m.covNtk bk (2 * S.length) kdd ktd kInit ktt nngpDd = .ok c ∧ c.shape = interleave S' S' ∧
      ∀ B, B = pairMat S' S ktd * (regMat m.diagReg m.absolute (pairMat S S kdd))⁻¹ →
        pairMat S' S' c = B * pairMat S S nngpDd * Bᵀ - (B * (pairMat S' S kInit)ᵀ + pairMat S' S kInit * Bᵀ) + pairMat S' S' ktt := by
  obtain ⟨w, w1, w2, w3⟩ := choPair_ok hb kdd S h1 m.diagReg m.absolute hK kInit S' hS' h3 hS0 hev
  obtain ⟨t, t1, t2, t3⟩ := choPair_ok hb kdd S h1 m.diagReg m.absolute hK ktd S' hS' h2 hS0 hev
  obtain ⟨a, a1, a2, a3⟩ := pairCat_ok nngpDd t S S S' h5 rfl t2
  obtain ⟨b, b1, b2, b3⟩ := catCat_ok t a S S' S' t2 a2
  obtain ⟨z, z1, z2, z3⟩ := pairCat_ok ktd w S' S S' h2 hS' w2
  obtain ⟨v1, v2⟩ := catT_ok z S' S.length hS' z2
  obtain ⟨u, u1, u2, u3⟩ := zip_cat (f := fun a b => a + b) z2 v1
  obtain ⟨x, x1, x2, x3⟩ := zip_cat (f := fun a b => a - b) b2 u2
  obtain ⟨y, y1, y2, y3⟩ := catZip_ok x S' x2
  obtain ⟨c, c1, c2, c3⟩ := zip_pair (f := fun a b => a + b) y2 h4
  refine ⟨c, ?_, c2, ?_⟩
  · unfold Gp.covNtk
    simp only [bind, Except.bind, w1, t1, a1, b1, z1, u1, x1, y1, c1]
  · rintro B rfl
    have hT : ((regMat m.diagReg m.absolute (pairMat S S kdd))⁻¹)ᵀ = (regMat m.diagReg m.absolute (pairMat S S kdd))⁻¹ := by
      rw [transpose_nonsing_inv]
      congr 1
      have : (regMat m.diagReg m.absolute (pairMat S S kdd)).IsSymm := by simpa using hK.isHermitian
      exact this.eq
    ext p q
    rw [c3, y3, x3, u3, v2, b3, a3, t3, z3, w3]
    simp only [Matrix.add_apply, Matrix.sub_apply, transpose_mul, transpose_transpose, hT, Matrix.mul_assoc]

end NT.Predict
