import Verif.Lemmas.Predict

/-!
# `gradient_descent_mse`: finite times
-/

namespace NT.Predict
open NT Arr Spec Matrix

variable {bk : Backend} {m : Mse} {T S R : List ℕ}

lemma Mse.Fits.lengths (hb : bk.Correct) (h : m.Fits bk T S R) :
    T.Nodup ∧ (∀ k ∈ T, k < m.yTrain.ndim) ∧ S.length = (otherAxes m.yTrain.ndim T).length ∧ R.length = T.length ∧
      S.length + T.length = m.yTrain.ndim ∧ m.kTrainTrain.ndim = 2 * S.length := by
  obtain ⟨h1, h2, -⟩ := axesOf_ok hb h.axes
  have hl := freeAxes_length h1 h2
  rw [freeAxes_eq] at hl
  have hS : S.length = (otherAxes m.yTrain.ndim T).length := by rw [h.rows]; simp [sizesAt]
  refine ⟨h1, h2, hS, by rw [h.cols]; simp [sizesAt], by rw [hS]; exact hl, ?_⟩
  rw [ndim, h.kernel, interleave_length rfl]

lemma initView_apply (n : ℕ) (D S R : List ℕ) (f : Arr ℝ) (p : box S) (q : box R) :
    initView n D S R (some f) p q = if f.shape = [] then f.get [] else f.get (joinIdx n D p.1 q.1) := by
  rfl

/-- The residual. -/
lemma rhs_ok (T : List ℕ) (fx : Option (Arr ℝ)) (hf : FitsShape m.yTrain.shape fx) :
    ∃ r, m.rhs fx = .ok r ∧ r.shape = m.yTrain.shape ∧
      ∀ p q, r.get (joinIdx m.yTrain.ndim T p q) =
        (match fx with
          | none => 0
          | some f => if f.shape = [] then f.get [] else f.get (joinIdx m.yTrain.ndim T p q)) -
        m.yTrain.get (joinIdx m.yTrain.ndim T p q) := by
  cases fx with
  | none => exact ⟨_, rfl, rfl, fun p q => by simp [Arr.map]⟩
  | some f =>
    have hlen : ∀ p q, (joinIdx m.yTrain.ndim T p q).length = m.yTrain.ndim := fun p q => join_length p q
    unfold Mse.rhs zipB
    dsimp only
    by_cases h1 : f.shape = m.yTrain.shape
    · refine ⟨⟨f.shape, fun i => f.get i - m.yTrain.get i⟩, by rw [if_pos h1], h1, ?_⟩
      intro p q
      by_cases h2 : f.shape = []
      · have h3 : joinIdx m.yTrain.ndim T p q = [] := by
          rw [← List.length_eq_zero_iff, hlen, ndim, ← h1, h2]; rfl
        simp [h2, h3]
      · simp [h2]
    · have h2 : f.shape = [] := hf.resolve_left h1
      refine ⟨⟨m.yTrain.shape, fun i => f.get [] - m.yTrain.get i⟩, by rw [if_neg h1, if_pos h2], rfl, ?_⟩
      intro p q
      simp [h2]

/-- The flattened residual. -/
lemma rhs_flat (hb : bk.Correct) (h : m.Fits bk T S R) (fx : Option (Arr ℝ)) (hf : FitsShape m.yTrain.shape fx) :
    ∃ r z, m.rhs fx = .ok r ∧ reshapeHead (r.moveaxis T (lastAxes r.ndim T.length)) (gather T m.yTrain.shape) = .ok z ∧
      z.shape = S.prod :: R ∧ ∀ (p : box S) (q : box R), z.get (ravel S p.1 :: q.1) =
        (initView m.yTrain.ndim T S R fx - viewAt [] m.yTrain.ndim T S R m.yTrain) p q := by
  obtain ⟨h1, h2, -⟩ := h.lengths hb
  obtain ⟨r, e1, e2, e3⟩ := rhs_ok T fx hf
  have hn : r.ndim = m.yTrain.ndim := by rw [ndim, e2]; rfl
  obtain ⟨z, g1, g2, g3⟩ := flat_ok r T h1 (by rw [hn]; exact h2) (by rw [e2]; exact h.nonempty) S R (by rw [hn, e2]; exact h.rows)
    (by rw [e2]; exact h.cols)
  refine ⟨r, z, e1, by rw [gather_eq_sizesAt, ← h.cols]; exact g1, g2, ?_⟩
  intro p q
  rw [g3 p.1 q.1 (mem_box.1 p.2) (mem_box.1 q.2), hn, e3, Matrix.sub_apply]
  cases fx with
  | none => simp [initView, viewAt]
  | some f =>
    rw [initView_apply]
    rfl

lemma times_get (t : Arr ℝ) (c : ℝ) {tj : List ℕ} (htj : InRange tj t.shape) :
    ((t.map fun v => v * c).reshape [t.shape.prod]).get [ravel t.shape tj] = t.get tj * c := by
  rw [reshape_get (t.map fun v => v * c) [t.shape.prod] (j := tj) htj (by simp [ravel, Arr.map])]
  rfl

/-- A function of the kernel applied to the flattened residual, with the axes of the targets restored. -/
lemma eig_block (hb : bk.Correct) (h : m.Fits bk T S R) (es : Arr ℝ × Arr ℝ) (V : Matrix (box S) (Fin S.prod) ℝ)
    (lam : Fin S.prod → ℝ) (hes : es.2.shape = [S.prod, S.prod]) (hV : ∀ (p : box S) i, V p i = es.2.get [ravel S p.1, i.1])
    (hlam : ∀ i, lam i = es.1.get [i.1]) (fn : ℝ → ℝ → ℝ) (z t : Arr ℝ) (hz : z.shape = S.prod :: R)
    (W : Matrix (box S) (box R) ℝ) (hW : ∀ p r, z.get (ravel S p.1 :: r.1) = W p r) :
    ∃ w d, einsumEig es.1 es.2 fn z ((t.map fun v => v * m.learningRate).reshape [t.shape.prod]) = .ok w ∧
      reshapeE w (t.shape ++ gather (pyRange 1 m.kTrainTrain.ndim 2) m.kTrainTrain.shape ++ gather T m.yTrain.shape) = .ok d ∧
      d.shape = t.shape ++ S ++ R ∧
      ∀ tj (p : box S) (r : box R), InRange tj t.shape →
        d.get (tj ++ p.1 ++ r.1) = (Spectral.fc V (fun i => fn (lam i) (t.get tj * m.learningRate)) * W) p r := by
  obtain ⟨-, -, -, -, -, hkn⟩ := h.lengths hb
  obtain ⟨w, w1, w2, w3⟩ := einsumEig_ok S R es V lam hes hV hlam fn z
    ((t.map fun v => v * m.learningRate).reshape [t.shape.prod]) hz W hW
  obtain ⟨d, d1, d2, d3⟩ := unflat_ok w t.shape S R (by rw [w2]; rfl)
  have hodd : gather (pyRange 1 m.kTrainTrain.ndim 2) m.kTrainTrain.shape = S := by
    rw [hkn, odd_axes, h.kernel]
    have := gather_odd [] S S [] rfl
    simpa using this
  refine ⟨w, d, w1, by rw [hodd, gather_eq_sizesAt, ← h.cols]; exact d1, d2, ?_⟩
  intro tj p r htj
  rw [d3 tj p.1 r.1 htj (mem_box.1 p.2) (mem_box.1 r.2), w3, times_get t m.learningRate htj]

lemma addTime_ok (fx d : Arr ℝ) (L s : List ℕ) (hd : d.shape = L ++ s) (hf : fx.shape = s ∨ fx.shape = []) (t : ℕ) (ht : t = L.length) :
    ∃ o, addTime fx d t = .ok o ∧ o.shape = L ++ s ∧ ∀ l i, l.length = L.length → i.length = s.length →
      o.get (l ++ i) = (if fx.shape = [] then fx.get [] else fx.get i) + d.get (l ++ i) := by
  subst ht
  unfold addTime
  have hdrop : d.shape.drop L.length = s := by rw [hd, List.drop_left]
  rw [hdrop]
  by_cases h1 : fx.shape = s
  · refine ⟨⟨d.shape, fun i => fx.get (i.drop L.length) + d.get i⟩, by rw [if_pos h1], hd, ?_⟩
    intro l i hl hi
    have h3 : (l ++ i).drop L.length = i := by rw [← hl, List.drop_left]
    dsimp only
    rw [h3]
    split_ifs with h2
    · have : i = [] := by rw [← List.length_eq_zero_iff, hi, ← h1, h2]; rfl
      rw [this]
    · rfl
  · have h2 := hf.resolve_left h1
    refine ⟨⟨d.shape, fun i => fx.get [] + d.get i⟩, by rw [if_neg h1, if_pos h2], hd, ?_⟩
    intro l i hl hi
    simp [h2]

/-- `T.map (ndim - y.ndim + ·)` when the array has `L` before the axes of the targets. -/
lemma finiteTrain_ok (hb : bk.Correct) (h : m.Fits bk T S R) (es : Arr ℝ × Arr ℝ) (V : Matrix (box S) (Fin S.prod) ℝ)
    (lam : Fin S.prod → ℝ) (hes : es.2.shape = [S.prod, S.prod]) (hV : ∀ (p : box S) i, V p i = es.2.get [ravel S p.1, i.1])
    (hlam : ∀ i, lam i = es.1.get [i.1]) (z t f : Arr ℝ) (hf : FitsShape m.yTrain.shape (some f)) (hz : z.shape = S.prod :: R)
    (W : Matrix (box S) (box R) ℝ) (hW : ∀ p r, z.get (ravel S p.1 :: r.1) = W p r) :
    ∃ o, m.finiteTrain es T t z f = .ok o ∧ o.shape = t.shape ++ m.yTrain.shape ∧
      ∀ tj, InRange tj t.shape → viewAt tj m.yTrain.ndim T S R o = initView m.yTrain.ndim T S R (some f) +
        Spectral.fc V (fun i => expm1Fn m.yTrain.shape.prod (lam i) (t.get tj * m.learningRate)) * W := by
  obtain ⟨hn, hl, hSl, hRl, hST, hkn⟩ := h.lengths hb
  obtain ⟨w, d, w1, d1, d2, d3⟩ := eig_block hb h es V lam hes hV hlam (expm1Fn m.yTrain.shape.prod) z t hz W hW
  have hdn : d.ndim - m.yTrain.ndim = t.shape.length := by
    simp only [ndim, d2, List.length_append] at hST ⊢
    omega
  obtain ⟨b1, b2⟩ := moveaxis_back d t.shape m.yTrain.shape T hn hl (by rw [d2, h.rows, h.cols]; rfl) _ hdn
  obtain ⟨o, o1, o2, o3⟩ := addTime_ok f _ t.shape m.yTrain.shape b1 hf t.ndim rfl
  refine ⟨o, ?_, o2, ?_⟩
  · unfold Mse.finiteTrain
    simp only [bind, Except.bind]
    rw [w1]
    simp only
    rw [d1]
    exact o1
  · intro tj htj
    ext p r
    have hp : p.1.length = (otherAxes m.yTrain.shape.length T).length := by rw [(mem_box.1 p.2).length]; exact hSl
    have hr : r.1.length = T.length := by rw [(mem_box.1 r.2).length]; exact hRl
    unfold viewAt
    rw [o3 tj (joinIdx m.yTrain.ndim T p.1 r.1) htj.length (join_length _ _)]
    have := b2 tj p.1 r.1 htj.length hp hr
    rw [show joinIdx m.yTrain.ndim T p.1 r.1 = joinIdx m.yTrain.shape.length T p.1 r.1 from rfl, this, d3 tj p r htj, Matrix.add_apply]
    congr 1

/-- The test outputs. -/
lemma finiteTest_ok (hb : bk.Correct) (h : m.Fits bk T S R) (es : Arr ℝ × Arr ℝ) (V : Matrix (box S) (Fin S.prod) ℝ)
    (lam : Fin S.prod → ℝ) (hes : es.2.shape = [S.prod, S.prod]) (hV : ∀ (p : box S) i, V p i = es.2.get [ravel S p.1, i.1])
    (hlam : ∀ i, lam i = es.1.get [i.1]) (z t f k : Arr ℝ) (s' S' : List ℕ) (hs' : s'.length = m.yTrain.ndim)
    (hS' : S' = sizesAt (otherAxes m.yTrain.ndim T) s') (hR' : R = sizesAt T s') (hk : k.shape = interleave S' S)
    (hf : FitsShape s' (some f)) (hz : z.shape = S.prod :: R)
    (W : Matrix (box S) (box R) ℝ) (hW : ∀ p r, z.get (ravel S p.1 :: r.1) = W p r) :
    ∃ o, m.finiteTest es T t z f k = .ok o ∧ o.shape = t.shape ++ s' ∧
      ∀ tj, InRange tj t.shape → viewAt tj m.yTrain.ndim T S' R o = initView m.yTrain.ndim T S' R (some f) +
        pairMat S' S k * (Spectral.fc V (fun i => invExpm1Fn m.yTrain.shape.prod (lam i) (t.get tj * m.learningRate)) * W) := by
  obtain ⟨hn, hl, hSl, hRl, hST, hkn⟩ := h.lengths hb
  obtain ⟨w, d, w1, d1, d2, d3⟩ := eig_block hb h es V lam hes hV hlam (invExpm1Fn m.yTrain.shape.prod) z t hz W hW
  have hdn : d.ndim - m.yTrain.ndim = t.shape.length := by
    simp only [ndim, d2, List.length_append] at hST ⊢
    omega
  have hSS : S'.length = S.length := by rw [hS', hSl]; simp [sizesAt]
  have hnn : m.yTrain.ndim - T.length = S.length := by omega
  obtain ⟨e, e1, e2, e3⟩ := pairDot_ok k d S' S t.shape R hk hSS d2 _ hdn
  have hen : e.ndim - m.yTrain.ndim = t.shape.length := by
    simp only [ndim, e2, List.length_append] at hST ⊢
    omega
  obtain ⟨b1, b2⟩ := moveaxis_back2 e t.shape s' T hn (by rw [hs']; exact hl) (by rw [e2, hs', hS', hR']) (m.yTrain.ndim - T.length) _
    t.ndim (by rw [hs', ← hSl]; exact hnn) hen rfl
  obtain ⟨o, o1, o2, o3⟩ := addTime_ok f _ t.shape s' b1 hf t.ndim rfl
  refine ⟨o, ?_, o2, ?_⟩
  · unfold Mse.finiteTest
    simp only [bind, Except.bind]
    rw [w1]
    simp only
    rw [d1]
    simp only [getAxes]
    rw [hkn, odd_axes, hnn, e1]
    rw [hnn] at o1
    exact o1
  · intro tj htj
    ext p r
    have hp : p.1.length = S'.length := (mem_box.1 p.2).length
    have hr : r.1.length = R.length := (mem_box.1 r.2).length
    unfold viewAt
    rw [o3 tj _ htj.length (by rw [join_length, hs'])]
    have := b2 tj p.1 r.1 htj.length (by rw [hs', ← hSl, hp, hSS]) (by rw [hr, hRl])
    rw [hs'] at this
    rw [this, e3 p.1 tj r.1 hp htj.length hr, Matrix.add_apply]
    congr 1
    rw [sum_box, mul_apply]
    exact Finset.sum_congr rfl fun q _ => by rw [d3 tj q r htj]; rfl

/-- The finite time predictions, for one decomposition of the regularised kernel. -/
lemma finite_ok (hb : bk.Correct) (h : m.Fits bk T S R) (hsym : (regMat m.diagReg m.absolute (pairMat S S m.kTrainTrain)).IsSymm) :
    ∃ V, ∃ lam : Fin S.prod → ℝ, Spectral.Orth V ∧ regMat m.diagReg m.absolute (pairMat S S m.kTrainTrain) = Spectral.fc V lam ∧
      (∃ es, eigenspace bk m.kTrainTrain m.diagReg m.absolute = .ok es ∧ ∀ i, lam i = es.1.get [i.1]) ∧
      (∀ t f, FitsShape m.yTrain.shape (some f) → ∃ o, m.predict bk (some t) (some f) none none = .ok (o, none) ∧
        OutIs o t m.yTrain.ndim T S R m.yTrain.shape fun τ => initView m.yTrain.ndim T S R (some f) +
          Spectral.fc V (fun i => expm1Fn m.yTrain.shape.prod (lam i) (τ * m.learningRate)) *
            (initView m.yTrain.ndim T S R (some f) - viewAt [] m.yTrain.ndim T S R m.yTrain)) ∧
      (∀ t fx f k s' S', FitsShape m.yTrain.shape fx → m.TestFits T S R f k s' S' →
        ∃ o o', m.predict bk (some t) fx (some f) (some k) = .ok (o, o') ∧
        (fx = none → o = none) ∧
        (∀ f0, fx = some f0 → OutIs o t m.yTrain.ndim T S R m.yTrain.shape fun τ => initView m.yTrain.ndim T S R fx +
          Spectral.fc V (fun i => expm1Fn m.yTrain.shape.prod (lam i) (τ * m.learningRate)) *
            (initView m.yTrain.ndim T S R fx - viewAt [] m.yTrain.ndim T S R m.yTrain)) ∧
        OutIs o' t m.yTrain.ndim T S' R s' fun τ => initView m.yTrain.ndim T S' R (some f) + pairMat S' S k *
          (Spectral.fc V (fun i => invExpm1Fn m.yTrain.shape.prod (lam i) (τ * m.learningRate)) *
            (initView m.yTrain.ndim T S R fx - viewAt [] m.yTrain.ndim T S R m.yTrain))) := by
  obtain ⟨es, V, lam, e1, e2, e3, e4, e5, e6⟩ := eigenspace_ok hb m.kTrainTrain S h.kernel m.diagReg m.absolute hsym
  refine ⟨V, lam, e3, e4, ⟨es, e1, e6⟩, ?_, ?_⟩
  · intro t f hf
    obtain ⟨r, z, r1, z1, z2, z3⟩ := rhs_flat hb h (some f) hf
    obtain ⟨o, o1, o2, o3⟩ := finiteTrain_ok hb h es V lam e2 e5 e6 z t f hf z2 _ z3
    refine ⟨some o, ?_, o, rfl, o2, o3⟩
    unfold Mse.predict checkInputs
    simp only [bind, Except.bind, Option.isNone_some, Bool.false_and, Option.isSome_none, Bool.false_eq_true, if_false]
    unfold Mse.predictFinite
    rw [h.axes, e1, r1]
    simp only [bind, Except.bind]
    rw [z1]
    simp only [o1, Except.map, pure, Except.pure]
  · intro t fx f k s' S' hf ht
    obtain ⟨r, z, r1, z1, z2, z3⟩ := rhs_flat hb h fx hf
    obtain ⟨o', p1, p2, p3⟩ := finiteTest_ok hb h es V lam e2 e5 e6 z t f k s' S' ht.rank ht.rows ht.cols ht.kernel ht.init z2 _ z3
    cases fx with
    | none =>
      refine ⟨none, some o', ?_, fun _ => rfl, by simp, o', rfl, p2, p3⟩
      unfold Mse.predict checkInputs
      simp only [bind, Except.bind, Option.isNone_some, Bool.and_false, Option.isSome_some, Bool.false_eq_true, if_false]
      unfold Mse.predictFinite
      rw [h.axes, e1, r1]
      simp only [bind, Except.bind]
      rw [z1]
      simp only [p1, Except.map, pure, Except.pure]
    | some f0 =>
      obtain ⟨o, o1, o2, o3⟩ := finiteTrain_ok hb h es V lam e2 e5 e6 z t f0 hf z2 _ z3
      refine ⟨some o, some o', ?_, by simp, fun g _ => ⟨o, rfl, o2, o3⟩, o', rfl, p2, p3⟩
      unfold Mse.predict checkInputs
      simp only [bind, Except.bind, Option.isNone_some, Bool.and_false, Option.isSome_some, Bool.false_eq_true, if_false]
      unfold Mse.predictFinite
      rw [h.axes, e1, r1]
      simp only [bind, Except.bind]
      rw [z1]
      simp only [o1, p1, Except.map, pure, Except.pure]

end NT.Predict
