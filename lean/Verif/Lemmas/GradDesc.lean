import Verif.Spec.GradDesc
import Verif.Lemmas.Predict3

/-!
# `gradient_descent`
-/

namespace NT.Predict
open NT Arr Spec Matrix

/-- `tensordot(k, g, (odd, non_t_axes))` with the trace axes of `g` in increasing order. -/
lemma traceDot_ok (k g : Arr ℝ) (A B R T : List ℕ) (hk : k.shape = interleave A B) (hAB : A.length = B.length)
    (hT : T.Pairwise (· < ·)) (hl : ∀ a ∈ T, a < g.ndim) (hB : B = sizesAt (otherAxes g.ndim T) g.shape) (hR : R = sizesAt T g.shape) :
    ∃ z, dotGeneral k g (List.range' 1 B.length 2) (otherAxes g.ndim T) [] [] = .ok z ∧ z.shape = A ++ R ∧
      ∀ p r, p.length = A.length → r.length = R.length →
        z.get (p ++ r) = ∑ q ∈ box B, k.get (interleave p q) * g.get (joinIdx g.ndim T q r) := by
  have hTn : T.Nodup := hT.imp (fun h => h.ne)
  have hkn : k.ndim = 2 * B.length := by rw [ndim, hk, interleave_length hAB, hAB]
  have hBl : (otherAxes g.ndim T).length = B.length := by rw [hB]; simp [sizesAt]
  have hRl : T.length = R.length := by rw [hR]; simp [sizesAt]
  have hg : gather (List.range' 1 B.length 2) k.shape = B := by
    have := gather_odd [] A B [] hAB
    rw [hk]
    rw [hAB] at this
    simpa using this
  have hnd : (otherAxes g.ndim T).Nodup := List.nodup_range.filter _
  obtain ⟨z, h1, h2, h3⟩ := dotGeneral_ok k g (List.range' 1 B.length 2) (otherAxes g.ndim T) [] []
    ⟨by simpa using nodup_range'_two 1 B.length, by
      intro j hj
      obtain ⟨i, hi, e⟩ := List.mem_range'.1 (by simpa using hj)
      rw [hkn]
      omega⟩
    ⟨by simpa using hnd, by
      intro j hj
      have : j ∈ otherAxes g.ndim T := by simpa using hj
      simpa using (List.mem_filter.1 this).1⟩
    (by rw [hg, gather_eq_sizesAt]; exact hB) rfl
  have fA : freeAxes k.ndim ([] ++ List.range' 1 B.length 2) = List.range' 0 A.length 2 := by
    rw [hkn, List.nil_append, free_odd, hAB]
  have fB : freeAxes g.ndim ([] ++ otherAxes g.ndim T) = T := by
    rw [List.nil_append, freeAxes_eq]
    have h4 : otherAxes g.ndim (otherAxes g.ndim T) = (List.range g.ndim).filter fun a => a ∈ T := by
      unfold otherAxes
      refine List.filter_congr fun a ha => ?_
      have ha' := List.mem_range.1 ha
      simp [List.mem_filter, ha']
    rw [h4]
    refine List.Perm.eq_of_pairwise (le := (· < ·)) (fun a b _ _ h h' => absurd h (lt_asymm h')) ?_ hT ?_
    · exact List.Pairwise.filter _ List.pairwise_lt_range
    · refine (List.perm_ext_iff_of_nodup (List.nodup_range.filter _) hTn).2 fun a => ?_
      simp only [List.mem_filter, List.mem_range, decide_eq_true_eq]
      exact ⟨fun h => h.2, fun h => ⟨hl a h, h⟩⟩
  refine ⟨z, h1, ?_, ?_⟩
  · rw [h2, fA, fB, hk, gather_eq_sizesAt T, ← hR]
    have := gather_even [] A B [] hAB
    simp only [List.nil_append, List.append_nil, List.length_nil] at this
    rw [this]
    simp [gather]
  · intro p r hp hr
    have := h3 [] p r (fun q => interleave p q) (fun q => joinIdx g.ndim T q r) rfl (by rw [fA]; simpa using hp) (by
      intro c hc
      simp only [List.length_range'] at hc
      have hpc : p.length = c.length := by omega
      refine ⟨by rw [interleave_length hpc, hkn]; omega, rfl, ?_, ?_⟩
      · rw [fA, ← hp]
        have := gather_even [] p c [] hpc
        simpa using this
      · have := gather_odd [] p c [] hpc
        rw [← hc, ← hpc]
        simpa using this) (by
      intro c hc
      simp only [List.length_range'] at hc
      refine ⟨join_length _ _, rfl, ?_, ?_⟩
      · rw [fB]
        exact gather_join hTn hl c r (hr.trans hRl.symm)
      · exact gather_join_other c r (hc.trans hBl.symm))
    rw [hg, sumOver_eq_box] at this
    simpa using this

variable {bk : Backend} {m : Gd} {T S R : List ℕ}

lemma Gd.Fits.lengths (hb : bk.Correct) (h : m.Fits bk T S R) :
    T.Nodup ∧ (∀ k ∈ T, k < m.yTrain.ndim) ∧ (otherAxes m.yTrain.ndim T).length = S.length ∧ T.length = R.length ∧
      m.kTrainTrain.ndim = 2 * S.length := by
  obtain ⟨hn, hl, -⟩ := axesOf_ok hb h.axes
  refine ⟨hn, hl, ?_, ?_, ?_⟩
  · rw [h.rows]; simp [sizesAt]
  · rw [h.cols]; simp [sizesAt]
  · rw [ndim, h.kernel, interleave_length rfl]

/-- The right-hand side of the equation, as a matrix product. -/
lemma force_ok (hb : bk.Correct) (h : m.Fits bk T S R) (k g : Arr ℝ) (s' S' : List ℕ) (hk : k.shape = interleave S' S)
    (hg : g.shape = m.yTrain.shape) (hs' : s'.length = m.yTrain.ndim) (hS' : S' = sizesAt (otherAxes m.yTrain.ndim T) s')
    (hR' : R = sizesAt T s') :
    ∃ d, m.force k g T = .ok d ∧ d.shape = s' ∧
      ∀ p r, viewAt [] m.yTrain.ndim T S' R d p r = -(pairMat S' S k * viewAt [] m.yTrain.ndim T S R g) p r := by
  obtain ⟨hn, hl, hSl, hRl, hkn⟩ := h.lengths hb
  have hgn : g.ndim = m.yTrain.ndim := by rw [ndim, hg, ndim]
  have hSS : S'.length = S.length := by rw [hS', ← hSl]; simp [sizesAt]
  obtain ⟨z, z1, z2, z3⟩ := traceDot_ok k g S' S R T hk hSS h.order (by rw [hgn]; exact hl) (by rw [hgn, hg]; exact h.rows)
    (by rw [hg]; exact h.cols)
  obtain ⟨b1, b2⟩ := moveaxis_back z [] s' T hn (by rw [hs']; exact hl) (by rw [z2, hs', ← hS', ← hR']; simp) 0 rfl
  refine ⟨(z.moveaxis (lastAxes z.ndim T.length) T).map fun v => -v, ?_, ?_, ?_⟩
  · unfold Gd.force
    rw [hkn, odd_axes]
    simp only [bind, Except.bind]
    have e : ((List.range m.yTrain.ndim).filter fun a => decide (a ∉ T)) = otherAxes g.ndim T := by rw [hgn]; rfl
    rw [e, z1]
    rfl
  · simpa [Arr.map] using b1
  · intro p r
    have hp := (mem_box.1 p.2).length
    have hr := (mem_box.1 r.2).length
    have := b2 [] p.1 r.1 rfl (by rw [hp, hs', hSl, hSS]) (by rw [hr, hRl])
    simp only [List.nil_append, zero_add, List.map_id'] at this
    simp only [viewAt, List.nil_append, Arr.map]
    rw [← hs', this, z3 p.1 r.1 hp hr, sum_box, Matrix.mul_apply, hs', hgn]
    rfl

lemma broadcastTo_ok (f : Arr ℝ) (s : List ℕ) (h : f.shape = s ∨ f.shape = []) :
    ∃ a, broadcastTo f s = .ok a ∧ a.shape = s ∧ ∀ i, InRange i s → a.get i = initGet f i := by
  have hid : ∀ i, InRange i s → bcastIdx s i = i := by
    intro i hi
    unfold bcastIdx
    clear h
    induction hi with
    | nil => rfl
    | @cons a b _ _ hab _ ih =>
      rw [List.zipWith_cons_cons, ih]
      split_ifs with h1
      · congr 1
        omega
      · rfl
  refine ⟨⟨s, fun i => f.get (bcastIdx f.shape (i.drop (s.length - f.ndim)))⟩, ?_, rfl, ?_⟩
  · unfold broadcastTo
    rw [if_pos]
    rcases h with h | h
    · refine ⟨by rw [ndim, h], ?_⟩
      rw [ndim, h, Nat.sub_self, List.drop_zero, List.all_eq_true]
      intro x hx
      have : x.1 = x.2 := by
        obtain ⟨n, hn, e⟩ := List.mem_iff_getElem.1 hx
        rw [List.getElem_zip] at e
        rw [← e]
      simp [this]
    · refine ⟨by rw [ndim, h]; simp, ?_⟩
      rw [h]
      simp
  · intro i hi
    rcases h with h | h
    · simp only [ndim, h, Nat.sub_self, List.drop_zero, initGet]
      rw [hid i hi]
      split_ifs with h0
      · subst h0
        cases hi
        rfl
      · rfl
    · simp [h, bcastIdx, initGet]

lemma orZeros_ok (fx : Option (Arr ℝ)) {n : ℕ} {s T S R : List ℕ} (hs : s.length = n)
    (hS : S = sizesAt (otherAxes n T) s) (hR : R = sizesAt T s) (h : FitsShape s fx) :
    ∃ a, Gd.orZeros fx s = .ok a ∧ a.shape = s ∧ viewAt [] n T S R a = initView n T S R fx := by
  cases fx with
  | none => exact ⟨_, rfl, rfl, rfl⟩
  | some f =>
    obtain ⟨a, h1, h2, h3⟩ := broadcastTo_ok f s h
    refine ⟨a, h1, h2, ?_⟩
    ext p r
    exact h3 _ (join_inRange hs (hS ▸ mem_box.1 p.2) (hR ▸ mem_box.1 r.2))

/-- `_get_fx_test_shape`. -/
lemma fxTestShape_ok {y k : Arr ℝ} {s' S' : List ℕ} (hT : axesOf bk (T.map fun a : ℕ => (a : Int)) y.ndim = .ok T)
    (hk : k.shape = interleave S' S) (hSS : S'.length = S.length) (hs' : s'.length = y.ndim)
    (hS' : S' = sizesAt (otherAxes y.ndim T) s') (hR : sizesAt T y.shape = sizesAt T s') :
    fxTestShape bk y (some k) T = .ok s' := by
  have hkn : k.ndim = 2 * S'.length := by rw [ndim, hk, interleave_length hSS]
  have h0 : gather (pyRange 0 k.ndim 2) k.shape = S' := by
    rw [hkn, even_axes, hk]
    have := gather_even [] S' S [] hSS
    simpa using this
  unfold fxTestShape
  simp only [bind, Except.bind, hT, h0, pure, Except.pure]
  congr 1
  have key : ∀ j, j ≤ y.ndim → (List.range j).foldl (fun (shape : List ℕ) i =>
      if i ∈ T then shape.insertIdx (min i shape.length) (y.shape.getD i 0) else shape) S' =
        s'.take j ++ sizesAt ((List.range' j (y.ndim - j)).filter fun a => a ∉ T) s' := by
    intro j
    induction j with
    | zero =>
      intro _
      rw [hS', otherAxes, List.range_eq_range']
      simp
    | succ j ih =>
      intro hj
      rw [List.range_succ, List.foldl_append, ih (by omega)]
      have hr : List.range' j (y.ndim - j) = j :: List.range' (j + 1) (y.ndim - (j + 1)) := by
        rw [show y.ndim - j = (y.ndim - (j + 1)) + 1 by omega, List.range'_succ]
      have htl : (s'.take j).length = j := by simp; omega
      have hget : s'.getD j 0 = s'[j]'(by omega) := by simp [List.getD, show j < s'.length by omega]
      have htake : s'.take (j + 1) = s'.take j ++ [s'.getD j 0] := by
        rw [List.take_add_one, hget]
        simp [show j < s'.length by omega]
      simp only [List.foldl_cons, List.foldl_nil]
      rw [hr, List.filter_cons]
      split_ifs with h1 h2 h2
      · simp [h1] at h2
      · have e : y.shape.getD j 0 = s'.getD j 0 := by
          have := congrArg (fun l => l.getD (T.idxOf j) 0) hR
          have h3 : T.idxOf j < T.length := List.idxOf_lt_length_iff.2 h1
          simpa [sizesAt, List.getD, h3] using this
        rw [min_eq_left (by simp; omega), e, htake]
        have hi : ∀ (l l' : List ℕ) (x : ℕ), (l ++ l').insertIdx l.length x = l ++ [x] ++ l' := fun l l' x => by
          induction l with
          | nil => simp
          | cons a l ih => simpa using ih
        have := hi (s'.take j) (sizesAt ((List.range' (j + 1) (y.ndim - (j + 1))).filter fun a => a ∉ T) s') (s'.getD j 0)
        rwa [htl] at this
      · rw [htake]
        simp [sizesAt]
      · simp [h1] at h2
  have := key y.ndim le_rfl
  rw [this, List.take_of_length_le (by omega)]
  simp [sizesAt]

end NT.Predict
