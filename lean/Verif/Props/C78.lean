import Verif.Lemmas.LayerNorm2
import Verif.Spec.MeanVar

/-!
# C78: masked means and variances

The mean is over the unmasked entries; so is the variance without a mask, but with a mask every masked entry adds the square of the mean.
-/

namespace NT.C78
open NT Arr Spec

lemma getD_flags (A : Finset ℕ) (n a : ℕ) (h : a < n) : (flagsOf A n).getD a false = decide (a ∈ A) := by
  simp [flagsOf, List.getD, h]

lemma sum_line {M : Type} [AddCommMonoid M] (s : List ℕ) (A : Finset ℕ) (f : List ℕ → M) (i : List ℕ) (hi : InRange i s) :
    (∑ j ∈ box s, if agrees (flagsOf A s.length) i j then f j else 0) = ∑ j ∈ line s A i, f j := by
  rw [line, Finset.sum_filter]
  refine Finset.sum_congr rfl fun j hj => ?_
  have hl : (flagsOf A s.length).length = s.length := by simp [flagsOf]
  have hj := (mem_box.1 hj).length
  have hi := hi.length
  have e : agrees (flagsOf A s.length) i j = true ↔ ∀ a, a < s.length → a ∉ A → j.getD a 0 = i.getD a 0 := by
    rw [agrees_iff (by omega) (by omega), hl]
    refine forall_congr' fun a => forall_congr' fun ha => ?_
    rw [getD_flags A _ a ha]
    simp
  by_cases h : agrees (flagsOf A s.length) i j = true
  · rw [if_pos h, if_pos (e.1 h)]
  · rw [if_neg h, if_neg fun h' => h (e.2 h')]

lemma line_card (s : List ℕ) (A : Finset ℕ) (i : List ℕ) (hi : InRange i s) : (line s A i).card = flagSize (flagsOf A s.length) s := by
  rw [← agrees_count (flagsOf A s.length) s i (by simp [flagsOf]) hi, sum_line s A _ i hi]
  simp

lemma self_mem_line {s : List ℕ} (A : Finset ℕ) {i : List ℕ} (hi : InRange i s) : i ∈ line s A i := by
  simp [line, mem_box, hi]

lemma line_eq {s : List ℕ} {A : Finset ℕ} {i j : List ℕ} (h : j ∈ line s A i) : line s A j = line s A i := by
  simp only [line, Finset.mem_filter] at h
  ext y
  simp only [line, Finset.mem_filter]
  refine and_congr_right fun _ => ?_
  exact ⟨fun h' a ha hA => (h' a ha hA).trans (h.2 a ha hA), fun h' a ha hA => (h' a ha hA).trans (h.2 a ha hA).symm⟩

lemma groupSum_bc {M : Type} [AddCommMonoid M] (x : Arr M) (A : Finset ℕ) (i : List ℕ) (hi : InRange i x.shape) :
    (groupSum (flagsOf A x.ndim) x).get (bcastIdx (keepShape (flagsOf A x.ndim) x.shape) i) = ∑ j ∈ line x.shape A i, x.get j := by
  rw [groupSum_get, ← sum_line _ _ _ _ hi]
  refine Finset.sum_congr rfl fun j hj => ?_
  rw [show x.ndim = x.shape.length from rfl, agrees_keep _ _ _ _ (by simp [flagsOf]) hi (mem_box.1 hj)]

/-- The size by which sums are divided: the number of unmasked entries, or 1 if there are none. -/
lemma groupSize_mask (s : List ℕ) (A : Finset ℕ) (m M : Arr Bool) (hm : Masks.broadcastTo m s = .ok M) :
    ∃ z, groupSize (flagsOf A s.length) s (some m) = .ok z ∧ ∀ i, InRange i s →
      z.get (bcastIdx (keepShape (flagsOf A s.length) s) i) = (max (unmasked s A M.get i).card 1 : ℕ) := by
  have hs : M.shape = s := by
    unfold Masks.broadcastTo at hm
    split_ifs at hm
    obtain rfl : _ = M := by simpa using hm
    rfl
  subst hs
  refine ⟨⟨keepShape (flagsOf A M.shape.length) M.shape, fun i => (max (flagSize (flagsOf A M.shape.length) M.shape -
    (groupSum (flagsOf A M.shape.length) (M.map fun b => if b then (1 : ℕ) else 0)).get i) 1 : ℕ)⟩, ?_, ?_⟩
  · simp only [groupSize, hm, bind, Except.bind, pure, Except.pure]
  · intro i hi
    have := groupSum_bc (M := ℕ) (Arr.map (fun b => if b then (1 : ℕ) else 0) M) A i hi
    simp only [ndim, Arr.map] at this
    simp only [Arr.map, this]
    rw [← line_card M.shape A i hi]
    congr 2
    have e := Finset.card_filter_add_card_filter_not (s := line M.shape A i) (fun j => M.get j = false)
    have e2 : (∑ j ∈ line M.shape A i, if M.get j = true then 1 else 0) = ((line M.shape A i).filter fun j => ¬ M.get j = false).card := by
      rw [Finset.card_filter]
      refine Finset.sum_congr rfl fun j _ => ?_
      cases M.get j <;> simp
    rw [e2]
    unfold unmasked
    omega

/-- **C78, the mean** (with a mask).  If the masked entries are zero, as they are in every masked array of the library, the mean is over
the unmasked entries; where there are none it is 0. -/
theorem masked_mean (x : Arr ℝ) (A : Finset ℕ) (hA : ∀ a ∈ A, a < x.ndim) (m M : Arr Bool) (hm : Masks.broadcastTo m x.shape = .ok M)
    (hz : ∀ j, InRange j x.shape → M.get j = true → x.get j = 0) :
    ∃ y, meanKeep x A (some m) = .ok y ∧ y.shape = keepShape (flagsOf A x.ndim) x.shape ∧ ∀ i, InRange i x.shape →
      y.get (bcastIdx y.shape i) = meanOver (unmasked x.shape A M.get i) x.get := by
  obtain ⟨z, h1, h2⟩ := groupSize_mask x.shape A m M hm
  refine ⟨⟨keepShape (flagsOf A x.ndim) x.shape, fun i => (groupSum (flagsOf A x.ndim) x).get i / z.get i⟩, ?_, rfl, ?_⟩
  · unfold meanKeep
    rw [if_pos hA]
    simp only [ndim, h1, bind, Except.bind, pure, Except.pure]
  · intro i hi
    have e := h2 i hi
    simp only [groupSum_bc x A i hi]
    rw [show x.shape.length = x.ndim from rfl] at e
    rw [e]
    have : ∑ j ∈ line x.shape A i, x.get j = ∑ j ∈ unmasked x.shape A M.get i, x.get j := by
      rw [unmasked, Finset.sum_filter]
      refine Finset.sum_congr rfl fun j hj => ?_
      have hj' : InRange j x.shape := mem_box.1 (Finset.mem_filter.1 hj).1
      cases hM : M.get j with
      | false => simp
      | true => simp [hz j hj' hM]
    rw [this, meanOver]
    by_cases hU : (unmasked x.shape A M.get i).card = 0
    · rw [Finset.card_eq_zero.1 hU]; simp
    · rw [Nat.max_eq_left (by omega)]

/-- **C78, without a mask**: the mean and the variance over all entries. -/
theorem plain (x : Arr ℝ) (A : Finset ℕ) (hA : ∀ a ∈ A, a < x.ndim) :
    ∃ y v, meanKeep x A none = .ok y ∧ varKeep x A none = .ok v ∧ y.shape = keepShape (flagsOf A x.ndim) x.shape ∧
      v.shape = keepShape (flagsOf A x.ndim) x.shape ∧ ∀ i, InRange i x.shape →
        y.get (bcastIdx y.shape i) = meanOver (line x.shape A i) x.get ∧ v.get (bcastIdx v.shape i) = varOver (line x.shape A i) x.get := by
  have hmean : ∀ i, InRange i x.shape → (groupSum (flagsOf A x.ndim) x).get (bcastIdx (keepShape (flagsOf A x.ndim) x.shape) i) /
      (flagSize (flagsOf A x.ndim) x.shape : ℝ) = meanOver (line x.shape A i) x.get := by
    intro i hi
    rw [groupSum_bc x A i hi, meanOver, line_card x.shape A i hi]
    rfl
  refine ⟨⟨keepShape (flagsOf A x.ndim) x.shape, fun i => (groupSum (flagsOf A x.ndim) x).get i /
    (flagSize (flagsOf A x.ndim) x.shape : ℝ)⟩, ⟨keepShape (flagsOf A x.ndim) x.shape, fun i => (groupSum (flagsOf A x.ndim)
    (bcast (fun u v : ℝ => (u - v) ^ 2) x ⟨keepShape (flagsOf A x.ndim) x.shape, fun i => (groupSum (flagsOf A x.ndim) x).get i /
    (flagSize (flagsOf A x.ndim) x.shape : ℝ)⟩)).get i / (flagSize (flagsOf A x.ndim) x.shape : ℝ)⟩, ?_, ?_, rfl, rfl, ?_⟩
  · unfold meanKeep
    rw [if_pos hA]
    rfl
  · unfold varKeep meanKeep
    rw [if_pos hA]
    rfl
  · intro i hi
    refine ⟨hmean i hi, ?_⟩
    have hsh : (bcast (fun u v : ℝ => (u - v) ^ 2) x ⟨keepShape (flagsOf A x.ndim) x.shape, fun i =>
        (groupSum (flagsOf A x.ndim) x).get i / (flagSize (flagsOf A x.ndim) x.shape : ℝ)⟩).shape = x.shape :=
      bcast_dims (keep_widens _ _ (by simp [flagsOf, ndim]))
    have := groupSum_bc (bcast (fun u v : ℝ => (u - v) ^ 2) x ⟨keepShape (flagsOf A x.ndim) x.shape, fun i =>
        (groupSum (flagsOf A x.ndim) x).get i / (flagSize (flagsOf A x.ndim) x.shape : ℝ)⟩) A i (by rw [hsh]; exact hi)
    rw [ndim, hsh] at this
    simp only [ndim] at this ⊢
    rw [this, varOver, line_card x.shape A i hi]
    congr 1
    refine Finset.sum_congr rfl fun j hj => ?_
    have hj' : InRange j x.shape := mem_box.1 (Finset.mem_filter.1 hj).1
    have := hmean j hj'
    rw [meanOver, line_eq hj] at this
    simp only [bcast, bcastIdx_self hj']
    rw [show x.shape.length = x.ndim from rfl, this]
    rfl

/-- **C78, the variance with a mask**: every masked entry adds the square of the mean to the sum, so that the result is too large unless
the mean is zero or nothing is masked. -/
theorem masked_var_excess (x : Arr ℝ) (A : Finset ℕ) (hA : ∀ a ∈ A, a < x.ndim) (m M : Arr Bool)
    (hm : Masks.broadcastTo m x.shape = .ok M) (hz : ∀ j, InRange j x.shape → M.get j = true → x.get j = 0) :
    ∃ v, varKeep x A (some m) = .ok v ∧ v.shape = keepShape (flagsOf A x.ndim) x.shape ∧ ∀ i, InRange i x.shape →
      (unmasked x.shape A M.get i).Nonempty →
      v.get (bcastIdx v.shape i) = varOver (unmasked x.shape A M.get i) x.get +
        ((line x.shape A i).card - (unmasked x.shape A M.get i).card : ℕ) * meanOver (unmasked x.shape A M.get i) x.get ^ 2 /
          (unmasked x.shape A M.get i).card := by
  obtain ⟨z, h1, h2⟩ := groupSize_mask x.shape A m M hm
  obtain ⟨y, y1, y2, y3⟩ := masked_mean x A hA m M hm hz
  refine ⟨⟨keepShape (flagsOf A x.ndim) x.shape, fun i => (groupSum (flagsOf A x.ndim)
    (bcast (fun u v : ℝ => (u - v) ^ 2) x y)).get i / z.get i⟩, ?_, rfl, ?_⟩
  · unfold varKeep
    simp only [y1, ndim, h1, bind, Except.bind, pure, Except.pure]
  · intro i hi hne
    have hsh : (bcast (fun u v : ℝ => (u - v) ^ 2) x y).shape = x.shape := by
      show List.zipWith bcastDim x.shape y.shape = _
      rw [y2]
      exact bcast_dims (keep_widens _ _ (by simp [flagsOf, ndim]))
    have := groupSum_bc (bcast (fun u v : ℝ => (u - v) ^ 2) x y) A i (by rw [hsh]; exact hi)
    rw [ndim, hsh] at this
    have e := h2 i hi
    simp only [ndim] at this ⊢
    rw [this, e, Nat.max_eq_left (Finset.card_pos.2 hne)]
    have es : ∀ j ∈ line x.shape A i, (bcast (fun u v : ℝ => (u - v) ^ 2) x y).get j =
        (x.get j - meanOver (unmasked x.shape A M.get i) x.get) ^ 2 := by
      intro j hj
      have hj' : InRange j x.shape := mem_box.1 (Finset.mem_filter.1 hj).1
      simp only [bcast, bcastIdx_self hj', y3 j hj']
      rw [unmasked, unmasked, line_eq hj]
    rw [Finset.sum_congr rfl es, varOver, ← add_div]
    congr 1
    rw [← Finset.sum_filter_add_sum_filter_not (line x.shape A i) (fun j => M.get j = false)]
    have hc := Finset.card_filter_add_card_filter_not (s := line x.shape A i) (fun j => M.get j = false)
    have e3 : ∑ j ∈ (line x.shape A i).filter (fun j => ¬ M.get j = false), (x.get j - meanOver (unmasked x.shape A M.get i) x.get) ^ 2 =
        ∑ _j ∈ (line x.shape A i).filter (fun j => ¬ M.get j = false), meanOver (unmasked x.shape A M.get i) x.get ^ 2 := by
      refine Finset.sum_congr rfl fun j hj => ?_
      obtain ⟨q1, q2⟩ := Finset.mem_filter.1 hj
      rw [hz j (mem_box.1 (Finset.mem_filter.1 q1).1) (by simpa using q2)]
      ring
    rw [e3, Finset.sum_const, nsmul_eq_mul]
    have e4 : (line x.shape A i).card - (unmasked x.shape A M.get i).card = ((line x.shape A i).filter fun j => ¬ M.get j = false).card := by
      unfold unmasked
      omega
    rw [e4]
    rfl

/-- **C78, the variance with a mask, where it is right**: if the mean of the unmasked entries is zero. -/
theorem masked_var_partial (x : Arr ℝ) (A : Finset ℕ) (hA : ∀ a ∈ A, a < x.ndim) (m M : Arr Bool)
    (hm : Masks.broadcastTo m x.shape = .ok M) (hz : ∀ j, InRange j x.shape → M.get j = true → x.get j = 0) :
    ∃ v, varKeep x A (some m) = .ok v ∧ ∀ i, InRange i x.shape → (unmasked x.shape A M.get i).Nonempty →
      meanOver (unmasked x.shape A M.get i) x.get = 0 →
      v.get (bcastIdx v.shape i) = varOver (unmasked x.shape A M.get i) x.get := by
  obtain ⟨v, h1, -, h2⟩ := masked_var_excess x A hA m M hm hz
  refine ⟨v, h1, fun i hi hne h0 => ?_⟩
  rw [h2 i hi hne, h0]
  simp

/-- A row of three numbers, the last one masked. -/
def exX : Arr ℝ := ⟨[1, 3], fun i => if i.getD 1 0 = 2 then 0 else 1⟩

def exM : Arr Bool := ⟨[1, 3], fun i => i.getD 1 0 == 2⟩

lemma exM_ok : Masks.broadcastTo exM exX.shape = .ok ⟨[1, 3], fun i => exM.get (Masks.clip i [1, 3])⟩ := by
  unfold Masks.broadcastTo
  rw [if_pos (by simp [exM, exX])]
  rfl

lemma ex_line : line [1, 3] {1} [0, 0] = {[0, 0], [0, 1], [0, 2]} := by decide +kernel

lemma ex_unmasked : unmasked [1, 3] {1} (fun i => exM.get (Masks.clip i [1, 3])) [0, 0] = {[0, 0], [0, 1]} := by
  unfold unmasked
  rw [ex_line]
  decide +kernel

/-- **C78 fails for the variance**: the row `1, 1, masked` has variance 0; the code computes 1/2. -/
theorem masked_var_wrong : ∃ v, varKeep exX {1} (some exM) = .ok v ∧
    varOver (unmasked [1, 3] {1} (fun i => exM.get (Masks.clip i [1, 3])) [0, 0]) exX.get = 0 ∧ v.get (bcastIdx v.shape [0, 0]) = 1 / 2 := by
  obtain ⟨v, h1, -, h2⟩ := masked_var_excess exX {1} (by simp [exX, ndim]) exM _ exM_ok (by
    intro j hj hM
    rcases hj with _ | ⟨ha, _ | ⟨hb, ⟨⟩⟩⟩
    rename_i a b
    simpa [exM, exX, Masks.clip] using hM)
  have h3 := h2 [0, 0] (by simp [exX, InRange]) (by simp only [exX]; rw [ex_unmasked]; simp)
  simp only [exX] at h3
  rw [ex_unmasked, ex_line] at h3
  have e : meanOver {[0, 0], [0, 1]} (fun i => if i.getD 1 0 = 2 then (0 : ℝ) else 1) = 1 := by
    rw [meanOver, Finset.sum_pair (by simp), Finset.card_pair (by simp)]
    norm_num
  have e2 : varOver {[0, 0], [0, 1]} (fun i => if i.getD 1 0 = 2 then (0 : ℝ) else 1) = 0 := by
    rw [varOver, e, Finset.sum_pair (by simp)]
    norm_num
  rw [e, e2] at h3
  refine ⟨v, h1, ?_, ?_⟩
  · rw [ex_unmasked]; exact e2
  · rw [h3, Finset.card_pair (by simp), show ({[0, 0], [0, 1], [0, 2]} : Finset (List ℕ)).card = 3 by decide +kernel]
    norm_num

example : ∃ y, meanKeep exX {1} (some exM) = .ok y ∧ y.get (bcastIdx y.shape [0, 0]) = 1 := by
  obtain ⟨y, h1, -, h2⟩ := masked_mean exX {1} (by simp [exX, ndim]) exM _ exM_ok (by
    intro j hj hM
    rcases hj with _ | ⟨ha, _ | ⟨hb, ⟨⟩⟩⟩
    rename_i a b
    simpa [exM, exX, Masks.clip] using hM)
  have h3 := h2 [0, 0] (by simp [exX, InRange])
  simp only [exX] at h3
  rw [ex_unmasked] at h3
  refine ⟨y, h1, h3.trans ?_⟩
  rw [meanOver, Finset.sum_pair (by simp), Finset.card_pair (by simp)]
  norm_num

/-- **C78, the layer itself, unmasked.**  `LayerNorm` without `eps` gives, along the normalised axes, outputs of mean 0 and variance 1. -/
theorem layerNorm_standardises (axis : List Int) (x : Arr ℝ) (A : Finset ℕ) (hax : Utils.canonicalizeAxis axis x.ndim = .ok A)
    (hA : ∀ a ∈ A, a < x.ndim) :
    ∃ y, layerNormApply axis 0 x none = .ok y ∧ y.shape = x.shape ∧ ∀ i, InRange i x.shape →
      meanOver (line x.shape A i) y.get = 0 ∧ (varOver (line x.shape A i) x.get ≠ 0 → varOver (line x.shape A i) y.get = 1) := by
  obtain ⟨mean, v, h1, h2, h3, h4, h5⟩ := plain x A hA
  have w : Widens (keepShape (flagsOf A x.ndim) x.shape) x.shape := keep_widens _ _ (by simp [flagsOf, ndim])
  have s1 : (bcast (fun u v : ℝ => u - v) x mean).shape = x.shape := by
    show List.zipWith bcastDim x.shape mean.shape = _
    rw [h3]; exact bcast_dims w
  refine ⟨bcast (fun u v : ℝ => u / Real.sqrt (0 + v)) (bcast (fun u v : ℝ => u - v) x mean) v,
    by simp only [layerNormApply, hax, h1, h2, bind, Except.bind, pure, Except.pure], ?_, ?_⟩
  · show List.zipWith bcastDim (bcast (fun u v : ℝ => u - v) x mean).shape v.shape = _
    rw [s1, h4]; exact bcast_dims w
  · intro i hi
    have key : ∀ j ∈ line x.shape A i, (bcast (fun u v : ℝ => u / Real.sqrt (0 + v)) (bcast (fun u v : ℝ => u - v) x mean) v).get j =
        (x.get j - meanOver (line x.shape A i) x.get) / √(varOver (line x.shape A i) x.get) := by
      intro j hj
      have hj' : InRange j x.shape := mem_box.1 (Finset.mem_filter.1 hj).1
      obtain ⟨q1, q2⟩ := h5 j hj'
      show (bcast (fun u v : ℝ => u - v) x mean).get (bcastIdx (bcast (fun u v : ℝ => u - v) x mean).shape j) /
        √(0 + v.get (bcastIdx v.shape j)) = _
      rw [s1, bcastIdx_self hj', q2, zero_add, line_eq hj]
      show (x.get (bcastIdx x.shape j) - mean.get (bcastIdx mean.shape j)) / _ = _
      rw [bcastIdx_self hj', q1, line_eq hj]
    have hc : ((line x.shape A i).card : ℝ) ≠ 0 := by
      exact_mod_cast (Finset.card_pos.2 ⟨i, self_mem_line A hi⟩).ne'
    have m0 : meanOver (line x.shape A i)
        (bcast (fun u v : ℝ => u / Real.sqrt (0 + v)) (bcast (fun u v : ℝ => u - v) x mean) v).get = 0 := by
      rw [meanOver, Finset.sum_congr rfl key, ← Finset.sum_div, Finset.sum_sub_distrib, Finset.sum_const, nsmul_eq_mul, meanOver,
        mul_div_cancel₀ _ hc]
      simp
    refine ⟨m0, fun hv => ?_⟩
    have hpos : 0 ≤ varOver (line x.shape A i) x.get := by unfold varOver; positivity
    rw [varOver, m0]
    simp only [sub_zero]
    rw [Finset.sum_congr rfl fun j hj => by rw [key j hj, div_pow, Real.sq_sqrt hpos], ← Finset.sum_div, div_right_comm]
    exact div_self hv

example : ∃ y, layerNormApply [-1] 0 (⟨[2, 2], fun i => i.getD 1 0⟩ : Arr ℝ) none = .ok y ∧
    varOver (line [2, 2] {1} [0, 0]) y.get = 1 := by
  obtain ⟨y, h1, -, h2⟩ := layerNorm_standardises [-1] (⟨[2, 2], fun i => i.getD 1 0⟩ : Arr ℝ) {1} rfl (by simp [ndim])
  refine ⟨y, h1, (h2 [0, 0] (by simp [InRange])).2 ?_⟩
  have : line [2, 2] {1} [0, 0] = {[0, 0], [0, 1]} := by decide +kernel
  simp only
  rw [this, varOver, meanOver, Finset.sum_pair (by simp), Finset.sum_pair (by simp), Finset.card_pair (by simp)]
  norm_num

end NT.C78
