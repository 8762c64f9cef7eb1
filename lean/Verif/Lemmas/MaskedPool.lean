import Verif.Lemmas.MaskedStep

/-!
# Nonlinearities and global pooling of padded batches
-/

namespace NT.Masked
open NT NT.Network Arr Spec Semantics MeasureTheory

/-! ### Nonlinearities -/

lemma act_zero {f : Kernel ℝ → Except Err (Kernel ℝ)} {C : ℝ → Prop} {φ dφ : ℝ → ℝ} {N T : ℝ → ℝ → ℝ → ℝ} (hf : Nonlinearity f C φ dφ N T) (h0 : φ 0 = 0)
    {u : ℝ} (hu : C u) (hz : C 0) (hp : 0 ≤ u) : N 0 u 0 = 0 := by
  have hP := Gauss.std2_pair.map_pair (Real.sqrt u) 0 0 0
  simp only [mul_zero, zero_mul, add_zero, mul_one, Real.sq_sqrt hp, ne_eq, OfNat.ofNat_ne_zero, not_false_eq_true, zero_pow] at hP
  rw [hf.nngp _ u 0 0 hP hu hz, integral_map (by fun_prop)]
  · simp [h0]
  · have := hf.meas.1
    exact Measurable.aestronglyMeasurable (by fun_prop)

lemma entrywise_zero {f : Kernel ℝ → Except Err (Kernel ℝ)} {C : ℝ → Prop} {φ dφ : ℝ → ℝ} {N T : ℝ → ℝ → ℝ → ℝ} (hf : Nonlinearity f C φ dφ N T)
    (h0 : φ 0 = 0) {L : Logical ℝ} (h2 : L.k22 ≠ none) (hC : L.Vars C) (hp : L.Vars (0 ≤ ·)) {len1 len2 : ℕ → List ℕ} (hz : ZeroPadding L len1 len2) :
    ZeroPadding (entrywise N T L) len1 len2 := by
  obtain ⟨G, hG⟩ := Option.ne_none_iff_exists'.1 h2
  -- one of the two variances is zero
  have key : ∀ c u v, c = 0 → C u → C v → 0 ≤ u → 0 ≤ v → (u = 0 ∨ v = 0) → N c u v = 0 := by
    rintro c u v rfl hu hv pu pv (rfl | rfl)
    · rw [(hf.symm 0 0 v).1]; exact act_zero hf h0 hv hu pv
    · exact act_zero hf h0 hu hv pu
  refine ⟨fun i hi j hj p q r1 r2 h => ?_, fun i hi j hj p q r1 r2 h => ?_, fun F hF i hi j hj p q r1 r2 h => ?_, fun F hF i hi j hj p q r1 r2 h => ?_⟩
  · simp only [entrywise, Logical.second, hG, Option.getD_some, List.getD_cons_zero, List.getD_cons_succ]
    refine key _ _ _ (hz.k12 i hi j hj p q r1 r2 h) (hC.one i p hi r1) (hC.two G hG j q hj r2) (hp.one i p hi r1) (hp.two G hG j q hj r2) ?_
    by_cases h' : InRange p (len1 i)
    · exact .inr (hz.k22 G hG j hj j hj q q r2 r2 fun g => h ⟨h', g.1⟩)
    · exact .inl (hz.k11 i hi i hi p p r1 r1 fun g => h' g.1)
  · simp only [entrywise, List.getD_cons_zero, List.getD_cons_succ]
    refine key _ _ _ (hz.k11 i hi j hj p q r1 r2 h) (hC.one i p hi r1) (hC.one j q hj r2) (hp.one i p hi r1) (hp.one j q hj r2) ?_
    by_cases h' : InRange p (len1 i)
    · exact .inr (hz.k11 j hj j hj q q r2 r2 fun g => h ⟨h', g.1⟩)
    · exact .inl (hz.k11 i hi i hi p p r1 r1 fun g => h' g.1)
  · simp only [entrywise, hG, Option.map_some, Option.some.injEq] at hF
    subst hF
    simp only [List.getD_cons_zero, List.getD_cons_succ]
    refine key _ _ _ (hz.k22 G hG i hi j hj p q r1 r2 h) (hC.two G hG i p hi r1) (hC.two G hG j q hj r2) (hp.two G hG i p hi r1) (hp.two G hG j q hj r2) ?_
    by_cases h' : InRange p (len2 i)
    · exact .inr (hz.k22 G hG j hj j hj q q r2 r2 fun g => h ⟨h', g.1⟩)
    · exact .inl (hz.k22 G hG i hi i hi p p r1 r1 fun g => h' g.1)
  · simp only [entrywise, Option.map_eq_some_iff] at hF
    obtain ⟨F', hF', rfl⟩ := hF
    simp only [hz.ntk F' hF' i hi j hj p q r1 r2 h, zero_mul]

/-! ### Global pooling -/

lemma box_mono {S T : List ℕ} (h : List.Forall₂ (· ≤ ·) T S) : box T ⊆ box S := fun _ hp => mem_box.2 (inRange_le (mem_box.1 hp) h)

/-- A sum over two padded examples is one over the examples, if the padding is zero. -/
lemma sum_len {M : Type} [AddCommMonoid M] {F : List ℕ → List ℕ → M} {S T S' T' : List ℕ} (hS : List.Forall₂ (· ≤ ·) S' S) (hT : List.Forall₂ (· ≤ ·) T' T)
    (hz : ∀ p q, InRange p S → InRange q T → ¬(InRange p S' ∧ InRange q T') → F p q = 0) :
    ∑ p ∈ box S, ∑ q ∈ box T, F p q = ∑ p ∈ box S', ∑ q ∈ box T', F p q := by
  rw [← Finset.sum_subset (box_mono hS) fun p hp hn => Finset.sum_eq_zero fun q hq =>
    hz p q (mem_box.1 hp) (mem_box.1 hq) fun g => hn (mem_box.2 g.1)]
  refine Finset.sum_congr rfl fun p hp => ?_
  rw [← Finset.sum_subset (box_mono hT) fun q hq hn =>
    hz p q (inRange_le (mem_box.1 hp) hS) (mem_box.1 hq) fun g => hn (mem_box.2 g.2)]

lemma sum_pairs {M : Type} [AddCommMonoid M] {S T : List ℕ} (rev : Bool) (h : S.length = T.length) (f : List ℕ → M) :
    ∑ x ∈ box (pos false rev S T), f x = ∑ p ∈ box S, ∑ q ∈ box T, f (pos false rev p q) := by
  rw [pos_full, box_sum_interleave _ _ (by simpa using h), box_sum_rv rev S]
  refine Finset.sum_congr rfl fun p _ => ?_
  rw [box_sum_rv rev T]
  refine Finset.sum_congr rfl fun q _ => ?_
  rw [pos_full]

lemma prod_pos' {T : List ℕ} (h : 0 ∉ T) : 0 < T.prod := by
  induction T with
  | nil => simp
  | cons a T ih =>
    simp only [List.mem_cons, not_or] at h
    rw [List.prod_cons]
    exact Nat.mul_pos (by omega) (ih h.2)

/-- Pooling an array of covariances of padded examples: `u b` and `v b` are the sizes of the examples with indices `b`. -/
lemma pool_len (d : GlobalPool) {a : Arr ℝ} {z : Arr Bool} {B S T : List ℕ} {rev : Bool} {F : List ℕ → List ℕ → List ℕ → ℝ}
    {G : List ℕ → List ℕ → List ℕ → Bool} (ha : Holds a B S T false rev F) (hz : Holds z B S T false rev G) (u v : List ℕ → List ℕ)
    (hu : ∀ b, InRange b B → List.Forall₂ (· ≤ ·) (u b) S ∧ 0 ∉ u b) (hv : ∀ b, InRange b B → List.Forall₂ (· ≤ ·) (v b) T ∧ 0 ∉ v b)
    (hG : ∀ b p q, InRange b B → InRange p S → InRange q T → (G b p q = true ↔ ¬(InRange p (u b) ∧ InRange q (v b))))
    (hF : ∀ b p q, InRange b B → InRange p S → InRange q T → ¬(InRange p (u b) ∧ InRange q (v b)) → F b p q = 0) :
    ∃ r, poolArr d false B.length a (some z) = .ok r ∧ Holds r B [] [] false false (fun b _ _ =>
      C54.weight d.type (u b) * C54.weight d.type (v b) * ∑ p ∈ box (u b), ∑ q ∈ box (v b), F b p q) := by
  have hd : a.shape.drop B.length = pos false rev S T := by rw [ha.shape]; simp
  have ht : a.shape.take B.length = B := by rw [ha.shape]; simp
  have hsum : ∀ b, InRange b B → (∑ x ∈ box (pos false rev S T), a.get (b ++ x)) = ∑ p ∈ box (u b), ∑ q ∈ box (v b), F b p q := by
    intro b hb
    rw [sum_pairs rev ha.rank, ← sum_len (hu b hb).1 (hv b hb).1 (hF b · · hb)]
    exact Finset.sum_congr rfl fun p hp => Finset.sum_congr rfl fun q hq => ha.get b p q hb (mem_box.1 hp) (mem_box.1 hq) (by simp)
  have fin : ∀ r : Arr ℝ, r.shape = B → (∀ b, InRange b B → r.get b =
      C54.weight d.type (u b) * C54.weight d.type (v b) * ∑ p ∈ box (u b), ∑ q ∈ box (v b), F b p q) → Holds r B [] [] false false (fun b _ _ =>
      C54.weight d.type (u b) * C54.weight d.type (v b) * ∑ p ∈ box (u b), ∑ q ∈ box (v b), F b p q) := by
    intro r h1 h2
    refine ⟨rfl, by simp, by simp [h1, pos, interleave], fun b p q hb hp hq _ => ?_⟩
    rw [inRange_nil_right] at hp hq
    subst hp hq
    simpa [pos, interleave] using h2 b hb
  have hb : ∀ x : Except Err (Arr ℝ), (do
      let out ← x
      return if (false : Bool) = true ∧ d.type = .avg then out.map fun v => v / ((a.shape.drop B.length).prod : ℕ) else out) = x := by
    intro x; cases x <;> simp [bind, Except.bind, pure, Except.pure]
  unfold poolArr
  cases htype : d.type with
  | sum =>
    rw [htype] at fin hb
    simp only [bind, Except.bind, pure, Except.pure, Bool.false_eq_true, false_and, if_false]
    refine ⟨_, rfl, fin _ ht fun b hb' => ?_⟩
    simp only [GlobalPool.poolTail, hd, sumOver_eq_box]
    rw [hsum b hb']
    simp [C54.weight]
  | avg =>
    rw [htype] at fin hb
    simp only [maskedMean, hz.shape, ha.shape, ne_eq, not_true_eq_false, if_false, bind, Except.bind, pure, Except.pure, Bool.false_eq_true, false_and]
    rw [← ha.shape, hd, ht]
    refine ⟨_, rfl, fin _ rfl fun b hb' => ?_⟩
    simp only [sumOver_eq_box]
    rw [hsum b hb']
    have count : (pos false rev S T).prod - ∑ x ∈ box (pos false rev S T), (if z.get (b ++ x) = true then 1 else 0) = (u b).prod * (v b).prod := by
      rw [← box_card, Finset.card_eq_sum_ones, sum_pairs rev ha.rank, sum_pairs rev ha.rank]
      have e : ∑ p ∈ box S, ∑ q ∈ box T, 1 = (∑ p ∈ box S, ∑ q ∈ box T, if z.get (b ++ pos false rev p q) = true then 1 else 0) +
          ∑ p ∈ box S, ∑ q ∈ box T, if InRange p (u b) ∧ InRange q (v b) then 1 else 0 := by
        rw [← Finset.sum_add_distrib]
        refine Finset.sum_congr rfl fun p hp => ?_
        rw [← Finset.sum_add_distrib]
        refine Finset.sum_congr rfl fun q hq => ?_
        rw [hz.get b p q hb' (mem_box.1 hp) (mem_box.1 hq) (by simp)]
        have := hG b p q hb' (mem_box.1 hp) (mem_box.1 hq)
        by_cases h : InRange p (u b) ∧ InRange q (v b)
        · have g : ¬G b p q = true := fun g => this.1 g h
          rw [if_neg g, if_pos h]
        · rw [if_pos (this.2 h), if_neg h]
      rw [e, Nat.add_sub_cancel_left, sum_len (hu b hb').1 (hv b hb').1 fun p q _ _ h => if_neg h, ← box_card, ← box_card]
      rw [Finset.card_eq_sum_ones, Finset.sum_mul]
      refine Finset.sum_congr rfl fun p hp => ?_
      rw [one_mul, Finset.card_eq_sum_ones]
      exact Finset.sum_congr rfl fun q hq => if_pos ⟨mem_box.1 hp, mem_box.1 hq⟩
    rw [count, max_eq_left (Nat.mul_pos (prod_pos' (hu b hb').2) (prod_pos' (hv b hb').2))]
    simp only [C54.weight, if_true]
    push_cast
    rw [div_eq_inv_mul, mul_inv]

lemma global_step {d : GlobalPool} {s : Padded} {k : Kernel ℝ} {b a : ℕ} (out : List ℕ → List ℕ) (hs : s.Ok) (hk : Batch s k) (hmc : s.mc = 1) (hfull : s.full = true)
    (hb : d.batchAxis % ((s.L.S1.length + 2 : ℕ) : ℤ) = s.info.batchAxis) (ha : d.channelAxis % ((s.L.S1.length + 2 : ℕ) : ℤ) = s.info.channelAxis)
    (hp1 : ∀ i < s.L.n1, 0 ∉ s.len1 i) (hp2 : ∀ j < s.L.n2, 0 ∉ s.len2 j)
    (hb' : b = if s.info.batchAxis < s.info.channelAxis then 0 else 1) (ha' : a = if s.info.batchAxis < s.info.channelAxis then 1 else 0) :
    ∃ k', (MLayer.globalPool d).withMasking k = .ok k' ∧ Batch
      { L := pooledExamples d.type s.len1 s.len2 s.L
        info := { s.info with
          isReversed := false, batchAxis := b, channelAxis := a, shape1 := out s.info.shape1, shape2 := out s.info.shape2 }
        same := s.same, full := true, len1 := fun _ => [], len2 := fun _ => [], c := s.c, mc := 1 } (setShapes (out k.shape1) (out k.shape2) k') := by
  obtain ⟨m1, e1, g1⟩ := hk.mask1
  obtain ⟨m2, e2, g2⟩ := hk.mask2
  rw [hmc] at g1 g2
  obtain ⟨x1, x2, x3⟩ := hs.axes
  obtain ⟨i1, i2, i4, i5, i6, i7, i8, i9⟩ := hk.core.fields
  have hst := hk.core.stores
  have hrk := hs.rank
  have hds : k.diagonalSpatial = false := by rw [i5]; exact hs.pairs
  have s1 : C25.MaskShape m1 k.batchAxis k.channelAxis s.L.n1 s.L.S1 := by rw [i8, i9]; exact ⟨x1, x2, x3, g1.shape⟩
  have s2 : C25.MaskShape m2 k.batchAxis k.channelAxis s.L.n2 s.L.S2 := by rw [i8, i9]; exact ⟨x1, by omega, by omega, g2.shape⟩
  have v1 : ∀ i < s.L.n1, ∀ p, InRange p s.L.S1 → C25.Masked m1 k.batchAxis k.channelAxis i p = padding s.len1 i p := by
    intro i hi p hp
    rw [i8, i9]
    exact g1.get i hi 0 Nat.one_pos p hp
  have v2 : ∀ i < s.L.n2, ∀ p, InRange p s.L.S2 → C25.Masked m2 k.batchAxis k.channelAxis i p = padding s.len2 i p := by
    intro i hi p hp
    rw [i8, i9]
    exact g2.get i hi 0 Nat.one_pos p hp
  obtain ⟨z11, q11, h11⟩ := C25.maskProd_self k m1 _ _ s1
  obtain ⟨z22, q22, h22⟩ := C25.maskProd_self k m2 _ _ s2
  obtain ⟨z12, q12, h12⟩ := C25.maskProd_ok k m1 m2 _ _ _ _ s1 s2 hst.nngp.rank hst.nngp.square
  have bn : ∀ n, k.batchNdim = (batchShape k.diagonalBatch n).length := by
    intro n; unfold Kernel.batchNdim batchShape; cases k.diagonalBatch <;> rfl
  have c12 := hst.nngp
  have c11 := hst.cov1
  have c22 := hst.cov2
  have cn := hst.ntk
  rw [hds] at h11 h22 h12 c12 c11 c22 cn
  -- the arrays of pairs of a first and a second example
  have pool12 : ∀ (x : Arr ℝ) (F : List ℕ → List ℕ → List ℕ → ℝ), Holds x [s.L.n1, s.L.n2] s.L.S1 s.L.S2 false k.isReversed F →
      (∀ i < s.L.n1, ∀ j < s.L.n2, ∀ p q, InRange p s.L.S1 → InRange q s.L.S2 → ¬(InRange p (s.len1 i) ∧ InRange q (s.len2 j)) → F [i, j] p q = 0) →
      ∃ r, poolArr d false 2 x (some z12) = .ok r ∧ Holds r [s.L.n1, s.L.n2] [] [] false false (fun b _ _ =>
        C54.weight d.type (s.len1 (b.getD 0 0)) * C54.weight d.type (s.len2 (b.getD 1 0)) *
          ∑ p ∈ box (s.len1 (b.getD 0 0)), ∑ q ∈ box (s.len2 (b.getD 1 0)), F b p q) := by
    intro x F hx hF
    refine pool_len d hx h12 (fun b => s.len1 (b.getD 0 0)) (fun b => s.len2 (b.getD 1 0)) ?_ ?_ ?_ ?_
    · intro b hb
      obtain ⟨i, j, rfl, hi, hj⟩ := Inputs.inRange_two hb
      exact ⟨hs.len1 i hi, hp1 i hi⟩
    · intro b hb
      obtain ⟨i, j, rfl, hi, hj⟩ := Inputs.inRange_two hb
      exact ⟨hs.len2 j hj, hp2 j hj⟩
    · intro b p q hb hp hq
      obtain ⟨i, j, rfl, hi, hj⟩ := Inputs.inRange_two hb
      simp only [List.getD_cons_zero, List.getD_cons_succ, v1 i hi p hp, v2 j hj q hq]
      exact masked_or
    · intro b p q hb hp hq h
      obtain ⟨i, j, rfl, hi, hj⟩ := Inputs.inRange_two hb
      exact hF i hi j hj p q hp hq h
  obtain ⟨rn, en, hn⟩ := pool12 _ _ c12 hs.zero.k12
  -- the array of pairs of first examples
  obtain ⟨r1, er1, hr1⟩ := pool_len d c11 h11 (fun b => s.len1 ((dbl b).getD 0 0)) (fun b => s.len1 ((dbl b).getD 1 0)) (by
      intro b hb
      obtain ⟨i, j, hi, hj, e⟩ := batch_pair hb
      rw [e]
      exact ⟨hs.len1 i hi, hp1 i hi⟩) (by
      intro b hb
      obtain ⟨i, j, hi, hj, e⟩ := batch_pair hb
      rw [e]
      exact ⟨hs.len1 j hj, hp1 j hj⟩) (by
      intro b p q hb hp hq
      obtain ⟨i, j, hi, hj, e⟩ := batch_pair hb
      rw [e]
      simp only [List.getD_cons_zero, List.getD_cons_succ, v1 i hi p hp, v1 j hj q hq]
      exact masked_or) (by
      intro b p q hb hp hq h
      obtain ⟨i, j, hi, hj, e⟩ := batch_pair hb
      rw [e] at h ⊢
      exact hs.zero.k11 i hi j hj p q hp hq h)
  rw [← bn] at er1
  -- the array of pairs of second examples
  obtain ⟨F2, hF2⟩ := Option.ne_none_iff_exists'.1 hs.two
  obtain ⟨a2, ha2⟩ : ∃ a2, k.cov2 = some a2 := by
    rw [hF2] at c22
    cases h : k.cov2 with
    | none => rw [h] at c22; exact c22.elim
    | some a2 => exact ⟨a2, rfl⟩
  rw [hF2, ha2] at c22
  obtain ⟨r2, er2, hr2⟩ := pool_len d c22 h22 (fun b => s.len2 ((dbl b).getD 0 0)) (fun b => s.len2 ((dbl b).getD 1 0)) (by
      intro b hb
      obtain ⟨i, j, hi, hj, e⟩ := batch_pair hb
      rw [e]
      exact ⟨hs.len2 i hi, hp2 i hi⟩) (by
      intro b hb
      obtain ⟨i, j, hi, hj, e⟩ := batch_pair hb
      rw [e]
      exact ⟨hs.len2 j hj, hp2 j hj⟩) (by
      intro b p q hb hp hq
      obtain ⟨i, j, hi, hj, e⟩ := batch_pair hb
      rw [e]
      simp only [List.getD_cons_zero, List.getD_cons_succ, v2 i hi p hp, v2 j hj q hq]
      exact masked_or) (by
      intro b p q hb hp hq h
      obtain ⟨i, j, hi, hj, e⟩ := batch_pair hb
      rw [e] at h ⊢
      exact hs.zero.k22 F2 hF2 i hi j hj p q hp hq h)
  rw [← bn] at er2
  -- the tangent kernel
  obtain ⟨rt, et, ht⟩ : ∃ rt, poolArr? d false 2 k.ntk (some z12) = .ok rt ∧
      OptRel (fun x F => Holds x [s.L.n1, s.L.n2] [] [] false false F) rt (pooledExamples d.type s.len1 s.len2 s.L).ntk := by
    cases h1 : k.ntk with
    | none =>
      cases h2 : s.L.ntk with
      | none => exact ⟨none, rfl, by simp [pooledExamples, h2, OptRel]⟩
      | some F => rw [h1, h2] at cn; exact cn.elim
    | some x =>
      cases h2 : s.L.ntk with
      | none => rw [h1, h2] at cn; exact cn.elim
      | some F =>
        rw [h1, h2] at cn
        rcases cn with ⟨c, -⟩ | c
        · exact absurd c (hk.core.full hfull x h1)
        · obtain ⟨r, er, hr⟩ := pool12 x F c (hs.zero.ntk F h2)
          exact ⟨some r, by simp [poolArr?, er, Except.map], by simpa [pooledExamples, h2, OptRel] using hr⟩
  have hsh : k.shape1.length = s.L.S1.length + 2 := by
    rw [i6, hs.shape1, actIdx_length _ _ _ _ _ x1 x2 x3]
  obtain ⟨m1', f1, g1'⟩ := globalMask_ok g1 x1 x2 x3 hb ha hs.len1 hp1 hb' ha'
  obtain ⟨m2', f2, g2'⟩ := globalMask_ok (d := d) g2 x1 (by omega) (by omega) (by rw [hrk]; exact hb) (by rw [hrk]; exact ha) hs.len2 hp2 hb' ha'
  have ee : poolArr? d false k.batchNdim k.cov2 (some z22) = .ok (some r2) := by rw [ha2]; simp [poolArr?, er2, Except.map]
  have hfirst : decide (d.batchAxis % (k.shape1.length : ℤ) < d.channelAxis % (k.shape1.length : ℤ)) = decide (s.info.batchAxis < s.info.channelAxis) := by
    rw [hsh, hb, ha]; simp
  have hkf : (MLayer.globalPool d).kernelFn k = .ok { k with
      cov1 := r1, nngp := rn, cov2 := some r2, ntk := rt, batchAxis := b, channelAxis := a, isReversed := false } := by
    unfold MLayer.kernelFn globalPoolKernel
    simp only [e1, e2, q11, q12, q22, bind, Except.bind, pure, Except.pure, hds, er1, en, et, ee, hfirst, hb', ha', decide_eq_true_eq]
  refine ⟨{ k with
      cov1 := r1, nngp := rn, cov2 := some r2, ntk := rt, batchAxis := b, channelAxis := a, isReversed := false, mask1 := some m1', mask2 := some m2' }, ?_, ?_⟩
  · unfold MLayer.withMasking
    rw [hkf, e1, e2]
    simp [onMask, MLayer.maskFn, f1, f2, MLayer.remask, Except.map, bind, Except.bind]
  · refine ⟨⟨⟨?_, ?_, ?_, ?_⟩, ?_, ?_, ?_⟩, ⟨m1', rfl, g1'⟩, ⟨m2', rfl, g2'⟩⟩
    · simp only [setShapes, hds]; exact hn
    · simp only [setShapes, hds]; exact hr1
    · simp only [setShapes, hds, pooledExamples, hF2, Option.map_some, OptRel]; exact hr2
    · simp only [setShapes, hds]
      cases h1 : rt <;> cases h2 : (pooledExamples d.type s.len1 s.len2 s.L).ntk <;> rw [h1, h2] at ht <;> simp only [OptRel] at ht ⊢
      exact .inr ht
    · rw [← hk.core.static]
      simp [Kernel.static, setShapes]
    · intro _ x hx
      cases h2 : (pooledExamples d.type s.len1 s.len2 s.L).ntk <;> rw [show rt = some x from hx, h2] at ht
      · exact ht.elim
      · exact ht.ne_nil (by simp)
    · intro x hx h0
      cases h2 : (pooledExamples d.type s.len1 s.len2 s.L).ntk <;> rw [show rt = some x from hx, h2] at ht
      · exact ht.elim
      · exact absurd h0 (ht.ne_nil (by simp))

end NT.Masked
