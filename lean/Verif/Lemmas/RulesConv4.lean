import Verif.Lemmas.RulesConv3

/-!
# The Jacobian rule of `conv_general_dilated`
-/

namespace NT.Rules
open NT Arr Spec ConvParams
variable {α : Type}

/-- One feature in each group. -/
lemma convBlocks_ok [Zero α] {p : ConvParams} (lhs : Arr α) {inp : List ℕ} {n : ℕ} (h : ConvOk p lhs.shape inp n) :
    ∃ j, convBlocks p inp lhs n = .ok j ∧
      j.shape = (convOut p lhs.shape inp).set (p.outSpec.getD 1 0) (p.featureGroups * p.batchGroups) ++ inp.set (p.rhsSpec.getD 0 0) (p.featureGroups * p.batchGroups) ∧
      ∀ o i, InRange o ((convOut p lhs.shape inp).set (p.outSpec.getD 1 0) (p.featureGroups * p.batchGroups)) →
        InRange i (inp.set (p.rhsSpec.getD 0 0) (p.featureGroups * p.batchGroups)) →
        j.get (o ++ i) = convJac p lhs (inp.set (p.rhsSpec.getD 0 0) (p.featureGroups * p.batchGroups)) o i := by
  have hr0 := h.R.zero
  have hlen : (convOut p lhs.shape inp).length = n := (h.outShape ..).1
  have hg : ∀ o, InRange o ((convOut p lhs.shape inp).set (p.outSpec.getD 1 0) (p.featureGroups * p.batchGroups)) →
      o.getD (p.outSpec.getD 1 0) 0 < p.featureGroups * p.batchGroups := fun o ho => by
    have := (inRange_iff.1 ho).2 (p.outSpec.getD 1 0) (by rw [List.length_set, hlen]; exact h.O.one)
    rwa [getD_set_self (by rw [hlen]; exact h.O.one)] at this
  by_cases hb : 1 < p.batchGroups
  · have hf1 : p.featureGroups = 1 := by
      have := h.groups.2
      omega
    obtain ⟨j, j1, j2, j3⟩ := convBlocks_batch lhs h hb
    have hG : p.featureGroups * p.batchGroups = p.batchGroups := by rw [hf1, Nat.one_mul]
    rw [hG] at hg ⊢
    refine ⟨j, j1, j2, fun o i ho hi => ?_⟩
    have hlt := hg o ho
    rw [j3 o i ho hi]
    unfold convJac
    dsimp only
    rw [getD_set_self (by rw [h.lenI]; exact hr0), getD_set_ne h.R.ne.symm, hf1, Nat.div_self (by omega), Nat.div_one, Nat.div_one, Nat.div_eq_of_lt hlt, Nat.zero_mul, Nat.zero_add]
  · have hb1 : p.batchGroups = 1 := by
      have := h.groups.1.2
      omega
    obtain ⟨j, j1, j2, j3⟩ := convBlocks_feature lhs h hb1
    have hG : p.featureGroups * p.batchGroups = p.featureGroups := by rw [hb1, Nat.mul_one]
    rw [hG] at hg ⊢
    refine ⟨j, j1, j2, fun o i ho hi => ?_⟩
    have hlt := hg o ho
    have := h.groups.1.1
    rw [j3 o i ho hi]
    unfold convJac
    dsimp only
    rw [getD_set_self (by rw [h.lenI]; exact hr0), getD_set_ne h.R.ne.symm, hb1, Nat.div_self (by omega), Nat.div_one, Nat.div_one, Nat.div_one, Nat.div_eq_of_lt hlt, Nat.zero_mul,
      Nat.zero_add]

lemma inRange_set_both {k S : List ℕ} {b x n : ℕ} (h : InRange k S) (hx : x < n) : InRange (k.set b x) (S.set b n) := by
  rw [inRange_iff] at h ⊢
  refine ⟨by simpa using h.1, fun c hc => ?_⟩
  rw [List.length_set] at hc
  by_cases hcb : c = b
  · subst hcb
    rw [getD_set_self (by omega), getD_set_self (by omega)]
    exact hx
  · rw [getD_set_ne hcb, getD_set_ne hcb]
    exact h.2 c hc

/-- The identity at two axes, with axes of size one elsewhere. -/
lemma eye_expand [Field α] {s a b N : ℕ} (hab : a < b) (hb : b < N) :
    ((eye s : Arr α).expandDims ((List.range N).filter fun i => ¬ (i = a ∨ i = b))).shape.length = N ∧
    (∀ x, x < N → ((eye s : Arr α).expandDims ((List.range N).filter fun i => ¬ (i = a ∨ i = b))).shape.getD x 0 = if x = a ∨ x = b then s else 1) ∧
    ∀ k, ((eye s : Arr α).expandDims ((List.range N).filter fun i => ¬ (i = a ∨ i = b))).get k = if k.getD a 0 = k.getD b 0 then 1 else 0 := by
  have hm : ∀ x, x ∈ (List.range N).filter (fun i => ¬ (i = a ∨ i = b)) ↔ x < N ∧ ¬ (x = a ∨ x = b) := fun x => by
    rw [List.mem_filter, List.mem_range, decide_eq_true_eq]
  have hf : freeAxes N ((List.range N).filter fun i => ¬ (i = a ∨ i = b)) = [a, b] := freeAxes_of (by simpa using hab) fun x => by
    rw [hm]
    simp only [List.mem_cons, List.not_mem_nil, or_false]
    constructor
    · rintro (rfl | rfl)
      · exact ⟨by omega, by tauto⟩
      · exact ⟨by omega, by tauto⟩
    · tauto
  have hl : (eye s : Arr α).ndim + ((List.range N).filter fun i => ¬ (i = a ∨ i = b)).length = N := by
    have := freeAxes_length (n := N) (D := (List.range N).filter fun i => ¬ (i = a ∨ i = b)) (List.nodup_range.filter _) fun k hk => ((hm k).1 hk).1
    rw [hf] at this
    exact this
  unfold expandDims
  dsimp only
  rw [hl, hf]
  refine ⟨by simp, fun x hx => ?_, fun k => rfl⟩
  rw [getD_map_range _ _ _ hx]
  by_cases hxa : x = a
  · subst hxa
    rw [if_neg (by rw [hm]; tauto), if_pos (Or.inl rfl)]
    simp [eye]
  · by_cases hxb : x = b
    · subst hxb
      rw [if_neg (by rw [hm]; tauto), if_pos (Or.inr rfl), List.idxOf_cons_ne _ (by omega)]
      simp [eye]
    · rw [if_pos (by rw [hm]; tauto), if_neg (by tauto)]

/-- The Jacobian rule. -/
lemma convJ_ok [Field α] {p : ConvParams} (lhs : Arr α) {inp out : List ℕ} {n : ℕ} (h : ConvOk p lhs.shape inp n) (hout : out.length = n) :
    ∃ j, convJ p inp lhs out = .ok j ∧ j.shape = convOut p lhs.shape inp ++ inp ∧
      ∀ o i, InRange o (convOut p lhs.shape inp) → InRange i inp → j.get (o ++ i) = convJac p lhs inp o i := by
  have hr0 := h.R.zero
  have hr1 := h.R.one
  have ho0 := h.O.zero
  have ho1 := h.O.one
  have hlen : (convOut p lhs.shape inp).length = n := (h.outShape ..).1
  have hfe : (convOut p lhs.shape inp).getD (p.outSpec.getD 1 0) 0 = inp.getD (p.rhsSpec.getD 0 0) 0 := (h.outShape ..).2.2.1
  obtain ⟨j, j1, j2, j3⟩ := convBlocks_ok lhs h
  have hjn : j.ndim = 2 * n := by
    show j.shape.length = _
    rw [j2, List.length_append, List.length_set, List.length_set, hlen, h.lenI]
    omega
  obtain ⟨⟨hg1, hg2⟩, hg3⟩ := h.groups
  have hG : 0 < p.featureGroups * p.batchGroups := Nat.mul_pos hg1 hg2
  have hsz : p.featureGroups * p.batchGroups * (inp.getD (p.rhsSpec.getD 0 0) 0 / (p.featureGroups * p.batchGroups)) = inp.getD (p.rhsSpec.getD 0 0) 0 := by
    refine Nat.mul_div_cancel' ?_
    rcases hg3 with e | e
    · rw [e, Nat.one_mul]
      exact h.bdvd
    · rw [e, Nat.mul_one]
      exact h.fdvd
  unfold convJ
  dsimp only
  rw [hout, j1]
  generalize hs : inp.getD (p.rhsSpec.getD 0 0) 0 / (p.featureGroups * p.batchGroups) = s at *
  obtain ⟨e1, e2, e3⟩ := eye_expand (α := α) (s := s) (a := p.outSpec.getD 1 0) (b := n + p.rhsSpec.getD 0 0) (N := j.ndim) (by omega) (by omega)
  refine ⟨_, rfl, ?_, fun o i ho hi => ?_⟩
  · generalize Arr.expandDims _ _ = e at *
    refine ext_getD (by simp [kron, e1, j2, hlen, h.lenI, hjn]; omega) fun x hx => ?_
    have hx1 : x < j.ndim := lt_of_lt_of_le hx (by simp only [kron, List.length_zipWith]; exact min_le_left _ _)
    show (List.zipWith (· * ·) j.shape e.shape).getD x 0 = _
    rw [getD_zipWith _ _ _ _ hx1 (by omega), e2 x hx1, j2]
    by_cases hxn : x < n
    · rw [List.getD_append _ _ _ _ (by rw [List.length_set]; omega), List.getD_append _ _ _ _ (by omega)]
      by_cases h1 : x = p.outSpec.getD 1 0
      · rw [if_pos (Or.inl h1), h1, getD_set_self (by omega), hfe, hsz]
      · rw [if_neg (by omega), getD_set_ne h1, Nat.mul_one]
    · rw [List.getD_append_right _ _ _ _ (by rw [List.length_set]; omega), List.getD_append_right _ _ _ _ (by omega), List.length_set, hlen]
      by_cases h1 : x = n + p.rhsSpec.getD 0 0
      · rw [if_pos (Or.inr h1), h1, Nat.add_sub_cancel_left, getD_set_self (by rw [h.lenI]; exact hr0), hsz]
      · rw [if_neg (by omega), getD_set_ne (by omega), Nat.mul_one]
  · generalize Arr.expandDims _ _ = e at *
    have hol := ho.length.trans hlen
    have hil := hi.length.trans h.lenI
    have hf1 : o.getD (p.outSpec.getD 1 0) 0 < inp.getD (p.rhsSpec.getD 0 0) 0 := hfe ▸ (inRange_iff.1 ho).2 _ (by omega)
    have hf2 : i.getD (p.rhsSpec.getD 0 0) 0 < inp.getD (p.rhsSpec.getD 0 0) 0 := (inRange_iff.1 hi).2 _ (by rw [h.lenI]; exact hr0)
    have hs0 : 0 < s := by
      rcases Nat.eq_zero_or_pos s with h0 | h0
      · rw [h0, Nat.mul_zero] at hsz
        omega
      · exact h0
    have hel : e.shape.length = (o ++ i).length := by rw [e1, List.length_append, hol, hil, hjn]; omega
    have hel2 : (o ++ i).length = 2 * n := by rw [List.length_append, hol, hil]; omega
    have q1 : List.zipWith (· / ·) (o ++ i) e.shape =
        o.set (p.outSpec.getD 1 0) (o.getD (p.outSpec.getD 1 0) 0 / s) ++ i.set (p.rhsSpec.getD 0 0) (i.getD (p.rhsSpec.getD 0 0) 0 / s) := by
      refine ext_getD (by simp [hel]) fun x hx => ?_
      have hx1 : x < (o ++ i).length := by simpa [hel] using hx
      rw [getD_zipWith _ _ _ _ hx1 (by omega), e2 x (by omega)]
      by_cases hxn : x < n
      · rw [List.getD_append _ _ _ _ (by omega), List.getD_append _ _ _ _ (by rw [List.length_set]; omega)]
        by_cases h1 : x = p.outSpec.getD 1 0
        · rw [if_pos (Or.inl h1), h1, getD_set_self (by omega)]
        · rw [if_neg (by omega), getD_set_ne h1, Nat.div_one]
      · rw [List.getD_append_right _ _ _ _ (by omega), List.getD_append_right _ _ _ _ (by rw [List.length_set]; omega), List.length_set, hol]
        by_cases h1 : x = n + p.rhsSpec.getD 0 0
        · rw [if_pos (Or.inr h1), h1, Nat.add_sub_cancel_left, getD_set_self (by omega)]
        · rw [if_neg (by omega), getD_set_ne (by omega), Nat.div_one]
    have q2 : (List.zipWith (· % ·) (o ++ i) e.shape).getD (p.outSpec.getD 1 0) 0 = o.getD (p.outSpec.getD 1 0) 0 % s := by
      rw [getD_zipWith _ _ _ _ (by omega) (by omega), e2 _ (by omega), if_pos (Or.inl rfl), List.getD_append _ _ _ _ (by omega)]
    have q3 : (List.zipWith (· % ·) (o ++ i) e.shape).getD (n + p.rhsSpec.getD 0 0) 0 = i.getD (p.rhsSpec.getD 0 0) 0 % s := by
      rw [getD_zipWith _ _ _ _ (by omega) (by omega), e2 _ (by omega), if_pos (Or.inr rfl), List.getD_append_right _ _ _ _ (by omega), hol, Nat.add_sub_cancel_left]
    show j.get (List.zipWith (· / ·) (o ++ i) e.shape) * e.get (List.zipWith (· % ·) (o ++ i) e.shape) = _
    have rd : ∀ {a : ℕ}, a < inp.getD (p.rhsSpec.getD 0 0) 0 → a / s < p.featureGroups * p.batchGroups := fun {a} ha =>
      Nat.div_lt_of_lt_mul (by rw [Nat.mul_comm, hsz]; exact ha)
    rw [q1, e3, q2, q3, j3 _ _ (inRange_set_both ho (rd hf1)) (inRange_set_both hi (rd hf2))]
    unfold convJac
    dsimp only
    rw [getD_set_self (by omega), getD_set_self (by omega), getD_set_self (by rw [h.lenI]; exact hr0), getD_set_ne h.O.ne, getD_set_ne h.R.ne.symm, getD_set_ne h.R.ne.symm]
    have hsp1 : spatial p.outSpec (o.set (p.outSpec.getD 1 0) (o.getD (p.outSpec.getD 1 0) 0 / s)) = spatial p.outSpec o := Emp.gather_set_off h.O.one_notMem
    have hsp2 : spatial p.rhsSpec (i.set (p.rhsSpec.getD 0 0) (i.getD (p.rhsSpec.getD 0 0) 0 / s)) = spatial p.rhsSpec i := Emp.gather_set_off h.R.zero_notMem
    rw [hsp1, hsp2]
    have dv : ∀ g, g ∣ p.featureGroups * p.batchGroups → o.getD (p.outSpec.getD 1 0) 0 / s / (p.featureGroups * p.batchGroups / g) =
        o.getD (p.outSpec.getD 1 0) 0 / (inp.getD (p.rhsSpec.getD 0 0) 0 / g) := fun g hg => by
      rw [Nat.div_div_eq_div_mul, ← hsz]
      congr 1
      rw [Nat.mul_comm s, Nat.div_mul_right_comm hg]
    rw [dv _ (Dvd.intro _ rfl), dv _ (Dvd.intro_left _ rfl)]
    by_cases he : o.getD (p.outSpec.getD 1 0) 0 = i.getD (p.rhsSpec.getD 0 0) 0
    · rw [if_pos he, if_pos (by rw [he]), if_pos (by rw [he]), mul_one]
    · rw [if_neg he]
      by_cases h1 : o.getD (p.outSpec.getD 1 0) 0 / s = i.getD (p.rhsSpec.getD 0 0) 0 / s
      · have h2 : ¬ o.getD (p.outSpec.getD 1 0) 0 % s = i.getD (p.rhsSpec.getD 0 0) 0 % s := fun h2 => he (by
          rw [← Nat.div_add_mod (o.getD (p.outSpec.getD 1 0) 0) s, h1, h2, Nat.div_add_mod])
        rw [if_neg h2, mul_zero]
      · rw [if_neg h1, zero_mul]

end NT.Rules
