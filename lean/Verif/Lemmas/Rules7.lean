import Verif.Lemmas.Rules6

/-!
# Jacobian rules: multiplication and division
-/

namespace NT.Rules
open NT Arr Spec
variable {α : Type} [Field α]

/-- The factor of the operand number zero in `mul` or `div`. -/
def factor (isDiv : Bool) (v : α) : α := if isDiv then 1 / v else v

/-- The Jacobian of `mul` or `div`: an entry of the result depends on the entry of the operand that it reads. -/
def mulJac (isDiv : Bool) (inp : List ℕ) (other : Arr α) (o i : List ℕ) : α :=
  if ∀ x < inp.length, inp.getD x 0 = 1 ∨ o.getD x 0 = i.getD x 0 then factor isDiv (other.get (bcastIdx other.shape o)) else 0

omit [Field α] in
lemma broadcastTo_ok (a : Arr α) {S : List ℕ} (h : a.shape = [] ∨ Compat a.shape S ∧ ∀ x < a.shape.length, a.shape.getD x 0 = 1 ∨ a.shape.getD x 0 = S.getD x 0) :
    ∃ b, a.broadcastTo S = .ok b ∧ b.shape = S ∧ ∀ k, InRange k S → b.get k = a.get (bcastIdx a.shape k) := by
  unfold broadcastTo
  rcases h with h | ⟨hc, h⟩
  · have hn : a.ndim = 0 := by show a.shape.length = 0; rw [h]; rfl
    rw [if_pos (by omega)]
    obtain ⟨b, b1, b2, b3⟩ := bid_ok a (shape := S) (dims := (List.range a.ndim).map (· + (S.length - a.ndim))) (by rw [hn, h]; rfl) (by rw [h]; simp)
    refine ⟨b, b1, b2, fun k hk => ?_⟩
    obtain ⟨k', d1, d2, _⟩ := b3 k hk
    rw [d1, h, bcastIdx_nil]
    rw [h] at d2
    rw [List.length_eq_zero_iff.1 d2]
  · have hn : a.ndim = S.length := hc.1.symm
    have hd : ∀ x < S.length, ((List.range a.ndim).map (· + (S.length - a.ndim))).getD x 0 = x := fun x hx => by
      rw [getD_map_range _ a.ndim _ (by omega), hn, Nat.sub_self, Nat.add_zero]
    rw [if_pos hn.le]
    have hc1 := hc.1
    obtain ⟨b, b1, b2, b3⟩ := bid_ok a (shape := S) (dims := (List.range a.ndim).map (· + (S.length - a.ndim))) (by simp; rfl) (by
      intro x hx
      rw [hd x (by omega)]
      exact ⟨by omega, h x hx⟩)
    refine ⟨b, b1, b2, fun k hk => ?_⟩
    have hkl := hk.length
    obtain ⟨k', d1, d2, d3, d4⟩ := b3 k hk
    rw [d1]
    congr 1
    refine ext_getD (by rw [d2]; simp [bcastIdx]; omega) fun x hx => ?_
    rw [d2] at hx
    rw [getD_bcastIdx _ _ _ hx (by omega)]
    split
    · rename_i h1
      exact d4 x hx h1
    · rename_i h1
      have := d3 x hx
      rw [hd x (by omega)] at this
      exact this ((h x hx).resolve_left h1)

lemma diag_reshape (v : Arr α) : ∃ (r : Arr α) (j : Arr α), v.reshapeE [v.shape.prod] = .ok r ∧ r.diagMat.reshapeE (v.shape ++ v.shape) = .ok j ∧
    j.shape = v.shape ++ v.shape ∧ ∀ o i, InRange o v.shape → InRange i v.shape → j.get (o ++ i) = if o = i then v.get o else 0 := by
  have hp : (v.shape ++ v.shape).prod = (v.reshape [v.shape.prod]).diagMat.shape.prod := by simp [diagMat, reshape]
  refine ⟨v.reshape [v.shape.prod], (v.reshape [v.shape.prod]).diagMat.reshape (v.shape ++ v.shape), by unfold reshapeE; rw [if_pos (by simp)],
    by unfold reshapeE; rw [if_pos hp], rfl, fun o i ho hi => ?_⟩
  have h1 := ravel_lt ho
  have h2 := ravel_lt hi
  rw [reshape_get _ (v.shape ++ v.shape) (i := o ++ i) (j := [ravel v.shape o, ravel v.shape i])]
  · show (if ravel v.shape o = ravel v.shape i then (v.reshape [v.shape.prod]).get [ravel v.shape o] else 0) = _
    have : ravel v.shape o = ravel v.shape i ↔ o = i := ⟨fun h => ravel_inj ho hi h, fun h => h ▸ rfl⟩
    simp only [this]
    rw [reshape_get v [v.shape.prod] ho (by simp [ravel])]
  · simp [diagMat, reshape, InRange, h1, h2]
  · rw [ravel_append ho.length]
    simp [diagMat, reshape, ravel]

omit [Field α] in
lemma getD_replaceAt (A c k : List ℕ) (x : ℕ) (h : x < k.length) : (replaceAt A c k).getD x 0 = if x ∈ A then c.getD (A.idxOf x) 0 else k.getD x 0 :=
  getD_mapIdx _ _ _ h

omit [Field α] in
lemma replaceAt_shift (A c o i : List ℕ) : replaceAt (A.map (· + o.length)) c (o ++ i) = o ++ replaceAt A c i := by
  refine ext_getD (by simp [replaceAt]) fun x hx => ?_
  have hx : x < (o ++ i).length := by simpa [replaceAt] using hx
  rw [getD_replaceAt _ _ _ _ hx]
  by_cases h : x < o.length
  · rw [if_neg (by simp; omega), List.getD_append _ _ _ _ h, List.getD_append _ _ _ _ h]
  · obtain ⟨y, rfl⟩ : ∃ y, x = y + o.length := ⟨x - o.length, by omega⟩
    have hy : y < i.length := by simp at hx; omega
    rw [idxOf_shift, List.getD_append_right _ _ _ _ (by omega), List.getD_append_right _ _ _ _ (by omega), Nat.add_sub_cancel, getD_replaceAt _ _ _ _ hy]
    simp

lemma sum_replaceAt {A out i o : List ℕ} (hn : A.Nodup) (hA : ∀ x ∈ A, x < out.length) (ho : InRange o out) (hi : i.length = out.length) (v : α) :
    (∑ c ∈ box (gather A out), if o = replaceAt A c i then v else 0) = if ∀ x < out.length, x ∈ A ∨ o.getD x 0 = i.getD x 0 then v else 0 := by
  have hol := ho.length
  have hg : InRange (gather A o) (gather A out) := gather_inRange ho hA
  split
  · rename_i h
    rw [Finset.sum_eq_single (gather A o)]
    · rw [if_pos]
      refine ext_getD (by simp [replaceAt, hi, hol]) fun x hx => ?_
      rw [getD_replaceAt _ _ _ _ (by omega)]
      split
      · rename_i hxA
        rw [gather_getD' _ _ _ (List.idxOf_lt_length_of_mem hxA)]
        rw [List.getD_eq_getElem _ _ (List.idxOf_lt_length_of_mem hxA), List.getElem_idxOf]
      · rename_i hxA
        exact (h x (by omega)).resolve_left hxA
    · intro c hc hne
      rw [if_neg]
      rintro rfl
      refine hne ?_
      have hcl := (mem_box.1 hc).length
      rw [gather_length] at hcl
      refine ext_getD (by rw [gather_length, hcl]) fun x hx => ?_
      have hxA : x < A.length := by omega
      rw [gather_getD' _ _ _ hxA, getD_replaceAt _ _ _ _ (by rw [hi]; exact hA _ (by rw [List.getD_eq_getElem _ _ hxA]; exact List.getElem_mem hxA)),
        if_pos (by rw [List.getD_eq_getElem _ _ hxA]; exact List.getElem_mem hxA)]
      rw [List.getD_eq_getElem A _ hxA, hn.idxOf_getElem x hxA]
    · intro h2
      exact absurd (mem_box.2 hg) h2
  · rename_i h
    refine Finset.sum_eq_zero fun c _ => ?_
    rw [if_neg]
    rintro rfl
    refine h fun x hx => ?_
    by_cases hxA : x ∈ A
    · exact Or.inl hxA
    · right
      rw [getD_replaceAt _ _ _ _ (by omega), if_neg hxA]

lemma mulJ_core {inp out : List ℕ} (hl : inp.length = out.length) (h : ∀ x < inp.length, inp.getD x 0 = 1 ∨ inp.getD x 0 = out.getD x 0)
    (j0 : Arr α) (hj : j0.shape = out) :
    ∃ (r : Arr α) (j : Arr α), j0.reshapeE [out.prod] = .ok r ∧ r.diagMat.reshapeE (out ++ out) = .ok j ∧
      (j.sumKeep (((List.range inp.length).filter fun i => inp.getD i 0 = 1).map (· + out.length))).shape = out ++ inp ∧
      ∀ o i, InRange o out → InRange i inp →
        (j.sumKeep (((List.range inp.length).filter fun i => inp.getD i 0 = 1).map (· + out.length))).get (o ++ i) =
          if ∀ x < inp.length, inp.getD x 0 = 1 ∨ o.getD x 0 = i.getD x 0 then j0.get o else 0 := by
  obtain ⟨r, j, h1, h2, h3, h4⟩ := diag_reshape j0
  rw [hj] at h1 h2 h3 h4
  set A := (List.range inp.length).filter fun i => inp.getD i 0 = 1 with hA
  have hmem : ∀ x, x ∈ A ↔ x < inp.length ∧ inp.getD x 0 = 1 := fun x => by simp [hA]
  refine ⟨r, j, h1, h2, ?_, fun o i ho hi => ?_⟩
  · show (j.shape.mapIdx fun x n => if x ∈ A.map (· + out.length) then 1 else n) = _
    rw [h3]
    refine ext_getD (by simp [hl]) fun x hx => ?_
    have hx : x < (out ++ out).length := by simpa using hx
    rw [getD_mapIdx _ _ _ hx]
    by_cases hxo : x < out.length
    · rw [if_neg (by simp; omega), List.getD_append _ _ _ _ hxo, List.getD_append _ _ _ _ hxo]
    · obtain ⟨y, rfl⟩ : ∃ y, x = y + out.length := ⟨x - out.length, by omega⟩
      have hy : y < out.length := by simp at hx; omega
      rw [List.getD_append_right _ _ _ _ (by omega), List.getD_append_right _ _ _ _ (by omega), Nat.add_sub_cancel]
      have hm : y + out.length ∈ A.map (· + out.length) ↔ inp.getD y 0 = 1 := by
        rw [List.mem_map]
        constructor
        · rintro ⟨z, hz, he⟩
          have : z = y := by omega
          subst this
          exact ((hmem z).1 hz).2
        · exact fun h5 => ⟨y, (hmem y).2 ⟨by omega, h5⟩, rfl⟩
      simp only [hm]
      split
      · omega
      · rename_i h5
        exact ((h y (by omega)).resolve_left h5).symm
  · show sumOver (gather (A.map (· + out.length)) j.shape) (fun c => j.get (replaceAt (A.map (· + out.length)) c (o ++ i))) = _
    have hga : gather (A.map (· + out.length)) j.shape = gather A out := by
      rw [h3]
      unfold gather
      rw [List.map_map]
      refine List.map_congr_left fun x _ => ?_
      show (out ++ out).getD (x + out.length) 0 = _
      rw [List.getD_append_right _ _ _ _ (by omega), Nat.add_sub_cancel]
    rw [hga, sumOver_eq_box]
    have hil := hi.length
    have hv : ∀ c ∈ box (gather A out), j.get (replaceAt (A.map (· + out.length)) c (o ++ i)) = if o = replaceAt A c i then j0.get o else 0 := by
      intro c hc
      have hc := mem_box.1 hc
      rw [← ho.length, replaceAt_shift, h4 _ _ ho]
      refine inRange_iff.2 ⟨by simp [replaceAt]; omega, fun x hx => ?_⟩
      rw [getD_replaceAt _ _ _ _ (by omega)]
      split
      · rename_i hxA
        have := (inRange_iff.1 hc).2 (A.idxOf x) (by rw [gather_length]; exact List.idxOf_lt_length_of_mem hxA)
        rw [gather_getD' _ _ _ (List.idxOf_lt_length_of_mem hxA), List.getD_eq_getElem A _ (List.idxOf_lt_length_of_mem hxA), List.getElem_idxOf] at this
        exact this
      · rename_i hxA
        have h5 := (inRange_iff.1 hi).2 x (by omega)
        rcases h x (by omega) with h6 | h6
        · exact absurd ((hmem x).2 ⟨by omega, h6⟩) hxA
        · omega
    rw [Finset.sum_congr rfl hv, sum_replaceAt (List.nodup_range.filter _) (fun x hx => by have := ((hmem x).1 hx).1; omega) ho (by omega)]
    have hiff : (∀ x < out.length, x ∈ A ∨ o.getD x 0 = i.getD x 0) ↔ ∀ x < inp.length, inp.getD x 0 = 1 ∨ o.getD x 0 = i.getD x 0 := by
      rw [hl]
      refine forall_congr' fun x => forall_congr' fun hx => ?_
      rw [hmem]
      have : x < inp.length := by omega
      simp only [this, true_and]
    by_cases hh : ∀ x < inp.length, inp.getD x 0 = 1 ∨ o.getD x 0 = i.getD x 0
    · rw [if_pos hh, if_pos (hiff.2 hh)]
    · rw [if_neg hh, if_neg fun h5 => hh (hiff.1 h5)]

lemma mulJ_ok {isDiv : Bool} {idx : ℕ} (hd : ¬ (isDiv ∧ idx ≠ 0)) {inp : List ℕ} (other : Arr α) (h : Operands inp other.shape) :
    ∃ j, mulJ isDiv idx inp other (bshape inp other.shape) = .ok j ∧ j.shape = bshape inp other.shape ++ inp ∧
      ∀ o i, InRange o (bshape inp other.shape) → InRange i inp → j.get (o ++ i) = mulJac isDiv inp other o i := by
  unfold mulJ
  rw [if_neg hd]
  by_cases hp : inp.prod = 0
  · rw [if_pos hp]
    refine ⟨_, rfl, rfl, fun o i ho hi => ?_⟩
    have := ravel_lt hi
    omega
  rw [if_neg hp]
  set ot : Arr α := if isDiv then other.map fun v => 1 / v else other with hot
  have hos : ot.shape = other.shape := by rw [hot]; split <;> rfl
  have hog : ∀ k, ot.get k = factor isDiv (other.get k) := fun k => by
    rw [hot, factor]
    split <;> rfl
  by_cases hi0 : inp.length = 0
  · have hi0' : inp = [] := List.length_eq_zero_iff.1 hi0
    subst hi0'
    refine ⟨ot, rfl, by rw [hos]; simp [bshape], fun o i ho hi => ?_⟩
    rw [inRange_nil_right] at hi
    subst hi
    have hb : bshape [] other.shape = other.shape := by simp [bshape]
    rw [hb] at ho
    rw [List.append_nil, hog, mulJac, if_pos (by simp), bcastIdx_self ho]
  · have hi0' : inp ≠ [] := fun h => hi0 (by rw [h]; rfl)
    simp only [hi0, if_false]
    -- the other operand with the rank of the input
    have step : ∃ o2 : Arr α, (if ot.ndim = 0 then ot.broadcastTo inp else .ok ot) = .ok o2 ∧ o2.ndim = inp.length ∧
        ∃ j0, o2.broadcastTo (bshape inp other.shape) = .ok j0 ∧ j0.shape = bshape inp other.shape ∧
          ∀ o, InRange o (bshape inp other.shape) → j0.get o = ot.get (bcastIdx other.shape o) := by
      by_cases h0 : ot.ndim = 0
      · have h0' : other.shape = [] := by rw [← hos]; exact List.length_eq_zero_iff.1 h0
        obtain ⟨b, b1, b2, b3⟩ := broadcastTo_ok ot (S := inp) (Or.inl (by rw [hos, h0']))
        have hb : bshape inp other.shape = inp := by unfold bshape; rw [if_neg hi0', h0', if_pos rfl]
        have hbc : Compat b.shape inp := by rw [b2]; exact ⟨rfl, fun x _ => Or.inl rfl⟩
        obtain ⟨c, c1, c2, c3⟩ := broadcastTo_ok b (S := inp) (Or.inr ⟨hbc, fun x _ => by rw [b2]; exact Or.inr rfl⟩)
        rw [if_pos h0, hb]
        refine ⟨b, b1, by show b.shape.length = _; rw [b2], c, c1, c2, fun o ho => ?_⟩
        rw [c3 o ho, b2, bcastIdx_self ho, b3 o ho, hos]
      · rw [if_neg h0]
        have h0' : other.shape ≠ [] := fun h => h0 (by show ot.shape.length = 0; rw [hos, h]; rfl)
        have hc : Compat inp other.shape := (h.resolve_left hi0').resolve_left h0'
        have hc1 := hc.1
        have hbl := bshape_length hc
        obtain ⟨c, c1, c2, c3⟩ := broadcastTo_ok ot (S := bshape inp other.shape) (Or.inr (by
          have key : ∀ x < other.shape.length, other.shape.getD x 0 = 1 ∨ other.shape.getD x 0 = (bshape inp other.shape).getD x 0 := by
            intro x hx
            rw [bshape_getD hc (by omega)]
            have := hc.2 x (by omega)
            split <;> omega
          rw [hos]
          exact ⟨⟨by omega, fun x hx => by have := key x hx; omega⟩, key⟩))
        exact ⟨ot, rfl, by show ot.shape.length = _; rw [hos]; omega, c, c1, c2, fun o ho => by rw [c3 o ho, hos]⟩
    obtain ⟨o2, s1, s2, j0, s3, s4, s5⟩ := step
    have hbl : inp.length = (bshape inp other.shape).length := by
      rcases h with h | h | h
      · exact absurd h hi0'
      · unfold bshape; rw [if_neg hi0', if_pos h]
      · exact (bshape_length h).symm
    obtain ⟨r, j, m1, m2, m3, m4⟩ := mulJ_core hbl (by
      rcases h with h | h | h
      · exact absurd h hi0'
      · intro x _; unfold bshape; rw [if_neg hi0', if_pos h]; exact Or.inr rfl
      · intro x hx
        rw [bshape_getD h hx]
        split <;> omega) j0 s4
    refine ⟨_, ?_, m3, fun o i ho hi => ?_⟩
    · simp only [bind, Except.bind]
      by_cases h0 : ot.ndim = 0
      · rw [if_pos h0] at s1 ⊢
        rw [s1]
        dsimp only
        rw [if_pos ⟨s2, hbl⟩, s3]
        dsimp only
        rw [m1]
        dsimp only
        rw [m2]
      · rw [if_neg h0] at s1 ⊢
        rw [Except.ok.inj s1, if_pos ⟨s2, hbl⟩, s3]
        dsimp only
        rw [m1]
        dsimp only
        rw [m2]
    · rw [m4 o i ho hi, mulJac, s5 o ho, hog]

end NT.Rules
