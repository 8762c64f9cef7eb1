import Verif.Lemmas.Rules10

/-!
# `dot_general` is linear in each operand
-/

namespace NT.Rules
open NT Arr Spec
open scoped BigOperators
variable {α : Type}

/-- The axes of a contraction of an operand of shape `inp` with one of shape `oS`. -/
structure DotDims (C B oC oB inp oS : List ℕ) : Prop where
  nodup : (C ++ B).Nodup
  lt : ∀ a ∈ C ++ B, a < inp.length
  nodup' : (oC ++ oB).Nodup
  lt' : ∀ a ∈ oC ++ oB, a < oS.length
  contract : gather C inp = gather oC oS
  batch : gather B inp = gather oB oS

/-- The shape of the result, when the operand of shape `inp` is the operand number `idx`. -/
def dotOut (idx : ℕ) (C B oC oB inp oS : List ℕ) : List ℕ :=
  gather B inp ++ (if idx = 0 then gather (freeAxes inp.length (C ++ B)) inp ++ gather (freeAxes oS.length (oC ++ oB)) oS
    else gather (freeAxes oS.length (oC ++ oB)) oS ++ gather (freeAxes inp.length (C ++ B)) inp)

/-- `dot_general` as a function of the operand number `idx`. -/
def dotOp [Field α] (idx : ℕ) (C B oC oB : List ℕ) (other w : Arr α) : Except Err (Arr α) :=
  if idx = 0 then dotGeneral w other C oC B oB else dotGeneral other w oC C oB B

lemma gather_range'_append {u v w : List ℕ} {s n : ℕ} (hs : u.length = s) (hn : v.length = n) : gather (List.range' s n) (u ++ (v ++ w)) = v := by
  subst hs hn
  refine ext_getD (by simp [gather]) fun k hk => ?_
  have hk : k < v.length := by simpa [gather] using hk
  rw [gather_getD _ _ _ (by simpa using hk), List.getElem_range', List.getD_append_right _ _ _ _ (by omega)]
  have : u.length + 1 * k - u.length = k := by omega
  rw [this, List.getD_append _ _ _ _ hk]

lemma gather_range_append {u w : List ℕ} {n : ℕ} (hn : u.length = n) : gather (List.range n) (u ++ w) = u := by
  rw [gather_left _ _ _ (by simp [hn]), gather_range_self _ _ hn]

/-- What the parts of an index of the result are. -/
structure Parts (idx : ℕ) (nb f g : ℕ) (o b x y : List ℕ) : Prop where
  lb : b.length = nb
  lx : x.length = f
  ly : y.length = g
  eq : o = b ++ (if idx = 0 then x ++ y else y ++ x)

lemma Parts.batch {idx nb f g : ℕ} {o b x y : List ℕ} (h : Parts idx nb f g o b x y) : gather (List.range nb) o = b := by
  rw [h.eq, gather_range_append h.lb]

lemma Parts.free {idx nb f g : ℕ} {o b x y : List ℕ} (h : Parts idx nb f g o b x y) : gather (List.range' (offF idx nb g) f) o = x := by
  rw [h.eq]
  unfold offF
  split
  · exact gather_range'_append h.lb h.lx
  · rw [← List.append_assoc]
    have := gather_range'_append (u := b ++ y) (v := x) (w := []) (s := nb + g) (n := f) (by simp [h.lb, h.ly]) h.lx
    rwa [List.append_nil] at this

lemma Parts.other {idx nb f g : ℕ} {o b x y : List ℕ} (h : Parts idx nb f g o b x y) : gather (List.range' (offG idx nb f) g) o = y := by
  rw [h.eq]
  unfold offG
  split
  · rw [← List.append_assoc]
    have := gather_range'_append (u := b ++ x) (v := y) (w := []) (s := nb + f) (n := g) (by simp [h.lb, h.lx]) h.ly
    rwa [List.append_nil] at this
  · exact gather_range'_append h.lb h.ly

lemma Parts.length {idx nb f g : ℕ} {o b x y : List ℕ} (h : Parts idx nb f g o b x y) : o.length = nb + f + g := by
  rw [h.eq]
  split <;> simp [h.lb, h.lx, h.ly] <;> omega

lemma Parts.of_inRange {idx : ℕ} {o sb sx sy : List ℕ} (h : InRange o (sb ++ (if idx = 0 then sx ++ sy else sy ++ sx))) :
    ∃ b x y, Parts idx sb.length sx.length sy.length o b x y ∧ InRange b sb ∧ InRange x sx ∧ InRange y sy := by
  have split2 : ∀ {o u v : List ℕ}, InRange o (u ++ v) → ∃ a c, o = a ++ c ∧ InRange a u ∧ InRange c v := fun {o u v} h => by
    have hl := h.length
    rw [List.length_append] at hl
    have h2 := h
    rw [← List.take_append_drop u.length o, inRange_append (by rw [List.length_take]; omega)] at h2
    exact ⟨_, _, (List.take_append_drop _ _).symm, h2.1, h2.2⟩
  obtain ⟨b, r, rfl, hb, hr⟩ := split2 h
  split at hr
  · rename_i h0
    obtain ⟨x, y, rfl, hx, hy⟩ := split2 hr
    exact ⟨b, x, y, ⟨hb.length, hx.length, hy.length, by rw [if_pos h0]⟩, hb, hx, hy⟩
  · rename_i h0
    obtain ⟨y, x, rfl, hy, hx⟩ := split2 hr
    exact ⟨b, x, y, ⟨hb.length, hx.length, hy.length, by rw [if_neg h0]⟩, hb, hx, hy⟩

lemma dotOk_of {idx : ℕ} {C B oC oB inp oS : List ℕ} (h : DotDims C B oC oB inp oS) : DotOk idx C B oC oB inp oS (dotOut idx C B oC oB inp oS) := by
  have hC : C.length = oC.length := by simpa [gather] using congrArg List.length h.contract
  have hB : B.length = oB.length := by simpa [gather] using congrArg List.length h.batch
  have hp : Parts idx B.length (freeAxes inp.length (C ++ B)).length (freeAxes oS.length (oC ++ oB)).length (dotOut idx C B oC oB inp oS) (gather B inp)
      (gather (freeAxes inp.length (C ++ B)) inp) (gather (freeAxes oS.length (oC ++ oB)) oS) := ⟨by simp [gather], by simp [gather], by simp [gather], rfl⟩
  refine ⟨h.nodup, h.lt, h.nodup', h.lt', hC, hB, hp.length, ?_, hp.free, hp.batch⟩
  refine ext_getD (by simp [gather, dotV]) fun a ha => ?_
  have ha : a < oS.length := by simpa [gather, dotV] using ha
  rw [gather_getD' _ _ _ (by rw [length_dotV]; exact ha), getD_dotV ha]
  have hlen := hp.length
  split
  · rename_i h1
    have h2 := List.idxOf_lt_length_iff.2 h1
    rw [List.getD_append _ _ _ _ (by omega)]
    have e := congrArg (fun l => l.getD (oB.idxOf a) 0) (hp.batch.trans h.batch)
    beta_reduce at e
    rw [gather_getD _ _ _ (by simpa [hB] using h2), getD_gather_mem h1, List.getElem_range] at e
    exact e
  · split
    · rename_i h0 h1
      have h2 := List.idxOf_lt_length_iff.2 h1
      rw [List.getD_append_right _ _ _ _ (by omega), Nat.add_sub_cancel_left]
      have e := congrArg (fun l => l.getD (oC.idxOf a) 0) h.contract
      beta_reduce at e
      rw [gather_getD' _ _ _ (by omega), getD_gather_mem h1] at e
      exact e
    · rename_i h0 h1
      have h2 : a ∈ freeAxes oS.length (oC ++ oB) := mem_freeAxes.2 ⟨ha, by simp [h0, h1]⟩
      have h3 := List.idxOf_lt_length_iff.2 h2
      have h4 : offG idx B.length (freeAxes inp.length (C ++ B)).length + (freeAxes oS.length (oC ++ oB)).length ≤ (dotOut idx C B oC oB inp oS).length := by
        unfold offG
        split <;> omega
      rw [List.getD_append _ _ _ _ (by omega)]
      have e := congrArg (fun l => l.getD ((freeAxes oS.length (oC ++ oB)).idxOf a) 0) hp.other
      beta_reduce at e
      rw [gather_getD _ _ _ (by simpa using h3), getD_gather_mem h2, List.getElem_range', Nat.one_mul] at e
      exact e

/-- The index with the values `v` at the axes `L`. -/
def place (L v : List ℕ) (n : ℕ) : List ℕ := (List.range n).map fun a => v.getD (L.idxOf a) 0

lemma length_place (L v : List ℕ) (n : ℕ) : (place L v n).length = n := by simp [place]

lemma gather_place {L v : List ℕ} {n : ℕ} (hn : L.Nodup) (hl : ∀ a ∈ L, a < n) (hv : v.length = L.length) : gather L (place L v n) = v := by
  refine ext_getD (by simp [gather, hv]) fun k hk => ?_
  have hk : k < L.length := by simpa [gather] using hk
  rw [gather_getD _ _ _ hk, place, getD_map_range _ _ _ (hl _ (List.getElem_mem hk)), List.Nodup.idxOf_getElem hn _ hk]

lemma place_gather {L i : List ℕ} {n : ℕ} (hi : i.length = n) (hl : ∀ a < n, a ∈ L) : place L (gather L i) n = i := by
  refine ext_getD (by simp [place, hi]) fun a ha => ?_
  have ha : a < n := by simpa [place] using ha
  rw [place, getD_map_range _ _ _ ha, getD_gather_mem (hl a ha)]

lemma inRange_place {L v s : List ℕ} (hl : ∀ a < s.length, a ∈ L) (h : InRange v (gather L s)) : InRange (place L v s.length) s := by
  refine inRange_iff.2 ⟨length_place .., fun a ha => ?_⟩
  have h1 := List.idxOf_lt_length_iff.2 (hl a ha)
  have h2 := (inRange_iff.1 h).2 (L.idxOf a) (by simpa [gather] using h1)
  rw [getD_gather_mem (hl a ha)] at h2
  rw [place, getD_map_range _ _ _ ha]
  exact h2

lemma freeAxes_comm (n : ℕ) (a b : List ℕ) : freeAxes n (a ++ b) = freeAxes n (b ++ a) := by
  refine List.Pairwise.eq_of_mem_iff (freeAxes_sorted _ _) (freeAxes_sorted _ _) fun {x} => ?_
  rw [mem_freeAxes, mem_freeAxes, List.mem_append, List.mem_append, or_comm]

lemma dot_jacobian [Field α] {idx : ℕ} {C B oC oB inp : List ℕ} (other : Arr α) (h : DotDims C B oC oB inp other.shape) :
    IsJacobian (dotOp idx C B oC oB other) inp (dotOut idx C B oC oB inp other.shape) (dotJac idx inp.length C B oC oB other) := by
  have hk := dotOk_of (idx := idx) h
  have hlC := hk.lenC
  have hlB := hk.lenB
  have hbc : (B ++ C).Nodup ∧ ∀ k ∈ B ++ C, k < inp.length :=
    ⟨(List.perm_append_comm.nodup_iff).1 h.nodup, fun k hk' => h.lt k (by rw [List.mem_append] at hk' ⊢; tauto)⟩
  have hbc' : (oB ++ oC).Nodup ∧ ∀ k ∈ oB ++ oC, k < other.ndim :=
    ⟨(List.perm_append_comm.nodup_iff).1 h.nodup', fun k hk' => h.lt' k (by rw [List.mem_append] at hk' ⊢; tauto)⟩
  have hLp : (C ++ B ++ freeAxes inp.length (C ++ B)).Perm (List.range inp.length) := List.perm_append_comm.trans (freeAxes_perm _ _ h.nodup h.lt)
  have hLn : (C ++ B ++ freeAxes inp.length (C ++ B)).Nodup := hLp.nodup_iff.2 List.nodup_range
  have hLl : ∀ a ∈ C ++ B ++ freeAxes inp.length (C ++ B), a < inp.length := fun a ha => List.mem_range.1 (hLp.mem_iff.1 ha)
  have hLa : ∀ a < inp.length, a ∈ C ++ B ++ freeAxes inp.length (C ++ B) := fun a ha => hLp.mem_iff.2 (List.mem_range.2 ha)
  have hVC : gather oC (dotV idx inp.length other.ndim C B oC oB (dotOut idx C B oC oB inp other.shape).length) =
      C.map (· + (dotOut idx C B oC oB inp other.shape).length) := by
    refine ext_getD (by simp [gather, hlC]) fun k hk' => ?_
    have hk1 : k < oC.length := by simpa [gather] using hk'
    have hk2 : k < C.length := by omega
    have := getD_dotV_contract (idx := idx) (n := inp.length) (m := other.ndim) (N := (dotOut idx C B oC oB inp other.shape).length) (C := C) (B := B) h.nodup' h.lt' (p := (C[k], oC[k]))
      (List.mem_iff_getElem.2 ⟨k, by simp; omega, by simp⟩)
    dsimp only at this
    rw [gather_getD _ _ _ hk1, this, List.getD_eq_getElem _ _ (by simpa using hk2), List.getElem_map, Nat.add_comm]
  refine ⟨fun _ => 0, fun w hw => ?_⟩
  subst hw
  have key : ∀ (z : Arr α), dotOp idx C B oC oB other w = .ok z → z.shape = dotOut idx C B oC oB w.shape other.shape →
      (∀ (b x y : List ℕ) (ja jb : List ℕ → List ℕ), b.length = B.length → x.length = (freeAxes w.ndim (C ++ B)).length → y.length = (freeAxes other.ndim (oC ++ oB)).length →
        (∀ c, c.length = C.length → (ja c).length = w.ndim ∧ gather B (ja c) = b ∧ gather (freeAxes w.ndim (C ++ B)) (ja c) = x ∧ gather C (ja c) = c) →
        (∀ c, c.length = C.length → (jb c).length = other.ndim ∧ gather oB (jb c) = b ∧ gather (freeAxes other.ndim (oC ++ oB)) (jb c) = y ∧ gather oC (jb c) = c) →
        z.get (b ++ (if idx = 0 then x ++ y else y ++ x)) = sumOver (gather C w.shape) fun c => other.get (jb c) * w.get (ja c)) →
      ∃ y, dotOp idx C B oC oB other w = .ok y ∧ y.shape = dotOut idx C B oC oB w.shape other.shape ∧
        ∀ o, InRange o (dotOut idx C B oC oB w.shape other.shape) → y.get o = (fun _ => 0) o + ∑ i ∈ box w.shape, dotJac idx w.shape.length C B oC oB other o i * w.get i := by
    intro z z1 z2 z3
    refine ⟨z, z1, z2, fun o ho => ?_⟩
    obtain ⟨b, x, y, hp, hb, hx, hy⟩ := Parts.of_inRange ho
    have hol := ho.length
    have lB : (gather B w.shape).length = B.length := by simp [gather]
    have lF : (gather (freeAxes w.shape.length (C ++ B)) w.shape).length = (freeAxes w.shape.length (C ++ B)).length := by simp [gather]
    have lG : (gather (freeAxes other.shape.length (oC ++ oB)) other.shape).length = (freeAxes other.shape.length (oC ++ oB)).length := by simp [gather]
    rw [lB, lF, lG] at hp
    have hja : ∀ c, c.length = C.length → gather C (place (C ++ B ++ freeAxes w.shape.length (C ++ B)) (c ++ b ++ x) w.shape.length) = c ∧
        gather B (place (C ++ B ++ freeAxes w.shape.length (C ++ B)) (c ++ b ++ x) w.shape.length) = b ∧
        gather (freeAxes w.shape.length (C ++ B)) (place (C ++ B ++ freeAxes w.shape.length (C ++ B)) (c ++ b ++ x) w.shape.length) = x := by
      intro c hc
      have := gather_place hLn hLl (v := c ++ b ++ x) (by simp [hc, hp.lb, hp.lx])
      rw [gather_append, gather_append] at this
      obtain ⟨h1, h2⟩ := List.append_inj this (by simp [gather, hc, hp.lb])
      obtain ⟨h3, h4⟩ := List.append_inj h1 (by simp [gather, hc])
      exact ⟨h3, h4, h2⟩
    have hdl : ∀ k ∈ List.range B.length, k < o.length := fun k hk' => by
      have := hp.length
      rw [List.mem_range] at hk'
      omega
    have hdg : ∀ k ∈ List.range' (offG idx B.length (freeAxes w.shape.length (C ++ B)).length) (freeAxes other.shape.length (oC ++ oB)).length, k < o.length := fun k hk' => by
      have := hp.length
      rw [List.mem_range'_1] at hk'
      unfold offG at hk'
      split at hk' <;> omega
    have hjb : ∀ i, i.length = w.shape.length → gather oB (gather (dotV idx w.shape.length other.ndim C B oC oB o.length) (o ++ i)) = b ∧
        gather (freeAxes other.ndim (oC ++ oB)) (gather (dotV idx w.shape.length other.ndim C B oC oB o.length) (o ++ i)) = y ∧
        gather oC (gather (dotV idx w.shape.length other.ndim C B oC oB o.length) (o ++ i)) = gather C i := by
      intro i _
      rw [gather_gather, gather_gather, gather_gather, gather_dotV_batch (m := other.ndim) h.nodup' h.lt', gather_dotV_free, hol, hVC, gather_shift' _ _ _ hol, ← hlB, gather_left _ _ _ hdl, hp.batch]
      · exact ⟨rfl, (gather_left _ _ _ hdg).trans hp.other, rfl⟩
      · rw [length_dotV]
        exact fun k hk' => h.lt' k (by simp [hk'])
      · rw [length_dotV]
        exact fun k hk' => (mem_freeAxes.1 hk').1
      · rw [length_dotV]
        exact fun k hk' => h.lt' k (by simp [hk'])
    have e1 := z3 b x y (fun c => place (C ++ B ++ freeAxes w.shape.length (C ++ B)) (c ++ b ++ x) w.shape.length)
      (fun c => gather (dotV idx w.shape.length other.ndim C B oC oB o.length) (o ++ place (C ++ B ++ freeAxes w.shape.length (C ++ B)) (c ++ b ++ x) w.shape.length))
      hp.lb hp.lx hp.ly (fun c hc => ⟨length_place .., (hja c hc).2.1, (hja c hc).2.2, (hja c hc).1⟩)
      (fun c hc => ⟨by simp [gather, dotV], (hjb _ (length_place ..)).1, (hjb _ (length_place ..)).2.1, (hjb _ (length_place ..)).2.2.trans (hja c hc).1⟩)
    rw [← hp.eq] at e1
    rw [e1, zero_add, sumOver_eq_box]
    symm
    have hag : ∀ i, InRange i w.shape → (Agree (dotP idx w.shape.length other.ndim C B oC oB) o i ↔ gather (freeAxes w.shape.length (C ++ B)) i = x ∧ gather B i = b) := by
      intro i hi
      have c2 := gather_inj_iff (L := List.range' (offF idx B.length (freeAxes other.ndim (oC ++ oB)).length) (freeAxes w.shape.length (C ++ B)).length)
        (R := freeAxes w.shape.length (C ++ B)) (o := o) (i := i) (by simp)
      have c1 := gather_inj_iff (L := List.range B.length) (R := B) (o := o) (i := i) (by simp)
      have c3 : Agree (dotP idx w.shape.length other.ndim C B oC oB) o i ↔
          Agree ((List.range' (offF idx B.length (freeAxes other.ndim (oC ++ oB)).length) (freeAxes w.shape.length (C ++ B)).length).zip (freeAxes w.shape.length (C ++ B))) o i ∧
            Agree ((List.range B.length).zip B) o i := by
        unfold dotP Agree
        simp only [List.mem_append]
        constructor
        · exact fun h => ⟨fun p hp => h p (Or.inl hp), fun p hp => h p (Or.inr hp)⟩
        · rintro ⟨h1, h2⟩ p (hp | hp)
          · exact h1 p hp
          · exact h2 p hp
      have c4 : gather (List.range' (offF idx B.length (freeAxes other.ndim (oC ++ oB)).length) (freeAxes w.shape.length (C ++ B)).length) o = x := hp.free
      rw [c3, ← c1, ← c2, hp.batch, c4, eq_comm, @eq_comm _ b]
    rw [← Finset.sum_filter_add_sum_filter_not _ (fun i => Agree (dotP idx w.shape.length other.ndim C B oC oB) o i)]
    rw [Finset.sum_eq_zero (s := Finset.filter (fun i => ¬ Agree (dotP idx w.shape.length other.ndim C B oC oB) o i) _) (fun i hi => by
      rw [dotJac, if_neg (Finset.mem_filter.1 hi).2, zero_mul]), add_zero]
    refine Finset.sum_nbij' (fun i => gather C i) (fun c => place (C ++ B ++ freeAxes w.shape.length (C ++ B)) (c ++ b ++ x) w.shape.length) ?_ ?_ ?_ ?_ ?_
    · intro i hi
      exact mem_box.2 (gather_inRange (mem_box.1 (Finset.mem_filter.1 hi).1) fun k hk' => h.lt k (by simp [hk']))
    · intro c hc
      have hc := mem_box.1 hc
      have hcl : c.length = C.length := by simpa [gather] using hc.length
      have hr : InRange (place (C ++ B ++ freeAxes w.shape.length (C ++ B)) (c ++ b ++ x) w.shape.length) w.shape := inRange_place hLa (by
        rw [gather_append, gather_append]
        exact (inRange_append (by simp [gather, hcl, hp.lb])).2 ⟨(inRange_append (by simp [gather, hcl])).2 ⟨hc, hb⟩, hx⟩)
      exact Finset.mem_filter.2 ⟨mem_box.2 hr, (hag _ hr).2 ⟨(hja c hcl).2.2, (hja c hcl).2.1⟩⟩
    · intro i hi
      obtain ⟨h1, h2⟩ := Finset.mem_filter.1 hi
      have h1 := mem_box.1 h1
      obtain ⟨h3, h4⟩ := (hag i h1).1 h2
      conv_lhs => rw [← h3, ← h4, ← gather_append, ← gather_append]
      exact place_gather h1.length hLa
    · intro c hc
      have hcl : c.length = C.length := by simpa [gather] using (mem_box.1 hc).length
      exact (hja c hcl).1
    · intro i hi
      obtain ⟨h1, h2⟩ := Finset.mem_filter.1 hi
      have h1 := mem_box.1 h1
      obtain ⟨h3, h4⟩ := (hag i h1).1 h2
      have e : place (C ++ B ++ freeAxes w.shape.length (C ++ B)) (gather C i ++ b ++ x) w.shape.length = i := by
        conv_lhs => rw [← h3, ← h4, ← gather_append, ← gather_append]
        exact place_gather h1.length hLa
      rw [dotJac, if_pos h2, e]
  by_cases h0 : idx = 0
  · obtain ⟨z, z1, z2, z3⟩ := dotGeneral_ok w other C oC B oB hbc hbc' h.contract h.batch
    rw [freeAxes_comm _ B C, freeAxes_comm _ oB oC] at z2 z3
    refine key z (by rw [dotOp, if_pos h0]; exact z1) (by rw [dotOut, if_pos h0, z2, List.append_assoc]; rfl) fun b x y ja jb l1 l2 l3 g1 g2 => ?_
    have := z3 b x y ja jb l1 l2 g1 g2
    rw [if_pos h0, ← List.append_assoc, this]
    congr 1
    funext c
    rw [mul_comm]
  · obtain ⟨z, z1, z2, z3⟩ := dotGeneral_ok other w oC C oB B hbc' hbc h.contract.symm h.batch.symm
    rw [freeAxes_comm _ B C, freeAxes_comm _ oB oC] at z2 z3
    refine key z (by rw [dotOp, if_neg h0]; exact z1) (by rw [dotOut, if_neg h0, z2, List.append_assoc, h.batch]; rfl) fun b x y ja jb l1 l2 l3 g1 g2 => ?_
    have := z3 b y x jb ja (by omega) l3 (fun c hc => g2 c (by omega)) (fun c hc => g1 c (by omega))
    rw [if_neg h0, ← List.append_assoc, this, h.contract]

end NT.Rules
