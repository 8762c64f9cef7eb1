import Verif.Lemmas.Structured2

/-!
# The contraction of two uses of a parameter, continued
-/

namespace NT.Emp
open NT NT.Arr NT.Spec NT.Einsum NT.Rules
open scoped BigOperators

/-! ### The values of the lists of labels -/

section
variable {L : Lay} {o : ℕ} {W I Y1 J Y2 V : List ℕ} {T D : List ℕ}

lemma map_range_eq {m : ℕ} {f : ℕ → ℕ} {l : List ℕ} (hl : l.length = m) (h : ∀ a, a < m → f a = l.getD a 0) : (List.range m).map f = l := by
  refine ext_getD' (by simp [hl]) fun x hx => ?_
  rw [List.length_map, List.length_range] at hx
  rw [getD_map_range _ _ _ hx, h x hx]

lemma dims1_rd (hL : L.Room) {A G : List ℕ} (hA : A.length = L.tr.length) (hG : G.length = L.dg.length) (aA : Agree (A.zip L.tr) Y1 V) (aG : Agree (G.zip L.dg) Y1 V)
    (hI : I.length = L.n) (hY : Y1.length = L.y1) : (dims1 L A G).map (L.rd o W I Y1 J Y2 V) = I ++ Y1 := by
  unfold dims1
  rw [List.map_append, List.map_map, List.map_map]
  congr 1
  · exact map_range_eq hI fun a ha => Lay.rd_fx1 ha
  · exact map_range_eq hY fun a ha => Lay.rd_lab hL hA hG aA aG (Lay.rd_y1 ha)

lemma dims2_rd (hL : L.Room) {A G J' : List ℕ} (hA : A.length = L.tr.length) (hG : G.length = L.dg.length) (aA : Agree (A.zip L.tr) Y2 V) (aG : Agree (G.zip L.dg) Y2 V)
    (hJ : J'.length = L.n) (hJ' : ∀ a, a < L.n → J'.getD a 0 = if a ∈ T ∨ a ∈ D then I.getD a 0 else J.getD a 0) (hY : Y2.length = L.y2) :
    (dims2 L T D A G).map (L.rd o W I Y1 J Y2 V) = J' ++ Y2 := by
  unfold dims2
  rw [List.map_append, List.map_map, List.map_map]
  congr 1
  · refine map_range_eq hJ fun a ha => ?_
    simp only [Function.comp]
    rw [hJ' a ha]
    split_ifs
    · exact Lay.rd_fx1 ha
    · exact Lay.rd_fx2 ha
  · exact map_range_eq hY fun a ha => Lay.rd_lab hL hA hG aA aG (Lay.rd_y2 ha)

lemma dimsw_rd (hL : L.Room) {A G B Y Y' : List ℕ} {base y : ℕ} (hG : G.length = L.dg.length) (aG : Agree (G.zip L.dg) Y V)
    (hb : ∀ a, a < y → L.rd o W I Y1 J Y2 V ((base + a : ℕ) : ℤ) = Y.getD a 0) (hY : Y'.length = y)
    (hY' : ∀ a, a < y → Y'.getD a 0 = if a ∉ G ∧ (a ∈ A ∨ a ∈ B) then o else Y.getD a 0) (hW : W.length = L.w) :
    (dimsw L base y A G B).map (L.rd o W I Y1 J Y2 V) = Y' ++ W := by
  unfold dimsw
  rw [List.map_append, List.map_map, List.map_map]
  congr 1
  · exact map_range_eq hY fun a ha => by rw [hY' a ha]; exact Lay.rd_labw hL hG aG ha (hb a ha)
  · exact map_range_eq hW fun a ha => Lay.rd_w ha

lemma dimsOut_rd : (dimsOut L T D).map (L.rd o W I Y1 J Y2 V) = pairIdx L.n T D I J := by
  unfold dimsOut pairIdx
  rw [List.map_flatMap]
  refine List.flatMap_congr fun a ha => ?_
  have ha := List.mem_range.1 ha
  split_ifs
  · rfl
  · simp [Lay.rd_fx1 ha]
  · simp only [List.map_cons, List.map_nil]
    rw [Lay.rd_fx1 ha, Lay.rd_fx2 ha]

/-! ### Distinct labels -/

lemma mem_dimsOut {l : ℤ} : l ∈ dimsOut L T D ↔ ∃ a, a < L.n ∧ a ∉ T ∧ (l = (a : ℤ) ∨ (a ∉ D ∧ l = ((L.n + L.y1 + a : ℕ) : ℤ))) := by
  unfold dimsOut
  rw [List.mem_flatMap]
  constructor
  · rintro ⟨a, ha, h⟩
    have ha := List.mem_range.1 ha
    split_ifs at h with h1 h2
    · cases h
    · exact ⟨a, ha, h1, Or.inl (List.mem_singleton.1 h)⟩
    · simp only [List.mem_cons, List.not_mem_nil, or_false] at h
      exact ⟨a, ha, h1, h.imp_right fun h => ⟨h2, h⟩⟩
  · rintro ⟨a, ha, h1, h⟩
    refine ⟨a, List.mem_range.2 ha, ?_⟩
    rw [if_neg h1]
    rcases h with rfl | ⟨h2, rfl⟩
    · split_ifs <;> simp
    · rw [if_neg h2]; simp

lemma nodup_dimsOut : (dimsOut L T D).Nodup := by
  unfold dimsOut
  rw [List.nodup_flatMap]
  refine ⟨fun a ha => ?_, ?_⟩
  · have ha := List.mem_range.1 ha
    split_ifs
    · simp
    · simp
    · simp only [List.nodup_cons, List.mem_singleton, List.not_mem_nil, not_false_eq_true, List.nodup_nil, and_true]
      omega
  · refine (List.nodup_range (n := L.n)).imp_of_mem fun {a b} ha hb hne => ?_
    have ha := List.mem_range.1 ha
    have hb := List.mem_range.1 hb
    intro x h1 h2
    have k : ∀ c : ℕ, x ∈ (if c ∈ T then [] else if c ∈ D then [(c : ℤ)] else [(c : ℤ), ((L.n + L.y1 + c : ℕ) : ℤ)]) →
        x = c ∨ x = ((L.n + L.y1 + c : ℕ) : ℤ) := by
      intro c hc
      split_ifs at hc
      · cases hc
      · exact Or.inl (List.mem_singleton.1 hc)
      · simpa using hc
    rcases k a h1 with e1 | e1 <;> rcases k b h2 with e2 | e2 <;> omega

/-- The kinds of labels of results. -/
lemma lab_cases (base : ℕ) (A G : List ℕ) (a : ℕ) :
    (a ∈ G ∧ L.lab base A G a = L.q - G.idxOf a ∧ G.idxOf a < G.length) ∨
    (a ∉ G ∧ a ∈ A ∧ L.lab base A G a = ((L.p + A.idxOf a : ℕ) : ℤ) ∧ A.idxOf a < A.length) ∨
    (a ∉ G ∧ a ∉ A ∧ L.lab base A G a = ((base + a : ℕ) : ℤ)) := by
  unfold Lay.lab
  split_ifs with h1 h2
  · exact Or.inl ⟨h1, rfl, List.idxOf_lt_length_iff.2 h1⟩
  · exact Or.inr (Or.inl ⟨h1, h2, rfl, List.idxOf_lt_length_iff.2 h2⟩)
  · exact Or.inr (Or.inr ⟨h1, h2, rfl⟩)

lemma labw_cases (base y : ℕ) (A G B : List ℕ) (a : ℕ) :
    (a ∈ G ∧ L.labw base y A G B a = L.q - G.idxOf a ∧ G.idxOf a < G.length) ∨
    (a ∉ G ∧ (a ∈ A ∨ a ∈ B) ∧ L.labw base y A G B a = (a : ℤ) - (y + L.w : ℕ)) ∨
    (a ∉ G ∧ a ∉ A ∧ a ∉ B ∧ L.labw base y A G B a = ((base + a : ℕ) : ℤ)) := by
  unfold Lay.labw
  split_ifs with h1 h2
  · exact Or.inl ⟨h1, rfl, List.idxOf_lt_length_iff.2 h1⟩
  · exact Or.inr (Or.inl ⟨h1, h2, rfl⟩)
  · exact Or.inr (Or.inr ⟨h1, fun h => h2 (Or.inl h), fun h => h2 (Or.inr h), rfl⟩)

lemma idx_eq {l : List ℕ} {a b : ℕ} (ha : a ∈ l) (h : l.idxOf a = l.idxOf b) : a = b := (List.idxOf_inj ha).1 h

lemma lab_inj (hL : L.Room) {base y : ℕ} {A G : List ℕ} (hA : A.length = L.tr.length) (hG : G.length = L.dg.length) (hb : base + y ≤ L.p) {a b : ℕ} (ha : a < y) (hb' : b < y)
    (h : L.lab base A G a = L.lab base A G b) : a = b := by
  unfold Lay.Room at hL
  rcases lab_cases (L := L) base A G a with ⟨a1, a2, a3⟩ | ⟨a1, a2, a3, a4⟩ | ⟨a1, a2, a3⟩ <;>
    rcases lab_cases (L := L) base A G b with ⟨b1, b2, b3⟩ | ⟨b1, b2, b3, b4⟩ | ⟨b1, b2, b3⟩ <;>
    first
    | exact idx_eq a1 (by omega)
    | exact idx_eq a2 (by omega)
    | omega

lemma nodup_dims1 (hL : L.Room) {A G : List ℕ} (hA : A.length = L.tr.length) (hG : G.length = L.dg.length) : (dims1 L A G).Nodup := by
  have hp : L.p = L.n + L.y1 + (L.n + L.y2) := rfl
  unfold dims1
  rw [List.nodup_append]
  refine ⟨List.nodup_range.map fun a b h => by simpa using h, ?_, ?_⟩
  · refine List.Nodup.map_on (fun a ha b hb h => ?_) List.nodup_range
    exact lab_inj hL hA hG (by omega) (List.mem_range.1 ha) (List.mem_range.1 hb) h
  · intro x hx z hz
    obtain ⟨a, ha, rfl⟩ := List.mem_map.1 hx
    obtain ⟨b, hb, rfl⟩ := List.mem_map.1 hz
    have ha := List.mem_range.1 ha
    unfold Lay.Room at hL
    rcases lab_cases (L := L) L.n A G b with ⟨b1, b2, b3⟩ | ⟨b1, b2, b3, b4⟩ | ⟨b1, b2, b3⟩ <;> omega

lemma nodup_dims2 (hL : L.Room) {A G : List ℕ} (hA : A.length = L.tr.length) (hG : G.length = L.dg.length) : (dims2 L T D A G).Nodup := by
  have hp : L.p = L.n + L.y1 + (L.n + L.y2) := rfl
  unfold dims2
  rw [List.nodup_append]
  refine ⟨List.Nodup.map_on (fun a ha b hb h => ?_) List.nodup_range, ?_, ?_⟩
  · have ha := List.mem_range.1 ha
    have hb := List.mem_range.1 hb
    split_ifs at h <;> omega
  · refine List.Nodup.map_on (fun a ha b hb h => ?_) List.nodup_range
    exact lab_inj hL hA hG (by omega) (List.mem_range.1 ha) (List.mem_range.1 hb) h
  · intro x hx z hz
    obtain ⟨a, ha, rfl⟩ := List.mem_map.1 hx
    obtain ⟨b, hb, rfl⟩ := List.mem_map.1 hz
    have ha := List.mem_range.1 ha
    unfold Lay.Room at hL
    rcases lab_cases (L := L) (L.n + L.y1 + L.n) A G b with ⟨b1, b2, b3⟩ | ⟨b1, b2, b3, b4⟩ | ⟨b1, b2, b3⟩ <;> split_ifs <;> omega

lemma nodup_dimsw (hL : L.Room) {base y : ℕ} {A G B : List ℕ} (hG : G.length = L.dg.length) (hb : base + y ≤ L.p) : (dimsw L base y A G B).Nodup := by
  unfold Lay.Room at hL
  unfold dimsw
  rw [List.nodup_append]
  refine ⟨List.Nodup.map_on (fun a ha b hb h => ?_) List.nodup_range, List.Nodup.map_on (fun a ha b hb h => by omega) List.nodup_range, ?_⟩
  · have ha := List.mem_range.1 ha
    have hb := List.mem_range.1 hb
    rcases labw_cases (L := L) base y A G B a with ⟨a1, a2, a3⟩ | ⟨a1, a2, a3⟩ | ⟨a1, a2, a3, a4⟩ <;>
      rcases labw_cases (L := L) base y A G B b with ⟨b1, b2, b3⟩ | ⟨b1, b2, b3⟩ | ⟨b1, b2, b3, b4⟩ <;>
      first
      | exact idx_eq a1 (by omega)
      | omega
  · intro x hx z hz
    obtain ⟨a, ha, rfl⟩ := List.mem_map.1 hx
    obtain ⟨b, hb, rfl⟩ := List.mem_map.1 hz
    have ha := List.mem_range.1 ha
    have hb := List.mem_range.1 hb
    rcases labw_cases (L := L) base y A G B a with ⟨a1, a2, a3⟩ | ⟨a1, a2, a3⟩ | ⟨a1, a2, a3, a4⟩ <;> omega

/-! ### The kinds of labels -/

lemma mem_dims1 {A G : List ℕ} {l : ℤ} (h : l ∈ dims1 L A G) : (∃ a, a < L.n ∧ l = (a : ℤ)) ∨ ∃ a, a < L.y1 ∧ l = L.lab L.n A G a := by
  unfold dims1 at h
  rcases List.mem_append.1 h with h | h
  · obtain ⟨a, ha, rfl⟩ := List.mem_map.1 h
    exact Or.inl ⟨a, List.mem_range.1 ha, rfl⟩
  · obtain ⟨a, ha, rfl⟩ := List.mem_map.1 h
    exact Or.inr ⟨a, List.mem_range.1 ha, rfl⟩

lemma mem_dims2 {A G : List ℕ} {l : ℤ} (h : l ∈ dims2 L T D A G) :
    (∃ a, a < L.n ∧ (a ∈ T ∨ a ∈ D) ∧ l = (a : ℤ)) ∨ (∃ a, a < L.n ∧ a ∉ T ∧ a ∉ D ∧ l = ((L.n + L.y1 + a : ℕ) : ℤ)) ∨
      ∃ a, a < L.y2 ∧ l = L.lab (L.n + L.y1 + L.n) A G a := by
  unfold dims2 at h
  rcases List.mem_append.1 h with h | h
  · obtain ⟨a, ha, rfl⟩ := List.mem_map.1 h
    have ha := List.mem_range.1 ha
    by_cases h2 : a ∈ T ∨ a ∈ D
    · exact Or.inl ⟨a, ha, h2, if_pos h2⟩
    · exact Or.inr (Or.inl ⟨a, ha, fun h => h2 (Or.inl h), fun h => h2 (Or.inr h), if_neg h2⟩)
  · obtain ⟨a, ha, rfl⟩ := List.mem_map.1 h
    exact Or.inr (Or.inr ⟨a, List.mem_range.1 ha, rfl⟩)

lemma mem_dimsw {base y : ℕ} {A G B : List ℕ} {l : ℤ} (h : l ∈ dimsw L base y A G B) :
    (l < -(L.w : ℤ) ∧ ∃ a, a < y ∧ a ∉ G ∧ (a ∈ A ∨ a ∈ B) ∧ l = (a : ℤ) - (y + L.w : ℕ)) ∨ (∃ b, b < L.w ∧ l = (b : ℤ) - L.w) ∨ ∃ a, a < y ∧ l = L.lab base A G a := by
  unfold dimsw at h
  rcases List.mem_append.1 h with h | h
  · obtain ⟨a, ha, rfl⟩ := List.mem_map.1 h
    have ha := List.mem_range.1 ha
    rcases labw_cases (L := L) base y A G B a with ⟨a1, a2, a3⟩ | ⟨a1, a2, a3⟩ | ⟨a1, a2, a3, a4⟩
    · refine Or.inr (Or.inr ⟨a, ha, ?_⟩)
      rw [a2]
      unfold Lay.lab
      rw [if_pos a1]
    · exact Or.inl ⟨by omega, a, ha, a1, a2, a3⟩
    · refine Or.inr (Or.inr ⟨a, ha, ?_⟩)
      rw [a4]
      unfold Lay.lab
      rw [if_neg a1, if_neg a2]
  · obtain ⟨a, ha, rfl⟩ := List.mem_map.1 h
    exact Or.inr (Or.inl ⟨a, List.mem_range.1 ha, rfl⟩)

/-- Labels of results are summed over. -/
lemma lab_not_out (hL : L.Room) {base y : ℕ} {A G : List ℕ} (hA : A.length = L.tr.length) (hG : G.length = L.dg.length)
    (hb : (base = L.n ∧ y = L.y1) ∨ (base = L.n + L.y1 + L.n ∧ y = L.y2)) {a : ℕ} (ha : a < y) : L.lab base A G a ∉ dimsOut L T D := by
  have hp : L.p = L.n + L.y1 + (L.n + L.y2) := rfl
  unfold Lay.Room at hL
  rw [mem_dimsOut]
  rintro ⟨c, hc, -, h⟩
  rcases lab_cases (L := L) base A G a with ⟨b1, b2, b3⟩ | ⟨b1, b2, b3, b4⟩ | ⟨b1, b2, b3⟩ <;> omega

lemma neg_not_out {l : ℤ} (h : l < 0) : l ∉ dimsOut L T D := by
  rw [mem_dimsOut]
  rintro ⟨c, hc, -, h⟩
  omega

lemma trace_not_out {a : ℕ} (ha : a ∈ T) (hn : a < L.n) : (a : ℤ) ∉ dimsOut L T D := by
  rw [mem_dimsOut]
  rintro ⟨c, hc, h1, h2 | ⟨-, h2⟩⟩
  · have : a = c := by omega
    exact h1 (this ▸ ha)
  · omega

end
end NT.Emp
