import Verif.Lemmas.Rules8

/-!
# Masks of pairs of axes
-/

namespace NT.Rules
open NT Arr Spec
variable {α : Type}

/-- The array `j` broadcasts to an array of shape `S` with entries `g`; it has the size of `S` at the axes `X`, and size one at the others. -/
structure Filled (j : Arr α) (S : List ℕ) (X : ℕ → Prop) (g : List ℕ → α) : Prop where
  len : j.shape.length = S.length
  on : ∀ x < S.length, X x → j.shape.getD x 0 = S.getD x 0
  off : ∀ x < S.length, ¬ X x → j.shape.getD x 0 = 1
  get : ∀ k, InRange k S → j.get (bcastIdx j.shape k) = g k

lemma Filled.size {j : Arr α} {S : List ℕ} {X : ℕ → Prop} {g : List ℕ → α} (h : Filled j S X g) {x : ℕ} (hx : x < S.length) :
    j.shape.getD x 0 = S.getD x 0 ∨ j.shape.getD x 0 = 1 := by
  by_cases hX : X x
  · exact Or.inl (h.on x hx hX)
  · exact Or.inr (h.off x hx hX)

lemma Filled.full {j : Arr α} {S : List ℕ} {X : ℕ → Prop} {g : List ℕ → α} (h : Filled j S X g) (hX : ∀ x < S.length, X x) :
    j.shape = S ∧ ∀ k, InRange k S → j.get k = g k := by
  have hs : j.shape = S := ext_getD h.len fun x hx => h.on x (by rw [← h.len]; exact hx) (hX x (by rw [← h.len]; exact hx))
  refine ⟨hs, fun k hk => ?_⟩
  have := h.get k hk
  rwa [hs, bcastIdx_self hk] at this

lemma Filled.congr {j : Arr α} {S : List ℕ} {X X' : ℕ → Prop} {g g' : List ℕ → α} (h : Filled j S X g) (hX : ∀ x < S.length, X x ↔ X' x)
    (hg : ∀ k, InRange k S → g k = g' k) : Filled j S X' g' :=
  ⟨h.len, fun x hx h2 => h.on x hx ((hX x hx).2 h2), fun x hx h2 => h.off x hx fun h3 => h2 ((hX x hx).1 h3), fun k hk => (h.get k hk).trans (hg k hk)⟩

lemma filled_where [Zero α] {e : Arr Bool} {j : Arr α} {S : List ℕ} {X Y : ℕ → Prop} {p : List ℕ → Bool} {g : List ℕ → α} (he : Filled e S X p) (hj : Filled j S Y g) :
    Filled (whereMask e j) S (fun x => X x ∨ Y x) fun k => if p k then g k else 0 := by
  have hl : (whereMask e j).shape.length = S.length := by
    show (List.zipWith bcastDim e.shape j.shape).length = _
    rw [List.length_zipWith, he.len, hj.len, min_self]
  have hs : ∀ x < S.length, (whereMask e j).shape.getD x 0 = if e.shape.getD x 0 = 1 then j.shape.getD x 0 else e.shape.getD x 0 := fun x hx =>
    getD_zipWith _ _ _ _ (by rw [he.len]; exact hx) (by rw [hj.len]; exact hx)
  refine ⟨hl, fun x hx hX => ?_, fun x hx hX => ?_, fun k hk => ?_⟩
  · rw [hs x hx]
    have h1 := he.size hx
    have h2 := hj.size hx
    rcases hX with h | h
    · have := he.on x hx h
      split <;> omega
    · have := hj.on x hx h
      split <;> omega
  · rw [hs x hx, he.off x hx fun h => hX (Or.inl h), if_pos rfl, hj.off x hx fun h => hX (Or.inr h)]
  · have hkl := hk.length
    have key : ∀ s : List ℕ, s.length = S.length → (∀ x < S.length, s.getD x 0 ≠ 1 → (whereMask e j).shape.getD x 0 ≠ 1) →
        bcastIdx s (bcastIdx (whereMask e j).shape k) = bcastIdx s k := by
      intro s hsl hne
      have hb : (bcastIdx (whereMask e j).shape k).length = S.length := by simp [bcastIdx, hl, hkl]
      refine ext_getD (by simp [bcastIdx, hsl, hl, hkl]) fun x hx => ?_
      have hx : x < S.length := by simpa [bcastIdx, hsl, hl, hkl] using hx
      have c1 := getD_bcastIdx s (bcastIdx (whereMask e j).shape k) x (by omega) (by omega)
      have c2 := getD_bcastIdx s k x (by omega) (by omega)
      have c3 := getD_bcastIdx (whereMask e j).shape k x (by omega) (by omega)
      rw [c1, c2, c3]
      by_cases h1 : s.getD x 0 = 1
      · rw [if_pos h1, if_pos h1]
      · rw [if_neg h1, if_neg h1, if_neg (hne x hx h1)]
    have e1 := key e.shape he.len fun x hx h => by rw [hs x hx, if_neg h]; exact h
    have e2 := key j.shape hj.len fun x hx h => by
      rw [hs x hx]
      split
      · exact h
      · assumption
    show (if e.get (bcastIdx e.shape (bcastIdx (whereMask e j).shape k)) then j.get (bcastIdx j.shape (bcastIdx (whereMask e j).shape k)) else 0) = _
    rw [e1, e2, he.get k hk, hj.get k hk]

lemma filter_mem_sorted {n : ℕ} {l : List ℕ} (hs : l.Pairwise (· < ·)) (hl : ∀ x ∈ l, x < n) : ((List.range n).filter fun x => decide (x ∈ l)) = l := by
  refine List.Pairwise.eq_of_mem_iff (List.pairwise_lt_range.filter _) hs fun x => ?_
  simp only [List.mem_filter, List.mem_range, decide_eq_true_eq]
  exact ⟨fun h => h.2, fun h => ⟨hl x h, h⟩⟩

/-- The identity matrix, read with the axes `A` and `B` of the shape `S`. -/
lemma filled_mask {S A B : List ℕ} (hs : (A ++ B).Pairwise (· < ·)) (hl : ∀ x ∈ A ++ B, x < S.length) (he : gather A S = gather B S) {shape : List ℕ}
    (hsh : shape = (List.range S.length).map fun x => if x ∈ A ++ B then S.getD x 0 else 1) :
    ∃ e, (eyeBool (gather A S).prod).reshapeE shape = .ok e ∧ Filled e S (· ∈ A ++ B) fun k => decide (gather A k = gather B k) := by
  have hlen : shape.length = S.length := by simp [hsh]
  have hget : ∀ x < S.length, shape.getD x 0 = if x ∈ A ++ B then S.getD x 0 else 1 := fun x hx => by rw [hsh, getD_map_range _ _ _ hx]
  set p : ℕ → Bool := fun x => decide (x ∈ A ++ B)
  have hf : ∀ L : List ℕ, L.length = S.length → keep p L = gather (A ++ B) L := fun L hL => by
    unfold keep
    rw [hL, filter_mem_sorted hs hl]
  have h1 : ∀ k, k < shape.length → p k = false → shape.getD k 0 = 1 := fun k hk hp => by
    rw [hget k (by omega), if_neg (of_decide_eq_false hp)]
  have hk : keep p shape = gather A S ++ gather A S := by
    rw [hf _ hlen, gather_append]
    have hA : gather A shape = gather A S := gather_congr fun x hx => by
      rw [hget x (hl x (by simp [hx])), if_pos (by simp [hx])]
    have hB : gather B shape = gather B S := gather_congr fun x hx => by
      rw [hget x (hl x (by simp [hx])), if_pos (by simp [hx])]
    rw [hA, hB, ← he]
  have hprod : shape.prod = (gather A S).prod * (gather A S).prod := by
    rw [← keep_prod p shape h1, hk, List.prod_append]
  refine ⟨(eyeBool (gather A S).prod).reshape shape, ?_, hlen, fun x hx hX => ?_, fun x hx hX => ?_, fun k hkr => ?_⟩
  · unfold reshapeE
    rw [if_pos]
    rw [hprod]
    simp [eyeBool]
  · show shape.getD x 0 = _
    rw [hget x hx, if_pos hX]
  · show shape.getD x 0 = _
    rw [hget x hx, if_neg hX]
  · show ((eyeBool (gather A S).prod).reshape shape).get (bcastIdx shape k) = _
    have hkl := hkr.length
    have hin : InRange (bcastIdx shape k) shape := by
      refine inRange_iff.2 ⟨by simp [bcastIdx, hlen, hkl], fun x hx => ?_⟩
      rw [hlen] at hx
      rw [getD_bcastIdx _ _ _ (by omega) (by omega), hget x hx]
      have := (inRange_iff.1 hkr).2 x hx
      split <;> split <;> omega
    have hg : ∀ D : List ℕ, (∀ x ∈ D, x ∈ A ++ B) → gather D (bcastIdx shape k) = gather D k := fun D hD => gather_congr fun x hx => by
      have hx' := hl x (hD x hx)
      rw [getD_bcastIdx _ _ _ (by omega) (by omega), hget x hx', if_pos (hD x hx)]
      have := (inRange_iff.1 hkr).2 x hx'
      split <;> omega
    have hA : InRange (gather A k) (gather A S) := gather_inRange hkr fun x hx => hl x (by simp [hx])
    have hB : InRange (gather B k) (gather A S) := by rw [he]; exact gather_inRange hkr fun x hx => hl x (by simp [hx])
    rw [reshape_get (eyeBool (gather A S).prod) shape (j := [ravel (gather A S) (gather A k), ravel (gather A S) (gather B k)])]
    · show decide (ravel (gather A S) (gather A k) = ravel (gather A S) (gather B k)) = _
      rw [decide_eq_decide]
      exact ⟨fun h => ravel_inj hA hB h, fun h => by rw [h]⟩
    · exact List.Forall₂.cons (ravel_lt hA) (List.Forall₂.cons (ravel_lt hB) List.Forall₂.nil)
    · rw [← keep_ravel p shape _ hin h1, hk, hf _ (by simp [bcastIdx, hlen, hkl]), gather_append, hg A (by simp +contextual), hg B (by simp +contextual),
        ravel_append hA.length]
      simp [ravel, eyeBool]

end NT.Rules
