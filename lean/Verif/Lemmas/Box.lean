import Verif.Spec.Box
import Verif.Lemmas.Layout
import Verif.Lemmas.Dot
import Verif.Lemmas.Act
import Mathlib.Algebra.BigOperators.Ring.Finset
import Mathlib.Data.Fintype.BigOperators
import Verif.Tac

/-!
Sums over the positions of an array.
-/

namespace NT
open Arr Spec

variable {M : Type*} [AddCommMonoid M]

lemma mem_box {s p : List ℕ} : p ∈ box s ↔ InRange p s := by simp [box, mem_indices]

lemma sumOver_eq_box {α : Type} [AddCommMonoid α] (s : List ℕ) (f : List ℕ → α) :
    sumOver s f = ∑ p ∈ box s, f p := by
  unfold sumOver box
  rw [List.sum_toFinset _ (nodup_indices s)]

lemma box_nil : box [] = {[]} := by simp [box, indices]

@[simp] lemma sum_box_nil (f : List ℕ → M) : ∑ p ∈ box [], f p = f [] := by simp [box_nil]

lemma box_sum_append (A B : List ℕ) (f : List ℕ → M) :
    ∑ i ∈ box (A ++ B), f i = ∑ p ∈ box A, ∑ q ∈ box B, f (p ++ q) := by
  rw [← Finset.sum_product']
  refine Finset.sum_nbij' (fun i => (i.take A.length, i.drop A.length)) (fun x => x.1 ++ x.2) ?_ ?_ ?_ ?_ ?_
  · intro i hi
    rw [mem_box] at hi
    obtain ⟨l, m, rfl, hl, hm⟩ := inRange_append_right hi
    simp only [Finset.mem_product, mem_box]
    rw [← hl.length, List.take_left', List.drop_left'] <;> simp [hl, hm]
  · rintro ⟨p, q⟩ h
    simp only [Finset.mem_product, mem_box] at h ⊢
    rw [inRange_append h.1.length]
    exact h
  · intro i _; simp
  · rintro ⟨p, q⟩ h
    simp only [Finset.mem_product, mem_box] at h
    simp only [Prod.mk.injEq]
    rw [← h.1.length, List.take_left', List.drop_left'] <;> simp
  · intro i _; simp

lemma box_sum_cons (n : ℕ) (B : List ℕ) (f : List ℕ → M) :
    ∑ i ∈ box (n :: B), f i = ∑ t ∈ Finset.range n, ∑ q ∈ box B, f (t :: q) := by
  rw [← Finset.sum_product']
  refine Finset.sum_nbij' (fun i => (i.headD 0, i.tail)) (fun x => x.1 :: x.2) ?_ ?_ ?_ ?_ ?_
  · intro i hi
    rw [mem_box, inRange_cons_right] at hi
    obtain ⟨a, l, rfl, ha, hl⟩ := hi
    simp only [Finset.mem_product, mem_box, Finset.mem_range]
    exact ⟨ha, hl⟩
  · rintro ⟨p, q⟩ h
    simp only [Finset.mem_product, mem_box, Finset.mem_range] at h ⊢
    exact inRange_cons.2 h
  · intro i hi
    rw [mem_box, inRange_cons_right] at hi
    obtain ⟨a, l, rfl, ha, hl⟩ := hi
    rfl
  · rintro ⟨p, q⟩ h; rfl
  · intro i hi
    rw [mem_box, inRange_cons_right] at hi
    obtain ⟨a, l, rfl, ha, hl⟩ := hi
    rfl

lemma box_sum_singleton (n : ℕ) (f : List ℕ → M) : ∑ i ∈ box [n], f i = ∑ t ∈ Finset.range n, f [t] := by
  rw [box_sum_cons]; simp

lemma box_sum_reverse (A : List ℕ) (f : List ℕ → M) :
    ∑ i ∈ box A.reverse, f i = ∑ p ∈ box A, f p.reverse := by
  refine Finset.sum_nbij' List.reverse List.reverse ?_ ?_ ?_ ?_ ?_
  · intro i hi
    rw [mem_box] at *
    rw [← inRange_reverse]; simpa using hi
  · intro i hi
    rw [mem_box] at *
    rw [← inRange_reverse]; simpa using hi
  all_goals simp

lemma box_sum_rv (rev : Bool) (A : List ℕ) (f : List ℕ → M) :
    ∑ i ∈ box (rv rev A), f i = ∑ p ∈ box A, f (rv rev p) := by
  unfold rv
  cases rev
  · simp
  · simpa using box_sum_reverse A f

lemma inRange_insertIdx {p S : List ℕ} {k i n : ℕ} (h : p.length = S.length) (hk : k ≤ S.length) :
    InRange (p.insertIdx k i) (S.insertIdx k n) ↔ i < n ∧ InRange p S := by
  rw [insertIdx_app p k i (by omega), insertIdx_app S k n hk]
  have e : (p.take k).length = (S.take k).length := by simp [h]
  rw [inRange_append e, inRange_cons]
  conv_rhs => rw [← List.take_append_drop k p, ← List.take_append_drop k S, inRange_append e]
  tauto

lemma inRange_insertIdx_right {j S : List ℕ} {k n : ℕ} (hk : k ≤ S.length) (h : InRange j (S.insertIdx k n)) :
    ∃ i p, j = p.insertIdx k i ∧ i < n ∧ InRange p S := by
  have hl : j.length = S.length + 1 := by
    rw [h.length, List.length_insertIdx, if_pos hk]
  have e : j = (j.eraseIdx k).insertIdx k (j.getD k 0) := by
    rw [List.getD_eq_getElem?_getD, List.getElem?_eq_getElem (by omega), Option.getD_some,
      List.insertIdx_eraseIdx_getElem (by omega)]
  rw [e, inRange_insertIdx (by rw [List.length_eraseIdx, if_pos (by omega), hl]; rfl) hk] at h
  exact ⟨_, _, e, h.1, h.2⟩

lemma box_sum_insertIdx (S : List ℕ) (k n : ℕ) (hk : k ≤ S.length) (f : List ℕ → M) :
    ∑ j ∈ box (S.insertIdx k n), f j = ∑ i ∈ Finset.range n, ∑ p ∈ box S, f (p.insertIdx k i) := by
  rw [← Finset.sum_product']
  symm
  refine Finset.sum_nbij (fun x => x.2.insertIdx k x.1) ?_ ?_ ?_ ?_
  · rintro ⟨i, p⟩ h
    simp only [Finset.mem_product, mem_box, Finset.mem_range] at h ⊢
    rw [inRange_insertIdx h.2.length hk]
    exact h
  · rintro ⟨i, p⟩ h ⟨i', p'⟩ h' e
    simp only [Finset.coe_product, Set.mem_prod, Finset.mem_coe, mem_box, Finset.mem_range] at h h'
    dsimp only at e h h'
    have h1 := h.2.length
    have h2 := h'.2.length
    have e1 := congrArg (fun l => l.eraseIdx k) e
    simp only [List.eraseIdx_insertIdx_self] at e1
    subst e1
    have e2 := congrArg (fun l => l[k]?) e
    simp only [List.getElem?_insertIdx_self] at e2
    rw [if_pos (by omega), if_pos (by omega)] at e2
    simp only [Option.some.injEq] at e2
    rw [e2]
  · intro j hj
    simp only [Finset.mem_coe, mem_box] at hj
    obtain ⟨i, p, rfl, hi, hp⟩ := inRange_insertIdx_right hk hj
    exact ⟨(i, p), by simpa [mem_box] using ⟨hi, hp⟩, rfl⟩
  · intros; rfl

lemma box_sum_interleave (A B : List ℕ) (h : A.length = B.length) (f : List ℕ → M) :
    ∑ i ∈ box (interleave A B), f i = ∑ p ∈ box A, ∑ q ∈ box B, f (interleave p q) := by
  rw [← Finset.sum_product']
  refine Finset.sum_nbij' (fun i => (evens i, odds i)) (fun x => interleave x.1 x.2) ?_ ?_ ?_ ?_ ?_
  · intro i hi
    rw [mem_box] at hi
    obtain ⟨p, q, hp, hq, rfl⟩ := exists_interleave A.length (x := i) (by rw [hi.length, interleave_length h])
    rw [inRange_interleave hp (by omega) h] at hi
    simp only [Finset.mem_product, mem_box]
    rw [evens_interleave (by omega), odds_interleave (by omega)]
    exact hi
  · rintro ⟨p, q⟩ hx
    simp only [Finset.mem_product, mem_box] at hx ⊢
    rw [inRange_interleave hx.1.length hx.2.length h]
    exact hx
  · intro i hi
    rw [mem_box] at hi
    obtain ⟨p, q, hp, hq, rfl⟩ := exists_interleave A.length (x := i) (by rw [hi.length, interleave_length h])
    dsimp only
    rw [evens_interleave (by omega), odds_interleave (by omega)]
  · rintro ⟨p, q⟩ hx
    simp only [Finset.mem_product, mem_box] at hx
    have := hx.1.length
    have := hx.2.length
    dsimp only
    rw [evens_interleave (by omega), odds_interleave (by omega)]
  · intro i hi
    rw [mem_box] at hi
    obtain ⟨p, q, hp, hq, rfl⟩ := exists_interleave A.length (x := i) (by rw [hi.length, interleave_length h])
    dsimp only
    rw [evens_interleave (by omega), odds_interleave (by omega)]

/-- Sum over row-major numbers. -/
lemma box_sum_ravel (S : List ℕ) (f : List ℕ → M) :
    ∑ k ∈ Finset.range S.prod, f (unravel S k) = ∑ p ∈ box S, f p := by
  refine Finset.sum_nbij' (unravel S) (ravel S) ?_ ?_ ?_ ?_ ?_
  · intro k hk
    rw [mem_box]; exact inRange_unravel (Finset.mem_range.1 hk)
  · intro p hp
    rw [mem_box] at hp
    exact Finset.mem_range.2 (ravel_lt hp)
  · intro k hk
    exact ravel_unravel (Finset.mem_range.1 hk)
  · intro p hp
    rw [mem_box] at hp
    exact unravel_ravel hp
  · intros; rfl

lemma box_card (S : List ℕ) : (box S).card = S.prod := by
  have := box_sum_ravel (M := ℕ) S (fun _ => 1)
  simpa using this.symm

end NT
