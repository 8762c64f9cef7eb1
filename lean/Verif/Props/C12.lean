import Verif.Lemmas.Axes2

/-!
# C12: reversing zipped spatial axes (array and shape level)

The `Kernel.reverse` part of C12 is in `Verif/Props/C12Kernel.lean`.
-/

namespace NT.C12
open NT Arr Spec

variable {α : Type*}

/-- `reverse_zipped(x, start)`: shape and every entry. -/
theorem reverse_zipped_entries (x : Arr α) (L A B : List Nat) (hx : x.shape = L ++ interleave A B)
    (hAB : A.length = B.length) :
    ∃ z, reverseZipped x L.length = .ok z ∧
      z.shape = L ++ interleave A.reverse B.reverse ∧
      ∀ l p q, InRange l L → InRange p A → InRange q B →
        z.get (l ++ interleave p.reverse q.reverse) = x.get (l ++ interleave p q) := by
  obtain ⟨z, h1, h2, h3⟩ := reverseZipped_ok x L A B hx hAB
  exact ⟨z, h1, h2, fun l p q hl hp hq => h3 l p q hl.length hp.length hq.length⟩

/-- Reversing twice is the identity, for any array with an even number of axes after `start`. -/
theorem reverse_zipped_involutive (x : Arr α) (s h : Nat) (hn : x.shape.length = s + 2 * h) :
    ∃ z w, reverseZipped x s = .ok z ∧ reverseZipped z s = .ok w ∧ w ≋ x := by
  obtain ⟨L, M, N, T, hx, rfl, rfl, hN⟩ := split_shape x.shape s h _ rfl (le_of_eq hn.symm)
  have hT : T = [] := by
    have := congrArg List.length hx
    simp [hN] at this
    have : T.length = 0 := by omega
    exact List.length_eq_zero_iff.1 this
  subst hT
  obtain ⟨A, B, hA, hB, hAB⟩ := exists_interleave M.length (x := M ++ N) (by simp [hN]; omega)
  have hx' : x.shape = L ++ interleave A B := by rw [hx, ← hAB]; simp
  obtain ⟨z, h1, h2, h3⟩ := reverseZipped_ok x L A B hx' (hA.trans hB.symm)
  obtain ⟨w, k1, k2, k3⟩ := reverseZipped_ok z L A.reverse B.reverse h2 (by simp [hA, hB])
  refine ⟨z, w, h1, k1, ?_, ?_⟩
  · rw [k2, hx']; simp
  · intro i hi
    rw [k2] at hi
    simp only [List.reverse_reverse] at hi
    obtain ⟨l, m, rfl, hl, hm⟩ := inRange_append_right hi
    obtain ⟨p, q, hp, hq, rfl⟩ := exists_interleave M.length (x := m) (by
      rw [hm.length, interleave_length (hA.trans hB.symm), hA])
    have := k3 l p.reverse q.reverse hl.length (by simp; omega) (by simp; omega)
    simp only [List.reverse_reverse] at this
    rw [this, h3 l p q hl.length (by omega) (by omega)]

/-- On shapes the same function gives the shape of the reversed array. -/
theorem reverse_zipped_shape_agrees (x : Arr α) (L A B : List Nat)
    (hx : x.shape = L ++ interleave A B) (hAB : A.length = B.length) :
    ∃ z, reverseZipped x L.length = .ok z ∧ z.shape = reverseZippedList x.shape L.length := by
  obtain ⟨z, h1, h2, _⟩ := reverseZipped_ok x L A B hx hAB
  exact ⟨z, h1, by rw [h2, hx, reverseZippedList_eq _ _ _ hAB]⟩

/-- On lists (shapes, einsum labels): pairs come out in reverse order. -/
theorem reverse_zipped_list {β : Type*} [Inhabited β] (L A B : List β) (hAB : A.length = B.length) :
    reverseZippedList (L ++ interleave A B) L.length = L ++ interleave A.reverse B.reverse :=
  reverseZippedList_eq L A B hAB

/-- An odd number of axes raises `ValueError`. -/
theorem odd_raises (x : Arr α) (s : Nat) (hodd : (x.shape.length - s) % 2 = 1) :
    reverseZipped x s = .error .valueError := by
  unfold reverseZipped
  rw [if_pos]
  have h : (reverseSource x.ndim s).length = 2 * ((x.ndim - s) / 2) := by
    simp [reverseSource, List.length_flatMap, Function.comp_def, Nat.mul_comm]
  rw [h, pyRange_one, List.length_range']
  simp only [ndim]
  omega

section Examples
def ex : Arr Nat := ofList [2, 1, 3, 2, 2] (List.range 24)

example : ∃ z, reverseZipped ex 1 = .ok z ∧ z.shape = [2, 2, 2, 1, 3] ∧
    z.get [1, 0, 1, 0, 2] = ex.get [1, 0, 2, 0, 1] := by
  obtain ⟨z, h1, h2, h3⟩ := reverse_zipped_entries ex [2] [1, 2] [3, 2] rfl rfl
  exact ⟨z, h1, h2, h3 [1] [0, 0] [2, 1] (by decide) (by decide) (by decide)⟩

example : ∃ z w, reverseZipped ex 1 = .ok z ∧ reverseZipped z 1 = .ok w ∧ w ≋ ex :=
  reverse_zipped_involutive ex 1 2 rfl

example : reverseZippedList [7, 8, 1, 2, 3, 4, 5, 6] 2 = [7, 8, 5, 6, 3, 4, 1, 2] := by decide

example : reverseZipped ex 0 = .error .valueError := odd_raises ex 0 rfl
end Examples

end NT.C12
