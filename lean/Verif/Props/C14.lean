import Verif.Lemmas.Axes2

/-!
# C14: `diagonal_between` takes the joint diagonal
-/

namespace NT.C14
open NT Arr

variable {α : Type*}

/-- `diagonal_between` on `(L, A, A, T)`: shape `(L, A, T)` and entry `(l, p, t)` is the input's
`(l, p, p, t)`. -/
theorem diagonal_between_entries (x : Arr α) (L A T : List Nat) (hx : x.shape = L ++ A ++ A ++ T) :
    ∃ z, diagonalBetween x L.length (some (L.length + 2 * A.length)) = .ok z ∧
      z.shape = L ++ A ++ T ∧
      ∀ l p t, InRange l L → InRange p A → InRange t T →
        z.get (l ++ p ++ t) = x.get (l ++ p ++ p ++ t) :=
  diagonalBetween_ok x L A T hx

theorem odd_raises (x : Arr α) (s e : Nat) (hodd : (e - s) % 2 = 1) :
    diagonalBetween x s (some e) = .error .valueError := by
  simp [diagonalBetween, hodd]

section Examples
example : ∃ z, diagonalBetween (⟨[5, 2, 3, 2, 3, 4], fun i => i⟩ : Arr (List Nat)) 1 (some 5) = .ok z ∧
    z.shape = [5, 2, 3, 4] ∧ z.get [4, 1, 2, 3] = [4, 1, 2, 1, 2, 3] := by
  obtain ⟨z, h1, h2, h3⟩ := diagonal_between_entries
    (⟨[5, 2, 3, 2, 3, 4], fun i => i⟩ : Arr (List Nat)) [5] [2, 3] [4] rfl
  exact ⟨z, h1, h2, h3 [4] [1, 2] [3] (by decide) (by decide) (by decide)⟩

example : diagonalBetween (⟨[2, 2, 2], fun i => i⟩ : Arr (List Nat)) 0 (some 3) = .error .valueError :=
  odd_raises _ 0 3 rfl
end Examples

end NT.C14
