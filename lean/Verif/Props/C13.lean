import Verif.Lemmas.Axes2

/-!
# C13: `make_2d` flattens paired axes to a matrix consistently
-/

namespace NT.C13
open NT Arr Spec

variable {α : Type*}

/-- The flattened array at (row-major index of `p`, row-major index of `q`) is the entry
at paired coordinates `(p1, q1, p2, q2, ...)`. -/
theorem make_2d_entries (x : Arr α) (L A B T : List Nat) (hx : x.shape = L ++ interleave A B ++ T)
    (hAB : A.length = B.length) :
    ∃ z, make2d x L.length (some (L.length + 2 * A.length)) = .ok z ∧
      z.shape = L ++ [A.prod, B.prod] ++ T ∧
      ∀ l p q t, InRange l L → InRange p A → InRange q B → InRange t T →
        z.get (l ++ [ravel A p, ravel B q] ++ t) = x.get (l ++ interleave p q ++ t) :=
  make2d_ok x L A B T hx hAB

/-- The row index enumerates positions bijectively: every row `r < prod A` is the row of exactly
one position. -/
theorem row_index_bijective (A : List Nat) (r : Nat) (hr : r < A.prod) :
    ∃! p, InRange p A ∧ ravel A p = r :=
  ⟨unravel A r, ⟨inRange_unravel hr, ravel_unravel hr⟩, fun p hp => by
    rw [← hp.2, unravel_ravel hp.1]⟩

/-- Rows and columns use the same enumeration, so transposing the matrix is swapping the
positions of each pair. -/
theorem make_2d_transpose (x y : Arr α) (A : List Nat) (hx : x.shape = interleave A A)
    (hy : y.shape = interleave A A)
    (hxy : ∀ p q, InRange p A → InRange q A → y.get (interleave p q) = x.get (interleave q p)) :
    ∃ zx zy, make2d x = .ok zx ∧ make2d y = .ok zy ∧
      ∀ r c, r < A.prod → c < A.prod → zy.get [r, c] = zx.get [c, r] := by
  obtain ⟨zx, h1, _, h3⟩ := make2d_ok x [] A A [] (by simpa using hx) rfl
  obtain ⟨zy, k1, _, k3⟩ := make2d_ok y [] A A [] (by simpa using hy) rfl
  have ex : x.ndim = 2 * A.length := by simp [ndim, hx, interleave_length]
  have ey : y.ndim = 2 * A.length := by simp [ndim, hy, interleave_length]
  have e1 : make2d x = make2d x 0 (some (0 + 2 * A.length)) := by
    simp [make2d, ex]
  have e2 : make2d y = make2d y 0 (some (0 + 2 * A.length)) := by
    simp [make2d, ey]
  refine ⟨zx, zy, e1.trans h1, e2.trans k1, ?_⟩
  intro r c hr hc
  have a1 := h3 [] (unravel A c) (unravel A r) [] (by simp) (inRange_unravel hc) (inRange_unravel hr)
    (by simp)
  have a2 := k3 [] (unravel A r) (unravel A c) [] (by simp) (inRange_unravel hr) (inRange_unravel hc)
    (by simp)
  simp only [List.nil_append, List.append_nil, ravel_unravel hr, ravel_unravel hc] at a1 a2
  rw [a1, a2]
  exact hxy _ _ (inRange_unravel hr) (inRange_unravel hc)

section Examples
/-- the docstring example: shape (1, 2, 3, 3, 4, 4) from axis 2 gives (1, 2, 12, 12) -/
example : ∃ z, make2d (⟨[1, 2, 3, 3, 4, 4], fun i => i⟩ : Arr (List Nat)) 2 (some 6) = .ok z ∧
    z.shape = [1, 2, 12, 12] ∧ z.get [0, 1, 2 * 4 + 3, 1 * 4 + 2] = [0, 1, 2, 1, 3, 2] := by
  obtain ⟨z, h1, h2, h3⟩ := make_2d_entries
    (⟨[1, 2, 3, 3, 4, 4], fun i => i⟩ : Arr (List Nat)) [1, 2] [3, 4] [3, 4] [] rfl rfl
  exact ⟨z, h1, h2, h3 [0, 1] [2, 3] [1, 2] [] (by decide) (by decide) (by decide) (by decide)⟩
end Examples

end NT.C13
