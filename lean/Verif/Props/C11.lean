import Verif.Lemmas.Axes2

/-!
# C11: `zip_axes` / `unzip_axes` interleave coordinates and are mutually inverse
-/

namespace NT.C11
open NT Arr Spec

variable {α : Type*}

/-- Zipping `(L, A, B, T) ↦ (L, A⋈B, T)`: shape and every entry. -/
theorem zip_axes_entries (x : Arr α) (L A B T : List Nat) (hx : x.shape = L ++ A ++ B ++ T)
    (hAB : A.length = B.length) :
    ∃ z, zipAxes x L.length (some (L.length + 2 * A.length)) = .ok z ∧
      z.shape = L ++ interleave A B ++ T ∧
      ∀ l p q t, InRange l L → InRange p A → InRange q B → InRange t T →
        z.get (l ++ interleave p q ++ t) = x.get (l ++ p ++ q ++ t) := by
  obtain ⟨z, h1, h2, h3⟩ := zipAxes_ok x L A B T hx hAB
  exact ⟨z, h1, h2, fun l p q t hl hp hq ht => h3 l p q t hl.length hp.length hq.length ht.length⟩

/-- Unzipping `(L, A⋈B, T) ↦ (L, A, B, T)`: shape and every entry. -/
theorem unzip_axes_entries (x : Arr α) (L A B T : List Nat) (hx : x.shape = L ++ interleave A B ++ T)
    (hAB : A.length = B.length) :
    ∃ z, unzipAxes x L.length (some (L.length + 2 * A.length)) = .ok z ∧
      z.shape = L ++ A ++ B ++ T ∧
      ∀ l p q t, InRange l L → InRange p A → InRange q B → InRange t T →
        z.get (l ++ p ++ q ++ t) = x.get (l ++ interleave p q ++ t) := by
  obtain ⟨z, h1, h2, h3⟩ := unzipAxes_ok x L A B T hx hAB
  exact ⟨z, h1, h2, fun l p q t hl hp hq ht => h3 l p q t hl.length hp.length hq.length ht.length⟩

/-- `end_axis = None` means the last axis. -/
theorem default_end (x : Arr α) (s : Nat) :
    zipAxes x s = zipAxes x s (some x.shape.length) ∧
    unzipAxes x s = unzipAxes x s (some x.shape.length) := ⟨rfl, rfl⟩

/-- Unzipping undoes zipping, for every array and all axes `s ≤ e ≤ ndim` with `e - s` even. -/
theorem unzip_zip (x : Arr α) (s h : Nat) (hle : s + 2 * h ≤ x.shape.length) :
    ∃ z w, zipAxes x s (some (s + 2 * h)) = .ok z ∧ unzipAxes z s (some (s + 2 * h)) = .ok w ∧
      w ≋ x := by
  obtain ⟨L, A, B, T, hx, rfl, rfl, hB⟩ := split_shape x.shape s h _ rfl hle
  obtain ⟨z, h1, h2, h3⟩ := zipAxes_ok x L A B T hx hB.symm
  obtain ⟨w, k1, k2, k3⟩ := unzipAxes_ok z L A B T h2 hB.symm
  refine ⟨z, w, h1, k1, k2.trans hx.symm, ?_⟩
  intro i hi
  rw [k2] at hi
  obtain ⟨i, t, rfl, hi, ht⟩ := inRange_append_right hi
  obtain ⟨i, q, rfl, hi, hq⟩ := inRange_append_right hi
  obtain ⟨l, p, rfl, hl, hp⟩ := inRange_append_right hi
  rw [k3 l p q t hl.length hp.length hq.length ht.length,
    h3 l p q t hl.length hp.length hq.length ht.length]

/-- Zipping undoes unzipping. -/
theorem zip_unzip (x : Arr α) (s h : Nat) (hle : s + 2 * h ≤ x.shape.length) :
    ∃ z w, unzipAxes x s (some (s + 2 * h)) = .ok z ∧ zipAxes z s (some (s + 2 * h)) = .ok w ∧
      w ≋ x := by
  obtain ⟨L, M, N, T, hx, rfl, rfl, hN⟩ := split_shape x.shape s h _ rfl hle
  obtain ⟨A, B, hA, hB, hAB⟩ := exists_interleave M.length (x := M ++ N) (by simp [hN]; omega)
  have hx' : x.shape = L ++ interleave A B ++ T := by rw [hx, ← hAB]; simp
  obtain ⟨z, h1, h2, h3⟩ := unzipAxes_ok x L A B T hx' (hA.trans hB.symm)
  obtain ⟨w, k1, k2, k3⟩ := zipAxes_ok z L A B T h2 (hA.trans hB.symm)
  rw [hA] at h1 k1
  refine ⟨z, w, h1, k1, k2.trans hx'.symm, ?_⟩
  intro i hi
  rw [k2] at hi
  obtain ⟨i, t, rfl, hi, ht⟩ := inRange_append_right hi
  obtain ⟨l, m, rfl, hl, hm⟩ := inRange_append_right hi
  obtain ⟨p, q, hp, hq, rfl⟩ := exists_interleave M.length (x := m) (by
    rw [hm.length, interleave_length (hA.trans hB.symm), hA])
  rw [k3 l p q t hl.length (by omega) (by omega) ht.length,
    h3 l p q t hl.length (by omega) (by omega) ht.length]

/-- An odd number of axes raises `ValueError`. -/
theorem odd_raises (x : Arr α) (s e : Nat) (hodd : (e - s) % 2 = 1) :
    zipAxes x s (some e) = .error .valueError ∧ unzipAxes x s (some e) = .error .valueError := by
  simp [zipAxes, unzipAxes, zipAxesCore, hodd]

/-! Non-vacuity: a 5-axis array with different sizes on all axes. -/
section Examples
def ex : Arr Nat := ofList [2, 2, 3, 2, 3] (List.range 72)

example : ∃ z, zipAxes ex 1 (some 5) = .ok z ∧ z.shape = [2, 2, 2, 3, 3] ∧
    z.get [1, 1, 0, 2, 1] = ex.get [1, 1, 2, 0, 1] := by
  obtain ⟨z, h1, h2, h3⟩ := zip_axes_entries ex [2] [2, 3] [2, 3] [] rfl rfl
  exact ⟨z, h1, h2, h3 [1] [1, 2] [0, 1] [] (by decide) (by decide) (by decide) (by decide)⟩

-- the layout is really permuted
example : ex.get [1, 1, 2, 0, 1] ≠ ex.get [1, 1, 0, 2, 1] := by decide

example : ∃ z w, zipAxes ex 1 (some 5) = .ok z ∧ unzipAxes z 1 (some 5) = .ok w ∧ w ≋ ex :=
  unzip_zip ex 1 2 (by decide)

example : zipAxes ex 0 (some 5) = .error .valueError := (odd_raises ex 0 5 rfl).1
end Examples

end NT.C11
