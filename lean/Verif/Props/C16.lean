import Verif.Model.Utils
import Verif.Tac

/-!
# C16: axis canonicalisation
-/

namespace NT.C16
open NT Utils

/-- The (possibly negative) axis specification `i` denotes dimension `d` of an array with `n`
dimensions: it counts from the start or from the end. -/
def Denotes (n : ℕ) (i : ℤ) (d : ℕ) : Prop := d < n ∧ (i = d ∨ i = (d : ℤ) - n)

/-- `mod` of a valid axis is the non-negative axis denoting the same dimension, position by
position. -/
theorem mod_denotes (axis : List ℤ) (n k d : ℕ) (i : ℤ) (hk : axis[k]? = some i)
    (hi : Denotes n i d) : (mod axis n)[k]? = some (d : ℤ) ∧ (mod axis n).length = axis.length := by
  obtain ⟨hd, hi⟩ := hi
  have hn : 0 < n := by omega
  refine ⟨?_, by simp [mod]⟩
  simp only [mod, List.getElem?_map, hk, Option.map_some, gt_iff_lt, hn, if_true, Option.some.injEq]
  rcases hi with rfl | rfl
  · exact Int.emod_eq_of_lt (by omega) (by omega)
  · rw [Int.sub_emod_right]
    exact Int.emod_eq_of_lt (by omega) (by omega)

lemma arangeAt_ok {n : ℕ} {i : ℤ} {d : ℕ} : arangeAt n i = .ok d ↔ Denotes n i d := by
  unfold arangeAt Denotes
  split_ifs with h1 h2
  · simp only [Except.ok.injEq]; omega
  · simp only [Except.ok.injEq]; omega
  · simp only [false_iff]; omega

lemma arangeAt_error {n : ℕ} {i : ℤ} (h : ¬ ∃ d, Denotes n i d) :
    arangeAt n i = .error .indexError := by
  cases e : arangeAt n i with
  | ok d => exact absurd ⟨d, arangeAt_ok.1 e⟩ h
  | error x =>
    unfold arangeAt at e
    split_ifs at e
    simpa using e.symm

lemma mapM_cases (n : ℕ) (axis : List ℤ) :
    ((∀ i ∈ axis, ∃ d, Denotes n i d) ∧ ∃ l, axis.mapM (arangeAt n) = .ok l ∧
        ∀ d, d ∈ l ↔ ∃ i ∈ axis, Denotes n i d) ∨
    ((∃ i ∈ axis, ¬ ∃ d, Denotes n i d) ∧ axis.mapM (arangeAt n) = .error .indexError) := by
  induction axis with
  | nil => left; exact ⟨by simp, [], by simp [pure, Except.pure], by simp⟩
  | cons i axis ih =>
    by_cases hi : ∃ d, Denotes n i d
    · obtain ⟨d, hd⟩ := hi
      have e := arangeAt_ok.2 hd
      rcases ih with ⟨h1, l, hl, h2⟩ | ⟨h1, h2⟩
      · left
        refine ⟨by simpa using ⟨⟨d, hd⟩, h1⟩, d :: l, ?_, ?_⟩
        · rw [List.mapM_cons, e, hl]; rfl
        · intro d'
          simp only [List.mem_cons, h2]
          constructor
          · rintro (rfl | ⟨j, hj, hj'⟩)
            · exact ⟨i, .inl rfl, hd⟩
            · exact ⟨j, .inr hj, hj'⟩
          · rintro ⟨j, rfl | hj, hj'⟩
            · left
              unfold Denotes at hj' hd
              omega
            · exact .inr ⟨j, hj, hj'⟩
      · right
        obtain ⟨j, hj, hj'⟩ := h1
        refine ⟨⟨j, by simp [hj], hj'⟩, ?_⟩
        rw [List.mapM_cons, e, h2]; rfl
    · right
      refine ⟨⟨i, by simp, hi⟩, ?_⟩
      rw [List.mapM_cons, arangeAt_error hi]; rfl

/-- `canonicalize_axis` of valid axes is the set of dimensions they denote (so it has no
repeats). -/
theorem canonicalizeAxis_denotes (axis : List ℤ) (n : ℕ) (h : ∀ i ∈ axis, ∃ d, Denotes n i d) :
    ∃ S, canonicalizeAxis axis n = .ok S ∧ ∀ d, d ∈ S ↔ ∃ i ∈ axis, Denotes n i d := by
  rcases mapM_cases n axis with ⟨_, l, hl, h2⟩ | ⟨⟨i, hi, hi'⟩, _⟩
  · refine ⟨l.toFinset, ?_, by simpa using h2⟩
    unfold canonicalizeAxis
    rw [hl]; rfl
  · exact absurd (h i hi) hi'

/-- An axis that denotes no dimension raises an `IndexError`. -/
theorem canonicalizeAxis_out_of_range (axis : List ℤ) (n : ℕ) (i : ℤ) (hi : i ∈ axis)
    (h : i < -(n : ℤ) ∨ (n : ℤ) ≤ i) : canonicalizeAxis axis n = .error .indexError := by
  rcases mapM_cases n axis with ⟨h1, _⟩ | ⟨_, h2⟩
  · obtain ⟨d, hd⟩ := h1 i hi
    unfold Denotes at hd
    omega
  · unfold canonicalizeAxis
    rw [h2]; rfl

/-- `mod` agrees with `canonicalize_axis` on valid axes. -/
theorem mod_mem_canonicalizeAxis (axis : List ℤ) (n : ℕ) (h : ∀ i ∈ axis, ∃ d, Denotes n i d)
    (S : Finset ℕ) (hS : canonicalizeAxis axis n = .ok S) (d : ℕ) :
    d ∈ S ↔ (d : ℤ) ∈ mod axis n := by
  obtain ⟨S', h1, h2⟩ := canonicalizeAxis_denotes axis n h
  rw [hS] at h1
  cases h1
  rw [h2, List.mem_iff_getElem?]
  constructor
  · rintro ⟨i, hi, hd⟩
    obtain ⟨k, hk⟩ := List.mem_iff_getElem?.1 hi
    exact ⟨k, (mod_denotes axis n k d i hk hd).1⟩
  · rintro ⟨k, hk⟩
    have hlen : k < axis.length := by
      have := (List.getElem?_eq_some_iff.1 hk).1
      simpa [mod] using this
    have hk' : axis[k]? = some axis[k] := by simp [hlen]
    obtain ⟨d', hd'⟩ := h axis[k] (by simp)
    have := (mod_denotes axis n k d' _ hk' hd').1
    rw [hk] at this
    have e : d = d' := by simpa using this
    exact ⟨axis[k], by simp, e ▸ hd'⟩

section Examples
example : ∃ d, Denotes 4 (-1) d := ⟨3, by unfold Denotes; norm_num⟩
example : mod [-1, 0, 2] 4 = [3, 0, 2] := by decide
example : canonicalizeAxis [-1, 0, 3] 4 = .ok {0, 3} := by decide
example : canonicalizeAxis [-1, 4] 4 = .error .indexError := by decide
end Examples

end NT.C16
