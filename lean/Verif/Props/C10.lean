import Verif.Model.MonteCarlo
import Mathlib.Tactic.Linarith

/-!
# C10: validation of `n_samples`
-/

namespace NT.C10
open NT MonteCarlo

/-- What counts as a valid request: a positive integer, or an iterable of positive integers. -/
def Valid : NSamples → Prop
  | .int n => 1 ≤ n
  | .iter l => ∀ e ∈ l, ∃ n : ℤ, e = .int n ∧ 1 ≤ n
  | .other => False

/-- The requested counts. -/
def Requests : NSamples → ℤ → Prop
  | .int n, m => m = n
  | .iter l, m => Elem.int m ∈ l
  | .other, _ => False

/-- An invalid request raises. -/
theorem invalid_raises (s : NSamples) (h : ¬ Valid s) : ∃ e, canonicalize s = .error e := by
  cases s with
  | int n =>
    simp only [Valid, not_le] at h
    refine ⟨.valueError, ?_⟩
    have : n ≤ 0 := by omega
    simp [canonicalize, Elem.isInt, Elem.val, this]
  | iter l =>
    refine ⟨.valueError, ?_⟩
    simp only [Valid, not_forall] at h
    obtain ⟨e, he, h⟩ := h
    simp only [canonicalize]
    by_cases h1 : l.all Elem.isInt
    · by_cases h2 : l.any fun e => decide (e.val ≤ 0)
      · simp [h1, h2]
      exfalso
      simp only [List.all_eq_true] at h1
      simp only [List.any_eq_true, decide_eq_true_eq, not_exists, not_and, not_le] at h2
      cases e with
      | nonInt => simpa [Elem.isInt] using h1 _ he
      | int n =>
        have : 0 < n := by simpa [Elem.val] using h2 _ he
        exact h ⟨n, rfl, by omega⟩
    · simp [h1]
  | other => exact ⟨.typeError, rfl⟩

/-- A valid request is normalised to the set of the requested counts, all positive, together with
the flag telling whether a generator was asked for. -/
theorem valid_normalises (s : NSamples) (h : Valid s) :
    ∃ ns g, canonicalize s = .ok (ns, g) ∧ (∀ m, m ∈ ns ↔ Requests s m) ∧ (∀ m ∈ ns, 1 ≤ m) ∧
      (g = true ↔ ∃ l, s = .iter l) := by
  cases s with
  | int n =>
    simp only [Valid] at h
    have : ¬ n ≤ 0 := by omega
    refine ⟨{n}, false, by simp [canonicalize, Elem.isInt, Elem.val, this], ?_, ?_, ?_⟩
    · simp [Requests]
    · simpa using h
    · simp
  | iter l =>
    simp only [Valid] at h
    refine ⟨(l.map Elem.val).toFinset, true, ?_, ?_, ?_, by simp⟩
    · simp only [canonicalize]
      rw [if_neg, if_neg]
      · simp only [List.any_eq_true, decide_eq_true_eq, not_exists, not_and, not_le]
        intro e he
        obtain ⟨n, rfl, hn⟩ := h e he
        simp only [Elem.val]; omega
      · simp only [not_not, List.all_eq_true]
        intro e he
        obtain ⟨n, rfl, hn⟩ := h e he
        rfl
    · intro m
      simp only [List.mem_toFinset, List.mem_map, Requests]
      constructor
      · rintro ⟨e, he, rfl⟩
        obtain ⟨n, rfl, hn⟩ := h e he
        exact he
      · intro hm
        exact ⟨_, hm, rfl⟩
    · intro m hm
      simp only [List.mem_toFinset, List.mem_map] at hm
      obtain ⟨e, he, rfl⟩ := hm
      obtain ⟨n, rfl, hn⟩ := h e he
      exact hn
  | other => exact absurd h id

section Examples
example : ∃ e, canonicalize (.iter [.int 3, .int 0]) = .error e :=
  invalid_raises _ (by simp [Valid])
example : ∃ ns g, canonicalize (.iter [.int 3, .int 1, .int 3]) = .ok (ns, g) ∧
    (∀ m, m ∈ ns ↔ Requests (.iter [.int 3, .int 1, .int 3]) m) ∧ (∀ m ∈ ns, 1 ≤ m) ∧
    (g = true ↔ ∃ l, NSamples.iter [.int 3, .int 1, .int 3] = .iter l) :=
  valid_normalises _ (by simp [Valid])
example : canonicalize (.iter [.int 3, .nonInt]) = .error .valueError := rfl
end Examples

end NT.C10
