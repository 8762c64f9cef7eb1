import Verif.Model.Utils
import Verif.Tac

/-!
# C20: dropout key discipline
-/

namespace NT.C20
open NT Utils

variable {K : Type} [DecidableEq K]

/-- Numerical equality of the inputs: `x2` is absent, or has the same shape and is closer than `eps`
to `x1` everywhere. -/
def SameInputs (eps : ℝ) (x1 : Arr ℝ) : Option (Arr ℝ) → Prop
  | none => True
  | some x2 => x1.shape = x2.shape ∧ ∀ i, InRange i x1.shape → |x1.get i - x2.get i| < eps

lemma x1IsX2_iff (eps : ℝ) (x1 : Arr ℝ) (x2 : Option (Arr ℝ)) :
    x1IsX2 eps x1 x2 = true ↔ SameInputs eps x1 x2 := by
  cases x2 with
  | none => simp [x1IsX2, SameInputs]
  | some x2 =>
    simp only [x1IsX2, SameInputs]
    split_ifs with h <;> simp [h]

/-- The key for `x1` is the user's (first) key, and the keys for `x1` and `x2` are equal exactly if
the inputs are. -/
theorem keys_equal_iff (foldIn : K → ℕ → K) (hfold : ∀ k, foldIn k 1 ≠ k) (eps : ℝ) (key : UserKey K)
    (k1 : K) (hkey : key = .single k1 ∨ ∃ k2, key = .pair k1 k2) (x1 x2 : Arr ℝ) :
    ∃ k2', readKeys foldIn eps key x1 (some x2) = .ok (.single k1, .single k2') ∧
      (k1 = k2' ↔ SameInputs eps x1 (some x2)) := by
  rcases hkey with rfl | ⟨k2, rfl⟩
  · refine ⟨_, by simp [readKeys]; rfl, ?_⟩
    rw [← x1IsX2_iff]
    split_ifs with h
    · simp [h]
    · simp [h, (hfold k1).symm]
  · refine ⟨_, by simp [readKeys]; rfl, ?_⟩
    rw [← x1IsX2_iff]
    split_ifs with h hk
    · simp [h]
    · subst hk; simp [h, (hfold k1).symm]
    · simp [h, hk]

/-- Without `x2`, or without a key, both get what the user passed. -/
theorem keys_equal_of_none (foldIn : K → ℕ → K) (eps : ℝ) (key : UserKey K) (x1 : Arr ℝ)
    (x2 : Option (Arr ℝ)) (h : x2 = none ∨ key = .none) :
    readKeys foldIn eps key x1 x2 = .ok (key, key) := by
  rcases h with rfl | rfl <;> simp [readKeys]

/-- The key of `x2` depends on the user's keys and on whether the inputs are equal, on nothing else:
equal inputs give equal keys, whatever pair of keys was passed. -/
theorem second_key_of_equal (foldIn : K → ℕ → K) (eps : ℝ) (k1 k2 : K) (x1 x2 : Arr ℝ)
    (h : SameInputs eps x1 (some x2)) :
    readKeys foldIn eps (.pair k1 k2) x1 (some x2) = .ok (.single k1, .single k1) := by
  rw [← x1IsX2_iff] at h
  simp [readKeys, h]

/-- A pair of different keys is used as it is for different inputs. -/
theorem second_key_of_different (foldIn : K → ℕ → K) (eps : ℝ) (k1 k2 : K) (hk : k1 ≠ k2)
    (x1 x2 : Arr ℝ) (h : ¬ SameInputs eps x1 (some x2)) :
    readKeys foldIn eps (.pair k1 k2) x1 (some x2) = .ok (.single k1, .single k2) := by
  rw [← x1IsX2_iff] at h
  simp [readKeys, h, hk]

/-- Anything else raises a `TypeError`. -/
theorem other_raises (foldIn : K → ℕ → K) (eps : ℝ) (x1 x2 : Arr ℝ) :
    readKeys foldIn eps .other x1 (some x2) = .error .typeError := by
  simp [readKeys]

section Examples
/-- Keys are numbers, `fold_in` multiplies and adds; the inputs differ at one place. -/
example : readKeys (fun k n => 2 * k + n) 1 (.single 5) ⟨[2], fun _ => 0⟩ (some ⟨[2], fun _ => 3⟩) =
    .ok (.single 5, .single 11) := by
  have : ¬ SameInputs 1 ⟨[2], fun _ => 0⟩ (some ⟨[2], fun _ => 3⟩) := by
    rintro ⟨_, h⟩
    have := h [0] (by unfold InRange; simp)
    norm_num at this
  rw [← x1IsX2_iff] at this
  simp [readKeys, this]
example : ∀ k : ℕ, 2 * k + 1 ≠ k := by intro k; omega
end Examples

end NT.C20
