import Verif.Model.MonteCarlo
import Mathlib.Algebra.BigOperators.Group.Finset.Basic
import Verif.Tac

/-!
# C08: Monte Carlo estimate is the exact mean of the draws
-/

namespace NT.C08
open NT MonteCarlo

variable {Key V : Type} [AddCommGroup V] [Module ℝ V]

/-- Specification: key of draw `i`: split off after advancing the main key `i` times. -/
def drawKey (split : Key → Key × Key) (key : Key) (i : ℕ) : Key :=
  (split ((fun k => (split k).1)^[i] key)).2

/-- Specification: arithmetic mean of the first `n` single-draw kernels. -/
noncomputable def meanOfDraws (split : Key → Key × Key) (once : Key → V) (key : Key) (n : ℕ) : V :=
  (1 / (n : ℝ)) • ∑ i ∈ Finset.range n, once (drawKey split key i)

lemma drawKey_succ (split : Key → Key × Key) (key : Key) (i : ℕ) :
    drawKey split (split key).1 i = drawKey split key (i + 1) := by
  simp [drawKey, Function.iterate_succ_apply]

/-- The loop started with partial sum `s` after `m` draws. -/
lemma samplesFrom_some (split : Key → Key × Key) (once : Key → V) (fuel m : ℕ) (key : Key) (s : V) :
    samplesFrom split once fuel m key (some s) =
      (List.range fuel).map fun t =>
        (m + t, s + ∑ i ∈ Finset.range (t + 1), once (drawKey split key i)) := by
  induction fuel generalizing m key s with
  | zero => rfl
  | succ fuel ih =>
    rw [List.range_succ_eq_map]
    simp only [samplesFrom, List.map_cons, List.map_map]
    rw [ih]
    congr 1
    · simp [drawKey]
    · apply List.map_congr_left
      intro t _
      simp only [Function.comp, Prod.mk.injEq]
      refine ⟨by omega, ?_⟩
      rw [Finset.sum_range_succ' _ (t + 1)]
      simp only [drawKey_succ]
      have : once (split key).2 = once (drawKey split key 0) := rfl
      rw [this]
      abel

lemma getSamples_eq (split : Key → Key × Key) (once : Key → V) (key : Key) (n : ℕ) :
    getSamples split once key n = (List.range n).map fun t =>
      (t + 1, ∑ i ∈ Finset.range (t + 1), once (drawKey split key i)) := by
  unfold getSamples
  cases n with
  | zero => rfl
  | succ n =>
    rw [List.range_succ_eq_map]
    simp only [samplesFrom, List.map_cons, List.map_map, samplesFrom_some]
    congr 1
    · simp [drawKey]
    · apply List.map_congr_left
      intro t _
      simp only [Function.comp, Prod.mk.injEq]
      refine ⟨by omega, ?_⟩
      rw [Finset.sum_range_succ' _ (t + 1)]
      simp only [drawKey_succ]
      have : once (split key).2 = once (drawKey split key 0) := rfl
      rw [this]
      abel

/-- With `n_samples = n ≥ 1` the estimate is the mean of the `n` single-draw kernels. -/
theorem estimate_is_mean (split : Key → Key × Key) (once : Key → V) (key : Key) (n : ℕ)
    (hn : 1 ≤ n) : sampledKernel split once key n = .ok (meanOfDraws split once key n) := by
  unfold sampledKernel
  rw [getSamples_eq]
  obtain ⟨m, rfl⟩ : ∃ m, n = m + 1 := ⟨n - 1, by omega⟩
  rw [List.range_succ, List.map_append]
  simp [normalize, meanOfDraws]

/-- In particular, if every draw gives the same kernel, that kernel is returned. -/
theorem constant_draws (split : Key → Key × Key) (v : V) (key : Key) (n : ℕ) (hn : 1 ≤ n) :
    sampledKernel split (fun _ => v) key n = .ok v := by
  rw [estimate_is_mean _ _ _ _ hn]
  have h0 : (n : ℝ) ≠ 0 := by positivity
  simp only [meanOfDraws, Finset.sum_const, Finset.card_range, ← Nat.cast_smul_eq_nsmul ℝ, smul_smul]
  rw [one_div, inv_mul_cancel₀ h0, one_smul]

/-- The running mean: the estimate with one more draw is the weighted combination of the previous
estimate and the new draw. -/
theorem running_mean (split : Key → Key × Key) (once : Key → V) (key : Key) (n : ℕ) (hn : 1 ≤ n)
    (v w : V) (hv : sampledKernel split once key n = .ok v)
    (hw : sampledKernel split once key (n + 1) = .ok w) :
    w = ((n : ℝ) / (n + 1)) • v + (1 / ((n : ℝ) + 1)) • once (drawKey split key n) := by
  rw [estimate_is_mean _ _ _ _ hn] at hv
  rw [estimate_is_mean _ _ _ _ (by omega)] at hw
  cases hv
  cases hw
  have h0 : (n : ℝ) ≠ 0 := by positivity
  have h1 : (n : ℝ) + 1 ≠ 0 := by positivity
  simp only [meanOfDraws, Finset.sum_range_succ, smul_add, smul_smul]
  push_cast
  congr 2
  field_simp

section Examples
/-- Keys are naturals, `split k = (k + 1, 10 * k)`, a draw is the key itself: draws 10, 20, 30. -/
example : sampledKernel (V := ℝ) (fun k : ℕ => (k + 1, 10 * k)) (fun k => (k : ℝ)) 1 3 = .ok 20 := by
  rw [estimate_is_mean _ _ _ _ (by norm_num)]
  norm_num [meanOfDraws, Finset.sum_range_succ, drawKey]

example : sampledKernel (V := ℝ) (fun k : ℕ => (k + 1, 10 * k)) (fun _ => 7) 1 3 = .ok 7 :=
  constant_draws _ _ _ _ (by norm_num)
end Examples

end NT.C08
