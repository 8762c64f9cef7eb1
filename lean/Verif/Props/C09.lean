import Verif.Props.C08

/-!
# C09: Monte Carlo generator is prefix consistent
-/

namespace NT.C09
open NT MonteCarlo C08

variable {Key V : Type} [AddCommGroup V] [Module ℝ V]

/-- The counts at which the loop yields are the requested ones in increasing order. -/
lemma filter_range_eq_sort (ns : Finset ℕ) (h : ns.Nonempty) (hpos : ∀ n ∈ ns, 1 ≤ n) :
    ((List.range (ns.max' h)).map (· + 1)).filter (fun n => decide (n ∈ ns)) = ns.sort (· ≤ ·) := by
  apply List.Perm.eq_of_pairwise (le := (· ≤ · : ℕ → ℕ → Prop))
  · intro a b _ _ h1 h2; exact Nat.le_antisymm h1 h2
  · apply List.Pairwise.filter
    rw [List.pairwise_map]
    exact (List.pairwise_le_range (n := ns.max' h)).imp (fun h => Nat.succ_le_succ h)
  · exact Finset.pairwise_sort ns (· ≤ ·)
  · rw [List.perm_ext_iff_of_nodup]
    · intro a
      simp only [List.mem_filter, List.mem_map, List.mem_range, decide_eq_true_eq, Finset.mem_sort]
      constructor
      · exact fun h => h.2
      · intro ha
        refine ⟨⟨a - 1, ?_, ?_⟩, ha⟩
        · have := hpos a ha
          have := ns.le_max' a ha
          omega
        · have := hpos a ha
          omega
    · apply List.Nodup.filter
      exact List.nodup_range.map (fun a b h => by simpa using h)
    · exact Finset.sort_nodup ns (· ≤ ·)

/-- The generator yields, in increasing order of the requested counts and once for each, exactly
what a separate call with that count returns. -/
theorem generator_prefix_consistent (split : Key → Key × Key) (once : Key → V) (key : Key)
    (ns : Finset ℕ) (h : ns.Nonempty) (hpos : ∀ n ∈ ns, 1 ≤ n) :
    ∃ ys, sampledKernels split once key ns = .ok ys ∧ ys.length = ns.card ∧
      ∀ k n : ℕ, (ns.sort (· ≤ ·))[k]? = some n →
        ∃ y, ys[k]? = some y ∧ sampledKernel split once key n = .ok y := by
  unfold sampledKernels
  rw [dif_pos h]
  refine ⟨_, rfl, ?_⟩
  rw [getSamples_eq]
  have e : ((List.map (fun t => (t + 1, ∑ i ∈ Finset.range (t + 1), once (drawKey split key i)))
      (List.range (ns.max' h))).filter fun p => decide (p.1 ∈ ns)).map (fun p => normalize p.2 p.1) =
      (ns.sort (· ≤ ·)).map (meanOfDraws split once key) := by
    rw [← filter_range_eq_sort ns h hpos, List.filter_map, List.filter_map, List.map_map,
      List.map_map]
    apply List.map_congr_left
    intro t _
    simp [normalize, meanOfDraws]
  rw [e]
  refine ⟨by simp, ?_⟩
  intro k n hk
  refine ⟨meanOfDraws split once key n, by simp [hk], ?_⟩
  have hn : n ∈ ns := by
    have := List.mem_of_getElem? hk
    simpa using this
  exact estimate_is_mean split once key n (hpos n hn)

section Examples
example : ∃ ys, sampledKernels (V := ℝ) (fun k : ℕ => (k + 1, 10 * k)) (fun k => (k : ℝ)) 1 {3, 1}
    = .ok ys ∧ ys[0]? = some 10 ∧ ys[1]? = some 20 := by
  obtain ⟨ys, h1, _, h3⟩ := generator_prefix_consistent (V := ℝ) (fun k : ℕ => (k + 1, 10 * k))
    (fun k => (k : ℝ)) 1 {3, 1} (by simp) (by simp)
  have hs : ({3, 1} : Finset ℕ).sort (· ≤ ·) = [1, 3] := by
    rw [← filter_range_eq_sort {3, 1} (by simp) (by simp)]
    rfl
  refine ⟨ys, h1, ?_, ?_⟩
  · obtain ⟨y, hy, hy'⟩ := h3 0 1 (by rw [hs]; rfl)
    rw [estimate_is_mean _ _ _ _ (by norm_num)] at hy'
    rw [hy]
    cases hy'
    norm_num [meanOfDraws, Finset.sum_range_succ, drawKey]
  · obtain ⟨y, hy, hy'⟩ := h3 1 3 (by rw [hs]; rfl)
    rw [estimate_is_mean _ _ _ _ (by norm_num)] at hy'
    rw [hy]
    cases hy'
    norm_num [meanOfDraws, Finset.sum_range_succ, drawKey]
end Examples

end NT.C09
