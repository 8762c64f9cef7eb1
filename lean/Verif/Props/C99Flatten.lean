import Verif.Props.C99Limits

/-!
# C99, limits: `Flatten`
-/

namespace NT.C99
open NT Arr Masked

lemma trace_get (x : Arr ℝ) (n1 n2 l i j : ℕ) (hx : x.shape = [n1, n2, l, l]) :
    (Flatten.trace false 2 x).get [i, j] = (∑ p ∈ Finset.range l, x.get [i, j, p, p]) / l := by
  have h4 : x.ndim = 4 := by simp [Arr.ndim, hx]
  have h2 : (traceLast x).ndim = 2 := by simp [Arr.ndim, traceLast, hx]
  have e : Flatten.trace false 2 x = traceLast x := by
    simp [Flatten.trace, h4, traceLoop, h2]
  rw [e]
  have m : min l l = l := min_self l
  simp only [traceLast, hx, List.dropLast, List.getLastD, List.cons_append, List.nil_append]
  show ((List.range (min l l)).map fun t => x.get [i, j, t, t]).sum / (l : ℝ) = _
  rw [m]
  rfl

/-- `Flatten` of a kernel with all pairs of positions: `u` words padded to length `l` (the masked positions hold zeros) give the sum over the words divided by `l`, the
same words alone give the sum divided by `u`.  So padding is visible whenever `u < l` and the sum is not zero. -/
theorem flatten_counts_padding (f : Flatten) (hf : f.batchAxisOut ∈ ([-2, -1, 0, 1] : List ℤ)) (k K : Kernel ℝ) (n1 n2 l u i j : ℕ) (hul : u ≤ l)
    (hk : k.nngp.shape = [n1, n2, l, l]) (hK : K.nngp.shape = [1, 1, u, u]) (dk : k.diagonalSpatial = false) (dK : K.diagonalSpatial = false)
    (hzero : ∀ p, u ≤ p → p < l → k.nngp.get [i, j, p, p] = 0) (hsame : ∀ p < u, K.nngp.get [0, 0, p, p] = k.nngp.get [i, j, p, p]) :
    ∃ k' K', f.kernelFn k = .ok k' ∧ f.kernelFn K = .ok K' ∧
      k'.nngp.get [i, j] = (∑ p ∈ Finset.range u, k.nngp.get [i, j, p, p]) / l ∧ K'.nngp.get [0, 0] = (∑ p ∈ Finset.range u, k.nngp.get [i, j, p, p]) / u := by
  obtain ⟨bo, co, hax⟩ : ∃ bo co, f.axesOut = .ok (bo, co) := by
    unfold Flatten.axesOut
    simp only [List.mem_cons, List.not_mem_nil, or_false] at hf
    split_ifs <;> first | exact ⟨_, _, rfl⟩ | omega
  unfold Flatten.kernelFn
  rw [hax]
  refine ⟨_, _, rfl, rfl, ?_, ?_⟩
  · simp only [dk]
    rw [trace_get _ n1 n2 l i j hk]
    exact congrArg (· / (l : ℝ)) (sum_prefix (fun p => k.nngp.get [i, j, p, p]) u l hul hzero)
  · simp only [dK]
    rw [trace_get _ 1 1 u 0 0 hK]
    exact congrArg (· / (u : ℝ)) (Finset.sum_congr rfl fun p hp => hsame p (Finset.mem_range.1 hp))

/-- The kernel of words with variance one, `u` of `l` not masked. -/
def wordsKernel (u l : ℕ) : Kernel ℝ where
  nngp := ⟨[1, 1, l, l], fun i => if i.getD 2 0 = i.getD 3 0 ∧ i.getD 2 0 < u then 1 else 0⟩
  ntk := none
  cov1 := ⟨[1, l, l], fun i => if i.getD 1 0 = i.getD 2 0 ∧ i.getD 1 0 < u then 1 else 0⟩
  cov2 := none
  x1IsX2 := ⟨[], fun _ => true⟩
  isGaussian := true
  isReversed := false
  isInput := false
  diagonalBatch := true
  diagonalSpatial := false
  shape1 := [1, l, 5]
  shape2 := [1, l, 5]
  batchAxis := 0
  channelAxis := 2
  mask1 := if u < l then some ⟨[1, l, 1], fun i => decide (u ≤ i.getD 1 0)⟩ else none
  mask2 := if u < l then some ⟨[1, l, 1], fun i => decide (u ≤ i.getD 1 0)⟩ else none

/-- Two words padded to length three: 2/3 with padding, 1 alone. -/
example : ∃ k' K', (⟨0, 0⟩ : Flatten).kernelFn (wordsKernel 2 3) = .ok k' ∧ (⟨0, 0⟩ : Flatten).kernelFn (wordsKernel 2 2) = .ok K' ∧
    k'.nngp.get [0, 0] = 2 / 3 ∧ K'.nngp.get [0, 0] = 1 := by
  obtain ⟨k', K', h1, h2, h3, h4⟩ := flatten_counts_padding ⟨0, 0⟩ (by simp) (wordsKernel 2 3) (wordsKernel 2 2) 1 1 3 2 0 0 (by omega) rfl rfl rfl rfl
    (by intro p hp _; simp [wordsKernel]; omega) (by intro p hp; simp [wordsKernel])
  refine ⟨k', K', h1, h2, ?_, ?_⟩
  · rw [h3]
    rw [Finset.sum_range_succ, Finset.sum_range_succ]
    norm_num [wordsKernel]
  · rw [h4]
    rw [Finset.sum_range_succ, Finset.sum_range_succ]
    norm_num [wordsKernel]

end NT.C99
