import Verif.Props.C100Strides

/-!
# C100, limits: convolutions with circular padding
-/

namespace NT.C100
open NT NT.Network Arr Spec Masked

/-- `Conv(1, (3,), padding='CIRCULAR', W_std=1., b_std=None, parameterization='standard')`. -/
def circularConv : Conv := ⟨1, [(3, 1)], .circular, 1, none, .standard, (1, 1), true, 0, 2⟩

/-- Its weights: the filter `1, 1, 1`. -/
def onesFilter : Arr ℝ := ⟨[3, 1, 1], fun _ => 1⟩

/-- The convolution of `x` wrapped around. -/
noncomputable def circularOut (x : Arr ℝ) : Arr ℝ :=
  (Conv.laxConv (samePadWrap x [(1, 1), (3, 1), (1, 1)]) onesFilter [(3, 1)] .valid 0 2).map fun v => 1 / Real.sqrt ((1 : ℕ) : ℝ) * v

lemma circular_apply (x : Arr ℝ) : circularConv.apply onesFilter none x = .ok (circularOut x) := rfl

lemma circular_taps (x : Arr ℝ) (L : ℕ) (hL : 2 ≤ L) (hs : x.shape = [1, L, 1]) :
    (circularOut x).get [0, 0, 0] = x.get [0, L - 1, 0] + x.get [0, 0, 0] + x.get [0, 1, 0] := by
  have hi : indices [3, 1] = [[0, 0], [1, 0], [2, 0]] := rfl
  have hp : samePads L 3 1 = (1, 1) := by
    simp only [samePads]
    have h : (L + 1 - 1) / 1 * 1 + 3 - (L + 1) = 2 := by omega
    rw [h]
  have hq : samePads 1 1 1 = (0, 0) := rfl
  have hS : (samePadWrap x [(1, 1), (3, 1), (1, 1)]).shape = [1, L + 2, 1] := by
    simp only [samePadWrap, hs, List.zipWith, hp, hq]
    simp only [List.cons.injEq, and_true, true_and]
    omega
  have hr : (List.range 3).filter (fun i => !([0, 2].contains i)) = [1] := rfl
  have hg : ∀ a : ℕ, (samePadWrap x [(1, 1), (3, 1), (1, 1)]).get [0, a, 0] = x.get [0, wrap1 L 1 a, 0] := by
    intro a
    simp only [samePadWrap, hs, List.zip, List.zipWith, hp, hq]
    rfl
  have w0 : wrap1 L 1 0 = L - 1 := by
    have h : ((0 : ℕ) : ℤ) - (1 : ℕ) = ((L - 1 : ℕ) : ℤ) + (L : ℤ) * (-1) := by push_cast [show 1 ≤ L by omega]; ring
    simp only [wrap1]
    rw [h, Int.add_mul_emod_self_left, Int.emod_eq_of_lt (by omega) (by omega), Int.toNat_natCast]
  have w1 : wrap1 L 1 1 = 0 := by simp [wrap1]
  have w2 : wrap1 L 1 2 = 1 := by
    have h : ((2 : ℕ) : ℤ) - (1 : ℕ) = ((1 : ℕ) : ℤ) := by norm_num
    simp only [wrap1]
    rw [h, Int.emod_eq_of_lt (by omega) (by omega), Int.toNat_natCast]
  have t : ∀ f, f < 3 → tapIdx .valid [L + 2] [(3, 1)] [0] [f] = some [f] := by
    intro f hf
    have h : tap1 (L + 2) 0 1 0 f = some f := by
      simp only [tap1]
      rw [if_pos (by omega)]
      simp
    have h' : tap1 (L + 2) (padsOf .valid (L + 2) 3 1).1 1 0 f = some f := h
    simp only [tapIdx, h']
  have key : (Conv.laxConv (samePadWrap x [(1, 1), (3, 1), (1, 1)]) onesFilter [(3, 1)] .valid 0 2).get [0, 0, 0] =
      (samePadWrap x [(1, 1), (3, 1), (1, 1)]).get [0, 0, 0] + ((samePadWrap x [(1, 1), (3, 1), (1, 1)]).get [0, 1, 0] +
        (samePadWrap x [(1, 1), (3, 1), (1, 1)]).get [0, 2, 0]) := by
    have hn : (samePadWrap x [(1, 1), (3, 1), (1, 1)]).ndim = 3 := by simp [Arr.ndim, hS]
    simp only [Conv.laxConv, hn, hr, hS, gather, List.map, List.getD_cons_succ, List.getD_cons_zero, sumOver, List.cons_append, List.nil_append, hi,
      List.length_cons, List.length_nil, List.take, List.sum_cons, List.sum_nil, onesFilter, one_mul, zero_add, add_zero]
    rw [t 0 (by omega), t 1 (by omega), t 2 (by omega)]
    rfl
  show 1 / Real.sqrt ((1 : ℕ) : ℝ) * (Conv.laxConv (samePadWrap x [(1, 1), (3, 1), (1, 1)]) onesFilter [(3, 1)] .valid 0 2).get [0, 0, 0] = _
  rw [key, hg, hg, hg, w0, w1, w2]
  simp
  ring

/-- `Conv` with padding `'CIRCULAR'`, filter `1, 1, 1`: the first output for the sentence `1, 3, 5` is `9` alone, where the last word precedes the first,
and `4` in a batch where the sentence is padded by one masked word, which then precedes the first. -/
theorem circular_convolution_sees_padding :
    ∃ X M Y, applyAll (some (-1)) [.conv circularConv onesFilter none] (.array paddedTriple) = .ok (.masked ⟨X, some M⟩) ∧
      applyAll none [.conv circularConv onesFilter none] (.array triple) = .ok (.array Y) ∧ M.get [0, 0, 0] = false ∧
      X.get [0, 0, 0] = 4 ∧ Y.get [0, 0, 0] = 9 := by
  have hz : ∀ a : ℕ, (paddedTriple.map fun v => if v = -1 then 0 else v).get [0, a, 0] = if a = 3 then 0 else 2 * (a : ℝ) + 1 := by
    intro a
    have h : ¬(2 * (a : ℝ) + 1 = -1) := by
      have : (0 : ℝ) ≤ a := Nat.cast_nonneg a
      intro h; linarith
    simp only [Arr.map, paddedTriple, List.getD_cons_zero, List.getD_cons_succ]
    split <;> simp
  have hm : ∀ a : ℕ, (paddedTriple.map fun v => decide (v = -1)).get [0, a, 0] = decide (a = 3) := by
    intro a
    have h : ¬(2 * (a : ℝ) + 1 = -1) := by
      have : (0 : ℝ) ≤ a := Nat.cast_nonneg a
      intro h; linarith
    simp only [Arr.map, paddedTriple, List.getD_cons_zero, List.getD_cons_succ]
    split <;> simp [*]
  have hg : getMaskedArray (some (-1)) (.array paddedTriple) = ⟨paddedTriple.map fun v => if v = -1 then 0 else v, some (paddedTriple.map fun v => decide (v = -1))⟩ := by
    simp only [getMaskedArray]
    rfl
  have hM : ∃ M, MLayer.maskFn (.conv circularConv) (paddedTriple.map fun v => decide (v = -1)) = .ok M ∧ M.get [0, 0, 0] = false :=
    ⟨_, rfl, by
      show (List.range 1).all (fun c => (paddedTriple.map fun v => decide (v = -1)).get [0, 0, c]) = false
      simp only [List.range_one, List.all_cons, List.all_nil, Bool.and_true]
      exact (hm 0).trans (by decide)⟩
  obtain ⟨M, m1, m2⟩ := hM
  refine ⟨circularOut (paddedTriple.map fun v => if v = -1 then 0 else v), M, circularOut triple, ?_, rfl, m2, ?_, ?_⟩
  · simp only [applyAll, ALayer.applyWithMasking, hg, ALayer.mlayer, onMask, m1]
    rfl
  · rw [circular_taps _ 4 (by norm_num) rfl, hz, hz, hz]
    norm_num
  · rw [circular_taps _ 3 (by norm_num) rfl]
    norm_num [triple]

end NT.C100
