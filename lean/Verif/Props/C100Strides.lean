import Verif.Props.C100Edges

/-!
# C100, limits: strides and pooling with circular padding
-/

namespace NT.C100
open NT NT.Network Arr Spec Masked

/-- The sentence `1, 3, 5`, padded with `-1` to length 4. -/
def paddedTriple : Arr ℝ := ⟨[1, 4, 1], fun i => if i.getD 1 0 = 3 then -1 else 2 * i.getD 1 0 + 1⟩

/-- The sentence alone. -/
def triple : Arr ℝ := ⟨[1, 3, 1], fun i => 2 * i.getD 1 0 + 1⟩

lemma triple_padded : PaddedWith (-1) paddedTriple 0 2 1 1 [4] fun _ => [3] := by
  refine ⟨rfl, fun i hi => by simp, fun i hi c hc p hp => ?_⟩
  obtain ⟨a, r, rfl, ha, hr⟩ := inRange_cons_right.1 hp
  rw [inRange_nil_right] at hr
  subst hr
  have e : actIdx 0 2 i c [a] = [i, a, c] := rfl
  simp only [e, paddedTriple, List.getD_cons_zero, List.getD_cons_succ, inRange_cons, inRange_nil_right, and_true]
  interval_cases a <;> norm_num

lemma triple_example : ExampleOf triple paddedTriple 0 2 0 1 fun _ => [3] := by
  refine ⟨rfl, fun c hc p hp => ?_⟩
  obtain ⟨a, r, rfl, ha, hr⟩ := inRange_cons_right.1 hp
  rw [inRange_nil_right] at hr
  subst hr
  have e : ∀ i, actIdx 0 2 i c [a] = [i, a, c] := fun _ => rfl
  simp only [e, paddedTriple, triple, List.getD_cons_zero, List.getD_cons_succ]
  rw [if_neg (by omega)]

/-- `SumPool((3,), strides=(2,), padding='SAME')`. -/
def stridedPool : Pool := ⟨.sum, [(3, 2)], .same, false, 0, -1⟩

lemma strided_taps (x : Arr ℝ) (o : List ℕ) : (stridedPool.apply x).get o =
    readTap x.get (tapIdx .same x.shape [(1, 1), (3, 2), (1, 1)] o [0, 0, 0]) + (readTap x.get (tapIdx .same x.shape [(1, 1), (3, 2), (1, 1)] o [0, 1, 0]) +
      readTap x.get (tapIdx .same x.shape [(1, 1), (3, 2), (1, 1)] o [0, 2, 0])) := by
  have hi : indices [1, 3, 1] = [[0, 0, 0], [0, 1, 0], [0, 2, 0]] := rfl
  show (reduceWindow x [(1, 1), (3, 2), (1, 1)] .same).get o = _
  simp [reduceWindow, sumOver, hi]

/-- `SumPool((3,), strides=(2,), padding='SAME')`: the first output for the sentence `1, 3, 5` is `4` alone, where the padding begins before the first word,
and `9` in a batch where the sentence is padded by one masked word. -/
theorem strides_see_padding :
    ∃ X M Y, applyAll (some (-1)) [.pool stridedPool] (.array paddedTriple) = .ok (.masked ⟨X, some M⟩) ∧
      applyAll none [.pool stridedPool] (.array triple) = .ok (.array Y) ∧ M.get [0, 0, 0] = false ∧ X.shape = Y.shape ∧
      X.get [0, 0, 0] = 9 ∧ Y.get [0, 0, 0] = 4 := by
  have hz : ∀ a : ℕ, (paddedTriple.map fun v => if v = -1 then 0 else v).get [0, a, 0] = if a = 3 then 0 else 2 * (a : ℝ) + 1 := by
    intro a
    have h : ¬(2 * (a : ℝ) + 1 = -1) := by
      have : (0 : ℝ) ≤ a := Nat.cast_nonneg a
      intro h; linarith
    simp only [Arr.map, paddedTriple, List.getD_cons_zero, List.getD_cons_succ]
    split <;> simp
  have hm : ∀ a : ℕ, (paddedTriple.map fun v => decide (v = -1)).get [0, a, 0] = decide (a = 3) := by
    intro a
    have h : ¬(2 * (a : ℝ) + 1 = -1) := by
      have : (0 : ℝ) ≤ a := Nat.cast_nonneg a
      intro h; linarith
    simp only [Arr.map, paddedTriple, List.getD_cons_zero, List.getD_cons_succ]
    split <;> simp [*]
  have hg : getMaskedArray (some (-1)) (.array paddedTriple) = ⟨paddedTriple.map fun v => if v = -1 then 0 else v, some (paddedTriple.map fun v => decide (v = -1))⟩ := by
    simp only [getMaskedArray]
    rfl
  have hM : ∃ M, MLayer.maskFn (.pool stridedPool) (paddedTriple.map fun v => decide (v = -1)) = .ok M ∧ M.get [0, 0, 0] = false :=
    ⟨_, rfl, (hm _).trans (by decide)⟩
  obtain ⟨M, m1, m2⟩ := hM
  refine ⟨stridedPool.apply (paddedTriple.map fun v => if v = -1 then 0 else v), M, stridedPool.apply triple, ?_, rfl, m2, rfl, ?_, ?_⟩
  · simp only [applyAll, ALayer.applyWithMasking, hg, ALayer.mlayer, onMask, m1]
    rfl
  · have hs : (paddedTriple.map fun v => if v = -1 then 0 else v).shape = [1, 4, 1] := rfl
    rw [strided_taps]
    simp [hs, tapIdx, readTap, tap1, padsOf, samePads, hz]
    norm_num
  · have hs : triple.shape = [1, 3, 1] := rfl
    rw [strided_taps]
    simp [hs, tapIdx, readTap, tap1, padsOf, samePads]
    norm_num [triple]

/-- Local pooling with padding `'CIRCULAR'` raises on inputs with a mask constant (linear.py:3729-3736 passes `'CIRCULAR'` to `lax`), and returns an array without. -/
theorem circular_pooling_raises (d : Pool) (hd : d.padding = .circular) (mc : ℝ) (x : Arr ℝ) (rest : List ALayer) :
    (∃ e, applyAll (some mc) (.pool d :: rest) (.array x) = .error e ∧ (e = .valueError ∨ e = .notImplemented)) ∧
      applyAll none [.pool d] (.array x) = .ok (.array (d.apply x)) := by
  refine ⟨?_, rfl⟩
  simp only [applyAll, ALayer.applyWithMasking, getMaskedArray, Inputs.maskedArray, ALayer.apply, ALayer.mlayer, onMask, MLayer.maskFn, hd]
  split
  · exact ⟨_, rfl, .inr rfl⟩
  · exact ⟨_, rfl, .inl rfl⟩

example : ∃ e, applyAll (some (-1)) [.pool ⟨.sum, [(2, 1)], .circular, false, 0, -1⟩] (.array paddedPair) = .error e ∧ (e = .valueError ∨ e = .notImplemented) :=
  (circular_pooling_raises _ rfl _ _ _).1

end NT.C100
