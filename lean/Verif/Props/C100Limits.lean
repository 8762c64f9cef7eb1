import Verif.Props.C100

/-!
# C100, limits: `LayerNorm` over positions sees the padding

The variance that `LayerNorm` computes with a mask counts masked entries with the squared mean (C78), so normalisation over positions changes when an example is
padded.
-/

namespace NT.C100
open NT NT.Network Arr Spec Masked

/-- The sentence `1, 3` with one channel, padded to length 3 with `-1`. -/
def paddedPair : Arr ℝ := ⟨[1, 3, 1], fun i => if i.getD 1 0 = 2 then -1 else 2 * i.getD 1 0 + 1⟩

/-- The sentence alone. -/
def pair : Arr ℝ := ⟨[1, 2, 1], fun i => 2 * i.getD 1 0 + 1⟩

lemma pair_padded : PaddedWith (-1) paddedPair 0 2 1 1 [3] fun _ => [2] := by
  refine ⟨rfl, fun i hi => by simp, fun i hi c hc p hp => ?_⟩
  obtain ⟨a, r, rfl, ha, hr⟩ := inRange_cons_right.1 hp
  rw [inRange_nil_right] at hr
  subst hr
  have e : actIdx 0 2 i c [a] = [i, a, c] := rfl
  simp only [e, paddedPair, List.getD_cons_zero, List.getD_cons_succ, inRange_cons, inRange_nil_right, and_true]
  interval_cases a <;> norm_num

lemma pair_example : ExampleOf pair paddedPair 0 2 0 1 fun _ => [2] := by
  refine ⟨rfl, fun c hc p hp => ?_⟩
  obtain ⟨a, r, rfl, ha, hr⟩ := inRange_cons_right.1 hp
  rw [inRange_nil_right] at hr
  subst hr
  have e : ∀ i, actIdx 0 2 i c [a] = [i, a, c] := fun _ => rfl
  simp only [e, paddedPair, pair, List.getD_cons_zero, List.getD_cons_succ]
  rw [if_neg (by omega)]

/-- The sentence with zeros at the padding. -/
noncomputable def zeroedPair : Arr ℝ := paddedPair.map fun v => if v = -1 then 0 else v

noncomputable def maskPair : Arr Bool := paddedPair.map fun v => decide (v = -1)

lemma maskPair_get (i a c : ℕ) : maskPair.get [i, a, c] = decide (a = 2) := by
  simp only [maskPair, Arr.map, paddedPair, List.getD_cons_zero, List.getD_cons_succ]
  by_cases h : a = 2
  · simp [h]
  · have : (0 : ℝ) ≤ a := Nat.cast_nonneg a
    have : 2 * (a : ℝ) + 1 ≠ -1 := by intro e; linarith
    simp [h, this]

lemma zeroedPair_get (i a c : ℕ) : zeroedPair.get [i, a, c] = if a = 2 then 0 else 2 * (a : ℝ) + 1 := by
  simp only [zeroedPair, Arr.map, paddedPair, List.getD_cons_zero, List.getD_cons_succ]
  by_cases h : a = 2
  · simp [h]
  · have : (0 : ℝ) ≤ a := Nat.cast_nonneg a
    have : 2 * (a : ℝ) + 1 ≠ -1 := by intro e; linarith
    simp [h, this]

lemma maskPair_ok : Masks.broadcastTo maskPair zeroedPair.shape = .ok ⟨[1, 3, 1], fun i => maskPair.get (Masks.clip i [1, 3, 1])⟩ := by
  unfold Masks.broadcastTo
  rw [if_pos (by simp [maskPair, zeroedPair, Arr.map, paddedPair])]
  rfl

lemma pair_line : line [1, 3, 1] {1, 2} [0, 0, 0] = {[0, 0, 0], [0, 1, 0], [0, 2, 0]} := by decide +kernel

lemma pair_line' : line [1, 2, 1] {1, 2} [0, 0, 0] = {[0, 0, 0], [0, 1, 0]} := by decide +kernel

lemma pair_unmasked : unmasked [1, 3, 1] {1, 2} (fun i => maskPair.get (Masks.clip i [1, 3, 1])) [0, 0, 0] = {[0, 0, 0], [0, 1, 0]} := by
  unfold unmasked
  rw [pair_line]
  have e : ∀ a < 3, maskPair.get (Masks.clip [0, a, 0] [1, 3, 1]) = decide (a = 2) := fun a _ => by
    rw [← maskPair_get 0 a 0]; rfl
  ext j
  simp only [Finset.mem_filter, Finset.mem_insert, Finset.mem_singleton]
  constructor
  · rintro ⟨rfl | rfl | rfl, h⟩
    · simp
    · simp
    · rw [e 2 (by decide)] at h
      simp at h
  · rintro (rfl | rfl)
    · exact ⟨.inl rfl, (e 0 (by decide)).trans (by decide)⟩
    · exact ⟨.inr (.inl rfl), (e 1 (by decide)).trans (by decide)⟩

/-- `LayerNorm(axis=(1, 2))`, for every `eps ≥ 0`: the first word of the sentence `1, 3` is normalised to `-1 / √(eps + 1)` alone, and to `-1 / √(eps + 3)` in a batch
where the sentence is padded and masked. -/
theorem layerNorm_positions_sees_padding (eps : ℝ) (he : 0 ≤ eps) :
    ∃ X Y, applyAll (some (-1)) [.layerNorm [1, 2] eps] (.array paddedPair) = .ok (.masked ⟨X, some maskPair⟩) ∧
      applyAll none [.layerNorm [1, 2] eps] (.array pair) = .ok (.array Y) ∧ X.get [0, 0, 0] = -1 / √(eps + 3) ∧ Y.get [0, 0, 0] = -1 / √(eps + 1) ∧
      X.get [0, 0, 0] ≠ Y.get [0, 0, 0] := by
  have hz : ∀ j, InRange j zeroedPair.shape → maskPair.get (Masks.clip j [1, 3, 1]) = true → zeroedPair.get j = 0 := by
    intro j hj hm
    obtain ⟨a, b, q, rfl, ha, hb, hq⟩ := act_of_inRange (B := 0) (A := 2) (n := 1) (C := 1) (S := [3]) (by decide) (by simp) (by simp) hj
    obtain ⟨t, r, rfl, ht, hr⟩ := inRange_cons_right.1 hq
    rw [inRange_nil_right] at hr
    subst hr
    have e : maskPair.get (Masks.clip (actIdx 0 2 a b [t]) [1, 3, 1]) = decide (t = 2) := maskPair_get 0 t 0
    rw [e] at hm
    exact (zeroedPair_get a t b).trans (if_pos (by simpa using hm))
  have hA : ∀ a ∈ ({1, 2} : Finset ℕ), a < zeroedPair.ndim := by
    show ∀ a ∈ ({1, 2} : Finset ℕ), a < 3
    decide
  obtain ⟨mean, q1, q3, q5⟩ := C78.masked_mean zeroedPair {1, 2} hA maskPair _ maskPair_ok hz
  obtain ⟨v, q2, q4, q6⟩ := C78.masked_var_excess zeroedPair {1, 2} hA maskPair _ maskPair_ok hz
  obtain ⟨X, x1, x2, x3⟩ := norm_entries (axis := [1, 2]) (eps := eps) (ax := {1, 2}) rfl q1 q2 q3 q4
  obtain ⟨mean', v', p1, p2, p3, p4, p5⟩ := C78.plain pair {1, 2} (by show ∀ a ∈ ({1, 2} : Finset ℕ), a < 3; decide)
  obtain ⟨Y, y1, y2, y3⟩ := norm_entries (axis := [1, 2]) (eps := eps) (ax := {1, 2}) rfl p1 p2 p3 p4
  have r0 : InRange [0, 0, 0] zeroedPair.shape := by show InRange [0, 0, 0] [1, 3, 1]; simp [inRange_cons, inRange_nil_right]
  have r0' : InRange [0, 0, 0] pair.shape := by show InRange [0, 0, 0] [1, 2, 1]; simp [inRange_cons, inRange_nil_right]
  have hmz : meanOver {[0, 0, 0], [0, 1, 0]} zeroedPair.get = 2 := by
    rw [meanOver, Finset.sum_pair (by simp), Finset.card_pair (by simp), zeroedPair_get, zeroedPair_get]
    norm_num
  have hvz : varOver {[0, 0, 0], [0, 1, 0]} zeroedPair.get = 1 := by
    rw [varOver, hmz, Finset.sum_pair (by simp), Finset.card_pair (by simp), zeroedPair_get, zeroedPair_get]
    norm_num
  have hmp : meanOver {[0, 0, 0], [0, 1, 0]} pair.get = 2 := by
    rw [meanOver, Finset.sum_pair (by simp), Finset.card_pair (by simp)]
    norm_num [pair]
  have hvp : varOver {[0, 0, 0], [0, 1, 0]} pair.get = 1 := by
    rw [varOver, hmp, Finset.sum_pair (by simp), Finset.card_pair (by simp)]
    norm_num [pair]
  have u1 := q5 [0, 0, 0] r0
  have hs : zeroedPair.shape = [1, 3, 1] := rfl
  have hs' : pair.shape = [1, 2, 1] := rfl
  rw [hs] at u1
  dsimp only at u1
  rw [pair_unmasked, hmz] at u1
  have u2 := q6 [0, 0, 0] r0 (by rw [hs]; dsimp only; rw [pair_unmasked]; simp)
  rw [hs] at u2
  dsimp only at u2
  rw [pair_unmasked, pair_line, hmz, hvz, Finset.card_pair (by simp), show ({[0, 0, 0], [0, 1, 0], [0, 2, 0]} : Finset (List ℕ)).card = 3 by decide +kernel] at u2
  obtain ⟨w1, w2⟩ := p5 [0, 0, 0] r0'
  rw [hs', pair_line', hmp] at w1
  rw [hs', pair_line', hvp] at w2
  have eX : X.get [0, 0, 0] = -1 / √(eps + 3) := by
    rw [x3 _ r0, u1, u2, zeroedPair_get]
    norm_num
  have eY : Y.get [0, 0, 0] = -1 / √(eps + 1) := by
    rw [y3 _ r0', w1, w2]
    norm_num [pair]
  refine ⟨X, Y, ?_, ?_, eX, eY, ?_⟩
  · have : (ALayer.layerNorm [1, 2] eps).applyWithMasking (some (-1)) (.array paddedPair) = .ok (.masked ⟨X, some maskPair⟩) := by
      show (do let o ← layerNormApply [1, 2] eps zeroedPair (some maskPair); _) = _
      rw [x1]
      rfl
    simp only [applyAll, this]
    rfl
  · have : (ALayer.layerNorm [1, 2] eps).applyWithMasking none (.array pair) = .ok (.array Y) := by
      show (do let o ← layerNormApply [1, 2] eps pair none; _) = _
      rw [y1]
      rfl
    simp only [applyAll, this]
    rfl
  · rw [eX, eY]
    intro h
    have h1 : 0 < √(eps + 3) := Real.sqrt_pos.2 (by linarith)
    have h2 : 0 < √(eps + 1) := Real.sqrt_pos.2 (by linarith)
    rw [div_eq_div_iff h1.ne' h2.ne'] at h
    have h3 : √(eps + 1) = √(eps + 3) := by linarith
    rw [Real.sqrt_inj (by linarith) (by linarith)] at h3
    linarith

/-- The sentence is one of those of the theorem of C100. -/
example : PaddedWith (-1) paddedPair 0 2 1 1 [3] (fun _ => [2]) ∧ ExampleOf pair paddedPair 0 2 0 1 fun _ => [2] := ⟨pair_padded, pair_example⟩

end NT.C100
