import Verif.Props.C100Limits

/-!
# C100, limits: padding other than `'SAME'` and normalised edges
-/

namespace NT.C100
open NT NT.Network Arr Spec Masked

lemma zeroed_eq : getMaskedArray (some (-1)) (.array paddedPair) = ⟨zeroedPair, some maskPair⟩ := by
  simp only [getMaskedArray]
  rfl

/-- `SumPool((2,), padding='VALID')`. -/
def validPool : Pool := ⟨.sum, [(2, 1)], .valid, false, 0, -1⟩

/-- `AvgPool((2,), padding='SAME', normalize_edges=True)`. -/
def edgePool : Pool := ⟨.avg, [(2, 1)], .same, true, 0, -1⟩

lemma window_taps (x : Arr ℝ) (pad : Padding) (o : List ℕ) : (reduceWindow x [(1, 1), (2, 1), (1, 1)] pad).get o =
    readTap x.get (tapIdx pad x.shape [(1, 1), (2, 1), (1, 1)] o [0, 0, 0]) + readTap x.get (tapIdx pad x.shape [(1, 1), (2, 1), (1, 1)] o [0, 1, 0]) := by
  have hi : indices [1, 2, 1] = [[0, 0, 0], [0, 1, 0]] := rfl
  simp [reduceWindow, sumOver, hi]

lemma valid_get (x : Arr ℝ) (N : ℕ) (hx : x.shape = [1, N, 1]) (o : ℕ) (ho : o + 1 < N) : (validPool.apply x).get [0, o, 0] = x.get [0, o, 0] + x.get [0, o + 1, 0] := by
  refine (window_taps x .valid _).trans ?_
  have h1 : o < N := by omega
  simp [hx, tapIdx, readTap, tap1, padsOf, h1, ho]

lemma edge_get (x : Arr ℝ) : (edgePool.apply x).get [0, 1, 0] =
    (reduceWindow x [(1, 1), (2, 1), (1, 1)] .same).get [0, 1, 0] / (reduceWindow (x.map fun _ => 1) [(1, 1), (2, 1), (1, 1)] .same).get [0, 1, 0] := rfl

lemma valid_mask : ∃ m, poolMask maskPair [(2, 1)] .valid 0 2 = .ok m ∧ m.shape = [1, 2, 1] ∧ m.get [0, 0, 0] = false ∧ m.get [0, 1, 0] = false := by
  have e : maskPair.shape = [1, 3, 1] := rfl
  refine ⟨_, rfl, rfl, ?_, ?_⟩
  · exact (maskPair_get 0 0 0).trans (by decide)
  · exact (maskPair_get 0 1 0).trans (by decide)

lemma edge_mask : poolMask maskPair [(2, 1)] .same 0 2 = .ok maskPair := rfl

/-- `SumPool((2,), padding='VALID')`, then `GlobalSumPool`: the sentence `1, 3` gives `4` alone, and `7` in a batch where it is padded by a masked word, since the
mask keeps the window of its last word and the padding. -/
theorem valid_pooling_sees_padding :
    ∃ X M Y, applyAll (some (-1)) [.pool validPool, .globalPool ⟨.sum, 0, -1⟩] (.array paddedPair) = .ok (.masked ⟨X, some M⟩) ∧
      applyAll none [.pool validPool, .globalPool ⟨.sum, 0, -1⟩] (.array pair) = .ok (.array Y) ∧ M.get [0, 0] = false ∧ X.get [0, 0] = 7 ∧ Y.get [0, 0] = 4 := by
  obtain ⟨m, m1, m2, m3, m4⟩ := valid_mask
  have hz : zeroedPair.shape = [1, 3, 1] := rfl
  have hP : (validPool.apply zeroedPair).shape = [1, 2, 1] := rfl
  have hQ : (validPool.apply pair).shape = [1, 1, 1] := rfl
  have step : (ALayer.pool validPool).applyWithMasking (some (-1)) (.array paddedPair) = .ok (.masked ⟨validPool.apply zeroedPair, some m⟩) := by
    have : MLayer.maskFn (.pool validPool) maskPair = .ok m := m1
    simp only [ALayer.applyWithMasking, zeroed_eq, ALayer.mlayer, onMask, this]
    rfl
  have gs : ∀ x : Arr ℝ, ∀ N, x.shape = [1, N, 1] → (GlobalPool.apply ⟨.sum, 0, -1⟩ x).get [0, 0] = ((indices [N]).map fun p => x.get (actIdx 0 2 0 0 p)).sum := by
    intro x N hx
    simp [GlobalPool.apply, Arr.ndim, hx, sumOver, gather, List.range_succ]
  have hb : Kernel.maskArr (validPool.apply zeroedPair) (some m) = NT.bcast (fun b v => if b = true then 0 else v) m (validPool.apply zeroedPair) := by
    simp [Kernel.maskArr, Arr.ndim, hP]
  have hX := gs (Kernel.maskArr (validPool.apply zeroedPair) (some m)) 2 (by
    rw [hb]
    simp [NT.bcast, hP, m2, bcastDim])
  have i2 : indices [2] = [[0], [1]] := rfl
  have i1 : indices [1] = [[0]] := rfl
  have hk : ∀ o < 2, m.get [0, o, 0] = false → (Kernel.maskArr (validPool.apply zeroedPair) (some m)).get [0, o, 0] = zeroedPair.get [0, o, 0] + zeroedPair.get [0, o + 1, 0] := by
    intro o ho h
    rw [← valid_get zeroedPair 3 hz o (by omega)]
    have e : bcastIdx m.shape [0, o, 0] = [0, o, 0] := by rw [m2]; simp [bcastIdx]
    have e' : bcastIdx (validPool.apply zeroedPair).shape [0, o, 0] = [0, o, 0] := by rw [hP]; simp [bcastIdx]
    rw [hb]
    simp only [NT.bcast, e, e', h, Bool.false_eq_true, if_false]
  have e0 : actIdx 0 2 0 0 [0] = [0, 0, 0] := rfl
  have e1 : actIdx 0 2 0 0 [1] = [0, 1, 0] := rfl
  refine ⟨_, ⟨[1, 1], fun i => (indices [2]).all fun p => m.get (actIdx 0 2 (i.getD 0 0) (i.getD 1 0) p)⟩, _, ?_, rfl, ?_, hX.trans ?_, (gs (validPool.apply pair) 1 hQ).trans ?_⟩
  · simp only [applyAll, step]
    have : MLayer.maskFn (.globalPool ⟨.sum, 0, -1⟩) m = .ok ⟨[1, 1], fun i => (indices [2]).all fun p => m.get (actIdx 0 2 (i.getD 0 0) (i.getD 1 0) p)⟩ := by
      simp [MLayer.maskFn, globalMask, Arr.ndim, m2, gather, List.range_succ]
    simp only [bind, Except.bind, ALayer.applyWithMasking, ALayer.mlayer, getMaskedArray, onMask, this]
    rfl
  · simp only [i2, List.all_cons, List.getD_cons_zero, List.getD_cons_succ, e0, m3]
    rfl
  · simp only [i2, List.map_cons, e0, e1, hk 0 (by decide) m3, hk 1 (by decide) m4, zeroedPair_get]
    norm_num
  · simp only [i1, List.map_cons, e0, valid_get pair 2 rfl 0 (by decide)]
    norm_num [pair]

/-- `AvgPool((2,), padding='SAME', normalize_edges=True)`: the last word of the sentence `1, 3` becomes `3` alone, and `3 / 2` in a batch where it is
padded by a masked word. -/
theorem normalized_edges_see_padding :
    ∃ X m Y, applyAll (some (-1)) [.pool edgePool] (.array paddedPair) = .ok (.masked ⟨X, some m⟩) ∧
      applyAll none [.pool edgePool] (.array pair) = .ok (.array Y) ∧ m.get [0, 1, 0] = false ∧ X.get [0, 1, 0] = 3 / 2 ∧ Y.get [0, 1, 0] = 3 := by
  refine ⟨edgePool.apply zeroedPair, maskPair, edgePool.apply pair, ?_, rfl, (maskPair_get 0 1 0).trans (by decide), ?_, ?_⟩
  · simp only [applyAll, ALayer.applyWithMasking, zeroed_eq]
    rfl
  · have hs : zeroedPair.shape = [1, 3, 1] := rfl
    rw [edge_get, window_taps, window_taps]
    simp [hs, Arr.map, tapIdx, readTap, tap1, padsOf, samePads, zeroedPair_get]
    norm_num
  · have hs : pair.shape = [1, 2, 1] := rfl
    rw [edge_get, window_taps, window_taps]
    simp [hs, Arr.map, tapIdx, readTap, tap1, padsOf, samePads]
    norm_num [pair]

end NT.C100
