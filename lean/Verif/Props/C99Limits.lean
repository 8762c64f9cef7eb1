import Verif.Props.C99

/-!
# C99: where padding is visible

`Monomial(0)` (and `Polynomial` with a constant term) is not zero at zero, and its kernel function does not mask its output
(`supports_masking(remask_kernel=False)`), so that the padding enters the sums of the layers that follow.
In the layout of the diagonal of the positions, `GlobalAvgPool` divides by the padded size.
-/

namespace NT.C99
open NT NT.Network Arr Spec Semantics Masked

/-- Global sums of a masked kernel add all entries, whatever the masks are. -/
lemma global_sum_all {s : State} {k : Kernel ℝ} {m1 m2 : Arr Bool} (hk : Core s k) (hd : s.info.diagonalSpatial = false) (h1 : k.mask1 = some m1)
    (h2 : k.mask2 = some m2) (s1 : C25.MaskShape m1 s.info.batchAxis s.info.channelAxis s.L.n1 s.L.S1)
    (s2 : C25.MaskShape m2 s.info.batchAxis s.info.channelAxis s.L.n2 s.L.S2) (ba ca : ℤ) (g1 : ∃ r, globalMask ⟨.sum, ba, ca⟩ m1 = .ok r)
    (g2 : ∃ r, globalMask ⟨.sum, ba, ca⟩ m2 = .ok r) :
    ∃ K, (MLayer.globalPool ⟨.sum, ba, ca⟩).withMasking k = .ok K ∧
      ∀ i < s.L.n1, ∀ j < s.L.n2, K.nngp.get [i, j] = ∑ p ∈ box s.L.S1, ∑ q ∈ box s.L.S2, s.L.k12 [i, j] p q := by
  obtain ⟨r1, g1⟩ := g1
  obtain ⟨r2, g2⟩ := g2
  obtain ⟨i1, i2, i4, i5, i6, i7, i8, i9⟩ := hk.fields
  have hn := hk.stores.nngp
  rw [← i8, ← i9] at s1 s2
  obtain ⟨z11, q11, -⟩ := C25.maskProd_self k m1 _ _ s1
  obtain ⟨z22, q22, -⟩ := C25.maskProd_self k m2 _ _ s2
  obtain ⟨z12, q12, -⟩ := C25.maskProd_ok k m1 m2 _ _ _ _ s1 s2 hn.rank hn.square
  have hp : ∀ bn (x : Arr ℝ) z, poolArr ⟨.sum, ba, ca⟩ k.diagonalSpatial bn x z = .ok (GlobalPool.poolTail .sum bn x) := by
    intro bn x z
    simp [poolArr, bind, Except.bind, pure, Except.pure]
  have hp' : ∀ bn (x : Option (Arr ℝ)) z, ∃ y, poolArr? ⟨.sum, ba, ca⟩ k.diagonalSpatial bn x z = .ok y := by
    intro bn x z
    cases x with
    | none => exact ⟨none, rfl⟩
    | some x => exact ⟨some (GlobalPool.poolTail .sum bn x), by simp only [poolArr?, hp, Except.map]⟩
  obtain ⟨y2, e2⟩ := hp' k.batchNdim k.cov2 (some z22)
  obtain ⟨y3, e3⟩ := hp' 2 k.ntk (some z12)
  refine ⟨{ k with
      cov1 := GlobalPool.poolTail .sum k.batchNdim k.cov1, nngp := GlobalPool.poolTail .sum 2 k.nngp, cov2 := y2, ntk := y3
      batchAxis := if decide (ba % (k.shape1.length : ℤ) < ca % (k.shape1.length : ℤ)) then 0 else 1
      channelAxis := if decide (ba % (k.shape1.length : ℤ) < ca % (k.shape1.length : ℤ)) then 1 else 0
      isReversed := false, mask1 := some r1, mask2 := some r2 }, ?_, fun i hi j hj => ?_⟩
  · unfold MLayer.withMasking MLayer.kernelFn globalPoolKernel
    simp only [h1, h2, onMask, MLayer.maskFn, g1, g2, Except.map, bind, Except.bind, pure, Except.pure, q11, q12, q22, hp, e2, e3, MLayer.remask,
      Bool.false_eq_true, if_false]
  · rw [i5, hd] at hn
    have hs : k.nngp.shape.drop 2 = pos false k.isReversed s.L.S1 s.L.S2 := by rw [hn.shape]; simp
    simp only [GlobalPool.poolTail, hs, sumOver_eq_box]
    rw [sum_pairs _ hn.rank]
    refine Finset.sum_congr rfl fun p hp => Finset.sum_congr rfl fun q hq => ?_
    exact hn.get [i, j] p q (.cons hi (.cons hj .nil)) (mem_box.1 hp) (mem_box.1 hq) (by simp)

/-- `serial(Dense, Monomial(0), GlobalSumPool)` on sentences. -/
noncomputable def constantNet : List (MLayer × (List ℕ → List ℕ)) :=
  [(.dense C80.dense8, fun s => s.set 2 8), (.act (monomialDual 0).kernelFn false, id), (.globalPool ⟨.sum, 0, -1⟩, pooledShape)]

lemma constant_nonlinearity : Nonlinearity (monomialDual 0).kernelFn (fun _ => True) (fun x => x ^ 0) (deriv fun x : ℝ => x ^ 0) (dualN (monomialDual 0))
    (dualT (monomialDual 0)) := by
  have e : (deriv fun x : ℝ => x ^ 0) = fun _ : ℝ => (0 : ℝ) := by funext x; simp
  exact nonlinearity (C47.monomial_exact 0 (by omega)) mul_comm ⟨by fun_prop, by rw [e]; fun_prop⟩
    fun v => ⟨mem_pow 0 v, by rw [e]; exact MeasureTheory.MemLp.zero⟩

lemma constant_one (c u v : ℝ) : dualN (monomialDual 0) c u v = 1 := by
  simp [dualN, monomialDual, monomialNngp]

lemma sum_ones (S T : List ℕ) {f : List ℕ → List ℕ → ℝ} (h : ∀ p q, f p q = 1) : ∑ p ∈ box S, ∑ q ∈ box T, f p q = S.prod * T.prod := by
  simp only [h, Finset.sum_const, box_card, nsmul_eq_mul, mul_one]

/-- For all sentences with at least one word and all paddings: with padding, the sums over the positions after a constant nonlinearity count the padding, without padding
they count the words. -/
theorem constant_counts_padding (m : ℝ) (x1 x2 : Arr ℝ) (db ntk same same' : Bool) (n1 n2 C l1 l2 : ℕ) (len1 len2 : ℕ → List ℕ) (hC : 0 < C)
    (h1 : PaddedWith m x1 0 2 n1 C [l1] len1) (h2 : PaddedWith m x2 0 2 n2 C [l2] len2) (p1 : ∀ i < n1, 0 ∉ len1 i) (p2 : ∀ j < n2, 0 ∉ len2 j) (i j : ℕ)
    (hi : i < n1) (hj : j < n2) (y1 y2 : Arr ℝ) (g1 : ExampleOf y1 x1 0 2 i C len1) (g2 : ExampleOf y2 x2 0 2 j C len2) :
    ∃ k K k' K', Inputs.inputsToKernel x1 (some x2) db false ntk 0 (some (-1)) (some m) same = .ok k ∧ run constantNet k = .ok K ∧
      Inputs.inputsToKernel y1 (some y2) db false ntk 0 (some (-1)) none same' = .ok k' ∧ run constantNet k' = .ok K' ∧
      K.nngp.get [i, j] = l1 * l2 ∧ K'.nngp.get [0, 0] = (len1 i).prod * (len2 j).prod := by
  have hok := inputs_ok (S1 := [l1]) (S2 := [l2]) (db := db) (ntk := ntk) (same := same) (show 0 ≠ 2 by decide) (by simp) (by simp) rfl hC h1 h2
  obtain ⟨k, e1, e2, e3⟩ := C35.second_moment (some m) db false ntk same x1 (some x2) 0 (-1) n1 n2 C [l1] [l2] 0 2 (by simp) (by simp) (by decide) rfl (by simp)
    h1.shape h2.shape
  have hb := inputs_batch h1 h2 e2 e3
  -- with padding
  have ch : ∀ n c, ∀ T : List ℕ, T.length = 1 → (actIdx 0 2 n c T).set 2 8 = actIdx 0 2 n 8 T := fun n c T hT =>
    act_setChannel 0 2 n c 8 T (by decide) (by omega) (by omega)
  have hl : LayerSem (.dense C80.dense8) (paddedInputs m x1 x2 db ntk same 0 2 C n1 n2 [l1] [l2] len1 len2).toState _ :=
    ⟨by simp [C80.dense8], by simp [C80.dense8], C, by simp [paddedInputs, h1.shape, pyGetNat, C80.dense8, actIdx],
      by simp [paddedInputs, h2.shape, pyGetNat, C80.dense8, actIdx], rfl⟩
  obtain ⟨hok1, st1⟩ := step_batch hok (.dense (out := fun s => s.set 2 8) (c := 8) rfl hl fun n T hT => ch n _ T hT)
  obtain ⟨k1, f1, b1⟩ := st1 k hb
  obtain ⟨k2, f2, c2, c3, c4⟩ := core_act b1.core (closed_of hok1) rfl constant_nonlinearity ⟨fun _ _ _ _ => trivial, fun _ _ _ _ _ _ => trivial⟩
  obtain ⟨m1, q1, w1⟩ := b1.mask1
  obtain ⟨m2, q2, w2⟩ := b1.mask2
  generalize hk1 : setShapes (k.shape1.set 2 8) (k.shape2.set 2 8) k1 = k1' at b1 f2 c3 c4 q1 q2
  have f2' : (MLayer.act (monomialDual 0).kernelFn false).withMasking k1' = .ok { k2 with mask1 := some m1, mask2 := some m2 } := by
    unfold MLayer.withMasking MLayer.kernelFn
    rw [q1, q2]
    simp only [onMask, MLayer.maskFn, Except.map, bind, Except.bind, MLayer.layer, Layer.kernelFn, f2, MLayer.remask, Bool.false_eq_true, if_false]
  have ms1 : C25.MaskShape m1 0 2 n1 [l1] := ⟨by decide, by simp, by simp, w1.shape⟩
  have ms2 : C25.MaskShape m2 0 2 n2 [l2] := ⟨by decide, by simp, by simp, w2.shape⟩
  have hc := core_setShapes c2 (id k1'.shape1) (id k1'.shape2)
  obtain ⟨K, f3, f4⟩ := global_sum_all (k := setShapes (id k1'.shape1) (id k1'.shape2) { k2 with mask1 := some m1, mask2 := some m2 })
    ⟨⟨hc.stores.nngp, hc.stores.cov1, hc.stores.cov2, hc.stores.ntk⟩, hc.static, hc.full, hc.zero⟩ rfl rfl rfl
    ms1 ms2 0 (-1)
    ((globalMask_ok (d := ⟨.sum, 0, -1⟩) (S := [l1]) w1 (show (0:ℕ) ≠ 2 by decide) (show (0:ℕ) < 3 by decide) (show (2:ℕ) < 3 by decide) rfl rfl h1.fits p1 rfl rfl).imp fun _ h => h.1)
    ((globalMask_ok (d := ⟨.sum, 0, -1⟩) (S := [l2]) w2 (show (0:ℕ) ≠ 2 by decide) (show (0:ℕ) < 3 by decide) (show (2:ℕ) < 3 by decide) rfl rfl h2.fits p2 rfl rfl).imp fun _ h => h.1)
  -- alone
  have a1 := (h1.fits i hi).length_eq
  have a2 := (h2.fits j hj).length_eq
  obtain ⟨k', e1', e2', e3'⟩ := C35.second_moment none db false ntk same' y1 (some y2) 0 (-1) 1 1 C (len1 i) (len2 j) 0 2 (by rw [a1]; rfl) (by rw [a1]; rfl) (by decide)
    (by rw [a1, a2]; rfl) (by simp) g1.shape g2.shape
  have hd := C80.input_describes e2' e3'
  obtain ⟨u, hu⟩ := List.length_eq_one_iff.1 a1
  obtain ⟨v, hv⟩ := List.length_eq_one_iff.1 a2
  have s1 : y1.shape = [1, u, C] := by rw [g1.shape, hu]; rfl
  have s2 : y2.shape = [1, v, C] := by rw [g2.shape, hv]; rfl
  obtain ⟨j1, d1, d2⟩ := plain_sound (l := .dense C80.dense8) hd (by simp [Logical.Closed, C80.inputState, C35.second])
    ⟨by simp [C80.dense8], by simp [C80.dense8], C, by simp [C80.inputState, s1, pyGetNat, C80.dense8],
      by simp [C80.inputState, s2, pyGetNat, C80.dense8], rfl⟩
  have d3 := describes_withShapes d2 (k'.shape1.set 2 8) (k'.shape2.set 2 8)
  obtain ⟨j2, d4, d5⟩ := plain_sound (l := .act (monomialDual 0).kernelFn false) d3 (by simp [Logical.Closed, C80.inputState, C35.second, C52.after, State.withShapes])
    ⟨rfl, _, _, _, _, _, constant_nonlinearity, ⟨fun _ _ _ _ => trivial, fun _ _ _ _ _ _ => trivial⟩, rfl⟩
  have d6 := describes_withShapes d5 (k'.shape1.set 2 8) (k'.shape2.set 2 8)
  obtain ⟨j3, d7, d8⟩ := plain_sound (l := .globalPool ⟨.sum, 0, -1⟩) d6 (by simp [Logical.Closed, C80.inputState, C35.second, C52.after, State.withShapes, entrywise])
    ⟨by simp [State.withShapes, C80.inputState], by simp [State.withShapes, e3'.shape1, e3'.shape2, s1, s2], rfl⟩
  refine ⟨k, setShapes (pooledShape k1'.shape1) (pooledShape k1'.shape2) K, k',
    setShapes (pooledShape (k'.shape1.set 2 8)) (pooledShape (k'.shape2.set 2 8)) j3, e1, ?_, e1', ?_, ?_, ?_⟩
  · simp only [constantNet, run, f1, bind, Except.bind, hk1, f2']
    rw [f3]
    rfl
  · simp only [constantNet, run, d1, bind, Except.bind]
    rw [d4]
    dsimp only
    rw [show setShapes (id (setShapes (k'.shape1.set 2 8) (k'.shape2.set 2 8) j1).shape1) (id (setShapes (k'.shape1.set 2 8) (k'.shape2.set 2 8) j1).shape2) j2 =
      setShapes (k'.shape1.set 2 8) (k'.shape2.set 2 8) j2 from rfl, d7]
    rfl
  · refine (f4 i hi j hj).trans ?_
    refine (sum_ones [l1] [l2] fun p q => ?_).trans (by simp)
    simp only [State.withShapes, entrywise, constant_one]
  · have hn := d8.stores.nngp
    have hs := d8.static
    simp only [Kernel.static, Kernel.Static.mk.injEq] at hs
    rw [hs.2.2.2.2.1] at hn
    have g := hn.get [0, 0] [] [] (.cons Nat.one_pos (.cons Nat.one_pos .nil)) .nil .nil (by simp [C80.inputState, State.withShapes])
    have e : [0, 0] ++ pos false j3.isReversed [] [] = [0, 0] := by cases j3.isReversed <;> rfl
    refine (congrArg j3.nngp.get e.symm).trans (g.trans ?_)
    refine Eq.trans ?_ (sum_ones (len1 i) (len2 j) (f := fun _ _ => 1) fun _ _ => rfl)
    simp only [C54.globalPooled, linLogical, State.withShapes, C54.weight, reduceCtorEq, if_false, mul_one, one_mul, read2, entrywise, constant_one]
    rfl

/-- The sentence with one word, padded to length three: 9 with padding, 1 alone. -/
example (ntk : Bool) : ∃ k K k' K', Inputs.inputsToKernel exX (some exX) true false ntk 0 (some (-1)) (some 100) true = .ok k ∧ run constantNet k = .ok K ∧
    Inputs.inputsToKernel exY (some exY) true false ntk 0 (some (-1)) none true = .ok k' ∧ run constantNet k' = .ok K' ∧
    K.nngp.get [1, 1] = 9 ∧ K'.nngp.get [0, 0] = 1 := by
  have h : ∀ i < 2, 0 ∉ exLen i := by intro i _; unfold exLen; split <;> simp
  obtain ⟨k, K, k', K', h1, h2, h3, h4, h5, h6⟩ := constant_counts_padding 100 exX exX true ntk true true 2 2 2 3 3 exLen exLen (by decide) exX_padded exX_padded h h 1 1
    (by decide) (by decide) exY exY exY_example exY_example
  exact ⟨k, K, k', K', h1, h2, h3, h4, by rw [h5]; norm_num, by rw [h6]; simp [exLen]⟩

lemma sum_line {α : Type} [AddCommMonoid α] (n : ℕ) (f : List ℕ → α) : sumOver [n] f = ∑ p ∈ Finset.range n, f [p] := by
  rw [sumOver_eq_box]
  exact box_sum_singleton n f

lemma sum_prefix (f : ℕ → ℝ) (u l : ℕ) (h : u ≤ l) (hz : ∀ p, u ≤ p → p < l → f p = 0) : ∑ p ∈ Finset.range l, f p = ∑ p ∈ Finset.range u, f p :=
  (Finset.sum_subset (Finset.range_subset_range.2 h) fun p hp hp' => hz p (by simpa using hp') (by simpa using hp)).symm

/-- Averages over positions stored as a diagonal, in the way `GlobalAvgPool` computes them: `u` words padded to length `l` give the sum over `u * l`, the same words alone
give the sum over `u * u`. The limit network of `GlobalAvgPool` on the words has the latter (C54), so that padding is visible whenever `u < l` and the sum is not zero. -/
theorem diagonal_average_counts_padding (x y : Arr ℝ) (m : Arr Bool) (n1 n2 l u i j : ℕ) (ba ca : ℤ) (hu : 0 < u) (hul : u ≤ l) (hx : x.shape = [n1, n2, l])
    (hm : m.shape = [n1, n2, l]) (hy : y.shape = [1, 1, u]) (hmask : ∀ p < l, m.get [i, j, p] = true ↔ u ≤ p) (hzero : ∀ p, u ≤ p → p < l → x.get [i, j, p] = 0)
    (hxy : ∀ p < u, y.get [0, 0, p] = x.get [i, j, p]) :
    ∃ X Y, poolArr ⟨.avg, ba, ca⟩ true 2 x (some m) = .ok X ∧ poolArr ⟨.avg, ba, ca⟩ true 2 y none = .ok Y ∧
      X.get [i, j] = (∑ p ∈ Finset.range u, x.get [i, j, p]) / (u * l) ∧ Y.get [0, 0] = (∑ p ∈ Finset.range u, x.get [i, j, p]) / (u * u) := by
  have b2 : sumOver [l] (fun p => if m.get ([i, j] ++ p) then 1 else 0) = l - u := by
    rw [sum_line, show (fun p : ℕ => if m.get ([i, j] ++ [p]) = true then 1 else 0) = fun p => if m.get [i, j, p] = true then 1 else 0 from rfl, Finset.sum_boole,
      ← Nat.card_Ico]
    simp only [Nat.cast_id]
    congr 1
    ext p
    simp only [Finset.mem_filter, Finset.mem_range, Finset.mem_Ico]
    exact ⟨fun ⟨h1, h2⟩ => ⟨(hmask p h1).1 h2, h1⟩, fun ⟨h1, h2⟩ => ⟨h2, (hmask p h2).2 h1⟩⟩
  have b3 : max (l - (l - u)) 1 = u := by omega
  have e1 : poolArr ⟨.avg, ba, ca⟩ true 2 x (some m) = .ok (Arr.map (fun v => v / ((x.shape.drop 2).prod : ℕ)) ⟨x.shape.take 2, fun i =>
      (sumOver (x.shape.drop 2) fun p => x.get (i ++ p)) /
        (max ((x.shape.drop 2).prod - sumOver (x.shape.drop 2) fun p => if m.get (i ++ p) then 1 else 0) 1 : ℕ)⟩) := by
    simp [poolArr, maskedMean, hx, hm, bind, Except.bind, pure, Except.pure]
  have e2 : poolArr ⟨.avg, ba, ca⟩ true 2 y none = .ok (Arr.map (fun v => v / ((y.shape.drop 2).prod : ℕ)) (meanTail 2 y)) := by
    simp [poolArr, maskedMean, bind, Except.bind, pure, Except.pure]
  refine ⟨_, _, e1, e2, ?_, ?_⟩
  · simp only [Arr.map, hx, List.drop_succ_cons, List.drop_zero, List.prod_cons, List.prod_nil, mul_one, b2, b3]
    rw [div_div, sum_line]
    exact congrArg (· / ((u : ℝ) * l)) (sum_prefix (fun p => x.get [i, j, p]) u l hul hzero)
  · simp only [Arr.map, meanTail, hy, List.drop_succ_cons, List.drop_zero, List.prod_cons, List.prod_nil, mul_one, sum_line]
    rw [div_div]
    exact congrArg (· / ((u : ℝ) * u)) (Finset.sum_congr rfl fun p hp => hxy p (Finset.mem_range.1 hp))

/-- Two words padded to length three, with ones on the diagonal: 1/3 with padding, 1/2 alone. -/
example : ∃ X Y, poolArr ⟨.avg, 0, -1⟩ true 2 ⟨[1, 1, 3], fun i => if i.getD 2 0 < 2 then 1 else 0⟩ (some ⟨[1, 1, 3], fun i => decide (2 ≤ i.getD 2 0)⟩) = .ok X ∧
    poolArr ⟨.avg, 0, -1⟩ true 2 ⟨[1, 1, 2], fun _ => 1⟩ none = .ok Y ∧ X.get [0, 0] = 1 / 3 ∧ Y.get [0, 0] = 1 / 2 := by
  obtain ⟨X, Y, h1, h2, h3, h4⟩ := diagonal_average_counts_padding ⟨[1, 1, 3], fun i => if i.getD 2 0 < 2 then 1 else 0⟩ ⟨[1, 1, 2], fun _ => 1⟩
    ⟨[1, 1, 3], fun i => decide (2 ≤ i.getD 2 0)⟩ 1 1 3 2 0 0 0 (-1) (by decide) (by decide) rfl rfl rfl (by simp) (by intro p hp _; simp; omega)
    (by intro p hp; simp [hp])
  exact ⟨X, Y, h1, h2, by rw [h3]; rw [Finset.sum_range_succ, Finset.sum_range_succ]; norm_num, by rw [h4]; rw [Finset.sum_range_succ, Finset.sum_range_succ]; norm_num⟩

end NT.C99
