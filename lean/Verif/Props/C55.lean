import Verif.Lemmas.Flatten
import Verif.Lemmas.Channels

/-!
# C55: the kernel of `Flatten` is the average over positions of the equal-position entries, which is the
channel average of the flattened activations
-/

set_option linter.unusedSectionVars false

namespace NT.C55
open NT Arr Kernel Spec MeasureTheory

variable {E : Type} [NormedAddCommGroup E] [InnerProductSpace ℝ E] [CompleteSpace E] [MeasurableSpace E]

/-- The average of the equal-position entries. -/
noncomputable def avg (S : List ℕ) (F : List ℕ → List ℕ → List ℕ → ℝ) : List ℕ → List ℕ → List ℕ → ℝ :=
  fun b _ _ => (∑ p ∈ box S, F b p p) / S.prod

/-- The information in the kernel of flattened activations: no positions are left. -/
noncomputable def flat (L : Logical ℝ) : Logical ℝ where
  n1 := L.n1
  n2 := L.n2
  S1 := []
  S2 := []
  k12 := avg L.S1 L.k12
  k11 := avg L.S1 L.k11
  k22 := L.k22.map (avg L.S2)
  ntk := L.ntk.map (avg L.S1)

/-- In every layout the output kernel holds, for each pair of examples, the average over positions of the
equal-position entries. -/
theorem kernel_formula (f : Flatten) (bo co : ℕ) (hax : f.axesOut = .ok (bo, co)) (k : Kernel ℝ) (L : Logical ℝ)
    (hk : k.Stores L) (hS : L.S1 = L.S2) (hpos : 0 ∉ L.S1) :
    ∃ k', f.kernelFn k = .ok k' ∧ k'.Stores (flat L) ∧
      k'.static = { k.static with isGaussian := false, isReversed := false, batchAxis := bo, channelAxis := co,
                                  diagonalSpatial := false } ∧ k'.mask1 = k.mask1 ∧ k'.mask2 = k.mask2 := by
  unfold Flatten.kernelFn
  rw [hax]
  refine ⟨_, rfl, ⟨?_, ?_, ?_, ?_⟩, rfl, rfl, rfl⟩
  · have := hk.nngp
    rw [← hS] at this
    exact trace_holds this
  · have := trace_holds hk.cov1
    rw [batchShape_length] at this
    exact this
  · have := hk.cov2
    cases h1 : k.cov2 <;> cases h2 : L.k22 <;> simp only [h1, h2, flat, OptRel, Option.map] at this ⊢
    have := trace_holds this
    rw [batchShape_length] at this
    exact this
  · have := hk.ntk
    cases h1 : k.ntk <;> cases h2 : L.ntk <;> simp only [h1, h2, flat, OptRel, Option.map] at this ⊢
    rcases this with ⟨t1, t2⟩ | t
    · left
      obtain ⟨e1, e2⟩ := trace_scalar k.diagonalSpatial 2 _ t1
      refine ⟨e1, fun b p q => ?_⟩
      rw [e2]
      simp only [avg, t2, Finset.sum_const, box_card, nsmul_eq_mul]
      have : (L.S1.prod : ℝ) ≠ 0 := by
        rw [Nat.cast_ne_zero]
        exact fun h => hpos (List.prod_eq_zero_iff.1 h)
      field_simp
    · right
      rw [← hS] at t
      exact trace_holds t

/-- `apply_fn` puts the non-batch entries of each example in row-major order. -/
theorem apply_entries {α : Type} (f : Flatten) (bo co : ℕ) (hax : f.axesOut = .ok (bo, co)) (x : Arr α) (n B : ℕ)
    (R : List ℕ) (hB : B ≤ R.length) (hB' : (B : ℤ) = f.batchAxis % (R.length + 1)) (hx : x.shape = R.insertIdx B n) :
    ∃ z, f.apply x = .ok z ∧ z.shape = (if bo = 0 then [n, R.prod] else [R.prod, n]) ∧
      ∀ i r, i < n → InRange r R →
        z.get (if bo = 0 then [i, ravel R r] else [ravel R r, i]) = x.get (r.insertIdx B i) := by
  obtain ⟨z, h1, h2, h3⟩ := flatten_apply_ok f bo co hax x n B R hB hB' hx
  have hcases : (bo = 0 ∧ co = 1) ∨ (bo = 1 ∧ co = 0) := by
    unfold Flatten.axesOut at hax
    split_ifs at hax <;> simp at hax <;> omega
  refine ⟨z, h1, ?_, fun i r hi hr => ?_⟩
  · rw [h2]
    rcases hcases with ⟨rfl, rfl⟩ | ⟨rfl, rfl⟩ <;> simp [actIdx]
  · rw [← h3 i r hi hr]
    rcases hcases with ⟨rfl, rfl⟩ | ⟨rfl, rfl⟩ <;> simp [actIdx]

/-- The network `X` followed by the layer (a dummy if `apply_fn` fails). -/
noncomputable def layerOut (f : Flatten) (X : E → Arr ℝ) (θ : E) : Arr ℝ :=
  match f.apply (X θ) with
  | .ok z => z
  | .error _ => ⟨[], fun _ => 0⟩

lemma layerOut_shape (f : Flatten) (bo co : ℕ) (hax : f.axesOut = .ok (bo, co)) (X : E → Arr ℝ) (B A n C : ℕ)
    (S : List ℕ) (hB : B < S.length + 2) (hA : A < S.length + 2) (hne : B ≠ A)
    (hB' : (B : ℤ) = f.batchAxis % (S.length + 2)) (hX : ∀ θ, (X θ).shape = actIdx B A n C S) :
    (∀ θ, (layerOut f X θ).shape = actIdx bo co n (C * S.prod) []) ∧
      ∀ i < n, ∀ r, InRange r (S.insertIdx (newAxis A B) C) → ∀ θ,
        chan (layerOut f X) bo co i (ravel (S.insertIdx (newAxis A B) C) r) [] θ = (X θ).get (r.insertIdx B i) := by
  have hA' : newAxis A B ≤ S.length := Inputs.newAxis_le hne.symm hA hB
  have hl : (S.insertIdx (newAxis A B) C).length = S.length + 1 := by rw [List.length_insertIdx, if_pos hA']
  have hp : (S.insertIdx (newAxis A B) C).prod = C * S.prod := by
    rw [insertIdx_app _ _ _ hA', List.prod_append, List.prod_cons]
    conv_rhs => rw [← List.take_append_drop (newAxis A B) S, List.prod_append]
    ring
  have key := fun θ => flatten_apply_ok f bo co hax (X θ) n B (S.insertIdx (newAxis A B) C) (by omega)
    (by rw [hl, hB']; push_cast; ring_nf) (by rw [hX θ, actIdx_insert' B A n C S hne hB hA])
  rw [hp] at key
  constructor
  · intro θ
    obtain ⟨z, h1, h2, -⟩ := key θ
    simp only [layerOut, h1, h2]
  · intro i hi r hr θ
    obtain ⟨z, h1, -, h3⟩ := key θ
    simp only [chan, layerOut, h1]
    exact h3 i r hi hr

lemma sum_channels (f : Flatten) (bo co : ℕ) (hax : f.axesOut = .ok (bo, co)) (X Y : E → Arr ℝ) (B A n m C : ℕ)
    (S : List ℕ) (hB : B < S.length + 2) (hA : A < S.length + 2) (hne : B ≠ A)
    (hB' : (B : ℤ) = f.batchAxis % (S.length + 2)) (hX : ∀ θ, (X θ).shape = actIdx B A n C S)
    (hY : ∀ θ, (Y θ).shape = actIdx B A m C S) (i j : ℕ) (hi : i < n) (hj : j < m)
    (Φ : (E → ℝ) → (E → ℝ) → ℝ) (F : List ℕ → List ℕ → List ℕ → ℝ)
    (hF : ∀ p, InRange p S → F [i, j] p p = (∑ c ∈ Finset.range C, Φ (chan X B A i c p) (chan Y B A j c p)) / C) :
    avg S F [i, j] [] [] = (∑ c ∈ Finset.range (C * S.prod),
      Φ (chan (layerOut f X) bo co i c []) (chan (layerOut f Y) bo co j c [])) / (C * S.prod : ℕ) := by
  have hA' : newAxis A B ≤ S.length := Inputs.newAxis_le hne.symm hA hB
  have hp : (S.insertIdx (newAxis A B) C).prod = C * S.prod := by
    rw [insertIdx_app _ _ _ hA', List.prod_append, List.prod_cons]
    conv_rhs => rw [← List.take_append_drop (newAxis A B) S, List.prod_append]
    ring
  obtain ⟨-, x2⟩ := layerOut_shape f bo co hax X B A n C S hB hA hne hB' hX
  obtain ⟨-, y2⟩ := layerOut_shape f bo co hax Y B A m C S hB hA hne hB' hY
  have e : ∑ c ∈ Finset.range (C * S.prod),
      Φ (chan (layerOut f X) bo co i c []) (chan (layerOut f Y) bo co j c []) =
      ∑ c ∈ Finset.range C, ∑ p ∈ box S, Φ (chan X B A i c p) (chan Y B A j c p) := by
    have e1 : ∀ c ∈ Finset.range C, ∑ p ∈ box S, Φ (chan X B A i c p) (chan Y B A j c p) =
        ∑ p ∈ box S, (fun r => Φ (fun θ => (X θ).get (r.insertIdx B i)) (fun θ => (Y θ).get (r.insertIdx B j)))
          (p.insertIdx (newAxis A B) c) := by
      intro c _
      refine Finset.sum_congr rfl fun p hp => ?_
      rw [mem_box] at hp
      have := hp.length
      unfold chan
      simp only [actIdx_insert' B A _ c p hne (by omega) (by omega)]
    rw [Finset.sum_congr rfl e1, ← box_sum_insertIdx S (newAxis A B) C hA'
      (fun r => Φ (fun θ => (X θ).get (r.insertIdx B i)) (fun θ => (Y θ).get (r.insertIdx B j))), ← box_sum_ravel, hp]
    refine Finset.sum_congr rfl fun t ht => ?_
    rw [← hp, Finset.mem_range] at ht
    have r1 := inRange_unravel ht
    have x3 := x2 i hi _ r1
    have y3 := y2 j hj _ r1
    rw [ravel_unravel ht] at x3 y3
    rw [funext x3, funext y3]
  rw [e, Finset.sum_comm]
  unfold avg
  rw [Finset.sum_congr rfl fun p hp => hF p (mem_box.1 hp), ← Finset.sum_div, div_div]
  push_cast
  rfl

/-- If the input kernel holds the channel averages of the second moments and tangent kernels of random
activations, the output kernel holds those of the flattened activations returned by `apply_fn`. -/
theorem kernel_exact (μ : Measure E) (f : Flatten) (bo co : ℕ) (hax : f.axesOut = .ok (bo, co))
    (X1 X2 : E → Arr ℝ) (B A C : ℕ) (k : Kernel ℝ) (L : Logical ℝ) (hk : k.Stores L) (hS : L.S1 = L.S2)
    (hpos : 0 ∉ L.S1) (hB : B < L.S1.length + 2) (hA : A < L.S1.length + 2) (hne : B ≠ A)
    (hB' : (B : ℤ) = f.batchAxis % (L.S1.length + 2))
    (h1 : ∀ θ, (X1 θ).shape = actIdx B A L.n1 C L.S1) (h2 : ∀ θ, (X2 θ).shape = actIdx B A L.n2 C L.S2)
    (hL : ChannelKernelOf μ C (chan X1 B A) (chan X2 B A) L) :
    ∃ k' L', f.kernelFn k = .ok k' ∧ k'.Stores L' ∧
      (L'.n1, L'.n2, L'.S1, L'.S2, L'.k22.isSome, L'.ntk.isSome) =
        (L.n1, L.n2, [], [], L.k22.isSome, L.ntk.isSome) ∧
      k'.batchAxis = bo ∧ k'.channelAxis = co ∧ k'.isGaussian = false ∧
      (∀ θ, (layerOut f X1 θ).shape = actIdx bo co L.n1 (C * L.S1.prod) []) ∧
      (∀ θ, (layerOut f X2 θ).shape = actIdx bo co L.n2 (C * L.S1.prod) []) ∧
      ChannelKernelOf μ (C * L.S1.prod) (chan (layerOut f X1) bo co) (chan (layerOut f X2) bo co) L' := by
  obtain ⟨k', hk', hst, hstat, -⟩ := kernel_formula f bo co hax k L hk hS hpos
  have g2 : ∀ θ, (X2 θ).shape = actIdx B A L.n2 C L.S1 := by rw [hS]; exact h2
  refine ⟨k', flat L, hk', hst, by simp [flat], congrArg Static.batchAxis hstat,
    congrArg Static.channelAxis hstat, congrArg Static.isGaussian hstat,
    (layerOut_shape f bo co hax X1 B A L.n1 C L.S1 hB hA hne hB' h1).1,
    (layerOut_shape f bo co hax X2 B A L.n2 C L.S1 hB hA hne hB' g2).1, ?_, ?_, ?_, ?_⟩
  · intro i j p q hi hj hp hq
    simp only [flat, inRange_nil_right] at hp hq
    subst hp hq
    exact sum_channels f bo co hax X1 X2 B A L.n1 L.n2 C L.S1 hB hA hne hB' h1 g2 i j hi hj (secondMoment μ) L.k12
      fun p hp => hL.k12 i j p p hi hj hp (by rw [← hS]; exact hp)
  · intro i j p q hi hj hp hq
    simp only [flat, inRange_nil_right] at hp hq
    subst hp hq
    exact sum_channels f bo co hax X1 X1 B A L.n1 L.n1 C L.S1 hB hA hne hB' h1 h1 i j hi hj (secondMoment μ) L.k11
      fun p hp => hL.k11 i j p p hi hj hp hp
  · intro F hF i j p q hi hj hp hq
    simp only [flat, inRange_nil_right] at hp hq
    subst hp hq
    simp only [flat, Option.map_eq_some_iff] at hF
    obtain ⟨G, hG, rfl⟩ := hF
    rw [← hS]
    exact sum_channels f bo co hax X2 X2 B A L.n2 L.n2 C L.S1 hB hA hne hB' g2 g2 i j hi hj (secondMoment μ) G
      fun p hp => hL.k22 G hG i j p p hi hj (by rw [← hS]; exact hp) (by rw [← hS]; exact hp)
  · intro F hF i j p q hi hj hp hq
    simp only [flat, inRange_nil_right] at hp hq
    subst hp hq
    simp only [flat, Option.map_eq_some_iff] at hF
    obtain ⟨G, hG, rfl⟩ := hF
    exact sum_channels f bo co hax X1 X2 B A L.n1 L.n2 C L.S1 hB hA hne hB' h1 g2 i j hi hj (tangent μ) G
      fun p hp => hL.ntk G hG i j p p hi hj hp (by rw [← hS]; exact hp)

/-- `batch_axis_out` other than 0, 1, -1, -2 is rejected. -/
theorem axis_rejected (f : Flatten) (h : f.batchAxisOut < -2 ∨ 1 < f.batchAxisOut) (k : Kernel ℝ) (x : Arr ℝ) :
    f.kernelFn k = .error .valueError ∧ f.apply x = .error .valueError := by
  have : f.axesOut = .error .valueError := by
    unfold Flatten.axesOut
    rw [if_neg (by omega), if_neg (by omega)]
  simp [Flatten.kernelFn, Flatten.apply, this]

example : (⟨0, 2⟩ : Flatten).kernelFn ((lin1L 1 (fun _ _ _ => 0) (fun _ _ _ => 0) 1 1 [] []).encode true true true) =
    .error .valueError := (axis_rejected _ (by decide) _ ⟨[], fun _ => 0⟩).1

/-- For `batch_axis_out = 0` the mask of a flattened entry is the mask of the entry. -/
theorem mask_follows (f : Flatten) (hf : f.batchAxisOut = 0 ∨ f.batchAxisOut = -2) (m : Arr Bool) (n B : ℕ)
    (R : List ℕ) (hB : B ≤ R.length) (hB' : (B : ℤ) = f.batchAxis % (R.length + 1)) (hm : m.shape = R.insertIdx B n) :
    ∃ z, f.maskFn m = .ok z ∧ z.shape = [n, R.prod] ∧
      ∀ i r, i < n → InRange r R → z.get [i, ravel R r] = m.get (r.insertIdx B i) := by
  have hax : f.axesOut = .ok (0, 1) := by unfold Flatten.axesOut; rw [if_pos hf]
  obtain ⟨z, h1, h2, h3⟩ := apply_entries f 0 1 hax m n B R hB hB' hm
  exact ⟨z, by rw [← h1]; simp [Flatten.maskFn, Flatten.apply, hax], h2, h3⟩

/-- For `batch_axis_out = 1` and inputs with spatial axes it is not: the batch axis is moved to another place
than by `apply_fn`. -/
theorem mask_misplaced : ∃ (f : Flatten) (m z y : Arr Bool), f.apply m = .ok z ∧ f.maskFn m = .ok y ∧
    z.shape = y.shape ∧ z.get [0, 1] ≠ y.get [0, 1] := by
  let m : Arr Bool := ⟨[2, 1, 2], fun i => i = [1, 0, 0]⟩
  obtain ⟨z, h1, h2, h3⟩ := apply_entries (⟨0, 1⟩ : Flatten) 1 0 (by decide) m 2 0 [1, 2] (by decide) (by decide) rfl
  obtain ⟨g1, g2⟩ := moveaxis_back m 1 2 [1, 2] (by decide) rfl
  refine ⟨⟨0, 1⟩, m, z, (m.moveaxis [0] [1]).reshape [2, 2], h1, ?_, h2, ?_⟩
  · change (m.moveaxis [0] [1]).reshapeE [2, 2] = _
    unfold reshapeE
    rw [if_pos (by rw [g1]; decide)]
  · have e1 : z.get [0, 1] = true := h3 1 [0, 0] (by decide) (by decide)
    have e2 : ((m.moveaxis [0] [1]).reshape [2, 2]).get [0, 1] = false := by
      rw [reshape_get _ [2, 2] (i := [0, 1]) (j := [0, 0, 1]) (by rw [g1]; decide) (by rw [g1]; decide)]
      exact g2 0 [0, 1] rfl
    rw [e1, e2]
    decide

/-! ### A concrete network -/

/-- Two examples, two channels, positions `[2, 3]`, batch axis 0, channel axis -1. -/
noncomputable def exX (a : ℕ → ℕ → List ℕ → ℝ) (θ : ℝ) : Arr ℝ :=
  ⟨[2, 2, 3, 2], fun i => a (i.getD 0 0) (i.getD 3 0) [i.getD 1 0, i.getD 2 0] * θ⟩

example (a : ℕ → ℕ → List ℕ → ℝ) (db rev : Bool) : ∃ k' L',
    (⟨0, -1⟩ : Flatten).kernelFn ((lin1L 2 a a 2 2 [2, 3] [2, 3]).encode db false rev) = .ok k' ∧ k'.Stores L' ∧
      ChannelKernelOf (ProbabilityTheory.gaussianReal 0 1) 12 (chan (layerOut ⟨0, -1⟩ (exX a)) 1 0)
        (chan (layerOut ⟨0, -1⟩ (exX a)) 1 0) L' := by
  have hch : ∀ i < 2, ∀ c < 2, ∀ p, InRange p [2, 3] → chan (exX a) 0 3 i c p = lin1 a i c p := by
    intro i _ c _ p hp
    obtain ⟨u, v, rfl, -, -⟩ := Inputs.inRange_two hp
    funext θ
    simp [chan, exX, lin1, actIdx]
  have hL : ChannelKernelOf (ProbabilityTheory.gaussianReal 0 1) 2 (chan (exX a) 0 3) (chan (exX a) 0 3)
      (lin1L 2 a a 2 2 [2, 3] [2, 3]) :=
    (lin1_kernel 2 a a 2 2 [2, 3] [2, 3]).congr (fun i hi c hc p hp => (hch i hi c hc p hp).symm)
      (fun i hi c hc p hp => (hch i hi c hc p hp).symm)
  obtain ⟨k', L', h1, h2, -, -, -, -, -, -, h3⟩ := kernel_exact _ (⟨0, -1⟩ : Flatten) 1 0 (by decide) (exX a) (exX a) 0 3 2
    ((lin1L 2 a a 2 2 [2, 3] [2, 3]).encode db false rev) _ (Logical.encode_stores _ db false rev (by simp) rfl) rfl
    (by simp [lin1L]) (by simp [lin1L]) (by simp [lin1L]) (by decide) (by simp [lin1L]) (fun θ => rfl) (fun θ => rfl) hL
  exact ⟨k', L', h1, h2, h3⟩

end NT.C55
