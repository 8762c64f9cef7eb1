import Verif.Tac
import Verif.Props.C101

/-!
# C101: global pooling and flattening on top of wide convolutional networks
-/

namespace NT.C101
open _root_.NT.WideConv
open NT NT.Network NT.Spec NT.Semantics NT.Gauss MeasureTheory ProbabilityTheory

variable {B A C r n1 n2 : ℕ} {S1 S2 : List ℕ} {x1 : Arr ℝ} {x2 : Option (Arr ℝ)}

/-- If the pooled covariances are far from each other, so are those of some positions. -/
lemma pool_far {T1 T2 : List ℕ} {F G : List ℕ → List ℕ → ℝ} {w ε : ℝ} (hε : 0 < ε)
    (h : ε ≤ |w * (∑ p ∈ box T1, ∑ q ∈ box T2, F p q) - w * ∑ p ∈ box T1, ∑ q ∈ box T2, G p q|) :
    ∃ p q, InRange p T1 ∧ InRange q T2 ∧ ε / (|w| * ((box T1).card * (box T2).card) + 1) ≤ |F p q - G p q| := by
  by_contra hc
  push Not at hc
  set m : ℝ := (box T1).card * (box T2).card with hm
  have hm0 : 0 ≤ m := by positivity
  set η := ε / (|w| * m + 1) with hη
  have hd : 0 < |w| * m + 1 := by positivity
  have hη0 : 0 < η := by positivity
  rw [← mul_sub, abs_mul, ← Finset.sum_sub_distrib] at h
  have h2 : |∑ p ∈ box T1, (∑ q ∈ box T2, F p q - ∑ q ∈ box T2, G p q)| ≤ m * η := by
    refine (Finset.abs_sum_le_sum_abs _ _).trans ?_
    have : ∀ p ∈ box T1, |∑ q ∈ box T2, F p q - ∑ q ∈ box T2, G p q| ≤ (box T2).card * η := by
      intro p hp
      rw [← Finset.sum_sub_distrib]
      refine (Finset.abs_sum_le_sum_abs _ _).trans ?_
      refine (Finset.sum_le_sum fun q hq => (hc p q (mem_box.1 hp) (mem_box.1 hq)).le).trans ?_
      rw [Finset.sum_const, nsmul_eq_mul]
    refine (Finset.sum_le_sum this).trans ?_
    rw [Finset.sum_const, nsmul_eq_mul, hm, mul_assoc]
  have h3 : |w| * (m * η) < ε := by
    have : η * (|w| * m + 1) = ε := div_mul_cancel₀ _ hd.ne'
    nlinarith
  have := mul_le_mul_of_nonneg_left h2 (abs_nonneg w)
  linarith

lemma pooled_k12 (type : Pooling) (L : Logical ℝ) (b : List ℕ) : (C54.globalPooled type L).k12 b [] [] =
    C54.weight type L.S1 * C54.weight type L.S2 * ∑ p ∈ box L.S1, ∑ q ∈ box L.S2, L.k12 b p q := by
  unfold C54.globalPooled linLogical
  simp only [read2, Finset.mul_sum]

/-- The empirical kernel of a wide random convolutional network followed by `GlobalAvgPool` or `GlobalSumPool` is close to the kernel computed by `kernel_fn` of
the whole network, with high probability.  `out` is the output shape that `init_fn` of the pooling layer reports. -/
theorem conv_globalPool_converges (x1 : Arr ℝ) (x2 : Option (Arr ℝ)) (db ntk same : Bool) (ba ca : ℤ) (n1 n2 C r : ℕ) (S1 S2 : List ℕ) (B A : ℕ)
    (hr1 : S1.length + 2 = r) (hr2 : S2.length + 2 = r) (hB : (B : ℤ) = ba % r) (hA : (A : ℤ) = ca % r) (hne : B ≠ A)
    (hx : x2 = none → n2 = n1 ∧ S2 = S1) (h1 : x1.shape = actIdx B A n1 C S1)
    (h2 : (x2.getD x1).shape = actIdx B A n2 C S2) (hC : 0 < C) (stages : List ConvStage) (hst : ∀ s ∈ stages, StageOk r s)
    (g : GlobalPool) (out : List ℕ → List ℕ) (hgB : (B : ℤ) = g.batchAxis % r) (hgA : (A : ℤ) = g.channelAxis % r) {ε δ : ℝ} (hε : 0 < ε) (hδ : 0 < δ) :
    ∃ n0, ∀ layers, List.Forall₂ (fun d s => ConvStage.Fits B A n0 d s) layers stages →
      ∃ k0 k, Inputs.inputsToKernel x1 x2 db false ntk ba (some ca) none same = .ok k0 ∧
        ((convNet layers).seq (.layer (.globalPool g) out)).run (.one k0) = .ok (.one k) ∧ k.nngp.shape = [n1, n2] ∧
        let N := drawConv C r layers
        let entry := fun i c : ℕ => if B < A then [i, c] else [c, i]
        N.law {θ | ∃ i j, i < n1 ∧ j < n2 ∧
          ε ≤ |(∑ c ∈ Finset.range N.channels, (g.apply (N.apply θ x1)).get (entry i c) * (g.apply (N.apply θ (x2.getD x1))).get (entry j c)) / N.channels -
            k.nngp.get [i, j]|} ≤ ENNReal.ofReal δ := by
  have hBl : B < r := by
    have := Int.emod_lt_of_pos ba (b := (r : ℤ)) (by omega)
    omega
  have hAl : A < r := by
    have := Int.emod_lt_of_pos ca (b := (r : ℤ)) (by omega)
    omega
  have hsm : ∀ s ∈ stages, Smooth r s := fun s hs => (hst s hs).smooth
  set T1 := dimsAfter stages S1 with hT1
  set T2 := dimsAfter stages S2 with hT2
  have l1 : T1.length + 2 = r := dims_length hsm hr1
  have l2 : T2.length + 2 = r := dims_length hsm hr2
  set w := C54.weight g.type T1 * C54.weight g.type T2 with hw
  have hη : 0 < ε / (|w| * ((box T1).card * (box T2).card) + 1) := by positivity
  obtain ⟨n0, hn⟩ := tends_all hC hne hBl hAl hr1 hr2 h1 h2 stages hsm hη hδ
  refine ⟨max n0 1, fun dl hdl => ?_⟩
  have hdl0 := hdl.imp fun d s hf => Fits.mono (le_max_left n0 1) hf
  have hG := good_draw hC hne hBl hAl stages hsm one_pos (hdl.imp fun d s hf => Fits.mono (le_max_right n0 1) hf)
  obtain ⟨k0, e0, f0, g0⟩ := C35.second_moment none db false ntk same x1 x2 ba ca n1 n2 C S1 S2 B A (by rw [hB, ← hr1]; push_cast; rfl)
    (by rw [hA, ← hr1]; push_cast; rfl) hne (by omega) (by simp) h1 h2
  obtain ⟨s, hs, ht, g1, g2⟩ := tracks hne hBl hAl hr1 hr2 db false ntk same hx h1 h2 stages hst hdl
  have hsem : LayerSem (.globalPool g) s _ := ⟨fun h => by rw [g1] at h; simp at h, by
    rw [ht.shape1, ht.shape2, ← hT1, ← hT2, actIdx_length B A _ _ _ hne (by omega) (by omega), actIdx_length B A _ _ _ hne (by omega) (by omega)]; omega, rfl⟩
  obtain ⟨y, hy, hr⟩ := net_sound (NetSem.seq hs (.layer (out := out) ht.closed hsem)) (.one _ _ (C80.input_describes f0 g0))
  cases hr with
  | one k _ hk =>
    have hkn := hk.stores.nngp
    have hds : k.diagonalSpatial = false := by
      rw [← g1]
      exact congrArg Kernel.Static.diagonalSpatial hk.static
    have hrev : k.isReversed = false := congrArg Kernel.Static.isReversed hk.static
    have ksh : k.nngp.shape = [n1, n2] := by
      rw [hkn.shape, hds, hrev]
      show [s.L.n1, s.L.n2] ++ _ = _
      rw [ht.dims.1, ht.dims.2.1]
      rfl
    refine ⟨k0, k, e0, hy, ksh, ?_⟩
    intro N entry
    refine (measure_mono ?_).trans (hn dl hdl0)
    rintro θ ⟨i, j, hi, hj, h⟩
    have kg : k.nngp.get [i, j] = w * ∑ p ∈ box T1, ∑ q ∈ box T2, s.L.k12 [i, j] p q := by
      have := hkn.get [i, j] [] [] (by
        show InRange [i, j] [s.L.n1, s.L.n2]
        rw [ht.dims.1, ht.dims.2.1]
        exact .cons hi (.cons hj .nil)) .nil .nil fun _ => rfl
      refine Eq.trans ?_ (this.trans ?_)
      · rw [hds, hrev]; rfl
      · show (C54.globalPooled g.type s.L).k12 [i, j] [] [] = _
        rw [pooled_k12, ht.dims.2.2.1, ht.dims.2.2.2]
    obtain ⟨-, a1⟩ := C54.global_apply_entries g (N.apply θ x1) T1 B A n1 N.channels (by omega) (by omega) hne (by rw [hgB, ← l1]; push_cast; rfl)
      (by rw [hgA, ← l1]; push_cast; rfl) (hG.shape x1 n1 S1 hr1 h1 θ)
    obtain ⟨-, a2⟩ := C54.global_apply_entries g (N.apply θ (x2.getD x1)) T2 B A n2 N.channels (by omega) (by omega) hne (by rw [hgB, ← l2]; push_cast; rfl)
      (by rw [hgA, ← l2]; push_cast; rfl) (hG.shape _ n2 S2 hr2 h2 θ)
    have eg : (∑ c ∈ Finset.range N.channels, (g.apply (N.apply θ x1)).get (entry i c) * (g.apply (N.apply θ (x2.getD x1))).get (entry j c)) / N.channels =
        w * ∑ p ∈ box T1, ∑ q ∈ box T2, emp B A N ⟨x1, n1, S1, i, p⟩ ⟨x2.getD x1, n2, S2, j, q⟩ θ := by
      simp only [entry, a1, a2]
      unfold emp
      simp only [← Finset.sum_div, mul_div_assoc']
      congr 1
      have e1 : ∀ p ∈ box T1, ∑ q ∈ box T2, ∑ c ∈ Finset.range N.channels, val B A N ⟨x1, n1, S1, i, p⟩ c θ * val B A N ⟨x2.getD x1, n2, S2, j, q⟩ c θ =
          ∑ c ∈ Finset.range N.channels, ∑ q ∈ box T2, val B A N ⟨x1, n1, S1, i, p⟩ c θ * val B A N ⟨x2.getD x1, n2, S2, j, q⟩ c θ := fun p _ => Finset.sum_comm
      rw [Finset.sum_congr rfl e1, Finset.sum_comm, Finset.mul_sum]
      refine Finset.sum_congr rfl fun c _ => ?_
      have e2 : ∑ p ∈ box T1, ∑ q ∈ box T2, val B A N ⟨x1, n1, S1, i, p⟩ c θ * val B A N ⟨x2.getD x1, n2, S2, j, q⟩ c θ =
          (∑ p ∈ box T1, (N.apply θ x1).get (actIdx B A i c p)) * ∑ q ∈ box T2, (N.apply θ (x2.getD x1)).get (actIdx B A j c q) :=
        (Finset.sum_mul_sum _ _ _ _).symm
      rw [e2, hw]
      ring
    rw [eg, kg] at h
    obtain ⟨p, q, hp, hq, hf⟩ := pool_far hε h
    rw [ht.k12 i j p q hi hj hp hq] at hf
    exact ⟨i, j, p, q, hi, hj, hp, hq, hf⟩

/-- The empirical kernel of a wide random convolutional network followed by `Flatten` is close to the kernel computed by `kernel_fn` of the whole network, with
high probability.  The spatial shapes of the inputs are equal and the outputs of the convolutions are not empty. -/
theorem conv_flatten_converges (x1 : Arr ℝ) (x2 : Option (Arr ℝ)) (db ds ntk same : Bool) (ba ca : ℤ) (n1 n2 C r : ℕ) (S : List ℕ) (B A : ℕ)
    (hr1 : S.length + 2 = r) (hB : (B : ℤ) = ba % r) (hA : (A : ℤ) = ca % r) (hne : B ≠ A)
    (hx : x2 = none → n2 = n1) (h1 : x1.shape = actIdx B A n1 C S)
    (h2 : (x2.getD x1).shape = actIdx B A n2 C S) (hC : 0 < C) (stages : List ConvStage) (hst : ∀ s ∈ stages, StageOk r s)
    (hpos : 0 ∉ dimsAfter stages S) (f : Flatten) (out : List ℕ → List ℕ) (bo co : ℕ) (hf : f.axesOut = .ok (bo, co)) (hfB : (B : ℤ) = f.batchAxis % r)
    {ε δ : ℝ} (hε : 0 < ε) (hδ : 0 < δ) :
    ∃ n0, ∀ layers, List.Forall₂ (fun d s => ConvStage.Fits B A n0 d s) layers stages →
      ∃ k0 k, Inputs.inputsToKernel x1 x2 db ds ntk ba (some ca) none same = .ok k0 ∧
        ((convNet layers).seq (.layer (.flatten f) out)).run (.one k0) = .ok (.one k) ∧ k.nngp.shape = [n1, n2] ∧
        let N := drawConv C r layers
        let M := N.channels * (dimsAfter stages S).prod
        N.law {θ | ¬ ∃ z1 z2, f.apply (N.apply θ x1) = .ok z1 ∧ f.apply (N.apply θ (x2.getD x1)) = .ok z2 ∧ z1.shape = actIdx bo co n1 M [] ∧
          z2.shape = actIdx bo co n2 M [] ∧ ∀ i j, i < n1 → j < n2 →
            |(∑ c ∈ Finset.range M, z1.get (actIdx bo co i c []) * z2.get (actIdx bo co j c [])) / M - k.nngp.get [i, j]| < ε} ≤ ENNReal.ofReal δ := by
  have hBl : B < r := by
    have := Int.emod_lt_of_pos ba (b := (r : ℤ)) (by omega)
    omega
  have hAl : A < r := by
    have := Int.emod_lt_of_pos ca (b := (r : ℤ)) (by omega)
    omega
  have hsm : ∀ s ∈ stages, Smooth r s := fun s hs => (hst s hs).smooth
  set T := dimsAfter stages S with hT
  have l1 : T.length + 2 = r := dims_length hsm hr1
  obtain ⟨n0, hn⟩ := tends_all hC hne hBl hAl hr1 hr1 h1 h2 stages hsm hε hδ
  refine ⟨max n0 1, fun dl hdl => ?_⟩
  have hdl0 := hdl.imp fun d s hf => Fits.mono (le_max_left n0 1) hf
  have hG := good_draw hC hne hBl hAl stages hsm one_pos (hdl.imp fun d s hf => Fits.mono (le_max_right n0 1) hf)
  obtain ⟨k0, e0, f0, g0⟩ := C35.second_moment none db ds ntk same x1 x2 ba ca n1 n2 C S S B A (by rw [hB, ← hr1]; push_cast; rfl)
    (by rw [hA, ← hr1]; push_cast; rfl) hne (by omega) (fun _ => rfl) h1 h2
  obtain ⟨s, hs, ht, g1, g2⟩ := tracks hne hBl hAl hr1 hr1 db ds ntk same (fun h => ⟨hx h, rfl⟩) h1 h2 stages hst hdl
  have hsem : LayerSem (.flatten f) s _ := ⟨bo, co, hf, ht.dims.2.2.1.trans ht.dims.2.2.2.symm, by rw [ht.dims.2.2.1]; exact hpos, rfl⟩
  obtain ⟨y, hy, hr⟩ := net_sound (NetSem.seq hs (.layer (out := out) ht.closed hsem)) (.one _ _ (C80.input_describes f0 g0))
  cases hr with
  | one k _ hk =>
    have hkn := hk.stores.nngp
    have hds : k.diagonalSpatial = false := congrArg Kernel.Static.diagonalSpatial hk.static
    have hrev : k.isReversed = false := congrArg Kernel.Static.isReversed hk.static
    have ksh : k.nngp.shape = [n1, n2] := by
      rw [hkn.shape, hds, hrev]
      show [s.L.n1, s.L.n2] ++ _ = _
      rw [ht.dims.1, ht.dims.2.1]
      rfl
    refine ⟨k0, k, e0, hy, ksh, ?_⟩
    intro N M
    refine (measure_mono ?_).trans (hn dl hdl0)
    intro θ hθ
    by_contra hc
    refine hθ ?_
    have sx1 : ∀ θ, (N.apply θ x1).shape = actIdx B A n1 N.channels T := hG.shape x1 n1 S hr1 h1
    have sx2 : ∀ θ, (N.apply θ (x2.getD x1)).shape = actIdx B A n2 N.channels T := hG.shape _ n2 S hr1 h2
    have hfB' : (B : ℤ) = f.batchAxis % (T.length + 2) := by rw [hfB, ← l1]; push_cast; rfl
    have q1 := C55.layerOut_shape f bo co hf (fun θ => N.apply θ x1) B A n1 N.channels T (by omega) (by omega) hne hfB' sx1
    have q2 := C55.layerOut_shape f bo co hf (fun θ => N.apply θ (x2.getD x1)) B A n2 N.channels T (by omega) (by omega) hne hfB' sx2
    have ap : ∀ X : Arr ℝ, ∀ n, X.shape = actIdx B A n N.channels T → ∃ z, f.apply X = .ok z := by
      intro X n hX
      have hA' : newAxis A B ≤ T.length := Inputs.newAxis_le hne.symm (by omega) (by omega)
      have hl : (T.insertIdx (newAxis A B) N.channels).length = T.length + 1 := by rw [List.length_insertIdx, if_pos hA']
      obtain ⟨z, hz, -⟩ := C55.apply_entries f bo co hf X n B (T.insertIdx (newAxis A B) N.channels) (by omega) (by rw [hl, hfB']; push_cast; ring_nf)
        (by rw [hX, actIdx_insert' B A n N.channels T hne (by omega) (by omega)])
      exact ⟨z, hz⟩
    obtain ⟨z1, hz1⟩ := ap _ n1 (sx1 θ)
    obtain ⟨z2, hz2⟩ := ap _ n2 (sx2 θ)
    have o1 : C55.layerOut f (fun θ => N.apply θ x1) θ = z1 := by simp only [C55.layerOut, hz1]
    have o2 : C55.layerOut f (fun θ => N.apply θ (x2.getD x1)) θ = z2 := by simp only [C55.layerOut, hz2]
    refine ⟨z1, z2, hz1, hz2, o1 ▸ q1.1 θ, o2 ▸ q2.1 θ, fun i j hi hj => ?_⟩
    have kg : k.nngp.get [i, j] = (∑ p ∈ box T, s.L.k12 [i, j] p p) / T.prod := by
      have := hkn.get [i, j] [] [] (by
        show InRange [i, j] [s.L.n1, s.L.n2]
        rw [ht.dims.1, ht.dims.2.1]
        exact .cons hi (.cons hj .nil)) .nil .nil fun _ => rfl
      refine Eq.trans ?_ (this.trans ?_)
      · rw [hds, hrev]; rfl
      · show C55.avg s.L.S1 s.L.k12 [i, j] [] [] = _
        rw [ht.dims.2.2.1, C55.avg]
    have eg := C55.sum_channels f bo co hf (fun θ => N.apply θ x1) (fun θ => N.apply θ (x2.getD x1)) B A n1 n2 N.channels T (by omega) (by omega) hne hfB' sx1 sx2
      i j hi hj (fun u v => u θ * v θ) (fun _ p q => emp B A N ⟨x1, n1, S, i, p⟩ ⟨x2.getD x1, n2, S, j, q⟩ θ) (fun p _ => rfl)
    simp only [chan, o1, o2, C55.avg] at eg
    rw [← eg, kg, ← sub_div, ← Finset.sum_sub_distrib]
    have hTp : (0 : ℝ) < (T.prod : ℕ) := by
      have : T.prod ≠ 0 := fun h => hpos (List.prod_eq_zero_iff.1 h)
      exact_mod_cast Nat.pos_of_ne_zero this
    rw [abs_div, abs_of_pos hTp, div_lt_iff₀ hTp]
    refine (Finset.abs_sum_le_sum_abs _ _).trans_lt ?_
    have hcard : (box T).card = T.prod := box_card _
    have hne' : (box T).Nonempty := by rw [← Finset.card_pos, hcard]; exact_mod_cast hTp
    refine (Finset.sum_lt_sum_of_nonempty hne' (g := fun _ => ε) fun p hp => ?_).trans_eq ?_
    · have hp' := mem_box.1 hp
      rw [ht.k12 i j p p hi hj hp' hp']
      by_contra hh
      exact hc ⟨i, j, p, p, hi, hj, hp', hp', not_lt.1 hh⟩
    · rw [Finset.sum_const, hcard, nsmul_eq_mul, mul_comm]

/-! ### Non-vacuity -/

/-- Non-vacuity: the stages of the example before, then `GlobalAvgPool`. -/
example : ∃ n0, ∀ n, n0 ≤ n → 0 < n → ∃ k0 k, Inputs.inputsToKernel (⟨[2, 5, 4, 3], fun i => i.getD 1 0 + 1⟩ : Arr ℝ) none
      false false true 0 (some (-1)) none true = .ok k0 ∧
      ((convNet (exLayers n)).seq (.layer (.globalPool ⟨.avg, 0, -1⟩) fun s => [s.getD 0 0, s.getD 3 0])).run (.one k0) = .ok (.one k) ∧ k.nngp.shape = [2, 2] := by
  obtain ⟨n0, h⟩ := conv_globalPool_converges ⟨[2, 5, 4, 3], fun i => i.getD 1 0 + 1⟩ none false true true 0 (-1) 2 2 3 4
    [5, 4] [5, 4] 0 3 rfl rfl rfl rfl (by decide) (by simp) rfl rfl (by norm_num) exStages ex_ok ⟨.avg, 0, -1⟩ (fun s => [s.getD 0 0, s.getD 3 0]) rfl rfl
    (ε := 1 / 100) (δ := 1 / 1000) (by norm_num) (by norm_num)
  refine ⟨n0, fun n hn hp => ?_⟩
  obtain ⟨k0, k, h1, h2, h3, -⟩ := h (exLayers n) ((ex_fits n hp).imp fun d s hf => Fits.mono hn hf)
  exact ⟨k0, k, h1, h2, h3⟩

/-- Non-vacuity: the stages of the example before, then `Flatten`. -/
example : ∃ n0, ∀ n, n0 ≤ n → 0 < n → ∃ k0 k, Inputs.inputsToKernel (⟨[2, 5, 4, 3], fun i => i.getD 1 0 + 1⟩ : Arr ℝ) none
      false true true 0 (some (-1)) none true = .ok k0 ∧
      ((convNet (exLayers n)).seq (.layer (.flatten ⟨0, 0⟩) fun s => [s.getD 0 0, 4 * s.getD 3 0])).run (.one k0) = .ok (.one k) ∧ k.nngp.shape = [2, 2] := by
  obtain ⟨n0, h⟩ := conv_flatten_converges ⟨[2, 5, 4, 3], fun i => i.getD 1 0 + 1⟩ none false true true true 0 (-1) 2 2 3 4
    [5, 4] 0 3 rfl rfl rfl (by decide) (by simp) rfl rfl (by norm_num) exStages ex_ok (by decide) ⟨0, 0⟩ (fun s => [s.getD 0 0, 4 * s.getD 3 0]) 0 1 rfl rfl
    (ε := 1 / 100) (δ := 1 / 1000) (by norm_num) (by norm_num)
  refine ⟨n0, fun n hn hp => ?_⟩
  obtain ⟨k0, k, h1, h2, h3, -⟩ := h (exLayers n) ((ex_fits n hp).imp fun d s hf => Fits.mono hn hf)
  exact ⟨k0, k, h1, h2, h3⟩

end NT.C101
