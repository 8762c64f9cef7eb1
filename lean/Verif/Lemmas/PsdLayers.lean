import Verif.Tac
import Verif.Lemmas.Closed
import Verif.Lemmas.GaussField

/-!
Every layer keeps a kernel of a batch with itself positive semidefinite.
-/

namespace NT.Semantics
open NT NT.Network NT.Spec

variable {n : ℕ} {S S' : List ℕ} {F G : List ℕ → List ℕ → List ℕ → ℝ}

/-- Agreement of covariances of the examples and positions there are. -/
def Same (n : ℕ) (S : List ℕ) (F G : List ℕ → List ℕ → List ℕ → ℝ) : Prop :=
  ∀ i j p q, i < n → j < n → InRange p S → InRange q S → F [i, j] p q = G [i, j] p q

/-- An operation on covariances that reads only entries there are and keeps positive semidefiniteness. -/
structure Keeps (n : ℕ) (S S' : List ℕ) (Φ : (List ℕ → List ℕ → List ℕ → ℝ) → List ℕ → List ℕ → List ℕ → ℝ) : Prop where
  same : ∀ {F G}, Same n S F G → Same n S' (Φ F) (Φ G)
  gram : ∀ {F}, GramOn n S F → GramOn n S' (Φ F)

lemma Keeps.id : Keeps n S S id := ⟨fun h => h, fun h => h⟩

lemma Keeps.affine {Φ} (h : Keeps n S S' Φ) {a c : ℝ} (ha : 0 ≤ a) (hc : 0 ≤ c) : Keeps n S S' fun F b p q => a * Φ F b p q + c :=
  ⟨fun hs i j p q hi hj hp hq => by simp only [h.same hs i j p q hi hj hp hq], fun hF => ((h.gram hF).smul ha).add (.const hc)⟩

/-- Sums over pairs of read positions. -/
lemma keeps_read {κ : Type} (s : Finset κ) (w : List ℕ → κ → ℝ) (t : List ℕ → κ → Option (List ℕ))
    (hr : ∀ p u q, InRange p S' → u ∈ s → t p u = some q → InRange q S) :
    Keeps n S S' fun F b p q => ∑ u ∈ s, ∑ v ∈ s, w p u * w q v * read2 (F b) (t p u) (t q v) := by
  refine ⟨fun {F G} h i j p q hi hj hp hq => ?_, fun {F} hF => ?_⟩
  · refine Finset.sum_congr rfl fun u hu => Finset.sum_congr rfl fun v hv => ?_
    cases h1 : t p u with
    | none => rfl
    | some p' =>
      cases h2 : t q v with
      | none => rfl
      | some q' => simp only [read2, h i j p' q' hi hj (hr p u p' hp hu h1) (hr q v q' hq hv h2)]
  · have := hF.pull (n' := n) (S' := S') s (fun _ p u => if (t p u).isSome then w p u else 0) (fun i _ _ => i) (fun _ p u => (t p u).getD [])
      (fun i p u hi hp hu hw => by
        cases h1 : t p u with
        | none => simp [h1] at hw
        | some q => exact ⟨hi, hr p u q hp hu h1⟩)
    refine this.congr fun i j p q hi hj hp hq => ?_
    refine Finset.sum_congr rfl fun u hu => Finset.sum_congr rfl fun v hv => ?_
    simp only [List.getD_cons_zero, List.getD_cons_succ]
    cases h1 : t p u <;> cases h2 : t q v <;> simp [read2]

/-- Sums over positions read together. -/
lemma keeps_readDiag {κ : Type} (s : Finset κ) (t : List ℕ → κ → Option (List ℕ)) (hr : ∀ p u q, InRange p S' → u ∈ s → t p u = some q → InRange q S) :
    Keeps n S S' fun F b p q => ∑ u ∈ s, read2 (F b) (t p u) (t q u) := by
  have key : ∀ u ∈ s, Keeps n S S' fun F b p q => read2 (F b) (t p u) (t q u) := fun u hu => by
    have := keeps_read (n := n) (S := S) (S' := S') {u} (fun _ _ => 1) t fun p v q hp hv => by
      rw [Finset.mem_singleton.1 hv]
      exact hr p u q hp hu
    simpa using this
  exact ⟨fun h i j p q hi hj hp hq => Finset.sum_congr rfl fun u hu => (key u hu).same h i j p q hi hj hp hq,
    fun hF => GramOn.sum s fun u hu => (key u hu).gram hF⟩

lemma Keeps.div {Φ} (h : Keeps n S S' Φ) {c : ℝ} (hc : 0 ≤ c) : Keeps n S S' fun F b p q => Φ F b p q / c :=
  ⟨fun hs i j p q hi hj hp hq => by simp only [h.same hs i j p q hi hj hp hq], fun hF => (h.gram hF).div hc⟩

/-- The form used for layers that do the same to all covariances. -/
lemma psd_of {L L' : Logical ℝ} (h : PsdKernel L) {Φ : (List ℕ → List ℕ → List ℕ → ℝ) → List ℕ → List ℕ → List ℕ → ℝ}
    {Ψ : (List ℕ → List ℕ → List ℕ → ℝ) → List ℕ → List ℕ → List ℕ → ℝ} (h1 : L'.k22 = none) (h2 : L'.n1 = L.n1) (h3 : L'.n2 = L.n1) (h4 : L'.S2 = L'.S1)
    (hΦ : Keeps L.n1 L.S1 L'.S1 Φ) (h5 : Same L.n1 L'.S1 L'.k12 (Φ L.k12)) (h6 : Same L.n1 L'.S1 L'.k11 (Φ L.k11))
    (h7 : ∀ F', L'.ntk = some F' → ∃ F, L.ntk = some F ∧ Same L.n1 L'.S1 F' (Ψ F))
    (hΨ : ∀ F, GramOn L.n1 L.S1 F → GramOn L.n1 L'.S1 (Ψ F)) : PsdKernel L' := by
  refine ⟨h1, by rw [h3, h2], h4, ?_, ?_, ?_⟩
  · intro i j p q hi hj hp hq
    rw [h2] at hi hj
    rw [h6 i j p q hi hj hp hq, h5 i j p q hi hj hp hq]
    exact hΦ.same h.cov1 i j p q hi hj hp hq
  · rw [h2]
    exact ((hΦ.gram (psd_gram.1 h.nngp)).congr h5).psd
  · intro F' hF'
    obtain ⟨F, e, hs⟩ := h7 F' hF'
    rw [h2]
    exact ((hΨ F (psd_gram.1 (h.ntk F e))).congr hs).psd

lemma psd_dense {d : Dense} {C : ℕ} {L : Logical ℝ} (h : PsdKernel L) : PsdKernel (C52.after d C L) := by
  have b0 : 0 ≤ C52.bVar d := by unfold C52.bVar; positivity
  have g0 : 0 ≤ C52.gradW d C := by unfold C52.gradW; split <;> positivity
  have g1 : 0 ≤ C52.gradB d := by unfold C52.gradB; split_ifs <;> positivity
  have hn := psd_gram.1 h.nngp
  refine psd_of h (Φ := fun F b p q => d.wStd ^ 2 * F b p q + C52.bVar d)
    (Ψ := fun F b p q => C52.gradW d C * L.k12 b p q + C52.gradB d + d.wStd ^ 2 * F b p q) (by simp [C52.after, h.one]) rfl h.batch h.shape
    (Keeps.id.affine (sq_nonneg _) b0) (fun _ _ _ _ _ _ _ _ => rfl) (fun _ _ _ _ _ _ _ _ => rfl) ?_ fun F hF => ?_
  · intro F' hF'
    simp only [C52.after, Option.map_eq_some_iff] at hF'
    obtain ⟨F, e, rfl⟩ := hF'
    exact ⟨F, e, fun _ _ _ _ _ _ _ _ => rfl⟩
  · exact ((hn.smul g0).add (.const g1)).add (hF.smul (sq_nonneg _))

lemma gate_gram {d : Conv} (hF : GramOn n S F) : GramOn n S fun b p q => C53.gate d p q (F b p q) := by
  cases hd : d.sharedWeights
  · refine (hF.block fun _ p => p).congr fun i j p q _ _ _ _ => ?_
    simp [C53.gate, hd]
  · refine hF.congr fun i j p q _ _ _ _ => ?_
    simp [C53.gate, hd]

lemma psd_conv {d : Conv} {C : ℕ} {L : Logical ℝ} (h : PsdKernel L) (hw : ∀ v ∈ d.filter, 0 < v.1 ∧ 0 < v.2) (hl : L.S1.length = d.filter.length) :
    PsdKernel (C53.after d C L) := by
  have b0 : 0 ≤ C53.bVar d := by unfold C53.bVar; positivity
  have g0 : 0 ≤ C53.gradW d C := by unfold C53.gradW; split <;> positivity
  have g1 : 0 ≤ C53.gradB d := by unfold C53.gradB; split_ifs <;> positivity
  have hn := psd_gram.1 h.nngp
  have hK : Keeps L.n1 L.S1 (outDims d.padding L.S1 d.filter) fun F b p q => C53.avg d L.S1 L.S1 (F b) p q :=
    (keeps_readDiag (offsets d.filter) (fun o f => readIdx d.padding L.S1 d.filter o f) fun p u q hp hu e =>
      readIdx_inRange d.padding _ _ _ _ _ hw hl hp e).div (Nat.cast_nonneg _)
  have hK2 := hK.affine (sq_nonneg d.wStd) b0
  refine psd_of h (Φ := fun F b p q => C53.gate d p q (d.wStd ^ 2 * C53.avg d L.S1 L.S1 (F b) p q + C53.bVar d))
    (Ψ := fun F b p q => C53.gate d p q (C53.gradW d C * C53.avg d L.S1 L.S1 (L.k12 b) p q + C53.gradB d + d.wStd ^ 2 * C53.avg d L.S1 L.S1 (F b) p q))
    (by simp [C53.after, h.one]) rfl h.batch (by simp [C53.after, h.shape]) ?_ ?_ (fun _ _ _ _ _ _ _ _ => rfl) ?_ fun F hF => ?_
  · exact ⟨fun hs i j p q hi hj hp hq => congrArg _ (hK2.same hs i j p q hi hj hp hq), fun hF => gate_gram (hK2.gram hF)⟩
  · intro i j p q _ _ _ _
    simp only [C53.after, h.shape]
  · intro F' hF'
    simp only [C53.after, Option.map_eq_some_iff, h.shape] at hF'
    obtain ⟨F, e, rfl⟩ := hF'
    exact ⟨F, e, fun _ _ _ _ _ _ _ _ => rfl⟩
  · exact gate_gram ((((hK.gram hn).smul g0).add (.const g1)).add ((hK.gram hF).smul (sq_nonneg _)))

lemma psd_convTranspose {d : ConvTranspose} {C : ℕ} {L : Logical ℝ} (h : PsdKernel L) : PsdKernel (C97.after d C L) := by
  have b0 : 0 ≤ C53.bVar d.conv := by unfold C53.bVar; positivity
  have g0 : 0 ≤ C53.gradW d.conv C := by unfold C53.gradW; split <;> positivity
  have g1 : 0 ≤ C53.gradB d.conv := by unfold C53.gradB; split_ifs <;> positivity
  have hn := psd_gram.1 h.nngp
  have hK : Keeps L.n1 L.S1 (upDims d.conv.padding L.S1 d.conv.filter) fun F b p q => C97.avg d L.S1 L.S1 (F b) p q :=
    (keeps_readDiag (offsets d.conv.filter) (fun o f => upIdx d.conv.padding L.S1 d.conv.filter o f) fun p u q hp hu e =>
      upIdx_inRange d.conv.padding _ _ _ _ _ e).div (Nat.cast_nonneg _)
  refine psd_of h (Φ := fun F b p q => d.conv.wStd ^ 2 * C97.avg d L.S1 L.S1 (F b) p q + C53.bVar d.conv)
    (Ψ := fun F b p q => C53.gradW d.conv C * C97.avg d L.S1 L.S1 (L.k12 b) p q + C53.gradB d.conv + d.conv.wStd ^ 2 * C97.avg d L.S1 L.S1 (F b) p q)
    (by simp [C97.after, h.one]) rfl h.batch (by simp [C97.after, h.shape]) (hK.affine (sq_nonneg _) b0) ?_ (fun _ _ _ _ _ _ _ _ => rfl) ?_
    fun F hF => ?_
  · intro i j p q _ _ _ _
    simp only [C97.after, h.shape]
  · intro F' hF'
    simp only [C97.after, Option.map_eq_some_iff, h.shape] at hF'
    obtain ⟨F, e, rfl⟩ := hF'
    exact ⟨F, e, fun _ _ _ _ _ _ _ _ => rfl⟩
  · exact (((hK.gram hn).smul g0).add (.const g1)).add ((hK.gram hF).smul (sq_nonneg _))

lemma psd_lin {ι : Type} {s : List ℕ → Finset ι} {w : List ℕ → List ℕ → ι → ℝ} {t : List ℕ → List ℕ → ι → Option (List ℕ)}
    {out : List ℕ → List ℕ} {L : Logical ℝ} (h : PsdKernel L)
    (hr : ∀ p u q, InRange p (out L.S1) → u ∈ s L.S1 → t L.S1 p u = some q → InRange q L.S1) : PsdKernel (linLogical s w t out L) := by
  have hK := keeps_read (n := L.n1) (s L.S1) (w L.S1) (t L.S1) hr
  refine psd_of h (by simp [linLogical, h.one]) rfl h.batch (by simp [linLogical, h.shape]) hK ?_ (fun _ _ _ _ _ _ _ _ => rfl) ?_ fun F hF => hK.gram hF
  · intro i j p q _ _ _ _
    simp only [linLogical, h.shape]
  · intro F' hF'
    simp only [linLogical, Option.map_eq_some_iff, h.shape] at hF'
    obtain ⟨F, e, rfl⟩ := hF'
    exact ⟨F, e, fun _ _ _ _ _ _ _ _ => rfl⟩

lemma psd_pool {d : Pool} {L : Logical ℝ} (h : PsdKernel L) (hw : ∀ v ∈ d.window, 0 < v.1 ∧ 0 < v.2) (hl : L.S1.length = d.window.length) :
    PsdKernel (C54.pooled d L) := by
  unfold C54.pooled
  exact psd_lin h fun p u q hp _ e => readIdx_inRange _ _ _ _ _ _ hw hl hp e

lemma psd_globalPool {type : Pooling} {L : Logical ℝ} (h : PsdKernel L) : PsdKernel (C54.globalPooled type L) := by
  unfold C54.globalPooled
  refine psd_lin h fun p u q _ hu e => ?_
  simp only [Option.some.injEq] at e
  rw [← e]
  exact mem_box.1 hu

lemma psd_resized {w : ℕ → ℕ → ℕ → ℕ → ℝ} {oS : List (Option ℕ)} {L : Logical ℝ} (h : PsdKernel L) : PsdKernel (C95.resizedSpatial w oS L) := by
  unfold C95.resizedSpatial
  refine psd_lin h fun p u q _ hu e => ?_
  simp only [Option.some.injEq] at e
  rw [← e]
  exact mem_box.1 hu

lemma psd_flat {L : Logical ℝ} (h : PsdKernel L) : PsdKernel (C55.flat L) := by
  have hK : Keeps L.n1 L.S1 [] (C55.avg L.S1) := by
    have := keeps_readDiag (n := L.n1) (S := L.S1) (S' := []) (box L.S1) (fun _ p => some p) fun p u q _ hu e => by
      simp only [Option.some.injEq] at e
      rw [← e]
      exact mem_box.1 hu
    exact this.div (Nat.cast_nonneg _)
  refine psd_of h (by simp [C55.flat, h.one]) rfl h.batch rfl hK (fun _ _ _ _ _ _ _ _ => rfl) (fun _ _ _ _ _ _ _ _ => rfl) ?_ fun F hF => hK.gram hF
  intro F' hF'
  simp only [C55.flat, Option.map_eq_some_iff] at hF'
  obtain ⟨F, e, rfl⟩ := hF'
  exact ⟨F, e, fun _ _ _ _ _ _ _ _ => rfl⟩

lemma psd_drop {rate : ℝ} (h0 : 0 < rate) (h1 : rate ≤ 1) {L : Logical ℝ} (h : PsdKernel L) : PsdKernel (C56.after rate true L) := by
  have hK : Keeps L.n1 L.S1 L.S1 (C56.drop rate) := by
    refine ⟨fun hs i j p q hi hj hp hq => by simp only [C56.drop, hs i j p q hi hj hp hq], fun {F} hF => ?_⟩
    have hr : 0 ≤ rate⁻¹ - 1 := by
      have := (one_le_inv₀ h0).2 h1
      linarith
    refine (hF.add (GramOn.diag (fun i p => (rate⁻¹ - 1) * F [i, i] p p) fun i p hi hp => mul_nonneg hr (hF.nonneg_diag hi hp))).congr ?_
    intro i j p q hi hj hp hq
    simp only [C56.drop, List.getD_cons_zero, List.getD_cons_succ]
    split
    · rename_i e
      obtain ⟨rfl, rfl⟩ := e
      field_simp
      ring
    · simp
  refine psd_of h (by simp [C56.after, h.one]) rfl h.batch h.shape hK (fun _ _ _ _ _ _ _ _ => rfl) (fun _ _ _ _ _ _ _ _ => rfl) ?_ fun F hF => hK.gram hF
  intro F' hF'
  simp only [C56.after, if_true, Option.map_eq_some_iff] at hF'
  obtain ⟨F, e, rfl⟩ := hF'
  exact ⟨F, e, fun _ _ _ _ _ _ _ _ => rfl⟩

lemma second_eq {L : Logical ℝ} (h : L.k22 = none) : L.second = L.k11 := by simp [Logical.second, h]

lemma groupMean_nonneg {batch : Bool} {A : ℕ → Prop} {f : ℕ → List ℕ → ℝ} (hf : ∀ i p, i < n → InRange p S → 0 ≤ f i p) (i : ℕ) (p : List ℕ) :
    0 ≤ groupMean n S batch A f i p := by
  refine div_nonneg (Finset.sum_nonneg fun x hx => ?_) (Nat.cast_nonneg _)
  simp only [group, Finset.mem_filter, Finset.mem_product, Finset.mem_range, mem_box] at hx
  exact hf _ _ hx.1.1 hx.1.2

lemma psd_norm {L : Logical ℝ} {eps : ℝ} (he : 0 ≤ eps) {batch : Bool} {A : ℕ → Prop} (h : PsdKernel L) : PsdKernel (normalised L eps batch A) := by
  set v := groupMean L.n1 L.S1 batch A fun i p => eps + L.k11 [i, i] p p with hv
  have hn := psd_gram.1 h.nngp
  have v0 : ∀ i p, 0 ≤ v i p := groupMean_nonneg fun i p hi hp => by
    rw [h.cov1 i i p p hi hi hp hp]
    exact add_nonneg he (hn.nonneg_diag hi hp)
  have hK : Keeps L.n1 L.S1 L.S1 fun F b p q => F b p q / √(v (b.getD 0 0) p * v (b.getD 1 0) q) := by
    refine ⟨fun hs i j p q hi hj hp hq => by simp only [hs i j p q hi hj hp hq], fun {F} hF => ?_⟩
    refine (hF.scale fun i p => (√(v i p))⁻¹).congr fun i j p q _ _ _ _ => ?_
    rw [Real.sqrt_mul (v0 _ _), div_eq_inv_mul, mul_inv]
  refine psd_of h (by simp [normalised, h.one]) rfl h.batch h.shape hK ?_ (fun _ _ _ _ _ _ _ _ => rfl) ?_ fun F hF => hK.gram hF
  · intro i j p q _ _ _ _
    simp only [normalised, second_eq h.one, h.batch, h.shape, hv]
  · intro F' hF'
    simp only [normalised, Option.map_eq_some_iff, second_eq h.one, h.batch, h.shape] at hF'
    obtain ⟨F, e, rfl⟩ := hF'
    exact ⟨F, e, fun _ _ _ _ _ _ _ _ => rfl⟩

lemma psd_act {f : Kernel ℝ → Except Err (Kernel ℝ)} {C : ℝ → Prop} {φ dφ : ℝ → ℝ} {N T : ℝ → ℝ → ℝ → ℝ} (hN : Nonlinearity f C φ dφ N T)
    {L : Logical ℝ} (hC : L.Vars C) (h : PsdKernel L) : PsdKernel (entrywise N T L) := by
  have var : ∀ i p, i < L.n1 → InRange p L.S1 → C (L.k12 [i, i] p p) := fun i p hi hp => by
    rw [← h.cov1 i i p p hi hi hp hp]
    exact hC.1 i p hi hp
  have key : ∀ i j p q, i < L.n1 → j < L.n1 → InRange p L.S1 → InRange q L.S1 → ∀ W : ℝ → ℝ → ℝ → ℝ,
      W (L.k12 [i, j] p q) (L.k11 [i, i] p p) (L.second [j, j] q q) = W (L.k12 [i, j] p q) (L.k12 [i, i] p p) (L.k12 [j, j] q q) := by
    intro i j p q hi hj hp hq W
    rw [second_eq h.one, h.cov1 i i p p hi hi hp hp, h.cov1 j j q q hj hj hq hq]
  refine ⟨by simp [entrywise, h.one], h.batch, h.shape, ?_, ?_, ?_⟩
  · intro i j p q hi hj hp hq
    have e := h.cov1 i j p q hi hj hp hq
    simp only [entrywise, List.getD_cons_zero, List.getD_cons_succ, second_eq h.one, e]
  · refine dual_psd h.nngp hN.meas.1 (fun v => (hN.mem v).1) fun i j p q hi hj hp hq P hP => ?_
    refine (key i j p q hi hj hp hq N).trans ?_
    exact hN.nngp P _ _ _ hP (var i p hi hp) (var j q hj hq)
  · intro F' hF'
    simp only [entrywise, Option.map_eq_some_iff] at hF'
    obtain ⟨F, e, rfl⟩ := hF'
    refine ((psd_gram.1 (h.ntk F e)).mul (psd_gram.1 ?_)).psd
    refine dual_psd h.nngp hN.meas.2 (fun v => (hN.mem v).2) fun i j p q hi hj hp hq P hP => ?_
    refine (key i j p q hi hj hp hq T).trans ?_
    exact hN.ntk P _ _ _ hP (var i p hi hp) (var j q hj hq)

lemma psd_contract {C : Contraction} (hC : C.Ok) {s1 s2 t : List ℕ} {o : List ℕ → ℝ} {L : Logical ℝ} (h : PsdKernel L)
    (hS1 : L.S1 = (spatialAxes C.n C.ba C.ca).map (s1.getD · 0)) (hS2 : L.S2 = (spatialAxes C.n C.ba C.ca).map (s2.getD · 0)) :
    PsdKernel (C.logical s1 s2 t t o o L) := by
  have e : ∀ a, a < C.n → a ≠ C.ba → a ≠ C.ca → s1.getD a 0 = s2.getD a 0 := by
    intro a h1 h2 h3
    have := h.shape
    rw [hS1, hS2, List.map_inj_left] at this
    exact (this a (by simp [spatialAxes, h1, h2, h3])).symm
  have ec : C.cs.map (s2.getD · 0) = C.cs.map (s1.getD · 0) := List.map_inj_left.2 fun a ha => by
    obtain ⟨h1, h2, h3⟩ := KernelDot.cs_lt hC ha
    exact (e a h1 h3 h2).symm
  have eo : C.outShape s2 t = C.outShape s1 t := by
    unfold Contraction.outShape
    refine List.map_inj_left.2 fun x hx => ?_
    cases x with
    | inr j => rfl
    | inl a =>
      have : a < C.n ∧ a ≠ C.ba ∧ a ≠ C.ca := by
        unfold Contraction.outAxes at hx
        have : (a ∈ C.bs ∧ a ≠ C.ba) ∨ (a < C.n ∧ a ≠ C.ba ∧ a ≠ C.ca) := by
          dsimp only at hx
          split at hx <;> simp at hx <;> tauto
        rcases this with ⟨h1, h2⟩ | h1
        · exact ⟨hC.lt a (by simp [h1]), h2, fun e => hC.chan (by simp [← e, h1])⟩
        · exact h1
      exact (e a this.1 this.2.1 this.2.2).symm
  have hK : Keeps L.n1 L.S1 (C.outShape s1 t) (C.covar s1 s1 o o) := by
    have hr : ∀ {P c : List ℕ}, InRange P (C.outShape s1 t) → c ∈ box (C.cs.map (s1.getD · 0)) → InRange (C.inPos P c) L.S1 := fun hP hc => by
      rw [hS1]
      exact KernelDot.inPos_inRange hC hP (mem_box.1 hc)
    refine ⟨fun hs i j p q hi hj hp hq => ?_, fun {F} hF => ?_⟩
    · unfold Contraction.covar
      refine Finset.sum_congr rfl fun c hc => Finset.sum_congr rfl fun c' hc' => ?_
      rw [hs i j _ _ hi hj (hr hp hc) (hr hq hc')]
    · refine (hF.pull (n' := L.n1) (S' := C.outShape s1 t) (box (C.cs.map (s1.getD · 0))) (fun i p c => o (C.otherIdx i p c)) (fun i _ _ => i)
        (fun _ p c => C.inPos p c) fun i p c hi hp hc _ => ⟨hi, hr hp hc⟩).congr fun i j p q _ _ _ _ => ?_
      unfold Contraction.covar
      refine Finset.sum_congr rfl fun c hc => Finset.sum_congr rfl fun c' hc' => ?_
      simp only [List.getD_cons_zero, List.getD_cons_succ]
      ring
  have ecv : ∀ F, C.covar s1 s2 o o F = C.covar s1 s1 o o F := fun F => by
    unfold Contraction.covar
    rw [ec]
  refine psd_of h (by simp [Contraction.logical, h.one]) rfl h.batch eo hK ?_ (fun _ _ _ _ _ _ _ _ => rfl) ?_ fun F hF => hK.gram hF
  · intro i j p q _ _ _ _
    simp only [Contraction.logical, ecv]
  · intro F' hF'
    simp only [Contraction.logical, Option.map_eq_some_iff, ecv] at hF'
    obtain ⟨F, e, rfl⟩ := hF'
    exact ⟨F, e, fun _ _ _ _ _ _ _ _ => rfl⟩

/-- The invariant: the kernel is that of a batch with itself, and positive semidefinite. -/
lemma gram_select {n m : ℕ} {S T : List ℕ} {F : List ℕ → List ℕ → List ℕ → ℝ} (ρ : ℕ → ℕ) (τ : List ℕ → List ℕ) (hρ : ∀ i, i < m → ρ i < n)
    (hτ : ∀ p, InRange p T → InRange (τ p) S) (hF : GramOn n S F) : GramOn m T fun b p q => F [ρ (b.getD 0 0), ρ (b.getD 1 0)] (τ p) (τ q) := by
  obtain ⟨ι, _, g, hg⟩ := hF
  exact ⟨ι, inferInstance, fun r i p => g r (ρ i) (τ p), fun i j p q hi hj hp hq => hg _ _ _ _ (hρ i hi) (hρ j hj) (hτ p hp) (hτ q hq)⟩

lemma psd_reindexed {L : Logical ℝ} (h : PsdKernel L) {a b st : Option ℤ} {sp : List Utils.Entry} {n1' n2' : ℕ} {S1' S2' : List ℕ}
    (hn1 : Utils.sliceLen L.n1 a b st = .ok n1') (hn2 : Utils.sliceLen L.n2 a b st = .ok n2') (hS1 : Utils.npIndexShape L.S1 sp = .ok S1')
    (hS2 : Utils.npIndexShape L.S2 sp = .ok S2') : PsdKernel (C27.reindexed L a b st sp n1' n2' S1' S2') := by
  rw [h.batch] at hn2
  rw [h.shape] at hS2
  have hρ : ∀ i, i < n1' → Kernel.sliceAt L.n1 a b st i < L.n1 := fun i hi => sliceAt_lt _ _ _ _ _ _ hn1 hi
  have hτ : ∀ p, InRange p S1' → InRange (Kernel.sourceIdx L.S1 sp p) L.S1 := fun p hp => sourceIdx_inRange hS1 hp
  refine ⟨by simp [C27.reindexed, h.one], Except.ok.inj (hn2.symm.trans hn1), Except.ok.inj (hS2.symm.trans hS1), ?_, ?_, ?_⟩
  · intro i j p q hi hj hp hq
    simp only [C27.reindexed, List.getD_cons_zero, List.getD_cons_succ, h.batch, h.shape]
    exact h.cov1 _ _ _ _ (hρ i hi) (hρ j hj) (hτ p hp) (hτ q hq)
  · refine psd_gram.2 ?_
    simp only [C27.reindexed, h.batch, h.shape]
    exact gram_select _ _ hρ hτ (psd_gram.1 h.nngp)
  · intro F' hF'
    simp only [C27.reindexed, Option.map_eq_some_iff, h.batch, h.shape] at hF'
    obtain ⟨F, e, rfl⟩ := hF'
    exact psd_gram.2 (gram_select _ _ hρ hτ (psd_gram.1 (h.ntk F e)))

def PsdState (s : State) : Prop := s.same = true ∧ PsdKernel s.L

lemma layer_psd {l : Layer} {s t : State} (h : PsdState s) (hl : LayerSem l s t) : PsdState t := by
  obtain ⟨h1, h⟩ := h
  cases l with
  | dense d =>
    obtain ⟨_, _, C, _, _, rfl⟩ := hl
    exact ⟨h1, psd_dense h⟩
  | conv d =>
    obtain ⟨_, _, h3, h4, _, _, _, _, rfl⟩ := hl
    exact ⟨h1, psd_conv h h3 h4⟩
  | convTranspose d =>
    obtain ⟨_, _, _, _, _, _, _, _, _, rfl⟩ := hl
    exact ⟨h1, psd_convTranspose h⟩
  | pool d =>
    obtain ⟨h3, h4, _, _, rfl⟩ := hl
    exact ⟨h1, psd_pool h h3 h4⟩
  | globalPool d =>
    obtain ⟨_, _, rfl⟩ := hl
    exact ⟨h1, psd_globalPool h⟩
  | flatten f =>
    obtain ⟨bo, co, _, _, _, rfl⟩ := hl
    exact ⟨h1, psd_flat h⟩
  | dropout d =>
    obtain ⟨h2, h3, ⟨_, rfl⟩ | ⟨_, _, _, _, rfl⟩⟩ := hl
    · exact ⟨h1, h⟩
    · refine ⟨h1, ?_⟩
      rw [show s.same = true from h1]
      exact psd_drop h2 h3 h
  | layerNorm axis eps ba ca =>
    obtain ⟨_, _, h2, _, _, _, b, c, ax, _, _, _, _, _, _, rfl⟩ := hl
    exact ⟨h1, psd_norm h2 h⟩
  | act f =>
    obtain ⟨_, C, φ, dφ, N, T, hN, hC, rfl⟩ := hl
    exact ⟨h1, psd_act hN hC h⟩
  | dotGeneral other isLhs inputC otherC inputB otherB =>
    obtain ⟨hC, _, _, _, h4, h5, _, _, _, _, rfl⟩ := hl
    exact ⟨h1, psd_contract hC h h4 h5⟩
  | index i =>
    obtain ⟨l, a, b, st, n1', n2', S1', S2', out1, out2, hi, rfl⟩ := hl
    exact ⟨h1, psd_reindexed h hi.n1 hi.n2 hi.S1 hi.S2⟩
  | resize d =>
    obtain ⟨B, A, oS, _, rfl⟩ := hl
    exact ⟨h1, psd_resized h⟩
  | attention d =>
    obtain ⟨c, ha, rfl⟩ := hl
    exact ⟨h1, Attn.layer_psd h ha.psd⟩
  | identity =>
    cases hl
    exact ⟨h1, h⟩

/-- Blocks of rows: rows with label `r` are rows of `F r`, and rows with different labels are unrelated. -/
lemma gram_blocks {m n' : ℕ} {S' : List ℕ} {n : Fin m → ℕ} {S : Fin m → List ℕ} {F : Fin m → List ℕ → List ℕ → List ℕ → ℝ} (c : ℕ → List ℕ → Fin m)
    (ρ : ℕ → List ℕ → ℕ) (t : ℕ → List ℕ → List ℕ) (hr : ∀ i p, i < n' → InRange p S' → ρ i p < n (c i p) ∧ InRange (t i p) (S (c i p)))
    (hF : ∀ r, GramOn (n r) (S r) (F r)) {G : List ℕ → List ℕ → List ℕ → ℝ}
    (hG : ∀ i j p q, i < n' → j < n' → InRange p S' → InRange q S' → G [i, j] p q = if c i p = c j q then F (c i p) [ρ i p, ρ j q] (t i p) (t j q) else 0) :
    GramOn n' S' G := by
  choose ι inst g hg using hF
  refine ⟨Σ r, ι r, inferInstance, fun x i p => if c i p = x.1 then g x.1 x.2 (ρ i p) (t i p) else 0, fun i j p q hi hj hp hq => ?_⟩
  rw [hG i j p q hi hj hp hq, Fintype.sum_sigma]
  rw [Finset.sum_eq_single (c i p)]
  · by_cases h : c i p = c j q
    · obtain ⟨a1, a2⟩ := hr i p hi hp
      obtain ⟨b1, b2⟩ := hr j q hj hq
      rw [← h] at b1 b2
      rw [if_pos h, hg _ _ _ _ _ a1 b1 a2 b2]
      simp only [← h, if_true]
    · simp only [if_neg h, if_neg (Ne.symm h), mul_zero, Finset.sum_const_zero]
  · intro r _ hne
    simp only [if_neg (Ne.symm hne), zero_mul, Finset.sum_const_zero]
  · simp

lemma blk_spec {m : ℕ} (n : Fin (m + 1) → ℕ) {d : ℕ} (h : d < ∑ r, n r) : (Cat.blk n d).2 < n (Cat.blk n d).1 := by
  obtain ⟨r, e, h1, rfl⟩ := Cat.exists_block n h
  rw [Cat.blk_eq n h1]
  exact h1

lemma gram_cat {m n c : ℕ} {S0 : List ℕ} {S : Fin (m + 1) → List ℕ} (hc : c < S0.length) (hS : ∀ r, S r = S0.set c ((S r).getD c 0))
    {F : Fin (m + 1) → List ℕ → List ℕ → List ℕ → ℝ} (hF : ∀ r, GramOn n (S r) (F r)) :
    GramOn n (S0.set c (∑ r, (S r).getD c 0)) (Cat.catF c S S F) := by
  refine gram_blocks (fun _ p => (Cat.blk (sizes c S) (p.getD c 0)).1) (fun i _ => i) (fun _ p => p.set c (Cat.blk (sizes c S) (p.getD c 0)).2)
    (fun i p hi hp => ⟨hi, ?_⟩) hF fun i j p q _ _ _ _ => rfl
  have hpc : p.getD c 0 < ∑ r, sizes c S r := by
    have := (inRange_iff.1 hp).2 c (by simpa using hc)
    rwa [show (S0.set c (∑ r, (S r).getD c 0)).getD c 0 = ∑ r, (S r).getD c 0 by simp [List.getD_eq_getElem?_getD, List.getElem?_set_self hc]] at this
  have h1 := blk_spec _ hpc
  generalize (Cat.blk (sizes c S) (p.getD c 0)) = x at *
  rw [hS x.1]
  exact Cat.inRange_set hp h1

lemma gram_bat {m : ℕ} {n : Fin (m + 1) → ℕ} {S : List ℕ} {F : Fin (m + 1) → List ℕ → List ℕ → List ℕ → ℝ} (hF : ∀ r, GramOn (n r) S (F r)) :
    GramOn (∑ r, n r) S (Cat.batF n n F) :=
  gram_blocks (S := fun _ => S) (fun i _ => (Cat.blk n i).1) (fun i _ => (Cat.blk n i).2) (fun _ p => p) (fun _ _ hi hp => ⟨blk_spec n hi, hp⟩) hF
    fun _ _ _ _ _ _ _ _ => rfl

lemma fan_psd {f : Fan} {m : ℕ} {s : Fin (m + 1) → State} {t : State} (h : ∀ r, PsdState (s r)) (hf : FanSem f s t) : PsdState t := by
  have gr : SameLayout s → ∀ r, GramOn (s 0).L.n1 (s 0).L.S1 (s r).L.k12 := fun hs r => by
    have := psd_gram.1 (h r).2.nngp
    rwa [(hs.sizes r).1, (hs.sizes r).2.2.1] at this
  have gt : SameLayout s → ∀ {b}, (∀ r, (s r).L.ntk.isSome = b) → b = true → ∀ r, GramOn (s 0).L.n1 (s 0).L.S1 ((s r).L.ntk.getD 0) := fun hs b hb e r => by
    obtain ⟨F, hF⟩ := Option.isSome_iff_exists.1 ((hb r).trans e)
    have := psd_gram.1 ((h r).2.ntk F hF)
    rw [(hs.sizes r).1, (hs.sizes r).2.2.1] at this
    rwa [hF]
  have cv : SameLayout s → ∀ r i j p q, i < (s 0).L.n1 → j < (s 0).L.n1 → InRange p (s 0).L.S1 → InRange q (s 0).L.S1 →
      (s r).L.k11 [i, j] p q = (s r).L.k12 [i, j] p q := fun hs r i j p q hi hj hp hq => by
    have e := hs.sizes r
    exact (h r).2.cov1 i j p q (e.1 ▸ hi) (e.1 ▸ hj) (e.2.2.1 ▸ hp) (e.2.2.1 ▸ hq)
  have nc : ∀ {b}, (∀ r, (s r).L.k22.isSome = b) → b = false := fun hb => by rw [← hb 0, (h 0).2.one]; rfl
  cases f with
  | sum =>
    obtain ⟨hs, _, _, hc, ht, h3, h4, rfl⟩ := hf
    cases nc h3
    refine ⟨(h 0).1, show PsdKernel (C38.sumL false ht fun r => (s r).L) from ?_⟩
    refine ⟨rfl, (h 0).2.batch, (h 0).2.shape, fun i j p q hi hj hp hq => ?_, ?_, fun F hF => ?_⟩
    · exact Finset.sum_congr (s₁ := Finset.univ) rfl fun r _ => cv hs r i j p q hi hj hp hq
    · exact (GramOn.sum Finset.univ fun r _ => gr hs r).psd
    · cases ht
      · simp [C38.sumL] at hF
      · simp only [C38.sumL, if_true, Option.some.injEq] at hF
        subst hF
        exact (GramOn.sum Finset.univ fun r _ => gt hs h4 rfl r).psd
  | prod =>
    obtain ⟨hs, _, hc, ht, h3, h4, rfl⟩ := hf
    cases nc h3
    refine ⟨(h 0).1, show PsdKernel (C39.prodL false ht fun r => (s r).L) from ?_⟩
    refine ⟨rfl, (h 0).2.batch, (h 0).2.shape, fun i j p q hi hj hp hq => ?_, ?_, fun F hF => ?_⟩
    · exact Finset.prod_congr (s₁ := Finset.univ) rfl fun r _ => cv hs r i j p q hi hj hp hq
    · exact (GramOn.prod Finset.univ fun r _ => gr hs r).psd
    · cases ht
      · simp [C39.prodL] at hF
      · simp only [C39.prodL, if_true, Option.some.injEq] at hF
        subst hF
        exact (GramOn.sum Finset.univ fun r _ => (gt hs h4 rfl r).mul (GramOn.prod _ fun r' _ => gr hs r')).psd
  | concat axis =>
    rcases hf with hf | hf | hf
    rotate_left
    · obtain ⟨-, ax, c, -, ⟨g2, -, -⟩, ⟨g3, g4, g5⟩, g6, -, g8, g9, hc, ht, h3, h4, rfl⟩ := hf
      cases nc h3
      have hcl : c < (s 0).L.S1.length := by
        obtain ⟨h1, -⟩ := List.getElem?_eq_some_iff.1 g6
        rw [g2] at h1 g3 g4
        rwa [restAxes_length _ _ _ g5 g3 g4] at h1
      have hS := fun r => (g9 r).1
      have e2 : ∀ r, (s r).L.S2 = (s r).L.S1 := fun r => (h r).2.shape
      have hn : ∀ r, (s r).L.n1 = (s 0).L.n1 := fun r => (g8 r).1
      refine ⟨(h 0).1, show PsdKernel (C40.spatialL c false ht fun r => (s r).L) from ?_⟩
      refine ⟨rfl, (h 0).2.batch, ?_, fun i j p q hi hj hp hq => ?_, ?_, fun F hF => ?_⟩
      · simp only [C40.spatialL, e2]
      · simp only [C40.spatialL, e2] at hi hj hp hq ⊢
        unfold Cat.catF
        dsimp only
        split
        · rename_i he
          have fit : ∀ p, InRange p ((s 0).L.S1.set c (∑ r, (s r).L.S1.getD c 0)) →
              InRange (p.set c (Cat.blk (sizes c fun r => (s r).L.S1) (p.getD c 0)).2) (s (Cat.blk (sizes c fun r => (s r).L.S1) (p.getD c 0)).1).L.S1 := fun p hp => by
            have hpc : p.getD c 0 < ∑ r, sizes c (fun r => (s r).L.S1) r := by
              have := (inRange_iff.1 hp).2 c (by simpa using hcl)
              rwa [show ((s 0).L.S1.set c (∑ r, (s r).L.S1.getD c 0)).getD c 0 = ∑ r, (s r).L.S1.getD c 0 by
                simp [List.getD_eq_getElem?_getD, List.getElem?_set_self hcl]] at this
            have h1 := blk_spec _ hpc
            generalize (Cat.blk (sizes c fun r => (s r).L.S1) (p.getD c 0)) = x at *
            rw [hS x.1]
            exact Cat.inRange_set hp h1
          have f2 := fit q hq
          rw [← he] at f2
          exact (h _).2.cov1 _ _ _ _ (by rw [hn]; exact hi) (by rw [hn]; exact hj) (fit p hp) f2
        · rfl
      · simp only [C40.spatialL, e2]
        exact (gram_cat hcl hS fun r => by have := psd_gram.1 (h r).2.nngp; rwa [hn] at this).psd
      · cases ht
        · simp [C40.spatialL] at hF
        · simp only [C40.spatialL, if_true, Option.some.injEq] at hF
          subst hF
          simp only [C40.spatialL, e2]
          refine (gram_cat hcl hS fun r => ?_).psd
          obtain ⟨F, hF⟩ := Option.isSome_iff_exists.1 (h4 r)
          have := psd_gram.1 ((h r).2.ntk F hF)
          rw [hn] at this
          rwa [hF]
    · obtain ⟨-, -, -, -, -, -, g5, hc, ht, h3, h4, rfl⟩ := hf
      cases nc h3
      have e2 : ∀ r, (s r).L.n2 = (s r).L.n1 := fun r => (h r).2.batch
      have hS : ∀ r, (s r).L.S1 = (s 0).L.S1 := fun r => (g5 r).1
      refine ⟨(h 0).1, show PsdKernel (C40.batchL false ht fun r => (s r).L) from ?_⟩
      refine ⟨rfl, ?_, (h 0).2.shape, fun i j p q hi hj hp hq => ?_, ?_, fun F hF => ?_⟩
      · simp only [C40.batchL, e2]
      · simp only [C40.batchL, e2] at hi hj hp hq ⊢
        unfold Cat.batF
        dsimp only
        split
        · rename_i he
          have f1 := blk_spec (fun r => (s r).L.n1) (d := [i, j].getD 0 0) hi
          have f2 := blk_spec (fun r => (s r).L.n1) (d := [i, j].getD 1 0) hj
          rw [← he] at f2
          exact (h _).2.cov1 _ _ _ _ f1 f2 (by rw [hS]; exact hp) (by rw [hS]; exact hq)
        · rfl
      · simp only [C40.batchL, e2]
        exact (gram_bat fun r => by have := psd_gram.1 (h r).2.nngp; rwa [hS] at this).psd
      · cases ht
        · simp [C40.batchL] at hF
        · simp only [C40.batchL, if_true, Option.some.injEq] at hF
          subst hF
          simp only [C40.batchL, e2]
          refine (gram_bat fun r => ?_).psd
          obtain ⟨F, hF⟩ := Option.isSome_iff_exists.1 (h4 r)
          have := psd_gram.1 ((h r).2.ntk F hF)
          rw [hS] at this
          rwa [hF]
    obtain ⟨hs, _, _, _, _, w, _, _, _, hc, ht, h3, h4, rfl⟩ := hf
    cases nc h3
    have w0 : (0 : ℝ) ≤ ∑ r, (w r : ℝ) := Finset.sum_nonneg fun r _ => Nat.cast_nonneg _
    refine ⟨(h 0).1, show PsdKernel (C40.channelL w false ht fun r => (s r).L) from ?_⟩
    refine ⟨rfl, (h 0).2.batch, (h 0).2.shape, fun i j p q hi hj hp hq => ?_, ?_, fun F hF => ?_⟩
    · exact congrArg (· / _) (Finset.sum_congr rfl fun r _ => congrArg _ (cv hs r i j p q hi hj hp hq))
    · exact ((GramOn.sum Finset.univ fun r _ => (gr hs r).smul (Nat.cast_nonneg (w r))).div w0).psd
    · cases ht
      · simp [C40.channelL] at hF
      · simp only [C40.channelL, if_true, Option.some.injEq] at hF
        subst hF
        exact ((GramOn.sum Finset.univ fun r _ => (gt hs h4 rfl r).smul (Nat.cast_nonneg (w r))).div w0).psd

/-- Networks keep kernels positive semidefinite. -/
lemma net_psd {net : Net} {v w : Vals State} (h : NetSem net v w) : Every PsdState v → Every PsdState w :=
  net_every (fun _ _ _ h => h) (fun _ h hl => layer_psd h hl) (fun _ h hf => fan_psd h hf) h

end NT.Semantics
