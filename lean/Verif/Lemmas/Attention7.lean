import Verif.Lemmas.RandomLinear2
import Verif.Lemmas.Linear
import Verif.Lemmas.Box
import Verif.Spec.Attention

/-! Auxiliary lemmas for C59: the kernel of averages of random values. -/

namespace NT.Attn
open NT Spec MeasureTheory

variable {E : Type} [NormedAddCommGroup E] [InnerProductSpace ℝ E] [CompleteSpace E] [MeasurableSpace E]

/-- Averages over the positions. -/
noncomputable def avg (S : List ℕ) (w : ℕ → List ℕ → List ℕ → ℝ) (f : ℕ → ℕ → List ℕ → E → ℝ) (i c : ℕ) (p : List ℕ) (θ : E) : ℝ :=
  ∑ u ∈ box S, w i p u * f i c u θ

omit [NormedAddCommGroup E] [InnerProductSpace ℝ E] [CompleteSpace E] [MeasurableSpace E] in
lemma avg_tap (S : List ℕ) (w : ℕ → List ℕ → List ℕ → ℝ) (f : ℕ → ℕ → List ℕ → E → ℝ) (i c : ℕ) (p : List ℕ) :
    avg S w f i c p = tapSum (box S) (w i p) (fun u => some u) (f i c) := by
  funext θ
  exact Finset.sum_congr rfl fun c _ => by simp [readTap]

lemma attended_avg {S T p q : List ℕ} {w w' : ℕ → List ℕ → List ℕ → ℝ} {F : List ℕ → List ℕ → List ℕ → ℝ} {i j N : ℕ}
    (κ : ℕ → List ℕ → List ℕ → ℝ) (κ' : ℕ → ℝ) (h : ∀ u v, InRange u S → InRange v T → F [i, j] u v = (∑ ch ∈ Finset.range N, κ ch u v) / N)
    (h' : ∀ ch < N, κ' ch = ∑ u ∈ box S, ∑ v ∈ box T, w i p u * w' j q v * read2 (κ ch) (some u) (some v)) :
    attended S T w w' F [i, j] p q = (∑ ch ∈ Finset.range N, κ' ch) / N := by
  rw [Finset.sum_congr rfl fun ch hch => h' ch (Finset.mem_range.1 hch)]
  unfold attended
  rw [Finset.sum_comm (s := Finset.range N), Finset.sum_div]
  refine Finset.sum_congr rfl fun u hu => ?_
  rw [Finset.sum_comm (s := Finset.range N), Finset.sum_div]
  refine Finset.sum_congr rfl fun v hv => ?_
  rw [h u v (mem_box.1 hu) (mem_box.1 hv), ← Finset.mul_sum, mul_div_assoc]
  simp only [List.getD_cons_zero, List.getD_cons_succ, read2]
  ring

/-- The content of the kernel of averages. -/
noncomputable def avgL (w1 w2 : ℕ → List ℕ → List ℕ → ℝ) (L : Logical ℝ) : Logical ℝ :=
  { L with
    k12 := attended L.S1 L.S2 w1 w2 L.k12
    k11 := attended L.S1 L.S1 w1 w1 L.k11
    k22 := L.k22.map (attended L.S2 L.S2 w2 w2)
    ntk := L.ntk.map (attended L.S1 L.S2 w1 w2) }

lemma avg_kernel (μ : Measure E) (N : ℕ) (w1 w2 : ℕ → List ℕ → List ℕ → ℝ) (f1 f2 : ℕ → ℕ → List ℕ → E → ℝ) (L : Logical ℝ)
    (hR : Regular μ N L.n1 L.n2 L.S1 L.S2 f1 f2) (hL : ChannelKernelOf μ N f1 f2 L) :
    ChannelKernelOf μ N (avg L.S1 w1 f1) (avg L.S2 w2 f2) (avgL w1 w2 L) where
  k12 i j p q hi hj hp hq := by
    refine attended_avg (fun c u v => secondMoment μ (f1 i c u) (f2 j c v)) _ (fun u v hu hv => hL.k12 i j u v hi hj hu hv) fun c hc => ?_
    rw [avg_tap, avg_tap]
    refine (tapSum_kernel μ _ _ _ _ _ _ _ _).1 ?_ ?_
    · rintro u hu _ ⟨⟩; exact hR.sq1 i hi c hc u (mem_box.1 hu)
    · rintro u hu _ ⟨⟩; exact hR.sq2 j hj c hc u (mem_box.1 hu)
  k11 i j p q hi hj hp hq := by
    refine attended_avg (fun c u v => secondMoment μ (f1 i c u) (f1 j c v)) _ (fun u v hu hv => hL.k11 i j u v hi hj hu hv) fun c hc => ?_
    rw [avg_tap, avg_tap]
    refine (tapSum_kernel μ _ _ _ _ _ _ _ _).1 ?_ ?_
    · rintro u hu _ ⟨⟩; exact hR.sq1 i hi c hc u (mem_box.1 hu)
    · rintro u hu _ ⟨⟩; exact hR.sq1 j hj c hc u (mem_box.1 hu)
  k22 F hF i j p q hi hj hp hq := by
    obtain ⟨G, hG, rfl⟩ := Option.map_eq_some_iff.1 hF
    refine attended_avg (fun c u v => secondMoment μ (f2 i c u) (f2 j c v)) _ (fun u v hu hv => hL.k22 G hG i j u v hi hj hu hv) fun c hc => ?_
    rw [avg_tap, avg_tap]
    refine (tapSum_kernel μ _ _ _ _ _ _ _ _).1 ?_ ?_
    · rintro u hu _ ⟨⟩; exact hR.sq2 i hi c hc u (mem_box.1 hu)
    · rintro u hu _ ⟨⟩; exact hR.sq2 j hj c hc u (mem_box.1 hu)
  ntk F hF i j p q hi hj hp hq := by
    obtain ⟨G, hG, rfl⟩ := Option.map_eq_some_iff.1 hF
    refine attended_avg (fun c u v => tangent μ (f1 i c u) (f2 j c v)) _ (fun u v hu hv => hL.ntk G hG i j u v hi hj hu hv) fun c hc => ?_
    rw [avg_tap, avg_tap]
    refine (tapSum_kernel μ _ _ _ _ _ _ _ _).2 ?_ ?_ ?_
    · rintro u hu _ ⟨⟩; exact hR.diff1 i hi c hc u (mem_box.1 hu)
    · rintro u hu _ ⟨⟩; exact hR.diff2 j hj c hc u (mem_box.1 hu)
    · rintro u hu v hv _ _ ⟨⟩ ⟨⟩; exact hR.grad i hi j hj c hc c hc u v (mem_box.1 hu) (mem_box.1 hv)

lemma avg_grad {μ : Measure E} {S : List ℕ} {w : ℕ → List ℕ → List ℕ → ℝ} {f : ℕ → ℕ → List ℕ → E → ℝ} {i c : ℕ} {p : List ℕ}
    (h : ∀ u, InRange u S → ∀ᵐ θ ∂μ, DifferentiableAt ℝ (f i c u) θ) :
    ∀ᵐ θ ∂μ, DifferentiableAt ℝ (avg S w f i c p) θ ∧ gradient (avg S w f i c p) θ = ∑ u ∈ box S, w i p u • gradient (f i c u) θ := by
  have : ∀ᵐ θ ∂μ, ∀ u ∈ box S, DifferentiableAt ℝ (f i c u) θ := (Finset.eventually_all _).2 fun u hu => h u (mem_box.1 hu)
  filter_upwards [this] with θ hθ
  have hf : HasFDerivAt (avg S w f i c p) (∑ u ∈ box S, w i p u • fderiv ℝ (f i c u) θ) θ :=
    HasFDerivAt.fun_sum fun u hu => ((hθ u hu).hasFDerivAt.const_mul (w i p u))
  refine ⟨hf.differentiableAt, ?_⟩
  unfold gradient
  rw [hf.fderiv]
  simp

lemma avg_regular {μ : Measure E} {N n1 n2 : ℕ} {S1 S2 : List ℕ} (w1 w2 : ℕ → List ℕ → List ℕ → ℝ) {f1 f2 : ℕ → ℕ → List ℕ → E → ℝ}
    (h : Regular μ N n1 n2 S1 S2 f1 f2) : Regular μ N n1 n2 S1 S2 (avg S1 w1 f1) (avg S2 w2 f2) where
  sq1 i hi c hc p hp := memLp_finsetSum _ fun u hu => (h.sq1 i hi c hc u (mem_box.1 hu)).const_mul _
  sq2 i hi c hc p hp := memLp_finsetSum _ fun u hu => (h.sq2 i hi c hc u (mem_box.1 hu)).const_mul _
  diff1 i hi c hc p hp := (avg_grad fun u hu => h.diff1 i hi c hc u hu).mono fun _ h => h.1
  diff2 i hi c hc p hp := (avg_grad fun u hu => h.diff2 i hi c hc u hu).mono fun _ h => h.1
  grad i hi j hj c hc c' hc' p q hp hq := by
    have g1 := avg_grad (w := w1) (p := p) fun u hu => h.diff1 i hi c hc u hu
    have g2 := avg_grad (w := w2) (p := q) fun u hu => h.diff2 j hj c' hc' u hu
    refine Integrable.congr (f := fun θ => ∑ u ∈ box S1, ∑ v ∈ box S2,
      (w1 i p u * w2 j q v) * inner ℝ (gradient (f1 i c u) θ) (gradient (f2 j c' v) θ)) ?_ ?_
    · exact integrable_finsetSum _ fun u hu => integrable_finsetSum _ fun v hv =>
        (h.grad i hi j hj c hc c' hc' u v (mem_box.1 hu) (mem_box.1 hv)).const_mul _
    · filter_upwards [g1, g2] with θ e1 e2
      rw [e1.2, e2.2, sum_inner]
      refine Finset.sum_congr rfl fun u _ => ?_
      rw [inner_sum]
      refine Finset.sum_congr rfl fun v _ => ?_
      rw [real_inner_smul_left, real_inner_smul_right]
      ring

open C52 in
/-- The kernel of a dense layer applied to random activations. -/
lemma dense_kernelOf (μ : Measure E) [IsProbabilityMeasure μ] (d : Dense) (hd : d.param ≠ .other) (hs : d.param = .standard → 0 < d.s.1) (C : ℕ) (hC : 0 < C)
    (f1 f2 : ℕ → ℕ → List ℕ → E → ℝ) (L : Logical ℝ) (hreg : Regular μ C L.n1 L.n2 L.S1 L.S2 f1 f2) (hL : ChannelKernelOf μ C f1 f2 L)
    (ν : Measure (EuclideanSpace ℝ (Idx C d.width (nBias d)))) (hν : Uncorrelated ν (initVar d)) (o : ℕ) (ho : o < d.width) :
    KernelOf (extMeasure μ ν) (fun i p => linOut (coef d o fun c => f1 i c p)) (fun i p => linOut (coef d o fun c => f2 i c p)) (after d C L) where
  k12 i j p q hi hj hp hq := by
    rw [secondMoment_out μ hd C hC hs ν hν o ho _ _ (fun c hc => hreg.sq1 i hi c hc p hp) (fun c hc => hreg.sq2 j hj c hc q hq),
      ← hL.k12 i j p q hi hj hp hq]
    rfl
  k11 i j p q hi hj hp hq := by
    rw [secondMoment_out μ hd C hC hs ν hν o ho _ _ (fun c hc => hreg.sq1 i hi c hc p hp) (fun c hc => hreg.sq1 j hj c hc q hq),
      ← hL.k11 i j p q hi hj hp hq]
    rfl
  k22 F hF i j p q hi hj hp hq := by
    obtain ⟨G, hG, rfl⟩ := Option.map_eq_some_iff.1 hF
    rw [secondMoment_out μ hd C hC hs ν hν o ho _ _ (fun c hc => hreg.sq2 i hi c hc p hp) (fun c hc => hreg.sq2 j hj c hc q hq),
      ← hL.k22 G hG i j p q hi hj hp hq]
  ntk F hF i j p q hi hj hp hq := by
    obtain ⟨G, hG, rfl⟩ := Option.map_eq_some_iff.1 hF
    rw [tangent_out μ hd C hC hs ν hν o ho _ _ (fun c hc => hreg.sq1 i hi c hc p hp)
      (fun c hc => hreg.sq2 j hj c hc q hq) (fun c hc => hreg.diff1 i hi c hc p hp) (fun c hc => hreg.diff2 j hj c hc q hq)
      (fun c hc c' hc' => hreg.grad i hi j hj c hc c' hc' p q hp hq), ← hL.k12 i j p q hi hj hp hq, ← hL.ntk G hG i j p q hi hj hp hq]

end NT.Attn
