import Verif.Tac
import Verif.Lemmas.Channels
import Verif.Spec.Window

/-!
Second moments and tangent kernels of linear combinations.
-/

set_option linter.unusedSectionVars false

namespace NT
open MeasureTheory Spec

variable {E : Type} [NormedAddCommGroup E] [InnerProductSpace ℝ E] [CompleteSpace E] [MeasurableSpace E]

lemma secondMoment_lin {ι κ : Type} (μ : Measure E) (s : Finset ι) (t : Finset κ) (f : ι → E → ℝ) (g : κ → E → ℝ)
    (hf : ∀ u ∈ s, MemLp (f u) 2 μ) (hg : ∀ v ∈ t, MemLp (g v) 2 μ) :
    secondMoment μ (fun θ => ∑ u ∈ s, f u θ) (fun θ => ∑ v ∈ t, g v θ) = ∑ u ∈ s, ∑ v ∈ t, secondMoment μ (f u) (g v) := by
  unfold secondMoment
  simp only [Finset.sum_mul_sum]
  rw [integral_finsetSum]
  · refine Finset.sum_congr rfl fun u hu => ?_
    rw [integral_finsetSum]
    exact fun v hv => (hf u hu).integrable_mul (hg v hv)
  · intro u hu
    exact integrable_finsetSum _ fun v hv => (hf u hu).integrable_mul (hg v hv)

lemma gradient_sum {ι : Type} (s : Finset ι) (f : ι → E → ℝ) (θ : E) (h : ∀ u ∈ s, DifferentiableAt ℝ (f u) θ) :
    gradient (fun θ => ∑ u ∈ s, f u θ) θ = ∑ u ∈ s, gradient (f u) θ := by
  unfold gradient
  rw [fderiv_fun_sum h, map_sum]

lemma tangent_lin {ι κ : Type} (μ : Measure E) (s : Finset ι) (t : Finset κ) (f : ι → E → ℝ) (g : κ → E → ℝ)
    (hf : ∀ u ∈ s, ∀ᵐ θ ∂μ, DifferentiableAt ℝ (f u) θ) (hg : ∀ v ∈ t, ∀ᵐ θ ∂μ, DifferentiableAt ℝ (g v) θ)
    (hi : ∀ u ∈ s, ∀ v ∈ t, Integrable (fun θ => inner ℝ (gradient (f u) θ) (gradient (g v) θ)) μ) :
    tangent μ (fun θ => ∑ u ∈ s, f u θ) (fun θ => ∑ v ∈ t, g v θ) = ∑ u ∈ s, ∑ v ∈ t, tangent μ (f u) (g v) := by
  unfold tangent
  have hf' : ∀ᵐ θ ∂μ, ∀ u ∈ s, DifferentiableAt ℝ (f u) θ := (ae_ball_iff s.countable_toSet).2 hf
  have hg' : ∀ᵐ θ ∂μ, ∀ v ∈ t, DifferentiableAt ℝ (g v) θ := (ae_ball_iff t.countable_toSet).2 hg
  have e : ∀ᵐ θ ∂μ, inner ℝ (gradient (fun θ => ∑ u ∈ s, f u θ) θ) (gradient (fun θ => ∑ v ∈ t, g v θ) θ) =
      ∑ u ∈ s, ∑ v ∈ t, inner ℝ (gradient (f u) θ) (gradient (g v) θ) := by
    filter_upwards [hf', hg'] with θ h1 h2
    rw [gradient_sum s f θ h1, gradient_sum t g θ h2, sum_inner]
    simp only [inner_sum]
  rw [integral_congr_ae e, integral_finsetSum]
  · refine Finset.sum_congr rfl fun u hu => ?_
    rw [integral_finsetSum]
    exact fun v hv => hi u hu v hv
  · exact fun u hu => integrable_finsetSum _ fun v hv => hi u hu v hv

lemma secondMoment_scale (μ : Measure E) (a b : ℝ) (f g : E → ℝ) :
    secondMoment μ (fun θ => a * f θ) (fun θ => b * g θ) = a * b * secondMoment μ f g := by
  unfold secondMoment
  rw [← integral_const_mul]
  congr 1
  funext θ
  ring

lemma gradient_scale (a : ℝ) (f : E → ℝ) (θ : E) : gradient (fun θ => a * f θ) θ = a • gradient f θ := by
  unfold gradient
  have e : (fun θ => a * f θ) = a • f := rfl
  rw [e, fderiv_const_smul_field, Pi.smul_apply, map_smul]

lemma tangent_scale (μ : Measure E) (a b : ℝ) (f g : E → ℝ) :
    tangent μ (fun θ => a * f θ) (fun θ => b * g θ) = a * b * tangent μ f g := by
  unfold tangent
  rw [← integral_const_mul]
  congr 1
  funext θ
  rw [gradient_scale, gradient_scale, inner_smul_left, inner_smul_right]
  simp only [conj_trivial]
  ring

lemma gradient_zero' (θ : E) : gradient (fun _ : E => (0 : ℝ)) θ = 0 := by
  unfold gradient; simp

/-- Entry `o` of the output is the linear combination, with weights `w`, of the entries read. -/
noncomputable def tapSum {ι : Type} (s : Finset ι) (w : ι → ℝ) (t : ι → Option (List ℕ)) (x : List ℕ → E → ℝ) (θ : E) : ℝ :=
  ∑ u ∈ s, w u * readTap (fun p => x p θ) (t u)

/-- Kernel of linear combinations of entries. -/
lemma tapSum_kernel {ι : Type} (μ : Measure E) (s s' : Finset ι) (w w' : ι → ℝ) (t t' : ι → Option (List ℕ))
    (x y : List ℕ → E → ℝ) :
    ((∀ u ∈ s, ∀ p, t u = some p → MemLp (x p) 2 μ) → (∀ u ∈ s', ∀ p, t' u = some p → MemLp (y p) 2 μ) →
      secondMoment μ (tapSum s w t x) (tapSum s' w' t' y) =
        ∑ u ∈ s, ∑ v ∈ s', w u * w' v * read2 (fun p q => secondMoment μ (x p) (y q)) (t u) (t' v)) ∧
    ((∀ u ∈ s, ∀ p, t u = some p → ∀ᵐ θ ∂μ, DifferentiableAt ℝ (x p) θ) →
      (∀ u ∈ s', ∀ p, t' u = some p → ∀ᵐ θ ∂μ, DifferentiableAt ℝ (y p) θ) →
      (∀ u ∈ s, ∀ v ∈ s', ∀ p q, t u = some p → t' v = some q →
        Integrable (fun θ => inner ℝ (gradient (x p) θ) (gradient (y q) θ)) μ) →
      tangent μ (tapSum s w t x) (tapSum s' w' t' y) =
        ∑ u ∈ s, ∑ v ∈ s', w u * w' v * read2 (fun p q => tangent μ (x p) (y q)) (t u) (t' v)) := by
  constructor
  · intro hx hy
    have m1 : ∀ u ∈ s, MemLp (fun θ => w u * readTap (fun p => x p θ) (t u)) 2 μ := by
      intro u hu
      cases h : t u with
      | none => simp only [readTap, mul_zero]; exact MemLp.zero
      | some p => exact (hx u hu p h).const_mul _
    have m2 : ∀ u ∈ s', MemLp (fun θ => w' u * readTap (fun p => y p θ) (t' u)) 2 μ := by
      intro u hu
      cases h : t' u with
      | none => simp only [readTap, mul_zero]; exact MemLp.zero
      | some p => exact (hy u hu p h).const_mul _
    unfold tapSum
    rw [secondMoment_lin μ s s' _ _ m1 m2]
    refine Finset.sum_congr rfl fun u _ => Finset.sum_congr rfl fun v _ => ?_
    rw [secondMoment_scale μ (w u) (w' v) (fun θ => readTap (fun p => x p θ) (t u)) (fun θ => readTap (fun p => y p θ) (t' v))]
    congr 1
    cases t u <;> cases t' v <;> simp [readTap, read2, secondMoment]
  · intro hx hy hi
    have g1 : ∀ u θ, gradient (fun θ => w u * readTap (fun p => x p θ) (t u)) θ =
        w u • gradient (fun θ => readTap (fun p => x p θ) (t u)) θ := fun u θ =>
      gradient_scale (w u) (fun θ => readTap (fun p => x p θ) (t u)) θ
    have g2 : ∀ u θ, gradient (fun θ => w' u * readTap (fun p => y p θ) (t' u)) θ =
        w' u • gradient (fun θ => readTap (fun p => y p θ) (t' u)) θ := fun u θ =>
      gradient_scale (w' u) (fun θ => readTap (fun p => y p θ) (t' u)) θ
    unfold tapSum
    rw [tangent_lin μ s s']
    · refine Finset.sum_congr rfl fun u _ => Finset.sum_congr rfl fun v _ => ?_
      rw [tangent_scale μ (w u) (w' v) (fun θ => readTap (fun p => x p θ) (t u)) (fun θ => readTap (fun p => y p θ) (t' v))]
      congr 1
      cases t u <;> cases t' v <;> simp [readTap, read2, tangent, gradient_zero']
    · intro u hu
      cases h : t u with
      | none => simp [readTap]
      | some p =>
        filter_upwards [hx u hu p h] with θ hθ
        exact hθ.const_mul _
    · intro u hu
      cases h : t' u with
      | none => simp [readTap]
      | some p =>
        filter_upwards [hy u hu p h] with θ hθ
        exact hθ.const_mul _
    · intro u hu v hv
      simp only [g1, g2, inner_smul_left, inner_smul_right]
      refine Integrable.const_mul (Integrable.const_mul ?_ _) _
      cases h : t u with
      | none => simp [readTap, gradient_zero']
      | some p =>
        cases h' : t' v with
        | none => simp [readTap, gradient_zero']
        | some q => exact hi u hu v hv p q h h'

/-- The transformation of a kernel by linear maps of the positions: output position `o` is the combination
with weights `w S o u` of the entries `t S o u`, `u ∈ s`. -/
noncomputable def linLogical {ι : Type} (s : List ℕ → Finset ι) (w : List ℕ → List ℕ → ι → ℝ) (t : List ℕ → List ℕ → ι → Option (List ℕ))
    (out : List ℕ → List ℕ) (L : Logical ℝ) : Logical ℝ :=
  let tr := fun (S T : List ℕ) (F : List ℕ → List ℕ → List ℕ → ℝ) (b o o' : List ℕ) =>
    ∑ u ∈ s S, ∑ v ∈ s T, w S o u * w T o' v * read2 (F b) (t S o u) (t T o' v)
  { n1 := L.n1, n2 := L.n2, S1 := out L.S1, S2 := out L.S2, k12 := tr L.S1 L.S2 L.k12, k11 := tr L.S1 L.S1 L.k11,
    k22 := L.k22.map (tr L.S2 L.S2), ntk := L.ntk.map (tr L.S1 L.S2) }

/-- If the layer computes these combinations for each example and channel, the transformed kernel is that of
its outputs. -/
lemma linLogical_exact {ι : Type} (μ : Measure E) (C : ℕ) (s : List ℕ → Finset ι) (w : List ℕ → List ℕ → ι → ℝ)
    (t : List ℕ → List ℕ → ι → Option (List ℕ)) (out : List ℕ → List ℕ) (x1 x2 y1 y2 : ℕ → ℕ → List ℕ → E → ℝ) (L : Logical ℝ)
    (hL : ChannelKernelOf μ C x1 x2 L) (hR : Regular μ C L.n1 L.n2 L.S1 L.S2 x1 x2)
    (hr1 : ∀ o, InRange o (out L.S1) → ∀ u ∈ s L.S1, ∀ p, t L.S1 o u = some p → InRange p L.S1)
    (hr2 : ∀ o, InRange o (out L.S2) → ∀ u ∈ s L.S2, ∀ p, t L.S2 o u = some p → InRange p L.S2)
    (h1 : ∀ i < L.n1, ∀ c < C, ∀ o, InRange o (out L.S1) → y1 i c o = tapSum (s L.S1) (w L.S1 o) (t L.S1 o) (x1 i c))
    (h2 : ∀ i < L.n2, ∀ c < C, ∀ o, InRange o (out L.S2) → y2 i c o = tapSum (s L.S2) (w L.S2 o) (t L.S2 o) (x2 i c)) :
    ChannelKernelOf μ C y1 y2 (linLogical s w t out L) ∧
      Regular μ C L.n1 L.n2 (out L.S1) (out L.S2) y1 y2 := by
  -- averages commute with the finite sums
  have avg : ∀ (S T o o' : List ℕ) (K : List ℕ → List ℕ → ℝ) (k : ℕ → List ℕ → List ℕ → ℝ),
      (∀ u ∈ s S, ∀ v ∈ s T, ∀ p q, t S o u = some p → t T o' v = some q →
        K p q = (∑ c ∈ Finset.range C, k c p q) / C) →
      ∑ u ∈ s S, ∑ v ∈ s T, w S o u * w T o' v * read2 K (t S o u) (t T o' v) =
        (∑ c ∈ Finset.range C, ∑ u ∈ s S, ∑ v ∈ s T, w S o u * w T o' v * read2 (k c) (t S o u) (t T o' v)) / C := by
    intro S T o o' K k hK
    rw [Finset.sum_comm (s := Finset.range C), Finset.sum_div]
    refine Finset.sum_congr rfl fun u hu => ?_
    rw [Finset.sum_comm (s := Finset.range C), Finset.sum_div]
    refine Finset.sum_congr rfl fun v hv => ?_
    rw [← Finset.mul_sum, mul_div_assoc]
    congr 1
    cases e1 : t S o u with
    | none => simp [read2]
    | some p =>
      cases e2 : t T o' v with
      | none => simp [read2]
      | some q => exact hK u hu v hv p q e1 e2
  constructor
  · refine ⟨?_, ?_, ?_, ?_⟩
    · intro i j p q hi hj hp hq
      have := avg L.S1 L.S2 p q (L.k12 [i, j]) (fun c p q => secondMoment μ (x1 i c p) (x2 j c q))
        fun u hu v hv p' q' e1 e2 => hL.k12 i j p' q' hi hj (hr1 p hp u hu p' e1) (hr2 q hq v hv q' e2)
      refine this.trans ?_
      congr 1
      refine Finset.sum_congr rfl fun c hc => ?_
      rw [Finset.mem_range] at hc
      rw [h1 i hi c hc p hp, h2 j hj c hc q hq]
      exact ((tapSum_kernel μ _ _ _ _ _ _ (x1 i c) (x2 j c)).1 (fun u hu p' e => hR.sq1 i hi c hc p' (hr1 p hp u hu p' e))
        (fun u hu p' e => hR.sq2 j hj c hc p' (hr2 q hq u hu p' e))).symm
    · intro i j p q hi hj hp hq
      have := avg L.S1 L.S1 p q (L.k11 [i, j]) (fun c p q => secondMoment μ (x1 i c p) (x1 j c q))
        fun u hu v hv p' q' e1 e2 => hL.k11 i j p' q' hi hj (hr1 p hp u hu p' e1) (hr1 q hq v hv q' e2)
      refine this.trans ?_
      congr 1
      refine Finset.sum_congr rfl fun c hc => ?_
      rw [Finset.mem_range] at hc
      rw [h1 i hi c hc p hp, h1 j hj c hc q hq]
      exact ((tapSum_kernel μ _ _ _ _ _ _ (x1 i c) (x1 j c)).1 (fun u hu p' e => hR.sq1 i hi c hc p' (hr1 p hp u hu p' e))
        (fun u hu p' e => hR.sq1 j hj c hc p' (hr1 q hq u hu p' e))).symm
    · intro F hF i j p q hi hj hp hq
      simp only [linLogical, Option.map_eq_some_iff] at hF
      obtain ⟨G, hG, rfl⟩ := hF
      have := avg L.S2 L.S2 p q (G [i, j]) (fun c p q => secondMoment μ (x2 i c p) (x2 j c q))
        fun u hu v hv p' q' e1 e2 => hL.k22 G hG i j p' q' hi hj (hr2 p hp u hu p' e1) (hr2 q hq v hv q' e2)
      refine this.trans ?_
      congr 1
      refine Finset.sum_congr rfl fun c hc => ?_
      rw [Finset.mem_range] at hc
      rw [h2 i hi c hc p hp, h2 j hj c hc q hq]
      exact ((tapSum_kernel μ _ _ _ _ _ _ (x2 i c) (x2 j c)).1 (fun u hu p' e => hR.sq2 i hi c hc p' (hr2 p hp u hu p' e))
        (fun u hu p' e => hR.sq2 j hj c hc p' (hr2 q hq u hu p' e))).symm
    · intro F hF i j p q hi hj hp hq
      simp only [linLogical, Option.map_eq_some_iff] at hF
      obtain ⟨G, hG, rfl⟩ := hF
      have := avg L.S1 L.S2 p q (G [i, j]) (fun c p q => tangent μ (x1 i c p) (x2 j c q))
        fun u hu v hv p' q' e1 e2 => hL.ntk G hG i j p' q' hi hj (hr1 p hp u hu p' e1) (hr2 q hq v hv q' e2)
      refine this.trans ?_
      congr 1
      refine Finset.sum_congr rfl fun c hc => ?_
      rw [Finset.mem_range] at hc
      rw [h1 i hi c hc p hp, h2 j hj c hc q hq]
      exact ((tapSum_kernel μ _ _ _ _ _ _ (x1 i c) (x2 j c)).2 (fun u hu p' e => hR.diff1 i hi c hc p' (hr1 p hp u hu p' e))
        (fun u hu p' e => hR.diff2 j hj c hc p' (hr2 q hq u hu p' e))
        (fun u hu v hv p' q' e1 e2 => hR.grad i hi j hj c hc c hc p' q' (hr1 p hp u hu p' e1) (hr2 q hq v hv q' e2))).symm
  · have sq : ∀ (S o : List ℕ) (x : List ℕ → E → ℝ), (∀ u ∈ s S, ∀ p, t S o u = some p → MemLp (x p) 2 μ) →
        MemLp (tapSum (s S) (w S o) (t S o) x) 2 μ := by
      intro S o x hx
      refine memLp_finsetSum _ fun u hu => ?_
      cases h : t S o u with
      | none => simp only [readTap, mul_zero]; exact MemLp.zero
      | some p => exact (hx u hu p h).const_mul _
    have df : ∀ (S o : List ℕ) (x : List ℕ → E → ℝ),
        (∀ u ∈ s S, ∀ p, t S o u = some p → ∀ᵐ θ ∂μ, DifferentiableAt ℝ (x p) θ) →
        ∀ᵐ θ ∂μ, ∀ u ∈ s S, DifferentiableAt ℝ (fun θ => w S o u * readTap (fun p => x p θ) (t S o u)) θ := by
      intro S o x hx
      refine (ae_ball_iff (s S).countable_toSet).2 fun u hu => ?_
      cases h : t S o u with
      | none => simp [readTap]
      | some p =>
        filter_upwards [hx u hu p h] with θ hθ
        exact hθ.const_mul _
    refine ⟨?_, ?_, ?_, ?_, ?_⟩
    · intro i hi c hc o ho
      rw [h1 i hi c hc o ho]
      exact sq _ _ _ fun u hu p e => hR.sq1 i hi c hc p (hr1 o ho u hu p e)
    · intro i hi c hc o ho
      rw [h2 i hi c hc o ho]
      exact sq _ _ _ fun u hu p e => hR.sq2 i hi c hc p (hr2 o ho u hu p e)
    · intro i hi c hc o ho
      rw [h1 i hi c hc o ho]
      filter_upwards [df L.S1 o (x1 i c) fun u hu p e => hR.diff1 i hi c hc p (hr1 o ho u hu p e)] with θ hθ
      exact DifferentiableAt.fun_sum hθ
    · intro i hi c hc o ho
      rw [h2 i hi c hc o ho]
      filter_upwards [df L.S2 o (x2 i c) fun u hu p e => hR.diff2 i hi c hc p (hr2 o ho u hu p e)] with θ hθ
      exact DifferentiableAt.fun_sum hθ
    · intro i hi j hj c hc c' hc' p q hp hq
      rw [h1 i hi c hc p hp, h2 j hj c' hc' q hq]
      have e : ∀ᵐ θ ∂μ, ∑ u ∈ s L.S1, ∑ v ∈ s L.S2, inner ℝ
            (gradient (fun θ => w L.S1 p u * readTap (fun p => x1 i c p θ) (t L.S1 p u)) θ)
            (gradient (fun θ => w L.S2 q v * readTap (fun p => x2 j c' p θ) (t L.S2 q v)) θ) =
          inner ℝ (gradient (tapSum (s L.S1) (w L.S1 p) (t L.S1 p) (x1 i c)) θ)
            (gradient (tapSum (s L.S2) (w L.S2 q) (t L.S2 q) (x2 j c')) θ) := by
        filter_upwards [df L.S1 p (x1 i c) fun u hu p' e => hR.diff1 i hi c hc p' (hr1 p hp u hu p' e),
          df L.S2 q (x2 j c') fun u hu p' e => hR.diff2 j hj c' hc' p' (hr2 q hq u hu p' e)] with θ d1 d2
        unfold tapSum
        rw [gradient_sum _ _ θ d1, gradient_sum _ _ θ d2, sum_inner]
        simp only [inner_sum]
      refine Integrable.congr ?_ e
      refine integrable_finsetSum _ fun u hu => integrable_finsetSum _ fun v hv => ?_
      have g1 : ∀ θ, gradient (fun θ => w L.S1 p u * readTap (fun p => x1 i c p θ) (t L.S1 p u)) θ =
          w L.S1 p u • gradient (fun θ => readTap (fun p => x1 i c p θ) (t L.S1 p u)) θ := fun θ =>
        gradient_scale _ (fun θ => readTap (fun p => x1 i c p θ) (t L.S1 p u)) θ
      have g2 : ∀ θ, gradient (fun θ => w L.S2 q v * readTap (fun p => x2 j c' p θ) (t L.S2 q v)) θ =
          w L.S2 q v • gradient (fun θ => readTap (fun p => x2 j c' p θ) (t L.S2 q v)) θ := fun θ =>
        gradient_scale _ (fun θ => readTap (fun p => x2 j c' p θ) (t L.S2 q v)) θ
      simp only [g1, g2, inner_smul_left, inner_smul_right]
      refine Integrable.const_mul (Integrable.const_mul ?_ _) _
      cases h : t L.S1 p u with
      | none => simp [readTap, gradient_zero']
      | some p' =>
        cases h' : t L.S2 q v with
        | none => simp [readTap, gradient_zero']
        | some q' => exact hR.grad i hi j hj c hc c' hc' p' q' (hr1 p hp u hu p' h) (hr2 q hq v hv q' h')

end NT
