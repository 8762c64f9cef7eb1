import Verif.Lemmas.Layout
import Verif.Spec.RandomFn
import Mathlib.Probability.Distributions.Gaussian.Real

/-!
# C24: `Kernel` arithmetic acts as on the random function
-/

set_option linter.unusedSectionVars false

namespace NT.C24
open NT Arr Kernel Spec MeasureTheory

variable {E : Type} [NormedAddCommGroup E] [InnerProductSpace ℝ E] [CompleteSpace E]
  [MeasurableSpace E]

/-- Logical content after an entrywise map of the covariances and another of the tangent kernel. -/
def mapL (L : Logical ℝ) (f g : ℝ → ℝ) : Logical ℝ where
  n1 := L.n1
  n2 := L.n2
  S1 := L.S1
  S2 := L.S2
  k12 := fun b p q => f (L.k12 b p q)
  k11 := fun b p q => f (L.k11 b p q)
  k22 := L.k22.map fun F b p q => f (F b p q)
  ntk := L.ntk.map fun F b p q => g (F b p q)

lemma stores_map (k : Kernel ℝ) (L : Logical ℝ) (hk : k.Stores L) (f g : ℝ → ℝ) :
    ({ k with cov1 := k.cov1.map f, nngp := k.nngp.map f, cov2 := k.cov2.map (·.map f),
              ntk := k.ntk.map (·.map g) } : Kernel ℝ).Stores (mapL L f g) := by
  refine ⟨hk.nngp.map f, hk.cov1.map f, ?_, ?_⟩
  · have := hk.cov2
    simp only [mapL]
    cases e1 : k.cov2 <;> cases e2 : L.k22 <;> rw [e1, e2] at this <;>
      simp only [OptRel, Option.map_some, Option.map_none] at this ⊢
    exact this.map f
  · have := hk.ntk
    simp only [mapL]
    cases e1 : k.ntk <;> cases e2 : L.ntk <;> rw [e1, e2] at this <;>
      simp only [OptRel, Option.map_some, Option.map_none] at this ⊢
    rcases this with ⟨h1, h2⟩ | h
    · exact .inl ⟨h1, fun b p q => by rw [h2]; rfl⟩
    · exact .inr (h.map g)

lemma kernelOf_map {μ : Measure E} {f1 f2 g1 g2 : ℕ → List ℕ → E → ℝ} {L : Logical ℝ}
    (hL : KernelOf μ f1 f2 L) (f g : ℝ → ℝ)
    (h12 : ∀ i j p q, secondMoment μ (g1 i p) (g2 j q) = f (secondMoment μ (f1 i p) (f2 j q)))
    (h11 : ∀ i j p q, secondMoment μ (g1 i p) (g1 j q) = f (secondMoment μ (f1 i p) (f1 j q)))
    (h22 : ∀ i j p q, secondMoment μ (g2 i p) (g2 j q) = f (secondMoment μ (f2 i p) (f2 j q)))
    (hn : ∀ i j p q, tangent μ (g1 i p) (g2 j q) = g (tangent μ (f1 i p) (f2 j q))) :
    KernelOf μ g1 g2 (mapL L f g) where
  k12 i j p q hi hj hp hq := by rw [h12, ← hL.k12 i j p q hi hj hp hq]; rfl
  k11 i j p q hi hj hp hq := by rw [h11, ← hL.k11 i j p q hi hj hp hq]; rfl
  k22 F hF i j p q hi hj hp hq := by
    simp only [mapL, Option.map_eq_some_iff] at hF
    obtain ⟨G, hG, rfl⟩ := hF
    rw [h22, ← hL.k22 G hG i j p q hi hj hp hq]
  ntk F hF i j p q hi hj hp hq := by
    simp only [mapL, Option.map_eq_some_iff] at hF
    obtain ⟨G, hG, rfl⟩ := hF
    rw [hn, ← hL.ntk G hG i j p q hi hj hp hq]

lemma gradient_mul {f : E → ℝ} (c : ℝ) (hf : Differentiable ℝ f) (θ : E) :
    gradient (fun x => c * f x) θ = c • gradient f θ := by
  unfold gradient
  rw [fderiv_const_mul (hf θ)]
  simp

lemma gradient_add (f : E → ℝ) (c : ℝ) (θ : E) :
    gradient (fun x => f x + c) θ = gradient f θ := by
  unfold gradient
  rw [fderiv_add_const]

lemma secondMoment_mul (μ : Measure E) (f g : E → ℝ) (c : ℝ) :
    secondMoment μ (fun x => c * f x) (fun x => c * g x) = c ^ 2 * secondMoment μ f g := by
  unfold secondMoment
  rw [← integral_const_mul]
  congr 1
  ext θ
  ring

lemma secondMoment_add (μ : Measure E) [IsProbabilityMeasure μ] (f g : E → ℝ) (c : ℝ)
    (hf : Integrable f μ) (hg : Integrable g μ) (hfg : Integrable (fun θ => f θ * g θ) μ)
    (hf0 : ∫ θ, f θ ∂μ = 0) (hg0 : ∫ θ, g θ ∂μ = 0) :
    secondMoment μ (fun x => f x + c) (fun x => g x + c) = c ^ 2 + secondMoment μ f g := by
  unfold secondMoment
  have h : ∀ θ, (f θ + c) * (g θ + c) = f θ * g θ + c * f θ + c * g θ + c ^ 2 := fun θ => by ring
  simp only [h]
  rw [integral_add, integral_add, integral_add, integral_const_mul, integral_const_mul, hf0, hg0]
  · simp; ring
  · exact hfg
  · exact hf.const_mul c
  · exact hfg.add (hf.const_mul c)
  · exact hg.const_mul c
  · exact (hfg.add (hf.const_mul c)).add (hg.const_mul c)
  · exact integrable_const _

/-- Multiplying a kernel by `c` gives the kernel of the network `c f`. -/
theorem mul_scales (μ : Measure E) (k : Kernel ℝ) (L : Logical ℝ) (f1 f2 : ℕ → List ℕ → E → ℝ)
    (c : ℝ) (hk : k.Stores L) (hL : KernelOf μ f1 f2 L)
    (h1 : ∀ i p, Differentiable ℝ (f1 i p)) (h2 : ∀ i p, Differentiable ℝ (f2 i p)) :
    ∃ L', (k.mul c).Stores L' ∧
      KernelOf μ (fun i p θ => c * f1 i p θ) (fun i p θ => c * f2 i p θ) L' ∧
      (k.mul c).static = k.static ∧ (L'.n1, L'.n2, L'.S1, L'.S2) = (L.n1, L.n2, L.S1, L.S2) := by
  refine ⟨mapL L (c ^ 2 * ·) (c ^ 2 * ·), stores_map k L hk _ _, kernelOf_map hL _ _ ?_ ?_ ?_ ?_,
    rfl, rfl⟩
  · exact fun i j p q => secondMoment_mul _ _ _ _
  · exact fun i j p q => secondMoment_mul _ _ _ _
  · exact fun i j p q => secondMoment_mul _ _ _ _
  · intro i j p q
    unfold tangent
    rw [← integral_const_mul]
    congr 1
    ext θ
    rw [gradient_mul c (h1 i p), gradient_mul c (h2 j q), real_inner_smul_left,
      real_inner_smul_right]
    ring

/-- Dividing a kernel by `c ≠ 0` gives the kernel of the network `f / c`. -/
theorem div_scales (μ : Measure E) (k : Kernel ℝ) (L : Logical ℝ) (f1 f2 : ℕ → List ℕ → E → ℝ)
    (c : ℝ) (_hc : c ≠ 0) (hk : k.Stores L) (hL : KernelOf μ f1 f2 L)
    (h1 : ∀ i p, Differentiable ℝ (f1 i p)) (h2 : ∀ i p, Differentiable ℝ (f2 i p)) :
    ∃ L', (k.div c).Stores L' ∧
      KernelOf μ (fun i p θ => f1 i p θ / c) (fun i p θ => f2 i p θ / c) L' ∧
      (k.div c).static = k.static ∧ (L'.n1, L'.n2, L'.S1, L'.S2) = (L.n1, L.n2, L.S1, L.S2) := by
  have := mul_scales μ k L f1 f2 (1 / c) hk hL h1 h2
  have e : ∀ f : ℕ → List ℕ → E → ℝ, (fun i p θ => f i p θ / c) = fun i p θ => 1 / c * f i p θ := by
    intro f
    funext i p θ
    ring
  rw [e, e]
  exact this

/-- Adding a constant to a kernel gives the kernel of the network `f + c`, for a network with zero
mean outputs: covariances grow by `c ^ 2`, the tangent kernel stays. -/
theorem add_shifts (μ : Measure E) [IsProbabilityMeasure μ] (k : Kernel ℝ) (L : Logical ℝ)
    (f1 f2 : ℕ → List ℕ → E → ℝ) (c : ℝ) (hk : k.Stores L) (hL : KernelOf μ f1 f2 L)
    (h1 : ∀ i p, MemLp (f1 i p) 2 μ) (h2 : ∀ i p, MemLp (f2 i p) 2 μ)
    (m1 : ∀ i p, ∫ θ, f1 i p θ ∂μ = 0) (m2 : ∀ i p, ∫ θ, f2 i p θ ∂μ = 0) :
    ∃ L', (k.add c).Stores L' ∧
      KernelOf μ (fun i p θ => f1 i p θ + c) (fun i p θ => f2 i p θ + c) L' ∧
      (k.add c).static = k.static ∧ (L'.n1, L'.n2, L'.S1, L'.S2) = (L.n1, L.n2, L.S1, L.S2) := by
  have i1 : ∀ i p, Integrable (f1 i p) μ := fun i p => (h1 i p).integrable (by norm_num)
  have i2 : ∀ i p, Integrable (f2 i p) μ := fun i p => (h2 i p).integrable (by norm_num)
  refine ⟨mapL L (c ^ 2 + ·) id, ?_, kernelOf_map hL _ _ ?_ ?_ ?_ ?_, rfl, rfl⟩
  · have := stores_map k L hk (c ^ 2 + ·) id
    have hid : k.ntk.map (·.map id) = k.ntk := by
      cases k.ntk <;> rfl
    rw [hid] at this
    exact this
  · exact fun i j p q => secondMoment_add μ _ _ c (i1 i p) (i2 j q)
      ((h1 i p).integrable_mul (h2 j q)) (m1 i p) (m2 j q)
  · exact fun i j p q => secondMoment_add μ _ _ c (i1 i p) (i1 j q)
      ((h1 i p).integrable_mul (h1 j q)) (m1 i p) (m1 j q)
  · exact fun i j p q => secondMoment_add μ _ _ c (i2 i p) (i2 j q)
      ((h2 i p).integrable_mul (h2 j q)) (m2 i p) (m2 j q)
  · intro i j p q
    unfold tangent
    simp only [gradient_add]
    rfl

/-- Subtracting a constant gives the kernel of the network `f - c`. -/
theorem sub_shifts (μ : Measure E) [IsProbabilityMeasure μ] (k : Kernel ℝ) (L : Logical ℝ)
    (f1 f2 : ℕ → List ℕ → E → ℝ) (c : ℝ) (hk : k.Stores L) (hL : KernelOf μ f1 f2 L)
    (h1 : ∀ i p, MemLp (f1 i p) 2 μ) (h2 : ∀ i p, MemLp (f2 i p) 2 μ)
    (m1 : ∀ i p, ∫ θ, f1 i p θ ∂μ = 0) (m2 : ∀ i p, ∫ θ, f2 i p θ ∂μ = 0) :
    ∃ L', (k.sub c).Stores L' ∧
      KernelOf μ (fun i p θ => f1 i p θ - c) (fun i p θ => f2 i p θ - c) L' ∧
      (k.sub c).static = k.static ∧ (L'.n1, L'.n2, L'.S1, L'.S2) = (L.n1, L.n2, L.S1, L.S2) := by
  have e : k.sub c = k.add (-c) := by
    unfold Kernel.sub Kernel.add
    simp only [neg_sq]
  rw [e]
  simpa only [sub_eq_add_neg] using add_shifts μ k L f1 f2 (-c) hk hL h1 h2 m1 m2

/-- Negating a kernel gives the kernel of the network `-f`. -/
theorem neg_same (μ : Measure E) (k : Kernel ℝ) (L : Logical ℝ) (f1 f2 : ℕ → List ℕ → E → ℝ)
    (hk : k.Stores L) (hL : KernelOf μ f1 f2 L)
    (h1 : ∀ i p, Differentiable ℝ (f1 i p)) (h2 : ∀ i p, Differentiable ℝ (f2 i p)) :
    k.neg.Stores L ∧ KernelOf μ (fun i p θ => -f1 i p θ) (fun i p θ => -f2 i p θ) L ∧
      k.neg.static = k.static := by
  refine ⟨hk, ?_, rfl⟩
  have := mul_scales μ k L f1 f2 (-1) hk hL h1 h2
  have h := kernelOf_map (g1 := fun i p θ => -f1 i p θ) (g2 := fun i p θ => -f2 i p θ) hL id id
    ?_ ?_ ?_ ?_
  · have e : mapL L id id = L := by
      unfold mapL
      obtain ⟨n1, n2, S1, S2, a, b, c, d⟩ := L
      cases c <;> cases d <;> rfl
    rwa [e] at h
  · intro i j p q; simp [secondMoment]
  · intro i j p q; simp [secondMoment]
  · intro i j p q; simp [secondMoment]
  · intro i j p q
    have a := fun θ => gradient_mul (-1) (h1 i p) θ
    have b := fun θ => gradient_mul (-1) (h2 j q) θ
    simp only [neg_mul, one_mul, neg_smul, one_smul] at a b
    simp [tangent, a, b]

section Examples
open ProbabilityTheory

/-- `θ * x` for two inputs with features `1` and `2`, `θ` standard normal. -/
noncomputable def exF : ℕ → List ℕ → ℝ → ℝ := fun i _ θ => (i + 1) * θ

/-- Its kernel. -/
noncomputable def exL : Logical ℝ where
  n1 := 2
  n2 := 2
  S1 := []
  S2 := []
  k12 := fun b _ _ => ((b.headD 0 : ℝ) + 1) * ((b.getLastD 0 : ℝ) + 1)
  k11 := fun b _ _ => ((b.headD 0 : ℝ) + 1) * ((b.getLastD 0 : ℝ) + 1)
  k22 := none
  ntk := some fun b _ _ => ((b.headD 0 : ℝ) + 1) * ((b.getLastD 0 : ℝ) + 1)

lemma exF_memLp (i : ℕ) (p : List ℕ) : MemLp (exF i p) 2 (gaussianReal 0 1) :=
  (memLp_id_gaussianReal 2).const_mul _

lemma exF_mean (i : ℕ) (p : List ℕ) : ∫ θ, exF i p θ ∂(gaussianReal 0 1) = 0 := by
  unfold exF
  rw [integral_const_mul]
  simp

lemma exF_moment (i j : ℕ) (p q : List ℕ) :
    secondMoment (gaussianReal 0 1) (exF i p) (exF j q) = ((i : ℝ) + 1) * ((j : ℝ) + 1) := by
  have h := variance_fun_id_gaussianReal (μ := 0) (v := 1)
  rw [variance_eq_integral measurable_id'.aemeasurable] at h
  simp at h
  unfold secondMoment exF
  have e : ∀ θ : ℝ, ((i : ℝ) + 1) * θ * (((j : ℝ) + 1) * θ) =
      (((i : ℝ) + 1) * ((j : ℝ) + 1)) * θ ^ 2 := fun θ => by ring
  simp only [e]
  rw [integral_const_mul, h, mul_one]

lemma exF_gradient (i : ℕ) (p : List ℕ) (θ : ℝ) : gradient (exF i p) θ = (i : ℝ) + 1 := by
  unfold exF
  rw [gradient_mul (f := fun x => x) _ differentiable_id]
  have : gradient (fun x : ℝ => x) θ = 1 := by
    exact (hasDerivAt_id' θ).hasGradientAt'.gradient
  rw [this]
  simp

lemma exL_kernelOf : KernelOf (gaussianReal 0 1) exF exF exL where
  k12 i j p q _ _ _ _ := by rw [exF_moment]; simp [exL]
  k11 i j p q _ _ _ _ := by rw [exF_moment]; simp [exL]
  k22 F hF := by simp [exL] at hF
  ntk F hF i j p q _ _ _ _ := by
    simp only [exL, Option.some.injEq] at hF
    subst hF
    simp [tangent, exF_gradient]
    ring

lemma exF_diff (i : ℕ) (p : List ℕ) : Differentiable ℝ (exF i p) := by
  unfold exF; fun_prop

example : ∃ L', ((exL.encode true false false).mul 3).Stores L' ∧
    KernelOf (gaussianReal 0 1) (fun i p θ => 3 * exF i p θ) (fun i p θ => 3 * exF i p θ) L' := by
  obtain ⟨L', h1, h2, _⟩ := mul_scales (gaussianReal 0 1) (exL.encode true false false) exL exF exF 3
    (exL.encode_stores true false false (by simp) rfl) exL_kernelOf exF_diff exF_diff
  exact ⟨L', h1, h2⟩

example : ∃ L', ((exL.encode true false false).add 3).Stores L' ∧
    KernelOf (gaussianReal 0 1) (fun i p θ => exF i p θ + 3) (fun i p θ => exF i p θ + 3) L' := by
  obtain ⟨L', h1, h2, _⟩ := add_shifts (gaussianReal 0 1) (exL.encode true false false) exL exF exF 3
    (exL.encode_stores true false false (by simp) rfl) exL_kernelOf exF_memLp exF_memLp
    exF_mean exF_mean
  exact ⟨L', h1, h2⟩
end Examples

end NT.C24
