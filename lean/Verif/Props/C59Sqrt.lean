import Verif.Props.C59
import Verif.Lemmas.Attention8
import Verif.Lemmas.Attention9
import Verif.Lemmas.AttentionNet2

/-!
# C59: self-attention with square root scaling

`Spec.sqrtAttention l c M1 M2 L` is the kernel after the layer `l` with square root scaling and the identity mechanism: products of the covariance of two positions with the sum of
all covariances of scores and values.
-/

namespace NT.C59
open NT Spec NT.Attn MeasureTheory Kernel
open NT.Arr

variable (l : Attention) (c : ℕ) (M1 M2 : ℕ → List ℕ → Bool) (L : Logical ℝ)

/-- **C59, square root scaling.**  With the identity mechanism `kernel_fn` computes the kernel `Spec.sqrtAttention`, in every layout of the kernel with all pairs of positions: any batch and
channel axis, reversed or not, diagonal over the batch or not, with or without masks, with or without second inputs.  The tangent kernel may be any number. -/
theorem sqrt_kernel (hl : l.linearScaling = false) (hm : l.mechanism = .identity) (k : Kernel ℝ) (hk : k.Stores L) (hd : k.diagonalSpatial = false) (he : EmbedOk l k L c)
    (hM : MasksOf k L M1 M2) :
    ∃ k', l.kernelFn k = .ok k' ∧ k'.Stores (sqrtAttention l c M1 M2 L) ∧ k'.static = { k.static with isGaussian := true } ∧
      (k'.mask1, k'.mask2, k'.x1IsX2) = (k.mask1, k.mask2, k.x1IsX2) := by
  obtain ⟨k', h1, h2, h3, -⟩ := kernelSqrt_ok l k L c hk hd he hM
  refine ⟨k', ?_, h2, ?_, ?_⟩
  · unfold Attention.kernelFn
    rw [if_neg (by simp [hl]), if_pos hm, h1]
  · rw [h3]; rfl
  · rw [h3]

/-- A layer with positional embeddings that are not added to the values, on a kernel in any layout. -/
example (db rev : Bool) : ∃ k', Attention.kernelFn ⟨false, .identity, 2, 1, 1, 3, some 1, .sum, 2, some fun x => Real.exp (-x), none, 1, false⟩ (C42.exL.encode db false rev) = .ok k' ∧
    k'.Stores (sqrtAttention ⟨false, .identity, 2, 1, 1, 3, some 1, .sum, 2, some fun x => Real.exp (-x), none, 1, false⟩ 1 (fun _ _ => false) (fun _ _ => false) C42.exL) := by
  obtain ⟨k', h1, h2, -⟩ := sqrt_kernel ⟨false, .identity, 2, 1, 1, 3, some 1, .sum, 2, some fun x => Real.exp (-x), none, 1, false⟩ 1 _ _ C42.exL rfl rfl _
    (C42.exL_stores db false rev) rfl ⟨by simp [Logical.encode, C42.exL], by simp [Logical.encode, C42.exL], by simp [Logical.encode, C42.exL], by cases db <;> cases rev <;> rfl, fun _ => rfl⟩
    (.none rfl rfl)
  exact ⟨k', h1, h2⟩

/-- **C59, symmetry.**  The kernel of the exchanged inputs is the kernel with the inputs exchanged. -/
theorem sqrt_symmetric (hself : L.k22 = none → L.S2 = L.S1 ∧ M1 = M2) : sqrtAttention l c M2 M1 L.swap = (sqrtAttention l c M1 M2 L).swap := sqrt_swap l c M1 M2 L hself

/-- Positive semidefinite kernels stay so, if the covariances of the positional embeddings are positive semidefinite. -/
theorem sqrt_stays_psd {L : Logical ℝ} (h : PsdKernel L)
    (hR : l.posEmb ≠ .none → ∀ a : List ℕ → ℝ, 0 ≤ ∑ p ∈ box L.S1, ∑ q ∈ box L.S1, a p * a q * posCov l.pNorm l.decay p q) :
    PsdKernel (sqrtAttention l c (fun _ _ => false) (fun _ _ => false) L) := sqrt_psd h hR

/-- A kernel of one position of one example. -/
example : PsdKernel (sqrtAttention ⟨false, .identity, 2, 1, 1, 3, some 1, .none, 2, none, none, 1, false⟩ 1 (fun _ _ => false) (fun _ _ => false)
    ⟨1, 1, [], [], fun _ _ _ => 2, fun _ _ _ => 2, none, some fun _ _ _ => 3⟩) := by
  refine sqrt_stays_psd _ _ ⟨rfl, rfl, rfl, fun _ _ _ _ _ _ _ _ => rfl, psd_gram.2 (.const (zero_le_two)), ?_⟩ fun h => absurd rfl h
  intro F hF
  obtain rfl := Option.some.inj hF
  exact psd_gram.2 (.const zero_le_three)

/-- **C59, square root scaling, exactness.**  For inputs that do not depend on the parameters, the kernel is that of the layer of any finite width: the second moments of its outputs, and the
mean inner products of their gradients with respect to all its parameters, over uncorrelated query, key, value and output matrices and biases of unit variance, each drawn independently.  Queries and keys see inputs
`x1`, `x2` of `C` channels, values `v1`, `v2` of `V` channels. -/
theorem sqrt_exact {E : Type} [NormedAddCommGroup E] [InnerProductSpace ℝ E] [CompleteSpace E] [MeasurableSpace E] (μ : Measure E) [IsProbabilityMeasure μ]
    (qk ov b : ℝ) {H C V A D O : ℕ} (hH : 0 < H) (hC : 0 < C) (hV : 0 < V) (hA : 0 < A) (hD : 0 < D) (n1 n2 : ℕ) (S1 S2 : List ℕ) (x1 x2 v1 v2 : ℕ → ℕ → List ℕ → ℝ)
    {νQ νK : Measure (EuclideanSpace ℝ (HeadIdx H C A))} {νV : Measure (EuclideanSpace ℝ (HeadIdx H V D))} {νO : Measure (EuclideanSpace ℝ (OutIdx H D O))}
    (hQ : Uncorrelated νQ fun _ => 1) (hK : Uncorrelated νK fun _ => 1) (hVal : Uncorrelated νV fun _ => 1) (hO : Uncorrelated νO fun _ => 1) (o : Fin O) :
    KernelOf (extMeasure (extMeasure (extMeasure (extMeasure μ νQ) νK) νV) νO)
      (fun i => sqrtOutput qk ov b S1 H C V A D O (x1 i) (v1 i) o) (fun i => sqrtOutput qk ov b S2 H C V A D O (x2 i) (v2 i) o)
      (sqrtL (qk * ov) (b ^ 2) (inputL C n1 n2 S1 S2 x1 x2) (inputL V n1 n2 S1 S2 v1 v2)) := by
  set κ := ov / Real.sqrt (D * H * V) * (qk / (C * Real.sqrt A)) with hκ
  have hbias : ∑ o' : Fin O, (if o' = o then b else 0) * (if o' = o then b else 0) = b ^ 2 := by
    simp [sq]
  have N : ∀ (S T : List ℕ) (x y v z : ℕ → ℕ → List ℕ → ℝ) (i j : ℕ) (p q : List ℕ),
      ∑ w, ∑ k, ∑ m, ∑ r, tensor κ S H C V A D O (x i) (v i) o p w k m r * tensor κ T H C V A D O (y j) (z j) o q w k m r =
        (qk * ov) ^ 2 * (inputCov C x y [i, j] p q * pairing S T (inputCov C x y) (inputCov V v z) [i, j]) := by
    intro S T x y v z i j p q
    rw [tensor_sum, hκ, scale_sq hH hC hV hA hD]
    simp only [inputCov, pairing, List.getD_cons_zero, List.getD_cons_succ]
    have : ∑ u ∈ box S, ∑ u' ∈ box T, (∑ c ∈ Finset.range C, x i c u * y j c u') / C * ((∑ c ∈ Finset.range V, v i c u * z j c u') / V) =
        (∑ u ∈ box S, ∑ u' ∈ box T, (∑ c ∈ Finset.range C, x i c u * y j c u') * ∑ c ∈ Finset.range V, v i c u * z j c u') / (C * V) := by
      rw [Finset.sum_div]
      refine Finset.sum_congr rfl fun u _ => ?_
      rw [Finset.sum_div]
      refine Finset.sum_congr rfl fun u' _ => ?_
      rw [div_mul_div_comm]
    rw [this]
    have : (C : ℝ) ≠ 0 := by positivity
    have : (V : ℝ) ≠ 0 := by positivity
    field_simp
  refine ⟨fun i j p q _ _ _ _ => ?_, fun i j p q _ _ _ _ => ?_, fun F hF i j p q _ _ _ _ => ?_, fun F hF i j p q _ _ _ _ => ?_⟩
  · rw [tensor_out, tensor_out, (tensor_kernels μ hQ hK hVal hO _ _ _ _).1, N, hbias]
    rfl
  · rw [tensor_out, tensor_out, (tensor_kernels μ hQ hK hVal hO _ _ _ _).1, N, hbias]
    rfl
  · obtain rfl := Option.some.inj hF
    rw [tensor_out, tensor_out, (tensor_kernels μ hQ hK hVal hO _ _ _ _).1, N, hbias]
    rfl
  · obtain rfl := Option.some.inj hF
    rw [tensor_out, tensor_out, (tensor_kernels μ hQ hK hVal hO _ _ _ _).2, N, hbias]
    simp [inputL, pairing]
    ring

/-- Two heads of width three. -/
example (x1 x2 : ℕ → ℕ → List ℕ → ℝ) : ∃ (νQ νK : Measure (EuclideanSpace ℝ (HeadIdx 2 5 3))) (νV : Measure (EuclideanSpace ℝ (HeadIdx 2 5 4))) (νO : Measure (EuclideanSpace ℝ (OutIdx 2 4 1))),
    KernelOf (extMeasure (extMeasure (extMeasure (extMeasure (ProbabilityTheory.gaussianReal 0 1) νQ) νK) νV) νO)
      (fun i => sqrtOutput 2 3 1 [4] 2 5 5 3 4 1 (x1 i) (x1 i) 0) (fun i => sqrtOutput 2 3 1 [4] 2 5 5 3 4 1 (x2 i) (x2 i) 0)
      (sqrtL (2 * 3) (1 ^ 2) (inputL 5 2 2 [4] [4] x1 x2) (inputL 5 2 2 [4] [4] x1 x2)) := by
  obtain ⟨νQ, hQ⟩ := exists_uncorrelated (ι := HeadIdx 2 5 3) (fun _ => 1) (fun _ => zero_le_one)
  obtain ⟨νV, hV⟩ := exists_uncorrelated (ι := HeadIdx 2 5 4) (fun _ => 1) (fun _ => zero_le_one)
  obtain ⟨νO, hO⟩ := exists_uncorrelated (ι := OutIdx 2 4 1) (fun _ => 1) (fun _ => zero_le_one)
  exact ⟨νQ, νQ, νV, νO, sqrt_exact _ 2 3 1 (by norm_num) (by norm_num) (by norm_num) (by norm_num) (by norm_num) 2 2 [4] [4] x1 x2 x1 x2 hQ hQ hV hO 0⟩

end NT.C59
