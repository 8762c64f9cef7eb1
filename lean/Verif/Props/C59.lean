import Verif.Lemmas.AttentionNet
import Verif.Lemmas.Attention7
import Verif.Lemmas.PsdLayers
import Verif.Spec.Swap

/-!
# C59: self-attention

`Spec.attention l c M1 M2 L` is the kernel after the layer `l` of inputs with kernel `L`: averages `G₁ K G₂ᵀ` of the covariances of the values,
scaled by `OV_std²`, with the bias variance; `Spec.attnWeight` are the weights `G`, functions of the covariances of the inputs with positional
embeddings.
-/

namespace NT.C59
open NT Spec NT.Attn MeasureTheory Kernel
open NT.Arr

variable (l : Attention) (c : ℕ) (M1 M2 : ℕ → List ℕ → Bool) (L : Logical ℝ)

/-! ## The kernel function -/

/-- **C59.**  With linear scaling and any attention mechanism, `kernel_fn` computes the averages `G₁ K G₂ᵀ` with the documented constants, in every layout of
the kernel with all pairs of positions: any batch and channel axis, reversed or not, diagonal over the batch or not, with or without masks, with or without
second inputs.  The tangent kernel may be the number 0, as it is for inputs, but not another number. -/
theorem kernel_averages (hl : l.linearScaling = true) (k : Kernel ℝ) (hk : k.Stores L) (hd : k.diagonalSpatial = false) (he : EmbedOk l k L c)
    (hM : MasksOf k L M1 M2) (hself : L.k22 = none → L.n2 = L.n1 ∧ L.S2 = L.S1) (hz : ∀ a, k.ntk = some a → a.shape = [] → a.get [] = 0) :
    ∃ k', l.kernelFn k = .ok k' ∧ k'.Stores (attention l c M1 M2 L) ∧ k'.static = { k.static with isGaussian := true } ∧
      (k'.mask1, k'.mask2, k'.x1IsX2) = (k.mask1, k.mask2, k.x1IsX2) := by
  obtain ⟨k', h1, h2, h3, -⟩ := kernelLinear_ok l k L c hk hd he hM hself hz
  refine ⟨k', ?_, h2, ?_, ?_⟩
  · unfold Attention.kernelFn
    rw [if_pos hl, h1]
  · rw [h3]; rfl
  · rw [h3]

/-- A softmax layer with positional embeddings that are also added to the values, on a kernel in any layout. -/
example (db rev : Bool) : ∃ k', Attention.kernelFn ⟨true, .softmax, 2, 1, 1, 3, some 1, .sum, 2, some fun x => Real.exp (-x), none, 1, true⟩ (C42.exL.encode db false rev) = .ok k' ∧
    k'.Stores (attention ⟨true, .softmax, 2, 1, 1, 3, some 1, .sum, 2, some fun x => Real.exp (-x), none, 1, true⟩ 1 (fun _ _ => false) (fun _ _ => false) C42.exL) := by
  obtain ⟨k', h1, h2, -⟩ := kernel_averages ⟨true, .softmax, 2, 1, 1, 3, some 1, .sum, 2, some fun x => Real.exp (-x), none, 1, true⟩ 1 _ _ C42.exL rfl _
    (C42.exL_stores db false rev) rfl ⟨by simp [Logical.encode, C42.exL], by simp [Logical.encode, C42.exL], by simp [Logical.encode, C42.exL], by cases db <;> cases rev <;> rfl, fun _ => rfl⟩
    (.none rfl rfl) (by simp [C42.exL]) (by
      intro a ha
      simp [Logical.encode, C42.exL] at ha
      subst ha
      simp [holdArr])
  exact ⟨k', h1, h2⟩

/-- The identity mechanism without embeddings: `G = QK_std K`, so the output is a cubic form in the covariances. -/
theorem identity_cubic (hl : l.mechanism = .identity) (he : l.posEmb = .none) (i j : ℕ) (p q : List ℕ) (F : List ℕ → List ℕ → List ℕ → ℝ) (hF : L.k22 = some F) :
    (attention l c (fun _ _ => false) (fun _ _ => false) L).k12 [i, j] p q =
      (l.qkStd * l.ovStd) ^ 2 * ∑ u ∈ box L.S1, ∑ v ∈ box L.S2, L.k11 [i, i] p u * L.k12 [i, j] u v * F [j, j] q v + l.bStd.getD 0 ^ 2 := by
  simp only [attention, attendL, attnValues, weight1, weight2, embedded, withEmbedding, he, if_true, ite_self, attended, otherWeight, hF, attnWeight, hl, score,
    Bool.false_eq_true, if_false, List.getD_cons_zero, List.getD_cons_succ, Finset.mul_sum]
  congr 1
  refine Finset.sum_congr rfl fun u _ => Finset.sum_congr rfl fun v _ => ?_
  ring

/-- Mechanisms other than the identity need linear scaling. -/
theorem sqrt_scaling_rejected (hl : l.linearScaling = false) (hm : l.mechanism ≠ .identity) (k : Kernel ℝ) : l.kernelFn k = .error .notImplemented := by
  simp [Attention.kernelFn, hl, hm]

example (k : Kernel ℝ) : (Attention.kernelFn ⟨false, .softmax, 1, 1, 1, 1, none, .none, 1, none, none, 1, false⟩ k) = .error .notImplemented :=
  sqrt_scaling_rejected _ rfl (by decide) k

/-! ## Masked positions -/

variable {l c M1 M2 L} {K : List ℕ → List ℕ → List ℕ → ℝ} {M : ℕ → List ℕ → Bool} {S : List ℕ} {qk : ℝ} {i : ℕ} {p u : List ℕ}

/-- **C59, masks.**  Without softmax, masked positions get no weight. -/
theorem masked_weight_zero {mech : Mechanism} (hm : mech ≠ .softmax) (h : M i u = true) : attnWeight mech qk S K M i p u = 0 := by
  cases mech <;> simp_all [attnWeight, score]

/-- Softmax weights are non-negative and sum to one. -/
theorem softmax_weights (hS : (box S).Nonempty) : (∀ u, 0 ≤ attnWeight .softmax qk S K M i p u) ∧ ∑ u ∈ box S, attnWeight .softmax qk S K M i p u = 1 := by
  have pos : 0 < ∑ v ∈ box S, Real.exp (qk * score (-10 ^ 20) K M i p v) := Finset.sum_pos (fun v _ => Real.exp_pos _) hS
  refine ⟨fun u => div_nonneg (Real.exp_pos _).le pos.le, ?_⟩
  simp only [attnWeight]
  rw [← Finset.sum_div, div_self pos.ne']

/-- With softmax and a positive `QK_std` the weight of a masked position is at most `exp (-QK_std (10²⁰ + s))` for the score `s` of any position that is not
masked. -/
theorem softmax_masked_bound (h : M i u = true) {v : List ℕ} (hv : InRange v S) (hv' : M i v = false) :
    attnWeight .softmax qk S K M i p u ≤ Real.exp (-qk * (10 ^ 20 + K [i, i] p v)) := by
  simp only [attnWeight]
  rw [div_le_iff₀ (Finset.sum_pos (fun v _ => Real.exp_pos _) ⟨v, mem_box.2 hv⟩)]
  have h1 : Real.exp (qk * score (-10 ^ 20) K M i p v) ≤ ∑ v ∈ box S, Real.exp (qk * score (-10 ^ 20) K M i p v) :=
    Finset.single_le_sum (f := fun v => Real.exp (qk * score (-10 ^ 20) K M i p v)) (fun v _ => (Real.exp_pos _).le) (mem_box.2 hv)
  refine le_trans (le_of_eq ?_) (mul_le_mul_of_nonneg_left h1 (Real.exp_pos _).le)
  rw [← Real.exp_add]
  congr 1
  simp only [score, h, hv', if_true, Bool.false_eq_true, if_false]
  ring

/-- **Masks are ignored by softmax when `QK_std = 0`**: the kernel multiplies by `QK_std` after masking (linear.py:2365), so masked positions get the
same weight as the others, although `apply_fn` (linear.py:2275-2283) multiplies before and gives them none. -/
theorem softmax_masked_uniform (u : List ℕ) : attnWeight .softmax 0 S K M i p u = 1 / (box S).card := by
  simp [attnWeight]

/-- `QK_std` negative: a masked position gets more weight than any other position with a score above `-10²⁰`. -/
theorem softmax_masked_inverted (hq : qk < 0) (hS : (box S).Nonempty) (h : M i u = true) {v : List ℕ} (hv' : M i v = false) (hK : -10 ^ 20 < K [i, i] p v) :
    attnWeight .softmax qk S K M i p v < attnWeight .softmax qk S K M i p u := by
  have pos : 0 < ∑ v ∈ box S, Real.exp (qk * score (-10 ^ 20) K M i p v) := Finset.sum_pos (fun v _ => Real.exp_pos _) hS
  simp only [attnWeight]
  refine div_lt_div_of_pos_right (Real.exp_lt_exp.2 ?_) pos
  simp only [score, h, hv', if_true, Bool.false_eq_true, if_false]
  exact mul_lt_mul_of_neg_left hK hq

/-- The values of positions of no weight do not matter. -/
theorem weightless_ignored {S T : List ℕ} {w1 w2 : ℕ → List ℕ → List ℕ → ℝ} {F F' : List ℕ → List ℕ → List ℕ → ℝ} {b p q : List ℕ}
    (h : ∀ u v, InRange u S → InRange v T → w1 (b.getD 0 0) p u ≠ 0 → w2 (b.getD 1 0) q v ≠ 0 → F b u v = F' b u v) :
    attended S T w1 w2 F b p q = attended S T w1 w2 F' b p q := by
  refine Finset.sum_congr rfl fun u hu => Finset.sum_congr rfl fun v hv => ?_
  by_cases e1 : w1 (b.getD 0 0) p u = 0
  · rw [e1]; ring
  by_cases e2 : w2 (b.getD 1 0) q v = 0
  · rw [e2]; ring
  rw [h u v (mem_box.1 hu) (mem_box.1 hv) e1 e2]

/-- The mask of the output: a position is masked exactly if it was. -/
theorem output_mask {m : Arr Bool} {ba ca n : ℕ} (h : C25.MaskShape m ba ca n S) :
    C25.MaskShape (Attention.maskFn ca m) ba ca n S ∧ ∀ i p, p.length = S.length → C25.Masked (Attention.maskFn ca m) ba ca i p = C25.Masked m ba ca i p :=
  allKeep_shape h

example : attnWeight .relu 2 [3] (fun _ _ _ => 1) (fun _ u => u = [1]) 0 [0] [1] = 0 := masked_weight_zero (by decide) (by decide)
example : attnWeight .softmax 2 [3] (fun _ _ _ => 1) (fun _ u => u = [1]) 0 [0] [1] ≤ Real.exp (-2 * (10 ^ 20 + 1)) :=
  softmax_masked_bound (by decide) (v := [0]) (by simp [InRange]) (by decide)
example : attnWeight .softmax 0 [3] (fun _ _ _ => 1) (fun _ u => u = [1]) 0 [0] [1] = 1 / 3 := by rw [softmax_masked_uniform, box_card]; norm_num
example : attnWeight .softmax (-1) [3] (fun _ _ _ => 1) (fun _ u => u = [1]) 0 [0] [0] < attnWeight .softmax (-1) [3] (fun _ _ _ => 1) (fun _ u => u = [1]) 0 [0] [1] :=
  softmax_masked_inverted (by norm_num) ⟨[0], mem_box.2 (by simp [InRange])⟩ (by decide) (by decide) (by norm_num)

/-! ## Symmetry -/

/-- **C59, symmetry.**  The kernel of the exchanged inputs is the kernel with the inputs exchanged. -/
theorem symmetric (l : Attention) (c : ℕ) (M1 M2 : ℕ → List ℕ → Bool) (L : Logical ℝ) (hself : L.k22 = none → L.S2 = L.S1 ∧ M1 = M2) :
    attention l c M2 M1 L.swap = (attention l c M1 M2 L).swap := Attn.attention_swap l c M1 M2 L hself

/-- Positive semidefinite kernels stay so. -/
theorem attended_psd {ov bsq : ℝ} (hb : 0 ≤ bsq) {w : ℕ → List ℕ → List ℕ → ℝ} {V : Logical ℝ} (h : PsdKernel V) : PsdKernel (attendL ov bsq w w V) :=
  Attn.attended_psd hb h

/-! ## The activations

With linear scaling the attention weights of wide layers are deterministic, and all heads have the same.  Given these weights, the kernel is exact at every
width. -/

section Exact
open C52
variable {E : Type} [NormedAddCommGroup E] [InnerProductSpace ℝ E] [CompleteSpace E] [MeasurableSpace E]

/-- Output channel `o` of the layer at position `p` of example `i`, for weights `w` of the positions (`apply_fn`, linear.py:2202-2303): `C` input channels, `D` channels
of the values of all heads together, `O` output channels.  The parameters are those of the network below, the value matrices, and output matrix and bias. -/
noncomputable def output (ov b : ℝ) (S : List ℕ) (w : ℕ → List ℕ → List ℕ → ℝ) (C D O : ℕ) (f : ℕ → ℕ → List ℕ → E → ℝ) (o : Fin O) (i : ℕ) (p : List ℕ)
    (x : Ext (Ext E (Idx C D 0)) (Idx D O O)) : ℝ :=
  ov / Real.sqrt (D * C) * ∑ d : Fin D, x.snd (.inl (d, o)) * ∑ u ∈ box S, w i p u * ∑ c : Fin C, x.fst.snd (.inl (c, d)) * f i c u x.fst.fst +
    b * x.snd (.inr o)

/-- The value matrices as a dense layer. -/
def valueLayer (D : ℕ) : Dense := ⟨D, 1, none, -1, .ntk, (1, 1)⟩
/-- The output matrix as a dense layer. -/
def outLayer (O : ℕ) (ov b : ℝ) : Dense := ⟨O, ov, some b, -1, .ntk, (1, 1)⟩

omit [InnerProductSpace ℝ E] [CompleteSpace E] [MeasurableSpace E] in
lemma linOut_coef {d : Dense} {C D B : ℕ} (o : ℕ) (ho : o < D) (f : ℕ → E → ℝ) (x : Ext E (Idx C D B)) :
    linOut (coef d o f) x = ∑ c : Fin C, x.snd (.inl (c, ⟨o, ho⟩)) * (d.gain C * f c x.fst) + ∑ o' : Fin B, x.snd (.inr o') * if (o' : ℕ) = o then d.biasGain else 0 := by
  unfold linOut
  rw [Fintype.sum_sum_type, Fintype.sum_prod_type]
  congr 1
  refine Finset.sum_congr rfl fun c _ => ?_
  rw [← sum_ite_fin o ho fun o' => x.snd (.inl (c, o')) * (d.gain C * f c x.fst)]
  refine Finset.sum_congr rfl fun o' _ => ?_
  simp only [coef]
  split_ifs <;> simp

omit [InnerProductSpace ℝ E] [CompleteSpace E] [MeasurableSpace E] in
lemma output_eq (ov b : ℝ) (S : List ℕ) (w : ℕ → List ℕ → List ℕ → ℝ) (C D O : ℕ) (f : ℕ → ℕ → List ℕ → E → ℝ) (o : Fin O) (i : ℕ) (p : List ℕ) :
    output ov b S w C D O f o i p =
      linOut (coef (outLayer O ov b) o fun d => avg S w (fun i d u => linOut (coef (valueLayer D) d fun c => f i c u)) i d p) := by
  funext x
  rw [linOut_coef o o.2]
  unfold output
  congr 1
  · rw [Finset.mul_sum]
    refine Finset.sum_congr rfl fun d _ => ?_
    have e : avg S w (fun i d u => linOut (coef (valueLayer D) d fun c => f i c u)) i d p x.fst =
        (Real.sqrt C)⁻¹ * ∑ u ∈ box S, w i p u * ∑ c : Fin C, x.fst.snd (.inl (c, d)) * f i c u x.fst.fst := by
      unfold avg
      rw [Finset.mul_sum]
      refine Finset.sum_congr rfl fun u _ => ?_
      beta_reduce
      rw [linOut_coef d d.2]
      simp only [Finset.univ_eq_empty, Finset.sum_empty, add_zero, Finset.mul_sum]
      refine Finset.sum_congr rfl fun c _ => ?_
      have g : (valueLayer D).gain C = (Real.sqrt C)⁻¹ := by simp [valueLayer, Dense.gain]
      rw [g]
      ring
    rw [e]
    have g : (outLayer O ov b).gain D = ov / Real.sqrt D := by simp [outLayer, Dense.gain]
    rw [g, Real.sqrt_mul (Nat.cast_nonneg D), div_mul_eq_div_div]
    simp only [div_eq_mul_inv]
    ring
  · rw [Finset.sum_eq_single o]
    · simp [outLayer, Dense.biasGain, mul_comm]
    · intro o' _ h
      rw [if_neg fun e => h (Fin.ext e), mul_zero]
    · simp

/-- **C59, exactness.**  `f1`, `f2` are networks with random parameters drawn from `μ`, whose channel averaged second moments and tangent kernel are the values `V`.
Then the second moments and tangent kernel of the outputs of the layer, over independent draws of uncorrelated value and output matrices and biases of unit variance,
are the kernel `attendL` for the same attention weights. -/
theorem averages_exact (μ : Measure E) [IsProbabilityMeasure μ] (ov b : ℝ) (w1 w2 : ℕ → List ℕ → List ℕ → ℝ) (C D O : ℕ) (hC : 0 < C) (hD : 0 < D)
    (f1 f2 : ℕ → ℕ → List ℕ → E → ℝ) (V : Logical ℝ) (hR : Regular μ C V.n1 V.n2 V.S1 V.S2 f1 f2) (hV : ChannelKernelOf μ C f1 f2 V)
    (ν1 : Measure (EuclideanSpace ℝ (Idx C D 0))) (h1 : Uncorrelated ν1 fun _ => 1) (ν2 : Measure (EuclideanSpace ℝ (Idx D O O))) (h2 : Uncorrelated ν2 fun _ => 1)
    (o : Fin O) :
    KernelOf (extMeasure (extMeasure μ ν1) ν2) (output ov b V.S1 w1 C D O f1 o) (output ov b V.S2 w2 C D O f2 o) (attendL ov (b ^ 2) w1 w2 V) := by
  have i1 : (initVar (valueLayer D) : Idx C D 0 → ℝ) = fun _ => 1 := by
    funext k; rcases k with k | k <;> simp [initVar, valueLayer, Dense.scaleW, Dense.scaleB]
  have i2 : (initVar (outLayer O ov b) : Idx D O O → ℝ) = fun _ => 1 := by
    funext k; rcases k with k | k <;> simp [initVar, outLayer, Dense.scaleW, Dense.scaleB]
  have hp := h1.prob
  have hμ : IsProbabilityMeasure (extMeasure μ ν1) := ext_prob μ ν1
  have hν1 : Uncorrelated ν1 (initVar (valueLayer D)) := by rw [i1]; exact h1
  have hν2 : Uncorrelated ν2 (initVar (outLayer O ov b)) := by rw [i2]; exact h2
  have r1 : Regular (extMeasure μ ν1) D V.n1 V.n2 V.S1 V.S2 (fun i d u => linOut (coef (valueLayer D) d fun c => f1 i c u))
      (fun i d u => linOut (coef (valueLayer D) d fun c => f2 i c u)) := hR.dense D ν1 h1
  have k1 := channelKernelOf_of_each (extMeasure μ ν1) D hD _ _ _ fun d hd =>
    dense_kernelOf μ (valueLayer D) (by simp [valueLayer]) (by simp [valueLayer]) C hC f1 f2 V hR hV ν1 hν1 d hd
  have k2 := avg_kernel (extMeasure μ ν1) D w1 w2 _ _ (after (valueLayer D) C V) r1 k1
  have k3 := dense_kernelOf (extMeasure μ ν1) (outLayer O ov b) (by simp [outLayer]) (by simp [outLayer]) D hD _ _ (avgL w1 w2 (after (valueLayer D) C V)) (avg_regular w1 w2 r1) k2 ν2 hν2 o o.2
  have hw : (fun i p => output ov b V.S1 w1 C D O f1 o i p) = fun i p => linOut (coef (outLayer O ov b) o fun d =>
      avg V.S1 w1 (fun i d u => linOut (coef (valueLayer D) d fun c => f1 i c u)) i d p) := by
    funext i p; exact output_eq ov b V.S1 w1 C D O f1 o i p
  have hw' : (fun i p => output ov b V.S2 w2 C D O f2 o i p) = fun i p => linOut (coef (outLayer O ov b) o fun d =>
      avg V.S2 w2 (fun i d u => linOut (coef (valueLayer D) d fun c => f2 i c u)) i d p) := by
    funext i p; exact output_eq ov b V.S2 w2 C D O f2 o i p
  show KernelOf _ (fun i p => output ov b V.S1 w1 C D O f1 o i p) (fun i p => output ov b V.S2 w2 C D O f2 o i p) _
  rw [hw, hw']
  have hv : ∀ (S T : List ℕ) (w w' : ℕ → List ℕ → List ℕ → ℝ) (F : List ℕ → List ℕ → List ℕ → ℝ),
      attended S T w w' (fun b p q => (valueLayer D).wStd ^ 2 * F b p q + bVar (valueLayer D)) = attended S T w w' F := by
    intro S T w w' F
    simp [valueLayer, bVar]
  have ho : bVar (outLayer O ov b) = b ^ 2 := by simp [outLayer, bVar]
  have hg : gradB (outLayer O ov b) = b ^ 2 := by simp [outLayer, gradB]
  have hgw : ∀ n, gradW (outLayer O ov b) n = ov ^ 2 := by simp [outLayer, gradW]
  have hs : (outLayer O ov b).wStd = ov := rfl
  have e : after (outLayer O ov b) D (avgL w1 w2 (after (valueLayer D) C V)) = attendL ov (b ^ 2) w1 w2 V := by
    simp only [after, avgL, attendL, hv, ho, hg, hgw, hs]
    refine Logical.mk.injEq .. |>.mpr ⟨rfl, rfl, rfl, rfl, rfl, rfl, ?_, ?_⟩
    · cases V.k22 with
      | none => rfl
      | some F => simp [hv]
    · cases V.ntk with
      | none => rfl
      | some F =>
        simp only [Option.map_some, Option.some.injEq]
        funext x p q
        simp only [attended, valueLayer, gradW, gradB, Finset.mul_sum]
        rw [← sub_eq_zero]
        simp only [← Finset.mul_sum, reduceCtorEq, if_false, Option.getD_none]
        simp only [mul_add, add_mul, Finset.sum_add_distrib, Finset.mul_sum]
        simp only [one_pow, one_mul, ne_eq, OfNat.ofNat_ne_zero, not_false_eq_true, zero_pow, mul_zero, zero_mul, Finset.sum_const_zero, add_zero]
        simp only [← Finset.mul_sum]
        ring
  rw [← e]
  exact k3

/-- Two channels, three value channels, uniform weights. -/
example (a b : ℕ → ℕ → List ℕ → ℝ) : ∃ (ν1 : Measure (EuclideanSpace ℝ (Idx 2 3 0))) (ν2 : Measure (EuclideanSpace ℝ (Idx 3 1 1))),
    KernelOf (extMeasure (extMeasure (ProbabilityTheory.gaussianReal 0 1) ν1) ν2) (output 2 1 [4] (fun _ _ _ => 1 / 4) 2 3 1 (lin1 a) 0)
      (output 2 1 [4] (fun _ _ _ => 1 / 4) 2 3 1 (lin1 b) 0) (attendL 2 (1 ^ 2) (fun _ _ _ => 1 / 4) (fun _ _ _ => 1 / 4) (lin1L 2 a b 2 2 [4] [4])) := by
  obtain ⟨ν1, h1⟩ := exists_uncorrelated (ι := Idx 2 3 0) (fun _ => 1) (fun _ => zero_le_one)
  obtain ⟨ν2, h2⟩ := exists_uncorrelated (ι := Idx 3 1 1) (fun _ => 1) (fun _ => zero_le_one)
  exact ⟨ν1, ν2, averages_exact _ 2 1 _ _ 2 3 1 (by norm_num) (by norm_num) (lin1 a) (lin1 b) (lin1L 2 a b 2 2 [4] [4]) (lin1_regular 2 2 2 [4] [4] a b)
    (lin1_kernel 2 a b 2 2 [4] [4]) ν1 h1 ν2 h2 0⟩

end Exact

end NT.C59
