import Verif.Lemmas.Channels
import Verif.Lemmas.Dense
import Verif.Lemmas.Inputs
import Verif.Lemmas.FanIn
import Mathlib.Probability.Distributions.Gaussian.Real

/-!
# C52: the kernel of `Dense` is the exact covariance and tangent kernel over random weights
-/

set_option linter.unusedSectionVars false

namespace NT.C52
open NT Arr Kernel Spec MeasureTheory

variable {E : Type} [NormedAddCommGroup E] [InnerProductSpace ℝ E] [CompleteSpace E] [MeasurableSpace E]

/-- Numbers of the parameters of a `Dense` layer: entries of the `C x D` matrix `W`, and `B` biases. -/
abbrev Idx (C D B : ℕ) : Type := (Fin C × Fin D) ⊕ Fin B

/-- Number of biases. -/
def nBias (d : Dense) : ℕ := if d.bStd.isSome then d.width else 0

/-- The array `W` of the parameter vector `w`. -/
noncomputable def wArr {C D B : ℕ} (w : EuclideanSpace ℝ (Idx C D B)) : Arr ℝ :=
  ⟨[C, D], fun i => if h : i.getD 0 0 < C ∧ i.getD 1 0 < D then w (.inl (⟨_, h.1⟩, ⟨_, h.2⟩)) else 0⟩

/-- The array `b` of the parameter vector `w` for inputs of rank `n` with channel axis `ca`. -/
noncomputable def bArr {C D B : ℕ} (d : Dense) (n ca : ℕ) (w : EuclideanSpace ℝ (Idx C D B)) : Option (Arr ℝ) :=
  d.bStd.map fun _ => ⟨(List.replicate n 1).set ca D, fun i =>
    if h : i.getD ca 0 < B then w (.inr ⟨_, h⟩) else 0⟩

/-- The network `X` followed by the layer: the array returned by `apply_fn` (a dummy if it fails). -/
noncomputable def layerOut {C D B : ℕ} (d : Dense) (n ca : ℕ) (X : E → Arr ℝ) (x : Ext E (Idx C D B)) : Arr ℝ :=
  match d.apply (wArr x.snd) (bArr d n ca x.snd) (X x.fst) with
  | .ok z => z
  | .error _ => ⟨[], fun _ => 0⟩

/-- Variances of the parameters as drawn by `init_fn`: standard normal numbers times the scales of
`init_fn`. -/
noncomputable def initVar {C D B : ℕ} (d : Dense) : Idx C D B → ℝ
  | .inl _ => (d.scaleW C) ^ 2
  | .inr _ => d.scaleB ^ 2

/-- The `init_fn` scales standard normal numbers by these factors. -/
theorem init_scales (d : Dense) (hd : d.param ≠ .other) (nW nb : Arr ℝ) (s : List ℕ) (ca C : ℕ)
    (hca : (ca : ℤ) = d.channelAxis % s.length) (hC : s.getD ca 0 = C) :
    ∃ W b, d.init nW nb s = .ok (s.set ca d.width, W, b) ∧ W.shape = [C, d.width] ∧
      (∀ i, W.get i = nW.get i * d.scaleW C) ∧
      (d.bStd = none → b = none) ∧
      (d.bStd.isSome → ∃ b', b = some b' ∧ b'.shape = (List.replicate s.length 1).set ca d.width ∧
        ∀ i, b'.get i = nb.get i * d.scaleB) := by
  have e : (d.channelAxis % (s.length : ℤ)).toNat = ca := by rw [← hca]; rfl
  unfold Dense.init
  rw [if_neg hd]
  simp only [e, hC]
  refine ⟨_, _, rfl, rfl, fun i => rfl, ?_, ?_⟩
  · intro h; rw [h]; rfl
  · intro h
    obtain ⟨b, hb⟩ := Option.isSome_iff_exists.1 h
    rw [hb]
    exact ⟨_, rfl, rfl, fun i => rfl⟩

/-- The coefficient of parameter `k` in output channel `o`. -/
noncomputable def coef (d : Dense) {C D B : ℕ} (o : ℕ) (f : ℕ → E → ℝ) : Idx C D B → E → ℝ
  | .inl (c, o'), θ => if (o' : ℕ) = o then d.gain C * f c θ else 0
  | .inr o', _ => if (o' : ℕ) = o then d.biasGain else 0

lemma sum_ite_fin {D : ℕ} (o : ℕ) (ho : o < D) (F : Fin D → ℝ) :
    ∑ o' : Fin D, (if (o' : ℕ) = o then F o' else 0) = F ⟨o, ho⟩ := by
  rw [Finset.sum_eq_single ⟨o, ho⟩]
  · simp
  · intro b _ hb
    rw [if_neg]
    intro h
    exact hb (Fin.ext h)
  · simp

lemma insert_set (n k x y : ℕ) (h : k ≤ n) :
    (List.replicate (n + 1) y).set k x = (List.replicate n y).insertIdx k x := by
  rw [insertIdx_app _ _ _ (by simpa using h), List.set_eq_take_append_cons_drop, if_pos (by simp; omega)]
  simp [List.take_replicate, List.drop_replicate]
  omega

/-- The output of the layer is the linear function of the fresh parameters with these coefficients. -/
lemma layerOut_eq (d : Dense) (hd : d.param ≠ .other) (X : E → Arr ℝ) (B A n C : ℕ) (S : List ℕ)
    (hA : (A : ℤ) = d.channelAxis % (S.length + 2)) (hne : B ≠ A) (hB : B < S.length + 2)
    (hX : ∀ θ, (X θ).shape = actIdx B A n C S) (x : Ext E (Idx C d.width (nBias d))) :
    (layerOut d (S.length + 2) A X x).shape = actIdx B A n d.width S ∧
    ∀ i o p, i < n → o < d.width → InRange p S →
      chan (layerOut d (S.length + 2) A X) B A i o p x = linOut (coef d o fun c => chan X B A i c p) x := by
  have hAl : A < S.length + 2 := by
    have := Int.emod_lt_of_pos d.channelAxis (b := (S.length : ℤ) + 2) (by omega)
    omega
  have hk := Inputs.newAxis_le hne hB hAl
  set N := newAxis B A with hN
  have hR : (S.insertIdx N n).length = S.length + 1 := by rw [List.length_insertIdx, if_pos hk]
  obtain ⟨z, hz, hzs, hzg⟩ := d.apply_ok hd (wArr x.snd) (X x.fst) (bArr d (S.length + 2) A x.snd) A C d.width
    (S.insertIdx N n) (by rw [hR]; omega) (by rw [hR, hA]; push_cast; ring_nf) rfl
    (by rw [hX, actIdx_insert B A n C S hne hB hAl]) (by
      intro b' hb'
      simp only [bArr, Option.map_eq_some_iff] at hb'
      obtain ⟨_, -, rfl⟩ := hb'
      rw [hR]
      exact insert_set _ _ _ _ (by omega))
  have hout : layerOut d (S.length + 2) A X x = z := by
    unfold layerOut
    rw [hz]
  rw [hout]
  refine ⟨by rw [hzs, actIdx_insert B A n d.width S hne hB hAl], ?_⟩
  intro i o p hi ho hp
  have hp' := hp.length
  have e : actIdx B A i o p = (p.insertIdx N i).insertIdx A o :=
    actIdx_insert B A i o p hne (by omega) (by omega)
  unfold chan
  rw [hout, e, hzg _ o (inRange_insert hp hk hi) ho]
  unfold linOut
  rw [Fintype.sum_sum_type, Fintype.sum_prod_type]
  congr 1
  · rw [Finset.sum_congr rfl (g := fun c : Fin C => x.snd (.inl (c, ⟨o, ho⟩)) * (d.gain C * chan X B A i c p x.fst))]
    · rw [sum_range_list, Finset.mul_sum, Finset.sum_range]
      refine Finset.sum_congr rfl fun c _ => ?_
      have e' : actIdx B A i c p = (p.insertIdx N i).insertIdx A c :=
        actIdx_insert B A i c p hne (by omega) (by omega)
      unfold chan
      rw [e']
      simp [wArr, ho]
      ring
    · intro c _
      rw [Finset.sum_congr rfl (g := fun o' : Fin d.width => if (o' : ℕ) = o then
        x.snd (.inl (c, o')) * (d.gain C * chan X B A i c p x.fst) else 0)]
      · exact sum_ite_fin o ho _
      · intro o' _
        simp only [coef, mul_ite, mul_zero]
        rfl
  · rw [Finset.sum_congr rfl (g := fun o' : Fin (nBias d) => if (o' : ℕ) = o then
        x.snd (.inr o') * d.biasGain else 0)]
    · rcases hb : d.bStd with _ | b
      · have : nBias d = 0 := by simp [nBias, hb]
        simp only [bArr, hb, Option.map_none, Dense.biasTerm]
        symm
        apply Finset.sum_eq_zero
        intro o' _
        exact absurd o'.2 (by omega)
      · have hw : nBias d = d.width := by simp [nBias, hb]
        have ho' : o < nBias d := by omega
        rw [sum_ite_fin o ho']
        simp only [bArr, hb, Option.map_some, hR, Dense.biasTerm]
        have : ((List.replicate (S.length + 1) 0).insertIdx A o).getD A 0 = o := by
          rw [List.getD_eq_getElem?_getD, List.getElem?_insertIdx_self, if_pos (by simp; omega)]; rfl
        simp only [this, ho', dif_pos]
        ring
    · intro o' _
      simp only [coef, mul_ite, mul_zero]

/-- Sum over the parameters of a quantity that only concerns output channel `o`. -/
lemma sum_idx {C D B : ℕ} (o : ℕ) (ho : o < D) (hB : B = 0 ∨ B = D) (F : Idx C D B → ℝ) (a : ℕ → ℝ) (b : ℝ)
    (h1 : ∀ c o', F (.inl (c, o')) = if (o' : ℕ) = o then a c else 0)
    (h2 : ∀ o', F (.inr o') = if (o' : ℕ) = o then b else 0) :
    ∑ k, F k = ∑ c ∈ Finset.range C, a c + if B = D then b else 0 := by
  rw [Fintype.sum_sum_type, Fintype.sum_prod_type]
  simp only [h1, h2]
  congr 1
  · rw [Finset.sum_range]
    refine Finset.sum_congr rfl fun c _ => ?_
    exact sum_ite_fin o ho _
  · rcases hB with rfl | rfl
    · rw [if_neg (by omega)]; simp
    · rw [if_pos rfl]; exact sum_ite_fin o ho _

variable {d : Dense}

/-- `W_std ^ 2 / C`: gains and initial scales combine to this. -/
lemma gain_scale (hd : d.param ≠ .other) (C : ℕ) (hC : 0 < C) (hs : d.param = .standard → 0 < d.s.1) :
    (d.scaleW C) ^ 2 * (d.gain C) ^ 2 = d.wStd ^ 2 / C := by
  have hC' : (0 : ℝ) < C := by exact_mod_cast hC
  unfold Dense.scaleW Dense.gain
  rcases hp : d.param with _ | _ | _
  · simp only [reduceCtorEq, if_false]
    rw [div_pow, Real.sq_sqrt hC'.le]; ring
  · have h0 : (0 : ℝ) < d.s.1 := by exact_mod_cast hs hp
    simp only [if_true]
    rw [div_pow, div_pow, Real.sq_sqrt (by positivity), Real.sq_sqrt h0.le]
    field_simp
  · exact absurd hp hd

lemma bias_scale (hd : d.param ≠ .other) (b : ℝ) (hb : d.bStd = some b) : d.scaleB ^ 2 * d.biasGain ^ 2 = b ^ 2 := by
  unfold Dense.scaleB Dense.biasGain
  rcases hp : d.param with _ | _ | _
  · simp [hb]
  · simp [hb]
  · exact absurd hp hd

/-- The bias variance; absent bias counts as 0. -/
noncomputable def bVar (d : Dense) : ℝ := (d.bStd.getD 0) ^ 2

/-- The squared gradients with respect to `W` (per unit of the input second moment) and `b`. -/
noncomputable def gradW (d : Dense) (C : ℕ) : ℝ := if d.param = .standard then C / d.s.1 else d.wStd ^ 2

@[inherit_doc gradW]
noncomputable def gradB (d : Dense) : ℝ :=
  if d.param = .standard then (if d.bStd.isSome then 1 else 0) else (d.bStd.getD 0) ^ 2

/-- The kernel after the layer. -/
noncomputable def after (d : Dense) (C : ℕ) (L : Logical ℝ) : Logical ℝ where
  n1 := L.n1
  n2 := L.n2
  S1 := L.S1
  S2 := L.S2
  k12 := fun b p q => d.wStd ^ 2 * L.k12 b p q + bVar d
  k11 := fun b p q => d.wStd ^ 2 * L.k11 b p q + bVar d
  k22 := L.k22.map fun F b p q => d.wStd ^ 2 * F b p q + bVar d
  ntk := L.ntk.map fun F b p q => gradW d C * L.k12 b p q + gradB d + d.wStd ^ 2 * F b p q

lemma affine_holds {a : Arr ℝ} {B S T : List ℕ} {diag rev : Bool} {F : List ℕ → List ℕ → List ℕ → ℝ}
    (h : Holds a B S T diag rev F) :
    Holds (affine a d.wStd d.bStd) B S T diag rev (fun b p q => d.wStd ^ 2 * F b p q + bVar d) := by
  unfold affine bVar
  rcases hb : d.bStd with _ | b
  · refine (h.map _).congr fun b p q _ _ _ => ?_
    simp; ring
  · refine ((h.map _).map _).congr fun b p q _ _ _ => ?_
    simp; ring

/-- `kernel_fn` computes this, in every layout. -/
theorem kernel_formula (d : Dense) (hd : d.param ≠ .other) (k : Kernel ℝ) (L : Logical ℝ) (hk : k.Stores L) (C : ℕ)
    (hs : pyGetNat k.shape1 d.channelAxis = .ok C) :
    ∃ k', d.kernelFn k = .ok k' ∧ k'.Stores (after d C L) ∧
      k'.static = { k.static with isGaussian := true, isInput := false } ∧
      (k'.mask1, k'.mask2, k'.x1IsX2) = (k.mask1, k.mask2, k.x1IsX2) := by
  have main : ∀ ntk, OptRel (fun (a : Arr ℝ) (F : List ℕ → List ℕ → List ℕ → ℝ) =>
      (a.shape = [] ∧ ∀ b p q, F b p q = a.get []) ∨
        Holds a [L.n1, L.n2] L.S1 L.S2 k.diagonalSpatial k.isReversed F) ntk (after d C L).ntk →
      Stores ({ k with cov1 := affine k.cov1 d.wStd d.bStd, nngp := affine k.nngp d.wStd d.bStd,
                       cov2 := k.cov2.map fun x => affine x d.wStd d.bStd, ntk := ntk,
                       isGaussian := true, isInput := false } : Kernel ℝ) (after d C L) := by
    intro ntk h
    refine ⟨affine_holds hk.nngp, affine_holds hk.cov1, ?_, h⟩
    have := hk.cov2
    simp only [after]
    cases e1 : k.cov2 <;> cases e2 : L.k22 <;> rw [e1, e2] at this <;>
      simp only [OptRel, Option.map_some, Option.map_none] at this ⊢
    exact affine_holds this
  have hn := hk.ntk
  rcases hp : d.param with _ | _ | _
  · have key : ∃ ntk, d.ntkNtk (affine k.nngp d.wStd d.bStd) k.ntk = .ok ntk ∧
        OptRel (fun (a : Arr ℝ) (F : List ℕ → List ℕ → List ℕ → ℝ) =>
          (a.shape = [] ∧ ∀ b p q, F b p q = a.get []) ∨
          Holds a [L.n1, L.n2] L.S1 L.S2 k.diagonalSpatial k.isReversed F) ntk (after d C L).ntk := by
      unfold Dense.ntkNtk after
      cases e1 : k.ntk <;> cases e2 : L.ntk <;> rw [e1, e2] at hn <;>
        simp only [OptRel, Option.map_some, Option.map_none] at hn ⊢
      · exact ⟨none, rfl, trivial⟩
      · rename_i a F
        have hS : HoldsS (a.map fun v => d.wStd ^ 2 * v) [L.n1, L.n2] L.S1 L.S2 k.diagonalSpatial k.isReversed
            (fun b p q => d.wStd ^ 2 * F b p q) := HoldsS.map hn _
        obtain ⟨c, hc, -, hc'⟩ := zipB_holdsS (op := (· + ·)) (by simp) (.inr (affine_holds (d := d) hk.nngp)) hS
        refine ⟨some c, by rw [hc]; rfl, .inr ?_⟩
        refine (hc' (.inl (affine_holds hk.nngp))).congr fun b p q _ _ _ => ?_
        simp [gradW, gradB, bVar, hp]
    obtain ⟨ntk, h1, h2⟩ := key
    refine ⟨_, ?_, main ntk h2, rfl, rfl⟩
    unfold Dense.kernelFn
    simp only [hp, h1, Except.map]
  · have key : ∃ ntk, d.ntkStandard ((C : ℝ) / d.s.1) k.nngp k.ntk = .ok ntk ∧
        OptRel (fun (a : Arr ℝ) (F : List ℕ → List ℕ → List ℕ → ℝ) =>
          (a.shape = [] ∧ ∀ b p q, F b p q = a.get []) ∨
          Holds a [L.n1, L.n2] L.S1 L.S2 k.diagonalSpatial k.isReversed F) ntk (after d C L).ntk := by
      unfold Dense.ntkStandard after
      cases e1 : k.ntk <;> cases e2 : L.ntk <;> rw [e1, e2] at hn <;>
        simp only [OptRel, Option.map_some, Option.map_none] at hn ⊢
      · exact ⟨none, rfl, trivial⟩
      · rename_i a F
        have hS : HoldsS (a.map fun v => d.wStd ^ 2 * v) [L.n1, L.n2] L.S1 L.S2 k.diagonalSpatial k.isReversed
            (fun b p q => d.wStd ^ 2 * F b p q) := HoldsS.map hn _
        have hN := hk.nngp.map fun v => (C : ℝ) / d.s.1 * v
        obtain ⟨c, hc, -, hc'⟩ := zipB_holdsS (op := (· + ·)) (by simp) (.inr hN) hS
        have hc'' := hc' (.inl hN)
        rw [hc]
        rcases hb : d.bStd with _ | b
        · refine ⟨some c, rfl, .inr (hc''.congr fun b p q _ _ _ => ?_)⟩
          simp [gradW, gradB, hp, hb]
        · refine ⟨some (c.map fun v => v + 1), rfl, .inr ((hc''.map _).congr fun b p q _ _ _ => ?_)⟩
          simp [gradW, gradB, hp, hb]; ring
    obtain ⟨ntk, h1, h2⟩ := key
    refine ⟨_, ?_, main ntk h2, rfl, rfl⟩
    unfold Dense.kernelFn
    simp only [hp, hs, h1, Except.map]
  · exact absurd hp hd

lemma coef_sq (μ : Measure E) [IsProbabilityMeasure μ] {C D B : ℕ} (o : ℕ) (f : ℕ → E → ℝ)
    (hf : ∀ c < C, MemLp (f c) 2 μ) (k : Idx C D B) : MemLp (coef d o f k) 2 μ := by
  rcases k with ⟨c, o'⟩ | o'
  · by_cases h : (o' : ℕ) = o
    · have : coef (C := C) (B := B) d o f (.inl (c, o')) = fun θ => d.gain C * f c θ := by
        funext θ; simp [coef, h]
      rw [this]
      exact (hf c c.2).const_mul _
    · have : coef (C := C) (B := B) d o f (.inl (c, o')) = fun _ => (0 : ℝ) := by
        funext θ; simp [coef, h]
      rw [this]
      exact memLp_const 0
  · exact memLp_const _

lemma nBias_or (d : Dense) : nBias d = 0 ∨ nBias d = d.width := by
  unfold nBias; split <;> simp

lemma bias_if (_hw : 0 < d.width) (b : ℝ) (h : d.bStd = none → b = 0) :
    (if nBias d = d.width then b else 0) = b := by
  unfold nBias
  rcases hb : d.bStd with _ | b'
  · simp [h hb]
  · simp

variable (μ : Measure E) [IsProbabilityMeasure μ]

/-- Second moments of the layer output. -/
lemma secondMoment_out (hd : d.param ≠ .other) (C : ℕ) (hC : 0 < C) (hs : d.param = .standard → 0 < d.s.1)
    (ν : Measure (EuclideanSpace ℝ (Idx C d.width (nBias d)))) (hν : Uncorrelated ν (initVar d))
    (o : ℕ) (ho : o < d.width) (f g : ℕ → E → ℝ) (hf : ∀ c < C, MemLp (f c) 2 μ) (hg : ∀ c < C, MemLp (g c) 2 μ) :
    secondMoment (extMeasure μ ν) (linOut (coef d o f)) (linOut (coef d o g)) =
      d.wStd ^ 2 * ((∑ c ∈ Finset.range C, secondMoment μ (f c) (g c)) / C) + bVar d := by
  rw [secondMoment_linOut μ ν _ hν _ _ fun k l => (coef_sq μ o f hf k).integrable_mul (coef_sq μ o g hg l)]
  rw [sum_idx o ho (nBias_or d) _ (fun c => d.wStd ^ 2 / C * secondMoment μ (f c) (g c)) (bVar d)]
  · rw [bias_if (by omega), ← Finset.mul_sum]
    · ring
    · intro h; simp [bVar, h]
  · intro c o'
    simp only [initVar, secondMoment, coef]
    split
    · have e : ∫ θ, d.gain C * f c θ * (d.gain C * g c θ) ∂μ = (d.gain C) ^ 2 * ∫ θ, f c θ * g c θ ∂μ := by
        rw [← integral_const_mul]
        congr 1
        ext θ
        ring
      rw [e, ← gain_scale hd C hC hs]
      ring
    · simp
  · intro o'
    have hb : d.bStd.isSome := by
      by_contra h
      have : nBias d = 0 := by simp [nBias, h]
      exact absurd o'.2 (by omega)
    obtain ⟨b, hb⟩ := Option.isSome_iff_exists.1 hb
    simp only [initVar, secondMoment, coef]
    split
    · simp only [integral_const, probReal_univ, one_smul, bVar, hb, Option.getD_some, ← bias_scale hd b hb]
      ring
    · simp

lemma coef_diff {C D B : ℕ} (o : ℕ) (f : ℕ → E → ℝ) (k : Idx C D B)
    (hf : ∀ c < C, ∀ᵐ θ ∂μ, DifferentiableAt ℝ (f c) θ) : ∀ᵐ θ ∂μ, DifferentiableAt ℝ (coef d o f k) θ := by
  rcases k with ⟨c, o'⟩ | o'
  · filter_upwards [hf c c.2] with θ h
    by_cases e : (o' : ℕ) = o
    · have : coef (C := C) (B := B) d o f (.inl (c, o')) = fun θ => d.gain C * f c θ := by
        funext θ; simp [coef, e]
      rw [this]
      exact h.const_mul _
    · have : coef (C := C) (B := B) d o f (.inl (c, o')) = fun _ => (0 : ℝ) := by
        funext θ; simp [coef, e]
      rw [this]
      exact differentiableAt_const _
  · refine Filter.Eventually.of_forall fun θ => ?_
    exact differentiableAt_const _

/-- Gradients of the coefficients. -/
lemma coef_grad {C D B : ℕ} (o : ℕ) (f : ℕ → E → ℝ) (k : Idx C D B)
    (hf : ∀ c < C, ∀ᵐ θ ∂μ, DifferentiableAt ℝ (f c) θ) :
    ∀ᵐ θ ∂μ, gradient (coef d o f k) θ = match k with
      | .inl (c, o') => if (o' : ℕ) = o then d.gain C • gradient (f c) θ else 0
      | .inr _ => 0 := by
  rcases k with ⟨c, o'⟩ | o'
  · filter_upwards [hf c c.2] with θ h
    by_cases e : (o' : ℕ) = o
    · have : coef (C := C) (B := B) d o f (.inl (c, o')) = fun θ => d.gain C * f c θ := by
        funext θ; simp [coef, e]
      simp only [this, e, if_true]
      unfold gradient
      rw [fderiv_const_mul h]
      simp
    · have : coef (C := C) (B := B) d o f (.inl (c, o')) = fun _ => (0 : ℝ) := by
        funext θ; simp [coef, e]
      simp only [this, e, if_false]
      simp [gradient]
  · refine Filter.Eventually.of_forall fun θ => ?_
    have : coef (C := C) (D := D) (B := B) d o f (.inr o') = fun _ => (if (o' : ℕ) = o then d.biasGain else 0) := by
      funext θ; rfl
    rw [this]
    simp [gradient]

/-- Tangent kernel of the layer output. -/
lemma tangent_out (hd : d.param ≠ .other) (C : ℕ) (hC : 0 < C) (hs : d.param = .standard → 0 < d.s.1)
    (ν : Measure (EuclideanSpace ℝ (Idx C d.width (nBias d)))) (hν : Uncorrelated ν (initVar d))
    (o : ℕ) (ho : o < d.width) (f g : ℕ → E → ℝ) (hf : ∀ c < C, MemLp (f c) 2 μ) (hg : ∀ c < C, MemLp (g c) 2 μ)
    (df : ∀ c < C, ∀ᵐ θ ∂μ, DifferentiableAt ℝ (f c) θ) (dg : ∀ c < C, ∀ᵐ θ ∂μ, DifferentiableAt ℝ (g c) θ)
    (hi : ∀ c < C, ∀ c' < C, Integrable (fun θ => inner ℝ (gradient (f c) θ) (gradient (g c') θ)) μ) :
    tangent (extMeasure μ ν) (linOut (coef d o f)) (linOut (coef d o g)) =
      gradW d C * ((∑ c ∈ Finset.range C, secondMoment μ (f c) (g c)) / C) + gradB d +
        d.wStd ^ 2 * ((∑ c ∈ Finset.range C, tangent μ (f c) (g c)) / C) := by
  have hC' : (0 : ℝ) < C := by exact_mod_cast hC
  rw [tangent_linOut μ ν _ hν _ _ (fun k => (coef_sq μ o f hf k).integrable_mul (coef_sq μ o g hg k))
    (fun k => coef_diff μ o f k df) (fun k => coef_diff μ o g k dg)]
  · congr 1
    · rw [sum_idx o ho (nBias_or d) _ (fun c => (d.gain C) ^ 2 * secondMoment μ (f c) (g c)) (d.biasGain ^ 2 *
        if d.bStd.isSome then 1 else 0)]
      · rw [bias_if (by omega), ← Finset.mul_sum]
        · congr 1
          · unfold gradW Dense.gain
            rcases hp : d.param with _ | _ | _
            · simp only [reduceCtorEq, if_false]
              rw [div_pow, Real.sq_sqrt hC'.le]; ring
            · have h0 : (0 : ℝ) < d.s.1 := by exact_mod_cast hs hp
              simp only [if_true]
              rw [div_pow, Real.sq_sqrt h0.le]
              field_simp
            · exact absurd hp hd
          · unfold gradB Dense.biasGain
            rcases hb : d.bStd with _ | b <;> rcases hp : d.param with _ | _ | _ <;> simp
        · intro h; simp [h]
      · intro c o'
        simp only [secondMoment, coef]
        split
        · rw [← integral_const_mul]
          congr 1
          ext θ
          ring
        · simp
      · intro o'
        have hb : d.bStd.isSome := by
          by_contra h
          have : nBias d = 0 := by simp [nBias, h]
          exact absurd o'.2 (by omega)
        simp only [secondMoment, coef, hb]
        split
        · simp [pow_two]
        · simp
    · rw [sum_idx o ho (nBias_or d) _ (fun c => d.wStd ^ 2 / C * tangent μ (f c) (g c)) 0]
      · rw [ite_self, ← Finset.mul_sum]
        ring
      · intro c o'
        have h1 := coef_grad (d := d) (D := d.width) (B := nBias d) μ o f (.inl (c, o')) df
        have h2 := coef_grad (d := d) (D := d.width) (B := nBias d) μ o g (.inl (c, o')) dg
        unfold tangent
        rw [integral_congr_ae (g := fun θ => if (o' : ℕ) = o then
          (d.gain C) ^ 2 * inner ℝ (gradient (f c) θ) (gradient (g c) θ) else 0)]
        · simp only [initVar]
          split
          · rw [← gain_scale hd C hC hs, integral_const_mul, mul_assoc]
          · simp
        · filter_upwards [h1, h2] with θ e1 e2
          rw [e1, e2]
          split
          · rw [real_inner_smul_left, real_inner_smul_right]; ring
          · simp
      · intro o'
        have h1 := coef_grad (d := d) (C := C) (D := d.width) (B := nBias d) μ o f (.inr o') df
        unfold tangent
        rw [integral_congr_ae (g := fun θ => (0 : ℝ))]
        · simp
        · filter_upwards [h1] with θ e1
          rw [e1]
          simp
  · intro k l
    have h1 := coef_grad (d := d) (C := C) (D := d.width) (B := nBias d) μ o f k df
    have h2 := coef_grad (d := d) (C := C) (D := d.width) (B := nBias d) μ o g l dg
    rcases k with ⟨c, a⟩ | a
    · rcases l with ⟨c', a'⟩ | a'
      · refine Integrable.congr (f := fun θ => if (a : ℕ) = o ∧ (a' : ℕ) = o then
          (d.gain C) ^ 2 * inner ℝ (gradient (f c) θ) (gradient (g c') θ) else 0) ?_ ?_
        · split
          · exact (hi c c.2 c' c'.2).const_mul _
          · exact integrable_const 0
        · filter_upwards [h1, h2] with θ e1 e2
          rw [e1, e2]
          by_cases ha : (a : ℕ) = o <;> by_cases ha' : (a' : ℕ) = o <;>
            simp [ha, ha', real_inner_smul_right]
          ring
      · refine (integrable_const (0 : ℝ)).congr ?_
        filter_upwards [h2] with θ e2
        rw [e2]
        simp
    · refine (integrable_const (0 : ℝ)).congr ?_
      filter_upwards [h1] with θ e1
      rw [e1]
      simp

/-- **Dense is exact.**  `X1`, `X2` are networks with random parameters `θ ∼ μ`, whose outputs have
batch axis `B` and channel axis `A`, and the kernel `k` holds their channel-averaged second moments and
tangent kernel.  Then the kernel returned by `kernel_fn` holds those of the networks extended by the
layer, for every output channel, over independent draws of `θ` and of the layer's own parameters (as
`init_fn` scales them), the gradient being taken with respect to all parameters. -/
theorem kernel_exact (d : Dense) (hd : d.param ≠ .other) (hs : d.param = .standard → 0 < d.s.1)
    (X1 X2 : E → Arr ℝ) (B A C : ℕ) (hC : 0 < C) (k : Kernel ℝ) (L : Logical ℝ) (hk : k.Stores L)
    (hS : L.S1.length = L.S2.length) (hB : B < L.S1.length + 2) (hne : B ≠ A)
    (hA : (A : ℤ) = d.channelAxis % (L.S1.length + 2))
    (h1 : ∀ θ, (X1 θ).shape = actIdx B A L.n1 C L.S1) (h2 : ∀ θ, (X2 θ).shape = actIdx B A L.n2 C L.S2)
    (hshape : pyGetNat k.shape1 d.channelAxis = .ok C)
    (hreg : Regular μ C L.n1 L.n2 L.S1 L.S2 (chan X1 B A) (chan X2 B A))
    (hL : ChannelKernelOf μ C (chan X1 B A) (chan X2 B A) L)
    (ν : Measure (EuclideanSpace ℝ (Idx C d.width (nBias d)))) (hν : Uncorrelated ν (initVar d)) :
    ∃ k' L', d.kernelFn k = .ok k' ∧ k'.Stores L' ∧
      (L'.n1, L'.n2, L'.S1, L'.S2, L'.k22.isSome, L'.ntk.isSome) =
        (L.n1, L.n2, L.S1, L.S2, L.k22.isSome, L.ntk.isSome) ∧
      k'.static = { k.static with isGaussian := true, isInput := false } ∧
      (∀ x : Ext E (Idx C d.width (nBias d)), (layerOut d (L.S1.length + 2) A X1 x).shape = actIdx B A L.n1 d.width L.S1) ∧
      (∀ x : Ext E (Idx C d.width (nBias d)), (layerOut d (L.S1.length + 2) A X2 x).shape = actIdx B A L.n2 d.width L.S2) ∧
      ∀ o < d.width, KernelOf (extMeasure μ ν)
        (fun i p => chan (layerOut d (L.S1.length + 2) A X1) B A i o p)
        (fun i p => chan (layerOut d (L.S1.length + 2) A X2) B A i o p) L' := by
  obtain ⟨k', hk', hst, hstat, -⟩ := kernel_formula d hd k L hk C hshape
  have e1 := fun x => layerOut_eq d hd X1 B A L.n1 C L.S1 hA hne hB h1 x
  have e2 := fun x => layerOut_eq d hd X2 B A L.n2 C L.S2 (by rw [← hS]; exact hA) hne (by omega) h2 x
  rw [← hS] at e2
  refine ⟨k', after d C L, hk', hst, ?_, hstat, fun x => (e1 x).1, fun x => (e2 x).1, ?_⟩
  · simp [after]
  intro o ho
  have f1 : ∀ i p, i < L.n1 → InRange p L.S1 → chan (layerOut d (L.S1.length + 2) A X1) B A i o p =
      linOut (coef d o fun c => chan X1 B A i c p) := fun i p hi hp => funext fun x => (e1 x).2 i o p hi ho hp
  have f2 : ∀ i p, i < L.n2 → InRange p L.S2 → chan (layerOut d (L.S1.length + 2) A X2) B A i o p =
      linOut (coef d o fun c => chan X2 B A i c p) := fun i p hi hp => funext fun x => (e2 x).2 i o p hi ho hp
  refine ⟨?_, ?_, ?_, ?_⟩
  · intro i j p q hi hj hp hq
    beta_reduce
    rw [f1 i p hi hp, f2 j q hj hq, secondMoment_out μ hd C hC hs ν hν o ho _ _ (fun c hc => hreg.sq1 i hi c hc p hp)
      (fun c hc => hreg.sq2 j hj c hc q hq), ← hL.k12 i j p q hi hj hp hq]
    rfl
  · intro i j p q hi hj hp hq
    beta_reduce
    rw [f1 i p hi hp, f1 j q hj hq, secondMoment_out μ hd C hC hs ν hν o ho _ _ (fun c hc => hreg.sq1 i hi c hc p hp)
      (fun c hc => hreg.sq1 j hj c hc q hq), ← hL.k11 i j p q hi hj hp hq]
    rfl
  · intro F hF i j p q hi hj hp hq
    simp only [after, Option.map_eq_some_iff] at hF
    obtain ⟨G, hG, rfl⟩ := hF
    beta_reduce
    rw [f2 i p hi hp, f2 j q hj hq, secondMoment_out μ hd C hC hs ν hν o ho _ _ (fun c hc => hreg.sq2 i hi c hc p hp)
      (fun c hc => hreg.sq2 j hj c hc q hq), ← hL.k22 G hG i j p q hi hj hp hq]
  · intro F hF i j p q hi hj hp hq
    simp only [after, Option.map_eq_some_iff] at hF
    obtain ⟨G, hG, rfl⟩ := hF
    beta_reduce
    rw [f1 i p hi hp, f2 j q hj hq, tangent_out μ hd C hC hs ν hν o ho _ _ (fun c hc => hreg.sq1 i hi c hc p hp)
      (fun c hc => hreg.sq2 j hj c hc q hq) (fun c hc => hreg.diff1 i hi c hc p hp) (fun c hc => hreg.diff2 j hj c hc q hq)
      (fun c hc c' hc' => hreg.grad i hi j hj c hc c' hc' p q hp hq), ← hL.k12 i j p q hi hj hp hq, ← hL.ntk G hG i j p q hi hj hp hq]

/-- An unsupported parameterization is rejected. -/
theorem param_rejected (d : Dense) (h : d.param = .other) (nW nb W x : Arr ℝ) (b : Option (Arr ℝ)) (s : List ℕ)
    (k : Kernel ℝ) :
    d.init nW nb s = .error .valueError ∧ d.kernelFn k = .error .valueError ∧ ∀ z, d.apply W b x ≠ .ok z := by
  refine ⟨by simp [Dense.init, h], by simp [Dense.kernelFn, h], ?_⟩
  intro z
  unfold Dense.apply
  simp only [h]
  split <;> simp

section Example

/-- `Dense(1, W_std=2, b_std=3)` in the standard parameterization. -/
noncomputable def exD : Dense := ⟨1, 2, some 3, -1, .standard, (1, 1)⟩

/-- A network with inputs of shape `[2, 3]` (batch, channels). -/
noncomputable def exX (θ : ℝ) : Arr ℝ := ⟨[2, 3], fun i => ((i.getD 0 0 : ℕ) + 2 * (i.getD 1 0 : ℕ) + 1 : ℝ) * θ⟩

/-- Its kernel. -/
noncomputable def exL : Logical ℝ := lin1L 3 (fun i c _ => (i : ℝ) + 2 * c + 1) (fun i c _ => (i : ℝ) + 2 * c + 1) 2 2 [] []

/-- The kernel record of this network. -/
noncomputable def exK : Kernel ℝ := { exL.encode true false false with shape1 := [2, 3], shape2 := [2, 3], channelAxis := 1 }

lemma exK_stores : exK.Stores exL :=
  let h := exL.encode_stores true false false (by simp) rfl
  ⟨h.nngp, h.cov1, h.cov2, h.ntk⟩

example : ∃ ν : Measure (EuclideanSpace ℝ (Idx 3 exD.width (nBias exD))), ∃ k' L',
    exD.kernelFn exK = .ok k' ∧ k'.Stores L' ∧
    KernelOf (extMeasure (ProbabilityTheory.gaussianReal 0 1) ν)
      (fun i p => chan (layerOut exD 2 1 exX) 0 1 i 0 p) (fun i p => chan (layerOut exD 2 1 exX) 0 1 i 0 p) L' := by
  obtain ⟨ν, hν⟩ := exists_uncorrelated (Idx 3 exD.width (nBias exD)) (initVar exD) (by
    intro k; rcases k with k | k <;> exact sq_nonneg _)
  obtain ⟨k', L', h1, h2, -, -, -, -, h3⟩ := kernel_exact (ProbabilityTheory.gaussianReal 0 1) exD (by simp [exD])
    (by simp [exD]) exX exX 0 1 3 (by decide) exK exL exK_stores rfl (by simp [exL, lin1L]) (by decide)
    (by simp [exD, exL, lin1L]) (fun _ => rfl) (fun _ => rfl) (by simp [exK, exD, pyGetNat]) (lin1_regular _ _ _ _ _ _ _)
    (lin1_kernel _ _ _ _ _ _ _) ν hν
  exact ⟨ν, k', L', h1, h2, h3 0 (by simp [exD, Dense.width])⟩

end Example

end NT.C52
