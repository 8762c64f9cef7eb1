import Verif.Model.Dropout
import Verif.Lemmas.Box
import Verif.Lemmas.Channels
import Verif.Lemmas.Inputs
import Mathlib.Algebra.BigOperators.Field
import Mathlib.Probability.Independence.Integration
import Mathlib.Probability.Independence.InfinitePi
import Mathlib.Probability.Distributions.Bernoulli

/-!
# C56: the kernel of `Dropout` is the exact second moment over independent keep flags
-/

set_option linter.unusedSectionVars false

namespace NT.C56
open NT Arr Kernel Spec MeasureTheory ProbabilityTheory

variable {E : Type} [NormedAddCommGroup E] [InnerProductSpace ℝ E] [CompleteSpace E] [MeasurableSpace E]

/-- Divide the entries of the same example and position by the rate. -/
noncomputable def drop (rate : ℝ) (F : List ℕ → List ℕ → List ℕ → ℝ) : List ℕ → List ℕ → List ℕ → ℝ :=
  fun b p q => if b.getD 0 0 = b.getD 1 0 ∧ p = q then F b p q / rate else F b p q

/-- The information in the kernel of dropped activations.  `same`: the two inputs are the same, with the same
keep flags. -/
noncomputable def after (rate : ℝ) (same : Bool) (L : Logical ℝ) : Logical ℝ :=
  { L with
    k12 := if same then drop rate L.k12 else L.k12
    k11 := drop rate L.k11
    k22 := L.k22.map (drop rate)
    ntk := if same then L.ntk.map (drop rate) else L.ntk }

lemma pairsEqual_interleave : ∀ p q : List ℕ, p.length = q.length → (pairsEqual (interleave p q) = true ↔ p = q)
  | [], [], _ => by simp [interleave, pairsEqual]
  | a :: p, b :: q, h => by
    simp [interleave, pairsEqual, pairsEqual_interleave p q (by simpa using h)]

lemma rv_inj (rev : Bool) {p q : List ℕ} : rv rev p = rv rev q ↔ p = q :=
  ⟨fun h => by rw [← rv_rv rev p, h, rv_rv], fun h => by rw [h]⟩

lemma diagMul_batch {a : Arr ℝ} {n : ℕ} {S : List ℕ} {db ds rev : Bool} {F : List ℕ → List ℕ → List ℕ → ℝ} (c : ℝ)
    (h : Holds a (batchShape db n) S S ds rev (fun b => F (dbl b))) :
    ∃ z, diagMul a c db ds = .ok z ∧ Holds z (batchShape db n) S S ds rev
      (fun b p q => if (dbl b).getD 0 0 = (dbl b).getD 1 0 ∧ p = q then F (dbl b) p q * c else F (dbl b) p q) := by
  have hs := h.shape
  cases ds <;> cases db
  · have e : a.shape = n :: n :: interleave (rv rev S) (rv rev S) := by rw [hs, pos_full]; rfl
    simp only [diagMul, diagMulFullSpatial, e, Bool.false_eq_true, if_false, ne_eq, not_true_eq_false]
    refine ⟨_, rfl, h.rank, h.square, e.symm.trans hs, ?_⟩
    intro b p q hb hp hq hpq
    have hg := h.get b p q hb hp hq hpq
    obtain ⟨i, j, rfl, -, -⟩ := Inputs.inRange_two hb
    dsimp only
    rw [hg, pos_full]
    have : pairsEqual ([i, j] ++ interleave (rv rev p) (rv rev q)) = true ↔ i = j ∧ p = q := by
      simp [pairsEqual, pairsEqual_interleave (rv rev p) (rv rev q) (by simp [hp.length, hq.length]), rv_inj]
    by_cases hc : i = j ∧ p = q
    · rw [if_pos (this.2 hc)]; simp [dbl, hc]
    · rw [if_neg (fun h => hc (this.1 h))]; simp [dbl, hc]
  · have e : a.shape = n :: interleave (rv rev S) (rv rev S) := by rw [hs, pos_full]; rfl
    simp only [diagMul, diagMulFullSpatial, Bool.false_eq_true, if_false, if_true]
    refine ⟨_, rfl, h.rank, h.square, hs, ?_⟩
    intro b p q hb hp hq hpq
    have hg := h.get b p q hb hp hq hpq
    obtain ⟨i, rfl⟩ := List.length_eq_one_iff.1 hb.length
    dsimp only
    rw [hg, pos_full]
    have : pairsEqual ([i] ++ interleave (rv rev p) (rv rev q)).tail = true ↔ p = q := by
      simp [pairsEqual_interleave (rv rev p) (rv rev q) (by simp [hp.length, hq.length]), rv_inj]
    by_cases hc : p = q
    · rw [if_pos (this.2 hc)]; simp [dbl, hc]
    · rw [if_neg (fun h => hc (this.1 h))]; simp [dbl, hc]
  · have e : a.shape = n :: n :: rv rev S := by rw [hs, pos_diag]; rfl
    simp only [diagMul, diagMulDiagonalSpatial, e, Bool.false_eq_true, if_false, if_true, ne_eq, not_true_eq_false]
    refine ⟨_, rfl, h.rank, h.square, e.symm.trans hs, ?_⟩
    intro b p q hb hp hq hpq
    have hg := h.get b p q hb hp hq hpq
    obtain ⟨i, j, rfl, -, -⟩ := Inputs.inRange_two hb
    dsimp only
    rw [hg]
    simp [dbl, hpq rfl]
  · simp only [diagMul, diagMulDiagonalSpatial, if_true]
    refine ⟨_, rfl, h.rank, h.square, hs, ?_⟩
    intro b p q hb hp hq hpq
    have hg := h.get b p q hb hp hq hpq
    obtain ⟨i, rfl⟩ := List.length_eq_one_iff.1 hb.length
    show a.get _ * c = _
    rw [hg]
    simp [dbl, hpq rfl]

lemma diagMul_cross {a : Arr ℝ} {n m : ℕ} {S T : List ℕ} {ds rev : Bool} {F : List ℕ → List ℕ → List ℕ → ℝ} (c : ℝ)
    (h : Holds a [n, m] S T ds rev F) (hc : c ≠ 1 → n = m) :
    ∃ z, diagMul a c false ds = .ok z ∧ Holds z [n, m] S T ds rev
      (fun b p q => if b.getD 0 0 = b.getD 1 0 ∧ p = q then F b p q * c else F b p q) := by
  by_cases hnm : n = m
  · subst hnm
    have hs := h.shape
    cases ds
    · have e : a.shape = n :: n :: interleave (rv rev S) (rv rev T) := by rw [hs, pos_full]; rfl
      simp only [diagMul, diagMulFullSpatial, e, Bool.false_eq_true, if_false, ne_eq, not_true_eq_false]
      refine ⟨_, rfl, h.rank, h.square, e.symm.trans hs, ?_⟩
      intro b p q hb hp hq hpq
      have hg := h.get b p q hb hp hq hpq
      obtain ⟨i, j, rfl, -, -⟩ := Inputs.inRange_two hb
      dsimp only
      rw [hg, pos_full]
      have : pairsEqual ([i, j] ++ interleave (rv rev p) (rv rev q)) = true ↔ i = j ∧ p = q := by
        simp [pairsEqual, pairsEqual_interleave (rv rev p) (rv rev q) (by simp [hp.length, hq.length, h.rank]), rv_inj]
      by_cases hc : i = j ∧ p = q
      · rw [if_pos (this.2 hc)]; simp [hc]
      · rw [if_neg (fun h => hc (this.1 h))]; simp [hc]
    · have e : a.shape = n :: n :: rv rev S := by rw [hs, pos_diag]; rfl
      simp only [diagMul, diagMulDiagonalSpatial, e, Bool.false_eq_true, if_false, if_true, ne_eq, not_true_eq_false]
      refine ⟨_, rfl, h.rank, h.square, e.symm.trans hs, ?_⟩
      intro b p q hb hp hq hpq
      have hg := h.get b p q hb hp hq hpq
      obtain ⟨i, j, rfl, -, -⟩ := Inputs.inRange_two hb
      dsimp only
      rw [hg]
      simp [hpq rfl]
  · have c1 : c = 1 := by
      by_contra h
      exact hnm (hc h)
    refine ⟨a, ?_, h.congr fun b p q _ _ _ => by simp [c1]⟩
    cases ds
    · have e : a.shape = n :: m :: interleave (rv rev S) (rv rev T) := by rw [h.shape, pos_full]; rfl
      simp [diagMul, diagMulFullSpatial, e, hnm]
    · have e : a.shape = n :: m :: rv rev S := by rw [h.shape, pos_diag]; rfl
      simp [diagMul, diagMulDiagonalSpatial, e, hnm]

/-- In train mode exactly the entries of the same example and position are divided by the rate: those of
`cov1`, `cov2`, and, if the two inputs are the same, those of `nngp` and `ntk`.  This holds in every layout. -/
theorem kernel_formula (d : Dropout) (h0 : 0 < d.rate) (h1 : d.rate ≤ 1) (hm : d.mode = .train) (k : Kernel ℝ)
    (L : Logical ℝ) (hk : k.Stores L) (hin : k.isInput = false) (hn : ∀ a, k.ntk = some a → a.shape ≠ [])
    (hsame : k.x1IsX2.get [] = true → L.n1 = L.n2) :
    ∃ k', d.kernelFn k = .ok k' ∧ k'.Stores (after d.rate (k.x1IsX2.get []) L) ∧
      k'.static = { k.static with isGaussian := false } ∧ k'.mask1 = k.mask1 ∧ k'.mask2 = k.mask2 := by
  have hch : d.check = .ok () := by
    unfold Dropout.check
    rw [hm, if_neg (by decide), if_neg (by push Not; exact ⟨h0, h1⟩)]
  have hc : (if k.x1IsX2.get [] = true then 1 / d.rate else 1) ≠ 1 → L.n1 = L.n2 := by
    intro h
    by_cases hx : k.x1IsX2.get [] = true
    · exact hsame hx
    · simp [hx] at h
  obtain ⟨c1, e1, g1⟩ := diagMul_batch (1 / d.rate) hk.cov1
  obtain ⟨nn, e3, g3⟩ := diagMul_cross _ hk.nngp hc
  have hc2 : ∃ c2, diagMul? k.cov2 (1 / d.rate) k.diagonalBatch k.diagonalSpatial = .ok c2 ∧
      OptRel (fun c F => Holds c (batchShape k.diagonalBatch L.n2) L.S2 L.S2 k.diagonalSpatial k.isReversed
        (fun b => F (dbl b))) c2 (L.k22.map (drop d.rate)) := by
    have := hk.cov2
    cases h1 : k.cov2 <;> cases h2 : L.k22 <;> simp only [h1, h2, OptRel] at this
    · exact ⟨none, rfl, trivial⟩
    · obtain ⟨z, hz, hh⟩ := diagMul_batch (1 / d.rate) this
      refine ⟨some z, by simp only [diagMul?, hz, Except.map], hh.congr fun b p q _ _ _ => ?_⟩
      simp only [drop, mul_one_div]
  have hc4 : ∃ c4, diagMul? k.ntk (if k.x1IsX2.get [] = true then 1 / d.rate else 1) false k.diagonalSpatial = .ok c4 ∧
      OptRel (fun a F => (a.shape = [] ∧ ∀ b p q, F b p q = a.get []) ∨
        Holds a [L.n1, L.n2] L.S1 L.S2 k.diagonalSpatial k.isReversed F) c4
        (if k.x1IsX2.get [] = true then L.ntk.map (drop d.rate) else L.ntk) := by
    have := hk.ntk
    cases h1 : k.ntk <;> cases h2 : L.ntk <;> simp only [h1, h2, OptRel] at this
    · refine ⟨none, rfl, ?_⟩
      split_ifs <;> trivial
    · rcases this with ⟨t, -⟩ | t
      · exact absurd t (hn _ h1)
      · obtain ⟨z, hz, hh⟩ := diagMul_cross _ t hc
        refine ⟨some z, by simp only [diagMul?, hz, Except.map], ?_⟩
        split_ifs with hx
        · refine .inr (hh.congr fun b p q _ _ _ => ?_)
          simp only [drop, hx, if_true, mul_one_div]
        · refine .inr (hh.congr fun b p q _ _ _ => ?_)
          simp [hx]
  obtain ⟨c2, e2, g2⟩ := hc2
  obtain ⟨c4, e4, g4⟩ := hc4
  simp only [Dropout.kernelFn, hch, hm, Dropout.kernelFnTrain, hin, Bool.false_eq_true, if_false, e1, e2, e3, e4,
    reduceCtorEq]
  refine ⟨_, rfl, ⟨?_, ?_, ?_, ?_⟩, by simp [Kernel.static, hin], rfl, rfl⟩
  · refine g3.congr fun b p q _ _ _ => ?_
    unfold after
    cases hx : k.x1IsX2.get [] <;> simp [drop, div_eq_mul_inv]
  · refine g1.congr fun b p q _ _ _ => ?_
    simp only [after, drop, mul_one_div]
  · exact g2
  · exact g4

/-- In test mode the kernel is returned as it is. -/
theorem test_identity (d : Dropout) (h0 : 0 < d.rate) (h1 : d.rate ≤ 1) (hm : d.mode = .test) (k : Kernel ℝ)
    (x : Arr ℝ) (keep : List ℕ → Bool) : d.kernelFn k = .ok k ∧ d.apply keep x = x := by
  have hch : d.check = .ok () := by
    unfold Dropout.check
    rw [hm, if_neg (by decide), if_neg (by push Not; exact ⟨h0, h1⟩)]
  simp [Dropout.kernelFn, hch, hm, Dropout.apply]

/-- Rates outside `(0, 1]` and unknown modes are rejected. -/
theorem arguments_rejected (d : Dropout) (h : d.rate ≤ 0 ∨ 1 < d.rate ∨ d.mode = .other) (k : Kernel ℝ) :
    d.kernelFn k = .error .valueError := by
  have : d.check = .error .valueError := by
    unfold Dropout.check
    by_cases hm : d.mode = .other
    · rw [if_pos hm]
    · rw [if_neg hm, if_pos (by tauto)]
  simp [Dropout.kernelFn, this]

/-- A kernel whose tangent kernel is still the scalar of an input kernel makes the layer raise an
`IndexError`, not the `ValueError` of the check of `is_input`. -/
theorem scalar_ntk_raises (d : Dropout) (h0 : 0 < d.rate) (h1 : d.rate ≤ 1) (hm : d.mode = .train) (k : Kernel ℝ)
    (L : Logical ℝ) (hk : k.Stores L) (hin : k.isInput = false) (a : Arr ℝ) (ha : k.ntk = some a) (hs : a.shape = [])
    (hsame : k.x1IsX2.get [] = true → L.n1 = L.n2) : d.kernelFn k = .error .indexError := by
  have hch : d.check = .ok () := by
    unfold Dropout.check
    rw [hm, if_neg (by decide), if_neg (by push Not; exact ⟨h0, h1⟩)]
  have hc : (if k.x1IsX2.get [] = true then 1 / d.rate else 1) ≠ 1 → L.n1 = L.n2 := by
    intro h
    by_cases hx : k.x1IsX2.get [] = true
    · exact hsame hx
    · simp [hx] at h
  obtain ⟨c1, e1, g1⟩ := diagMul_batch (1 / d.rate) hk.cov1
  obtain ⟨nn, e3, g3⟩ := diagMul_cross _ hk.nngp hc
  have hc2 : ∃ c2, diagMul? k.cov2 (1 / d.rate) k.diagonalBatch k.diagonalSpatial = .ok c2 := by
    have := hk.cov2
    cases h1 : k.cov2 <;> cases h2 : L.k22 <;> simp only [h1, h2, OptRel] at this
    · exact ⟨none, rfl⟩
    · obtain ⟨z, hz, hh⟩ := diagMul_batch (1 / d.rate) this
      exact ⟨some z, by simp only [diagMul?, hz, Except.map]⟩
  obtain ⟨c2, e2⟩ := hc2
  have e4 : ∀ c, diagMul? k.ntk c false k.diagonalSpatial = .error .indexError := by
    intro c
    rw [ha]
    cases k.diagonalSpatial <;>
      simp [diagMul?, diagMul, diagMulFullSpatial, diagMulDiagonalSpatial, hs, Except.map]
  simp only [Dropout.kernelFn, hch, hm, Dropout.kernelFnTrain, hin, Bool.false_eq_true, if_false, e1, e2, e3, e4,
    reduceCtorEq]

/-! ### The exact second moments -/

/-- Keep flags with the given rate: entry `i` of the activations is kept with probability `rate`, different
entries independently. -/
structure KeepFlags {Ω : Type} [MeasurableSpace Ω] (ρ : Measure Ω) (rate : ℝ) (keep : Ω → List ℕ → Bool) : Prop where
  prob : IsProbabilityMeasure ρ
  meas : ∀ i, Measurable fun ω => keep ω i
  rate : ∀ i, ρ.real {ω | keep ω i = true} = rate
  indep : ∀ i j, i ≠ j → IndepFun (fun ω => keep ω i) (fun ω => keep ω j) ρ

/-- `L` holds the channel averages of the second moments and tangent kernels, averaged over the noise `ω`. -/
structure NoisyKernelOf {Ω : Type} [MeasurableSpace Ω] (μ : Measure E) (ρ : Measure Ω) (C : ℕ)
    (f1 f2 : Ω → ℕ → ℕ → List ℕ → E → ℝ) (L : Logical ℝ) : Prop where
  k12 : ∀ i j p q, i < L.n1 → j < L.n2 → InRange p L.S1 → InRange q L.S2 →
    L.k12 [i, j] p q = (∑ c ∈ Finset.range C, ∫ ω, secondMoment μ (f1 ω i c p) (f2 ω j c q) ∂ρ) / C
  k11 : ∀ i j p q, i < L.n1 → j < L.n1 → InRange p L.S1 → InRange q L.S1 →
    L.k11 [i, j] p q = (∑ c ∈ Finset.range C, ∫ ω, secondMoment μ (f1 ω i c p) (f1 ω j c q) ∂ρ) / C
  k22 : ∀ F, L.k22 = some F → ∀ i j p q, i < L.n2 → j < L.n2 → InRange p L.S2 → InRange q L.S2 →
    F [i, j] p q = (∑ c ∈ Finset.range C, ∫ ω, secondMoment μ (f2 ω i c p) (f2 ω j c q) ∂ρ) / C
  ntk : ∀ F, L.ntk = some F → ∀ i j p q, i < L.n1 → j < L.n2 → InRange p L.S1 → InRange q L.S2 →
    F [i, j] p q = (∑ c ∈ Finset.range C, ∫ ω, tangent μ (f1 ω i c p) (f2 ω j c q) ∂ρ) / C

/-- The channels of the activations `X` after dropout with the flags `keep ω`. -/
noncomputable def dropped {Ω : Type} (d : Dropout) (keep : Ω → List ℕ → Bool) (X : E → Arr ℝ) (B A : ℕ) (ω : Ω) :
    ℕ → ℕ → List ℕ → E → ℝ := chan (fun θ => d.apply (keep ω) (X θ)) B A

/-- 1 for kept, 0 for dropped entries. -/
def ind (b : Bool) : ℝ := if b then 1 else 0

lemma secondMoment_smul (μ : Measure E) (a b : ℝ) (f g : E → ℝ) :
    secondMoment μ (fun θ => a * f θ) (fun θ => b * g θ) = a * b * secondMoment μ f g := by
  unfold secondMoment
  rw [← integral_const_mul]
  congr 1
  funext θ
  ring

lemma gradient_smul (a : ℝ) (f : E → ℝ) (θ : E) : gradient (fun θ => a * f θ) θ = a • gradient f θ := by
  have h := congrFun (fderiv_const_smul_field (𝕜 := ℝ) (f := f) a) θ
  unfold gradient
  have e : (fun θ => a * f θ) = a • f := by funext θ; simp
  rw [e, h]
  simp

lemma tangent_smul (μ : Measure E) (a b : ℝ) (f g : E → ℝ) :
    tangent μ (fun θ => a * f θ) (fun θ => b * g θ) = a * b * tangent μ f g := by
  unfold tangent
  rw [← integral_const_mul]
  congr 1
  funext θ
  rw [gradient_smul, gradient_smul, inner_smul_left, inner_smul_right]
  simp [mul_assoc]

lemma dropped_eq {Ω : Type} (d : Dropout) (hm : d.mode = .train) (keep : Ω → List ℕ → Bool) (X : E → Arr ℝ) (B A : ℕ)
    (ω : Ω) (i c : ℕ) (p : List ℕ) :
    dropped d keep X B A ω i c p = fun θ => ind (keep ω (actIdx B A i c p)) / d.rate * chan X B A i c p θ := by
  funext θ
  simp only [dropped, chan, Dropout.apply, hm, ind]
  split_ifs <;> simp [div_eq_mul_inv, mul_comm]

lemma integral_ind {Ω : Type} [MeasurableSpace Ω] {ρ : Measure Ω} {rate : ℝ} {keep : Ω → List ℕ → Bool}
    (h : KeepFlags ρ rate keep) (a : List ℕ) : ∫ ω, ind (keep ω a) ∂ρ = rate := by
  have hs : MeasurableSet {ω | keep ω a = true} := h.meas a (measurableSet_singleton true)
  have e : (fun ω => ind (keep ω a)) = Set.indicator {ω | keep ω a = true} 1 := by
    funext ω
    simp [ind, Set.indicator]
  rw [e, integral_indicator_one hs, h.rate a]

lemma integral_ind_mul {Ω : Type} [MeasurableSpace Ω] {ρ : Measure Ω} {rate : ℝ} {keep keep' : Ω → List ℕ → Bool}
    (h : KeepFlags ρ rate keep) (h' : KeepFlags ρ rate keep') (a b : List ℕ)
    (hi : IndepFun (fun ω => keep ω a) (fun ω => keep' ω b) ρ) :
    ∫ ω, ind (keep ω a) * ind (keep' ω b) ∂ρ = rate * rate := by
  have hm : Measurable ind := measurable_of_countable _
  have := IndepFun.integral_fun_mul_eq_mul_integral (X := fun ω => ind (keep ω a)) (Y := fun ω => ind (keep' ω b))
    (hi.comp hm hm) (hm.comp (h.meas a)).aestronglyMeasurable (hm.comp (h'.meas b)).aestronglyMeasurable
  rw [this, integral_ind h, integral_ind h']

lemma actIdx_inj (B A c : ℕ) {i j : ℕ} {p q : List ℕ} (hl : p.length = q.length) (hB : B < p.length + 2)
    (hA : A < p.length + 2) (hne : B ≠ A) : actIdx B A i c p = actIdx B A j c q ↔ i = j ∧ p = q := by
  constructor
  · intro h
    obtain ⟨g1, g2, -⟩ := gather_act B A i c p hne hB hA
    obtain ⟨k1, k2, -⟩ := gather_act B A j c q hne (by omega) (by omega)
    rw [← hl] at k1
    exact ⟨by rw [← g2, h, k2], by rw [← g1, h, k1]⟩
  · rintro ⟨rfl, rfl⟩; rfl

/-- The factor of an entry of the same network with the same flags. -/
lemma same_factor {Ω : Type} [MeasurableSpace Ω] {ρ : Measure Ω} {d : Dropout} {keep : Ω → List ℕ → Bool}
    (h : KeepFlags ρ d.rate keep) (h0 : 0 < d.rate) (hm : d.mode = .train) (X Y : E → Arr ℝ) (B A c : ℕ) {i j : ℕ}
    {p q : List ℕ} (hl : p.length = q.length) (hB : B < p.length + 2) (hA : A < p.length + 2) (hne : B ≠ A)
    (Φ : (E → ℝ) → (E → ℝ) → ℝ) (hΦ : ∀ a b f g, Φ (fun θ => a * f θ) (fun θ => b * g θ) = a * b * Φ f g) :
    ∫ ω, Φ (dropped d keep X B A ω i c p) (dropped d keep Y B A ω j c q) ∂ρ =
      if i = j ∧ p = q then Φ (chan X B A i c p) (chan Y B A j c q) / d.rate
      else Φ (chan X B A i c p) (chan Y B A j c q) := by
  simp only [dropped_eq d hm, hΦ]
  have e : ∀ ω, ind (keep ω (actIdx B A i c p)) / d.rate * (ind (keep ω (actIdx B A j c q)) / d.rate) *
      Φ (chan X B A i c p) (chan Y B A j c q) =
      (ind (keep ω (actIdx B A i c p)) * ind (keep ω (actIdx B A j c q))) *
        (Φ (chan X B A i c p) (chan Y B A j c q) / (d.rate * d.rate)) := by
    intro ω; field_simp
  simp only [e]
  rw [integral_mul_const]
  split_ifs with hc
  · obtain ⟨rfl, rfl⟩ := hc
    have : ∀ ω, ind (keep ω (actIdx B A i c p)) * ind (keep ω (actIdx B A i c p)) = ind (keep ω (actIdx B A i c p)) := by
      intro ω; unfold ind; split_ifs <;> simp
    simp only [this, integral_ind h]
    field_simp
  · rw [integral_ind_mul h h _ _ (h.indep _ _ (fun h => hc ((actIdx_inj B A c hl hB hA hne).1 h)))]
    field_simp

/-- The factor of an entry of two networks with independent flags is 1. -/
lemma cross_factor {Ω : Type} [MeasurableSpace Ω] {ρ : Measure Ω} {d : Dropout} {keep keep' : Ω → List ℕ → Bool}
    (h : KeepFlags ρ d.rate keep) (h' : KeepFlags ρ d.rate keep')
    (hi : ∀ a b, IndepFun (fun ω => keep ω a) (fun ω => keep' ω b) ρ) (h0 : 0 < d.rate) (hm : d.mode = .train)
    (X Y : E → Arr ℝ) (B A c i j : ℕ) (p q : List ℕ) (Φ : (E → ℝ) → (E → ℝ) → ℝ)
    (hΦ : ∀ a b f g, Φ (fun θ => a * f θ) (fun θ => b * g θ) = a * b * Φ f g) :
    ∫ ω, Φ (dropped d keep X B A ω i c p) (dropped d keep' Y B A ω j c q) ∂ρ =
      Φ (chan X B A i c p) (chan Y B A j c q) := by
  simp only [dropped_eq d hm, hΦ]
  have e : ∀ ω, ind (keep ω (actIdx B A i c p)) / d.rate * (ind (keep' ω (actIdx B A j c q)) / d.rate) *
      Φ (chan X B A i c p) (chan Y B A j c q) =
      (ind (keep ω (actIdx B A i c p)) * ind (keep' ω (actIdx B A j c q))) *
        (Φ (chan X B A i c p) (chan Y B A j c q) / (d.rate * d.rate)) := by
    intro ω; field_simp
  simp only [e]
  rw [integral_mul_const, integral_ind_mul h h' _ _ (hi _ _)]
  field_simp

lemma drop_avg {rate : ℝ} {C i j : ℕ} {p q : List ℕ} {F : List ℕ → List ℕ → List ℕ → ℝ} {Φ Ψ : ℕ → ℝ}
    (hF : F [i, j] p q = (∑ c ∈ Finset.range C, Φ c) / C)
    (hΨ : ∀ c, Ψ c = if i = j ∧ p = q then Φ c / rate else Φ c) :
    drop rate F [i, j] p q = (∑ c ∈ Finset.range C, Ψ c) / C := by
  simp only [drop, List.getD_cons_zero, List.getD_cons_succ, hΨ, hF]
  split_ifs
  · rw [← Finset.sum_div]; ring
  · rfl

/-- One input (`x1_is_x2`): the output kernel holds the second moments and tangent kernels of the dropped
activations, averaged over the keep flags. -/
theorem kernel_exact_same {Ω : Type} [MeasurableSpace Ω] (μ : Measure E) (ρ : Measure Ω) (d : Dropout) (h0 : 0 < d.rate)
    (h1 : d.rate ≤ 1) (hm : d.mode = .train) (keep : Ω → List ℕ → Bool) (hkeep : KeepFlags ρ d.rate keep)
    (X : E → Arr ℝ) (B A C : ℕ) (k : Kernel ℝ) (L : Logical ℝ) (hk : k.Stores L) (hin : k.isInput = false)
    (hn : ∀ a, k.ntk = some a → a.shape ≠ []) (hx : k.x1IsX2.get [] = true) (hn12 : L.n1 = L.n2) (hS : L.S1 = L.S2)
    (hB : B < L.S1.length + 2) (hA : A < L.S1.length + 2) (hne : B ≠ A)
    (hL : ChannelKernelOf μ C (chan X B A) (chan X B A) L) :
    ∃ k' L', d.kernelFn k = .ok k' ∧ k'.Stores L' ∧
      (L'.n1, L'.n2, L'.S1, L'.S2, L'.k22.isSome, L'.ntk.isSome) =
        (L.n1, L.n2, L.S1, L.S2, L.k22.isSome, L.ntk.isSome) ∧ k'.isGaussian = false ∧
      NoisyKernelOf μ ρ C (dropped d keep X B A) (dropped d keep X B A) L' := by
  obtain ⟨k', hk', hst, hstat, -⟩ := kernel_formula d h0 h1 hm k L hk hin hn (fun _ => hn12)
  rw [hx] at hst
  refine ⟨k', _, hk', hst, by simp [after], congrArg Static.isGaussian hstat, ?_, ?_, ?_, ?_⟩
  · intro i j p q hi hj hp hq
    change drop d.rate L.k12 [i, j] p q = _
    refine drop_avg (hL.k12 i j p q hi hj hp hq) fun c => ?_
    have l1 := hp.length
    have l2 := hq.length
    change p.length = L.S1.length at l1
    change q.length = L.S2.length at l2
    exact same_factor hkeep h0 hm X X B A c (by rw [l1, l2, hS]) (by omega) (by omega) hne _ (secondMoment_smul μ)
  · intro i j p q hi hj hp hq
    change drop d.rate L.k11 [i, j] p q = _
    refine drop_avg (hL.k11 i j p q hi hj hp hq) fun c => ?_
    have l1 := hp.length
    have l2 := hq.length
    change p.length = L.S1.length at l1
    change q.length = L.S1.length at l2
    exact same_factor hkeep h0 hm X X B A c (by rw [l1, l2]) (by omega) (by omega) hne _ (secondMoment_smul μ)
  · intro F hF i j p q hi hj hp hq
    simp only [after, Option.map_eq_some_iff] at hF
    obtain ⟨G, hG, rfl⟩ := hF
    refine drop_avg (hL.k22 G hG i j p q hi hj hp hq) fun c => ?_
    have l1 := hp.length
    have l2 := hq.length
    change p.length = L.S2.length at l1
    change q.length = L.S2.length at l2
    rw [← hS] at l1 l2
    exact same_factor hkeep h0 hm X X B A c (by rw [l1, l2]) (by omega) (by omega) hne _ (secondMoment_smul μ)
  · intro F hF i j p q hi hj hp hq
    simp only [after, if_true, Option.map_eq_some_iff] at hF
    obtain ⟨G, hG, rfl⟩ := hF
    refine drop_avg (hL.ntk G hG i j p q hi hj hp hq) fun c => ?_
    have l1 := hp.length
    have l2 := hq.length
    change p.length = L.S1.length at l1
    change q.length = L.S2.length at l2
    exact same_factor hkeep h0 hm X X B A c (by rw [l1, l2, hS]) (by omega) (by omega) hne _ (tangent_smul μ)

/-- Two different inputs, with independent flags. -/
theorem kernel_exact_distinct {Ω : Type} [MeasurableSpace Ω] (μ : Measure E) (ρ : Measure Ω) (d : Dropout)
    (h0 : 0 < d.rate) (h1 : d.rate ≤ 1) (hm : d.mode = .train) (keep1 keep2 : Ω → List ℕ → Bool)
    (hkeep1 : KeepFlags ρ d.rate keep1) (hkeep2 : KeepFlags ρ d.rate keep2)
    (hind : ∀ a b, IndepFun (fun ω => keep1 ω a) (fun ω => keep2 ω b) ρ)
    (X1 X2 : E → Arr ℝ) (B A C : ℕ) (k : Kernel ℝ) (L : Logical ℝ) (hk : k.Stores L) (hin : k.isInput = false)
    (hn : ∀ a, k.ntk = some a → a.shape ≠ []) (hx : k.x1IsX2.get [] = false)
    (hB : B < L.S1.length + 2) (hA : A < L.S1.length + 2) (hne : B ≠ A)
    (hL : ChannelKernelOf μ C (chan X1 B A) (chan X2 B A) L) :
    ∃ k' L', d.kernelFn k = .ok k' ∧ k'.Stores L' ∧
      (L'.n1, L'.n2, L'.S1, L'.S2, L'.k22.isSome, L'.ntk.isSome) =
        (L.n1, L.n2, L.S1, L.S2, L.k22.isSome, L.ntk.isSome) ∧ k'.isGaussian = false ∧
      NoisyKernelOf μ ρ C (dropped d keep1 X1 B A) (dropped d keep2 X2 B A) L' := by
  obtain ⟨k', hk', hst, hstat, -⟩ := kernel_formula d h0 h1 hm k L hk hin hn (by simp [hx])
  rw [hx] at hst
  have hrank := hk.nngp.rank
  refine ⟨k', _, hk', hst, by simp [after], congrArg Static.isGaussian hstat, ?_, ?_, ?_, ?_⟩
  · intro i j p q hi hj hp hq
    change L.k12 [i, j] p q = _
    rw [hL.k12 i j p q hi hj hp hq]
    simp only [cross_factor hkeep1 hkeep2 hind h0 hm X1 X2 B A _ i j p q _ (secondMoment_smul μ)]
  · intro i j p q hi hj hp hq
    change drop d.rate L.k11 [i, j] p q = _
    refine drop_avg (hL.k11 i j p q hi hj hp hq) fun c => ?_
    have l1 := hp.length
    have l2 := hq.length
    change p.length = L.S1.length at l1
    change q.length = L.S1.length at l2
    exact same_factor hkeep1 h0 hm X1 X1 B A c (by rw [l1, l2]) (by omega) (by omega) hne _ (secondMoment_smul μ)
  · intro F hF i j p q hi hj hp hq
    simp only [after, Option.map_eq_some_iff] at hF
    obtain ⟨G, hG, rfl⟩ := hF
    refine drop_avg (hL.k22 G hG i j p q hi hj hp hq) fun c => ?_
    have l1 := hp.length
    have l2 := hq.length
    change p.length = L.S2.length at l1
    change q.length = L.S2.length at l2
    rw [← hrank] at l1 l2
    exact same_factor hkeep2 h0 hm X2 X2 B A c (by rw [l1, l2]) (by omega) (by omega) hne _ (secondMoment_smul μ)
  · intro F hF i j p q hi hj hp hq
    change L.ntk = some F at hF
    rw [hL.ntk F hF i j p q hi hj hp hq]
    simp only [cross_factor hkeep1 hkeep2 hind h0 hm X1 X2 B A _ i j p q _ (tangent_smul μ)]

/-! ### Concrete cases -/

/-- Flags for two inputs: independent coins with probability `r`. -/
lemma exists_flags (r : unitInterval) : ∃ ρ : Measure (Bool × List ℕ → Bool),
    KeepFlags ρ r (fun ω i => ω (false, i)) ∧ KeepFlags ρ r (fun ω i => ω (true, i)) ∧
      ∀ a b, IndepFun (fun ω : Bool × List ℕ → Bool => ω (false, a)) (fun ω => ω (true, b)) ρ := by
  let P : Bool × List ℕ → Measure Bool := fun _ => bernoulliMeasure true false r
  have hind : iIndepFun (fun (i : Bool × List ℕ) (ω : Bool × List ℕ → Bool) => ω i) (Measure.infinitePi P) :=
    iIndepFun_infinitePi (X := fun _ b => b) (fun _ => measurable_id)
  have hflag : ∀ s, KeepFlags (Measure.infinitePi P) (r : ℝ) (fun ω i => ω (s, i)) := by
    intro s
    refine ⟨inferInstance, fun i => by fun_prop, fun i => ?_, fun i j hij => ?_⟩
    · have hmp := measurePreserving_eval_infinitePi P (s, i)
      have := hmp.measureReal_preimage (s := {true}) (measurableSet_singleton true).nullMeasurableSet
      have e : (Function.eval (s, i) ⁻¹' {true} : Set (Bool × List ℕ → Bool)) = {ω | ω (s, i) = true} := by
        ext ω; simp
      rw [e] at this
      rw [this]
      simp [P]
    · exact hind.indepFun (by simpa using hij)
  exact ⟨_, hflag false, hflag true, fun a b => hind.indepFun (by simp)⟩

/-- The activations `a · θ` of the example network. -/
noncomputable def exX (a : ℕ → ℕ → List ℕ → ℝ) (θ : ℝ) : Arr ℝ :=
  ⟨[2, 3, 2], fun i => a (i.getD 0 0) (i.getD 2 0) [i.getD 1 0] * θ⟩

lemma exX_chan (a : ℕ → ℕ → List ℕ → ℝ) (i c : ℕ) (p : List ℕ) (hp : InRange p [3]) :
    chan (exX a) 0 2 i c p = lin1 a i c p := by
  obtain ⟨u, rfl⟩ := List.length_eq_one_iff.1 hp.length
  funext θ
  simp [chan, exX, lin1, actIdx]

example (a : ℕ → ℕ → List ℕ → ℝ) (b : ℕ → ℕ → List ℕ → ℝ) (db ds : Bool) : ∃ (ρ : Measure (Bool × List ℕ → Bool))
    (keep1 keep2 : (Bool × List ℕ → Bool) → List ℕ → Bool) (k' : Kernel ℝ) (L' : Logical ℝ),
    (⟨1 / 2, .train⟩ : Dropout).kernelFn ((lin1L 2 a b 2 2 [3] [3]).encode db ds false) = .ok k' ∧ k'.Stores L' ∧
      NoisyKernelOf (gaussianReal 0 1) ρ 2 (dropped ⟨1 / 2, .train⟩ keep1 (exX a) 0 2)
        (dropped ⟨1 / 2, .train⟩ keep2 (exX b) 0 2) L' := by
  obtain ⟨ρ, f1, f2, f3⟩ := exists_flags ⟨1 / 2, by norm_num⟩
  have hL : ChannelKernelOf (gaussianReal 0 1) 2 (chan (exX a) 0 2) (chan (exX b) 0 2) (lin1L 2 a b 2 2 [3] [3]) :=
    (lin1_kernel 2 a b 2 2 [3] [3]).congr (fun i _ c _ p hp => (exX_chan a i c p hp).symm)
      (fun i _ c _ p hp => (exX_chan b i c p hp).symm)
  obtain ⟨k', L', h1, h2, -, -, h3⟩ := kernel_exact_distinct (gaussianReal 0 1) ρ ⟨1 / 2, .train⟩ (by norm_num)
    (by norm_num) rfl _ _ f1 f2 f3 (exX a) (exX b) 0 2 2 ((lin1L 2 a b 2 2 [3] [3]).encode db ds false) _
    (Logical.encode_stores _ db ds false (fun _ => rfl) rfl) rfl
    (by intro c hc; simp [Logical.encode, lin1L] at hc; subst hc; simp [holdArr]) rfl
    (by simp [lin1L]) (by simp [lin1L]) (by decide) hL
  exact ⟨ρ, _, _, k', L', h1, h2, h3⟩

example (a : ℕ → ℕ → List ℕ → ℝ) (db ds : Bool) : ∃ (ρ : Measure (Bool × List ℕ → Bool))
    (keep : (Bool × List ℕ → Bool) → List ℕ → Bool) (k' : Kernel ℝ) (L' : Logical ℝ),
    (⟨1 / 2, .train⟩ : Dropout).kernelFn
      { (lin1L 2 a a 2 2 [3] [3]).encode db ds false with x1IsX2 := ⟨[], fun _ => true⟩ } = .ok k' ∧ k'.Stores L' ∧
      NoisyKernelOf (gaussianReal 0 1) ρ 2 (dropped ⟨1 / 2, .train⟩ keep (exX a) 0 2)
        (dropped ⟨1 / 2, .train⟩ keep (exX a) 0 2) L' := by
  obtain ⟨ρ, f1, -, -⟩ := exists_flags ⟨1 / 2, by norm_num⟩
  have hL : ChannelKernelOf (gaussianReal 0 1) 2 (chan (exX a) 0 2) (chan (exX a) 0 2) (lin1L 2 a a 2 2 [3] [3]) :=
    (lin1_kernel 2 a a 2 2 [3] [3]).congr (fun i _ c _ p hp => (exX_chan a i c p hp).symm)
      (fun i _ c _ p hp => (exX_chan a i c p hp).symm)
  have hst := Logical.encode_stores (lin1L 2 a a 2 2 [3] [3]) db ds false (fun _ => rfl) rfl
  obtain ⟨k', L', h1, h2, -, -, h3⟩ := kernel_exact_same (gaussianReal 0 1) ρ ⟨1 / 2, .train⟩ (by norm_num)
    (by norm_num) rfl _ f1 (exX a) 0 2 2 { (lin1L 2 a a 2 2 [3] [3]).encode db ds false with x1IsX2 := ⟨[], fun _ => true⟩ } _
    ⟨hst.nngp, hst.cov1, hst.cov2, hst.ntk⟩ rfl
    (by intro c hc; simp [Logical.encode, lin1L] at hc; subst hc; simp [holdArr]) rfl rfl rfl
    (by simp [lin1L]) (by simp [lin1L]) (by decide) hL
  exact ⟨ρ, _, k', L', h1, h2, h3⟩

end NT.C56
