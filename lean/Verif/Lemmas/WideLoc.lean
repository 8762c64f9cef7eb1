import Verif.Tac
import Verif.Lemmas.WideGrad
import Verif.Lemmas.GaussAe

/-!
# Nonlinearities with kinks

Outputs of random networks are almost surely either zero in a neighbourhood of the parameters or not at a kink.
-/

set_option linter.unusedSectionVars false

namespace NT.Wide
open NT Gauss Spec MeasureTheory ProbabilityTheory C52 Topology

/-- Almost surely, outputs that are zero are zero in a neighbourhood. -/
def Loc (B A C r : ℕ) (N : RandomNet) : Prop :=
  ∀ a : Pt, a.Valid B A C r → ∀ c < N.channels, ∀ᵐ θ ∂N.law, val B A N a c θ = 0 → ∀ᶠ θ' in 𝓝 θ, val B A N a c θ' = 0

variable {B A C r : ℕ}

lemma loc_input : Loc B A C r (RandomNet.input C) := fun _ _ _ _ => .of_forall fun _ h => .of_forall fun _ => h

/-- The layer has weights, and a bias that is random if there is one. -/
structure Alive (d : Dense) : Prop where
  weight : d.wStd ≠ 0
  bias : ∀ b, d.bStd = some b → b ≠ 0

lemma dense_avoid {N : RandomNet} (hN : Good B A C r N) (hL : Loc B A C r N) (hne : B ≠ A) (hB : B < r) {d : Dense} (hd : DenseOk A r d) (hv : Alive d) {a : Pt}
    (ha : a.Valid B A C r) (o : Fin d.width) {D : Set ℝ} (hD : volume D = 0) :
    ∀ᵐ x ∂(N.dense d r A).law, (∀ᶠ x' in 𝓝 x, val B A (N.dense d r A) a o x' = 0) ∨ val B A (N.dense d r A) a o x ∉ D := by
  set ν := normalVector (initVar (C := N.channels) (D := d.width) (B := nBias d) d) with hν
  set f : N.E → ℕ → ℝ := fun θ c => val B A N a c θ with hf
  have hfm : Measurable fun θ => denseIn d N.channels (f θ) := measurable_denseIn d N.channels (fun c => val B A N a c) fun c hc => hN.meas a ha c hc
  have hR := dense_rows d (C := N.channels)
  set D' := toMeasurable volume D with hD'
  have hD0 : volume D' = 0 := by rw [hD', measure_toMeasurable, hD]
  have key : ∀ᵐ y ∂N.law.prod ν, (d.bStd = none ∧ ∑ c ∈ Finset.range N.channels, f y.1 c * f y.1 c = 0) ∨
      rowOut (pick (denseIdx d (C := N.channels))) o (denseIn d N.channels (f y.1)) y.2 ∉ D' := by
    refine (Measure.ae_prod_iff_ae_ae ?_).2 (.of_forall fun θ => ?_)
    · refine MeasurableSet.union (MeasurableSet.inter (MeasurableSet.const _) ?_) ?_
      · refine measurableSet_eq_fun (Finset.measurable_sum _ fun c hc => ?_) measurable_const
        exact ((hN.meas a ha c (Finset.mem_range.1 hc)).comp measurable_fst).mul ((hN.meas a ha c (Finset.mem_range.1 hc)).comp measurable_fst)
      · exact (measurable_out2 hR o hfm (measurableSet_toMeasurable _ _)).compl
    · by_cases hz : d.bStd = none ∧ ∑ c ∈ Finset.range N.channels, f θ c * f θ c = 0
      · exact .of_forall fun _ => .inl hz
      · have hpos : 0 < ∑ k, denseVar d N.channels k * (denseIn d N.channels (f θ) k * denseIn d N.channels (f θ) k) := by
          rw [rowCov_dense d hd.param hN.pos hd.sample]
          have h0 : 0 ≤ ∑ c ∈ Finset.range N.channels, f θ c * f θ c := Finset.sum_nonneg fun c _ => mul_self_nonneg _
          have hn : (0 : ℝ) < N.channels := by exact_mod_cast hN.pos
          have hw : 0 < d.wStd ^ 2 := by have := hv.weight; positivity
          rcases hb : d.bStd with _ | b
          · have hs : 0 < ∑ c ∈ Finset.range N.channels, f θ c * f θ c := h0.lt_of_ne fun e => hz ⟨hb, e.symm⟩
            have : 0 ≤ bVar d := sq_nonneg _
            positivity
          · have hb0 := hv.bias b hb
            have : 0 < bVar d := by rw [bVar, hb, Option.getD_some]; positivity
            positivity
        filter_upwards [hR.null o _ hpos hD0] with w hw using .inr hw
  have hloc : ∀ᵐ y ∂N.law.prod ν, ∀ c < N.channels, val B A N a c y.1 = 0 → ∀ᶠ θ' in 𝓝 y.1, val B A N a c θ' = 0 := by
    refine (Measure.quasiMeasurePreserving_fst (μ := N.law) (ν := ν)).ae
      (p := fun θ => ∀ c < N.channels, val B A N a c θ = 0 → ∀ᶠ θ' in 𝓝 θ, val B A N a c θ' = 0) ?_
    refine ae_all_iff.2 fun c => ?_
    by_cases hc : c < N.channels
    · filter_upwards [hL a ha c hc] with θ h _ using h
    · exact .of_forall fun θ h => absurd h hc
  refine ae_ext N.law ν ?_
  filter_upwards [key, hloc] with y h1 h2
  rcases h1 with ⟨hb, h1⟩ | h1
  · refine .inl ?_
    have hz : ∀ c < N.channels, val B A N a c y.1 = 0 := fun c hc =>
      mul_self_eq_zero.1 ((Finset.sum_eq_zero_iff_of_nonneg fun c _ => mul_self_nonneg _).1 h1 c (Finset.mem_range.2 hc))
    have ev : ∀ᶠ θ' in 𝓝 y.1, ∀ c ∈ Finset.range N.channels, val B A N a c θ' = 0 :=
      (Filter.eventually_all_finset _).2 fun c hc => h2 c (Finset.mem_range.1 hc) (hz c (Finset.mem_range.1 hc))
    have ct : ContinuousAt (fun x : (N.dense d r A).E => x.fst) (WithLp.toLp 2 y) := (WithLp.continuous_fst 2 _ _).continuousAt
    filter_upwards [ct.eventually ev] with x hx
    rw [val_rows hN hne hB hd ha o x, rowOut]
    refine Finset.sum_eq_zero fun k _ => ?_
    rcases k with c | _
    · rw [denseIn, hx c (Finset.mem_range.2 c.2), mul_zero, mul_zero]
    · have : nBias d = 0 := by simp [nBias, hb]
      simp [pick, denseIdx, this]
  · refine .inr fun hm => h1 (subset_toMeasurable _ _ ?_)
    rw [val_rows hN hne hB hd ha o (WithLp.toLp 2 y)] at hm
    exact hm

lemma loc_dense {N : RandomNet} (hN : Good B A C r N) (hL : Loc B A C r N) (hne : B ≠ A) (hB : B < r) {d : Dense} (hd : DenseOk A r d) (hv : Alive d) :
    Loc B A C r (N.dense d r A) := by
  intro a ha c hc
  filter_upwards [dense_avoid hN hL hne hB hd hv ha ⟨c, hc⟩ (D := {0}) (by simp)] with x hx h0
  rcases hx with hx | hx
  · exact hx
  · exact absurd h0 hx

/-- Zeros of the nonlinearity with other values nearby are rare. -/
def RareZeros (φ : ℝ → ℝ) : Prop := volume {x | φ x = 0 ∧ ¬ ∀ᶠ y in 𝓝 x, φ y = 0} = 0

lemma loc_act {N : RandomNet} (hN : Good B A C r N) (hL : Loc B A C r N) (hD : Diff B A C r N) (hne : B ≠ A) (hB : B < r) {d : Dense} (hd : DenseOk A r d)
    (hv : Alive d) {φ : ℝ → ℝ} (hφ : RareZeros φ) : Loc B A C r ((N.dense d r A).act φ) := by
  intro a ha c hc
  filter_upwards [dense_avoid hN hL hne hB hd hv ha ⟨c, hc⟩ hφ, (diff_dense hN hD hne hB hd).diff a ha c hc] with x hx hd h0
  have h0' : φ (val B A (N.dense d r A) a c x) = 0 := h0
  rcases hx with hx | hx
  · have : val B A (N.dense d r A) a c x = 0 := hx.self_of_nhds
    rw [this] at h0'
    filter_upwards [hx] with y hy
    exact (congrArg φ hy).trans h0'
  · have hx' : ∀ᶠ y in 𝓝 (val B A (N.dense d r A) a c x), φ y = 0 := by
      by_contra hcon
      exact hx ⟨h0', hcon⟩
    exact (DifferentiableAt.continuousAt hd).eventually hx'

/-- The chain rule for functions that are differentiable almost everywhere. -/
lemma chains_ae {N : RandomNet} (hN : Good B A C r N) (hL : Loc B A C r N) (hD : Diff B A C r N) (hne : B ≠ A) (hB : B < r) {d : Dense} (hd : DenseOk A r d)
    (hv : Alive d) {φ dφ : ℝ → ℝ} (h : volume {x | ¬ HasDerivAt φ (dφ x) x} = 0) : Chains B A C r (N.dense d r A) φ dφ := by
  intro a ha c hc
  filter_upwards [dense_avoid hN hL hne hB hd hv ha ⟨c, hc⟩ h, (diff_dense hN hD hne hB hd).diff a ha c hc] with θ hx hθ
  rcases hx with hx | hx
  · have g0 : HasGradientAt (val B A (N.dense d r A) a c) 0 θ := (hasGradientAt_const θ (0 : ℝ)).congr_of_eventuallyEq hx
    rw [g0.gradient, smul_zero]
    refine (hasGradientAt_const θ (φ 0)).congr_of_eventuallyEq ?_
    filter_upwards [hx] with y hy
    exact congrArg φ hy
  · have hx' : HasDerivAt φ (dφ (val B A (N.dense d r A) a c θ)) (val B A (N.dense d r A) a c θ) := by
      by_contra hcon
      exact hx hcon
    have := DifferentiableAt.hasGradientAt hθ
    rw [hasGradientAt_iff_hasFDerivAt] at this ⊢
    refine (hx'.comp_hasFDerivAt θ this).congr_fderiv ?_
    simp

end NT.Wide
