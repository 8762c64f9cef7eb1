import Verif.Tac
import Verif.Lemmas.WideNtk
import Verif.Lemmas.WideNet
import Verif.Lemmas.RandomLinear2

/-!
# Tangent kernels of random networks
-/

set_option linter.unusedSectionVars false

namespace NT.Wide
open NT Gauss Spec MeasureTheory ProbabilityTheory C52

/-- The tangent kernel between channels `c` and `c'`. -/
noncomputable def jac (B A : ℕ) (N : RandomNet) (a b : Pt) (c c' : ℕ) (θ : N.E) : ℝ :=
  inner ℝ (gradient (val B A N a c) θ) (gradient (val B A N b c') θ)

/-- The outputs are differentiable almost everywhere. -/
structure Diff (B A C r : ℕ) (N : RandomNet) : Prop where
  diff : ∀ a : Pt, a.Valid B A C r → ∀ c < N.channels, ∀ᵐ θ ∂N.law, DifferentiableAt ℝ (val B A N a c) θ
  meas : ∀ a b : Pt, a.Valid B A C r → b.Valid B A C r → ∀ c < N.channels, ∀ c' < N.channels, AEMeasurable (jac B A N a b c c') N.law

variable {B A C r : ℕ}

lemma jac_input (a b : Pt) (c c' : ℕ) (θ : (RandomNet.input C).E) : jac B A (RandomNet.input C) a b c c' θ = 0 := by
  have h : gradient (val B A (RandomNet.input C) a c) θ = 0 := by
    show gradient (fun _ : (RandomNet.input C).E => a.x.get (actIdx B A a.i c a.p)) θ = 0
    exact gradient_const θ _
  rw [jac, h, inner_zero_left]

lemma diff_input : Diff B A C r (RandomNet.input C) where
  diff a _ c _ := .of_forall fun θ => differentiableAt_const (c := a.x.get (actIdx B A a.i c a.p))
  meas a b _ _ c _ c' _ := by
    have : jac B A (RandomNet.input C) a b c c' = fun _ => 0 := funext fun θ => jac_input a b c c' θ
    rw [this]
    exact aemeasurable_const

section Dense

variable {E : Type} [NormedAddCommGroup E] [InnerProductSpace ℝ E] [CompleteSpace E] [MeasurableSpace E]

lemma gradient_coef (d : Dense) {C D W : ℕ} (o : ℕ) (f : ℕ → E → ℝ) (θ : E) (hf : ∀ c < C, DifferentiableAt ℝ (f c) θ) :
    ∀ k : Idx C D W, DifferentiableAt ℝ (coef d o f k) θ ∧ gradient (coef d o f k) θ =
      k.elim (fun x => if (x.2 : ℕ) = o then d.gain C • gradient (f x.1) θ else 0) fun _ => 0
  | .inl (c, o') => by
    by_cases e : (o' : ℕ) = o
    · have h : coef (C := C) (B := W) d o f (.inl (c, o')) = fun θ => d.gain C * f c θ := by
        funext θ; simp [coef, e]
      have hd : HasGradientAt (fun θ => d.gain C * f c θ) (d.gain C • gradient (f c) θ) θ := by
        have := (hf c c.2).hasGradientAt
        rw [hasGradientAt_iff_hasFDerivAt] at this ⊢
        refine (this.const_mul (d.gain C)).congr_fderiv ?_
        simp
      rw [h]
      refine ⟨hd.differentiableAt, ?_⟩
      rw [hd.gradient]
      simp [e]
    · have h : coef (C := C) (B := W) d o f (.inl (c, o')) = fun _ => 0 := by
        funext θ; simp [coef, e]
      rw [h]
      refine ⟨differentiableAt_const _, (gradient_const θ (0 : ℝ)).trans ?_⟩
      simp [e]
  | .inr o' => by
    have h : coef (C := C) (D := D) (B := W) d o f (.inr o') = fun _ => if (o' : ℕ) = o then d.biasGain else 0 := rfl
    rw [h]
    exact ⟨differentiableAt_const _, gradient_const _ _⟩

/-- The tangent kernel of the previous layers, as seen by the coefficients of an output. -/
noncomputable def prevJac (d : Dense) (C : ℕ) (J : ℕ → ℕ → ℝ) : Fin C ⊕ Unit → Fin C ⊕ Unit → ℝ
  | .inl c, .inl c' => d.gain C ^ 2 * J c c'
  | _, _ => 0

/-- The inner product of the inputs of the layer. -/
noncomputable def ownJac (d : Dense) (C : ℕ) (f g : ℕ → ℝ) : ℝ :=
  d.gain C ^ 2 * (∑ c ∈ Finset.range C, f c * g c) + if d.bStd.isSome then d.biasGain ^ 2 else 0

/-- The tangent kernel of a `Dense` layer. -/
lemma jac_linOut (d : Dense) {C : ℕ} (o o' : Fin d.width) (f g : ℕ → E → ℝ) (x : Ext E (Idx C d.width (nBias d)))
    (hf : ∀ c < C, DifferentiableAt ℝ (f c) x.fst) (hg : ∀ c < C, DifferentiableAt ℝ (g c) x.fst) :
    DifferentiableAt ℝ (linOut (coef d o f)) x ∧
    inner ℝ (gradient (linOut (coef d o f)) x) (gradient (linOut (coef d o' g)) x) =
      ntkOut (pick (denseIdx d (C := C))) (ownJac d C (fun c => f c x.fst) fun c => g c x.fst)
        (prevJac d C fun c c' => inner ℝ (gradient (f c) x.fst) (gradient (g c') x.fst)) o o' x.snd := by
  have h1 := linOut_hasGradientAt (coef (C := C) (D := d.width) (B := nBias d) d o f) x.fst x.snd fun k => (gradient_coef d o f x.fst hf k).1
  have h2 := linOut_hasGradientAt (coef (C := C) (D := d.width) (B := nBias d) d o' g) x.fst x.snd fun k => (gradient_coef d o' g x.fst hg k).1
  have hx : (WithLp.toLp 2 (x.fst, x.snd) : Ext E (Idx C d.width (nBias d))) = x := rfl
  rw [hx] at h1 h2
  refine ⟨h1.differentiableAt, ?_⟩
  have s : ∀ (o : Fin d.width) (f : ℕ → E → ℝ), (∀ c < C, DifferentiableAt ℝ (f c) x.fst) →
      ∑ k : Idx C d.width (nBias d), x.snd k • gradient (coef d o f k) x.fst = ∑ c : Fin C, (x.snd (.inl (c, o)) * d.gain C) • gradient (f c) x.fst := by
    intro o f hf
    rw [Fintype.sum_sum_type, Fintype.sum_prod_type]
    have z : ∑ b : Fin (nBias d), x.snd (.inr b) • gradient (coef (C := C) (D := d.width) d o f (.inr b)) x.fst = 0 :=
      Finset.sum_eq_zero fun b _ => by rw [(gradient_coef d o f x.fst hf (.inr b)).2]; simp
    rw [z, add_zero]
    refine Finset.sum_congr rfl fun c _ => ?_
    rw [Finset.sum_eq_single o]
    · rw [(gradient_coef d o f x.fst hf (.inl (c, o))).2]
      simp [smul_smul]
    · intro o' _ ho
      rw [(gradient_coef d o f x.fst hf (.inl (c, o'))).2]
      simp [Fin.val_inj, ho]
    · simp
  rw [h1.gradient, h2.gradient, WithLp.prod_inner_apply, s o f hf, s o' g hg, ntkOut]
  congr 1
  · rw [sum_inner, quad, Fintype.sum_sum_type]
    have z : ∑ u : Unit, ∑ l, pick (denseIdx d (C := C)) o (.inr u) x.snd * pick (denseIdx d) o' l x.snd *
        prevJac d C (fun c c' => inner ℝ (gradient (f c) x.fst) (gradient (g c') x.fst)) (.inr u) l = 0 :=
      Finset.sum_eq_zero fun u _ => Finset.sum_eq_zero fun l _ => by simp [prevJac]
    rw [z, add_zero]
    refine Finset.sum_congr rfl fun c _ => ?_
    rw [inner_sum, Fintype.sum_sum_type]
    have z : ∑ u : Unit, pick (denseIdx d (C := C)) o (.inl c) x.snd * pick (denseIdx d) o' (.inr u) x.snd *
        prevJac d C (fun c c' => inner ℝ (gradient (f c) x.fst) (gradient (g c') x.fst)) (.inl c) (.inr u) = 0 :=
      Finset.sum_eq_zero fun u _ => by simp [prevJac]
    rw [z, add_zero]
    refine Finset.sum_congr rfl fun c' _ => ?_
    rw [real_inner_smul_left, real_inner_smul_right]
    simp only [pick, denseIdx, Option.elim, prevJac]
    ring
  · rw [EuclideanSpace.inner_eq_star_dotProduct]
    simp only [dotProduct]
    rw [Fintype.sum_sum_type, Fintype.sum_prod_type]
    simp only [star_trivial, coef]
    by_cases ho : o = o'
    · subst ho
      rw [if_pos rfl, ownJac]
      congr 1
      · rw [Finset.sum_range, Finset.mul_sum]
        refine Finset.sum_congr rfl fun c _ => ?_
        rw [Finset.sum_eq_single o]
        · rw [if_pos rfl, if_pos rfl]; ring
        · intro o' _ h
          rw [if_neg (by simpa [Fin.val_inj] using h), zero_mul]
        · simp
      · rcases hb : d.bStd with _ | b
        · have : nBias d = 0 := by simp [nBias, hb]
          simp only [Option.isSome_none, Bool.false_eq_true, if_false]
          refine Finset.sum_eq_zero fun u _ => absurd u.2 (by omega)
        · have hn : (o : ℕ) < nBias d := by simp [nBias, hb]
          simp only [Option.isSome_some, if_true]
          rw [Finset.sum_eq_single ⟨o, hn⟩]
          · rw [if_pos rfl]; ring
          · intro u _ h
            rw [if_neg (fun e => h (Fin.ext e)), zero_mul]
          · simp
    · rw [if_neg ho]
      have hne : (o : ℕ) ≠ o' := fun e => ho (Fin.ext e)
      have z : ∀ (n : ℕ) (u v : ℝ), (if n = (o' : ℕ) then u else 0) * (if n = (o : ℕ) then v else 0) = 0 := by
        intro n u v
        by_cases h : n = (o' : ℕ)
        · rw [if_neg (c := n = (o : ℕ)) (fun e => hne (e.symm.trans h)), mul_zero]
        · rw [if_neg h, zero_mul]
      simp only [z, Finset.sum_const_zero, add_zero]

end Dense

/-- The network before the last layer: tangent kernels. -/
noncomputable def prevOf (d : Dense) (B A : ℕ) (N : RandomNet) (a b : Pt) (θ : N.E) : Fin N.channels ⊕ Unit → Fin N.channels ⊕ Unit → ℝ :=
  prevJac d N.channels fun c c' => jac B A N a b c c' θ

/-- The network before the last layer: inner products of the outputs. -/
noncomputable def ownOf (d : Dense) (B A : ℕ) (N : RandomNet) (a b : Pt) (θ : N.E) : ℝ :=
  ownJac d N.channels (fun c => val B A N a c θ) fun c => val B A N b c θ

lemma jac_dense {N : RandomNet} (hN : Good B A C r N) (hD : Diff B A C r N) (hne : B ≠ A) (hB : B < r) {d : Dense} (hd : DenseOk A r d) {a b : Pt}
    (ha : a.Valid B A C r) (hb : b.Valid B A C r) (o o' : Fin d.width) :
    (∀ᵐ x ∂(N.dense d r A).law, DifferentiableAt ℝ (val B A (N.dense d r A) a o) x) ∧
    ∀ᵐ x ∂N.law.prod (normalVector (initVar d)), jac B A (N.dense d r A) a b o o' (WithLp.toLp 2 x) =
      ntkOut (pick (denseIdx d (C := N.channels))) (ownOf d B A N a b x.1) (prevOf d B A N a b x.1) o o' x.2 := by
  have e : ∀ {a : Pt}, a.Valid B A C r → ∀ o : Fin d.width, val B A (N.dense d r A) a o = linOut (coef d o fun c => val B A N a c) :=
    fun ha o => funext fun θ => val_dense hN hne hB hd ha o θ
  have hd2 : ∀ᵐ y ∂(N.law.prod (normalVector (initVar (C := N.channels) (D := d.width) (B := nBias d) d))),
      (∀ c, c < N.channels → DifferentiableAt ℝ (val B A N a c) y.1) ∧ ∀ c, c < N.channels → DifferentiableAt ℝ (val B A N b c) y.1 := by
    refine (Measure.quasiMeasurePreserving_fst (μ := N.law) (ν := normalVector (initVar (C := N.channels) (D := d.width) (B := nBias d) d))).ae
      (p := fun θ => (∀ c, c < N.channels → DifferentiableAt ℝ (val B A N a c) θ) ∧ ∀ c, c < N.channels → DifferentiableAt ℝ (val B A N b c) θ) ?_
    refine (ae_all_iff.2 fun c => ?_).and (ae_all_iff.2 fun c => ?_)
    · by_cases hc : c < N.channels
      · filter_upwards [hD.diff a ha c hc] with θ h _ using h
      · exact .of_forall fun θ h => absurd h hc
    · by_cases hc : c < N.channels
      · filter_upwards [hD.diff b hb c hc] with θ h _ using h
      · exact .of_forall fun θ h => absurd h hc
  constructor
  · rw [e ha o]
    refine ae_ext N.law _ ?_
    filter_upwards [hd2] with y hy
    exact (jac_linOut d o o' _ _ (WithLp.toLp 2 y) hy.1 hy.2).1
  · filter_upwards [hd2] with y hy
    have := (jac_linOut d o o' _ _ (WithLp.toLp 2 y) hy.1 hy.2).2
    unfold jac
    rw [e ha o, e hb o']
    exact this

lemma aemeasurable_prevOf {N : RandomNet} (hD : Diff B A C r N) {d : Dense} {a b : Pt} (ha : a.Valid B A C r) (hb : b.Valid B A C r)
    (k l : Fin N.channels ⊕ Unit) : AEMeasurable (fun θ => prevOf d B A N a b θ k l) N.law := by
  rcases k with c | _ <;> rcases l with c' | _
  · exact (hD.meas a b ha hb c c.2 c' c'.2).const_mul _
  · exact aemeasurable_const
  · exact aemeasurable_const
  · exact aemeasurable_const

lemma measurable_ownOf {N : RandomNet} (hN : Good B A C r N) {d : Dense} {a b : Pt} (ha : a.Valid B A C r) (hb : b.Valid B A C r) :
    Measurable (ownOf d B A N a b) := by
  unfold ownOf ownJac
  refine Measurable.add_const (Measurable.const_mul (Finset.measurable_sum _ fun c hc => ?_) _) _
  exact (hN.meas a ha c (Finset.mem_range.1 hc)).mul (hN.meas b hb c (Finset.mem_range.1 hc))

/-- A measurable version of the tangent kernels. -/
lemma exists_prev {N : RandomNet} (hD : Diff B A C r N) (d : Dense) {a b : Pt} (ha : a.Valid B A C r) (hb : b.Valid B A C r) :
    ∃ P : N.E → Fin N.channels ⊕ Unit → Fin N.channels ⊕ Unit → ℝ, (∀ k l, Measurable fun θ => P θ k l) ∧ ∀ᵐ θ ∂N.law, prevOf d B A N a b θ = P θ := by
  refine ⟨fun θ k l => (aemeasurable_prevOf hD (d := d) ha hb k l).mk _ θ, fun k l => (aemeasurable_prevOf hD (d := d) ha hb k l).measurable_mk, ?_⟩
  have : ∀ᵐ θ ∂N.law, ∀ k l, prevOf d B A N a b θ k l = (aemeasurable_prevOf hD (d := d) ha hb k l).mk _ θ :=
    ae_all_iff.2 fun k => ae_all_iff.2 fun l => (aemeasurable_prevOf hD (d := d) ha hb k l).ae_eq_mk
  filter_upwards [this] with θ h
  exact funext fun k => funext fun l => h k l

lemma diff_dense {N : RandomNet} (hN : Good B A C r N) (hD : Diff B A C r N) (hne : B ≠ A) (hB : B < r) {d : Dense} (hd : DenseOk A r d) :
    Diff B A C r (N.dense d r A) where
  diff a ha c hc := (jac_dense hN hD hne hB hd ha ha ⟨c, hc⟩ ⟨c, hc⟩).1
  meas a b ha hb c hc c' hc' := by
    have h := (jac_dense hN hD hne hB hd ha hb ⟨c, hc⟩ ⟨c', hc'⟩).2
    obtain ⟨P, hP, he⟩ := exists_prev hD d ha hb
    have he' := (Measure.quasiMeasurePreserving_fst (μ := N.law) (ν := normalVector (initVar (C := N.channels) (D := d.width) (B := nBias d) d))).ae he
    have hm := measurable_ntkOut (dense_rows d (C := N.channels)) (measurable_ownOf hN (d := d) ha hb) hP ⟨c, hc⟩ ⟨c', hc'⟩
    refine ⟨fun x => ntkOut (pick (denseIdx d (C := N.channels))) (ownOf d B A N a b x.fst) (P x.fst) ⟨c, hc⟩ ⟨c', hc'⟩ x.snd, ?_, ?_⟩
    · exact hm.comp (WithLp.measurable_ofLp 2 _)
    · refine ae_ext N.law _ ?_
      filter_upwards [h, he'] with y h1 h2
      rw [h2] at h1
      exact h1

/-- The chain rule holds almost everywhere. -/
def Chains (B A C r : ℕ) (N : RandomNet) (φ dφ : ℝ → ℝ) : Prop :=
  ∀ a : Pt, a.Valid B A C r → ∀ c < N.channels, ∀ᵐ θ ∂N.law,
    HasGradientAt (fun θ => φ (val B A N a c θ)) (dφ (val B A N a c θ) • gradient (val B A N a c) θ) θ

lemma jac_act {N : RandomNet} {φ dφ : ℝ → ℝ} (hc : Chains B A C r N φ dφ) {a b : Pt} (ha : a.Valid B A C r) (hb : b.Valid B A C r)
    {c c' : ℕ} (h : c < N.channels) (h' : c' < N.channels) :
    ∀ᵐ θ ∂N.law, jac B A (N.act φ) a b c c' θ = dφ (val B A N a c θ) * dφ (val B A N b c' θ) * jac B A N a b c c' θ := by
  filter_upwards [hc a ha c h, hc b hb c' h'] with θ h1 h2
  have h1' := HasGradientAt.gradient h1
  have h2' := HasGradientAt.gradient h2
  have e : jac B A (N.act φ) a b c c' θ = inner ℝ (gradient (fun θ => φ (val B A N a c θ)) θ) (gradient (fun θ => φ (val B A N b c' θ)) θ) := rfl
  refine e.trans ?_
  have k : ∀ (x y : N.E) (s t : ℝ), inner ℝ (s • x) (t • y) = s * t * inner ℝ x y := fun x y s t => by
    rw [real_inner_smul_left, real_inner_smul_right]; ring
  exact (congrArg₂ (inner ℝ) h1' h2').trans (k _ _ _ _)

lemma diff_act {N : RandomNet} (hN : Good B A C r N) (hD : Diff B A C r N) {φ dφ : ℝ → ℝ} (hm : Measurable dφ) (hc : Chains B A C r N φ dφ) :
    Diff B A C r (N.act φ) where
  diff a ha c h := by
    filter_upwards [hc a ha c h] with θ h1
    exact h1.differentiableAt
  meas a b ha hb c h c' h' := by
    refine AEMeasurable.congr (f := fun θ => dφ (val B A N a c θ) * dφ (val B A N b c' θ) * jac B A N a b c c' θ) ?_ ?_
    · exact ((hm.comp (hN.meas a ha c h)).mul (hm.comp (hN.meas b hb c' h'))).aemeasurable.mul (hD.meas a b ha hb c h c' h')
    · filter_upwards [jac_act hc ha hb h h'] with θ e using e.symm

/-- Smooth functions satisfy the chain rule. -/
lemma chains_smooth {N : RandomNet} (hD : Diff B A C r N) {φ dφ : ℝ → ℝ} (h : ∀ x, HasDerivAt φ (dφ x) x) : Chains B A C r N φ dφ := by
  intro a ha c hc
  filter_upwards [hD.diff a ha c hc] with θ hθ
  have := hθ.hasGradientAt
  rw [hasGradientAt_iff_hasFDerivAt] at this ⊢
  refine ((h _).comp_hasFDerivAt θ this).congr_fderiv ?_
  simp

end NT.Wide
