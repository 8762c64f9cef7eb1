import Verif.Tac
import Verif.Lemmas.WideGrad
import Verif.Lemmas.WideStep
import Verif.Spec.WideNtk

/-!
# Tangent kernels of wide random networks converge in probability
-/

set_option linter.unusedSectionVars false

namespace NT.Wide
open NT Gauss Spec MeasureTheory ProbabilityTheory C52 Topology

variable {B A C r : ℕ}

/-- The average of the tangent kernel over the channels. -/
noncomputable def meanJac (B A : ℕ) (N : RandomNet) (a b : Pt) (θ : N.E) : ℝ := (∑ c ∈ Finset.range N.channels, jac B A N a b c c θ) / N.channels

/-- The average of the squares of the tangent kernel over pairs of channels. -/
noncomputable def frobJac (B A : ℕ) (N : RandomNet) (a b : Pt) (θ : N.E) : ℝ :=
  (∑ c ∈ Finset.range N.channels, ∑ c' ∈ Finset.range N.channels, jac B A N a b c c' θ ^ 2) / (N.channels : ℝ) ^ 2

/-- The derivative of a stage. -/
def dfn (s : NtkStage) : ℝ → ℝ := s.act.elim (fun _ => 1) fun _ => s.deriv

lemma ntkAct_one {Ω ο κ : Type} [Fintype κ] [DecidableEq ο] (R : ο → κ → Ω → ℝ) (a b : κ → ℝ) (c : ℝ) (M : κ → κ → ℝ) (o o' : ο) (ω : Ω) :
    ntkAct (fun _ => 1) R a b c M o o' ω = ntkOut R c M o o' ω := by
  rw [ntkAct, one_mul, one_mul]

lemma channels_grow (N : RandomNet) (d : Dense × Option Act) : (grow r A N d).channels = d.1.width := by
  obtain ⟨d, _ | f⟩ := d <;> rfl

/-- The probability of events of the tangent kernel of the network with a further stage. -/
lemma grow_ntk_event {N : RandomNet} (hN : Good B A C r N) (hD : Diff B A C r N) (hne : B ≠ A) (hB : B < r) {d : Dense × Option Act} (hd : DenseOk A r d.1)
    {dφ : ℝ → ℝ} (hm : Measurable dφ) (hc : Chains B A C r (N.dense d.1 r A) (fn d.2) dφ) (h1 : d.2 = none → dφ = fun _ => 1)
    {a b : Pt} (ha : a.Valid B A C r) (hb : b.Valid B A C r) {P : N.E → Fin N.channels ⊕ Unit → Fin N.channels ⊕ Unit → ℝ}
    (he : ∀ᵐ θ ∂N.law, prevOf d.1 B A N a b θ = P θ)
    {S : Set (Fin d.1.width → Fin d.1.width → ℝ)} (hS : MeasurableSet S) :
    (grow r A N d).law {θ | (fun o o' : Fin d.1.width => jac B A (grow r A N d) a b o o' θ) ∈ S} =
      (N.law.prod (normalVector (initVar d.1))) {x | (fun o o' => ntkAct dφ (pick (denseIdx d.1 (C := N.channels)))
        (denseIn d.1 N.channels fun c => val B A N a c x.1) (denseIn d.1 N.channels fun c => val B A N b c x.1) (ownOf d.1 B A N a b x.1) (P x.1) o o' x.2) ∈ S} := by
  have hdd := diff_dense hN hD hne hB hd
  have he' := (Measure.quasiMeasurePreserving_fst (μ := N.law) (ν := normalVector (initVar (C := N.channels) (D := d.1.width) (B := nBias d.1) d.1))).ae he
  have hj : ∀ᵐ y ∂N.law.prod (normalVector (initVar (C := N.channels) (D := d.1.width) (B := nBias d.1) d.1)), ∀ o o' : Fin d.1.width,
      jac B A (N.dense d.1 r A) a b o o' (WithLp.toLp 2 y) = ntkOut (pick (denseIdx d.1 (C := N.channels))) (ownOf d.1 B A N a b y.1) (P y.1) o o' y.2 := by
    refine ae_all_iff.2 fun o => ae_all_iff.2 fun o' => ?_
    filter_upwards [(jac_dense hN hD hne hB hd ha hb o o').2, he'] with y h1 h2
    rw [h1, h2]
  obtain ⟨d, _ | f⟩ := d
  · have haem : AEMeasurable (fun θ (o o' : Fin d.width) => jac B A (N.dense d r A) a b o o' θ) (N.dense d r A).law :=
      aemeasurable_pi_iff.2 fun o => aemeasurable_pi_iff.2 fun o' => hdd.meas a b ha hb o o.2 o' o'.2
    refine (Measure.map_apply₀ (by fun_prop) (haem.nullMeasurable hS)).trans (measure_congr ?_)
    filter_upwards [hj] with y hy
    refine congrArg (· ∈ S) (funext fun o => funext fun o' => ?_)
    rw [h1 rfl, ntkAct_one]
    exact hy o o'
  · have hda := diff_act (good_dense hN hne hB hd) hdd hm hc
    have haem : AEMeasurable (fun θ (o o' : Fin d.width) => jac B A ((N.dense d r A).act f.fn) a b o o' θ) (N.dense d r A).law :=
      aemeasurable_pi_iff.2 fun o => aemeasurable_pi_iff.2 fun o' => hda.meas a b ha hb o o.2 o' o'.2
    refine (Measure.map_apply₀ (by fun_prop) (haem.nullMeasurable hS)).trans (measure_congr ?_)
    have hact : ∀ᵐ x ∂(N.dense d r A).law, ∀ o o' : Fin d.width, jac B A ((N.dense d r A).act f.fn) a b o o' x =
        dφ (val B A (N.dense d r A) a o x) * dφ (val B A (N.dense d r A) b o' x) * jac B A (N.dense d r A) a b o o' x :=
      ae_all_iff.2 fun o => ae_all_iff.2 fun o' => jac_act hc ha hb o.2 o'.2
    have hact' := ae_of_ae_map (μ := N.law.prod (normalVector (initVar (C := N.channels) (D := d.width) (B := nBias d) d))) (f := WithLp.toLp 2) (by fun_prop) hact
    filter_upwards [hj, hact'] with y hy hz
    refine congrArg (· ∈ S) (funext fun o => funext fun o' => ?_)
    refine (hz o o').trans ?_
    exact congrArg₂ (· * ·) (congrArg₂ (fun u v => dφ u * dφ v) (val_rows hN hne hB hd ha o (WithLp.toLp 2 y)) (val_rows hN hne hB hd hb o' (WithLp.toLp 2 y)))
      (hy o o')

/-- The weights of the terms of the tangent kernel. -/
noncomputable def gW (s : NtkStage) : ℝ := s.scale.elim (s.wStd ^ 2) id
noncomputable def gB (s : NtkStage) : ℝ := s.scale.elim ((s.bStd.getD 0) ^ 2) fun _ => if s.bStd.isSome then 1 else 0

/-- The tangent kernel after the `Dense` layer of a stage. -/
noncomputable def preT (s : NtkStage) (K T : Pt → Pt → ℝ) (a b : Pt) : ℝ := gW s * K a b + gB s + s.wStd ^ 2 * T a b

/-- One stage. -/
noncomputable def postT (s : NtkStage) (K T : Pt → Pt → ℝ) (a b : Pt) : ℝ :=
  E2 (dfn s) (dfn s) (pre s.toStage K a a, pre s.toStage K a b, pre s.toStage K b b) * preT s K T a b

/-- The limit of the covariances for stages with tangent kernel. -/
noncomputable def limK (B A C : ℕ) (l : List NtkStage) : Pt → Pt → ℝ := lim B A C (l.map NtkStage.toStage)

/-- The limit of the tangent kernel. -/
noncomputable def limT (B A C : ℕ) (l : List NtkStage) : Pt → Pt → ℝ :=
  (l.foldl (fun KT s => (post KT.1 s.toStage, postT s KT.1 KT.2))
    ((fun a b => (∑ c ∈ Finset.range C, a.x.get (actIdx B A a.i c a.p) * b.x.get (actIdx B A b.i c b.p)) / C), fun _ _ => 0)).2

lemma limKT_fst (l : List NtkStage) : (l.foldl (fun KT s => (post KT.1 s.toStage, postT s KT.1 KT.2))
    ((fun a b => (∑ c ∈ Finset.range C, a.x.get (actIdx B A a.i c a.p) * b.x.get (actIdx B A b.i c b.p)) / C), fun _ _ => (0 : ℝ))).1 = limK B A C l := by
  induction l using List.reverseRecOn with
  | nil => rfl
  | append_singleton l s ih =>
    rw [List.foldl_append, List.foldl_cons, List.foldl_nil, limK, List.map_append, List.map_singleton, lim_snoc]
    show post _ _ = _
    rw [ih]
    rfl

lemma limK_snoc (l : List NtkStage) (s : NtkStage) : limK B A C (l ++ [s]) = post (limK B A C l) s.toStage := by
  rw [limK, List.map_append, List.map_singleton, lim_snoc]
  rfl

lemma limT_snoc (l : List NtkStage) (s : NtkStage) : limT B A C (l ++ [s]) = postT s (limK B A C l) (limT B A C l) := by
  rw [limT, List.foldl_append, List.foldl_cons, List.foldl_nil]
  show postT s _ _ = _
  rw [limKT_fst]
  rfl

/-- The number of channels after the layers. -/
def chans (c : ℕ) (ds : List (Dense × Option Act)) : ℕ := ds.foldl (fun _ d => d.1.width) c

lemma draw_channels (ds : List (Dense × Option Act)) : (draw C r A ds).channels = chans C ds := by
  induction ds using List.reverseRecOn with
  | nil => rfl
  | append_singleton ds d ih =>
    rw [draw_snoc, channels_grow, chans, List.foldl_append]
    rfl

lemma scaled_snoc {ds : List (Dense × Option Act)} {d : Dense × Option Act} {gs : List (Option ℝ)} {g : Option ℝ} {c : ℕ} (h : Scaled c (ds ++ [d]) (gs ++ [g])) :
    Scaled c ds gs ∧ ParamIs (chans c ds) d.1 g := by
  induction ds generalizing gs c with
  | nil =>
    cases gs with
    | nil => exact ⟨trivial, h.1⟩
    | cons g' gs =>
      exfalso
      have := h.2
      cases gs <;> exact this
  | cons d' ds ih =>
    cases gs with
    | nil =>
      exfalso
      have := h.2
      cases ds <;> exact this
    | cons g' gs =>
      obtain ⟨h1, h2⟩ := h
      obtain ⟨h3, h4⟩ := ih h2
      exact ⟨⟨h1, h3⟩, h4⟩

lemma grad_scaled {d : Dense × Option Act} {s : NtkStage} {n c : ℕ} (hf : Stage.Fits r A n d s.toStage)
    (h : ParamIs c d.1 s.scale) : gradW d.1 c = gW s ∧ gradB d.1 = gB s := by
  rcases e : s.scale with _ | N
  · rw [e] at h
    have h' : d.1.param = .ntk := h
    simp [gradW, gradB, gW, gB, e, h', hf.wStd, hf.bStd]
  · rw [e] at h
    have h' : d.1.param = .standard := h.1
    refine ⟨?_, ?_⟩
    · rw [gradW, if_pos h', gW, e]; exact h.2
    · rw [gradB, if_pos h', gB, e, hf.bStd]; rfl

lemma gain_sq_scale {d : Dense} (hd : d.param ≠ .other) {C : ℕ} (hC : 0 < C) (hs : d.param = .standard → 0 < d.s.1) :
    d.scaleW C ^ 2 * d.gain C ^ 2 = d.wStd ^ 2 / C := by
  rw [← gain_scale hd C hC hs]

lemma wtr_dense {d : Dense} (hd : d.param ≠ .other) {C : ℕ} (hC : 0 < C) (hs : d.param = .standard → 0 < d.s.1) (J : ℕ → ℕ → ℝ) :
    wtr (denseVar d C) (prevJac d C J) = d.wStd ^ 2 * ((∑ c ∈ Finset.range C, J c c) / C) := by
  rw [wtr, Fintype.sum_sum_type]
  simp only [denseVar, prevJac, mul_zero, Finset.sum_const_zero, add_zero]
  rw [mul_div_assoc', mul_div_right_comm, ← gain_sq_scale hd hC hs, Finset.sum_range, Finset.mul_sum]
  exact Finset.sum_congr rfl fun c _ => by ring

lemma frob_dense {d : Dense} (hd : d.param ≠ .other) {C : ℕ} (hC : 0 < C) (hs : d.param = .standard → 0 < d.s.1) (J : ℕ → ℕ → ℝ) :
    frob (denseVar d C) (prevJac d C J) = d.wStd ^ 4 * ((∑ c ∈ Finset.range C, ∑ c' ∈ Finset.range C, J c c' ^ 2) / (C : ℝ) ^ 2) := by
  rw [frob, Fintype.sum_sum_type]
  have z : ∑ u : Unit, ∑ l, denseVar d C (.inr u) * denseVar d C l * prevJac d C J (.inr u) l ^ 2 = 0 :=
    Finset.sum_eq_zero fun u _ => Finset.sum_eq_zero fun l _ => by simp [prevJac]
  rw [z, add_zero, Finset.sum_range]
  have e : d.wStd ^ 4 * ((∑ c : Fin C, ∑ c' ∈ Finset.range C, J c c' ^ 2) / (C : ℝ) ^ 2) =
      (d.wStd ^ 2 / C) ^ 2 * ∑ c : Fin C, ∑ c' ∈ Finset.range C, J c c' ^ 2 := by ring
  rw [e, ← gain_sq_scale hd hC hs, Finset.mul_sum]
  refine Finset.sum_congr rfl fun c _ => ?_
  rw [Fintype.sum_sum_type]
  have z : ∑ u : Unit, denseVar d C (.inl c) * denseVar d C (.inr u) * prevJac d C J (.inl c) (.inr u) ^ 2 = 0 :=
    Finset.sum_eq_zero fun u _ => by simp [prevJac]
  rw [z, add_zero, Finset.sum_range, Finset.mul_sum]
  refine Finset.sum_congr rfl fun c' _ => ?_
  simp only [denseVar, prevJac]
  ring

lemma own_dense (d : Dense) {C : ℕ} (hC : 0 < C) (hs : d.param = .standard → 0 < d.s.1) (f g : ℕ → ℝ) :
    ownJac d C f g = gradW d C * ((∑ c ∈ Finset.range C, f c * g c) / C) + gradB d := by
  have hC' : (0 : ℝ) < C := by exact_mod_cast hC
  rw [ownJac]
  congr 1
  · rw [mul_div_assoc', mul_div_right_comm]
    congr 1
    unfold Dense.gain gradW
    split_ifs with h
    · have : (0 : ℝ) < d.s.1 := by exact_mod_cast hs h
      rw [div_pow, one_pow, Real.sq_sqrt this.le]
      field_simp
    · rw [div_pow, Real.sq_sqrt hC'.le]
  · unfold Dense.biasGain gradB
    rcases d.bStd with _ | b
    · simp
    · simp only [Option.isSome_some, if_true, Option.getD_some]
      split_ifs <;> simp

/-- Regularity of a stage. -/
structure Tangent (s : NtkStage) : Prop where
  smooth : Smooth s.toStage
  meas : Measurable (dfn s)
  bound : ∃ M, ∀ x, |dfn s x| ≤ M

/-- The covariances before the nonlinearity are close to their limits. -/
lemma bad_cov (hC : 0 < C) (hne : B ≠ A) (hB : B < r) (l : List NtkStage) (hl : ∀ s ∈ l, Tangent s) (s : NtkStage) {a b : Pt} (ha : a.Valid B A C r)
    (hb : b.Valid B A C r) {η δ : ℝ} (hη : 0 < η) (hδ : 0 < δ) : ∃ n0, ∀ ds d, List.Forall₂ (fun d s => Stage.Fits r A n0 d s) ds (l.map NtkStage.toStage) →
      Stage.Fits r A n0 d s.toStage → 0 < n0 ∧ (draw C r A ds).law {θ | η ≤ dist (rowCov (denseVar d.1 (draw C r A ds).channels)
        (denseIn d.1 (draw C r A ds).channels fun c => val B A (draw C r A ds) a c θ) (denseIn d.1 (draw C r A ds).channels fun c => val B A (draw C r A ds) b c θ))
        (pre s.toStage (limK B A C l) a a, pre s.toStage (limK B A C l) a b, pre s.toStage (limK B A C l) b b)} ≤ ENNReal.ofReal δ := by
  have hl' : ∀ t ∈ l.map NtkStage.toStage, Smooth t := by
    intro t ht
    obtain ⟨t, hmem, rfl⟩ := List.mem_map.1 ht
    exact (hl t hmem).smooth
  have hw : 0 < s.wStd ^ 2 + 1 := by positivity
  have hη' : 0 < η / (s.wStd ^ 2 + 1) := by positivity
  obtain ⟨n1, h1⟩ := tends hC hne hB _ hl' ha ha hη' (show 0 < δ / 3 by positivity)
  obtain ⟨n2, h2⟩ := tends hC hne hB _ hl' ha hb hη' (show 0 < δ / 3 by positivity)
  obtain ⟨n3, h3⟩ := tends hC hne hB _ hl' hb hb hη' (show 0 < δ / 3 by positivity)
  refine ⟨max 1 (max n1 (max n2 n3)), fun ds d hds hd => ⟨by simp, ?_⟩⟩
  have hm : ∀ m, m ≤ max 1 (max n1 (max n2 n3)) → List.Forall₂ (fun d s => Stage.Fits r A m d s) ds (l.map NtkStage.toStage) :=
    fun m hm => hds.imp fun d s hf => Fits.mono hm hf
  have hok := Fits.ok (n := 1) one_pos (Fits.mono (by simp) hd)
  have hN := good_draw hC hne hB _ hl' one_pos (hm 1 (by simp))
  have tr : ∀ {a b : Pt}, a.Valid B A C r → b.Valid B A C r → ∀ n, n ≤ max 1 (max n1 (max n2 n3)) →
      (∀ ds, List.Forall₂ (fun d s => Stage.Fits r A n d s) ds (l.map NtkStage.toStage) → (draw C r A ds).law {θ | η / (s.wStd ^ 2 + 1) ≤
        |emp B A (draw C r A ds) a b θ - lim B A C (l.map NtkStage.toStage) a b|} ≤ ENNReal.ofReal (δ / 3)) →
      (draw C r A ds).law {θ | η ≤ |∑ k, denseVar d.1 (draw C r A ds).channels k * (denseIn d.1 _ (fun c => val B A (draw C r A ds) a c θ) k *
        denseIn d.1 _ (fun c => val B A (draw C r A ds) b c θ) k) - pre s.toStage (limK B A C l) a b|} ≤ ENNReal.ofReal (δ / 3) := by
    intro a b _ _ n hn hle
    refine (measure_mono fun θ hθ => ?_).trans (hle ds (hm n hn))
    simp only [Set.mem_ofPred_eq] at hθ ⊢
    rw [rowCov_dense d.1 hok.param hN.pos hok.sample, bVar, hd.wStd, hd.bStd, pre, limK] at hθ
    have e : s.wStd ^ 2 * ((∑ c ∈ Finset.range (draw C r A ds).channels, val B A (draw C r A ds) a c θ * val B A (draw C r A ds) b c θ) /
        (draw C r A ds).channels) + s.bStd.getD 0 ^ 2 - (s.wStd ^ 2 * lim B A C (l.map NtkStage.toStage) a b + s.bStd.getD 0 ^ 2) =
        s.wStd ^ 2 * (emp B A (draw C r A ds) a b θ - lim B A C (l.map NtkStage.toStage) a b) := by
      unfold emp
      ring
    rw [e, abs_mul, abs_of_nonneg (sq_nonneg _)] at hθ
    rw [div_le_iff₀ hw]
    nlinarith [abs_nonneg (emp B A (draw C r A ds) a b θ - lim B A C (l.map NtkStage.toStage) a b)]
  have t1 := tr ha ha n1 (by simp) h1
  have t2 := tr ha hb n2 (by simp) h2
  have t3 := tr hb hb n3 (by simp) h3
  refine (dist_event _ _ _ η).trans ((add_le_add t1 (add_le_add t2 t3)).trans ?_)
  rw [← ENNReal.ofReal_add (by positivity) (by positivity), ← ENNReal.ofReal_add (by positivity) (by positivity)]
  exact ENNReal.ofReal_le_ofReal (by linarith)

/-- The tangent kernel of the previous layers is close to its limit, as seen by the next `Dense` layer. -/
lemma bad_tangent (hC : 0 < C) (hne : B ≠ A) (hB : B < r) (l : List NtkStage) (hl : ∀ s ∈ l, Tangent s) (s : NtkStage) {a b : Pt} (ha : a.Valid B A C r)
    (hb : b.Valid B A C r)
    (ih : ∀ {ε δ : ℝ}, 0 < ε → 0 < δ → ∃ n0, ∀ ds, List.Forall₂ (fun d s => Stage.Fits r A n0 d s) ds (l.map NtkStage.toStage) → Scaled C ds (l.map (·.scale)) →
      (draw C r A ds).law {θ | ε ≤ |meanJac B A (draw C r A ds) a b θ - limT B A C l a b|} ≤ ENNReal.ofReal δ ∧
      (draw C r A ds).law {θ | ε ≤ frobJac B A (draw C r A ds) a b θ} ≤ ENNReal.ofReal δ)
    {η δ : ℝ} (hη : 0 < η) (hδ : 0 < δ) : ∃ n0, ∀ ds d, List.Forall₂ (fun d s => Stage.Fits r A n0 d s) ds (l.map NtkStage.toStage) → Scaled C ds (l.map (·.scale)) →
      Stage.Fits r A 1 d s.toStage → ParamIs (chans C ds) d.1 s.scale → 0 < n0 ∧
      (draw C r A ds).law {θ | η ≤ |wtr (denseVar d.1 (draw C r A ds).channels) (prevOf d.1 B A (draw C r A ds) a b θ) + ownOf d.1 B A (draw C r A ds) a b θ -
        preT s (limK B A C l) (limT B A C l) a b|} ≤ ENNReal.ofReal δ ∧
      (draw C r A ds).law {θ | η ≤ frob (denseVar d.1 (draw C r A ds).channels) (prevOf d.1 B A (draw C r A ds) a b θ)} ≤ ENNReal.ofReal δ := by
  have hl' : ∀ t ∈ l.map NtkStage.toStage, Smooth t := by
    intro t ht
    obtain ⟨t, hmem, rfl⟩ := List.mem_map.1 ht
    exact (hl t hmem).smooth
  have hw : 0 < s.wStd ^ 2 + 1 := by positivity
  have hw4 : 0 < s.wStd ^ 4 + 1 := by positivity
  have hg : 0 < |gW s| + 1 := by positivity
  obtain ⟨n1, h1⟩ := tends hC hne hB _ hl' ha hb (show 0 < η / (2 * (|gW s| + 1)) by positivity) (half_pos hδ)
  obtain ⟨n2, h2⟩ := ih (show 0 < η / (2 * (s.wStd ^ 2 + 1)) by positivity) (half_pos hδ)
  obtain ⟨n3, h3⟩ := ih (show 0 < η / (s.wStd ^ 4 + 1) by positivity) hδ
  refine ⟨max 1 (max n1 (max n2 n3)), fun ds d hds hsc hd hp => ⟨by simp, ?_⟩⟩
  have hm : ∀ m, m ≤ max 1 (max n1 (max n2 n3)) → List.Forall₂ (fun d s => Stage.Fits r A m d s) ds (l.map NtkStage.toStage) :=
    fun m hm => hds.imp fun d s hf => Fits.mono hm hf
  have hok := Fits.ok (n := 1) one_pos hd
  have hN := good_draw hC hne hB _ hl' one_pos (hm 1 (by simp))
  rw [← draw_channels (r := r) (A := A)] at hp
  obtain ⟨g1, g2⟩ := grad_scaled hd hp
  constructor
  · refine (measure_mono (t := {θ | η / (2 * (|gW s| + 1)) ≤ |emp B A (draw C r A ds) a b θ - lim B A C (l.map NtkStage.toStage) a b|} ∪
      {θ | η / (2 * (s.wStd ^ 2 + 1)) ≤ |meanJac B A (draw C r A ds) a b θ - limT B A C l a b|}) fun θ hθ => ?_).trans ((measure_union_le _ _).trans
        ((add_le_add (h1 ds (hm n1 (by simp))) (h2 ds (hm n2 (by simp)) hsc).1).trans ?_))
    · simp only [Set.mem_ofPred_eq] at hθ
      by_contra hcon
      simp only [Set.mem_union, Set.mem_ofPred_eq, not_or, not_le] at hcon
      obtain ⟨c1, c2⟩ := hcon
      rw [prevOf, wtr_dense hok.param hN.pos hok.sample, ownOf, own_dense d.1 hN.pos hok.sample, g1, g2, hd.wStd, preT, limK] at hθ
      set e1 := emp B A (draw C r A ds) a b θ - lim B A C (l.map NtkStage.toStage) a b with he1
      set e2 := meanJac B A (draw C r A ds) a b θ - limT B A C l a b with he2
      have e : s.wStd ^ 2 * ((∑ c ∈ Finset.range (draw C r A ds).channels, jac B A (draw C r A ds) a b c c θ) / (draw C r A ds).channels) +
          (gW s * ((∑ c ∈ Finset.range (draw C r A ds).channels, val B A (draw C r A ds) a c θ * val B A (draw C r A ds) b c θ) / (draw C r A ds).channels) + gB s) -
          (gW s * lim B A C (l.map NtkStage.toStage) a b + gB s + s.wStd ^ 2 * limT B A C l a b) = gW s * e1 + s.wStd ^ 2 * e2 := by
        rw [he1, he2, emp, meanJac]
        ring
      rw [e] at hθ
      have b1 : |gW s * e1| < η / 2 := by
        rw [abs_mul]
        rw [lt_div_iff₀ (by positivity)] at c1
        nlinarith [abs_nonneg e1, abs_nonneg (gW s)]
      have b2 : |s.wStd ^ 2 * e2| < η / 2 := by
        rw [abs_mul, abs_of_nonneg (sq_nonneg s.wStd)]
        rw [lt_div_iff₀ (by positivity)] at c2
        nlinarith [abs_nonneg e2, sq_nonneg s.wStd]
      linarith [abs_add_le (gW s * e1) (s.wStd ^ 2 * e2)]
    · rw [← ENNReal.ofReal_add (by positivity) (by positivity)]
      exact ENNReal.ofReal_le_ofReal (by linarith)
  · refine (measure_mono fun θ hθ => ?_).trans (h3 ds (hm n3 (by simp)) hsc).2
    simp only [Set.mem_ofPred_eq] at hθ ⊢
    rw [prevOf, frob_dense hok.param hN.pos hok.sample, hd.wStd] at hθ
    have h0 : 0 ≤ frobJac B A (draw C r A ds) a b θ := by
      unfold frobJac
      positivity
    have hθ' : η ≤ s.wStd ^ 4 * frobJac B A (draw C r A ds) a b θ := hθ
    rw [div_le_iff₀ hw4]
    nlinarith

/-- The stages up to each stage are regular. -/
def Steps (B A C r : ℕ) (a b : Pt) (l : List NtkStage) : Prop :=
  ∀ l' s, l' ++ [s] <+: l →
    ContinuousWithinAt (E2 (dfn s) (dfn s)) {q | Psd q} (pre s.toStage (limK B A C l') a a, pre s.toStage (limK B A C l') a b, pre s.toStage (limK B A C l') b b) ∧
    ∀ ds d, List.Forall₂ (fun d s => Stage.Fits r A 1 d s) ds (l'.map NtkStage.toStage) → Stage.Fits r A 1 d s.toStage →
      Diff B A C r (draw C r A ds) ∧ Chains B A C r ((draw C r A ds).dense d.1 r A) (fn s.act) (dfn s)

/-- The tangent kernel converges in probability, and its off-diagonal entries vanish on average. -/
theorem tangent_tends (hC : 0 < C) (hne : B ≠ A) (hB : B < r) (l : List NtkStage) (hl : ∀ s ∈ l, Tangent s) {a b : Pt} (ha : a.Valid B A C r) (hb : b.Valid B A C r)
    (hs : Steps B A C r a b l) {ε δ : ℝ} (hε : 0 < ε) (hδ : 0 < δ) : ∃ n0, ∀ ds, List.Forall₂ (fun d s => Stage.Fits r A n0 d s) ds (l.map NtkStage.toStage) →
      Scaled C ds (l.map (·.scale)) →
      (draw C r A ds).law {θ | ε ≤ |meanJac B A (draw C r A ds) a b θ - limT B A C l a b|} ≤ ENNReal.ofReal δ ∧
      (draw C r A ds).law {θ | ε ≤ frobJac B A (draw C r A ds) a b θ} ≤ ENNReal.ofReal δ := by
  induction l using List.reverseRecOn generalizing ε δ with
  | nil =>
    refine ⟨0, fun ds h _ => ?_⟩
    cases h
    have j : ∀ c c' θ, jac B A (draw C r A []) a b c c' θ = 0 := fun c c' θ => jac_input a b c c' θ
    constructor
    · have : {θ : (draw C r A []).E | ε ≤ |meanJac B A (draw C r A []) a b θ - limT B A C [] a b|} = ∅ := by
        refine Set.eq_empty_of_forall_notMem fun θ hθ => ?_
        have e : meanJac B A (draw C r A []) a b θ = 0 := by simp [meanJac, j]
        have e' : limT B A C [] a b = 0 := rfl
        rw [Set.mem_ofPred_eq, e, e', sub_self, abs_zero] at hθ
        exact absurd hθ (not_le.2 hε)
      rw [this]
      simp
    · have : {θ : (draw C r A []).E | ε ≤ frobJac B A (draw C r A []) a b θ} = ∅ := by
        refine Set.eq_empty_of_forall_notMem fun θ hθ => ?_
        have e : frobJac B A (draw C r A []) a b θ = 0 := by simp [frobJac, j]
        rw [Set.mem_ofPred_eq, e] at hθ
        exact absurd hθ (not_le.2 hε)
      rw [this]
      simp
  | append_singleton l s ih =>
    have hl' : ∀ t ∈ l, Tangent t := fun t ht => hl t (by simp [ht])
    have hl'' : ∀ t ∈ l.map NtkStage.toStage, Smooth t := by
      intro t ht
      obtain ⟨t, hmem, rfl⟩ := List.mem_map.1 ht
      exact (hl' t hmem).smooth
    have hst := hl s (by simp)
    obtain ⟨M, hM⟩ := hst.bound
    have hs' : Steps B A C r a b l := fun l' s' h => hs l' s' (h.trans (List.prefix_append _ _))
    obtain ⟨hcont, hreg⟩ := hs l s (List.prefix_refl _)
    set τ := preT s (limK B A C l) (limT B A C l) a b with hτ
    obtain ⟨η1, hη1, m1, k1⟩ := ntk_mean hst.meas hM hcont hε (half_pos hδ) τ
    obtain ⟨η2, hη2, m2, k2⟩ := ntk_frob hM hε (half_pos hδ) τ
    obtain ⟨n1, h1⟩ := bad_cov hC hne hB l hl' s ha hb hη1 (show 0 < δ / 6 by positivity)
    obtain ⟨n2, h2⟩ := bad_tangent hC hne hB l hl' s ha hb (ih hl' hs') hη1 (show 0 < δ / 6 by positivity)
    obtain ⟨n3, h3⟩ := bad_tangent hC hne hB l hl' s ha hb (ih hl' hs') hη2 (show 0 < δ / 6 by positivity)
    set n0 := max (max 1 (max m1 m2)) (max n1 (max n2 n3)) with hn0
    refine ⟨n0, fun ds h hsc => ?_⟩
    rw [List.map_append, List.map_singleton] at h hsc
    obtain ⟨ds, d, rfl, hds, hd⟩ := forall₂_snoc h
    obtain ⟨hsc, hp⟩ := scaled_snoc hsc
    have hm : ∀ m, m ≤ n0 → List.Forall₂ (fun d s => Stage.Fits r A m d s) ds (l.map NtkStage.toStage) :=
      fun m hm => hds.imp fun d s hf => Fits.mono hm hf
    have hd1 : Stage.Fits r A 1 d s.toStage := Fits.mono (by simp [hn0]) hd
    have hok := Fits.ok (n := 1) one_pos hd1
    have hN := good_draw hC hne hB _ hl'' one_pos (hm 1 (by simp [hn0]))
    obtain ⟨hDf, hch⟩ := hreg ds d (hm 1 (by simp [hn0])) hd1
    obtain ⟨P, hP, he⟩ := exists_prev hDf d.1 ha hb
    rw [← hd.act] at hch
    have hone : d.2 = none → dfn s = fun _ => 1 := by
      intro e
      rw [hd.act] at e
      rw [dfn, e]
      rfl
    have hcard : 0 < Fintype.card (Fin d.1.width) := by rw [Fintype.card_fin]; exact hok.wide
    have hma := measurable_denseIn d.1 _ _ fun c hc => hN.meas a ha c hc
    have hmb := measurable_denseIn d.1 _ _ fun c hc => hN.meas b hb c hc
    have hmo := measurable_ownOf hN (d := d.1) ha hb
    have hcov := (h1 ds d (hm n1 (by simp [hn0])) (Fits.mono (by simp [hn0]) hd)).2
    obtain ⟨-, u1, u2⟩ := h2 ds d (hm n2 (by simp [hn0])) hsc hd1 hp
    obtain ⟨-, w1, w2⟩ := h3 ds d (hm n3 (by simp [hn0])) hsc hd1 hp
    have tr : ∀ {Q : ℝ → ℝ → Prop} {F : (Fin (draw C r A ds).channels ⊕ Unit → Fin (draw C r A ds).channels ⊕ Unit → ℝ) → ℝ},
        (draw C r A ds).law {θ | Q (F (P θ)) (ownOf d.1 B A (draw C r A ds) a b θ)} =
        (draw C r A ds).law {θ | Q (F (prevOf d.1 B A (draw C r A ds) a b θ)) (ownOf d.1 B A (draw C r A ds) a b θ)} := by
      intro Q F
      refine measure_congr ?_
      filter_upwards [he] with θ hθ
      exact congrArg (fun x => Q (F x) _) hθ.symm
    rw [draw_snoc, limT_snoc]
    constructor
    · have ev := grow_ntk_event hN hDf hne hB hok hst.meas hch hone ha hb he
        (S := {J | ε ≤ |(∑ o, J o o) / Fintype.card (Fin d.1.width) - postT s (limK B A C l) (limT B A C l) a b|})
        (measurableSet_le measurable_const (by fun_prop))
      have e : {θ : (grow r A (draw C r A ds) d).E | ε ≤ |meanJac B A (grow r A (draw C r A ds) d) a b θ - postT s (limK B A C l) (limT B A C l) a b|} =
          {θ | (fun o o' : Fin d.1.width => jac B A (grow r A (draw C r A ds) d) a b o o' θ) ∈
            {J : Fin d.1.width → Fin d.1.width → ℝ | ε ≤ |(∑ o, J o o) / Fintype.card (Fin d.1.width) - postT s (limK B A C l) (limT B A C l) a b|}} := by
        ext θ
        simp only [Set.mem_ofPred_eq, meanJac, Fintype.card_fin, channels_grow, Finset.sum_range]
      rw [e, ev]
      refine (k1 _ _ (Fin d.1.width) _ (draw C r A ds).law (normalVector (initVar d.1)) (denseVar d.1 _) _ _ _ _ P (dense_rows d.1) hma hmb hmo hP hcard
        (by rw [Fintype.card_fin]; exact le_trans (by simp [hn0]) hd.wide)).trans ?_
      rw [tr (Q := fun x y => η1 ≤ |x + y - τ|) (F := wtr (denseVar d.1 _)), tr (Q := fun x _ => η1 ≤ x) (F := frob (denseVar d.1 _))]
      refine (add_le_add (add_le_add (add_le_add hcov u1) u2) le_rfl).trans ?_
      rw [← ENNReal.ofReal_add (by positivity) (by positivity), ← ENNReal.ofReal_add (by positivity) (by positivity),
        ← ENNReal.ofReal_add (by positivity) (by positivity)]
      exact ENNReal.ofReal_le_ofReal (by linarith)
    · have ev := grow_ntk_event hN hDf hne hB hok hst.meas hch hone ha hb he
        (S := {J | ε ≤ (∑ o, ∑ o', J o o' ^ 2) / (Fintype.card (Fin d.1.width) : ℝ) ^ 2})
        (measurableSet_le measurable_const (by fun_prop))
      have e : {θ : (grow r A (draw C r A ds) d).E | ε ≤ frobJac B A (grow r A (draw C r A ds) d) a b θ} =
          {θ | (fun o o' : Fin d.1.width => jac B A (grow r A (draw C r A ds) d) a b o o' θ) ∈
            {J : Fin d.1.width → Fin d.1.width → ℝ | ε ≤ (∑ o, ∑ o', J o o' ^ 2) / (Fintype.card (Fin d.1.width) : ℝ) ^ 2}} := by
        ext θ
        simp only [Set.mem_ofPred_eq, frobJac, Fintype.card_fin, channels_grow, Finset.sum_range]
      rw [e, ev]
      refine (k2 _ _ (Fin d.1.width) _ (draw C r A ds).law (normalVector (initVar d.1)) (denseVar d.1 _) _ _ _ _ P (dense_rows d.1) hma hmb hmo hP hcard
        (by rw [Fintype.card_fin]; exact le_trans (by simp [hn0]) hd.wide)).trans ?_
      rw [tr (Q := fun x y => η2 ≤ |x + y - τ|) (F := wtr (denseVar d.1 _)), tr (Q := fun x _ => η2 ≤ x) (F := frob (denseVar d.1 _))]
      refine (add_le_add (add_le_add w1 w2) le_rfl).trans ?_
      rw [← ENNReal.ofReal_add (by positivity) (by positivity), ← ENNReal.ofReal_add (by positivity) (by positivity)]
      exact ENNReal.ofReal_le_ofReal (by linarith)

/-- The entries of the tangent kernel of a readout of fixed width converge. -/
theorem readout_tends (hC : 0 < C) (hne : B ≠ A) (hB : B < r) (l : List NtkStage) (hl : ∀ s ∈ l, Tangent s) (s : NtkStage) (hact : s.act = none) {a b : Pt}
    (ha : a.Valid B A C r) (hb : b.Valid B A C r) (hs : Steps B A C r a b (l ++ [s])) {ε δ : ℝ} (hε : 0 < ε) (hδ : 0 < δ) :
    ∃ n0, ∀ ds d, List.Forall₂ (fun d s => Stage.Fits r A n0 d s) ds (l.map NtkStage.toStage) → Stage.Fits r A 1 d s.toStage →
      Scaled C (ds ++ [d]) ((l ++ [s]).map (·.scale)) → ∀ o o', o < d.1.width → o' < d.1.width →
      (draw C r A (ds ++ [d])).law {θ | ε ≤ |jac B A (draw C r A (ds ++ [d])) a b o o' θ - if o = o' then preT s (limK B A C l) (limT B A C l) a b else 0|} ≤
        ENNReal.ofReal δ := by
  have hl'' : ∀ t ∈ l.map NtkStage.toStage, Smooth t := by
    intro t ht
    obtain ⟨t, hmem, rfl⟩ := List.mem_map.1 ht
    exact (hl t hmem).smooth
  have hs' : Steps B A C r a b l := fun l' s' h => hs l' s' (h.trans (List.prefix_append _ _))
  obtain ⟨-, hreg⟩ := hs l s (List.prefix_refl _)
  set τ := preT s (limK B A C l) (limT B A C l) a b with hτ
  obtain ⟨η, hη, k⟩ := ntk_entry hε (half_pos hδ) τ
  obtain ⟨n1, h1⟩ := bad_tangent hC hne hB l hl s ha hb (fun hε hδ => tangent_tends hC hne hB l hl ha hb hs' hε hδ) hη (show 0 < δ / 4 by positivity)
  refine ⟨max 1 n1, fun ds d hds hd hsc o o' ho ho' => ?_⟩
  rw [List.map_append, List.map_singleton] at hsc
  obtain ⟨hsc, hp⟩ := scaled_snoc hsc
  have hm : ∀ m, m ≤ max 1 n1 → List.Forall₂ (fun d s => Stage.Fits r A m d s) ds (l.map NtkStage.toStage) :=
    fun m hm => hds.imp fun d s hf => Fits.mono hm hf
  have hok := Fits.ok (n := 1) one_pos hd
  have hN := good_draw hC hne hB _ hl'' one_pos (hm 1 (by simp))
  obtain ⟨hDf, hch⟩ := hreg ds d (hm 1 (by simp)) hd
  obtain ⟨P, hP, he⟩ := exists_prev hDf d.1 ha hb
  rw [← hd.act] at hch
  have e1 : dfn s = fun _ => 1 := by rw [dfn, hact]; rfl
  have hmo := measurable_ownOf hN (d := d.1) ha hb
  obtain ⟨-, u1, u2⟩ := h1 ds d (hm n1 (by simp)) hsc hd hp
  have tr : ∀ {Q : ℝ → ℝ → Prop} {F : (Fin (draw C r A ds).channels ⊕ Unit → Fin (draw C r A ds).channels ⊕ Unit → ℝ) → ℝ},
      (draw C r A ds).law {θ | Q (F (P θ)) (ownOf d.1 B A (draw C r A ds) a b θ)} =
      (draw C r A ds).law {θ | Q (F (prevOf d.1 B A (draw C r A ds) a b θ)) (ownOf d.1 B A (draw C r A ds) a b θ)} := by
    intro Q F
    refine measure_congr ?_
    filter_upwards [he] with θ hθ
    exact congrArg (fun x => Q (F x) _) hθ.symm
  rw [draw_snoc]
  have ev := grow_ntk_event hN hDf hne hB hok (by rw [e1]; exact measurable_const) hch (fun _ => e1) ha hb he
    (S := {J | ε ≤ |J ⟨o, ho⟩ ⟨o', ho'⟩ - if (⟨o, ho⟩ : Fin d.1.width) = ⟨o', ho'⟩ then τ else 0|}) (measurableSet_le measurable_const (by fun_prop))
  have e : {θ : (grow r A (draw C r A ds) d).E | ε ≤ |jac B A (grow r A (draw C r A ds) d) a b o o' θ - if o = o' then τ else 0|} =
      {θ | (fun o o' : Fin d.1.width => jac B A (grow r A (draw C r A ds) d) a b o o' θ) ∈
        {J : Fin d.1.width → Fin d.1.width → ℝ | ε ≤ |J ⟨o, ho⟩ ⟨o', ho'⟩ - if (⟨o, ho⟩ : Fin d.1.width) = ⟨o', ho'⟩ then τ else 0|}} := by
    ext θ
    simp only [Set.mem_ofPred_eq, Fin.mk.injEq]
  rw [e, ev]
  simp only [e1, ntkAct_one]
  refine (k _ _ (Fin d.1.width) _ (draw C r A ds).law (normalVector (initVar d.1)) (denseVar d.1 _) _ _ P (dense_rows d.1) hmo hP ⟨o, ho⟩ ⟨o', ho'⟩).trans ?_
  rw [tr (Q := fun x y => η ≤ |x + y - τ|) (F := wtr (denseVar d.1 _)), tr (Q := fun x _ => η ≤ x) (F := frob (denseVar d.1 _))]
  refine (add_le_add (add_le_add u1 u2) le_rfl).trans ?_
  rw [← ENNReal.ofReal_add (by positivity) (by positivity), ← ENNReal.ofReal_add (by positivity) (by positivity)]
  exact ENNReal.ofReal_le_ofReal (by linarith)

end NT.Wide
