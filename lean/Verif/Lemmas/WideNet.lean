import Verif.Tac
import Verif.Lemmas.WideStep
import Verif.Lemmas.DenseRows

/-!
# Channel averages of wide random networks converge in probability
-/

set_option linter.unusedSectionVars false

namespace NT.Wide
open NT Gauss Spec MeasureTheory ProbabilityTheory C52

/-- Position `p` of example `i` of the inputs `x`. -/
structure Pt where
  x : Arr ℝ
  i : ℕ
  p : List ℕ

/-- Inputs of rank `r` with batch axis `B`, channel axis `A` and `C` channels. -/
structure Pt.Valid (B A C r : ℕ) (a : Pt) : Prop where
  ex : ∃ n S, S.length + 2 = r ∧ a.x.shape = actIdx B A n C S ∧ a.i < n ∧ InRange a.p S

/-- Channel `c` of the output. -/
def val (B A : ℕ) (N : RandomNet) (a : Pt) (c : ℕ) (θ : N.E) : ℝ := chan (fun θ => N.apply θ a.x) B A a.i c a.p θ

/-- The average over the channels of products of outputs. -/
noncomputable def emp (B A : ℕ) (N : RandomNet) (a b : Pt) (θ : N.E) : ℝ :=
  (∑ c ∈ Finset.range N.channels, val B A N a c θ * val B A N b c θ) / N.channels

/-- The output has the expected shape and depends measurably on the parameters. -/
structure Good (B A C r : ℕ) (N : RandomNet) : Prop where
  shape : ∀ x n S, S.length + 2 = r → x.shape = actIdx B A n C S → ∀ θ, (N.apply θ x).shape = actIdx B A n N.channels S
  meas : ∀ a : Pt, a.Valid B A C r → ∀ c < N.channels, Measurable (val B A N a c)
  pos : 0 < N.channels

/-- The function of a stage. -/
def fn (s : Option Act) : ℝ → ℝ := s.elim (fun x => x) (·.fn)

/-- One stage. -/
noncomputable def grow (r A : ℕ) (N : RandomNet) (d : Dense × Option Act) : RandomNet :=
  match d.2 with
  | none => N.dense d.1 r A
  | some f => (N.dense d.1 r A).act f.fn

lemma draw_nil (C r A : ℕ) : draw C r A [] = RandomNet.input C := rfl

lemma draw_snoc (C r A : ℕ) (ds : List (Dense × Option Act)) (d : Dense × Option Act) : draw C r A (ds ++ [d]) = grow r A (draw C r A ds) d := by
  unfold draw
  rw [List.foldl_append]
  rfl

variable {B A C r : ℕ}

lemma good_input (hC : 0 < C) : Good B A C r (RandomNet.input C) where
  shape _ _ _ _ h _ := h
  meas a _ c _ := measurable_const (a := a.x.get (actIdx B A a.i c a.p))
  pos := hC

/-- Dense layers that can be applied. -/
structure DenseOk (A r : ℕ) (d : Dense) : Prop where
  param : d.param ≠ .other
  sample : d.param = .standard → 0 < d.s.1
  axis : (A : ℤ) = d.channelAxis % r
  wide : 0 < d.width

lemma val_dense {N : RandomNet} (hN : Good B A C r N) (hne : B ≠ A) (hB : B < r) {d : Dense} (hd : DenseOk A r d) {a : Pt} (ha : a.Valid B A C r)
    (o : Fin d.width) (θ : (N.dense d r A).E) :
    val B A (N.dense d r A) a o θ = linOut (coef d o fun c => val B A N a c) θ := by
  obtain ⟨n, S, hr, hx, hi, hp⟩ := ha.ex
  have hA := hd.axis
  subst hr
  exact (layerOut_eq d hd.param (fun θ => N.apply θ a.x) B A n N.channels S (by rw [hA]; push_cast; rfl) hne hB (hN.shape a.x n S rfl hx) θ).2
    a.i o a.p hi o.2 hp

lemma val_rows {N : RandomNet} (hN : Good B A C r N) (hne : B ≠ A) (hB : B < r) {d : Dense} (hd : DenseOk A r d) {a : Pt} (ha : a.Valid B A C r)
    (o : Fin d.width) (θ : (N.dense d r A).E) :
    val B A (N.dense d r A) a o θ =
      rowOut (pick (denseIdx d (C := N.channels))) o (denseIn d N.channels fun c => val B A N a c θ.fst) θ.snd := by
  rw [val_dense hN hne hB hd ha]
  exact linOut_rowOut d o _ θ

lemma measurable_denseIn {E : Type} [MeasurableSpace E] (d : Dense) (C : ℕ) (f : ℕ → E → ℝ) (hf : ∀ c < C, Measurable (f c)) :
    Measurable fun θ => denseIn d C fun c => f c θ := by
  refine measurable_pi_lambda _ fun k => ?_
  rcases k with c | _
  · exact (hf c c.2).const_mul _
  · exact measurable_const

lemma measurable_rowOut {E Ω ο κ : Type} [MeasurableSpace E] [MeasurableSpace Ω] [Fintype ο] [Fintype κ] {ν : Measure Ω} {v : κ → ℝ} {R : ο → κ → Ω → ℝ}
    (hR : Rows ν v R) (o : ο) (a : E → κ → ℝ) (ha : Measurable a) : Measurable fun x : E × Ω => rowOut R o (a x.1) x.2 :=
  Finset.measurable_sum _ fun k _ => ((hR.meas o k).comp measurable_snd).mul ((measurable_pi_apply k).comp (ha.comp measurable_fst))

lemma good_dense {N : RandomNet} (hN : Good B A C r N) (hne : B ≠ A) (hB : B < r) {d : Dense} (hd : DenseOk A r d) : Good B A C r (N.dense d r A) where
  shape x n S hr hx θ := by
    have hA := hd.axis
    subst hr
    exact (layerOut_eq d hd.param (fun θ => N.apply θ x) B A n N.channels S (by rw [hA]; push_cast; rfl) hne hB (hN.shape x n S rfl hx) θ).1
  meas a ha c hc := by
    have e : val B A (N.dense d r A) a c = (fun x : N.E × EuclideanSpace ℝ (Idx N.channels d.width (nBias d)) =>
        rowOut (pick (denseIdx d (C := N.channels))) ⟨c, hc⟩ (denseIn d N.channels fun c => val B A N a c x.1) x.2) ∘ WithLp.ofLp :=
      funext fun θ => val_rows hN hne hB hd ha ⟨c, hc⟩ θ
    rw [e]
    exact (measurable_rowOut (dense_rows d) _ _ (measurable_denseIn d _ _ fun c hc => hN.meas a ha c hc)).comp (WithLp.measurable_ofLp 2 _)
  pos := hd.wide

lemma val_act (N : RandomNet) (φ : ℝ → ℝ) (a : Pt) (c : ℕ) (θ : N.E) : val B A (N.act φ) a c θ = φ (val B A N a c θ) := rfl

lemma good_act {N : RandomNet} (hN : Good B A C r N) {φ : ℝ → ℝ} (hφ : Measurable φ) : Good B A C r (N.act φ) where
  shape x n S hr hx θ := hN.shape x n S hr hx θ
  meas a ha c hc := hφ.comp (hN.meas a ha c hc)
  pos := hN.pos

lemma good_grow {N : RandomNet} (hN : Good B A C r N) (hne : B ≠ A) (hB : B < r) {d : Dense × Option Act} (hd : DenseOk A r d.1) (hf : Measurable (fn d.2)) :
    Good B A C r (grow r A N d) := by
  have := good_dense hN hne hB hd
  obtain ⟨d, _ | f⟩ := d
  · exact this
  · exact good_act this hf

/-- The probability of an event of the network with a further stage. -/
lemma grow_event {N : RandomNet} (hN : Good B A C r N) (hne : B ≠ A) (hB : B < r) {d : Dense × Option Act} (hd : DenseOk A r d.1) (hf : Measurable (fn d.2))
    {a b : Pt} (ha : a.Valid B A C r) (hb : b.Valid B A C r) (q : ℝ) (ε : ℝ) :
    (grow r A N d).law {θ | ε ≤ |emp B A (grow r A N d) a b θ - q|} =
      (N.law.prod (normalVector (initVar d.1))) {x | ε ≤ |(∑ o : Fin d.1.width,
        fn d.2 (rowOut (pick (denseIdx d.1 (C := N.channels))) o (denseIn d.1 N.channels fun c => val B A N a c x.1) x.2) *
        fn d.2 (rowOut (pick (denseIdx d.1 (C := N.channels))) o (denseIn d.1 N.channels fun c => val B A N b c x.1) x.2)) / Fintype.card (Fin d.1.width) - q|} := by
  have hG := good_grow hN hne hB hd hf
  have hm : Measurable fun θ => emp B A (grow r A N d) a b θ := by
    unfold emp
    refine Measurable.div_const (Finset.measurable_sum _ fun c hc => ?_) _
    exact (hG.meas a ha c (Finset.mem_range.1 hc)).mul (hG.meas b hb c (Finset.mem_range.1 hc))
  have hS : MeasurableSet {θ | ε ≤ |emp B A (grow r A N d) a b θ - q|} := measurableSet_le measurable_const (hm.sub_const q).abs
  obtain ⟨d, _ | f⟩ := d
  all_goals
    refine (Measure.map_apply (by fun_prop) hS).trans (congrArg _ (Set.ext fun x => ?_))
    simp only [Set.mem_ofPred_eq, emp, Fintype.card_fin]
    show (ε ≤ |(∑ c ∈ Finset.range d.width, _) / (d.width : ℝ) - q|) ↔ _
    rw [Finset.sum_range]
    refine iff_of_eq (congrArg (fun s => ε ≤ |s / (d.width : ℝ) - q|) (Finset.sum_congr rfl fun o _ => ?_))
    have e1 := val_rows hN hne hB hd ha o (WithLp.toLp 2 x)
    have e2 := val_rows hN hne hB hd hb o (WithLp.toLp 2 x)
  · exact congrArg₂ (· * ·) e1 e2
  · exact congrArg₂ (fun u v => f.fn u * f.fn v) e1 e2

/-- The limit before the nonlinearity. -/
def pre (s : Stage) (K : Pt → Pt → ℝ) (a b : Pt) : ℝ := s.wStd ^ 2 * K a b + (s.bStd.getD 0) ^ 2

/-- The limit after a further stage. -/
noncomputable def post (K : Pt → Pt → ℝ) (s : Stage) (a b : Pt) : ℝ := E2 (fn s.act) (fn s.act) (pre s K a a, pre s K a b, pre s K b b)

/-- The limit. -/
noncomputable def lim (B A C : ℕ) (l : List Stage) : Pt → Pt → ℝ := l.foldl post fun a b =>
  (∑ c ∈ Finset.range C, a.x.get (actIdx B A a.i c a.p) * b.x.get (actIdx B A b.i c b.p)) / C

lemma lim_snoc (l : List Stage) (s : Stage) : lim B A C (l ++ [s]) = post (lim B A C l) s := by
  unfold lim
  rw [List.foldl_append]
  rfl

/-- Regularity of the nonlinearity of a stage. -/
structure Smooth (s : Stage) : Prop where
  cont : Continuous (fn s.act)
  tame : Tame (fn s.act)

lemma pre_psd (s : Stage) {K : Pt → Pt → ℝ} {a b : Pt} (h : Psd (K a a, K a b, K b b)) : Psd (pre s K a a, pre s K a b, pre s K b b) := by
  obtain ⟨h1, h2, h3⟩ := h
  simp only at h1 h2 h3
  have hb := sq_nonneg (s.bStd.getD 0)
  have hw := sq_nonneg s.wStd
  unfold pre
  generalize s.wStd ^ 2 = w at *
  generalize (s.bStd.getD 0) ^ 2 = t at *
  refine ⟨by positivity, by positivity, ?_⟩
  simp only
  have h4 : 2 * K a b ≤ K a a + K b b := by
    by_contra hc
    push Not at hc
    have : (K a a + K b b) ^ 2 < (2 * K a b) ^ 2 := by
      apply sq_lt_sq' <;> linarith
    nlinarith [sq_nonneg (K a a - K b b)]
  nlinarith [mul_nonneg hw hb, mul_nonneg (mul_nonneg hw hb) (sub_nonneg.2 h4), mul_nonneg (mul_nonneg hw hw) (sub_nonneg.2 h3)]

lemma E2_psd {φ : ℝ → ℝ} (h : Tame φ) {q11 q12 q22 : ℝ} (hq : Psd (q11, q12, q22)) :
    Psd (E2 φ φ (q11, q11, q11), E2 φ φ (q11, q12, q22), E2 φ φ (q22, q22, q22)) := by
  have hP := msqrt_pair hq
  set P := std2.map (lin (msqrt (q11, q12, q22))) with hPd
  have hG := hP.gaussian
  have m1 := hP.map_pair 1 0 1 0
  have m2 := hP.map_pair 0 1 0 1
  have hm : Measurable fun x : ℝ × ℝ => φ x.1 * φ x.2 := (h.meas.comp measurable_fst).mul (h.meas.comp measurable_snd)
  have e1 : E2 φ φ (q11, q11, q11) = ∫ x, φ x.1 * φ x.1 ∂P := by
    have := E2_eq m1 h.meas h.meas
    rw [integral_map (by fun_prop) hm.aestronglyMeasurable] at this
    simp only [one_mul, zero_mul, add_zero] at this
    rw [this]
    congr 2 <;> simp
  have e2 : E2 φ φ (q22, q22, q22) = ∫ x, φ x.2 * φ x.2 ∂P := by
    have := E2_eq m2 h.meas h.meas
    rw [integral_map (by fun_prop) hm.aestronglyMeasurable] at this
    simp only [one_mul, zero_mul, zero_add] at this
    rw [this]
    congr 2 <;> simp
  have e3 : E2 φ φ (q11, q12, q22) = ∫ x, φ x.1 * φ x.2 ∂P := (E2_eq hP h.meas h.meas).symm
  rw [e1, e2, e3]
  have i1 : Integrable (fun x : ℝ × ℝ => φ x.1 * φ x.1) P := by
    have := (h.mul h).integrable (P := P) (Tame.const 1)
    simpa using this
  have i2 : Integrable (fun x : ℝ × ℝ => φ x.2 * φ x.2) P := by
    have := (Tame.const 1).integrable (P := P) (h.mul h)
    simpa using this
  have i3 : Integrable (fun x : ℝ × ℝ => φ x.1 * φ x.2) P := h.integrable (P := P) h
  refine ⟨integral_nonneg fun x => mul_self_nonneg _, integral_nonneg fun x => mul_self_nonneg _, ?_⟩
  have key : ∀ t : ℝ, 0 ≤ (∫ x, φ x.1 * φ x.1 ∂P) * (t * t) + (2 * ∫ x, φ x.1 * φ x.2 ∂P) * t + ∫ x, φ x.2 * φ x.2 ∂P := by
    intro t
    have : 0 ≤ ∫ x, (t * φ x.1 + φ x.2) ^ 2 ∂P := integral_nonneg fun x => sq_nonneg _
    have e : ∀ x : ℝ × ℝ, (t * φ x.1 + φ x.2) ^ 2 = (t * t) * (φ x.1 * φ x.1) + (2 * t) * (φ x.1 * φ x.2) + φ x.2 * φ x.2 := fun x => by ring
    simp only [e] at this
    have j12 : Integrable (fun x : ℝ × ℝ => (t * t) * (φ x.1 * φ x.1) + (2 * t) * (φ x.1 * φ x.2)) P := (i1.const_mul _).add (i3.const_mul _)
    rw [integral_add j12 i2, integral_add (i1.const_mul _) (i3.const_mul _), integral_const_mul, integral_const_mul] at this
    linarith
  have := discrim_le_zero key
  unfold discrim at this
  simp only
  linarith

lemma lim_psd (l : List Stage) (hl : ∀ s ∈ l, Smooth s) (a b : Pt) : Psd (lim B A C l a a, lim B A C l a b, lim B A C l b b) := by
  induction l using List.reverseRecOn generalizing a b with
  | nil =>
    refine ⟨?_, ?_, ?_⟩
    · exact div_nonneg (Finset.sum_nonneg fun c _ => mul_self_nonneg _) (Nat.cast_nonneg _)
    · exact div_nonneg (Finset.sum_nonneg fun c _ => mul_self_nonneg _) (Nat.cast_nonneg _)
    · simp only [lim, List.foldl_nil]
      rw [div_pow, div_mul_div_comm, pow_two (C : ℝ)]
      refine div_le_div_of_nonneg_right ?_ (by positivity)
      have := Finset.sum_mul_sq_le_sq_mul_sq (Finset.range C) (fun c => a.x.get (actIdx B A a.i c a.p)) fun c => b.x.get (actIdx B A b.i c b.p)
      simpa only [pow_two] using this
  | append_singleton l s ih =>
    rw [lim_snoc]
    exact E2_psd (hl s (by simp)).tame (pre_psd s (ih (fun t ht => hl t (by simp [ht])) a b))

lemma Fits.mono {n n' : ℕ} (h : n ≤ n') {d : Dense × Option Act} {s : Stage} (hf : s.Fits r A n' d) : s.Fits r A n d :=
  ⟨hf.wStd, hf.bStd, hf.act, hf.param, hf.sample, hf.axis, hf.inRange, h.trans hf.wide⟩

lemma Fits.ok {n : ℕ} (h : 0 < n) {d : Dense × Option Act} {s : Stage} (hf : s.Fits r A n d) : DenseOk A r d.1 :=
  ⟨hf.param, hf.sample, hf.axis, h.trans_le hf.wide⟩

lemma forall₂_snoc {α β : Type} {R : α → β → Prop} {ds : List α} {l : List β} {s : β} (h : List.Forall₂ R ds (l ++ [s])) :
    ∃ ds' d, ds = ds' ++ [d] ∧ List.Forall₂ R ds' l ∧ R d s := by
  induction l generalizing ds with
  | nil =>
    rcases h with _ | ⟨h1, h2⟩
    cases h2
    exact ⟨[], _, rfl, .nil, h1⟩
  | cons t l ih =>
    rcases h with _ | ⟨h1, h2⟩
    obtain ⟨ds', d, rfl, h3, h4⟩ := ih h2
    exact ⟨_ :: ds', d, rfl, .cons h1 h3, h4⟩

lemma good_draw (hC : 0 < C) (hne : B ≠ A) (hB : B < r) (l : List Stage) (hl : ∀ s ∈ l, Smooth s) {n : ℕ} (hn : 0 < n) {ds : List (Dense × Option Act)}
    (h : List.Forall₂ (fun d s => Stage.Fits r A n d s) ds l) : Good B A C r (draw C r A ds) := by
  induction l using List.reverseRecOn generalizing ds with
  | nil =>
    cases h
    exact good_input hC
  | append_singleton l s ih =>
    obtain ⟨ds, d, rfl, h1, h2⟩ := forall₂_snoc h
    rw [draw_snoc]
    refine good_grow (ih (fun t ht => hl t (by simp [ht])) h1) hne hB (Fits.ok hn h2) ?_
    rw [h2.act]
    exact (hl s (by simp)).tame.meas

/-- Channel averages of products converge in probability to the limit, uniformly in how the widths grow. -/
theorem tends (hC : 0 < C) (hne : B ≠ A) (hB : B < r) (l : List Stage) (hl : ∀ s ∈ l, Smooth s) {a b : Pt} (ha : a.Valid B A C r) (hb : b.Valid B A C r)
    {ε δ : ℝ} (hε : 0 < ε) (hδ : 0 < δ) : ∃ n0, ∀ ds, List.Forall₂ (fun d s => Stage.Fits r A n0 d s) ds l →
      (draw C r A ds).law {θ | ε ≤ |emp B A (draw C r A ds) a b θ - lim B A C l a b|} ≤ ENNReal.ofReal δ := by
  induction l using List.reverseRecOn generalizing a b ε δ with
  | nil =>
    refine ⟨0, fun ds h => ?_⟩
    cases h
    have : {θ : (draw C r A []).E | ε ≤ |emp B A (draw C r A []) a b θ - lim B A C [] a b|} = ∅ := by
      refine Set.eq_empty_of_forall_notMem fun θ hθ => ?_
      have e : emp B A (draw C r A []) a b θ = lim B A C [] a b := rfl
      rw [Set.mem_ofPred_eq, e, sub_self, abs_zero] at hθ
      exact absurd hθ (not_le.2 hε)
    rw [this]
    simp
  | append_singleton l s ih =>
    have hl' : ∀ t ∈ l, Smooth t := fun t ht => hl t (by simp [ht])
    have hs := hl s (by simp)
    obtain ⟨η, hη, n0, key⟩ := wide_step hs.cont hs.cont hs.tame hs.tame (pre_psd s (lim_psd (B := B) (A := A) (C := C) l hl' a b)) hε (half_pos hδ)
    have hw : 0 < s.wStd ^ 2 + 1 := by positivity
    have hη' : 0 < η / (s.wStd ^ 2 + 1) := by positivity
    obtain ⟨n1, h1⟩ := ih hl' ha ha hη' (show 0 < δ / 6 by positivity)
    obtain ⟨n2, h2⟩ := ih hl' ha hb hη' (show 0 < δ / 6 by positivity)
    obtain ⟨n3, h3⟩ := ih hl' hb hb hη' (show 0 < δ / 6 by positivity)
    refine ⟨max (max n0 1) (max n1 (max n2 n3)), fun ds h => ?_⟩
    obtain ⟨ds, d, rfl, hds, hd⟩ := forall₂_snoc h
    have hm : ∀ m, m ≤ max (max n0 1) (max n1 (max n2 n3)) → List.Forall₂ (fun d s => Stage.Fits r A m d s) ds l :=
      fun m hm => hds.imp fun d s hf => Fits.mono hm hf
    have hok := Fits.ok (n := 1) one_pos (Fits.mono (by simp) hd)
    have hN := good_draw hC hne hB l hl' one_pos (hm 1 (by simp))
    rw [draw_snoc, lim_snoc, grow_event hN hne hB hok (by rw [hd.act]; exact hs.tame.meas) ha hb, hd.act]
    refine (key _ _ (Fin d.1.width) _ (draw C r A ds).law (normalVector (initVar d.1)) (denseVar d.1 _) _ _ _ (dense_rows d.1)
      (measurable_denseIn d.1 _ _ fun c hc => hN.meas a ha c hc) (measurable_denseIn d.1 _ _ fun c hc => hN.meas b hb c hc)
      (by rw [Fintype.card_fin]; exact hok.wide) (by rw [Fintype.card_fin]; exact le_trans (by simp) hd.wide)).trans ?_
    have tr : ∀ {a b : Pt}, a.Valid B A C r → b.Valid B A C r → ∀ n, n ≤ max (max n0 1) (max n1 (max n2 n3)) →
        (∀ ds, List.Forall₂ (fun d s => Stage.Fits r A n d s) ds l → (draw C r A ds).law {θ | η / (s.wStd ^ 2 + 1) ≤ |emp B A (draw C r A ds) a b θ - lim B A C l a b|} ≤ ENNReal.ofReal (δ / 6)) →
        (draw C r A ds).law {θ | η ≤ |∑ k, denseVar d.1 (draw C r A ds).channels k * (denseIn d.1 _ (fun c => val B A (draw C r A ds) a c θ) k *
          denseIn d.1 _ (fun c => val B A (draw C r A ds) b c θ) k) - pre s (lim B A C l) a b|} ≤ ENNReal.ofReal (δ / 6) := by
      intro a b _ _ n hn hle
      refine (measure_mono fun θ hθ => ?_).trans (hle ds (hm n hn))
      simp only [Set.mem_ofPred_eq] at hθ ⊢
      rw [rowCov_dense d.1 hok.param hN.pos hok.sample, bVar, hd.wStd, hd.bStd, pre] at hθ
      have e : s.wStd ^ 2 * ((∑ c ∈ Finset.range (draw C r A ds).channels, val B A (draw C r A ds) a c θ * val B A (draw C r A ds) b c θ) /
          (draw C r A ds).channels) + s.bStd.getD 0 ^ 2 - (s.wStd ^ 2 * lim B A C l a b + s.bStd.getD 0 ^ 2) =
          s.wStd ^ 2 * (emp B A (draw C r A ds) a b θ - lim B A C l a b) := by
        unfold emp
        ring
      rw [e, abs_mul, abs_of_nonneg (sq_nonneg _)] at hθ
      rw [div_le_iff₀ hw]
      nlinarith [abs_nonneg (emp B A (draw C r A ds) a b θ - lim B A C l a b)]
    have t1 := tr ha ha n1 (by simp) h1
    have t2 := tr ha hb n2 (by simp) h2
    have t3 := tr hb hb n3 (by simp) h3
    refine (add_le_add (dist_event _ _ _ η) le_rfl).trans ((add_le_add (add_le_add t1 (add_le_add t2 t3)) le_rfl).trans ?_)
    rw [← ENNReal.ofReal_add (by positivity) (by positivity), ← ENNReal.ofReal_add (by positivity) (by positivity),
      ← ENNReal.ofReal_add (by positivity) (by positivity)]
    refine ENNReal.ofReal_le_ofReal (by linarith)

end NT.Wide
