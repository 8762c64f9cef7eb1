import Verif.Tac
import Verif.Spec.WideDeep
import Verif.Lemmas.WideConv2

/-!
# Families of random networks whose channel averages converge
-/

set_option linter.unusedSectionVars false

namespace NT.WideDeep
open _root_.NT.Wide (fn measurable_denseIn measurable_rowOut)
open _root_.NT.WideConv (Pt val emp patch next mix mix_far union_small)
open NT Gauss Spec MeasureTheory ProbabilityTheory

/-- Position `p` of the output for example `i` of inputs `x` of one of the kinds considered; the outputs have spatial shape `D S`. -/
structure Valid (ok : Arr ℝ → ℕ → List ℕ → Prop) (D : List ℕ → List ℕ) (a : Pt) : Prop where
  ok : ok a.x a.n a.S
  i : a.i < a.n
  p : InRange a.p (D a.S)

/-- The output has the expected shape and depends measurably on the parameters. -/
structure Good (ok : Arr ℝ → ℕ → List ℕ → Prop) (B A r : ℕ) (D : List ℕ → List ℕ) (N : RandomNet) : Prop where
  shape : ∀ x n S, ok x n S → ∀ θ, (N.apply θ x).shape = actIdx B A n N.channels (D S)
  meas : ∀ a : Pt, Valid ok D a → ∀ c < N.channels, Measurable (val B A N a c)
  pos : 0 < N.channels

/-- Two different axes, and the ranks of the outputs. -/
structure Axes (ok : Arr ℝ → ℕ → List ℕ → Prop) (B A r : ℕ) (D : List ℕ → List ℕ) : Prop where
  ne : B ≠ A
  B : B < r
  A : A < r
  rank : ∀ x n S, ok x n S → (D S).length + 2 = r

/-- The networks `P n`, of width at least `n`, have channel averages that converge to `K`. -/
structure Limit (ok : Arr ℝ → ℕ → List ℕ → Prop) (P : ℕ → RandomNet → Prop) (B A r : ℕ) (D : List ℕ → List ℕ) (K : Pt → Pt → ℝ) : Prop where
  axes : Axes ok B A r D
  mono : ∀ m n N, m ≤ n → P n N → P m N
  good : ∀ N, P 1 N → Good ok B A r D N
  conv : ∀ a b, Valid ok D a → Valid ok D b → ∀ ε δ : ℝ, 0 < ε → 0 < δ → ∃ n0, ∀ N, P n0 N →
    N.law {θ | ε ≤ |emp B A N a b θ - K a b|} ≤ ENNReal.ofReal δ

variable {ok : Arr ℝ → ℕ → List ℕ → Prop} {P : ℕ → RandomNet → Prop} {B A r : ℕ} {D : List ℕ → List ℕ} {K : Pt → Pt → ℝ}

lemma emp_psd (N : RandomNet) (a b : Pt) (θ : N.E) : Psd (emp B A N a a θ, emp B A N a b θ, emp B A N b b θ) := by
  refine ⟨?_, ?_, ?_⟩
  · exact div_nonneg (Finset.sum_nonneg fun c _ => mul_self_nonneg _) (Nat.cast_nonneg _)
  · exact div_nonneg (Finset.sum_nonneg fun c _ => mul_self_nonneg _) (Nat.cast_nonneg _)
  · simp only [emp]
    rw [div_pow, div_mul_div_comm, pow_two (N.channels : ℝ)]
    refine div_le_div_of_nonneg_right ?_ (by positivity)
    have := Finset.sum_mul_sq_le_sq_mul_sq (Finset.range N.channels) (fun c => val B A N a c θ) fun c => val B A N b c θ
    simpa only [pow_two] using this

lemma psd_closed : IsClosed {q : Sym | Psd q} := by
  have h1 : IsClosed {q : Sym | 0 ≤ q.1} := isClosed_le continuous_const continuous_fst
  have h2 : IsClosed {q : Sym | 0 ≤ q.2.2} := isClosed_le continuous_const (continuous_snd.comp continuous_snd)
  have h3 : IsClosed {q : Sym | q.2.1 ^ 2 ≤ q.1 * q.2.2} :=
    isClosed_le ((continuous_fst.comp continuous_snd).pow 2) (continuous_fst.mul (continuous_snd.comp continuous_snd))
  exact h1.inter (h2.inter h3)

/-- Limits of covariances are covariances. -/
lemma Limit.psd (h : Limit ok P B A r D K) (hne : ∀ n, ∃ N, P n N) {a b : Pt} (ha : Valid ok D a) (hb : Valid ok D b) : Psd (K a a, K a b, K b b) := by
  by_contra hc
  obtain ⟨η, hη, hball⟩ := Metric.isOpen_iff.1 psd_closed.isOpen_compl (K a a, K a b, K b b) hc
  obtain ⟨n1, h1⟩ := h.conv a a ha ha η (1 / 4) hη (by norm_num)
  obtain ⟨n2, h2⟩ := h.conv a b ha hb η (1 / 4) hη (by norm_num)
  obtain ⟨n3, h3⟩ := h.conv b b hb hb η (1 / 4) hη (by norm_num)
  obtain ⟨N, hN⟩ := hne (max n1 (max n2 n3))
  have t1 := h1 N (h.mono _ _ N (by simp) hN)
  have t2 := h2 N (h.mono _ _ N (by simp) hN)
  have t3 := h3 N (h.mono _ _ N (by simp) hN)
  have hall : N.law {θ | η ≤ dist (emp B A N a a θ, emp B A N a b θ, emp B A N b b θ) (K a a, K a b, K b b)} = 1 := by
    have : {θ | η ≤ dist (emp B A N a a θ, emp B A N a b θ, emp B A N b b θ) (K a a, K a b, K b b)} = Set.univ := by
      refine Set.eq_univ_of_forall fun θ => ?_
      by_contra hθ
      exact hball (Metric.mem_ball.2 (not_le.1 hθ)) (emp_psd N a b θ)
    rw [this]
    exact measure_univ
  have := hall.symm.le.trans ((dist_event N.law (fun θ => (emp B A N a a θ, emp B A N a b θ, emp B A N b b θ)) (K a a, K a b, K b b) η).trans
    (add_le_add t1 (add_le_add t2 t3)))
  rw [← ENNReal.ofReal_add (by positivity) (by positivity), ← ENNReal.ofReal_add (by positivity) (by positivity), ← ENNReal.ofReal_one,
    ENNReal.ofReal_le_ofReal_iff (by norm_num)] at this
  norm_num at this

/-- A wide layer with a nonlinearity: the channels are rows of Gaussian numbers, applied to inputs whose covariances converge. -/
lemma wide_limit {g : ℝ → ℝ} (cg : Continuous g) (tg : Tame g) {P' : ℕ → RandomNet → Prop} {B' A' : ℕ} {V : Pt → Prop} {Q : Pt → Pt → ℝ}
    {Qe : (N : RandomNet) → N.E → Pt → Pt → ℝ} (hpsd : ∀ a b, V a → V b → Psd (Q a a, Q a b, Q b b)) (hmono : ∀ m n N, m ≤ n → P n N → P m N)
    (hconv : ∀ a b, V a → V b → ∀ ε δ : ℝ, 0 < ε → 0 < δ → ∃ n0, ∀ N, P n0 N → N.law {θ | ε ≤ |Qe N θ a b - Q a b|} ≤ ENNReal.ofReal δ)
    (hstep : ∀ n N', 1 ≤ n → P' n N' → ∃ N, P n N ∧ ∃ (Ω ο κ : Type) (_ : MeasurableSpace Ω) (_ : Fintype ο) (_ : Fintype κ) (ν : Measure Ω) (v : κ → ℝ)
      (R : ο → κ → Ω → ℝ) (u : Pt → N.E → κ → ℝ), Rows ν v R ∧ n ≤ Fintype.card ο ∧ (∀ a, V a → Measurable (u a)) ∧
      (∀ a b, V a → V b → ∀ θ, ∑ k, v k * (u a θ k * u b θ k) = Qe N θ a b) ∧
      ∀ a b, V a → V b → ∀ q ε : ℝ, N'.law {θ | ε ≤ |emp B' A' N' a b θ - q|} =
        (N.law.prod ν) {x | ε ≤ |(∑ o, g (rowOut R o (u a x.1) x.2) * g (rowOut R o (u b x.1) x.2)) / Fintype.card ο - q|})
    (a b : Pt) (ha : V a) (hb : V b) (ε δ : ℝ) (hε : 0 < ε) (hδ : 0 < δ) :
    ∃ n0, ∀ N', P' n0 N' → N'.law {θ | ε ≤ |emp B' A' N' a b θ - E2 g g (Q a a, Q a b, Q b b)|} ≤ ENNReal.ofReal δ := by
  obtain ⟨η, hη, n0, key⟩ := wide_step cg cg tg tg (hpsd a b ha hb) hε (half_pos hδ)
  have hδ6 : 0 < δ / 6 := by positivity
  obtain ⟨n1, h1⟩ := hconv a a ha ha η _ hη hδ6
  obtain ⟨n2, h2⟩ := hconv a b ha hb η _ hη hδ6
  obtain ⟨n3, h3⟩ := hconv b b hb hb η _ hη hδ6
  refine ⟨max (max n0 1) (max n1 (max n2 n3)), fun N' hN' => ?_⟩
  obtain ⟨N, hN, Ω, ο, κ, i1, i2, i3, ν, v, R, u, hR, hw, hu, hq, he⟩ := hstep _ N' (by simp) hN'
  rw [he a b ha hb]
  refine (key _ _ ο _ N.law ν v R _ _ hR (hu a ha) (hu b hb) (lt_of_lt_of_le (by simp) hw) (le_trans (by simp) hw)).trans ?_
  have t1 := h1 N (hmono _ _ N (by simp) hN)
  have t2 := h2 N (hmono _ _ N (by simp) hN)
  have t3 := h3 N (hmono _ _ N (by simp) hN)
  have e : ∀ θ, rowCov v (u a θ) (u b θ) = (Qe N θ a a, Qe N θ a b, Qe N θ b b) := fun θ => by
    unfold rowCov
    rw [hq a a ha ha, hq a b ha hb, hq b b hb hb]
  simp only [e]
  refine (add_le_add (dist_event _ _ _ η) le_rfl).trans ((add_le_add (add_le_add t1 (add_le_add t2 t3)) le_rfl).trans ?_)
  rw [← ENNReal.ofReal_add (by positivity) (by positivity), ← ENNReal.ofReal_add (by positivity) (by positivity),
    ← ENNReal.ofReal_add (by positivity) (by positivity)]
  refine ENNReal.ofReal_le_ofReal (by linarith)

/-! ### Nonlinearities -/

lemma actOpt_channels (f : Option Act) (N : RandomNet) : (N.actOpt f).channels = N.channels := by cases f <;> rfl

lemma good_actOpt {N : RandomNet} (hN : Good ok B A r D N) {f : Option Act} (hf : Measurable (fn f)) : Good ok B A r D (N.actOpt f) := by
  cases f with
  | none => exact hN
  | some f => exact ⟨hN.shape, fun a ha c hc => hf.comp (hN.meas a ha c hc), hN.pos⟩

/-- The probability of an event of a network with a layer and a nonlinearity on top. -/
lemma event_eq {N : RandomNet} {ι : Type} [Fintype ι] {v : ι → ℝ} {app : Ext N.E ι → Arr ℝ → Arr ℝ} {ch : ℕ} (f : Option Act) {a b : Pt}
    {o : Type} [Fintype o] (e : Fin ch ≃ o) {ua ub : o → N.E × EuclideanSpace ℝ ι → ℝ}
    (hm : ∀ c < ch, Measurable (val B A (RandomNet.actOpt f ⟨Ext N.E ι, extMeasure N.law (normalVector v), app, ch⟩) a c) ∧
      Measurable (val B A (RandomNet.actOpt f ⟨Ext N.E ι, extMeasure N.law (normalVector v), app, ch⟩) b c))
    (ha : ∀ c x, (app (WithLp.toLp 2 x) a.x).get (actIdx B A a.i (c : Fin ch) a.p) = ua (e c) x)
    (hb : ∀ c x, (app (WithLp.toLp 2 x) b.x).get (actIdx B A b.i (c : Fin ch) b.p) = ub (e c) x) (q ε : ℝ) :
    (RandomNet.actOpt f ⟨Ext N.E ι, extMeasure N.law (normalVector v), app, ch⟩).law {θ |
        ε ≤ |emp B A (RandomNet.actOpt f ⟨Ext N.E ι, extMeasure N.law (normalVector v), app, ch⟩) a b θ - q|} =
      (N.law.prod (normalVector v)) {x | ε ≤ |(∑ c, fn f (ua c x) * fn f (ub c x)) / Fintype.card o - q|} := by
  have hme : Measurable fun θ => emp B A (RandomNet.actOpt f ⟨Ext N.E ι, extMeasure N.law (normalVector v), app, ch⟩) a b θ := by
    unfold emp
    refine Measurable.div_const (Finset.measurable_sum _ fun c hc => ?_) _
    have hc' : c < ch := by
      have := Finset.mem_range.1 hc
      rwa [actOpt_channels] at this
    exact (hm c hc').1.mul (hm c hc').2
  have hS := measurableSet_le (f := fun _ => ε) (g := fun θ => |emp B A (RandomNet.actOpt f ⟨Ext N.E ι, extMeasure N.law (normalVector v), app, ch⟩) a b θ - q|)
    measurable_const (hme.sub_const q).abs
  have hcard : Fintype.card o = ch := by rw [← Fintype.card_congr e, Fintype.card_fin]
  rcases f with _ | f
  all_goals
    refine (Measure.map_apply (by fun_prop) hS).trans (congrArg _ (Set.ext fun x => ?_))
    simp only [Set.mem_ofPred_eq, emp, hcard]
    show (ε ≤ |(∑ c ∈ Finset.range ch, _) / (ch : ℝ) - q|) ↔ _
    rw [Finset.sum_range, ← Equiv.sum_comp e]
    refine iff_of_eq (congrArg (fun s => ε ≤ |s / (ch : ℝ) - q|) (Finset.sum_congr rfl fun c _ => ?_))
  · exact congrArg₂ (· * ·) (ha c x) (hb c x)
  · exact congrArg₂ (fun u v => f.fn u * f.fn v) (ha c x) (hb c x)

end NT.WideDeep
