import Verif.Tac
import Verif.Lemmas.WideSteps
import Verif.Props.C72
import Verif.Props.C92

/-!
# C93: the tangent kernel of wide random networks is the NTK that `kernel_fn` computes
-/

namespace NT.C93
open NT NT.Network NT.Spec NT.Semantics NT.Wide NT.Gauss MeasureTheory ProbabilityTheory Topology

/-- The nonlinearity is continuous, grows at most polynomially, has a bounded derivative, and its layer has the `kernel_fn` of the nonlinearity for all
variances. -/
structure StageOk (s : NtkStage) : Prop where
  act : ∀ f, s.act = some f → Continuous f.fn ∧ (∃ C n, ∀ x, |f.fn x| ≤ C * (1 + |x|) ^ n) ∧ (∃ M, ∀ x, |s.deriv x| ≤ M) ∧
    ∃ C N T, (∀ v, 0 ≤ v → C v) ∧ Nonlinearity f.kernelFn C f.fn s.deriv N T

/-- The nonlinearity is differentiable everywhere. -/
structure StageSmooth (s : NtkStage) : Prop where
  act : ∀ f, s.act = some f → Continuous s.deriv ∧ ∀ x, HasDerivAt f.fn (s.deriv x) x

/-- The nonlinearity may have kinks: it is differentiable except at countably many points, where also its zeros with nonzero values nearby have to lie.  The
weights are random, and so are the biases if there are any. -/
structure StageKinked (s : NtkStage) : Prop where
  weight : s.wStd ≠ 0
  bias : ∀ b, s.bStd = some b → b ≠ 0
  act : ∀ f, s.act = some f → (∃ x, f.fn x ≠ 0) ∧ ∃ K : Set ℝ, K.Countable ∧ ∀ x ∉ K, HasDerivAt f.fn (s.deriv x) x ∧ ContinuousAt s.deriv x ∧
    (f.fn x = 0 → ∀ᶠ y in 𝓝 x, f.fn y = 0)

lemma StageOk.tangent {s : NtkStage} (h : StageOk s) : Tangent s := by
  obtain ⟨⟨w, b, _ | f⟩, g, d⟩ := s
  · exact ⟨⟨continuous_id, Tame.id⟩, measurable_const, 1, fun x => by simp [dfn]⟩
  · obtain ⟨h1, h2, h3, C, N, T, -, h4⟩ := h.act f rfl
    exact ⟨⟨h1, h1.measurable, h2⟩, h4.meas.2, h3⟩

lemma StageSmooth.plain {s : NtkStage} (h : StageSmooth s) : Plain s := by
  obtain ⟨⟨w, b, _ | f⟩, g, d⟩ := s
  · exact ⟨fun x => hasDerivAt_id x, continuous_const⟩
  · obtain ⟨h1, h2⟩ := h.act f rfl
    exact ⟨h2, h1⟩

lemma StageKinked.kinked {s : NtkStage} (hs : StageOk s) (h : StageKinked s) : Kinked s := by
  obtain ⟨⟨w, b, _ | f⟩, g, d⟩ := s
  · have e0 : ∀ P : ℝ → Prop, (∀ x, ¬ P x) → volume {x | P x} = 0 := fun P hP => by
      rw [Set.eq_empty_of_forall_notMem (s := {x | P x}) fun x hx => hP x hx, measure_empty]
    refine ⟨h.weight, h.bias, e0 _ fun x hx => hx (hasDerivAt_id x), e0 _ fun x hx => hx continuousAt_const, ?_, ?_⟩
    · exact measure_mono_null (t := {0}) (fun x hx => hx.1) (by simp)
    · refine (IsOpen.measure_pos volume (isOpen_ne (x := (0 : ℝ))) ⟨1, one_ne_zero⟩).ne'
  · obtain ⟨⟨x0, hx0⟩, K, hK, hd⟩ := h.act f rfl
    have hK0 : volume K = 0 := hK.measure_zero volume
    have sub : ∀ P : ℝ → Prop, (∀ x, x ∉ K → ¬ P x) → volume {x | P x} = 0 := fun P hP =>
      measure_mono_null (fun x hx => by by_contra hc; exact hP x hc hx) hK0
    have hc := (hs.act f rfl).1
    refine ⟨h.weight, h.bias, sub _ fun x hx hn => hn (hd x hx).1, sub _ fun x hx hn => hn (hd x hx).2.1, sub _ fun x hx hn => hn.2 ((hd x hx).2.2 hn.1), ?_⟩
    exact (IsOpen.measure_pos volume (isOpen_ne_fun hc continuous_const) ⟨x0, hx0⟩).ne'

/-- The inputs have no zero vector of channels. -/
def NonzeroInputs (B A C n : ℕ) (S : List ℕ) (x : Arr ℝ) : Prop := ∀ i p, i < n → InRange p S → ∃ c < C, x.get (actIdx B A i c p) ≠ 0

/-- Either all nonlinearities are differentiable, or all layers are random and the inputs are nonzero or there are biases. -/
def Regular (B A C n1 n2 : ℕ) (S1 S2 : List ℕ) (x1 x2 : Arr ℝ) (stages : List NtkStage) : Prop :=
  (∀ s ∈ stages, StageSmooth s) ∨
    (∀ s ∈ stages, StageKinked s) ∧ ((NonzeroInputs B A C n1 S1 x1 ∧ NonzeroInputs B A C n2 S2 x2) ∨ ∀ s ∈ stages, s.bStd.isSome)

variable {B A C r n1 n2 : ℕ} {S1 S2 : List ℕ} {x1 : Arr ℝ} {x2 : Option (Arr ℝ)}

lemma steps_of (hC : 0 < C) (hne : B ≠ A) (hB : B < r) {x2 : Arr ℝ} {stages : List NtkStage} (hst : ∀ s ∈ stages, StageOk s)
    (h : Regular B A C n1 n2 S1 S2 x1 x2 stages) {i j : ℕ} {p q : List ℕ} (hi : i < n1) (hj : j < n2) (hp : InRange p S1) (hq : InRange q S2) :
    Steps B A C r ⟨x1, i, p⟩ ⟨x2, j, q⟩ stages := by
  have ht : ∀ s ∈ stages, Tangent s := fun s hs => (hst s hs).tangent
  rcases h with h | ⟨h, hin⟩
  · exact steps_plain hC hne hB ht (fun s hs => (h s hs).plain) _ _
  · refine steps_kinked hC hne hB ht (fun s hs => (h s hs).kinked (hst s hs)) ?_ ?_
    · rcases hin with hin | hin
      · exact .inl (hin.1 i p hi hp)
      · exact .inr hin
    · rcases hin with hin | hin
      · exact .inl (hin.2 j q hj hq)
      · exact .inr hin

lemma pair_dtual {f : Act} {C : ℝ → Prop} {dφ : ℝ → ℝ} {N T : ℝ → ℝ → ℝ → ℝ} (hC : ∀ v, 0 ≤ v → C v) (h : Nonlinearity f.kernelFn C f.fn dφ N T)
    {q11 q12 q22 : ℝ} (hq : Psd (q11, q12, q22)) : T q12 q11 q22 = E2 dφ dφ (q11, q12, q22) := by
  rw [h.ntk _ q11 q12 q22 (msqrt_pair hq) (hC _ hq.1) (hC _ hq.2.1)]
  exact E2_eq (msqrt_pair hq) h.meas.2 h.meas.2

lemma E2_one {q : Sym} : E2 (fun _ => 1) (fun _ => 1) q = 1 := by
  have := std2_pair.gaussian
  simp [E2]

/-- The kernel functions of the layers compute the limits, also of the tangent kernel. -/
lemma tracks (hne : B ≠ A) (hB : B < r) (hA' : A < r) (hr1 : S1.length + 2 = r) (hr2 : S2.length + 2 = r)
    (db ds same : Bool) (hx : x2 = none → n2 = n1 ∧ S2 = S1) (h1 : x1.shape = actIdx B A n1 C S1) (h2 : (x2.getD x1).shape = actIdx B A n2 C S2)
    (l : List NtkStage) (hl : ∀ s ∈ l, StageOk s) {dl : List (Dense × Option Act)} (h : List.Forall₂ (fun d s => Stage.Fits r A 1 d s) dl (l.map NtkStage.toStage))
    (hsc : Scaled C dl (l.map (·.scale))) :
    ∃ s, NetSem (fcNet A dl) (.one (C80.inputState x1 x2 db ds true same B A C n1 n2 S1 S2)) (.one s) ∧
      C92.Tracks B A C (draw C r A dl).channels n1 n2 S1 S2 x1 x2 (l.map NtkStage.toStage) s ∧ s.info.diagonalSpatial = ds ∧ s.info.diagonalBatch = db ∧
      s.info.batchAxis = B ∧ s.info.channelAxis = A ∧ s.info.isReversed = false ∧ (l ≠ [] → s.full = true) ∧
      ∃ F, s.L.ntk = some F ∧ ∀ i j p q, i < n1 → j < n2 → InRange p S1 → InRange q S2 → F [i, j] p q = limT B A C l ⟨x1, i, p⟩ ⟨x2.getD x1, j, q⟩ := by
  induction l using List.reverseRecOn generalizing dl with
  | nil =>
    cases h
    have hc : (C35.second none x1 x2 true B A C n1 n2 S1 S2).Closed := by
      intro e
      simp only [C35.second, Option.map_eq_none_iff] at e
      exact hx e
    have hsem : NetSem (.layer .identity id) (.one (C80.inputState x1 x2 db ds true same B A C n1 n2 S1 S2))
        (.one (C80.inputState x1 x2 db ds true same B A C n1 n2 S1 S2)) :=
      .layer (l := .identity) (out := id) (s := C80.inputState x1 x2 db ds true same B A C n1 n2 S1 S2)
        (t := C80.inputState x1 x2 db ds true same B A C n1 n2 S1 S2) hc rfl
    refine ⟨_, hsem, ⟨⟨rfl, rfl, rfl, rfl⟩, h1, h2, hc, fun i j p q _ _ _ _ => rfl, fun i j p q _ _ _ _ => rfl, ?_, ?_⟩, rfl, rfl, rfl, rfl, rfl, fun h => absurd rfl h, ?_⟩
    · cases x2 <;> rfl
    · rintro F x hF rfl i j p q - - - -
      simp only [C80.inputState, C35.second, Option.map_some, Option.some.injEq] at hF
      subst hF
      rfl
    · exact ⟨fun _ _ _ => 0, rfl, fun _ _ _ _ _ _ _ _ => rfl⟩
  | append_singleton l st ih =>
    rw [List.map_append, List.map_singleton] at h hsc
    obtain ⟨dl, d, rfl, hdl, hd⟩ := forall₂_snoc h
    obtain ⟨hsc, hp⟩ := scaled_snoc hsc
    have hl' : ∀ t ∈ l, StageOk t := fun t ht => hl t (by simp [ht])
    have htan : ∀ t ∈ l, Tangent t := fun t ht => (hl' t ht).tangent
    obtain ⟨s, hs, ht, f1, f2, f3, f4, f5, -, F, hF, hFv⟩ := ih hl' hdl hsc
    have hnt : ∃ N T, ∀ f, st.act = some f → ∃ C, (∀ v, 0 ≤ v → C v) ∧ Nonlinearity f.kernelFn C f.fn st.deriv N T := by
      rcases e : st.act with _ | f
      · exact ⟨fun _ _ _ => 0, fun _ _ _ => 0, fun f hf => by simp at hf⟩
      · obtain ⟨-, -, -, Cv, N, T, hCv, hnl⟩ := (hl st (by simp)).act f e
        refine ⟨N, T, fun f' hf => ?_⟩
        obtain rfl : f = f' := by simpa using hf
        exact ⟨Cv, hCv, hnl⟩
    obtain ⟨N, T, hnt⟩ := hnt
    have hsm : ∀ t ∈ l.map NtkStage.toStage, Smooth t := by
      intro t ht
      obtain ⟨t, hmem, rfl⟩ := List.mem_map.1 ht
      exact (htan t hmem).smooth
    obtain ⟨s', a1, a2, a3, a4, a5, a6, a7, a7', a8, a9⟩ := C92.tracks_step hne hB hA' hr1 hr2 hx hsm hnt hd hs ht f1 f2 f3 f4 f5
    rw [← draw_channels (r := r) (A := A)] at hp
    obtain ⟨g1, g2⟩ := grad_scaled hd hp
    refine ⟨s', a1, ?_, a3, a4, a5, a6, a7, fun _ => a7', ?_⟩
    · rw [List.map_append]
      exact a2
    set c := (draw C r A dl).channels with hc
    have pT : ∀ i j p q, i < n1 → j < n2 → InRange p S1 → InRange q S2 → C52.gradW d.1 c * s.L.k12 [i, j] p q + C52.gradB d.1 + d.1.wStd ^ 2 * F [i, j] p q =
        preT st (limK B A C l) (limT B A C l) ⟨x1, i, p⟩ ⟨x2.getD x1, j, q⟩ := by
      intro i j p q hi hj hp hq
      rw [g1, g2, ht.k12 i j p q hi hj hp hq, hFv i j p q hi hj hp hq, hd.wStd]
      rfl
    have psd := fun a b => pre_psd st.toStage (limK_psd (B := B) (A := A) (C := C) htan a b)
    rcases e : st.act with _ | f
    · refine ⟨fun b p q => C52.gradW d.1 c * s.L.k12 b p q + C52.gradB d.1 + d.1.wStd ^ 2 * F b p q, ?_, ?_⟩
      · rw [a8 e]
        simp only [C52.after, hF, Option.map_some]
      · intro i j p q hi hj hp hq
        have e1 : dfn st = fun _ => 1 := by rw [dfn, e]; rfl
        show C52.gradW d.1 c * s.L.k12 [i, j] p q + C52.gradB d.1 + d.1.wStd ^ 2 * F [i, j] p q = _
        rw [pT i j p q hi hj hp hq, limT_snoc, postT, e1, E2_one, one_mul]
    · obtain ⟨Cv, hCv, hnl⟩ := hnt f e
      refine ⟨fun b p q => (C52.gradW d.1 c * s.L.k12 b p q + C52.gradB d.1 + d.1.wStd ^ 2 * F b p q) *
        T ((C52.after d.1 c s.L).k12 b p q) ((C52.after d.1 c s.L).k11 [b.getD 0 0, b.getD 0 0] p p) ((C52.after d.1 c s.L).second [b.getD 1 0, b.getD 1 0] q q), ?_, ?_⟩
      · rw [a9 f e]
        simp only [entrywise, C52.after, hF, Option.map_some]
      · intro i j p q hi hj hp hq
        have e1 : dfn st = st.deriv := by rw [dfn, e]; rfl
        have k12 : (C52.after d.1 c s.L).k12 [i, j] p q = pre st.toStage (limK B A C l) ⟨x1, i, p⟩ ⟨x2.getD x1, j, q⟩ := by
          show d.1.wStd ^ 2 * s.L.k12 [i, j] p q + C52.bVar d.1 = _
          rw [ht.k12 i j p q hi hj hp hq, C52.bVar, hd.wStd, hd.bStd, pre]
          rfl
        have k11 : (C52.after d.1 c s.L).k11 [i, i] p p = pre st.toStage (limK B A C l) ⟨x1, i, p⟩ ⟨x1, i, p⟩ := by
          show d.1.wStd ^ 2 * s.L.k11 [i, i] p p + C52.bVar d.1 = _
          rw [ht.k11 i i p p hi hi hp hp, C52.bVar, hd.wStd, hd.bStd, pre]
          rfl
        have k22 : (C52.after d.1 c s.L).second [j, j] q q = pre st.toStage (limK B A C l) ⟨x2.getD x1, j, q⟩ ⟨x2.getD x1, j, q⟩ := by
          rcases e2 : s.L.k22 with _ | G
          · have e3 : (C52.after d.1 c s.L).k22 = none := by simp [C52.after, e2]
            rw [second_none e3]
            have : x2 = none := by
              have := ht.k22.1
              rw [e2] at this
              cases x2
              · rfl
              · simp at this
            obtain ⟨u1, u2⟩ := hx this
            subst this
            show d.1.wStd ^ 2 * s.L.k11 [j, j] q q + C52.bVar d.1 = _
            rw [ht.k11 j j q q (u1 ▸ hj) (u1 ▸ hj) (u2 ▸ hq) (u2 ▸ hq), C52.bVar, hd.wStd, hd.bStd, pre]
            rfl
          · have e3 : (C52.after d.1 c s.L).k22 = some fun b p q => d.1.wStd ^ 2 * G b p q + C52.bVar d.1 := by simp [C52.after, e2]
            rw [second_some e3]
            have : x2.isSome := by rw [← ht.k22.1, e2]; rfl
            obtain ⟨x, rfl⟩ := Option.isSome_iff_exists.1 this
            show d.1.wStd ^ 2 * G [j, j] q q + C52.bVar d.1 = _
            rw [ht.k22.2 G x e2 rfl j j q q hj hj hq hq, C52.bVar, hd.wStd, hd.bStd, pre]
            rfl
        show _ * T ((C52.after d.1 c s.L).k12 [i, j] p q) ((C52.after d.1 c s.L).k11 [i, i] p p) ((C52.after d.1 c s.L).second [j, j] q q) = _
        rw [pT i j p q hi hj hp hq, k12, k11, k22, pair_dtual hCv hnl (psd _ _), limT_snoc, postT, e1, mul_comm]

/-- The entries of the kernels. -/
lemma finite_entries (n1 n2 : ℕ) (S1 S2 : List ℕ) : ∃ I : Finset (ℕ × ℕ × List ℕ × List ℕ), ∀ e, e ∈ I ↔ e.1 < n1 ∧ e.2.1 < n2 ∧ InRange e.2.2.1 S1 ∧ InRange e.2.2.2 S2 := by
  have fin : ∀ S : List ℕ, {p | InRange p S}.Finite := by
    intro S
    induction S with
    | nil => exact (Set.finite_singleton []).subset fun p hp => by cases hp; rfl
    | cons n S ih =>
      refine (((Set.finite_Iio n).prod ih).image fun x => x.1 :: x.2).subset ?_
      rintro p hp
      rcases hp with _ | ⟨h1, h2⟩
      exact ⟨(_, _), ⟨h1, h2⟩, rfl⟩
  have := ((Set.finite_Iio n1).prod ((Set.finite_Iio n2).prod ((fin S1).prod (fin S2))))
  exact ⟨this.toFinset, fun e => by simp⟩

/-- A union bound. -/
lemma union_bound {α E : Type} [MeasurableSpace E] (μ : Measure E) (I : Finset α) (Q : α → E → Prop) {δ : ℝ} (hδ : 0 ≤ δ)
    (h : ∀ e ∈ I, μ {θ | Q e θ} ≤ ENNReal.ofReal (δ / (I.card + 1))) : μ {θ | ∃ e ∈ I, Q e θ} ≤ ENNReal.ofReal δ := by
  refine (measure_mono (t := ⋃ e ∈ I, {θ | Q e θ}) ?_).trans ((measure_biUnion_finset_le I _).trans ((Finset.sum_le_sum h).trans ?_))
  · rintro θ ⟨e, he, hq⟩
    exact Set.mem_biUnion he hq
  · rw [Finset.sum_const, ← ENNReal.ofReal_nsmul]
    refine ENNReal.ofReal_le_ofReal ?_
    rw [nsmul_eq_mul, mul_div_assoc', div_le_iff₀ (by positivity)]
    nlinarith

/-- The tangent kernel of a wide random network is close to the NTK computed by `kernel_fn`, with high probability.  Take the network
`serial(Dense, phi, ..., Dense, phi, Dense)` of any depth, the last layer having `D` outputs, and inputs `x1` and `x2`.  For every tolerance `ε` and
probability `δ` there is a width `n0` such that for all hidden layers with at least `n0` channels, `kernel_fn` succeeds on the inputs, and if the parameters
are drawn as `init_fn` does, then with probability at least `1 - δ` all inner products of gradients with respect to the parameters of two outputs of `apply_fn`
differ by less than `ε` from the entries of `ntk` if the outputs have the same channel, and from zero otherwise. -/
theorem empirical_ntk_converges (x1 : Arr ℝ) (x2 : Option (Arr ℝ)) (db ds same : Bool) (ba ca : ℤ) (n1 n2 C r : ℕ) (S1 S2 : List ℕ) (B A : ℕ)
    (hr1 : S1.length + 2 = r) (hr2 : S2.length + 2 = r) (hB : (B : ℤ) = ba % r) (hA : (A : ℤ) = ca % r) (hne : B ≠ A)
    (hx : x2 = none → n2 = n1 ∧ S2 = S1) (hds : ds = true → S1 = S2) (h1 : x1.shape = actIdx B A n1 C S1)
    (h2 : (x2.getD x1).shape = actIdx B A n2 C S2) (hC : 0 < C) (stages : List NtkStage) (readout : NtkStage) (hread : readout.act = none)
    (hst : ∀ s ∈ stages, StageOk s) (hreg : Regular B A C n1 n2 S1 S2 x1 (x2.getD x1) (stages ++ [readout])) (D : ℕ) {ε δ : ℝ} (hε : 0 < ε) (hδ : 0 < δ) :
    ∃ n0, ∀ layers d, List.Forall₂ (fun d s => Stage.Fits r A n0 d s) layers (stages.map NtkStage.toStage) → Stage.Fits r A 1 d readout.toStage → d.1.width = D →
      Scaled C (layers ++ [d]) ((stages ++ [readout]).map (·.scale)) →
      ∃ k0 k L F, Inputs.inputsToKernel x1 x2 db ds true ba (some ca) none same = .ok k0 ∧ (fcNet A (layers ++ [d])).run (.one k0) = .ok (.one k) ∧
        k.Stores L ∧ L.ntk = some F ∧ (L.n1, L.n2, L.S1, L.S2) = (n1, n2, S1, S2) ∧ k.diagonalSpatial = ds ∧ k.isReversed = false ∧
        (∀ t, k.ntk = some t → t.shape ≠ []) ∧
        let N := draw C r A (layers ++ [d])
        N.law {θ | ∃ i j p q o o', i < n1 ∧ j < n2 ∧ InRange p S1 ∧ InRange q S2 ∧ o < D ∧ o' < D ∧
          ε ≤ |inner ℝ (gradient (fun θ => (N.apply θ x1).get (actIdx B A i o p)) θ) (gradient (fun θ => (N.apply θ (x2.getD x1)).get (actIdx B A j o' q)) θ) -
            if o = o' then F [i, j] p q else 0|} ≤ ENNReal.ofReal δ := by
  have hBl : B < r := by
    have := Int.emod_lt_of_pos ba (b := (r : ℤ)) (by omega)
    omega
  have hAl : A < r := by
    have := Int.emod_lt_of_pos ca (b := (r : ℤ)) (by omega)
    omega
  have hrok : StageOk readout := ⟨fun f hf => by rw [hread] at hf; simp at hf⟩
  have hall : ∀ s ∈ stages ++ [readout], StageOk s := by
    intro s hs
    rcases List.mem_append.1 hs with hs | hs
    · exact hst s hs
    · rw [List.mem_singleton.1 hs]; exact hrok
  have htan : ∀ s ∈ stages, Tangent s := fun s hs => (hst s hs).tangent
  obtain ⟨I0, hI0⟩ := finite_entries n1 n2 S1 S2
  set I := I0 ×ˢ (Finset.range D ×ˢ Finset.range D) with hI
  have hδm : 0 < δ / (I.card + 1) := by positivity
  have each : ∀ e : ℕ × ℕ × List ℕ × List ℕ, ∃ n0, e ∈ I0 → ∀ dl d, List.Forall₂ (fun d s => Stage.Fits r A n0 d s) dl (stages.map NtkStage.toStage) →
      Stage.Fits r A 1 d readout.toStage → Scaled C (dl ++ [d]) ((stages ++ [readout]).map (·.scale)) → ∀ o o', o < d.1.width → o' < d.1.width →
      (draw C r A (dl ++ [d])).law {θ | ε ≤ |jac B A (draw C r A (dl ++ [d])) ⟨x1, e.1, e.2.2.1⟩ ⟨x2.getD x1, e.2.1, e.2.2.2⟩ o o' θ -
        if o = o' then preT readout (limK B A C stages) (limT B A C stages) ⟨x1, e.1, e.2.2.1⟩ ⟨x2.getD x1, e.2.1, e.2.2.2⟩ else 0|} ≤ ENNReal.ofReal (δ / (I.card + 1)) := by
    intro e
    by_cases he : e ∈ I0
    · obtain ⟨e1, e2, e3, e4⟩ := (hI0 e).1 he
      obtain ⟨n0, h0⟩ := readout_tends hC hne hBl stages htan readout hread (C92.valid1 hr1 h1 e1 e3) (C92.valid1 hr2 h2 e2 e4)
        (steps_of hC hne hBl hall hreg e1 e2 e3 e4) hε hδm
      exact ⟨n0, fun _ => h0⟩
    · exact ⟨0, fun h => absurd h he⟩
  choose nn hn using each
  refine ⟨max 1 (I0.sup nn), fun dl d hdl hd hw hsc => ?_⟩
  have hdl1 : List.Forall₂ (fun d s => Stage.Fits r A 1 d s) dl (stages.map NtkStage.toStage) := hdl.imp fun d s hf => Fits.mono (le_max_left _ _) hf
  have hfits : List.Forall₂ (fun d s => Stage.Fits r A 1 d s) (dl ++ [d]) ((stages ++ [readout]).map NtkStage.toStage) := by
    rw [List.map_append]
    exact List.rel_append hdl1 (.cons hd .nil)
  obtain ⟨k0, e0, f0, g0⟩ := C35.second_moment none db ds true same x1 x2 ba ca n1 n2 C S1 S2 B A (by rw [hB, ← hr1]; push_cast; rfl)
    (by rw [hA, ← hr1]; push_cast; rfl) hne (by omega) hds h1 h2
  obtain ⟨s, hs, ht, g1, g2, g3, g4, g5, g6, F, hF, hFv⟩ := tracks hne hBl hAl hr1 hr2 db ds same hx h1 h2 (stages ++ [readout]) hall hfits hsc
  obtain ⟨y, hy, hr⟩ := net_sound hs (.one _ _ (C80.input_describes f0 g0))
  cases hr with
  | one k _ hk =>
    refine ⟨k0, k, s.L, F, e0, hy, hk.stores, hF, ?_, ?_, ?_, hk.full (g6 (by simp)), ?_⟩
    · rw [ht.dims.1, ht.dims.2.1, ht.dims.2.2.1, ht.dims.2.2.2]
    · rw [← g1, ← hk.static]; rfl
    · rw [← g5, ← hk.static]; rfl
    · intro N
      have hdr : dfn readout = fun _ => 1 := by rw [dfn, hread]; rfl
      refine (measure_mono fun θ hθ => ?_).trans (union_bound N.law I (fun e θ => ε ≤ |jac B A N ⟨x1, e.1.1, e.1.2.2.1⟩ ⟨x2.getD x1, e.1.2.1, e.1.2.2.2⟩ e.2.1 e.2.2 θ -
        if e.2.1 = e.2.2 then preT readout (limK B A C stages) (limT B A C stages) ⟨x1, e.1.1, e.1.2.2.1⟩ ⟨x2.getD x1, e.1.2.1, e.1.2.2.2⟩ else 0|) hδ.le ?_)
      · obtain ⟨i, j, p, q, o, o', hi, hj, hp, hq, ho, ho', h⟩ := hθ
        rw [hFv i j p q hi hj hp hq, limT_snoc, postT, hdr, E2_one, one_mul] at h
        refine ⟨((i, j, p, q), (o, o')), ?_, h⟩
        rw [hI]
        simp only [Finset.mem_product, Finset.mem_range]
        exact ⟨(hI0 _).2 ⟨hi, hj, hp, hq⟩, ho, ho'⟩
      · intro e he
        rw [hI] at he
        simp only [Finset.mem_product, Finset.mem_range] at he
        obtain ⟨h3, h4, h5⟩ := he
        exact hn e.1 h3 dl d (hdl.imp fun d s hf => Fits.mono ((Finset.le_sup h3).trans (le_max_right _ _)) hf) hd hsc e.2.1 e.2.2 (hw ▸ h4) (hw ▸ h5)

/-- The same for networks whose output is wide and may end with a nonlinearity: the averages over the channels of the inner products of the gradients differ
by less than `ε` from the entries of `ntk`. -/
theorem mean_ntk_converges (x1 : Arr ℝ) (x2 : Option (Arr ℝ)) (db ds same : Bool) (ba ca : ℤ) (n1 n2 C r : ℕ) (S1 S2 : List ℕ) (B A : ℕ)
    (hr1 : S1.length + 2 = r) (hr2 : S2.length + 2 = r) (hB : (B : ℤ) = ba % r) (hA : (A : ℤ) = ca % r) (hne : B ≠ A)
    (hx : x2 = none → n2 = n1 ∧ S2 = S1) (hds : ds = true → S1 = S2) (h1 : x1.shape = actIdx B A n1 C S1)
    (h2 : (x2.getD x1).shape = actIdx B A n2 C S2) (hC : 0 < C) (stages : List NtkStage)
    (hst : ∀ s ∈ stages, StageOk s) (hreg : Regular B A C n1 n2 S1 S2 x1 (x2.getD x1) stages) {ε δ : ℝ} (hε : 0 < ε) (hδ : 0 < δ) :
    ∃ n0, ∀ layers, List.Forall₂ (fun d s => Stage.Fits r A n0 d s) layers (stages.map NtkStage.toStage) → Scaled C layers (stages.map (·.scale)) →
      ∃ k0 k L F, Inputs.inputsToKernel x1 x2 db ds true ba (some ca) none same = .ok k0 ∧ (fcNet A layers).run (.one k0) = .ok (.one k) ∧
        k.Stores L ∧ L.ntk = some F ∧ (L.n1, L.n2, L.S1, L.S2) = (n1, n2, S1, S2) ∧ k.diagonalSpatial = ds ∧ k.isReversed = false ∧
        let N := draw C r A layers
        N.law {θ | ∃ i j p q, i < n1 ∧ j < n2 ∧ InRange p S1 ∧ InRange q S2 ∧
          ε ≤ |(∑ c ∈ Finset.range N.channels, inner ℝ (gradient (fun θ => (N.apply θ x1).get (actIdx B A i c p)) θ)
            (gradient (fun θ => (N.apply θ (x2.getD x1)).get (actIdx B A j c q)) θ)) / N.channels - F [i, j] p q|} ≤ ENNReal.ofReal δ := by
  have hBl : B < r := by
    have := Int.emod_lt_of_pos ba (b := (r : ℤ)) (by omega)
    omega
  have hAl : A < r := by
    have := Int.emod_lt_of_pos ca (b := (r : ℤ)) (by omega)
    omega
  have htan : ∀ s ∈ stages, Tangent s := fun s hs => (hst s hs).tangent
  obtain ⟨I, hI⟩ := finite_entries n1 n2 S1 S2
  have hδm : 0 < δ / (I.card + 1) := by positivity
  have each : ∀ e : ℕ × ℕ × List ℕ × List ℕ, ∃ n0, e ∈ I → ∀ dl, List.Forall₂ (fun d s => Stage.Fits r A n0 d s) dl (stages.map NtkStage.toStage) →
      Scaled C dl (stages.map (·.scale)) →
      (draw C r A dl).law {θ | ε ≤ |meanJac B A (draw C r A dl) ⟨x1, e.1, e.2.2.1⟩ ⟨x2.getD x1, e.2.1, e.2.2.2⟩ θ -
        limT B A C stages ⟨x1, e.1, e.2.2.1⟩ ⟨x2.getD x1, e.2.1, e.2.2.2⟩|} ≤ ENNReal.ofReal (δ / (I.card + 1)) := by
    intro e
    by_cases he : e ∈ I
    · obtain ⟨e1, e2, e3, e4⟩ := (hI e).1 he
      obtain ⟨n0, h0⟩ := tangent_tends hC hne hBl stages htan (C92.valid1 hr1 h1 e1 e3) (C92.valid1 hr2 h2 e2 e4)
        (steps_of hC hne hBl hst hreg e1 e2 e3 e4) hε hδm
      exact ⟨n0, fun _ dl h hs => (h0 dl h hs).1⟩
    · exact ⟨0, fun h => absurd h he⟩
  choose nn hn using each
  refine ⟨max 1 (I.sup nn), fun dl hdl hsc => ?_⟩
  have hdl1 : List.Forall₂ (fun d s => Stage.Fits r A 1 d s) dl (stages.map NtkStage.toStage) := hdl.imp fun d s hf => Fits.mono (le_max_left _ _) hf
  obtain ⟨k0, e0, f0, g0⟩ := C35.second_moment none db ds true same x1 x2 ba ca n1 n2 C S1 S2 B A (by rw [hB, ← hr1]; push_cast; rfl)
    (by rw [hA, ← hr1]; push_cast; rfl) hne (by omega) hds h1 h2
  obtain ⟨s, hs, ht, g1, g2, g3, g4, g5, -, F, hF, hFv⟩ := tracks hne hBl hAl hr1 hr2 db ds same hx h1 h2 stages hst hdl1 hsc
  obtain ⟨y, hy, hr⟩ := net_sound hs (.one _ _ (C80.input_describes f0 g0))
  cases hr with
  | one k _ hk =>
    refine ⟨k0, k, s.L, F, e0, hy, hk.stores, hF, ?_, ?_, ?_, ?_⟩
    · rw [ht.dims.1, ht.dims.2.1, ht.dims.2.2.1, ht.dims.2.2.2]
    · rw [← g1, ← hk.static]; rfl
    · rw [← g5, ← hk.static]; rfl
    · intro N
      refine (measure_mono fun θ hθ => ?_).trans (union_bound N.law I (fun e θ => ε ≤ |meanJac B A N ⟨x1, e.1, e.2.2.1⟩ ⟨x2.getD x1, e.2.1, e.2.2.2⟩ θ -
        limT B A C stages ⟨x1, e.1, e.2.2.1⟩ ⟨x2.getD x1, e.2.1, e.2.2.2⟩|) hδ.le ?_)
      · obtain ⟨i, j, p, q, hi, hj, hp, hq, h⟩ := hθ
        rw [hFv i j p q hi hj hp hq] at h
        exact ⟨(i, j, p, q), (hI _).2 ⟨hi, hj, hp, hq⟩, h⟩
      · intro e he
        exact hn e he dl (hdl.imp fun d s hf => Fits.mono ((Finset.le_sup he).trans (le_max_right _ _)) hf) hsc

/-- The inner products of gradients do not depend on the coordinates of the parameters. -/
lemma inner_gradient_comp {E F : Type} [NormedAddCommGroup E] [InnerProductSpace ℝ E] [CompleteSpace E] [NormedAddCommGroup F] [InnerProductSpace ℝ F]
    [CompleteSpace F] (e : E ≃ₗᵢ[ℝ] F) (f g : F → ℝ) (θ : F) :
    inner ℝ (gradient (fun x => f (e x)) (e.symm θ)) (gradient (fun x => g (e x)) (e.symm θ)) = inner ℝ (gradient f θ) (gradient g θ) := by
  have key : ∀ f : F → ℝ, gradient (fun x => f (e x)) (e.symm θ) = e.symm (gradient f θ) := by
    intro f
    refine ext_inner_right ℝ fun v => ?_
    have h1 : inner ℝ (gradient (fun x => f (e x)) (e.symm θ)) v = fderiv ℝ (f ∘ e.toContinuousLinearEquiv) (e.symm θ) v := by
      rw [gradient, InnerProductSpace.toDual_symm_apply]
      rfl
    have h2 : inner ℝ (e.symm (gradient f θ)) v = inner ℝ (gradient f θ) (e v) := by
      rw [← e.inner_map_map, e.apply_symm_apply]
    rw [h1, h2, gradient, InnerProductSpace.toDual_symm_apply, ContinuousLinearEquiv.comp_right_fderiv]
    show fderiv ℝ f (e (e.symm θ)) (e v) = _
    rw [e.apply_symm_apply]
  rw [key, key, e.symm.inner_map_map]

/-- A mean of numbers close to `t` is close to `t`. -/
lemma abs_mean_sub_lt {D : ℕ} (hD : 0 < D) {f : ℕ → ℝ} {t ε : ℝ} (h : ∀ c < D, |f c - t| < ε) : |(∑ c ∈ Finset.range D, f c) / D - t| < ε := by
  have hD' : (0 : ℝ) < D := by exact_mod_cast hD
  have e : (∑ c ∈ Finset.range D, f c) / D - t = (∑ c ∈ Finset.range D, (f c - t)) / D := by
    rw [Finset.sum_sub_distrib, Finset.sum_const, Finset.card_range, nsmul_eq_mul]
    field_simp
  rw [e, abs_div, abs_of_pos hD', div_lt_iff₀ hD']
  refine (Finset.abs_sum_le_sum_abs _ _).trans_lt ?_
  have : ε * D = ∑ _c ∈ Finset.range D, ε := by rw [Finset.sum_const, Finset.card_range, nsmul_eq_mul, mul_comm]
  rw [this]
  exact Finset.sum_lt_sum_of_nonempty ⟨0, Finset.mem_range.2 hD⟩ fun c hc => h c (Finset.mem_range.1 hc)

/-- `empirical_ntk_fn` with the default arguments, for inputs without spatial axes, is close to `kernel_fn(x1, x2, 'ntk')` with high probability.  The
parameters may be laid out in arrays in any way. -/
theorem empirical_ntk_fn_converges (x1 : Arr ℝ) (x2 : Option (Arr ℝ)) (same : Bool) (n1 n2 C : ℕ) (hx : x2 = none → n2 = n1)
    (h1 : x1.shape = [n1, C]) (h2 : (x2.getD x1).shape = [n2, C]) (hC : 0 < C) (stages : List NtkStage) (readout : NtkStage) (hread : readout.act = none)
    (hst : ∀ s ∈ stages, StageOk s) (hreg : Regular 0 1 C n1 n2 [] [] x1 (x2.getD x1) (stages ++ [readout])) (D : ℕ) (hD : 0 < D)
    {ε δ : ℝ} (hε : 0 < ε) (hδ : 0 < δ) :
    ∃ n0, ∀ layers d, List.Forall₂ (fun d s => Stage.Fits 2 1 n0 d s) layers (stages.map NtkStage.toStage) → Stage.Fits 2 1 1 d readout.toStage → d.1.width = D →
      Scaled C (layers ++ [d]) ((stages ++ [readout]).map (·.scale)) →
      ∃ k0 k t, Inputs.inputsToKernel x1 x2 false false true 0 (some (-1)) none same = .ok k0 ∧ (fcNet 1 (layers ++ [d])).run (.one k0) = .ok (.one k) ∧
        k.ntk = some t ∧ t.shape = [n1, n2] ∧
        let N := draw C 2 1 (layers ++ [d])
        ∀ {m : ℕ} {P : Fin (m + 1) → List ℕ} (e : Emp.Params P ≃ₗᵢ[ℝ] N.E),
          N.law {θ | ¬ ∃ a, Emp.ntkJacobian (fun w => N.apply (e w) x1) (fun w => N.apply (e w) (x2.getD x1)) (e.symm θ) [-1] [] = .ok a ∧ a.shape = [n1, n2] ∧
            ∀ i j, i < n1 → j < n2 → |a.get [i, j] - t.get [i, j]| < ε} ≤ ENNReal.ofReal δ := by
  obtain ⟨n0, h0⟩ := empirical_ntk_converges x1 x2 false false same 0 (-1) n1 n2 C 2 [] [] 0 1 rfl rfl rfl rfl (by decide) (fun h => ⟨hx h, rfl⟩) (by simp) h1 h2 hC
    stages readout hread hst hreg D hε hδ
  refine ⟨max n0 1, fun layers d hl hd hw hsc => ?_⟩
  obtain ⟨k0, k, L, F, e0, e1, hk, hF, hdim, hds, hrev, hfull, hp⟩ := h0 layers d (hl.imp fun d s hf => Fits.mono (le_max_left _ _) hf) hd hw hsc
  simp only [Prod.mk.injEq] at hdim
  have hn := hk.ntk
  rw [hF] at hn
  rcases et : k.ntk with _ | t
  · rw [et] at hn; cases hn
  rw [et] at hn
  replace hn := Or.resolve_left hn fun h => hfull t et h.1
  refine ⟨k0, k, t, e0, e1, et, ?_, ?_⟩
  · rw [hn.shape, hdim.1, hdim.2.1, hdim.2.2.1, hdim.2.2.2, hds, hrev]; rfl
  intro N m P e
  have hG : Good 0 1 C 2 N := good_draw hC (by decide) (by decide) ((stages ++ [readout]).map NtkStage.toStage) (fun s hs => by
      obtain ⟨t, ht, rfl⟩ := List.mem_map.1 hs
      rcases List.mem_append.1 ht with ht | ht
      · exact (hst t ht).tangent.smooth
      · rw [List.mem_singleton.1 ht]
        exact (StageOk.tangent ⟨fun f hf => by rw [hread] at hf; simp at hf⟩).smooth) one_pos (by
    rw [List.map_append]
    exact List.rel_append (hl.imp fun d s hf => Fits.mono (le_max_right n0 1) hf) (.cons hd .nil))
  have hch : N.channels = D := by
    rw [draw_channels, ← hw]
    simp [chans]
  refine (measure_mono fun θ hθ => ?_).trans hp
  by_contra hc
  refine hθ ?_
  have s1 : (N.apply (e (e.symm θ)) x1).shape = [n1, D] := hch ▸ hG.shape x1 n1 [] rfl h1 _
  have s2 : (N.apply (e (e.symm θ)) (x2.getD x1)).shape = [n2, D] := hch ▸ hG.shape _ n2 [] rfl h2 _
  have ax : ReducedAxes 2 [-1] [] [1] [] := by
    refine ⟨⟨by decide, by decide, fun a => ?_⟩, ⟨by decide, by decide, fun a => ?_⟩, by decide⟩
    · simp only [List.mem_cons, List.not_mem_nil, or_false]; omega
    · simp
  obtain ⟨a, ha, hr⟩ := C72.jacobian_contraction (fun w => N.apply (e w) x1) (fun w => N.apply (e w) (x2.getD x1)) (e.symm θ) [-1] [] [1] []
    (by simp only [Arr.ndim, s1, s2]; rfl) (by simp only [Arr.ndim, s1]; exact ax) (by simp [DistinctAxes]) (by simp only [s1, s2]; rfl) rfl
  simp only [s1, s2] at hr
  refine ⟨a, ha, hr.shape, fun i j hi hj => ?_⟩
  have ek := hn.get [i, j] [] [] (by rw [hdim.1, hdim.2.1]; exact .cons hi (.cons hj .nil)) (by rw [hdim.2.2.1]; exact .nil) (by rw [hdim.2.2.2]; exact .nil) fun _ => rfl
  have e' : t.get [i, j] = F [i, j] [] [] := by
    rw [← ek]
    congr 1
    rw [hds, hrev]
    rfl
  have ea := hr.get [i, 0] [j, 0] ⟨rfl, by
      intro a ha ha'
      simp only [List.length_cons, List.length_nil, List.mem_cons, List.not_mem_nil, or_false] at ha ha'
      obtain rfl : a = 0 := by omega
      exact hi⟩
    ⟨rfl, by
      intro a ha ha'
      simp only [List.length_cons, List.length_nil, List.mem_cons, List.not_mem_nil, or_false] at ha ha'
      obtain rfl : a = 0 := by omega
      exact hj⟩ (by simp)
  have ea' : a.get [i, j] = (∑ c ∈ Finset.range D, inner ℝ (gradient (fun θ => (N.apply θ x1).get [i, c]) θ)
      (gradient (fun θ => (N.apply θ (x2.getD x1)).get [j, c]) θ)) / D := by
    refine ea.trans ?_
    show (Arr.sumOver [D] _) / ((([D] : List ℕ).prod : ℕ) : ℝ) = _
    rw [sumOver_singleton, List.prod_singleton, ← List.sum_toFinset _ List.nodup_range, List.toFinset_range]
    congr 1
    exact Finset.sum_congr rfl fun c _ => inner_gradient_comp e (fun θ => (N.apply θ x1).get [i, c]) (fun θ => (N.apply θ (x2.getD x1)).get [j, c]) θ
  rw [e', ea']
  refine abs_mean_sub_lt hD fun c hcD => ?_
  by_contra hh
  refine hc ⟨i, j, [], [], c, c, hi, hj, .nil, .nil, hcD, hcD, ?_⟩
  rw [if_pos rfl]
  exact not_lt.1 hh

/-! ### Non-vacuity -/

/-- The networks have finitely many parameters. -/
lemma draw_finite (C r A : ℕ) (l : List (Dense × Option Act)) : FiniteDimensional ℝ (draw C r A l).E := by
  induction l using List.reverseRecOn with
  | nil => exact inferInstanceAs (FiniteDimensional ℝ (EuclideanSpace ℝ (Fin 0)))
  | append_singleton l d ih =>
    rw [draw_snoc]
    have : FiniteDimensional ℝ (Ext (draw C r A l).E (C52.Idx (draw C r A l).channels d.1.width (C52.nBias d.1))) := by
      unfold Ext
      infer_instance
    obtain ⟨d, _ | f⟩ := d
    · exact this
    · exact this

/-- There is a layout of the parameters, for instance one array with as many entries as there are parameters. -/
lemma exists_layout (N : RandomNet) [FiniteDimensional ℝ N.E] :
    Nonempty (Emp.Params (fun _ : Fin (0 + 1) => [Module.finrank ℝ N.E]) ≃ₗᵢ[ℝ] N.E) := by
  have hc : Fintype.card (Σ _ : Fin (0 + 1), {p // p ∈ box [Module.finrank ℝ N.E]}) = Module.finrank ℝ N.E := by
    have e : box [Module.finrank ℝ N.E] = (Finset.range (Module.finrank ℝ N.E)).image fun k => [k] := by
      ext p
      simp [box, Arr.indices, List.mem_flatMap, eq_comm]
    rw [Fintype.card_sigma]
    simp only [Fintype.card_coe, e]
    rw [Finset.card_image_of_injective _ fun a b h => by simpa using h, Finset.card_range]
    simp
  have e := (stdOrthonormalBasis ℝ N.E).repr
  refine ⟨(LinearIsometryEquiv.piLpCongrLeft 2 ℝ ℝ (Fintype.equivFinOfCardEq hc)).trans e.symm⟩

/-- `Relu` after `Dense(W_std=1.5, b_std=0.1)`. -/
noncomputable def exStages : List NtkStage :=
  [⟨⟨3 / 2, some (1 / 10), some ⟨fun x => 0 * min x 0 + 1 * max x 0, (abReluDual 0 1).kernelFn⟩⟩, none, C44.slope 0 1⟩]

/-- A readout without bias in the standard parameterization. -/
noncomputable def exReadout : NtkStage := ⟨⟨1, none, none⟩, some 1, fun _ => 1⟩

noncomputable def exLayers (n : ℕ) : List (Dense × Option Act) :=
  [(⟨n, 3 / 2, some (1 / 10), -1, .ntk, (1, 1)⟩, some ⟨fun x => 0 * min x 0 + 1 * max x 0, (abReluDual 0 1).kernelFn⟩)]

noncomputable def exLast (n : ℕ) : Dense × Option Act := (⟨2, 1, none, 1, .standard, (n, 1)⟩, none)

lemma relu_bound (x : ℝ) : |0 * min x 0 + 1 * max x 0| ≤ 1 * (1 + |x|) ^ 1 := by
  simp only [zero_mul, one_mul, zero_add, pow_one]
  rw [abs_of_nonneg (le_max_right _ _)]
  exact max_le (by linarith [le_abs_self x]) (by linarith [abs_nonneg x])

lemma ex_ok : ∀ s ∈ exStages, StageOk s := by
  intro s hs
  simp only [exStages, List.mem_singleton] at hs
  subst hs
  refine ⟨fun f hf => ?_⟩
  simp only [Option.some.injEq] at hf
  subst hf
  refine ⟨by fun_prop, ⟨1, 1, relu_bound⟩, ⟨1, fun x => ?_⟩, abRelu_slope 0 1⟩
  show |C44.slope 0 1 x| ≤ 1
  unfold C44.slope
  split_ifs <;> norm_num

lemma slope_near_pos {x : ℝ} (h : 0 < x) : ∀ᶠ y in 𝓝 x, C44.slope 0 1 y = 1 ∧ 0 * min y 0 + 1 * max y 0 = y := by
  filter_upwards [lt_mem_nhds h] with y hy
  rw [C44.slope, if_neg hy.not_gt, if_pos hy, max_eq_left hy.le]
  simp

lemma slope_near_neg {x : ℝ} (h : x < 0) : ∀ᶠ y in 𝓝 x, C44.slope 0 1 y = 0 ∧ 0 * min y 0 + 1 * max y 0 = 0 := by
  filter_upwards [gt_mem_nhds h] with y hy
  rw [C44.slope, if_pos hy, max_eq_right hy.le]
  simp

lemma ex_kinked : ∀ s ∈ exStages ++ [exReadout], StageKinked s := by
  intro s hs
  simp only [exStages, List.singleton_append, List.mem_cons, List.not_mem_nil, or_false] at hs
  rcases hs with rfl | rfl
  · refine ⟨by norm_num, fun b hb => ?_, fun f hf => ?_⟩
    · simp only [Option.some.injEq] at hb
      subst hb
      norm_num
    · simp only [Option.some.injEq] at hf
      subst hf
      refine ⟨⟨1, by norm_num⟩, {0}, Set.countable_singleton 0, fun x hx => ?_⟩
      rcases lt_or_gt_of_ne (show x ≠ 0 from hx) with h | h
      · have ev := slope_near_neg h
        refine ⟨?_, ?_, fun _ => ev.mono fun y hy => hy.2⟩
        · show HasDerivAt _ (C44.slope 0 1 x) x
          rw [ev.self_of_nhds.1]
          exact (hasDerivAt_const x (0 : ℝ)).congr_of_eventuallyEq (ev.mono fun y hy => hy.2)
        · exact (continuousAt_const (y := (0 : ℝ))).congr (ev.mono fun y hy => hy.1.symm)
      · have ev := slope_near_pos h
        refine ⟨?_, ?_, fun h0 => ?_⟩
        · show HasDerivAt _ (C44.slope 0 1 x) x
          rw [ev.self_of_nhds.1]
          exact (hasDerivAt_id x).congr_of_eventuallyEq (ev.mono fun y hy => hy.2)
        · exact (continuousAt_const (y := (1 : ℝ))).congr (ev.mono fun y hy => hy.1.symm)
        · exact absurd (ev.self_of_nhds.2.symm.trans h0) h.ne'
  · exact ⟨by norm_num [exReadout], fun b hb => by simp [exReadout] at hb, fun f hf => by simp [exReadout] at hf⟩

lemma ex_fits (n : ℕ) : List.Forall₂ (fun d s => Stage.Fits 2 1 n d s) (exLayers n) (exStages.map NtkStage.toStage) := by
  refine .cons ⟨rfl, rfl, rfl, by simp, by simp, ?_, ?_, ?_⟩ .nil
  · show ((1 : ℕ) : ℤ) = (-1) % ((2 : ℕ) : ℤ)
    decide
  · show -((2 : ℕ) : ℤ) ≤ -1 ∧ -1 < ((2 : ℕ) : ℤ)
    decide
  · simp [Dense.width]

lemma ex_last (n : ℕ) (hn : 0 < n) : Stage.Fits 2 1 1 (exLast n) exReadout.toStage := by
  refine ⟨rfl, rfl, rfl, by simp [exLast], fun _ => hn, ?_, ?_, ?_⟩
  · show ((1 : ℕ) : ℤ) = 1 % ((2 : ℕ) : ℤ)
    decide
  · show -((2 : ℕ) : ℤ) ≤ 1 ∧ 1 < ((2 : ℕ) : ℤ)
    decide
  · simp [exLast, Dense.width]

lemma ex_scaled (n : ℕ) (hn : 0 < n) : Scaled 3 (exLayers n ++ [exLast n]) ((exStages ++ [exReadout]).map (·.scale)) := by
  refine ⟨rfl, ⟨rfl, ?_⟩, trivial⟩
  show (((⟨n, 3 / 2, some (1 / 10), -1, .ntk, (1, 1)⟩ : Dense).width : ℕ) : ℝ) / ((n : ℕ) : ℝ) = 1
  have : ((n : ℕ) : ℝ) ≠ 0 := by exact_mod_cast hn.ne'
  simp [Dense.width, this]

/-- A `Relu` network with two outputs and two inputs of two examples each; all widths above some bound. -/
example : ∃ n0, ∀ n, n0 ≤ n → 0 < n → ∃ k0 k t, Inputs.inputsToKernel (⟨[2, 3], fun i => i.getD 1 0 + 1⟩ : Arr ℝ) (some ⟨[2, 3], fun i => i.getD 0 0 + i.getD 1 0⟩)
      false false true 0 (some (-1)) none false = .ok k0 ∧ (fcNet 1 (exLayers n ++ [exLast n])).run (.one k0) = .ok (.one k) ∧ k.ntk = some t ∧ t.shape = [2, 2] ∧
      let N := draw 3 2 1 (exLayers n ++ [exLast n])
      ∃ e : Emp.Params (fun _ : Fin (0 + 1) => [Module.finrank ℝ N.E]) ≃ₗᵢ[ℝ] N.E,
        N.law {θ | ¬ ∃ a, Emp.ntkJacobian (fun w => N.apply (e w) ⟨[2, 3], fun i => i.getD 1 0 + 1⟩) (fun w => N.apply (e w) ⟨[2, 3], fun i => i.getD 0 0 + i.getD 1 0⟩)
          (e.symm θ) [-1] [] = .ok a ∧ a.shape = [2, 2] ∧ ∀ i j, i < 2 → j < 2 → |a.get [i, j] - t.get [i, j]| < 1 / 100} ≤ ENNReal.ofReal (1 / 1000) := by
  have r1 : NonzeroInputs 0 1 3 2 [] (⟨[2, 3], fun i => i.getD 1 0 + 1⟩ : Arr ℝ) := by
    intro i p _ hp
    cases hp
    refine ⟨0, by norm_num, ?_⟩
    show ((0 : ℕ) : ℝ) + 1 ≠ 0
    norm_num
  have r2 : NonzeroInputs 0 1 3 2 [] (⟨[2, 3], fun i => i.getD 0 0 + i.getD 1 0⟩ : Arr ℝ) := by
    intro i p _ hp
    cases hp
    refine ⟨1, by norm_num, ?_⟩
    show ((i : ℕ) : ℝ) + ((1 : ℕ) : ℝ) ≠ 0
    positivity
  obtain ⟨n0, h⟩ := empirical_ntk_fn_converges ⟨[2, 3], fun i => i.getD 1 0 + 1⟩ (some ⟨[2, 3], fun i => i.getD 0 0 + i.getD 1 0⟩) false 2 2 3 (by simp) rfl rfl
    (by norm_num) exStages exReadout rfl ex_ok (.inr ⟨ex_kinked, .inl ⟨r1, r2⟩⟩) 2 (by norm_num) (ε := 1 / 100) (δ := 1 / 1000) (by norm_num) (by norm_num)
  refine ⟨n0, fun n hn hp => ?_⟩
  obtain ⟨k0, k, t, e0, e1, e2, e3, e4⟩ := h (exLayers n) (exLast n) ((ex_fits n).imp fun d s hf => Fits.mono hn hf) (ex_last n hp) rfl (ex_scaled n hp)
  refine ⟨k0, k, t, e0, e1, e2, e3, ?_⟩
  intro N
  have := draw_finite 3 2 1 (exLayers n ++ [exLast n])
  obtain ⟨e⟩ := exists_layout N
  exact ⟨e, e4 e⟩

/-- `Sin`, where also zero inputs are allowed, and with an output of the width of the hidden layers. -/
example : ∀ s ∈ [(⟨⟨1, none, some ⟨fun x => 1 * Real.sin (1 * x + 0), (sinDual 1 1 0).kernelFn⟩⟩, none, fun x => 1 * (1 * Real.cos (1 * x + 0))⟩ : NtkStage)],
    StageOk s ∧ StageSmooth s := by
  intro s hs
  simp only [List.mem_singleton] at hs
  subst hs
  refine ⟨⟨fun f hf => ?_⟩, ⟨fun f hf => ?_⟩⟩ <;> simp only [Option.some.injEq] at hf <;> subst hf
  · refine ⟨by fun_prop, ⟨1, 0, fun x => ?_⟩, ⟨1, fun x => ?_⟩, sin_cos 1 1 0⟩
    · simpa using Real.abs_sin_le_one _
    · simpa using Real.abs_cos_le_one _
  · refine ⟨by fun_prop, fun x => ?_⟩
    simp only [one_mul, add_zero]
    exact Real.hasDerivAt_sin x

end NT.C93
