import Verif.Tac
import Verif.Lemmas.WideNet
import Verif.Lemmas.Semantics
import Verif.Lemmas.Closed
import Verif.Lemmas.Nonlinearity
import Verif.Lemmas.Ntk
import Verif.Props.C80

/-!
# C92: wide random networks have the covariance that `kernel_fn` computes
-/

namespace NT.C92
open NT NT.Network NT.Spec NT.Semantics NT.Wide NT.Gauss MeasureTheory ProbabilityTheory

/-- The nonlinearity is continuous, grows at most polynomially, and its layer has the `kernel_fn` of the nonlinearity for all variances. -/
structure StageOk (s : Stage) : Prop where
  act : ∀ f, s.act = some f → Continuous f.fn ∧ (∃ C n, ∀ x, |f.fn x| ≤ C * (1 + |x|) ^ n) ∧
    ∃ C dφ N T, (∀ v, 0 ≤ v → C v) ∧ Nonlinearity f.kernelFn C f.fn dφ N T

lemma StageOk.smooth {s : Stage} (h : StageOk s) : Smooth s := by
  obtain ⟨w, b, _ | f⟩ := s
  · exact ⟨continuous_id, Tame.id⟩
  · obtain ⟨h1, h2, -⟩ := h.act f rfl
    exact ⟨h1, h1.measurable, h2⟩

lemma actIdx_set (B A n c w : ℕ) (S : List ℕ) (hne : B ≠ A) (hB : B < S.length + 2) (hA : A < S.length + 2) :
    (actIdx B A n c S).set A w = actIdx B A n w S := by
  rw [actIdx_insert B A n c S hne hB hA, actIdx_insert B A n w S hne hB hA]
  generalize S.insertIdx (newAxis B A) n = l
  clear hne hB hA
  induction A generalizing l with
  | zero => rfl
  | succ A ih =>
    cases l with
    | nil => rfl
    | cons y l => simpa using ih l

/-- The description of the kernel after some stages: its entries are the limits. -/
structure Tracks (B A C c n1 n2 : ℕ) (S1 S2 : List ℕ) (x1 : Arr ℝ) (x2 : Option (Arr ℝ)) (l : List Stage) (s : State) : Prop where
  dims : s.L.n1 = n1 ∧ s.L.n2 = n2 ∧ s.L.S1 = S1 ∧ s.L.S2 = S2
  shape1 : s.info.shape1 = actIdx B A n1 c S1
  shape2 : s.info.shape2 = actIdx B A n2 c S2
  closed : s.L.Closed
  k12 : ∀ i j p q, i < n1 → j < n2 → InRange p S1 → InRange q S2 → s.L.k12 [i, j] p q = lim B A C l ⟨x1, i, p⟩ ⟨x2.getD x1, j, q⟩
  k11 : ∀ i j p q, i < n1 → j < n1 → InRange p S1 → InRange q S1 → s.L.k11 [i, j] p q = lim B A C l ⟨x1, i, p⟩ ⟨x1, j, q⟩
  k22 : s.L.k22.isSome = x2.isSome ∧ ∀ F x, s.L.k22 = some F → x2 = some x → ∀ i j p q, i < n2 → j < n2 → InRange p S2 → InRange q S2 →
    F [i, j] p q = lim B A C l ⟨x, i, p⟩ ⟨x, j, q⟩

/-- The network with one more stage. -/
noncomputable def growNet (A : ℕ) (N : Net) (d : Dense × Option Act) : Net :=
  match d.2 with
  | none => N.seq (.layer (.dense d.1) fun s => s.set A d.1.width)
  | some f => (N.seq (.layer (.dense d.1) fun s => s.set A d.1.width)).seq (.layer (.act f.kernelFn) id)

lemma fcNet_snoc (A : ℕ) (ds : List (Dense × Option Act)) (d : Dense × Option Act) : fcNet A (ds ++ [d]) = growNet A (fcNet A ds) d := by
  unfold fcNet
  rw [List.foldl_append]
  rfl

lemma pair_dual {f : Act} {C : ℝ → Prop} {dφ : ℝ → ℝ} {N T : ℝ → ℝ → ℝ → ℝ} (hC : ∀ v, 0 ≤ v → C v) (h : Nonlinearity f.kernelFn C f.fn dφ N T)
    {q11 q12 q22 : ℝ} (hq : Psd (q11, q12, q22)) : N q12 q11 q22 = E2 f.fn f.fn (q11, q12, q22) := by
  rw [h.nngp _ q11 q12 q22 (msqrt_pair hq) (hC _ hq.1) (hC _ hq.2.1)]
  exact E2_eq (msqrt_pair hq) h.meas.1 h.meas.1

lemma E2_id {q11 q12 q22 : ℝ} (hq : Psd (q11, q12, q22)) : E2 (fun x => x) (fun x => x) (q11, q12, q22) = q12 := by
  exact (E2_eq (msqrt_pair hq) (g := fun x => x) (h := fun x => x) measurable_id measurable_id).symm.trans (msqrt_pair hq).cov

variable {B A C r n1 n2 : ℕ} {S1 S2 : List ℕ} {x1 : Arr ℝ} {x2 : Option (Arr ℝ)}

lemma valid1 (hr1 : S1.length + 2 = r) (h1 : x1.shape = actIdx B A n1 C S1) {i : ℕ} {p : List ℕ} (hi : i < n1) (hp : InRange p S1) :
    Pt.Valid B A C r ⟨x1, i, p⟩ := ⟨n1, S1, hr1, h1, hi, hp⟩

lemma pyGet_axis {d : Dense} {n c : ℕ} {S : List ℕ} (hr : S.length + 2 = r) (hne : B ≠ A) (hB : B < r) (hA : (A : ℤ) = d.channelAxis % r)
    (hd : -(r : ℤ) ≤ d.channelAxis ∧ d.channelAxis < r) : pyGetNat (actIdx B A n c S) d.channelAxis = .ok c := by
  subst hr
  have hAl : A < S.length + 2 := by
    have := Int.emod_lt_of_pos d.channelAxis (b := ((S.length + 2 : ℕ) : ℤ)) (by omega)
    omega
  unfold pyGetNat
  rw [actIdx_length B A n c S hne hB hAl, if_pos hd, ← hA]
  exact congrArg Except.ok (Inputs.getD_actIdx_c B A n c S hne hB hAl)

/-- The kernel functions of one more stage compute its limits. -/
lemma tracks_step (hne : B ≠ A) (hB : B < r) (hA' : A < r) (hr1 : S1.length + 2 = r) (hr2 : S2.length + 2 = r) (hx : x2 = none → n2 = n1 ∧ S2 = S1)
    {db ds : Bool} {l : List Stage} (hsm : ∀ s ∈ l, Smooth s) {st : Stage} {dφ : ℝ → ℝ} {N T : ℝ → ℝ → ℝ → ℝ}
    (hnt : ∀ f, st.act = some f → ∃ C, (∀ v, 0 ≤ v → C v) ∧ Nonlinearity f.kernelFn C f.fn dφ N T) {n : ℕ} {dl : List (Dense × Option Act)} {d : Dense × Option Act}
    (hd : Stage.Fits r A n d st) {s0 s : State} (hs : NetSem (fcNet A dl) (.one s0) (.one s))
    (ht : Tracks B A C (draw C r A dl).channels n1 n2 S1 S2 x1 x2 l s) (f1 : s.info.diagonalSpatial = ds) (f2 : s.info.diagonalBatch = db)
    (f3 : s.info.batchAxis = B) (f4 : s.info.channelAxis = A) (f5 : s.info.isReversed = false) :
    ∃ s', NetSem (fcNet A (dl ++ [d])) (.one s0) (.one s') ∧
      Tracks B A C (draw C r A (dl ++ [d])).channels n1 n2 S1 S2 x1 x2 (l ++ [st]) s' ∧ s'.info.diagonalSpatial = ds ∧ s'.info.diagonalBatch = db ∧
      s'.info.batchAxis = B ∧ s'.info.channelAxis = A ∧ s'.info.isReversed = false ∧ s'.full = true ∧
      (st.act = none → s'.L.ntk = (C52.after d.1 (draw C r A dl).channels s.L).ntk) ∧
      ∀ f, st.act = some f → s'.L.ntk = (entrywise N T (C52.after d.1 (draw C r A dl).channels s.L)).ntk := by
  rw [fcNet_snoc, draw_snoc]
  set c := (draw C r A dl).channels with hc
  have hsem : LayerSem (.dense d.1) s { s with L := C52.after d.1 c s.L, info := { s.info with isGaussian := true, isInput := false }, full := true } := by
    refine ⟨hd.param, hd.sample, c, ?_, ?_, rfl⟩
    · rw [ht.shape1]; exact pyGet_axis hr1 hne hB hd.axis hd.inRange
    · rw [ht.shape2]; exact pyGet_axis hr2 hne hB hd.axis hd.inRange
  have hcl := layer_closed ht.closed hsem
  set t := State.withShapes (s.info.shape1.set A d.1.width) (s.info.shape2.set A d.1.width)
    { s with L := C52.after d.1 c s.L, info := { s.info with isGaussian := true, isInput := false }, full := true } with htd
  have hnet : NetSem ((fcNet A dl).seq (.layer (.dense d.1) fun s => s.set A d.1.width)) (.one s0) (.one t) :=
    .seq hs (.layer ht.closed hsem)
  have sh1 : t.info.shape1 = actIdx B A n1 d.1.width S1 := by
    show s.info.shape1.set A d.1.width = _
    rw [ht.shape1, actIdx_set B A n1 c _ S1 hne (hr1 ▸ hB) (hr1 ▸ hA')]
  have sh2 : t.info.shape2 = actIdx B A n2 d.1.width S2 := by
    show s.info.shape2.set A d.1.width = _
    rw [ht.shape2, actIdx_set B A n2 c _ S2 hne (hr2 ▸ hB) (hr2 ▸ hA')]
  have psd := fun a b => pre_psd st (lim_psd (B := B) (A := A) (C := C) l hsm a b)
  have p12 : ∀ i j p q, i < n1 → j < n2 → InRange p S1 → InRange q S2 → t.L.k12 [i, j] p q = pre st (lim B A C l) ⟨x1, i, p⟩ ⟨x2.getD x1, j, q⟩ := by
    intro i j p q hi hj hp hq
    show d.1.wStd ^ 2 * s.L.k12 [i, j] p q + C52.bVar d.1 = _
    rw [ht.k12 i j p q hi hj hp hq, C52.bVar, hd.wStd, hd.bStd, pre]
  have p11 : ∀ i j p q, i < n1 → j < n1 → InRange p S1 → InRange q S1 → t.L.k11 [i, j] p q = pre st (lim B A C l) ⟨x1, i, p⟩ ⟨x1, j, q⟩ := by
    intro i j p q hi hj hp hq
    show d.1.wStd ^ 2 * s.L.k11 [i, j] p q + C52.bVar d.1 = _
    rw [ht.k11 i j p q hi hj hp hq, C52.bVar, hd.wStd, hd.bStd, pre]
  have i22 : t.L.k22.isSome = x2.isSome := by
    rw [← ht.k22.1]
    show (s.L.k22.map _).isSome = _
    rw [Option.isSome_map]
  have p22 : ∀ F x, t.L.k22 = some F → x2 = some x → ∀ i j p q, i < n2 → j < n2 → InRange p S2 → InRange q S2 →
      F [i, j] p q = pre st (lim B A C l) ⟨x, i, p⟩ ⟨x, j, q⟩ := by
    intro F x hF hx i j p q hi hj hp hq
    have hF' : s.L.k22.map (fun F b p q => d.1.wStd ^ 2 * F b p q + C52.bVar d.1) = some F := hF
    obtain ⟨G, hG, rfl⟩ := Option.map_eq_some_iff.1 hF'
    show d.1.wStd ^ 2 * G [i, j] p q + C52.bVar d.1 = _
    rw [ht.k22.2 G x hG hx i j p q hi hj hp hq, C52.bVar, hd.wStd, hd.bStd, pre]
  have dims : t.L.n1 = n1 ∧ t.L.n2 = n2 ∧ t.L.S1 = S1 ∧ t.L.S2 = S2 := ht.dims
  obtain ⟨d, da⟩ := d
  rcases da with _ | f
  · have hfn : fn st.act = fun x => x := by rw [← hd.act]; rfl
    have id' : ∀ a b, post (lim B A C l) st a b = pre st (lim B A C l) a b := fun a b => by
      rw [post, hfn]
      exact E2_id (psd a b)
    refine ⟨t, hnet, ⟨dims, sh1, sh2, hcl, ?_, ?_, i22, ?_⟩, f1, f2, f3, f4, f5, rfl, ?_⟩
    · intro i j p q hi hj hp hq; rw [lim_snoc, id', p12 i j p q hi hj hp hq]
    · intro i j p q hi hj hp hq; rw [lim_snoc, id', p11 i j p q hi hj hp hq]
    · intro F x hF hx i j p q hi hj hp hq; rw [lim_snoc, id', p22 F x hF hx i j p q hi hj hp hq]
    · exact ⟨fun _ => rfl, fun f' hf' => by rw [← hd.act] at hf'; simp at hf'⟩
  · have hfn : fn st.act = f.fn := by rw [← hd.act]; rfl
    obtain ⟨Cv, hCv, hnl⟩ := hnt f hd.act.symm
    have id' : ∀ a b, post (lim B A C l) st a b =
        N (pre st (lim B A C l) a b) (pre st (lim B A C l) a a) (pre st (lim B A C l) b b) := fun a b => by
      rw [post, hfn]
      exact (pair_dual hCv hnl (psd a b)).symm
    have nn : ∀ a, 0 ≤ pre st (lim B A C l) a a := fun a => (psd a a).1
    have hv : t.L.Vars Cv := by
      refine ⟨fun i p hi hp => hCv _ ?_, fun F hF i p hi hp => hCv _ ?_⟩
      · rw [dims.1] at hi
        rw [dims.2.2.1] at hp
        rw [p11 i i p p hi hi hp hp]
        exact nn _
      · rw [dims.2.1] at hi
        rw [dims.2.2.2] at hp
        have : x2.isSome := by rw [← i22, hF]; rfl
        obtain ⟨x, rfl⟩ := Option.isSome_iff_exists.1 this
        rw [p22 F x hF rfl i i p p hi hi hp hp]
        exact nn _
    have hsem2 : LayerSem (.act f.kernelFn) t { t with L := entrywise N T t.L, info := { t.info with isGaussian := false }, full := true } :=
      ⟨rfl, Cv, _, _, N, T, hnl, hv, rfl⟩
    have hclt : t.L.Closed := hcl
    have hcl2 := layer_closed hclt hsem2
    have sec : ∀ j q, j < n2 → InRange q S2 → t.L.second [j, j] q q = pre st (lim B A C l) ⟨x2.getD x1, j, q⟩ ⟨x2.getD x1, j, q⟩ := by
      intro j q hj hq
      rcases e : t.L.k22 with _ | F
      · rw [second_none e]
        have : x2 = none := by
          have := i22
          rw [e] at this
          cases x2
          · rfl
          · simp at this
        obtain ⟨e1, e2⟩ := hx this
        subst this
        rw [p11 j j q q (e1 ▸ hj) (e1 ▸ hj) (e2 ▸ hq) (e2 ▸ hq)]
        rfl
      · rw [second_some e]
        have : x2.isSome := by rw [← i22, e]; rfl
        obtain ⟨x, rfl⟩ := Option.isSome_iff_exists.1 this
        exact p22 F x e rfl j j q q hj hj hq hq
    refine ⟨_, .seq hnet (.layer hclt hsem2), ⟨dims, sh1, sh2, hcl2, ?_, ?_, ?_, ?_⟩, f1, f2, f3, f4, f5, rfl, ?_⟩
    · intro i j p q hi hj hp hq
      show N (t.L.k12 [i, j] p q) (t.L.k11 [i, i] p p) (t.L.second [j, j] q q) = _
      rw [lim_snoc, id', p12 i j p q hi hj hp hq, p11 i i p p hi hi hp hp, sec j q hj hq]
    · intro i j p q hi hj hp hq
      show N (t.L.k11 [i, j] p q) (t.L.k11 [i, i] p p) (t.L.k11 [j, j] q q) = _
      rw [lim_snoc, id', p11 i j p q hi hj hp hq, p11 i i p p hi hi hp hp, p11 j j q q hj hj hq hq]
    · rw [← i22]
      exact Option.isSome_map
    · intro F x hF hx i j p q hi hj hp hq
      have hF' : t.L.k22.map (fun F b p q => N (F b p q) (F [b.getD 0 0, b.getD 0 0] p p) (F [b.getD 1 0, b.getD 1 0] q q)) = some F := hF
      obtain ⟨G, hG, rfl⟩ := Option.map_eq_some_iff.1 hF'
      show N (G [i, j] p q) (G [i, i] p p) (G [j, j] q q) = _
      rw [lim_snoc, id', p22 G x hG hx i j p q hi hj hp hq, p22 G x hG hx i i p p hi hi hp hp, p22 G x hG hx j j q q hj hj hq hq]
    · exact ⟨fun hn => by rw [← hd.act] at hn; simp at hn, fun _ _ => rfl⟩

/-- The kernel functions of the layers compute the limits. -/
lemma tracks (hne : B ≠ A) (hB : B < r) (hA' : A < r) (hr1 : S1.length + 2 = r) (hr2 : S2.length + 2 = r)
    (db ds ntk same : Bool) (hx : x2 = none → n2 = n1 ∧ S2 = S1) (h1 : x1.shape = actIdx B A n1 C S1) (h2 : (x2.getD x1).shape = actIdx B A n2 C S2)
    (l : List Stage) (hl : ∀ s ∈ l, StageOk s) {n : ℕ} {dl : List (Dense × Option Act)} (h : List.Forall₂ (fun d s => Stage.Fits r A n d s) dl l) :
    ∃ s, NetSem (fcNet A dl) (.one (C80.inputState x1 x2 db ds ntk same B A C n1 n2 S1 S2)) (.one s) ∧
      Tracks B A C (draw C r A dl).channels n1 n2 S1 S2 x1 x2 l s ∧ s.info.diagonalSpatial = ds ∧ s.info.diagonalBatch = db ∧
      s.info.batchAxis = B ∧ s.info.channelAxis = A ∧ s.info.isReversed = false := by
  induction l using List.reverseRecOn generalizing dl with
  | nil =>
    cases h
    have hc : (C35.second none x1 x2 ntk B A C n1 n2 S1 S2).Closed := by
      intro e
      simp only [C35.second, Option.map_eq_none_iff] at e
      exact hx e
    have hsem : NetSem (.layer .identity id) (.one (C80.inputState x1 x2 db ds ntk same B A C n1 n2 S1 S2))
        (.one (C80.inputState x1 x2 db ds ntk same B A C n1 n2 S1 S2)) :=
      .layer (l := .identity) (out := id) (s := C80.inputState x1 x2 db ds ntk same B A C n1 n2 S1 S2)
        (t := C80.inputState x1 x2 db ds ntk same B A C n1 n2 S1 S2) hc rfl
    refine ⟨_, hsem, ⟨⟨rfl, rfl, rfl, rfl⟩, h1, h2, hc, fun i j p q _ _ _ _ => rfl, fun i j p q _ _ _ _ => rfl, ?_, ?_⟩, rfl, rfl, rfl, rfl, rfl⟩
    · cases x2 <;> rfl
    · rintro F x hF rfl i j p q - - - -
      simp only [C80.inputState, C35.second, Option.map_some, Option.some.injEq] at hF
      subst hF
      rfl
  | append_singleton l st ih =>
    obtain ⟨dl, d, rfl, hdl, hd⟩ := forall₂_snoc h
    have hl' : ∀ t ∈ l, StageOk t := fun t ht => hl t (by simp [ht])
    obtain ⟨s, hs, ht, f1, f2, f3, f4, f5⟩ := ih hl' hdl
    have hnt : ∃ dφ N T, ∀ f, st.act = some f → ∃ C, (∀ v, 0 ≤ v → C v) ∧ Nonlinearity f.kernelFn C f.fn dφ N T := by
      rcases e : st.act with _ | f
      · exact ⟨fun _ => 0, fun _ _ _ => 0, fun _ _ _ => 0, fun f hf => by simp at hf⟩
      · obtain ⟨-, -, Cv, dφ, N, T, hCv, hnl⟩ := (hl st (by simp)).act f e
        refine ⟨dφ, N, T, fun f' hf => ?_⟩
        obtain rfl : f = f' := by simpa using hf
        exact ⟨Cv, hCv, hnl⟩
    obtain ⟨dφ, N, T, hnt⟩ := hnt
    obtain ⟨s', a1, a2, a3, a4, a5, a6, a7, -⟩ := tracks_step hne hB hA' hr1 hr2 hx (fun t ht => (hl' t ht).smooth) hnt hd hs ht f1 f2 f3 f4 f5
    exact ⟨s', a1, a2, a3, a4, a5, a6, a7⟩

/-- The empirical kernel of a wide random network is close to the kernel computed by `kernel_fn`, with high probability.  Take the network
`serial(Dense, phi, Dense, phi, ...)` of any depth, the nonlinearities given and optional, and inputs `x1` and `x2`.  For every tolerance `ε` and
probability `δ` there is a width `n0` such that for all layers with at least `n0` channels each (of either parameterization), `kernel_fn` succeeds on the
inputs, and if the parameters are drawn as `init_fn` does, then with probability at least `1 - δ` all averages over the channels of products of outputs of
`apply_fn` differ by less than `ε` from the entries of `nngp`. -/
theorem empirical_converges (x1 : Arr ℝ) (x2 : Option (Arr ℝ)) (db ds ntk same : Bool) (ba ca : ℤ) (n1 n2 C r : ℕ) (S1 S2 : List ℕ) (B A : ℕ)
    (hr1 : S1.length + 2 = r) (hr2 : S2.length + 2 = r) (hB : (B : ℤ) = ba % r) (hA : (A : ℤ) = ca % r) (hne : B ≠ A)
    (hx : x2 = none → n2 = n1 ∧ S2 = S1) (hds : ds = true → S1 = S2) (h1 : x1.shape = actIdx B A n1 C S1)
    (h2 : (x2.getD x1).shape = actIdx B A n2 C S2) (hC : 0 < C) (stages : List Stage) (hst : ∀ s ∈ stages, StageOk s) {ε δ : ℝ} (hε : 0 < ε) (hδ : 0 < δ) :
    ∃ n0, ∀ layers, List.Forall₂ (fun d s => Stage.Fits r A n0 d s) layers stages →
      ∃ k0 k L, Inputs.inputsToKernel x1 x2 db ds ntk ba (some ca) none same = .ok k0 ∧ (fcNet A layers).run (.one k0) = .ok (.one k) ∧ k.Stores L ∧
        (L.n1, L.n2, L.S1, L.S2) = (n1, n2, S1, S2) ∧ k.diagonalSpatial = ds ∧ k.isReversed = false ∧
        let N := draw C r A layers
        N.law {θ | ∃ i j p q, i < n1 ∧ j < n2 ∧ InRange p S1 ∧ InRange q S2 ∧
          ε ≤ |(∑ c ∈ Finset.range N.channels, (N.apply θ x1).get (actIdx B A i c p) * (N.apply θ (x2.getD x1)).get (actIdx B A j c q)) / N.channels -
            L.k12 [i, j] p q|} ≤ ENNReal.ofReal δ := by
  have hBl : B < r := by
    have := Int.emod_lt_of_pos ba (b := (r : ℤ)) (by omega)
    omega
  have hAl : A < r := by
    have := Int.emod_lt_of_pos ca (b := (r : ℤ)) (by omega)
    omega
  have hsm : ∀ s ∈ stages, Smooth s := fun s hs => (hst s hs).smooth
  -- the finitely many entries
  obtain ⟨I, hI⟩ : ∃ I : Finset (ℕ × ℕ × List ℕ × List ℕ), ∀ i j p q, i < n1 → j < n2 → InRange p S1 → InRange q S2 → (i, j, p, q) ∈ I := by
    have fin : ∀ S : List ℕ, {p | InRange p S}.Finite := by
      intro S
      induction S with
      | nil => exact (Set.finite_singleton []).subset fun p hp => by cases hp; rfl
      | cons n S ih =>
        refine (((Set.finite_Iio n).prod ih).image fun x => x.1 :: x.2).subset ?_
        rintro p hp
        rcases hp with _ | ⟨h1, h2⟩
        exact ⟨(_, _), ⟨h1, h2⟩, rfl⟩
    have := ((Set.finite_Iio n1).prod ((Set.finite_Iio n2).prod ((fin S1).prod (fin S2))))
    exact ⟨this.toFinset, fun i j p q hi hj hp hq => by simp [hi, hj, hp, hq]⟩
  set m := I.card + 1 with hm
  have hδm : 0 < δ / m := by positivity
  have each : ∀ e : ℕ × ℕ × List ℕ × List ℕ, ∃ n0, e.1 < n1 → e.2.1 < n2 → InRange e.2.2.1 S1 → InRange e.2.2.2 S2 →
      ∀ dl, List.Forall₂ (fun d s => Stage.Fits r A n0 d s) dl stages →
        (draw C r A dl).law {θ | ε ≤ |emp B A (draw C r A dl) ⟨x1, e.1, e.2.2.1⟩ ⟨x2.getD x1, e.2.1, e.2.2.2⟩ θ -
          lim B A C stages ⟨x1, e.1, e.2.2.1⟩ ⟨x2.getD x1, e.2.1, e.2.2.2⟩|} ≤ ENNReal.ofReal (δ / m) := by
    intro e
    by_cases he : e.1 < n1 ∧ e.2.1 < n2 ∧ InRange e.2.2.1 S1 ∧ InRange e.2.2.2 S2
    · obtain ⟨n0, h0⟩ := tends hC hne hBl stages hsm (valid1 hr1 h1 he.1 he.2.2.1) (valid1 hr2 h2 he.2.1 he.2.2.2) hε hδm
      exact ⟨n0, fun _ _ _ _ => h0⟩
    · exact ⟨0, fun a1 a2 a3 a4 => absurd ⟨a1, a2, a3, a4⟩ he⟩
  choose nn hn using each
  refine ⟨I.sup nn, fun dl hdl => ?_⟩
  obtain ⟨k0, e0, f0, g0⟩ := C35.second_moment none db ds ntk same x1 x2 ba ca n1 n2 C S1 S2 B A (by rw [hB, ← hr1]; push_cast; rfl)
    (by rw [hA, ← hr1]; push_cast; rfl) hne (by omega) hds h1 h2
  obtain ⟨s, hs, ht, g1, g2, g3, g4, g5⟩ := tracks hne hBl hAl hr1 hr2 db ds ntk same hx h1 h2 stages hst hdl
  obtain ⟨y, hy, hr⟩ := net_sound hs (.one _ _ (C80.input_describes f0 g0))
  cases hr with
  | one k _ hk =>
    refine ⟨k0, k, s.L, e0, hy, hk.stores, ?_, ?_, ?_, ?_⟩
    · rw [ht.dims.1, ht.dims.2.1, ht.dims.2.2.1, ht.dims.2.2.2]
    · rw [← g1, ← hk.static]; rfl
    · rw [← g5, ← hk.static]; rfl
    · intro N
      refine (measure_mono (t := ⋃ e ∈ I, {θ | e.1 < n1 ∧ e.2.1 < n2 ∧ InRange e.2.2.1 S1 ∧ InRange e.2.2.2 S2 ∧
        ε ≤ |emp B A N ⟨x1, e.1, e.2.2.1⟩ ⟨x2.getD x1, e.2.1, e.2.2.2⟩ θ - lim B A C stages ⟨x1, e.1, e.2.2.1⟩ ⟨x2.getD x1, e.2.1, e.2.2.2⟩|}) ?_).trans ?_
      · rintro θ ⟨i, j, p, q, hi, hj, hp, hq, h⟩
        rw [ht.k12 i j p q hi hj hp hq] at h
        exact Set.mem_biUnion (hI i j p q hi hj hp hq) ⟨hi, hj, hp, hq, h⟩
      · refine (measure_biUnion_finset_le I _).trans ?_
        have each : ∀ e ∈ I, N.law {θ | e.1 < n1 ∧ e.2.1 < n2 ∧ InRange e.2.2.1 S1 ∧ InRange e.2.2.2 S2 ∧
            ε ≤ |emp B A N ⟨x1, e.1, e.2.2.1⟩ ⟨x2.getD x1, e.2.1, e.2.2.2⟩ θ - lim B A C stages ⟨x1, e.1, e.2.2.1⟩ ⟨x2.getD x1, e.2.1, e.2.2.2⟩|} ≤
            ENNReal.ofReal (δ / m) := by
          intro e he
          by_cases hh : e.1 < n1 ∧ e.2.1 < n2 ∧ InRange e.2.2.1 S1 ∧ InRange e.2.2.2 S2
          · refine (measure_mono fun θ hθ => ?_).trans (hn e hh.1 hh.2.1 hh.2.2.1 hh.2.2.2 dl (hdl.imp fun d s hf => Fits.mono (Finset.le_sup he) hf))
            exact hθ.2.2.2.2
          · refine (measure_mono (t := ∅) fun θ hθ => hh ⟨hθ.1, hθ.2.1, hθ.2.2.1, hθ.2.2.2.1⟩).trans (by simp)
        refine (Finset.sum_le_sum each).trans ?_
        rw [Finset.sum_const, ← ENNReal.ofReal_nsmul]
        refine ENNReal.ofReal_le_ofReal ?_
        rw [nsmul_eq_mul, mul_div_assoc', div_le_iff₀ (by positivity)]
        have : (I.card : ℝ) ≤ m := by rw [hm]; push_cast; linarith
        nlinarith

/-- The same in terms of `empirical_nngp_fn` with its default `trace_axes=(-1,)`, for inputs of shape `(n, C)`: with probability at least `1 - δ`,
`empirical_nngp_fn(apply_fn)` returns an array of the shape of `nngp` all of whose entries are within `ε` of it. -/
theorem empirical_nngp_fn_converges (x1 : Arr ℝ) (x2 : Option (Arr ℝ)) (ntk same : Bool) (n1 n2 C : ℕ) (hx : x2 = none → n2 = n1)
    (h1 : x1.shape = [n1, C]) (h2 : (x2.getD x1).shape = [n2, C]) (hC : 0 < C) (stages : List Stage) (hst : ∀ s ∈ stages, StageOk s)
    {ε δ : ℝ} (hε : 0 < ε) (hδ : 0 < δ) :
    ∃ n0, ∀ layers, List.Forall₂ (fun d s => Stage.Fits 2 1 n0 d s) layers stages →
      ∃ k0 k, Inputs.inputsToKernel x1 x2 false false ntk 0 (some (-1)) none same = .ok k0 ∧ (fcNet 1 layers).run (.one k0) = .ok (.one k) ∧
        let N := draw C 2 1 layers
        N.law {θ | ¬ ∃ a, Emp.nngp (N.apply θ x1) (N.apply θ (x2.getD x1)) [-1] [] = .ok a ∧ a.shape = [n1, n2] ∧ k.nngp.shape = [n1, n2] ∧
          ∀ i j, i < n1 → j < n2 → |a.get [i, j] - k.nngp.get [i, j]| < ε} ≤ ENNReal.ofReal δ := by
  obtain ⟨n0, h0⟩ := empirical_converges x1 x2 false false ntk same 0 (-1) n1 n2 C 2 [] [] 0 1 rfl rfl rfl rfl (by decide) (fun h => ⟨hx h, rfl⟩) (by simp) h1 h2 hC
    stages hst hε hδ
  refine ⟨max n0 1, fun layers hl => ?_⟩
  obtain ⟨k0, k, L, e0, e1, hk, hd, hds, hrev, hp⟩ := h0 layers (hl.imp fun d s hf => Fits.mono (le_max_left _ _) hf)
  simp only [Prod.mk.injEq] at hd
  refine ⟨k0, k, e0, e1, ?_⟩
  intro N
  have hG : Good 0 1 C 2 N := good_draw hC (by decide) (by decide) stages (fun s hs => (hst s hs).smooth) one_pos
    (hl.imp fun d s hf => Fits.mono (le_max_right n0 1) hf)
  refine (measure_mono fun θ hθ => ?_).trans hp
  by_contra hc
  refine hθ ?_
  have s1 : (N.apply θ x1).shape = [n1, N.channels] := hG.shape x1 n1 [] rfl h1 θ
  have s2 : (N.apply θ (x2.getD x1)).shape = [n2, N.channels] := hG.shape _ n2 [] rfl h2 θ
  have ax : ReducedAxes 2 [-1] [] [1] [] := by
    refine ⟨⟨by decide, by decide, fun a => ?_⟩, ⟨by decide, by decide, fun a => ?_⟩, by decide⟩
    · simp only [List.mem_cons, List.not_mem_nil, or_false]; omega
    · simp
  obtain ⟨a, ha, hr⟩ := Emp.nngp_ok (N.apply θ x1) (N.apply θ (x2.getD x1)) (n := 2) (by rw [Arr.ndim, s1]; rfl) (by rw [Arr.ndim, s2]; rfl) ax
    (by simp [DistinctAxes]) (by rw [s1, s2]; rfl) rfl
  have kn := hk.nngp
  refine ⟨a, ha, ?_, ?_, fun i j hi hj => ?_⟩
  · rw [hr.shape, s1, s2]; rfl
  · rw [kn.shape, hd.1, hd.2.1, hd.2.2.1, hd.2.2.2, hds, hrev]; rfl
  · have ek := kn.get [i, j] [] [] (by rw [hd.1, hd.2.1]; exact .cons hi (.cons hj .nil)) (by rw [hd.2.2.1]; exact .nil) (by rw [hd.2.2.2]; exact .nil) fun _ => rfl
    have e' : k.nngp.get [i, j] = L.k12 [i, j] [] [] := by
      rw [← ek]
      congr 1
      rw [hds, hrev]
      rfl
    have ea := hr.get [i, 0] [j, 0] ⟨by rw [s1]; rfl, by
        rw [s1]
        intro a ha ha'
        simp only [List.length_cons, List.length_nil, List.mem_cons, List.not_mem_nil, or_false] at ha ha'
        obtain rfl : a = 0 := by omega
        exact hi⟩
      ⟨by rw [s2]; rfl, by
        rw [s2]
        intro a ha ha'
        simp only [List.length_cons, List.length_nil, List.mem_cons, List.not_mem_nil, or_false] at ha ha'
        obtain rfl : a = 0 := by omega
        exact hj⟩ (by simp)
    have ea' : a.get [i, j] = (∑ c ∈ Finset.range N.channels, (N.apply θ x1).get [i, c] * (N.apply θ (x2.getD x1)).get [j, c]) / N.channels := by
      refine Eq.trans ?_ (ea.trans ?_)
      · rw [s1]; rfl
      · rw [s1]
        show (Arr.sumOver [N.channels] _) / ((([N.channels] : List ℕ).prod : ℕ) : ℝ) = _
        rw [sumOver_singleton, List.prod_singleton, ← List.sum_toFinset _ List.nodup_range, List.toFinset_range]
        rfl
    rw [e', ea']
    by_contra hh
    exact hc ⟨i, j, [], [], hi, hj, .nil, .nil, not_lt.1 hh⟩

/-! ### Non-vacuity -/

/-- `Relu` after `Dense(W_std=1.5, b_std=0.1)`, then a readout without bias. -/
noncomputable def exStages : List Stage := [⟨3 / 2, some (1 / 10), some ⟨fun x => 0 * min x 0 + 1 * max x 0, (abReluDual 0 1).kernelFn⟩⟩, ⟨1, none, none⟩]

/-- Layers of width `n` of both parameterizations. -/
noncomputable def exLayers (n : ℕ) : List (Dense × Option Act) :=
  [(⟨n, 3 / 2, some (1 / 10), -1, .ntk, (1, 1)⟩, some ⟨fun x => 0 * min x 0 + 1 * max x 0, (abReluDual 0 1).kernelFn⟩), (⟨n, 1, none, 1, .standard, (n, 1)⟩, none)]

lemma ex_ok : ∀ s ∈ exStages, StageOk s := by
  intro s hs
  simp only [exStages, List.mem_cons, List.not_mem_nil, or_false] at hs
  rcases hs with rfl | rfl
  · refine ⟨fun f hf => ?_⟩
    simp only [Option.some.injEq] at hf
    subst hf
    refine ⟨by fun_prop, ⟨1, 1, fun x => ?_⟩, abRelu_nonlinearity 0 1⟩
    simp only [zero_mul, one_mul, zero_add, pow_one]
    rw [abs_of_nonneg (le_max_right _ _)]
    exact max_le (by linarith [le_abs_self x]) (by linarith [abs_nonneg x])
  · exact ⟨fun f hf => by simp at hf⟩

lemma ex_fits (n : ℕ) (hn : 0 < n) : List.Forall₂ (fun d s => Stage.Fits 2 1 n d s) (exLayers n) exStages := by
  refine .cons ⟨rfl, rfl, rfl, by simp, by simp, ?_, ?_, ?_⟩ (.cons ⟨rfl, rfl, rfl, by simp, fun _ => hn, ?_, ?_, ?_⟩ .nil)
  · show ((1 : ℕ) : ℤ) = (-1) % ((2 : ℕ) : ℤ)
    decide
  · show -((2 : ℕ) : ℤ) ≤ -1 ∧ -1 < ((2 : ℕ) : ℤ)
    decide
  · simp [Dense.width]
  · show ((1 : ℕ) : ℤ) = 1 % ((2 : ℕ) : ℤ)
    decide
  · show -((2 : ℕ) : ℤ) ≤ 1 ∧ 1 < ((2 : ℕ) : ℤ)
    decide
  · simp [Dense.width]

/-- Non-vacuity: a finite network with `Relu` and two inputs of two examples each. -/
example : ∃ n0, ∀ n, n0 ≤ n → 0 < n → ∃ k0 k, Inputs.inputsToKernel (⟨[2, 3], fun i => i.getD 1 0 + 1⟩ : Arr ℝ) (some ⟨[2, 3], fun i => i.getD 0 0⟩) false false
      true 0 (some (-1)) none false = .ok k0 ∧ (fcNet 1 (exLayers n)).run (.one k0) = .ok (.one k) ∧
    (draw 3 2 1 (exLayers n)).law {θ | ¬ ∃ a, Emp.nngp ((draw 3 2 1 (exLayers n)).apply θ ⟨[2, 3], fun i => i.getD 1 0 + 1⟩)
      ((draw 3 2 1 (exLayers n)).apply θ ⟨[2, 3], fun i => i.getD 0 0⟩) [-1] [] = .ok a ∧ a.shape = [2, 2] ∧ k.nngp.shape = [2, 2] ∧
        ∀ i j, i < 2 → j < 2 → |a.get [i, j] - k.nngp.get [i, j]| < 1 / 100} ≤ ENNReal.ofReal (1 / 1000) := by
  obtain ⟨n0, h⟩ := empirical_nngp_fn_converges ⟨[2, 3], fun i => i.getD 1 0 + 1⟩ (some ⟨[2, 3], fun i => i.getD 0 0⟩) true false 2 2 3 (by simp) rfl rfl
    (by norm_num) exStages ex_ok (ε := 1 / 100) (δ := 1 / 1000) (by norm_num) (by norm_num)
  exact ⟨n0, fun n hn hp => h (exLayers n) ((ex_fits n hp).imp fun d s hf => Fits.mono hn hf)⟩

end NT.C92
