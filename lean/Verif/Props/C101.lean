import Verif.Tac
import Verif.Lemmas.WideConv2
import Verif.Props.C92

/-!
# C101: wide random convolutional networks have the covariance that `kernel_fn` computes
-/

namespace NT.C101
open _root_.NT.Wide (fn forall₂_snoc)
open _root_.NT.C92 (pair_dual E2_id)
open _root_.NT.WideConv
open NT NT.Network NT.Spec NT.Semantics NT.Gauss MeasureTheory ProbabilityTheory

/-- Inputs of rank `r`: one positive filter size and stride per spatial axis; the nonlinearity is continuous, grows at most polynomially, and its layer has the
`kernel_fn` of the nonlinearity for all variances. -/
structure StageOk (r : ℕ) (s : ConvStage) : Prop where
  rank : s.filter.length + 2 = r
  pos : ∀ v ∈ s.filter, 0 < v.1 ∧ 0 < v.2
  act : ∀ f, s.act = some f → Continuous f.fn ∧ (∃ C n, ∀ x, |f.fn x| ≤ C * (1 + |x|) ^ n) ∧
    ∃ C dφ N T, (∀ v, 0 ≤ v → C v) ∧ Nonlinearity f.kernelFn C f.fn dφ N T

lemma StageOk.smooth {r : ℕ} {s : ConvStage} (h : StageOk r s) : Smooth r s := by
  obtain ⟨f, p, w, b, _ | a⟩ := s
  · exact ⟨continuous_id, Tame.id, h.pos, h.rank⟩
  · obtain ⟨h1, h2, -⟩ := h.act a rfl
    exact ⟨h1, ⟨h1.measurable, h2⟩, h.pos, h.rank⟩

/-- The description of the kernel after some stages: its entries are the limits. -/
structure Tracks (B A C c n1 n2 : ℕ) (S1 S2 : List ℕ) (x1 : Arr ℝ) (x2 : Option (Arr ℝ)) (l : List ConvStage) (s : State) : Prop where
  dims : s.L.n1 = n1 ∧ s.L.n2 = n2 ∧ s.L.S1 = dimsAfter l S1 ∧ s.L.S2 = dimsAfter l S2
  shape1 : s.info.shape1 = actIdx B A n1 c (dimsAfter l S1)
  shape2 : s.info.shape2 = actIdx B A n2 c (dimsAfter l S2)
  closed : s.L.Closed
  k12 : ∀ i j p q, i < n1 → j < n2 → InRange p (dimsAfter l S1) → InRange q (dimsAfter l S2) →
    s.L.k12 [i, j] p q = lim B A C l ⟨x1, n1, S1, i, p⟩ ⟨x2.getD x1, n2, S2, j, q⟩
  k11 : ∀ i j p q, i < n1 → j < n1 → InRange p (dimsAfter l S1) → InRange q (dimsAfter l S1) →
    s.L.k11 [i, j] p q = lim B A C l ⟨x1, n1, S1, i, p⟩ ⟨x1, n1, S1, j, q⟩
  k22 : s.L.k22.isSome = x2.isSome ∧ ∀ F x, s.L.k22 = some F → x2 = some x → ∀ i j p q, i < n2 → j < n2 → InRange p (dimsAfter l S2) →
    InRange q (dimsAfter l S2) → F [i, j] p q = lim B A C l ⟨x, n2, S2, i, p⟩ ⟨x, n2, S2, j, q⟩
  diag : s.info.diagonalSpatial = true → s.info.isReversed = false

/-- The network with one more stage. -/
noncomputable def growNet (N : Net) (d : Conv × Option Act) : Net :=
  match d.2 with
  | none => N.seq (.layer (.conv d.1) (convOut d.1))
  | some f => (N.seq (.layer (.conv d.1) (convOut d.1))).seq (.layer (.act f.kernelFn) id)

lemma convNet_snoc (ds : List (Conv × Option Act)) (d : Conv × Option Act) : convNet (ds ++ [d]) = growNet (convNet ds) d := by
  unfold convNet
  rw [List.foldl_append]
  rfl

variable {B A C r n1 n2 : ℕ} {S1 S2 : List ℕ} {x1 : Arr ℝ} {x2 : Option (Arr ℝ)}

lemma dims_length {l : List ConvStage} (hl : ∀ s ∈ l, Smooth r s) {S : List ℕ} (hS : S.length + 2 = r) : (dimsAfter l S).length + 2 = r := by
  induction l using List.reverseRecOn with
  | nil => exact hS
  | append_singleton l s ih =>
    have h1 := ih fun t ht => hl t (by simp [ht])
    have h2 := (hl s (by simp)).rank
    rw [dims_snoc, outDims_length _ _ _ (by omega)]
    exact h1

lemma convOut_act {d : Conv} (hne : B ≠ A) {n c : ℕ} {S : List ℕ} (hB : B < S.length + 2) (hA : A < S.length + 2) (hb : d.batchAxis = B)
    (ha : d.channelAxis = A) : convOut d (actIdx B A n c S) = actIdx B A n d.width (outDims d.padding S d.filter) := by
  unfold convOut
  rw [hb, ha]
  obtain ⟨g1, g2, g3⟩ := gather_act B A n c S hne hB hA
  have e : Arr.gather ((List.range (S.length + 2)).filter fun i => !([B, A].contains i)) (actIdx B A n c S) = S := g1
  rw [actIdx_length B A n c S hne hB hA, e, g2]

/-- The covariance computed by the layer is that of the limit. -/
lemma avg_eq {d : Conv × Option Act} {st : ConvStage} {n : ℕ} (hd : st.Fits B A n d) (hst : Smooth r st) {D : List ℕ → List ℕ} {K : Pt → Pt → ℝ} {F : List ℕ → List ℕ → ℝ}
    {a b : Pt} (hla : (D a.S).length + 2 = r) (hlb : (D b.S).length + 2 = r)
    (hF : ∀ p q, InRange p (D a.S) → InRange q (D b.S) → F p q = K { a with p := p } { b with p := q }) (hp : InRange a.p (outDims st.padding (D a.S) st.filter))
    (hq : InRange b.p (outDims st.padding (D b.S) st.filter)) :
    C53.gate d.1 a.p b.p (d.1.wStd ^ 2 * C53.avg d.1 (D a.S) (D b.S) F a.p b.p + C53.bVar d.1) = pre st D K a b := by
  have hr := hst.rank
  unfold C53.gate C53.bVar C53.avg pre mix
  rw [if_pos (.inl hd.shared), hd.wStd, hd.bStd, hd.filter, hd.padding]
  congr 3
  refine Finset.sum_congr rfl fun f _ => ?_
  rcases e1 : readIdx st.padding (D a.S) st.filter a.p f with _ | p
  · rfl
  rcases e2 : readIdx st.padding (D b.S) st.filter b.p f with _ | q
  · rfl
  exact hF p q (readIdx_inRange _ _ _ _ _ _ (fun v hv => hst.pos v hv) (by omega) hp e1) (readIdx_inRange _ _ _ _ _ _ (fun v hv => hst.pos v hv) (by omega) hq e2)

/-- The kernel functions of one more stage compute its limits. -/
lemma tracks_step (hne : B ≠ A) (hB : B < r) (hA' : A < r) (hr1 : S1.length + 2 = r) (hr2 : S2.length + 2 = r) (hx : x2 = none → n2 = n1 ∧ S2 = S1)
    {db ds : Bool} {l : List ConvStage} (hsm : ∀ s ∈ l, Smooth r s) {st : ConvStage} (hst : StageOk r st) {n : ℕ} {dl : List (Conv × Option Act)} {d : Conv × Option Act}
    (hd : ConvStage.Fits B A n d st) {s0 s : State} (hs : NetSem (convNet dl) (.one s0) (.one s))
    (ht : Tracks B A C (drawConv C r dl).channels n1 n2 S1 S2 x1 x2 l s) (f1 : s.info.diagonalSpatial = ds) (f2 : s.info.diagonalBatch = db) :
    ∃ s', NetSem (convNet (dl ++ [d])) (.one s0) (.one s') ∧
      Tracks B A C (drawConv C r (dl ++ [d])).channels n1 n2 S1 S2 x1 x2 (l ++ [st]) s' ∧ s'.info.diagonalSpatial = ds ∧ s'.info.diagonalBatch = db := by
  rw [convNet_snoc, draw_snoc]
  set c := (drawConv C r dl).channels with hc
  have hsm' := hst.smooth
  have hl1 := dims_length hsm hr1
  have hl2 := dims_length hsm hr2
  have hrk := hst.rank
  have hsem : LayerSem (.conv d.1) s { s with
        L := C53.after d.1 (s.info.shape1.getD d.1.channelAxis 0) s.L
        info := { s.info with
          isGaussian := true, isInput := false, isReversed := convRev d.1 s.info, batchAxis := d.1.batchAxis, channelAxis := d.1.channelAxis }
        full := true } := by
    refine ⟨hd.param, hd.sample, by rw [hd.filter]; exact hst.pos, ?_, ?_, ht.diag, fun h => ?_, ?_, rfl⟩
    · rw [ht.dims.2.2.1, hd.filter]; omega
    · rw [ht.dims.2.2.2, hd.filter]; omega
    · rw [hd.shared] at h; simp at h
    · rw [ht.shape1, ht.shape2, hd.channelAxis, Inputs.getD_actIdx_c B A n1 c _ hne (by omega) (by omega), Inputs.getD_actIdx_c B A n2 c _ hne (by omega) (by omega)]
  have hcl := layer_closed ht.closed hsem
  set t := State.withShapes (convOut d.1 s.info.shape1) (convOut d.1 s.info.shape2) { s with
        L := C53.after d.1 (s.info.shape1.getD d.1.channelAxis 0) s.L
        info := { s.info with
          isGaussian := true, isInput := false, isReversed := convRev d.1 s.info, batchAxis := d.1.batchAxis, channelAxis := d.1.channelAxis }
        full := true } with htd
  have hnet : NetSem ((convNet dl).seq (.layer (.conv d.1) (convOut d.1))) (.one s0) (.one t) := .seq hs (.layer ht.closed hsem)
  have hdims : ∀ S, outDims d.1.padding (dimsAfter l S) d.1.filter = dimsAfter (l ++ [st]) S := fun S => by rw [dims_snoc, hd.filter, hd.padding]
  have sh1 : t.info.shape1 = actIdx B A n1 d.1.width (dimsAfter (l ++ [st]) S1) := by
    show convOut d.1 s.info.shape1 = _
    rw [ht.shape1, convOut_act hne (by omega) (by omega) hd.batchAxis hd.channelAxis, hdims]
  have sh2 : t.info.shape2 = actIdx B A n2 d.1.width (dimsAfter (l ++ [st]) S2) := by
    show convOut d.1 s.info.shape2 = _
    rw [ht.shape2, convOut_act hne (by omega) (by omega) hd.batchAxis hd.channelAxis, hdims]
  have psd := fun a b => pre_psd st (dimsAfter l) (lim_psd (B := B) (A := A) (C := C) l hsm) a b
  have p12 : ∀ i j p q, i < n1 → j < n2 → InRange p (dimsAfter (l ++ [st]) S1) → InRange q (dimsAfter (l ++ [st]) S2) →
      t.L.k12 [i, j] p q = pre st (dimsAfter l) (lim B A C l) ⟨x1, n1, S1, i, p⟩ ⟨x2.getD x1, n2, S2, j, q⟩ := by
    intro i j p q hi hj hp hq
    show C53.gate d.1 p q (d.1.wStd ^ 2 * C53.avg d.1 s.L.S1 s.L.S2 (s.L.k12 [i, j]) p q + C53.bVar d.1) = _
    rw [ht.dims.2.2.1, ht.dims.2.2.2]
    rw [dims_snoc] at hp hq
    exact avg_eq (a := ⟨x1, n1, S1, i, p⟩) (b := ⟨x2.getD x1, n2, S2, j, q⟩) hd hsm' hl1 hl2 (fun p q hp hq => ht.k12 i j p q hi hj hp hq) hp hq
  have p11 : ∀ i j p q, i < n1 → j < n1 → InRange p (dimsAfter (l ++ [st]) S1) → InRange q (dimsAfter (l ++ [st]) S1) →
      t.L.k11 [i, j] p q = pre st (dimsAfter l) (lim B A C l) ⟨x1, n1, S1, i, p⟩ ⟨x1, n1, S1, j, q⟩ := by
    intro i j p q hi hj hp hq
    show C53.gate d.1 p q (d.1.wStd ^ 2 * C53.avg d.1 s.L.S1 s.L.S1 (s.L.k11 [i, j]) p q + C53.bVar d.1) = _
    rw [ht.dims.2.2.1]
    rw [dims_snoc] at hp hq
    exact avg_eq (a := ⟨x1, n1, S1, i, p⟩) (b := ⟨x1, n1, S1, j, q⟩) hd hsm' hl1 hl1 (fun p q hp hq => ht.k11 i j p q hi hj hp hq) hp hq
  have i22 : t.L.k22.isSome = x2.isSome := by
    rw [← ht.k22.1]
    show (s.L.k22.map _).isSome = _
    rw [Option.isSome_map]
  have p22 : ∀ F x, t.L.k22 = some F → x2 = some x → ∀ i j p q, i < n2 → j < n2 → InRange p (dimsAfter (l ++ [st]) S2) →
      InRange q (dimsAfter (l ++ [st]) S2) → F [i, j] p q = pre st (dimsAfter l) (lim B A C l) ⟨x, n2, S2, i, p⟩ ⟨x, n2, S2, j, q⟩ := by
    intro F x hF hx i j p q hi hj hp hq
    have hF' : s.L.k22.map (fun F b o o' => C53.gate d.1 o o' (d.1.wStd ^ 2 * C53.avg d.1 s.L.S2 s.L.S2 (F b) o o' + C53.bVar d.1)) = some F := hF
    obtain ⟨G, hG, rfl⟩ := Option.map_eq_some_iff.1 hF'
    show C53.gate d.1 p q (d.1.wStd ^ 2 * C53.avg d.1 s.L.S2 s.L.S2 (G [i, j]) p q + C53.bVar d.1) = _
    rw [ht.dims.2.2.2]
    rw [dims_snoc] at hp hq
    exact avg_eq (a := ⟨x, n2, S2, i, p⟩) (b := ⟨x, n2, S2, j, q⟩) hd hsm' hl2 hl2 (fun p q hp hq => ht.k22.2 G x hG hx i j p q hi hj hp hq) hp hq
  have dims : t.L.n1 = n1 ∧ t.L.n2 = n2 ∧ t.L.S1 = dimsAfter (l ++ [st]) S1 ∧ t.L.S2 = dimsAfter (l ++ [st]) S2 := by
    refine ⟨ht.dims.1, ht.dims.2.1, ?_, ?_⟩
    · show outDims d.1.padding s.L.S1 d.1.filter = _
      rw [ht.dims.2.2.1, hdims]
    · show outDims d.1.padding s.L.S2 d.1.filter = _
      rw [ht.dims.2.2.2, hdims]
  have hdg : t.info.diagonalSpatial = true → t.info.isReversed = false := by
    intro h
    have h' : s.info.diagonalSpatial = true := h
    show convRev d.1 s.info = false
    unfold convRev
    rw [h']
    exact ht.diag h'
  have hact := hst.act
  obtain ⟨d, da⟩ := d
  rcases da with _ | f
  · have hfn : fn st.act = fun x => x := by rw [← hd.act]; rfl
    have id' : ∀ a b, post st (dimsAfter l) (lim B A C l) a b = pre st (dimsAfter l) (lim B A C l) a b := fun a b => by
      rw [post, hfn]
      exact E2_id (psd a b)
    refine ⟨t, hnet, ⟨dims, sh1, sh2, hcl, ?_, ?_, ⟨i22, ?_⟩, hdg⟩, f1, f2⟩
    · intro i j p q hi hj hp hq; rw [lim_snoc, id', p12 i j p q hi hj hp hq]
    · intro i j p q hi hj hp hq; rw [lim_snoc, id', p11 i j p q hi hj hp hq]
    · intro F x hF hx i j p q hi hj hp hq; rw [lim_snoc, id', p22 F x hF hx i j p q hi hj hp hq]
  · have hfn : fn st.act = f.fn := by rw [← hd.act]; rfl
    obtain ⟨-, -, Cv, dφ, N, T, hCv, hnl⟩ := hact f hd.act.symm
    have id' : ∀ a b, post st (dimsAfter l) (lim B A C l) a b =
        N (pre st (dimsAfter l) (lim B A C l) a b) (pre st (dimsAfter l) (lim B A C l) a a) (pre st (dimsAfter l) (lim B A C l) b b) := fun a b => by
      rw [post, hfn]
      exact (pair_dual hCv hnl (psd a b)).symm
    have nn : ∀ a, 0 ≤ pre st (dimsAfter l) (lim B A C l) a a := fun a => (psd a a).1
    have hv : t.L.Vars Cv := by
      refine ⟨fun i p hi hp => hCv _ ?_, fun F hF i p hi hp => hCv _ ?_⟩
      · rw [dims.1] at hi
        rw [dims.2.2.1] at hp
        rw [p11 i i p p hi hi hp hp]
        exact nn _
      · rw [dims.2.1] at hi
        rw [dims.2.2.2] at hp
        have : x2.isSome := by rw [← i22, hF]; rfl
        obtain ⟨x, rfl⟩ := Option.isSome_iff_exists.1 this
        rw [p22 F x hF rfl i i p p hi hi hp hp]
        exact nn _
    have hsem2 : LayerSem (.act f.kernelFn) t { t with L := entrywise N T t.L, info := { t.info with isGaussian := false }, full := true } :=
      ⟨rfl, Cv, _, _, N, T, hnl, hv, rfl⟩
    have hclt : t.L.Closed := hcl
    have hcl2 := layer_closed hclt hsem2
    have sec : ∀ j q, j < n2 → InRange q (dimsAfter (l ++ [st]) S2) → t.L.second [j, j] q q =
        pre st (dimsAfter l) (lim B A C l) ⟨x2.getD x1, n2, S2, j, q⟩ ⟨x2.getD x1, n2, S2, j, q⟩ := by
      intro j q hj hq
      rcases e : t.L.k22 with _ | F
      · rw [second_none e]
        have : x2 = none := by
          have := i22
          rw [e] at this
          cases x2
          · rfl
          · simp at this
        obtain ⟨e1, e2⟩ := hx this
        subst this e1 e2
        rw [p11 j j q q hj hj hq hq]
        rfl
      · rw [second_some e]
        have : x2.isSome := by rw [← i22, e]; rfl
        obtain ⟨x, rfl⟩ := Option.isSome_iff_exists.1 this
        exact p22 F x e rfl j j q q hj hj hq hq
    refine ⟨_, .seq hnet (.layer hclt hsem2), ⟨dims, sh1, sh2, hcl2, ?_, ?_, ⟨?_, ?_⟩, hdg⟩, f1, f2⟩
    · intro i j p q hi hj hp hq
      show N (t.L.k12 [i, j] p q) (t.L.k11 [i, i] p p) (t.L.second [j, j] q q) = _
      rw [lim_snoc, id', p12 i j p q hi hj hp hq, p11 i i p p hi hi hp hp, sec j q hj hq]
    · intro i j p q hi hj hp hq
      show N (t.L.k11 [i, j] p q) (t.L.k11 [i, i] p p) (t.L.k11 [j, j] q q) = _
      rw [lim_snoc, id', p11 i j p q hi hj hp hq, p11 i i p p hi hi hp hp, p11 j j q q hj hj hq hq]
    · rw [← i22]
      exact Option.isSome_map
    · intro F x hF hx i j p q hi hj hp hq
      have hF' : t.L.k22.map (fun F b p q => N (F b p q) (F [b.getD 0 0, b.getD 0 0] p p) (F [b.getD 1 0, b.getD 1 0] q q)) = some F := hF
      obtain ⟨G, hG, rfl⟩ := Option.map_eq_some_iff.1 hF'
      show N (G [i, j] p q) (G [i, i] p p) (G [j, j] q q) = _
      rw [lim_snoc, id', p22 G x hG hx i j p q hi hj hp hq, p22 G x hG hx i i p p hi hi hp hp, p22 G x hG hx j j q q hj hj hq hq]

/-- The kernel functions of the layers compute the limits. -/
lemma tracks (hne : B ≠ A) (hB : B < r) (hA' : A < r) (hr1 : S1.length + 2 = r) (hr2 : S2.length + 2 = r)
    (db ds ntk same : Bool) (hx : x2 = none → n2 = n1 ∧ S2 = S1) (h1 : x1.shape = actIdx B A n1 C S1) (h2 : (x2.getD x1).shape = actIdx B A n2 C S2)
    (l : List ConvStage) (hl : ∀ s ∈ l, StageOk r s) {n : ℕ} {dl : List (Conv × Option Act)} (h : List.Forall₂ (fun d s => ConvStage.Fits B A n d s) dl l) :
    ∃ s, NetSem (convNet dl) (.one (C80.inputState x1 x2 db ds ntk same B A C n1 n2 S1 S2)) (.one s) ∧
      Tracks B A C (drawConv C r dl).channels n1 n2 S1 S2 x1 x2 l s ∧ s.info.diagonalSpatial = ds ∧ s.info.diagonalBatch = db := by
  induction l using List.reverseRecOn generalizing dl with
  | nil =>
    cases h
    have hc : (C35.second none x1 x2 ntk B A C n1 n2 S1 S2).Closed := by
      intro e
      simp only [C35.second, Option.map_eq_none_iff] at e
      exact hx e
    have hsem : NetSem (.layer .identity id) (.one (C80.inputState x1 x2 db ds ntk same B A C n1 n2 S1 S2))
        (.one (C80.inputState x1 x2 db ds ntk same B A C n1 n2 S1 S2)) :=
      .layer (l := .identity) (out := id) (s := C80.inputState x1 x2 db ds ntk same B A C n1 n2 S1 S2)
        (t := C80.inputState x1 x2 db ds ntk same B A C n1 n2 S1 S2) hc rfl
    refine ⟨_, hsem, ⟨⟨rfl, rfl, rfl, rfl⟩, h1, h2, hc, fun i j p q _ _ _ _ => rfl, fun i j p q _ _ _ _ => rfl, ⟨?_, ?_⟩, fun _ => rfl⟩, rfl, rfl⟩
    · cases x2 <;> rfl
    · rintro F x hF rfl i j p q - - - -
      simp only [C80.inputState, C35.second, Option.map_some, Option.some.injEq] at hF
      subst hF
      rfl
  | append_singleton l st ih =>
    obtain ⟨dl, d, rfl, hdl, hd⟩ := forall₂_snoc h
    have hl' : ∀ t ∈ l, StageOk r t := fun t ht => hl t (by simp [ht])
    obtain ⟨s, hs, ht, f1, f2⟩ := ih hl' hdl
    exact tracks_step hne hB hA' hr1 hr2 hx (fun t ht => (hl' t ht).smooth) (hl st (by simp)) hd hs ht f1 f2

lemma finite_entries (n1 n2 : ℕ) (S1 S2 : List ℕ) :
    ∃ I : Finset (ℕ × ℕ × List ℕ × List ℕ), ∀ i j p q, i < n1 → j < n2 → InRange p S1 → InRange q S2 → (i, j, p, q) ∈ I :=
  ⟨Finset.range n1 ×ˢ (Finset.range n2 ×ˢ (box S1 ×ˢ box S2)), fun i j p q hi hj hp hq => by
    simp only [Finset.mem_product, Finset.mem_range, mem_box]
    exact ⟨hi, hj, hp, hq⟩⟩

/-- All entries at once. -/
lemma tends_all (hC : 0 < C) (hne : B ≠ A) (hB : B < r) (hA : A < r) (hr1 : S1.length + 2 = r) (hr2 : S2.length + 2 = r) {y1 y2 : Arr ℝ}
    (h1 : y1.shape = actIdx B A n1 C S1) (h2 : y2.shape = actIdx B A n2 C S2) (l : List ConvStage) (hl : ∀ s ∈ l, Smooth r s) {ε δ : ℝ} (hε : 0 < ε) (hδ : 0 < δ) :
    ∃ n0, ∀ ds, List.Forall₂ (fun d s => ConvStage.Fits B A n0 d s) ds l →
      (drawConv C r ds).law {θ | ∃ i j p q, i < n1 ∧ j < n2 ∧ InRange p (dimsAfter l S1) ∧ InRange q (dimsAfter l S2) ∧
        ε ≤ |emp B A (drawConv C r ds) ⟨y1, n1, S1, i, p⟩ ⟨y2, n2, S2, j, q⟩ θ - lim B A C l ⟨y1, n1, S1, i, p⟩ ⟨y2, n2, S2, j, q⟩|} ≤ ENNReal.ofReal δ := by
  obtain ⟨I, hI⟩ := finite_entries n1 n2 (dimsAfter l S1) (dimsAfter l S2)
  have hδm : 0 < δ / (I.card + 1) := by positivity
  have each : ∀ e : ℕ × ℕ × List ℕ × List ℕ, ∃ n0, e.1 < n1 → e.2.1 < n2 → InRange e.2.2.1 (dimsAfter l S1) → InRange e.2.2.2 (dimsAfter l S2) →
      ∀ ds, List.Forall₂ (fun d s => ConvStage.Fits B A n0 d s) ds l →
        (drawConv C r ds).law {θ | ε ≤ |emp B A (drawConv C r ds) ⟨y1, n1, S1, e.1, e.2.2.1⟩ ⟨y2, n2, S2, e.2.1, e.2.2.2⟩ θ -
          lim B A C l ⟨y1, n1, S1, e.1, e.2.2.1⟩ ⟨y2, n2, S2, e.2.1, e.2.2.2⟩|} ≤ ENNReal.ofReal (δ / (I.card + 1)) := by
    intro e
    by_cases he : e.1 < n1 ∧ e.2.1 < n2 ∧ InRange e.2.2.1 (dimsAfter l S1) ∧ InRange e.2.2.2 (dimsAfter l S2)
    · obtain ⟨n0, h0⟩ := tends hC hne hB hA l hl (a := ⟨y1, n1, S1, e.1, e.2.2.1⟩) (b := ⟨y2, n2, S2, e.2.1, e.2.2.2⟩) ⟨hr1, h1, he.1, he.2.2.1⟩
        ⟨hr2, h2, he.2.1, he.2.2.2⟩ hε hδm
      exact ⟨n0, fun _ _ _ _ => h0⟩
    · exact ⟨0, fun a1 a2 a3 a4 => absurd ⟨a1, a2, a3, a4⟩ he⟩
  choose nn hn using each
  refine ⟨I.sup nn, fun ds hds => ?_⟩
  refine union_small _ I (fun e => {θ | e.1 < n1 ∧ e.2.1 < n2 ∧ InRange e.2.2.1 (dimsAfter l S1) ∧ InRange e.2.2.2 (dimsAfter l S2) ∧
    ε ≤ |emp B A (drawConv C r ds) ⟨y1, n1, S1, e.1, e.2.2.1⟩ ⟨y2, n2, S2, e.2.1, e.2.2.2⟩ θ -
      lim B A C l ⟨y1, n1, S1, e.1, e.2.2.1⟩ ⟨y2, n2, S2, e.2.1, e.2.2.2⟩|}) _ hδ ?_ fun e he => ?_
  · rintro θ ⟨i, j, p, q, hi, hj, hp, hq, h⟩
    exact Set.mem_biUnion (hI i j p q hi hj hp hq) ⟨hi, hj, hp, hq, h⟩
  · by_cases hh : e.1 < n1 ∧ e.2.1 < n2 ∧ InRange e.2.2.1 (dimsAfter l S1) ∧ InRange e.2.2.2 (dimsAfter l S2)
    · refine (measure_mono fun θ hθ => ?_).trans (hn e hh.1 hh.2.1 hh.2.2.1 hh.2.2.2 ds (hds.imp fun d s hf => Fits.mono (Finset.le_sup he) hf))
      exact hθ.2.2.2.2
    · refine (measure_mono (t := ∅) fun θ hθ => hh ⟨hθ.1, hθ.2.1, hθ.2.2.1, hθ.2.2.2.1⟩).trans (by simp)

/-- The empirical kernel of a wide random convolutional network is close to the kernel computed by `kernel_fn`, with high probability.  Take the network
`serial(Conv, phi, Conv, phi, ...)` of any depth, with any filter sizes, strides and padding modes, the nonlinearities given and optional, and inputs `x1` and `x2`
with any number of spatial axes.  For every tolerance `ε` and probability `δ` there is a width `n0` such that for all layers with at least `n0` channels each (of
either parameterization), `kernel_fn` succeeds on the inputs, and if the parameters are drawn as `init_fn` does, then with probability at least `1 - δ` the
averages over the channels of products of outputs of `apply_fn` at all pairs of examples and positions differ by less than `ε` from the entries of `nngp`. -/
theorem conv_empirical_converges (x1 : Arr ℝ) (x2 : Option (Arr ℝ)) (db ds ntk same : Bool) (ba ca : ℤ) (n1 n2 C r : ℕ) (S1 S2 : List ℕ) (B A : ℕ)
    (hr1 : S1.length + 2 = r) (hr2 : S2.length + 2 = r) (hB : (B : ℤ) = ba % r) (hA : (A : ℤ) = ca % r) (hne : B ≠ A)
    (hx : x2 = none → n2 = n1 ∧ S2 = S1) (hds : ds = true → S1 = S2) (h1 : x1.shape = actIdx B A n1 C S1)
    (h2 : (x2.getD x1).shape = actIdx B A n2 C S2) (hC : 0 < C) (stages : List ConvStage) (hst : ∀ s ∈ stages, StageOk r s) {ε δ : ℝ} (hε : 0 < ε) (hδ : 0 < δ) :
    ∃ n0, ∀ layers, List.Forall₂ (fun d s => ConvStage.Fits B A n0 d s) layers stages →
      ∃ k0 k L, Inputs.inputsToKernel x1 x2 db ds ntk ba (some ca) none same = .ok k0 ∧ (convNet layers).run (.one k0) = .ok (.one k) ∧ k.Stores L ∧
        (L.n1, L.n2, L.S1, L.S2) = (n1, n2, dimsAfter stages S1, dimsAfter stages S2) ∧ k.diagonalSpatial = ds ∧
        let N := drawConv C r layers
        N.law {θ | ∃ i j p q, i < n1 ∧ j < n2 ∧ InRange p (dimsAfter stages S1) ∧ InRange q (dimsAfter stages S2) ∧
          ε ≤ |(∑ c ∈ Finset.range N.channels, (N.apply θ x1).get (actIdx B A i c p) * (N.apply θ (x2.getD x1)).get (actIdx B A j c q)) / N.channels -
            L.k12 [i, j] p q|} ≤ ENNReal.ofReal δ := by
  have hBl : B < r := by
    have := Int.emod_lt_of_pos ba (b := (r : ℤ)) (by omega)
    omega
  have hAl : A < r := by
    have := Int.emod_lt_of_pos ca (b := (r : ℤ)) (by omega)
    omega
  obtain ⟨n0, hn⟩ := tends_all hC hne hBl hAl hr1 hr2 h1 h2 stages (fun s hs => (hst s hs).smooth) hε hδ
  refine ⟨n0, fun dl hdl => ?_⟩
  obtain ⟨k0, e0, f0, g0⟩ := C35.second_moment none db ds ntk same x1 x2 ba ca n1 n2 C S1 S2 B A (by rw [hB, ← hr1]; push_cast; rfl)
    (by rw [hA, ← hr1]; push_cast; rfl) hne (by omega) hds h1 h2
  obtain ⟨s, hs, ht, g1, g2⟩ := tracks hne hBl hAl hr1 hr2 db ds ntk same hx h1 h2 stages hst hdl
  obtain ⟨y, hy, hr⟩ := net_sound hs (.one _ _ (C80.input_describes f0 g0))
  cases hr with
  | one k _ hk =>
    refine ⟨k0, k, s.L, e0, hy, hk.stores, ?_, ?_, ?_⟩
    · rw [ht.dims.1, ht.dims.2.1, ht.dims.2.2.1, ht.dims.2.2.2]
    · rw [← g1, ← hk.static]; rfl
    · intro N
      refine (measure_mono ?_).trans (hn dl hdl)
      rintro θ ⟨i, j, p, q, hi, hj, hp, hq, h⟩
      rw [ht.k12 i j p q hi hj hp hq] at h
      exact ⟨i, j, p, q, hi, hj, hp, hq, h⟩

/-! ### Non-vacuity -/

/-- `Conv(3x3, SAME, W_std=1.5, b_std=0.1)`, `Relu`, `Conv(2x2, stride 2, VALID)`. -/
noncomputable def exStages : List ConvStage :=
  [⟨[(3, 1), (3, 1)], .same, 3 / 2, some (1 / 10), some ⟨fun x => 0 * min x 0 + 1 * max x 0, (abReluDual 0 1).kernelFn⟩⟩, ⟨[(2, 2), (2, 2)], .valid, 1, none, none⟩]

/-- Layers of width `n` of both parameterizations, for images with channels last. -/
noncomputable def exLayers (n : ℕ) : List (Conv × Option Act) :=
  [(⟨n, [(3, 1), (3, 1)], .same, 3 / 2, some (1 / 10), .ntk, (1, 1), true, 0, 3⟩, some ⟨fun x => 0 * min x 0 + 1 * max x 0, (abReluDual 0 1).kernelFn⟩),
    (⟨n, [(2, 2), (2, 2)], .valid, 1, none, .standard, (n, 1), true, 0, 3⟩, none)]

lemma ex_ok : ∀ s ∈ exStages, StageOk 4 s := by
  intro s hs
  simp only [exStages, List.mem_cons, List.not_mem_nil, or_false] at hs
  rcases hs with rfl | rfl
  · refine ⟨rfl, by decide, fun f hf => ?_⟩
    simp only [Option.some.injEq] at hf
    subst hf
    refine ⟨by fun_prop, ⟨1, 1, fun x => ?_⟩, abRelu_nonlinearity 0 1⟩
    simp only [zero_mul, one_mul, zero_add, pow_one]
    rw [abs_of_nonneg (le_max_right _ _)]
    exact max_le (by linarith [le_abs_self x]) (by linarith [abs_nonneg x])
  · exact ⟨rfl, by decide, fun f hf => by simp at hf⟩

lemma ex_fits (n : ℕ) (hn : 0 < n) : List.Forall₂ (fun d s => ConvStage.Fits 0 3 n d s) (exLayers n) exStages :=
  .cons ⟨rfl, rfl, rfl, rfl, rfl, rfl, by simp, by simp, rfl, rfl, by simp [Conv.width]⟩
    (.cons ⟨rfl, rfl, rfl, rfl, rfl, rfl, by simp, fun _ => hn, rfl, rfl, by simp [Conv.width]⟩ .nil)

/-- Non-vacuity: images of size 5 by 4 with 3 channels; the outputs have size 2 by 2. -/
example : ∃ n0, ∀ n, n0 ≤ n → 0 < n → ∃ k0 k L, Inputs.inputsToKernel (⟨[2, 5, 4, 3], fun i => i.getD 1 0 + 1⟩ : Arr ℝ) (some ⟨[2, 5, 4, 3], fun i => i.getD 0 0⟩)
      false false true 0 (some (-1)) none false = .ok k0 ∧ (convNet (exLayers n)).run (.one k0) = .ok (.one k) ∧ k.Stores L ∧ (L.S1, L.S2) = ([2, 2], [2, 2]) ∧
    (drawConv 3 4 (exLayers n)).law {θ | ∃ i j p q, i < 2 ∧ j < 2 ∧ InRange p [2, 2] ∧ InRange q [2, 2] ∧ 1 / 100 ≤
      |(∑ c ∈ Finset.range (drawConv 3 4 (exLayers n)).channels, ((drawConv 3 4 (exLayers n)).apply θ ⟨[2, 5, 4, 3], fun i => i.getD 1 0 + 1⟩).get (actIdx 0 3 i c p) *
        ((drawConv 3 4 (exLayers n)).apply θ ⟨[2, 5, 4, 3], fun i => i.getD 0 0⟩).get (actIdx 0 3 j c q)) / (drawConv 3 4 (exLayers n)).channels - L.k12 [i, j] p q|} ≤
        ENNReal.ofReal (1 / 1000) := by
  obtain ⟨n0, h⟩ := conv_empirical_converges ⟨[2, 5, 4, 3], fun i => i.getD 1 0 + 1⟩ (some ⟨[2, 5, 4, 3], fun i => i.getD 0 0⟩) false false true false 0 (-1) 2 2 3 4
    [5, 4] [5, 4] 0 3 rfl rfl rfl rfl (by decide) (by simp) (by simp) rfl rfl (by norm_num) exStages ex_ok (ε := 1 / 100) (δ := 1 / 1000) (by norm_num) (by norm_num)
  have hd : dimsAfter exStages [5, 4] = [2, 2] := by decide
  refine ⟨n0, fun n hn hp => ?_⟩
  obtain ⟨k0, k, L, h1, h2, h3, h4, -, h5⟩ := h (exLayers n) ((ex_fits n hp).imp fun d s hf => Fits.mono hn hf)
  simp only [Prod.mk.injEq, hd] at h4
  rw [hd] at h5
  exact ⟨k0, k, L, h1, h2, h3, by rw [h4.2.2.1, h4.2.2.2], h5⟩

end NT.C101
