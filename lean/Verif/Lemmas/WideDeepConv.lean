import Verif.Tac
import Verif.Lemmas.WideDeep

/-!
# Convolutional and dense layers on top of families of networks whose channel averages converge
-/

set_option linter.unusedSectionVars false

namespace NT.WideDeep
open _root_.NT.Wide (fn measurable_denseIn measurable_rowOut)
open _root_.NT.WideConv (Pt val emp patch next mix mix_far union_small patch_cases)
open NT Gauss Spec MeasureTheory ProbabilityTheory

variable {ok : Arr ℝ → ℕ → List ℕ → Prop} {P : ℕ → RandomNet → Prop} {B A r : ℕ} {D : List ℕ → List ℕ} {K : Pt → Pt → ℝ}

/-! ### Conv -/

lemma conv_eq {N : RandomNet} (hax : Axes ok B A r D) (hN : Good ok B A r D N) {d : Conv} (hd : WideConv.ConvOk B A r d) {x : Arr ℝ} {n : ℕ} {S : List ℕ}
    (hx : ok x n S) (θ : (N.conv d r).E) :
    ((N.conv d r).apply θ x).shape = actIdx B A n d.width (next d D S) ∧
    ∀ i o q, i < n → o < d.width → InRange q (next d D S) →
      val B A (N.conv d r) ⟨x, n, S, i, q⟩ o θ = linOut (C52.coef (C53.toDense d) o (patch d N D ⟨x, n, S, i, q⟩)) θ := by
  have hDr := hax.rank x n S hx
  have hl : (D S).length = d.filter.length := by have := hd.rank; omega
  obtain rfl := hd.batchAxis
  obtain rfl := hd.channelAxis
  have hB := hax.B
  have hA := hax.A
  have h := C53.layerOut_eq d hd.param hd.shared hd.pos (fun θ => N.apply θ x) n N.channels (D S) hl (by omega) (by omega) hax.ne (hN.shape x n S hx) θ
  rw [hDr] at h
  exact h

lemma conv_rows {N : RandomNet} (hax : Axes ok B A r D) (hN : Good ok B A r D N) {d : Conv} (hd : WideConv.ConvOk B A r d) {a : Pt} (ha : Valid ok (next d D) a)
    (o : Fin (C53.toDense d).width) (θ : (N.conv d r).E) :
    val B A (N.conv d r) a o θ =
      rowOut (pick (denseIdx (C53.toDense d) (C := d.fanIn N.channels))) o (denseIn (C53.toDense d) (d.fanIn N.channels) fun k => patch d N D a k θ.fst) θ.snd := by
  have ho : (o : ℕ) < d.width := by rw [← C53.toDense_width d hd.shared]; exact o.2
  refine ((conv_eq hax hN hd ha.ok θ).2 a.i o a.p ha.i ho ha.p).trans ?_
  exact linOut_rowOut (C53.toDense d) o _ θ

lemma patch_meas {N : RandomNet} (hax : Axes ok B A r D) (hN : Good ok B A r D N) {d : Conv} (hd : WideConv.ConvOk B A r d) {a : Pt} (ha : Valid ok (next d D) a)
    (k : ℕ) (hk : k < d.fanIn N.channels) : Measurable (patch d N D a k) := by
  have hr := hax.rank _ _ _ ha.ok
  have := hd.rank
  rcases patch_cases (by omega) hd.pos ha.p hd.batchAxis hd.channelAxis hk with h | ⟨c, hc, p, hp, h⟩
  · rw [h]; exact measurable_const
  · rw [h]
    exact hN.meas { a with p := p } ⟨ha.ok, ha.i, hp⟩ c hc

lemma good_conv {N : RandomNet} (hax : Axes ok B A r D) (hN : Good ok B A r D N) {d : Conv} (hd : WideConv.ConvOk B A r d) :
    Good ok B A r (next d D) (N.conv d r) where
  shape x n S hx θ := (conv_eq hax hN hd hx θ).1
  meas a ha c hc := by
    have hc' : c < (C53.toDense d).width := by rw [C53.toDense_width d hd.shared]; exact hc
    have e : val B A (N.conv d r) a c = (fun x : N.E × EuclideanSpace ℝ (C52.Idx (d.fanIn N.channels) (C53.toDense d).width (C52.nBias (C53.toDense d))) =>
        rowOut (pick (denseIdx (C53.toDense d) (C := d.fanIn N.channels))) ⟨c, hc'⟩
          (denseIn (C53.toDense d) (d.fanIn N.channels) fun k => patch d N D a k x.1) x.2) ∘ WithLp.ofLp :=
      funext fun θ => conv_rows hax hN hd ha ⟨c, hc'⟩ θ
    rw [e]
    exact (measurable_rowOut (dense_rows (C53.toDense d)) _ _ (measurable_denseIn (C53.toDense d) _ _ fun k hk => patch_meas hax hN hd ha k hk)).comp
      (WithLp.measurable_ofLp 2 _)
  pos := hd.wide

/-- The covariance of the outputs of the layer given its inputs. -/
lemma rowCov_patch {N : RandomNet} (hax : Axes ok B A r D) (hN : Good ok B A r D N) {d : Conv × Option Act} {s : ConvStage} {n : ℕ}
    (hd : WideConv.ConvOk B A r d.1) (hf : s.Fits B A n d) {a b : Pt} (ha : Valid ok (next d.1 D) a) (hb : Valid ok (next d.1 D) b) (θ : N.E) :
    ∑ k, denseVar (C53.toDense d.1) (d.1.fanIn N.channels) k * (denseIn (C53.toDense d.1) _ (fun k => patch d.1 N D a k θ) k *
      denseIn (C53.toDense d.1) _ (fun k => patch d.1 N D b k θ) k) = WideConv.pre s D (fun a b => emp B A N a b θ) a b := by
  have hpos : 0 < d.1.fanIn N.channels := by
    unfold Conv.fanIn Conv.filterSize
    refine Nat.mul_pos hN.pos (Nat.pos_of_ne_zero fun h0 => ?_)
    rw [List.prod_eq_zero_iff] at h0
    obtain ⟨v, hv, hv0⟩ := List.mem_map.1 h0
    have := (hd.pos v hv).1
    omega
  rw [rowCov_dense (C53.toDense d.1) hd.param hpos hd.sample, C52.bVar]
  show d.1.wStd ^ 2 * _ + (d.1.bStd.getD 0) ^ 2 = _
  rw [hf.wStd, hf.bStd, WideConv.pre]
  congr 2
  have h1 := hax.rank _ _ _ ha.ok
  have h2 := hax.rank _ _ _ hb.ok
  have h3 := hd.rank
  refine (C53.avg_patch d.1 N.channels hN.pos hd.pos (fun θ => N.apply θ a.x) (fun θ => N.apply θ b.x) (D a.S) (D b.S) (by omega) (by omega)
    (fun f g => f θ * g θ) (fun g => zero_mul _) (fun g => mul_zero _) a.i b.i (fun p q => emp B A N { a with p := p } { b with p := q } θ)
    (fun p q _ _ => ?_) a.p b.p ha.p hb.p).trans ?_
  · rw [hd.batchAxis, hd.channelAxis]
    rfl
  · unfold C53.avg mix
    rw [hf.filter, hf.padding]

/-- The covariances of patches converge. -/
lemma pre_conv (h : Limit ok P B A r D K) {s : ConvStage} (hs : WideConv.Smooth r s) {a b : Pt}
    (ha : Valid ok (fun S => outDims s.padding (D S) s.filter) a) (hb : Valid ok (fun S => outDims s.padding (D S) s.filter) b) {η δ : ℝ} (hη : 0 < η) (hδ : 0 < δ) :
    ∃ m, ∀ N, P m N → N.law {θ | η ≤ |WideConv.pre s D (fun a b => emp B A N a b θ) a b - WideConv.pre s D K a b|} ≤ ENNReal.ofReal δ := by
  have hw : 0 < s.wStd ^ 2 + 1 := by positivity
  have hη' : 0 < η / (s.wStd ^ 2 + 1) := by positivity
  have hδ' : 0 < δ / ((offsets s.filter).card + 1) := by positivity
  have each : ∀ f : List ℕ, ∃ m, ∀ p q, readIdx s.padding (D a.S) s.filter a.p f = some p →
      readIdx s.padding (D b.S) s.filter b.p f = some q → InRange p (D a.S) → InRange q (D b.S) → ∀ N, P m N →
        N.law {θ | η / (s.wStd ^ 2 + 1) ≤ |emp B A N { a with p := p } { b with p := q } θ - K { a with p := p } { b with p := q }|} ≤
          ENNReal.ofReal (δ / ((offsets s.filter).card + 1)) := by
    intro f
    rcases e1 : readIdx s.padding (D a.S) s.filter a.p f with _ | p
    · exact ⟨0, fun p q h => by simp at h⟩
    rcases e2 : readIdx s.padding (D b.S) s.filter b.p f with _ | q
    · exact ⟨0, fun p q _ h => by simp at h⟩
    by_cases hp : InRange p (D a.S) ∧ InRange q (D b.S)
    · obtain ⟨m, hm⟩ := h.conv { a with p := p } { b with p := q } ⟨ha.ok, ha.i, hp.1⟩ ⟨hb.ok, hb.i, hp.2⟩ _ _ hη' hδ'
      refine ⟨m, fun p' q' h1 h2 _ _ => ?_⟩
      simp only [Option.some.injEq] at h1 h2
      subst h1 h2
      exact hm
    · refine ⟨0, fun p' q' h1 h2 h3 h4 => ?_⟩
      simp only [Option.some.injEq] at h1 h2
      subst h1 h2
      exact absurd ⟨h3, h4⟩ hp
  choose m hm using each
  refine ⟨(offsets s.filter).sup m, fun N hN => ?_⟩
  have hda := h.axes.rank _ _ _ ha.ok
  have hdb := h.axes.rank _ _ _ hb.ok
  refine union_small _ (offsets s.filter) (fun f => {θ | ∃ p q, readIdx s.padding (D a.S) s.filter a.p f = some p ∧
    readIdx s.padding (D b.S) s.filter b.p f = some q ∧ InRange p (D a.S) ∧ InRange q (D b.S) ∧
    η / (s.wStd ^ 2 + 1) ≤ |emp B A N { a with p := p } { b with p := q } θ - K { a with p := p } { b with p := q }|}) _
    hδ (fun θ hθ => ?_) fun f hf => ?_
  · simp only [Set.mem_ofPred_eq, WideConv.pre] at hθ
    rw [show ∀ w x y t : ℝ, w * x + t - (w * y + t) = w * (x - y) from fun w x y t => by ring, abs_mul, abs_of_nonneg (sq_nonneg _)] at hθ
    have h1 : η / (s.wStd ^ 2 + 1) ≤ |mix s D (fun a b => emp B A N a b θ) a b - mix s D K a b| := by
      rw [div_le_iff₀ hw]
      nlinarith [abs_nonneg (mix s D (fun a b => emp B A N a b θ) a b - mix s D K a b)]
    obtain ⟨f, hf, p, q, e⟩ := mix_far hs hda hdb ha.p hb.p hη' h1
    exact Set.mem_biUnion hf ⟨p, q, e⟩
  · rcases e1 : readIdx s.padding (D a.S) s.filter a.p f with _ | p
    · simp
    rcases e2 : readIdx s.padding (D b.S) s.filter b.p f with _ | q
    · simp
    by_cases hp : InRange p (D a.S) ∧ InRange q (D b.S)
    · refine (measure_mono fun θ hθ => ?_).trans (hm f p q e1 e2 hp.1 hp.2 N (h.mono _ _ N (Finset.le_sup hf) hN))
      obtain ⟨p', q', h1, h2, -, -, h5⟩ := hθ
      simp only [Option.some.injEq] at h1 h2
      subst h1 h2
      exact h5
    · refine (measure_mono (t := ∅) fun θ hθ => ?_).trans (by simp)
      obtain ⟨p', q', h1, h2, h3, h4, -⟩ := hθ
      simp only [Option.some.injEq] at h1 h2
      subst h1 h2
      exact hp ⟨h3, h4⟩

/-- Covariances of patches are covariances. -/
lemma pre_psd (h : Limit ok P B A r D K) (hne : ∀ n, ∃ N, P n N) {s : ConvStage} (hs : WideConv.Smooth r s) {a b : Pt}
    (ha : Valid ok (fun S => outDims s.padding (D S) s.filter) a) (hb : Valid ok (fun S => outDims s.padding (D S) s.filter) b) :
    Psd (WideConv.pre s D K a a, WideConv.pre s D K a b, WideConv.pre s D K b b) := by
  refine WideConv.psd_affine (sq_nonneg _) (sq_nonneg _) ?_
  have hda := h.axes.rank _ _ _ ha.ok
  have hdb := h.axes.rank _ _ _ hb.ok
  have hr := hs.rank
  unfold mix
  simp only [Finset.sum_div]
  refine WideConv.psd_sum _ _ _ _ fun f _ => ?_
  have hn : (0 : ℝ) ≤ (((s.filter.map Prod.fst).prod : ℕ) : ℝ)⁻¹ := by positivity
  simp only [div_eq_inv_mul]
  have key : ∀ {u v w : ℝ}, Psd (u, v, w) → Psd ((((s.filter.map Prod.fst).prod : ℕ) : ℝ)⁻¹ * u, (((s.filter.map Prod.fst).prod : ℕ) : ℝ)⁻¹ * v,
      (((s.filter.map Prod.fst).prod : ℕ) : ℝ)⁻¹ * w) := fun h => by simpa using WideConv.psd_affine hn le_rfl h
  refine key ?_
  have va : ∀ p, readIdx s.padding (D a.S) s.filter a.p f = some p → Valid ok D { a with p := p } := fun p e =>
    ⟨ha.ok, ha.i, readIdx_inRange _ _ _ _ _ _ (fun v hv => hs.pos v hv) (by show (D a.S).length = _; omega) ha.p e⟩
  have vb : ∀ p, readIdx s.padding (D b.S) s.filter b.p f = some p → Valid ok D { b with p := p } := fun p e =>
    ⟨hb.ok, hb.i, readIdx_inRange _ _ _ _ _ _ (fun v hv => hs.pos v hv) (by show (D b.S).length = _; omega) hb.p e⟩
  rcases ea : readIdx s.padding (D a.S) s.filter a.p f with _ | p <;> rcases eb : readIdx s.padding (D b.S) s.filter b.p f with _ | q <;> simp only [read2]
  · exact WideConv.psd_zero
  · exact ⟨le_rfl, (h.psd hne (vb q eb) (vb q eb)).1, by simp⟩
  · exact ⟨(h.psd hne (va p ea) (va p ea)).1, le_rfl, by simp⟩
  · exact h.psd hne (va p ea) (vb q eb)

/-- A convolutional layer on top. -/
lemma limit_conv (h : Limit ok P B A r D K) {s : ConvStage} (hs : WideConv.Smooth r s) :
    Limit ok (fun n N' => ∃ N d, P n N ∧ s.Fits B A n d ∧ N' = (N.conv d.1 r).actOpt d.2) B A r (fun S => outDims s.padding (D S) s.filter)
      (WideConv.post s D K) := by
  have hax : Axes ok B A r (fun S => outDims s.padding (D S) s.filter) := ⟨h.axes.ne, h.axes.B, h.axes.A, fun x n S hx => by
    have h1 := h.axes.rank x n S hx
    have h2 := hs.rank
    rw [outDims_length _ _ _ (by omega)]
    exact h1⟩
  have hnx : ∀ {n : ℕ} {d : Conv × Option Act}, s.Fits B A n d → next d.1 D = fun S => outDims s.padding (D S) s.filter := fun hd => by
    funext S
    rw [next, hd.filter, hd.padding]
  have hgood : ∀ N d n, 1 ≤ n → P n N → s.Fits B A n d → Good ok B A r (next d.1 D) (N.conv d.1 r) := fun N d n hn hN hd =>
    good_conv h.axes (h.good N (h.mono _ _ N hn hN)) (WideConv.Fits.ok (lt_of_lt_of_le one_pos hn) hs hd)
  refine ⟨hax, ?_, ?_, ?_⟩
  · rintro m n N' hmn ⟨N, d, hN, hd, rfl⟩
    exact ⟨N, d, h.mono _ _ N hmn hN, WideConv.Fits.mono hmn hd, rfl⟩
  · rintro N' ⟨N, d, hN, hd, rfl⟩
    rw [← hnx hd]
    refine good_actOpt (hgood N d 1 le_rfl hN hd) ?_
    rw [hd.act]
    exact hs.tame.meas
  · by_cases hne : ∀ n, ∃ N, P n N
    · intro a b ha hb ε δ hε hδ
      refine wide_limit hs.cont hs.tame (P := P) (V := Valid ok fun S => outDims s.padding (D S) s.filter) (Q := WideConv.pre s D K)
        (Qe := fun N θ a b => WideConv.pre s D (fun a b => emp B A N a b θ) a b) (fun a b ha hb => pre_psd h hne hs ha hb) h.mono
        (fun a b ha hb ε δ hε hδ => pre_conv h hs ha hb hε hδ) ?_ a b ha hb ε δ hε hδ
      rintro n N' hn ⟨N, d, hN, hd, rfl⟩
      have hG := h.good N (h.mono _ _ N hn hN)
      have hok := WideConv.Fits.ok (lt_of_lt_of_le one_pos hn) hs hd
      have hG' := hgood N d n hn hN hd
      have hA' := good_actOpt hG' (f := d.2) (by rw [hd.act]; exact hs.tame.meas)
      rw [← hnx hd]
      have hwd := C53.toDense_width d.1 hok.shared
      refine ⟨N, hN, _, Fin (C53.toDense d.1).width, _, inferInstance, inferInstance, inferInstance, normalVector (C52.initVar (C53.toDense d.1)),
        denseVar (C53.toDense d.1) (d.1.fanIn N.channels), pick (denseIdx (C53.toDense d.1) (C := d.1.fanIn N.channels)),
        fun a θ => denseIn (C53.toDense d.1) (d.1.fanIn N.channels) fun k => patch d.1 N D a k θ, dense_rows (C53.toDense d.1), ?_, ?_, ?_, ?_⟩
      · rw [Fintype.card_fin, hwd]; exact hd.wide
      · exact fun a ha => measurable_denseIn (C53.toDense d.1) _ _ fun k hk => patch_meas h.axes hG hok ha k hk
      · exact fun a b ha hb θ => rowCov_patch h.axes hG hok hd ha hb θ
      · intro a b ha hb q ε
        have hv := C53.initVar_eq d.1 N.channels (D := (C53.toDense d.1).width) (B := C52.nBias (C53.toDense d.1))
        rw [← hv, ← hd.act]
        exact event_eq (B := B) (A := A) (v := C53.initVar d.1 N.channels) (app := fun θ x => C53.layerOut d.1 N.channels r (fun θ => N.apply θ x) θ)
          (ch := d.1.width) d.2 (finCongr hwd.symm)
          (ua := fun o x => rowOut (pick (denseIdx (C53.toDense d.1) (C := d.1.fanIn N.channels))) o
            (denseIn (C53.toDense d.1) (d.1.fanIn N.channels) fun k => patch d.1 N D a k x.1) x.2)
          (ub := fun o x => rowOut (pick (denseIdx (C53.toDense d.1) (C := d.1.fanIn N.channels))) o
            (denseIn (C53.toDense d.1) (d.1.fanIn N.channels) fun k => patch d.1 N D b k x.1) x.2)
          (fun c hc => ⟨hA'.meas a ha c (by rw [actOpt_channels]; exact hc), hA'.meas b hb c (by rw [actOpt_channels]; exact hc)⟩)
          (fun c x => conv_rows h.axes hG hok ha (finCongr hwd.symm c) (WithLp.toLp 2 x))
          (fun c x => conv_rows h.axes hG hok hb (finCongr hwd.symm c) (WithLp.toLp 2 x)) q ε
    · push Not at hne
      obtain ⟨n, hn⟩ := hne
      exact fun a b _ _ ε δ _ _ => ⟨n, fun N' ⟨N, d, hN, _⟩ => absurd hN (hn N)⟩

/-! ### Dense -/

/-- The limit before the nonlinearity of a dense layer. -/
def densePre (s : Stage) (K : Pt → Pt → ℝ) (a b : Pt) : ℝ := s.wStd ^ 2 * K a b + (s.bStd.getD 0) ^ 2

/-- The limit after a dense layer. -/
noncomputable def densePost (s : Stage) (K : Pt → Pt → ℝ) (a b : Pt) : ℝ :=
  E2 (fn s.act) (fn s.act) (densePre s K a a, densePre s K a b, densePre s K b b)

lemma dense_eq {N : RandomNet} (hax : Axes ok B A r D) (hN : Good ok B A r D N) {d : Dense} (hd : Wide.DenseOk A r d) {x : Arr ℝ} {n : ℕ} {S : List ℕ}
    (hx : ok x n S) (θ : (N.dense d r A).E) :
    ((N.dense d r A).apply θ x).shape = actIdx B A n d.width (D S) ∧
    ∀ i o q, i < n → o < d.width → InRange q (D S) →
      val B A (N.dense d r A) ⟨x, n, S, i, q⟩ o θ = linOut (C52.coef d o fun c => val B A N ⟨x, n, S, i, q⟩ c) θ := by
  have hr := hax.rank x n S hx
  have hA := hd.axis
  have hB := hax.B
  have hne := hax.ne
  subst hr
  exact C52.layerOut_eq d hd.param (fun θ => N.apply θ x) B A n N.channels (D S) (by rw [hA]; push_cast; rfl) hne hB (hN.shape x n S hx) θ

lemma dense_rows_eq {N : RandomNet} (hax : Axes ok B A r D) (hN : Good ok B A r D N) {d : Dense} (hd : Wide.DenseOk A r d) {a : Pt} (ha : Valid ok D a)
    (o : Fin d.width) (θ : (N.dense d r A).E) :
    val B A (N.dense d r A) a o θ = rowOut (pick (denseIdx d (C := N.channels))) o (denseIn d N.channels fun c => val B A N a c θ.fst) θ.snd := by
  refine ((dense_eq hax hN hd ha.ok θ).2 a.i o a.p ha.i o.2 ha.p).trans ?_
  exact linOut_rowOut d o _ θ

lemma good_dense {N : RandomNet} (hax : Axes ok B A r D) (hN : Good ok B A r D N) {d : Dense} (hd : Wide.DenseOk A r d) : Good ok B A r D (N.dense d r A) where
  shape x n S hx θ := (dense_eq hax hN hd hx θ).1
  meas a ha c hc := by
    have e : val B A (N.dense d r A) a c = (fun x : N.E × EuclideanSpace ℝ (C52.Idx N.channels d.width (C52.nBias d)) =>
        rowOut (pick (denseIdx d (C := N.channels))) ⟨c, hc⟩ (denseIn d N.channels fun c => val B A N a c x.1) x.2) ∘ WithLp.ofLp :=
      funext fun θ => dense_rows_eq hax hN hd ha ⟨c, hc⟩ θ
    rw [e]
    exact (measurable_rowOut (dense_rows d) _ _ (measurable_denseIn d _ _ fun c hc => hN.meas a ha c hc)).comp (WithLp.measurable_ofLp 2 _)
  pos := hd.wide

/-- A dense layer on top. -/
lemma limit_dense (h : Limit ok P B A r D K) {s : Stage} (hs : Wide.Smooth s) :
    Limit ok (fun n N' => ∃ N d, P n N ∧ s.Fits r A n d ∧ N' = (N.dense d.1 r A).actOpt d.2) B A r D (densePost s K) := by
  have hgood : ∀ N d n, 1 ≤ n → P n N → s.Fits r A n d → Good ok B A r D (N.dense d.1 r A) := fun N d n hn hN hd =>
    good_dense h.axes (h.good N (h.mono _ _ N hn hN)) (Wide.Fits.ok (lt_of_lt_of_le one_pos hn) hd)
  refine ⟨h.axes, ?_, ?_, ?_⟩
  · rintro m n N' hmn ⟨N, d, hN, hd, rfl⟩
    exact ⟨N, d, h.mono _ _ N hmn hN, Wide.Fits.mono hmn hd, rfl⟩
  · rintro N' ⟨N, d, hN, hd, rfl⟩
    refine good_actOpt (hgood N d 1 le_rfl hN hd) ?_
    rw [hd.act]
    exact hs.tame.meas
  · by_cases hne : ∀ n, ∃ N, P n N
    · intro a b ha hb ε δ hε hδ
      refine wide_limit hs.cont hs.tame (P := P) (V := Valid ok D) (Q := densePre s K)
        (Qe := fun N θ a b => densePre s (fun a b => emp B A N a b θ) a b)
        (fun a b ha hb => WideConv.psd_affine (sq_nonneg _) (sq_nonneg _) (h.psd hne ha hb)) h.mono ?_ ?_ a b ha hb ε δ hε hδ
      · intro a b ha hb ε δ hε hδ
        have hw : 0 < s.wStd ^ 2 + 1 := by positivity
        obtain ⟨n0, h0⟩ := h.conv a b ha hb (ε / (s.wStd ^ 2 + 1)) δ (by positivity) hδ
        refine ⟨n0, fun N hN => (measure_mono fun θ hθ => ?_).trans (h0 N hN)⟩
        simp only [Set.mem_ofPred_eq, densePre] at hθ ⊢
        rw [show ∀ w x y t : ℝ, w * x + t - (w * y + t) = w * (x - y) from fun w x y t => by ring, abs_mul, abs_of_nonneg (sq_nonneg _)] at hθ
        rw [div_le_iff₀ hw]
        nlinarith [abs_nonneg (emp B A N a b θ - K a b)]
      rintro n N' hn ⟨N, d, hN, hd, rfl⟩
      have hG := h.good N (h.mono _ _ N hn hN)
      have hok := Wide.Fits.ok (lt_of_lt_of_le one_pos hn) hd
      have hG' := hgood N d n hn hN hd
      have hA' := good_actOpt hG' (f := d.2) (by rw [hd.act]; exact hs.tame.meas)
      refine ⟨N, hN, _, Fin d.1.width, _, inferInstance, inferInstance, inferInstance, normalVector (C52.initVar d.1),
        denseVar d.1 N.channels, pick (denseIdx d.1 (C := N.channels)), fun a θ => denseIn d.1 N.channels fun c => val B A N a c θ, dense_rows d.1, ?_, ?_, ?_, ?_⟩
      · rw [Fintype.card_fin]; exact hd.wide
      · exact fun a ha => measurable_denseIn d.1 _ _ fun c hc => hG.meas a ha c hc
      · intro a b ha hb θ
        rw [rowCov_dense d.1 hok.param hG.pos hok.sample, C52.bVar, hd.wStd, hd.bStd]
        rfl
      · intro a b ha hb q ε
        rw [← hd.act]
        exact event_eq (B := B) (A := A) (v := C52.initVar d.1) (app := fun θ x => C52.layerOut d.1 r A (fun θ => N.apply θ x) θ)
          (ch := d.1.width) d.2 (Equiv.refl _)
          (ua := fun o x => rowOut (pick (denseIdx d.1 (C := N.channels))) o (denseIn d.1 N.channels fun c => val B A N a c x.1) x.2)
          (ub := fun o x => rowOut (pick (denseIdx d.1 (C := N.channels))) o (denseIn d.1 N.channels fun c => val B A N b c x.1) x.2)
          (fun c hc => ⟨hA'.meas a ha c (by rw [actOpt_channels]; exact hc), hA'.meas b hb c (by rw [actOpt_channels]; exact hc)⟩)
          (fun c x => dense_rows_eq h.axes hG hok ha c (WithLp.toLp 2 x))
          (fun c x => dense_rows_eq h.axes hG hok hb c (WithLp.toLp 2 x)) q ε
    · push Not at hne
      obtain ⟨n, hn⟩ := hne
      exact fun a b _ _ ε δ _ _ => ⟨n, fun N' ⟨N, d, hN, _⟩ => absurd hN (hn N)⟩

end NT.WideDeep
