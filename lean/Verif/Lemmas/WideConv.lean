import Verif.Tac
import Verif.Spec.WideConv
import Verif.Lemmas.WideNet

/-!
# Channel averages of wide random convolutional networks converge in probability
-/

set_option linter.unusedSectionVars false

namespace NT.WideConv
open _root_.NT.Wide (fn measurable_denseIn measurable_rowOut E2_psd forall₂_snoc)
open NT Gauss Spec MeasureTheory ProbabilityTheory

/-- Position `p` of the output for example `i` of the `n` inputs `x` with spatial shape `S`. -/
structure Pt where
  x : Arr ℝ
  n : ℕ
  S : List ℕ
  i : ℕ
  p : List ℕ

/-- Inputs of rank `r` with batch axis `B`, channel axis `A` and `C` channels; the outputs have spatial shape `D S`. -/
structure Pt.Valid (B A C r : ℕ) (D : List ℕ → List ℕ) (a : Pt) : Prop where
  rank : a.S.length + 2 = r
  shape : a.x.shape = actIdx B A a.n C a.S
  i : a.i < a.n
  p : InRange a.p (D a.S)

/-- Channel `c` of the output. -/
def val (B A : ℕ) (N : RandomNet) (a : Pt) (c : ℕ) (θ : N.E) : ℝ := chan (fun θ => N.apply θ a.x) B A a.i c a.p θ

/-- The average over the channels of products of outputs. -/
noncomputable def emp (B A : ℕ) (N : RandomNet) (a b : Pt) (θ : N.E) : ℝ :=
  (∑ c ∈ Finset.range N.channels, val B A N a c θ * val B A N b c θ) / N.channels

/-- The output has the expected shape and depends measurably on the parameters. -/
structure Good (B A C r : ℕ) (D : List ℕ → List ℕ) (N : RandomNet) : Prop where
  shape : ∀ x n S, S.length + 2 = r → x.shape = actIdx B A n C S → ∀ θ, (N.apply θ x).shape = actIdx B A n N.channels (D S)
  rank : ∀ S, S.length + 2 = r → (D S).length + 2 = r
  meas : ∀ a : Pt, a.Valid B A C r D → ∀ c < N.channels, Measurable (val B A N a c)
  pos : 0 < N.channels

/-- One stage. -/
noncomputable def grow (r : ℕ) (N : RandomNet) (d : Conv × Option Act) : RandomNet :=
  match d.2 with
  | none => N.conv d.1 r
  | some f => (N.conv d.1 r).act f.fn

lemma draw_snoc (C r : ℕ) (ds : List (Conv × Option Act)) (d : Conv × Option Act) : drawConv C r (ds ++ [d]) = grow r (drawConv C r ds) d := by
  unfold drawConv
  rw [List.foldl_append]
  rfl

lemma dims_snoc (l : List ConvStage) (s : ConvStage) (S : List ℕ) : dimsAfter (l ++ [s]) S = outDims s.padding (dimsAfter l S) s.filter := by
  unfold dimsAfter
  rw [List.foldl_append]
  rfl

variable {B A C r : ℕ} {D : List ℕ → List ℕ}

lemma good_input (hC : 0 < C) : Good B A C r (fun S => S) (RandomNet.input C) where
  shape _ _ _ _ h _ := h
  rank _ h := h
  meas a _ c _ := measurable_const (a := a.x.get (actIdx B A a.i c a.p))
  pos := hC

/-- Layers that can be applied. -/
structure ConvOk (B A r : ℕ) (d : Conv) : Prop where
  param : d.param ≠ .other
  sample : d.param = .standard → 0 < d.s.1
  shared : d.sharedWeights = true
  pos : ∀ v ∈ d.filter, 0 < v.1 ∧ 0 < v.2
  rank : d.filter.length + 2 = r
  batchAxis : d.batchAxis = B
  channelAxis : d.channelAxis = A
  wide : 0 < d.width

/-- The inputs that the output at `a` reads, one after the other. -/
noncomputable def patch (d : Conv) (N : RandomNet) (D : List ℕ → List ℕ) (a : Pt) (k : ℕ) (θ : N.E) : ℝ :=
  C53.patch d N.channels (fun θ => N.apply θ a.x) a.i (D a.S) a.p k θ

/-- The spatial shape after the layer. -/
def next (d : Conv) (D : List ℕ → List ℕ) (S : List ℕ) : List ℕ := outDims d.padding (D S) d.filter

lemma conv_eq {N : RandomNet} (hN : Good B A C r D N) (hne : B ≠ A) (hB : B < r) (hA : A < r) {d : Conv} (hd : ConvOk B A r d) {x : Arr ℝ} {n : ℕ} {S : List ℕ}
    (hr : S.length + 2 = r) (hx : x.shape = actIdx B A n C S) (θ : (N.conv d r).E) :
    ((N.conv d r).apply θ x).shape = actIdx B A n d.width (next d D S) ∧
    ∀ i o q, i < n → o < d.width → InRange q (next d D S) →
      val B A (N.conv d r) ⟨x, n, S, i, q⟩ o θ = linOut (C52.coef (C53.toDense d) o (patch d N D ⟨x, n, S, i, q⟩)) θ := by
  have hDr := hN.rank S hr
  have hl : (D S).length = d.filter.length := by have := hd.rank; omega
  obtain rfl := hd.batchAxis
  obtain rfl := hd.channelAxis
  have h := C53.layerOut_eq d hd.param hd.shared hd.pos (fun θ => N.apply θ x) n N.channels (D S) hl (by omega) (by omega) hne (hN.shape x n S hr hx) θ
  rw [hDr] at h
  exact h

lemma val_rows {N : RandomNet} (hN : Good B A C r D N) (hne : B ≠ A) (hB : B < r) (hA : A < r) {d : Conv} (hd : ConvOk B A r d) {a : Pt}
    (ha : a.Valid B A C r (next d D)) (o : Fin (C53.toDense d).width) (θ : (N.conv d r).E) :
    val B A (N.conv d r) a o θ =
      rowOut (pick (denseIdx (C53.toDense d) (C := d.fanIn N.channels))) o (denseIn (C53.toDense d) (d.fanIn N.channels) fun k => patch d N D a k θ.fst) θ.snd := by
  have ho : (o : ℕ) < d.width := by rw [← C53.toDense_width d hd.shared]; exact o.2
  refine ((conv_eq hN hne hB hA hd ha.rank ha.shape θ).2 a.i o a.p ha.i ho ha.p).trans ?_
  exact linOut_rowOut (C53.toDense d) o _ θ

/-- What is read is an entry or 0. -/
lemma patch_cases {N : RandomNet} {d : Conv} {a : Pt} (hr : (D a.S).length = d.filter.length) (hw : ∀ v ∈ d.filter, 0 < v.1 ∧ 0 < v.2)
    (hp : InRange a.p (next d D a.S)) (hB : d.batchAxis = B) (hA : d.channelAxis = A) {k : ℕ} (hk : k < d.fanIn N.channels) :
    patch d N D a k = (fun _ => 0) ∨ ∃ c < N.channels, ∃ p, InRange p (D a.S) ∧ patch d N D a k = val B A N { a with p := p } c := by
  obtain ⟨c, hc, f, -, t1, t2, t3⟩ := C53.patch_split d N.channels (D a.S) a.p k hr hw hp hk
  rcases t3 with t3 | ⟨p, t3, hp⟩
  · left
    funext θ
    unfold patch C53.patch
    rw [t2, t3]
    rfl
  · right
    refine ⟨c, hc, p, hp, ?_⟩
    funext θ
    unfold patch C53.patch
    rw [t1, t2, t3, hB, hA]
    rfl

lemma patch_meas {N : RandomNet} (hN : Good B A C r D N) {d : Conv} (hd : ConvOk B A r d) {a : Pt} (ha : a.Valid B A C r (next d D)) (k : ℕ)
    (hk : k < d.fanIn N.channels) : Measurable (patch d N D a k) := by
  have hr := hN.rank a.S ha.rank
  have := hd.rank
  rcases patch_cases (by omega) hd.pos ha.p hd.batchAxis hd.channelAxis hk with h | ⟨c, hc, p, hp, h⟩
  · rw [h]; exact measurable_const
  · rw [h]
    exact hN.meas { a with p := p } ⟨ha.rank, ha.shape, ha.i, hp⟩ c hc

lemma good_conv {N : RandomNet} (hN : Good B A C r D N) (hne : B ≠ A) (hB : B < r) (hA : A < r) {d : Conv} (hd : ConvOk B A r d) :
    Good B A C r (next d D) (N.conv d r) where
  shape x n S hr hx θ := (conv_eq hN hne hB hA hd hr hx θ).1
  rank S hr := by
    have h1 := hN.rank S hr
    have h2 := hd.rank
    unfold next
    rw [outDims_length _ _ _ (by omega)]
    exact h1
  meas a ha c hc := by
    have hc' : c < (C53.toDense d).width := by rw [C53.toDense_width d hd.shared]; exact hc
    have e : val B A (N.conv d r) a c = (fun x : N.E × EuclideanSpace ℝ (C52.Idx (d.fanIn N.channels) (C53.toDense d).width (C52.nBias (C53.toDense d))) =>
        rowOut (pick (denseIdx (C53.toDense d) (C := d.fanIn N.channels))) ⟨c, hc'⟩
          (denseIn (C53.toDense d) (d.fanIn N.channels) fun k => patch d N D a k x.1) x.2) ∘ WithLp.ofLp :=
      funext fun θ => val_rows hN hne hB hA hd ha ⟨c, hc'⟩ θ
    rw [e]
    exact (measurable_rowOut (dense_rows (C53.toDense d)) _ _ (measurable_denseIn (C53.toDense d) _ _ fun k hk => patch_meas hN hd ha k hk)).comp
      (WithLp.measurable_ofLp 2 _)
  pos := hd.wide

lemma good_act {N : RandomNet} (hN : Good B A C r D N) {φ : ℝ → ℝ} (hφ : Measurable φ) : Good B A C r D (N.act φ) where
  shape x n S hr hx θ := hN.shape x n S hr hx θ
  rank := hN.rank
  meas a ha c hc := hφ.comp (hN.meas a ha c hc)
  pos := hN.pos

lemma good_grow {N : RandomNet} (hN : Good B A C r D N) (hne : B ≠ A) (hB : B < r) (hA : A < r) {d : Conv × Option Act} (hd : ConvOk B A r d.1)
    (hf : Measurable (fn d.2)) : Good B A C r (next d.1 D) (grow r N d) := by
  have := good_conv hN hne hB hA hd
  obtain ⟨d, _ | f⟩ := d
  · exact this
  · exact good_act this hf

/-- The probability of an event of the network with a further stage. -/
lemma grow_event {N : RandomNet} (hN : Good B A C r D N) (hne : B ≠ A) (hB : B < r) (hA : A < r) {d : Conv × Option Act} (hd : ConvOk B A r d.1)
    (hf : Measurable (fn d.2)) {a b : Pt} (ha : a.Valid B A C r (next d.1 D)) (hb : b.Valid B A C r (next d.1 D)) (q : ℝ) (ε : ℝ) :
    (grow r N d).law {θ | ε ≤ |emp B A (grow r N d) a b θ - q|} =
      (N.law.prod (normalVector (C52.initVar (C53.toDense d.1) (C := d.1.fanIn N.channels)))) {x | ε ≤ |(∑ o : Fin (C53.toDense d.1).width,
        fn d.2 (rowOut (pick (denseIdx (C53.toDense d.1) (C := d.1.fanIn N.channels))) o
          (denseIn (C53.toDense d.1) (d.1.fanIn N.channels) fun k => patch d.1 N D a k x.1) x.2) *
        fn d.2 (rowOut (pick (denseIdx (C53.toDense d.1) (C := d.1.fanIn N.channels))) o
          (denseIn (C53.toDense d.1) (d.1.fanIn N.channels) fun k => patch d.1 N D b k x.1) x.2)) / Fintype.card (Fin (C53.toDense d.1).width) - q|} := by
  have hG := good_grow hN hne hB hA hd hf
  have hm : Measurable fun θ => emp B A (grow r N d) a b θ := by
    unfold emp
    refine Measurable.div_const (Finset.measurable_sum _ fun c hc => ?_) _
    exact (hG.meas a ha c (Finset.mem_range.1 hc)).mul (hG.meas b hb c (Finset.mem_range.1 hc))
  have hS : MeasurableSet {θ | ε ≤ |emp B A (grow r N d) a b θ - q|} := measurableSet_le measurable_const (hm.sub_const q).abs
  have hw := C53.toDense_width d.1 hd.shared
  have hv := C53.initVar_eq d.1 N.channels (D := (C53.toDense d.1).width) (B := C52.nBias (C53.toDense d.1))
  rw [← hv]
  obtain ⟨d, _ | f⟩ := d
  all_goals
    refine (Measure.map_apply (by fun_prop) hS).trans (congrArg _ (Set.ext fun x => ?_))
    simp only [Set.mem_ofPred_eq, emp, Fintype.card_fin]
    show (ε ≤ |(∑ c ∈ Finset.range d.width, _) / (d.width : ℝ) - q|) ↔ _
    dsimp only at hw
    rw [← hw, Finset.sum_range]
    refine iff_of_eq (congrArg (fun s => ε ≤ |s / ((C53.toDense d).width : ℝ) - q|) (Finset.sum_congr rfl fun o _ => ?_))
    have e1 := val_rows hN hne hB hA hd ha o (WithLp.toLp 2 x)
    have e2 := val_rows hN hne hB hA hd hb o (WithLp.toLp 2 x)
  · exact congrArg₂ (· * ·) e1 e2
  · exact congrArg₂ (fun u v => f.fn u * f.fn v) e1 e2

/-! ### The limit -/

/-- The average over the filter offsets of the covariances of what is read. -/
noncomputable def mix (s : ConvStage) (D : List ℕ → List ℕ) (K : Pt → Pt → ℝ) (a b : Pt) : ℝ :=
  (∑ f ∈ offsets s.filter, read2 (fun p q => K { a with p := p } { b with p := q }) (readIdx s.padding (D a.S) s.filter a.p f)
    (readIdx s.padding (D b.S) s.filter b.p f)) / ((s.filter.map Prod.fst).prod : ℕ)

/-- The limit before the nonlinearity. -/
noncomputable def pre (s : ConvStage) (D : List ℕ → List ℕ) (K : Pt → Pt → ℝ) (a b : Pt) : ℝ := s.wStd ^ 2 * mix s D K a b + (s.bStd.getD 0) ^ 2

/-- The limit after a further stage. -/
noncomputable def post (s : ConvStage) (D : List ℕ → List ℕ) (K : Pt → Pt → ℝ) (a b : Pt) : ℝ :=
  E2 (fn s.act) (fn s.act) (pre s D K a a, pre s D K a b, pre s D K b b)

/-- The shapes and the limit after some stages. -/
noncomputable def limits (B A C : ℕ) (l : List ConvStage) : (List ℕ → List ℕ) × (Pt → Pt → ℝ) :=
  l.foldl (fun k s => (fun S => outDims s.padding (k.1 S) s.filter, post s k.1 k.2)) (fun S => S, fun a b =>
    (∑ c ∈ Finset.range C, a.x.get (actIdx B A a.i c a.p) * b.x.get (actIdx B A b.i c b.p)) / C)

/-- The limit. -/
noncomputable def lim (B A C : ℕ) (l : List ConvStage) : Pt → Pt → ℝ := (limits B A C l).2

lemma limits_fst (l : List ConvStage) : (limits B A C l).1 = dimsAfter l := by
  induction l using List.reverseRecOn with
  | nil => rfl
  | append_singleton l s ih =>
    funext S
    rw [dims_snoc, ← ih]
    unfold limits
    rw [List.foldl_append]
    rfl

lemma lim_snoc (l : List ConvStage) (s : ConvStage) : lim B A C (l ++ [s]) = post s (dimsAfter l) (lim B A C l) := by
  rw [← limits_fst (B := B) (A := A) (C := C)]
  unfold lim limits
  rw [List.foldl_append]
  rfl

/-- Conditions on a stage. -/
structure Smooth (r : ℕ) (s : ConvStage) : Prop where
  cont : Continuous (fn s.act)
  tame : Tame (fn s.act)
  pos : ∀ v ∈ s.filter, 0 < v.1 ∧ 0 < v.2
  rank : s.filter.length + 2 = r

lemma psd_zero : Psd (0, 0, 0) := ⟨le_rfl, le_rfl, by simp⟩

/-- Positive semidefinite two by two matrices, by their quadratic form. -/
lemma psd_iff {u v w : ℝ} : Psd (u, v, w) ↔ ∀ x y : ℝ, 0 ≤ u * x ^ 2 + 2 * v * x * y + w * y ^ 2 := by
  constructor
  · rintro ⟨h1, h2, h3⟩ x y
    simp only at h1 h2 h3
    rcases h1.eq_or_lt with h | h
    · have : v = 0 := by rw [← h] at h3; nlinarith
      rw [← h, this]
      nlinarith [mul_nonneg h2 (sq_nonneg y)]
    · have : 0 ≤ u * (u * x ^ 2 + 2 * v * x * y + w * y ^ 2) := by nlinarith [sq_nonneg (u * x + v * y), mul_nonneg (sub_nonneg.2 h3) (sq_nonneg y)]
      exact nonneg_of_mul_nonneg_right this h
  · intro h
    refine ⟨by simpa using h 1 0, by simpa using h 0 1, ?_⟩
    have := discrim_le_zero (a := u) (b := 2 * v) (c := w) fun t => by have := h t 1; nlinarith
    unfold discrim at this
    simp only
    linarith

lemma psd_affine {w t u11 u12 u22 : ℝ} (hw : 0 ≤ w) (ht : 0 ≤ t) (h : Psd (u11, u12, u22)) : Psd (w * u11 + t, w * u12 + t, w * u22 + t) := by
  rw [psd_iff] at h ⊢
  intro x y
  nlinarith [mul_nonneg hw (h x y), mul_nonneg ht (sq_nonneg (x + y))]

lemma psd_sum {ι : Type} (s : Finset ι) (u v w : ι → ℝ) (h : ∀ i ∈ s, Psd (u i, v i, w i)) : Psd (∑ i ∈ s, u i, ∑ i ∈ s, v i, ∑ i ∈ s, w i) := by
  rw [psd_iff]
  intro x y
  have : 0 ≤ ∑ i ∈ s, (u i * x ^ 2 + 2 * v i * x * y + w i * y ^ 2) := Finset.sum_nonneg fun i hi => psd_iff.1 (h i hi) x y
  rw [Finset.sum_add_distrib, Finset.sum_add_distrib, ← Finset.sum_mul, ← Finset.sum_mul, ← Finset.sum_mul, ← Finset.sum_mul, ← Finset.mul_sum] at this
  exact this

lemma psd_mix (s : ConvStage) (D : List ℕ → List ℕ) {K : Pt → Pt → ℝ} (h : ∀ a b, Psd (K a a, K a b, K b b)) (a b : Pt) :
    Psd (mix s D K a a, mix s D K a b, mix s D K b b) := by
  unfold mix
  simp only [Finset.sum_div]
  refine psd_sum _ _ _ _ fun f _ => ?_
  have hn : (0 : ℝ) ≤ (((s.filter.map Prod.fst).prod : ℕ) : ℝ)⁻¹ := by positivity
  simp only [div_eq_inv_mul]
  have key : ∀ {u v w : ℝ}, Psd (u, v, w) → Psd ((((s.filter.map Prod.fst).prod : ℕ) : ℝ)⁻¹ * u, (((s.filter.map Prod.fst).prod : ℕ) : ℝ)⁻¹ * v,
      (((s.filter.map Prod.fst).prod : ℕ) : ℝ)⁻¹ * w) := fun h => by simpa using psd_affine hn le_rfl h
  refine key ?_
  rcases readIdx s.padding (D a.S) s.filter a.p f with _ | p <;> rcases readIdx s.padding (D b.S) s.filter b.p f with _ | q <;> simp only [read2]
  · exact psd_zero
  · exact ⟨le_rfl, (h { b with p := q } { b with p := q }).1, by simp⟩
  · exact ⟨(h { a with p := p } { a with p := p }).1, le_rfl, by simp⟩
  · exact h _ _

lemma pre_psd (s : ConvStage) (D : List ℕ → List ℕ) {K : Pt → Pt → ℝ} (h : ∀ a b, Psd (K a a, K a b, K b b)) (a b : Pt) :
    Psd (pre s D K a a, pre s D K a b, pre s D K b b) := psd_affine (sq_nonneg _) (sq_nonneg _) (psd_mix s D h a b)

lemma lim_psd (l : List ConvStage) (hl : ∀ s ∈ l, Smooth r s) (a b : Pt) : Psd (lim B A C l a a, lim B A C l a b, lim B A C l b b) := by
  induction l using List.reverseRecOn generalizing a b with
  | nil =>
    refine ⟨?_, ?_, ?_⟩
    · exact div_nonneg (Finset.sum_nonneg fun c _ => mul_self_nonneg _) (Nat.cast_nonneg _)
    · exact div_nonneg (Finset.sum_nonneg fun c _ => mul_self_nonneg _) (Nat.cast_nonneg _)
    · simp only [lim, limits, List.foldl_nil]
      rw [div_pow, div_mul_div_comm, pow_two (C : ℝ)]
      refine div_le_div_of_nonneg_right ?_ (by positivity)
      have := Finset.sum_mul_sq_le_sq_mul_sq (Finset.range C) (fun c => a.x.get (actIdx B A a.i c a.p)) fun c => b.x.get (actIdx B A b.i c b.p)
      simpa only [pow_two] using this
  | append_singleton l s ih =>
    rw [lim_snoc]
    exact E2_psd (hl s (by simp)).tame (pre_psd s _ (ih (fun t ht => hl t (by simp [ht]))) a b)

lemma Fits.mono {n n' : ℕ} (h : n ≤ n') {d : Conv × Option Act} {s : ConvStage} (hf : s.Fits B A n' d) : s.Fits B A n d :=
  { hf with wide := h.trans hf.wide }

lemma Fits.ok {n : ℕ} (h : 0 < n) {d : Conv × Option Act} {s : ConvStage} (hs : Smooth r s) (hf : s.Fits B A n d) : ConvOk B A r d.1 where
  param := hf.param
  sample := hf.sample
  shared := hf.shared
  pos := by rw [hf.filter]; exact hs.pos
  rank := by rw [hf.filter]; exact hs.rank
  batchAxis := hf.batchAxis
  channelAxis := hf.channelAxis
  wide := h.trans_le hf.wide

lemma next_eq {n : ℕ} {d : Conv × Option Act} {s : ConvStage} (hf : s.Fits B A n d) (l : List ConvStage) : next d.1 (dimsAfter l) = dimsAfter (l ++ [s]) := by
  funext S
  rw [dims_snoc, next, hf.filter, hf.padding]

lemma good_draw (hC : 0 < C) (hne : B ≠ A) (hB : B < r) (hA : A < r) (l : List ConvStage) (hl : ∀ s ∈ l, Smooth r s) {n : ℕ} (hn : 0 < n)
    {ds : List (Conv × Option Act)} (h : List.Forall₂ (fun d s => ConvStage.Fits B A n d s) ds l) : Good B A C r (dimsAfter l) (drawConv C r ds) := by
  induction l using List.reverseRecOn generalizing ds with
  | nil =>
    cases h
    exact good_input hC
  | append_singleton l s ih =>
    obtain ⟨ds, d, rfl, h1, h2⟩ := forall₂_snoc h
    have hs := hl s (by simp)
    rw [draw_snoc, ← next_eq h2]
    refine good_grow (ih (fun t ht => hl t (by simp [ht])) h1) hne hB hA (Fits.ok hn hs h2) ?_
    rw [h2.act]
    exact hs.tame.meas

/-- The covariance of the outputs of the layer given its inputs. -/
lemma rowCov_patch {N : RandomNet} (hN : Good B A C r D N) {d : Conv × Option Act} {s : ConvStage} {n : ℕ} (hd : ConvOk B A r d.1) (hf : s.Fits B A n d) {a b : Pt}
    (ha : a.Valid B A C r (next d.1 D)) (hb : b.Valid B A C r (next d.1 D)) (θ : N.E) :
    ∑ k, denseVar (C53.toDense d.1) (d.1.fanIn N.channels) k * (denseIn (C53.toDense d.1) _ (fun k => patch d.1 N D a k θ) k *
      denseIn (C53.toDense d.1) _ (fun k => patch d.1 N D b k θ) k) = pre s D (fun a b => emp B A N a b θ) a b := by
  have hpos : 0 < d.1.fanIn N.channels := by
    unfold Conv.fanIn Conv.filterSize
    refine Nat.mul_pos hN.pos (Nat.pos_of_ne_zero fun h0 => ?_)
    rw [List.prod_eq_zero_iff] at h0
    obtain ⟨v, hv, hv0⟩ := List.mem_map.1 h0
    have := (hd.pos v hv).1
    omega
  rw [rowCov_dense (C53.toDense d.1) hd.param hpos hd.sample, C52.bVar]
  show d.1.wStd ^ 2 * _ + (d.1.bStd.getD 0) ^ 2 = _
  rw [hf.wStd, hf.bStd, pre]
  congr 2
  have h1 := hN.rank a.S ha.rank
  have h2 := hN.rank b.S hb.rank
  have h3 := hd.rank
  refine (C53.avg_patch d.1 N.channels hN.pos hd.pos (fun θ => N.apply θ a.x) (fun θ => N.apply θ b.x) (D a.S) (D b.S) (by omega) (by omega)
    (fun f g => f θ * g θ) (fun g => zero_mul _) (fun g => mul_zero _) a.i b.i (fun p q => emp B A N { a with p := p } { b with p := q } θ)
    (fun p q _ _ => ?_) a.p b.p ha.p hb.p).trans ?_
  · rw [hd.batchAxis, hd.channelAxis]
    rfl
  · unfold C53.avg mix
    rw [hf.filter, hf.padding]

/-- If the averages are far from each other, so are the covariances of some positions that are read. -/
lemma mix_far {s : ConvStage} (hs : Smooth r s) {K K' : Pt → Pt → ℝ} {a b : Pt} (hla : (D a.S).length + 2 = r) (hlb : (D b.S).length + 2 = r)
    (hpa : InRange a.p (outDims s.padding (D a.S) s.filter)) (hpb : InRange b.p (outDims s.padding (D b.S) s.filter)) {η : ℝ} (hη : 0 < η)
    (h : η ≤ |mix s D K a b - mix s D K' a b|) :
    ∃ f ∈ offsets s.filter, ∃ p q, readIdx s.padding (D a.S) s.filter a.p f = some p ∧ readIdx s.padding (D b.S) s.filter b.p f = some q ∧ InRange p (D a.S) ∧
      InRange q (D b.S) ∧ η ≤ |K { a with p := p } { b with p := q } - K' { a with p := p } { b with p := q }| := by
  by_contra hc
  push Not at hc
  have hr := hs.rank
  have hpos : 0 < (s.filter.map Prod.fst).prod := Nat.pos_of_ne_zero fun h0 => by
    rw [List.prod_eq_zero_iff] at h0
    obtain ⟨v, hv, hv0⟩ := List.mem_map.1 h0
    have := (hs.pos v hv).1
    omega
  have hcard : (offsets s.filter).card = (s.filter.map Prod.fst).prod := box_card _
  have hpos' : (0 : ℝ) < ((s.filter.map Prod.fst).prod : ℕ) := by exact_mod_cast hpos
  unfold mix at h
  rw [← sub_div, ← Finset.sum_sub_distrib, abs_div, abs_of_pos hpos', le_div_iff₀ hpos'] at h
  have hne : (offsets s.filter).Nonempty := by rw [← Finset.card_pos, hcard]; exact hpos
  have : ∑ f ∈ offsets s.filter, |read2 (fun p q => K { a with p := p } { b with p := q }) (readIdx s.padding (D a.S) s.filter a.p f)
      (readIdx s.padding (D b.S) s.filter b.p f) - read2 (fun p q => K' { a with p := p } { b with p := q }) (readIdx s.padding (D a.S) s.filter a.p f)
      (readIdx s.padding (D b.S) s.filter b.p f)| < ∑ f ∈ offsets s.filter, η := by
    refine Finset.sum_lt_sum_of_nonempty hne fun f hf => ?_
    rcases e1 : readIdx s.padding (D a.S) s.filter a.p f with _ | p
    · simpa [read2] using hη
    · rcases e2 : readIdx s.padding (D b.S) s.filter b.p f with _ | q
      · simpa [read2] using hη
      · exact hc f hf p q e1 e2 (readIdx_inRange _ _ _ _ _ _ (fun v hv => hs.pos v hv) (by omega) hpa e1)
          (readIdx_inRange _ _ _ _ _ _ (fun v hv => hs.pos v hv) (by omega) hpb e2)
  rw [Finset.sum_const, hcard, nsmul_eq_mul] at this
  have h2 := Finset.abs_sum_le_sum_abs (fun f => read2 (fun p q => K { a with p := p } { b with p := q }) (readIdx s.padding (D a.S) s.filter a.p f)
      (readIdx s.padding (D b.S) s.filter b.p f) - read2 (fun p q => K' { a with p := p } { b with p := q }) (readIdx s.padding (D a.S) s.filter a.p f)
      (readIdx s.padding (D b.S) s.filter b.p f)) (offsets s.filter)
  linarith

end NT.WideConv
