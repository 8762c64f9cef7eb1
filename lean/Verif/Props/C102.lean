import Verif.Tac
import Verif.Lemmas.WideDeepNet

/-!
# C102: wide random networks of convolutions, dense layers, pooling and flattening have the covariance that `kernel_fn` computes
-/

namespace NT.C102
open _root_.NT.WideConv (Pt val emp union_small)
open NT NT.Network NT.Spec NT.Semantics NT.Gauss NT.WideDeep MeasureTheory ProbabilityTheory

/-- Whether the kernel stores only pairs of equal positions after the layer. -/
def diagAfter (ds : Bool) : DeepStage → Bool
  | .flatten _ => false
  | _ => ds

/-- The layer can be applied to activations of the format `f` for `x1`, and of spatial shape `T2` for `x2`:

* `Conv` has one positive filter size and stride per spatial axis;
* the nonlinearities of `Conv` and `Dense` are continuous, grow at most polynomially, and their layers have the `kernel_fn` of the nonlinearity;
* pooling has one positive window size and stride per spatial axis and the right axes, and the kernel stores all pairs of positions;
* `Flatten` has valid axes, and the inputs have equal spatial shapes without empty axes. -/
def StageOk (ds : Bool) (f : Fmt) (T2 : List ℕ) : DeepStage → Prop
  | .conv s => C101.StageOk f.rank s
  | .dense s => C92.StageOk s
  | .pool d => ds = false ∧ (∀ v ∈ d.window, 0 < v.1 ∧ 0 < v.2) ∧ d.window.length + 2 = f.rank ∧ d.batchAxis = f.B ∧ (f.A : ℤ) = d.channelAxis % f.rank
  | .globalPool d => ds = false ∧ (f.B : ℤ) = d.batchAxis % f.rank ∧ (f.A : ℤ) = d.channelAxis % f.rank
  | .flatten d => (∃ bo co, d.axesOut = .ok (bo, co)) ∧ (f.B : ℤ) = d.batchAxis % f.rank ∧ f.S = T2 ∧ 0 ∉ f.S

/-- All layers can be applied, one after the other. -/
def AllOk : Bool → Fmt → List ℕ → List DeepStage → Prop
  | _, _, _, [] => True
  | ds, f, T2, s :: ss => StageOk ds f T2 s ∧ AllOk (diagAfter ds s) (s.fmt f) (s.dims T2) ss

variable {I : Ins} {P : ℕ → RandomNet → Prop} {B A r : ℕ} {D : List ℕ → List ℕ} {K : Pt → Pt → ℝ}

lemma restrict {ok : Arr ℝ → ℕ → List ℕ → Prop} (h : Limit ok P B A r D K) {P' : ℕ → RandomNet → Prop} (hP : ∀ n N, P' n N → P n N)
    (hm : ∀ m n N, m ≤ n → P' n N → P' m N) : Limit ok P' B A r D K :=
  ⟨h.axes, hm, fun N hN => h.good N (hP 1 N hN), fun a b ha hb ε δ hε hδ => by
    obtain ⟨n0, h0⟩ := h.conv a b ha hb ε δ hε hδ
    exact ⟨n0, fun N hN => h0 N (hP _ N hN)⟩⟩

lemma wide_mono {m n : ℕ} (h : m ≤ n) {f : Fmt} {l : DeepLayer} (hl : l.Wide n f) : l.Wide m f := by
  cases l with
  | conv d a => exact ⟨hl.1, hl.2.1, hl.2.2.1, hl.2.2.2.1, hl.2.2.2.2.1, h.trans hl.2.2.2.2.2⟩
  | dense d a => exact ⟨hl.1, hl.2.1, hl.2.2.1, hl.2.2.2.1, h.trans hl.2.2.2.2⟩
  | _ => trivial

lemma allWide_mono {m n : ℕ} (h : m ≤ n) {f : Fmt} {ls : List DeepLayer} (hl : AllWide n f ls) : AllWide m f ls := by
  induction ls generalizing f with
  | nil => trivial
  | cons l ls ih => exact ⟨wide_mono h hl.1, ih hl.2⟩

lemma conv_fits {n : ℕ} {f : Fmt} {d : Conv} {a : Option Act} (h : (DeepLayer.conv d a).Wide n f) :
    ConvStage.Fits f.B f.A n (d, a) ⟨d.filter, d.padding, d.wStd, d.bStd, a⟩ :=
  ⟨rfl, rfl, rfl, rfl, rfl, h.1, h.2.1, h.2.2.1, h.2.2.2.1, h.2.2.2.2.1, h.2.2.2.2.2⟩

lemma dense_fits {n : ℕ} {f : Fmt} {d : Dense} {a : Option Act} (h : (DeepLayer.dense d a).Wide n f) : Stage.Fits f.rank f.A n (d, a) ⟨d.wStd, d.bStd, a⟩ :=
  ⟨rfl, rfl, rfl, h.1, h.2.1, h.2.2.1, h.2.2.2.1, h.2.2.2.2⟩

/-- What a layer does to the limits and to the kernels that `kernel_fn` computes. -/
structure Step (I : Ins) (P : ℕ → RandomNet → Prop) (f : Fmt) (T2 : List ℕ) (ds : Bool) (st : DeepStage) (D : List ℕ → List ℕ) (K K' : Pt → Pt → ℝ) : Prop where
  limit : Limit I.ok (fun n N' => ∃ N, ∃ l : DeepLayer, P n N ∧ l.stage = st ∧ l.Wide n f ∧ N' = l.grow f N) (st.fmt f).B (st.fmt f).A (st.fmt f).rank (fun S => st.dims (D S)) K'
  ex : ∀ n, ∃ l : DeepLayer, l.stage = st ∧ l.Wide n f
  dims : st.dims f.S = (st.fmt f).S
  tracks : ∀ n (l : DeepLayer), l.stage = st → l.Wide n f → ∀ M v s, NetSem M v (.one s) → Tracks I f.B f.A f.S T2 K s → s.info.diagonalSpatial = ds →
    ∃ s', NetSem (l.growNet M) v (.one s') ∧ Tracks I (st.fmt f).B (st.fmt f).A (st.dims f.S) (st.dims T2) K' s' ∧ s'.info.diagonalSpatial = diagAfter ds st

lemma step {f : Fmt} {T2 : List ℕ} {ds : Bool} {st : DeepStage} (h : Limit I.ok P f.B f.A f.rank D K) (hne : ∀ n, ∃ N, P n N) (h1 : D I.S1 = f.S)
    (h2 : D I.S2 = T2) (hst : StageOk ds f T2 st) : ∃ K', Step I P f T2 ds st D K K' := by
  obtain ⟨B, A, S⟩ := f
  obtain rfl : D I.S1 = S := h1
  subst h2
  have mono : ∀ (st : DeepStage) (f : Fmt) m n N', m ≤ n → (∃ N, ∃ l : DeepLayer, P n N ∧ l.stage = st ∧ l.Wide n f ∧ N' = l.grow f N) →
      ∃ N, ∃ l : DeepLayer, P m N ∧ l.stage = st ∧ l.Wide m f ∧ N' = l.grow f N := by
    rintro st f m n N' hmn ⟨N, l, a1, a2, a3, a4⟩
    exact ⟨N, l, h.mono _ _ N hmn a1, a2, wide_mono hmn a3, a4⟩
  have hax := h.axes
  have hB : B < (D I.S1).length + 2 := hax.B
  have hA : A < (D I.S1).length + 2 := hax.A
  cases st with
  | conv s =>
    have hs : C101.StageOk ((D I.S1).length + 2) s := hst
    have hl : (outDims s.padding (D I.S1) s.filter).length = (D I.S1).length := outDims_length _ _ _ (by have := hs.rank; omega)
    refine ⟨WideConv.post s D K, ⟨restrict (P := fun n N' => ∃ N d, P n N ∧ s.Fits B A n d ∧ N' = (N.conv d.1 ((D I.S1).length + 2)).actOpt d.2) ?_ ?_ (mono _ _),
      fun n => ?_, rfl, ?_⟩⟩
    · have := limit_conv h hs.smooth
      show Limit _ _ B A ((outDims s.padding (D I.S1) s.filter).length + 2) _ _
      rw [hl]
      exact this
    · rintro n N' ⟨N, l, hN, hls, hw, rfl⟩
      cases l with
      | conv d a =>
        cases hls
        exact ⟨N, (d, a), hN, conv_fits hw, rfl⟩
      | _ => cases hls
    · exact ⟨.conv ⟨n, s.filter, s.padding, s.wStd, s.bStd, .ntk, (1, 1), true, B, A⟩ s.act, rfl, rfl, by simp, by simp, rfl, rfl, by simp [Conv.width]⟩
    · intro n l hls hw M v z hM ht hz
      cases l with
      | conv d a =>
        cases hls
        obtain ⟨t, t1, t2, t3, t4⟩ := tracks_conv hax hs (conv_fits hw) hM ht
        obtain ⟨z', z1, z2, z3⟩ := tracks_act (D := fun S => outDims d.padding (D S) d.filter) t1 t2 a t4
          (fun x y hx hy => pre_psd h hne hs.smooth hx hy) fun g hg => (hs.act g hg).2.2
        refine ⟨z', ?_, z2, z3.trans (t3.trans hz)⟩
        cases a <;> exact z1
      | _ => cases hls
  | dense s =>
    have hs : C92.StageOk s := hst
    refine ⟨densePost s K, ⟨restrict (P := fun n N' => ∃ N d, P n N ∧ s.Fits ((D I.S1).length + 2) A n d ∧ N' = (N.dense d.1 ((D I.S1).length + 2) A).actOpt d.2) ?_ ?_ (mono _ _),
      fun n => ?_, rfl, ?_⟩⟩
    · exact limit_dense h hs.smooth
    · rintro n N' ⟨N, l, hN, hls, hw, rfl⟩
      cases l with
      | dense d a =>
        cases hls
        exact ⟨N, (d, a), hN, dense_fits hw, rfl⟩
      | _ => cases hls
    · refine ⟨.dense ⟨n, s.wStd, s.bStd, A, .ntk, (1, 1)⟩ s.act, rfl, by simp, by simp, ?_, ?_, by simp [Dense.width]⟩
      · show (A : ℤ) = (A : ℤ) % ((D I.S1).length + 2 : ℕ)
        rw [Int.emod_eq_of_lt (by omega) (by omega)]
      · show -(((D I.S1).length + 2 : ℕ) : ℤ) ≤ (A : ℤ) ∧ (A : ℤ) < ((D I.S1).length + 2 : ℕ)
        omega
    · intro n l hls hw M v z hM ht hz
      cases l with
      | dense d a =>
        cases hls
        obtain ⟨t, t1, t2, t3, t4⟩ := tracks_dense hax (dense_fits hw) hM ht
        obtain ⟨z', z1, z2, z3⟩ := tracks_act t1 t2 a t4
          (fun x y hx hy => WideConv.psd_affine (sq_nonneg _) (sq_nonneg _) (h.psd hne hx hy)) fun g hg => (hs.act g hg).2.2
        refine ⟨z', ?_, z2, z3.trans (t3.trans hz)⟩
        cases a <;> exact z1
      | _ => cases hls
  | pool d =>
    obtain ⟨hds, hw, hl, hb, hc⟩ := hst
    have hl' : d.window.length + 2 = (D I.S1).length + 2 := hl
    have hca : d.ca = A := by
      have hc' : (A : ℤ) = d.channelAxis % (((D I.S1).length + 2 : ℕ) : ℤ) := hc
      unfold Pool.ca
      rw [show ((d.window.length : ℤ) + 2) = (((D I.S1).length + 2 : ℕ) : ℤ) by rw [← hl']; push_cast; rfl, ← hc', Int.toNat_natCast]
    have hlen : (outDims d.padding (D I.S1) d.window).length = (D I.S1).length := outDims_length _ _ _ (by omega)
    refine ⟨linK (fun _ => offsets d.window) (fun S o _ => (C54.denom d S o)⁻¹) (fun S o f => readIdx d.padding S d.window o f) D K, ⟨restrict (P := fun n N' => ∃ N, P n N ∧ N' = N.mapOut d.apply 1) ?_ ?_ (mono _ _), fun n => ⟨.pool d, rfl, trivial⟩, rfl, ?_⟩⟩
    · have := limit_pool h d hw hl hb hc
      show Limit _ _ B A ((outDims d.padding (D I.S1) d.window).length + 2) _ _
      rw [hlen]
      exact this
    · rintro n N' ⟨N, l, hN, hls, -, rfl⟩
      cases l with
      | pool d' =>
        cases hls
        exact ⟨N, hN, rfl⟩
      | _ => cases hls
    · intro n l hls _ M v z hM ht hz
      cases l with
      | pool d' =>
        cases hls
        obtain ⟨t, t1, t2, t3⟩ := tracks_pool hax hw hl hb hca hM ht (hz.trans hds)
        exact ⟨t, t1, t2, t3.trans hds.symm⟩
      | _ => cases hls
  | globalPool d =>
    obtain ⟨hds, hb, hc⟩ := hst
    have e : DeepStage.fmt (.globalPool d) ⟨B, A, D I.S1⟩ = ⟨if B < A then 0 else 1, if B < A then 1 else 0, []⟩ := by
      show (if B < A then (⟨0, 1, []⟩ : Fmt) else ⟨1, 0, []⟩) = _
      split_ifs <;> rfl
    refine ⟨linK (fun S => box S) (fun S _ _ => C54.weight d.type S) (fun _ _ p => some p) D K, ⟨restrict (P := fun n N' => ∃ N, P n N ∧ N' = N.mapOut d.apply 1) ?_ ?_ (mono _ _), fun n => ⟨.globalPool d, rfl, trivial⟩, by rw [e]; rfl, ?_⟩⟩
    · rw [e]
      exact limit_globalPool h d hb hc
    · rintro n N' ⟨N, l, hN, hls, -, rfl⟩
      cases l with
      | globalPool d' =>
        cases hls
        exact ⟨N, hN, rfl⟩
      | _ => cases hls
    · intro n l hls _ M v z hM ht hz
      rw [e]
      cases l with
      | globalPool d' =>
        cases hls
        obtain ⟨t, t1, t2, t3⟩ := tracks_globalPool hax hb hc hM ht (hz.trans hds)
        exact ⟨t, t1, t2, t3.trans hds.symm⟩
      | _ => cases hls
  | flatten d =>
    obtain ⟨⟨bo, co, hf⟩, hb, hT, hpos⟩ := hst
    have e : DeepStage.fmt (.flatten d) ⟨B, A, D I.S1⟩ = ⟨bo, co, []⟩ := by
      unfold DeepStage.fmt
      dsimp only
      rw [hf]
    have hbo : bo ≠ co ∧ bo < 2 ∧ co < 2 := by
      have := hf
      unfold Flatten.axesOut at this
      split_ifs at this <;> cases this <;> decide
    have hT' : D I.S1 = D I.S2 := hT
    refine ⟨flatK D K, ⟨restrict (P := fun n N' => ∃ N, P n N ∧ N' = N.mapOut (fun x => match d.apply x with
      | .ok z => z
      | .error _ => ⟨[], fun _ => 0⟩) (D I.S1).prod) ?_ ?_ (mono _ _), fun n => ⟨.flatten d, rfl, trivial⟩, by rw [e]; rfl, ?_⟩⟩
    · rw [e]
      refine limit_flatten h d hf hb (T := D I.S1) ?_ hpos hbo
      rintro x n S (⟨-, -, rfl⟩ | ⟨-, -, rfl⟩)
      · rfl
      · exact hT'.symm
    · rintro n N' ⟨N, l, hN, hls, -, rfl⟩
      cases l with
      | flatten d' =>
        cases hls
        exact ⟨N, hN, rfl⟩
      | _ => cases hls
    · intro n l hls _ M v z hM ht hz
      rw [e]
      cases l with
      | flatten d' =>
        cases hls
        obtain ⟨t, t1, t2, t3⟩ := tracks_flatten hax hf hb hT' hpos hM ht
        exact ⟨t, t1, t2, t3⟩
      | _ => cases hls

/-- What all layers do to the limits and to the kernels that `kernel_fn` computes. -/
structure Steps (I : Ins) (P : ℕ → RandomNet → Prop) (f : Fmt) (T2 : List ℕ) (ds : Bool) (ss : List DeepStage) (D : List ℕ → List ℕ) (K K' : Pt → Pt → ℝ) :
    Prop where
  limit : Limit I.ok (fun n N' => ∃ N ls, P n N ∧ ls.map DeepLayer.stage = ss ∧ AllWide n f ls ∧ N' = drawFrom f N ls) (deepFmt ss f).B (deepFmt ss f).A
    (deepFmt ss f).rank (fun S => deepDims ss (D S)) K'
  tracks : ∀ n (ls : List DeepLayer), ls.map DeepLayer.stage = ss → AllWide n f ls → ∀ M v s, NetSem M v (.one s) → Tracks I f.B f.A f.S T2 K s →
    s.info.diagonalSpatial = ds → ∃ s', NetSem (ls.foldl DeepLayer.growNet M) v (.one s') ∧
      Tracks I (deepFmt ss f).B (deepFmt ss f).A (deepDims ss f.S) (deepDims ss T2) K' s' ∧ s'.info.diagonalSpatial = ss.foldl diagAfter ds

lemma steps {f : Fmt} {T2 : List ℕ} {ds : Bool} {ss : List DeepStage} (h : Limit I.ok P f.B f.A f.rank D K) (hne : ∀ n, ∃ N, P n N) (h1 : D I.S1 = f.S)
    (h2 : D I.S2 = T2) (hss : AllOk ds f T2 ss) : ∃ K', Steps I P f T2 ds ss D K K' := by
  induction ss generalizing P f T2 ds D K with
  | nil =>
    refine ⟨K, restrict h ?_ ?_, ?_⟩
    · rintro n N' ⟨N, ls, hN, hls, -, rfl⟩
      obtain rfl := List.map_eq_nil_iff.1 hls
      exact hN
    · rintro m n N' hmn ⟨N, ls, hN, hls, hw, rfl⟩
      exact ⟨N, ls, h.mono _ _ N hmn hN, hls, allWide_mono hmn hw, rfl⟩
    · intro n ls hls _ M v s hM ht hs
      obtain rfl := List.map_eq_nil_iff.1 hls
      exact ⟨s, hM, ht, hs⟩
  | cons st ss ih =>
    obtain ⟨K1, hK1⟩ := step h hne h1 h2 hss.1
    obtain ⟨K2, hK2⟩ := ih (P := fun n N' => ∃ N, ∃ l : DeepLayer, P n N ∧ l.stage = st ∧ l.Wide n f ∧ N' = l.grow f N) hK1.limit
      (fun n => by
        obtain ⟨N, hN⟩ := hne n
        obtain ⟨l, e1, e2⟩ := hK1.ex n
        exact ⟨_, N, l, hN, e1, e2, rfl⟩)
      (by show st.dims (D I.S1) = _; rw [h1]; exact hK1.dims) (by show st.dims (D I.S2) = _; rw [h2]) hss.2
    refine ⟨K2, restrict hK2.limit ?_ ?_, ?_⟩
    · rintro n N' ⟨N, ls, hN, hls, hw, rfl⟩
      obtain ⟨l, ls, rfl, e1, e2⟩ := List.map_eq_cons_iff.1 hls
      subst e1
      exact ⟨_, ls, ⟨N, l, hN, rfl, hw.1, rfl⟩, e2, hw.2, rfl⟩
    · rintro m n N' hmn ⟨N, ls, hN, hls, hw, rfl⟩
      exact ⟨N, ls, h.mono _ _ N hmn hN, hls, allWide_mono hmn hw, rfl⟩
    · intro n ls hls hw M v s hM ht hs
      obtain ⟨l, ls, rfl, e1, e2⟩ := List.map_eq_cons_iff.1 hls
      subst e1
      obtain ⟨t, t1, t2, t3⟩ := hK1.tracks n l rfl hw.1 M v s hM ht hs
      rw [hK1.dims] at t2
      obtain ⟨z, z1, z2, z3⟩ := hK2.tracks n ls e2 hw.2 _ v t t1 t2 t3
      rw [← hK1.dims] at z2
      exact ⟨z, z1, z2, z3⟩

/-- The channel averages of the inputs. -/
noncomputable def inK (B A C : ℕ) (a b : Pt) : ℝ := (∑ c ∈ Finset.range C, a.x.get (actIdx B A a.i c a.p) * b.x.get (actIdx B A b.i c b.p)) / C

lemma limit_input {C : ℕ} (hC : 0 < C) (hne : B ≠ A) (hB : B < r) (hA : A < r) (hr1 : I.S1.length + 2 = r) (hr2 : I.S2.length + 2 = r)
    (h1 : I.x1.shape = actIdx B A I.n1 C I.S1) (h2 : (I.x2.getD I.x1).shape = actIdx B A I.n2 C I.S2) :
    Limit I.ok (fun _ N => N = RandomNet.input C) B A r (fun S => S) (inK B A C) := by
  refine ⟨⟨hne, hB, hA, ?_⟩, fun _ _ _ _ h => h, ?_, ?_⟩
  · rintro x n S (⟨-, -, rfl⟩ | ⟨-, -, rfl⟩)
    · exact hr1
    · exact hr2
  · rintro N rfl
    refine ⟨?_, fun a _ c _ => (measurable_const : Measurable fun _ : (RandomNet.input C).E => a.x.get (actIdx B A a.i c a.p)), hC⟩
    rintro x n S (⟨rfl, rfl, rfl⟩ | ⟨rfl, rfl, rfl⟩) θ
    · exact h1
    · exact h2
  · intro a b _ _ ε δ hε _
    refine ⟨0, ?_⟩
    rintro N rfl
    have : {θ : (RandomNet.input C).E | ε ≤ |emp B A (RandomNet.input C) a b θ - inK B A C a b|} = ∅ := by
      refine Set.eq_empty_of_forall_notMem fun θ hθ => ?_
      have h : ε ≤ |inK B A C a b - inK B A C a b| := hθ
      rw [sub_self, abs_zero] at h
      linarith
    rw [this]
    simp

lemma tracks_input {C : ℕ} (db ds ntk same : Bool) (h1 : I.x1.shape = actIdx B A I.n1 C I.S1) (h2 : (I.x2.getD I.x1).shape = actIdx B A I.n2 C I.S2) :
    NetSem (.layer .identity id) (.one (C80.inputState I.x1 I.x2 db ds ntk same B A C I.n1 I.n2 I.S1 I.S2))
        (.one (C80.inputState I.x1 I.x2 db ds ntk same B A C I.n1 I.n2 I.S1 I.S2)) ∧
      Tracks I B A I.S1 I.S2 (inK B A C) (C80.inputState I.x1 I.x2 db ds ntk same B A C I.n1 I.n2 I.S1 I.S2) := by
  have hc : (C35.second none I.x1 I.x2 ntk B A C I.n1 I.n2 I.S1 I.S2).Closed := by
    intro e
    simp only [C35.second, Option.map_eq_none_iff] at e
    exact I.same e
  refine ⟨.layer (l := .identity) (out := id) (s := C80.inputState I.x1 I.x2 db ds ntk same B A C I.n1 I.n2 I.S1 I.S2)
    (t := C80.inputState I.x1 I.x2 db ds ntk same B A C I.n1 I.n2 I.S1 I.S2) hc rfl,
    ⟨⟨rfl, rfl, rfl, rfl⟩, ⟨C, h1, h2⟩, hc, fun i j p q _ _ _ _ => rfl, fun i j p q _ _ _ _ => rfl, ?_, ?_, fun _ => rfl⟩⟩
  · show (I.x2.map _).isSome = _
    rw [Option.isSome_map]
  · rintro F hF i j p q - - - -
    simp only [C80.inputState, C35.second] at hF
    obtain ⟨x, hx, rfl⟩ := Option.map_eq_some_iff.1 hF
    have e : I.x2.getD I.x1 = x := by rw [hx]; rfl
    unfold inK Ins.b
    rw [e]
    rfl

/-- All entries at once. -/
lemma all_entries (h : Limit I.ok P B A r D K) {ε δ : ℝ} (hε : 0 < ε) (hδ : 0 < δ) :
    ∃ n0, ∀ N, P n0 N → N.law {θ | ∃ i j p q, i < I.n1 ∧ j < I.n2 ∧ InRange p (D I.S1) ∧ InRange q (D I.S2) ∧
      ε ≤ |emp B A N (I.a i p) (I.b j q) θ - K (I.a i p) (I.b j q)|} ≤ ENNReal.ofReal δ := by
  obtain ⟨J, hJ⟩ := C101.finite_entries I.n1 I.n2 (D I.S1) (D I.S2)
  have hδm : 0 < δ / (J.card + 1) := by positivity
  have each : ∀ e : ℕ × ℕ × List ℕ × List ℕ, ∃ n0, e.1 < I.n1 → e.2.1 < I.n2 → InRange e.2.2.1 (D I.S1) → InRange e.2.2.2 (D I.S2) → ∀ N, P n0 N →
      N.law {θ | ε ≤ |emp B A N (I.a e.1 e.2.2.1) (I.b e.2.1 e.2.2.2) θ - K (I.a e.1 e.2.2.1) (I.b e.2.1 e.2.2.2)|} ≤ ENNReal.ofReal (δ / (J.card + 1)) := by
    intro e
    by_cases he : e.1 < I.n1 ∧ e.2.1 < I.n2 ∧ InRange e.2.2.1 (D I.S1) ∧ InRange e.2.2.2 (D I.S2)
    · obtain ⟨n0, h0⟩ := h.conv _ _ (I.valid_a he.1 he.2.2.1) (I.valid_b he.2.1 he.2.2.2) ε _ hε hδm
      exact ⟨n0, fun _ _ _ _ => h0⟩
    · exact ⟨0, fun a1 a2 a3 a4 => absurd ⟨a1, a2, a3, a4⟩ he⟩
  choose nn hn using each
  refine ⟨J.sup nn, fun N hN => ?_⟩
  refine union_small _ J (fun e => {θ | e.1 < I.n1 ∧ e.2.1 < I.n2 ∧ InRange e.2.2.1 (D I.S1) ∧ InRange e.2.2.2 (D I.S2) ∧
    ε ≤ |emp B A N (I.a e.1 e.2.2.1) (I.b e.2.1 e.2.2.2) θ - K (I.a e.1 e.2.2.1) (I.b e.2.1 e.2.2.2)|}) _ hδ ?_ fun e he => ?_
  · rintro θ ⟨i, j, p, q, hi, hj, hp, hq, h⟩
    exact Set.mem_biUnion (hJ i j p q hi hj hp hq) ⟨hi, hj, hp, hq, h⟩
  · by_cases hh : e.1 < I.n1 ∧ e.2.1 < I.n2 ∧ InRange e.2.2.1 (D I.S1) ∧ InRange e.2.2.2 (D I.S2)
    · refine (measure_mono fun θ hθ => ?_).trans (hn e hh.1 hh.2.1 hh.2.2.1 hh.2.2.2 N (h.mono _ _ N (Finset.le_sup he) hN))
      exact hθ.2.2.2.2
    · refine (measure_mono (t := ∅) fun θ hθ => hh ⟨hθ.1, hθ.2.1, hθ.2.2.1, hθ.2.2.2.1⟩).trans (by simp)

/-- The empirical kernel of a wide random network is close to the kernel computed by `kernel_fn`, with high probability.  Take a network `serial(l1, l2, ...)` of
`Conv` and `Dense` layers with optional nonlinearities, `AvgPool`, `SumPool`, `GlobalAvgPool`, `GlobalSumPool` and `Flatten`, in any order and of any depth, and
inputs `x1` and `x2` to which it can be applied.  For every tolerance `ε` and probability `δ` there is a width `n0` such that for all layers with at least `n0`
channels each (of either parameterization), `kernel_fn` succeeds on the inputs, and if the parameters are drawn as `init_fn` does, then the outputs of `apply_fn`
have the shape of the format after the layers, and with probability at least `1 - δ` the averages over the channels of products of outputs at all pairs of
examples and positions differ by less than `ε` from the entries of `nngp`. -/
theorem deep_empirical_converges (x1 : Arr ℝ) (x2 : Option (Arr ℝ)) (db ds ntk same : Bool) (ba ca : ℤ) (n1 n2 C r : ℕ) (S1 S2 : List ℕ) (B A : ℕ)
    (hr1 : S1.length + 2 = r) (hr2 : S2.length + 2 = r) (hB : (B : ℤ) = ba % r) (hA : (A : ℤ) = ca % r) (hne : B ≠ A)
    (hx : x2 = none → n2 = n1 ∧ S2 = S1) (hds : ds = true → S1 = S2) (h1 : x1.shape = actIdx B A n1 C S1)
    (h2 : (x2.getD x1).shape = actIdx B A n2 C S2) (hC : 0 < C) (stages : List DeepStage) (hst : AllOk ds ⟨B, A, S1⟩ S2 stages) {ε δ : ℝ} (hε : 0 < ε) (hδ : 0 < δ) :
    ∃ n0, ∀ layers, layers.map DeepLayer.stage = stages → AllWide n0 ⟨B, A, S1⟩ layers →
      ∃ k0 k L, Inputs.inputsToKernel x1 x2 db ds ntk ba (some ca) none same = .ok k0 ∧ (deepNet layers).run (.one k0) = .ok (.one k) ∧ k.Stores L ∧
        (L.n1, L.n2, L.S1, L.S2) = (n1, n2, deepDims stages S1, deepDims stages S2) ∧
        let N := drawDeep C ⟨B, A, S1⟩ layers
        let out := deepFmt stages ⟨B, A, S1⟩
        (∀ θ, (N.apply θ x1).shape = actIdx out.B out.A n1 N.channels (deepDims stages S1) ∧
          (N.apply θ (x2.getD x1)).shape = actIdx out.B out.A n2 N.channels (deepDims stages S2)) ∧
        N.law {θ | ∃ i j p q, i < n1 ∧ j < n2 ∧ InRange p (deepDims stages S1) ∧ InRange q (deepDims stages S2) ∧
          ε ≤ |(∑ c ∈ Finset.range N.channels, (N.apply θ x1).get (actIdx out.B out.A i c p) * (N.apply θ (x2.getD x1)).get (actIdx out.B out.A j c q)) / N.channels -
            L.k12 [i, j] p q|} ≤ ENNReal.ofReal δ := by
  have hBl : B < r := by
    have := Int.emod_lt_of_pos ba (b := (r : ℤ)) (by omega)
    omega
  have hAl : A < r := by
    have := Int.emod_lt_of_pos ca (b := (r : ℤ)) (by omega)
    omega
  set I : Ins := ⟨x1, x2, n1, n2, S1, S2, hx⟩ with hI
  have hin : Limit I.ok (fun _ N => N = RandomNet.input C) B A (Fmt.rank ⟨B, A, S1⟩) (fun S => S) (inK B A C) := by
    have := limit_input (I := I) hC hne hBl hAl hr1 hr2 h1 h2
    show Limit _ _ B A (S1.length + 2) _ _
    rw [hr1]
    exact this
  obtain ⟨K, hK⟩ := steps (f := ⟨B, A, S1⟩) (T2 := S2) (ds := ds) hin (fun _ => ⟨_, rfl⟩) rfl rfl hst
  obtain ⟨n0, hn⟩ := all_entries hK.limit hε hδ
  refine ⟨max n0 1, fun ls hls hw => ?_⟩
  have hN : ∀ n, n ≤ max n0 1 → ∃ N ls', N = RandomNet.input C ∧ ls'.map DeepLayer.stage = stages ∧ AllWide n ⟨B, A, S1⟩ ls' ∧
      drawDeep C ⟨B, A, S1⟩ ls = drawFrom ⟨B, A, S1⟩ N ls' := fun n hn => ⟨_, ls, rfl, hls, allWide_mono hn hw, rfl⟩
  obtain ⟨k0, e0, f0, g0⟩ := C35.second_moment none db ds ntk same x1 x2 ba ca n1 n2 C S1 S2 B A (by rw [hB, ← hr1]; push_cast; rfl)
    (by rw [hA, ← hr1]; push_cast; rfl) hne (by omega) hds h1 h2
  obtain ⟨i1, i2⟩ := tracks_input (I := I) (B := B) (A := A) (C := C) db ds ntk same h1 h2
  obtain ⟨s, hs, ht, -⟩ := hK.tracks _ ls hls hw _ _ _ i1 i2 rfl
  obtain ⟨y, hy, hr⟩ := net_sound hs (.one _ _ (C80.input_describes f0 g0))
  cases hr with
  | one k _ hk =>
    refine ⟨k0, k, s.L, e0, hy, hk.stores, ?_, ?_, ?_⟩
    · rw [ht.dims.1, ht.dims.2.1, ht.dims.2.2.1, ht.dims.2.2.2]
    · have hG := hK.limit.good _ (hN 1 (le_max_right _ _))
      exact fun θ => ⟨hG.shape x1 n1 S1 (.inl ⟨rfl, rfl, rfl⟩) θ, hG.shape _ n2 S2 (.inr ⟨rfl, rfl, rfl⟩) θ⟩
    · refine (measure_mono ?_).trans (hn _ (hN n0 (le_max_left _ _)))
      rintro θ ⟨i, j, p, q, hi, hj, hp, hq, h⟩
      rw [ht.k12 i j p q hi hj hp hq] at h
      exact ⟨i, j, p, q, hi, hj, hp, hq, h⟩

/-! ### Non-vacuity -/

/-- The rectified linear unit and its layer. -/
noncomputable def relu : Act := ⟨fun x => 0 * min x 0 + 1 * max x 0, (abReluDual 0 1).kernelFn⟩

lemma relu_ok : Continuous relu.fn ∧ (∃ C n, ∀ x, |relu.fn x| ≤ C * (1 + |x|) ^ n) ∧
    ∃ C dφ N T, (∀ v, 0 ≤ v → C v) ∧ Nonlinearity relu.kernelFn C relu.fn dφ N T := by
  refine ⟨by unfold relu; fun_prop, ⟨1, 1, fun x => ?_⟩, abRelu_nonlinearity 0 1⟩
  simp only [relu, zero_mul, one_mul, zero_add, pow_one]
  rw [abs_of_nonneg (le_max_right _ _)]
  exact max_le (by linarith [le_abs_self x]) (by linarith [abs_nonneg x])

/-- `Conv(3x3, SAME)`, `Relu`, `AvgPool(2x2, stride 2, VALID)`, `Conv(2x2, CIRCULAR)`, `Relu`, `Flatten`, `Dense`, `Relu`, `Dense`, of width `n`. -/
noncomputable def exLayers (n : ℕ) : List DeepLayer :=
  [.conv ⟨n, [(3, 1), (3, 1)], .same, 3 / 2, some (1 / 10), .ntk, (1, 1), true, 0, 3⟩ (some relu),
    .pool ⟨.avg, [(2, 2), (2, 2)], .valid, false, 0, 3⟩,
    .conv ⟨n, [(2, 1), (2, 1)], .circular, 1, none, .standard, (n, 1), true, 0, 3⟩ (some relu),
    .flatten ⟨0, 0⟩, .dense ⟨n, 2, some 1, -1, .ntk, (1, 1)⟩ (some relu), .dense ⟨n, 1, none, 1, .standard, (n, 1)⟩ none]

/-- The same without widths. -/
noncomputable def exStages : List DeepStage := (exLayers 0).map DeepLayer.stage

lemma ex_stages (n : ℕ) : (exLayers n).map DeepLayer.stage = exStages := rfl

lemma ex_ok : AllOk false ⟨0, 3, [5, 4]⟩ [5, 4] exStages := by
  have e1 : outDims .same [5, 4] [(3, 1), (3, 1)] = [5, 4] := by decide
  have e2 : outDims .valid [5, 4] [(2, 2), (2, 2)] = [2, 2] := by decide
  have e3 : outDims .circular [2, 2] [(2, 1), (2, 1)] = [2, 2] := by decide
  simp only [exStages, exLayers, List.map, DeepLayer.stage, AllOk, DeepStage.fmt, DeepStage.dims, e1, e2, e3]
  refine ⟨⟨rfl, by decide, fun f hf => ?_⟩, ⟨rfl, by decide, rfl, rfl, rfl⟩, ⟨rfl, by decide, fun f hf => ?_⟩, ⟨⟨0, 1, rfl⟩, rfl, rfl, by decide⟩,
    ⟨fun f hf => ?_⟩, ⟨fun f hf => ?_⟩, trivial⟩
  · obtain rfl : relu = f := by simpa using hf
    exact relu_ok
  · obtain rfl : relu = f := by simpa using hf
    exact relu_ok
  · obtain rfl : relu = f := by simpa using hf
    exact relu_ok
  · simp at hf

lemma ex_wide (n : ℕ) (hn : 0 < n) : AllWide n ⟨0, 3, [5, 4]⟩ (exLayers n) := by
  refine ⟨⟨rfl, by simp, by simp, rfl, rfl, by simp [Conv.width]⟩, trivial, ⟨rfl, by simp, fun _ => hn, rfl, rfl, by simp [Conv.width]⟩, trivial,
    ⟨by simp, by simp, rfl, (by decide : -((2 : ℕ) : ℤ) ≤ -1 ∧ (-1 : ℤ) < ((2 : ℕ) : ℤ)), by simp [Dense.width]⟩, ⟨by simp, fun _ => hn, rfl, (by decide : -((2 : ℕ) : ℤ) ≤ 1 ∧ (1 : ℤ) < ((2 : ℕ) : ℤ)), by simp [Dense.width]⟩, trivial⟩

/-- Non-vacuity: images of size 5 by 4 with 3 channels. -/
example : ∃ n0, ∀ n, n0 ≤ n → 0 < n → ∃ k0 k L, Inputs.inputsToKernel (⟨[2, 5, 4, 3], fun i => i.getD 1 0 + 1⟩ : Arr ℝ) (some ⟨[3, 5, 4, 3], fun i => i.getD 0 0⟩)
      false false true 0 (some (-1)) none false = .ok k0 ∧ (deepNet (exLayers n)).run (.one k0) = .ok (.one k) ∧ k.Stores L ∧
    ∃ N : RandomNet, N = drawDeep 3 ⟨0, 3, [5, 4]⟩ (exLayers n) ∧ N.law {θ | ∃ i j p q, i < 2 ∧ j < 3 ∧ InRange p [] ∧ InRange q [] ∧ 1 / 100 ≤
      |(∑ c ∈ Finset.range N.channels, (N.apply θ ⟨[2, 5, 4, 3], fun i => i.getD 1 0 + 1⟩).get (actIdx 0 1 i c p) *
        (N.apply θ ⟨[3, 5, 4, 3], fun i => i.getD 0 0⟩).get (actIdx 0 1 j c q)) / N.channels - L.k12 [i, j] p q|} ≤ ENNReal.ofReal (1 / 1000) := by
  obtain ⟨n0, h⟩ := deep_empirical_converges ⟨[2, 5, 4, 3], fun i => i.getD 1 0 + 1⟩ (some ⟨[3, 5, 4, 3], fun i => i.getD 0 0⟩) false false true false 0 (-1) 2 3 3 4
    [5, 4] [5, 4] 0 3 rfl rfl rfl rfl (by decide) (by simp) (by simp) rfl rfl (by norm_num) exStages ex_ok (ε := 1 / 100) (δ := 1 / 1000) (by norm_num) (by norm_num)
  have d : deepDims exStages [5, 4] = [] := rfl
  have e : deepFmt exStages ⟨0, 3, [5, 4]⟩ = ⟨0, 1, []⟩ := rfl
  rw [d, e] at h
  refine ⟨n0, fun n hn hp => ?_⟩
  have hw := allWide_mono hn (ex_wide n hp)
  have hs := ex_stages n
  generalize exLayers n = l at hw hs ⊢
  obtain ⟨k0, k, L, h1, h2, h3, -, -, h5⟩ := h l hs hw
  exact ⟨k0, k, L, h1, h2, h3, _, rfl, h5⟩

end NT.C102
