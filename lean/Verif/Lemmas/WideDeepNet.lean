import Verif.Tac
import Verif.Lemmas.WideDeepLin
import Verif.Props.C101

/-!
# The kernel functions of the layers compute the limits of the channel averages
-/

namespace NT.WideDeep
open _root_.NT.Wide (fn)
open _root_.NT.WideConv (Pt val emp)
open NT NT.Network NT.Spec NT.Semantics NT.Gauss MeasureTheory ProbabilityTheory

/-- The two inputs. -/
structure Ins where
  x1 : Arr ℝ
  x2 : Option (Arr ℝ)
  n1 : ℕ
  n2 : ℕ
  S1 : List ℕ
  S2 : List ℕ
  same : x2 = none → n2 = n1 ∧ S2 = S1

/-- An entry of the first input. -/
def Ins.a (I : Ins) (i : ℕ) (p : List ℕ) : Pt := ⟨I.x1, I.n1, I.S1, i, p⟩
/-- An entry of the second input. -/
def Ins.b (I : Ins) (i : ℕ) (p : List ℕ) : Pt := ⟨I.x2.getD I.x1, I.n2, I.S2, i, p⟩

/-- The inputs with their batch sizes and spatial shapes. -/
def Ins.ok (I : Ins) (x : Arr ℝ) (n : ℕ) (S : List ℕ) : Prop := (x = I.x1 ∧ n = I.n1 ∧ S = I.S1) ∨ (x = I.x2.getD I.x1 ∧ n = I.n2 ∧ S = I.S2)

/-- The description of a kernel whose entries are `K`. -/
structure Tracks (I : Ins) (B A : ℕ) (T1 T2 : List ℕ) (K : Pt → Pt → ℝ) (s : State) : Prop where
  dims : s.L.n1 = I.n1 ∧ s.L.n2 = I.n2 ∧ s.L.S1 = T1 ∧ s.L.S2 = T2
  shape : ∃ c, s.info.shape1 = actIdx B A I.n1 c T1 ∧ s.info.shape2 = actIdx B A I.n2 c T2
  closed : s.L.Closed
  k12 : ∀ i j p q, i < I.n1 → j < I.n2 → InRange p T1 → InRange q T2 → s.L.k12 [i, j] p q = K (I.a i p) (I.b j q)
  k11 : ∀ i j p q, i < I.n1 → j < I.n1 → InRange p T1 → InRange q T1 → s.L.k11 [i, j] p q = K (I.a i p) (I.a j q)
  some22 : s.L.k22.isSome = I.x2.isSome
  k22 : ∀ F, s.L.k22 = some F → ∀ i j p q, i < I.n2 → j < I.n2 → InRange p T2 → InRange q T2 → F [i, j] p q = K (I.b i p) (I.b j q)
  diag : s.info.diagonalSpatial = true → s.info.isReversed = false

variable {I : Ins} {P : ℕ → RandomNet → Prop} {B A r : ℕ} {D : List ℕ → List ℕ} {K : Pt → Pt → ℝ} {T1 T2 : List ℕ}

lemma Ins.valid_a (I : Ins) {i : ℕ} {p : List ℕ} (hi : i < I.n1) (hp : InRange p (D I.S1)) : Valid I.ok D (I.a i p) := ⟨.inl ⟨rfl, rfl, rfl⟩, hi, hp⟩
lemma Ins.valid_b (I : Ins) {i : ℕ} {p : List ℕ} (hi : i < I.n2) (hp : InRange p (D I.S2)) : Valid I.ok D (I.b i p) := ⟨.inr ⟨rfl, rfl, rfl⟩, hi, hp⟩

/-- The variances of the second input. -/
lemma Tracks.second {s : State} (ht : Tracks I B A T1 T2 K s) {j : ℕ} {q : List ℕ} (h12 : I.S2 = I.S1 → T2 = T1) (hj : j < I.n2) (hq : InRange q T2) :
    s.L.second [j, j] q q = K (I.b j q) (I.b j q) := by
  rcases e : s.L.k22 with _ | F
  · rw [second_none e]
    have hn : I.x2 = none := by
      have := ht.some22
      rw [e] at this
      cases h : I.x2
      · rfl
      · rw [h] at this; simp at this
    obtain ⟨e1, e2⟩ := I.same hn
    have e3 := h12 e2
    have hab : I.b j q = I.a j q := by
      unfold Ins.a Ins.b
      rw [hn, e1, e2]
      rfl
    rw [hab, ht.k11 j j q q (e1 ▸ hj) (e1 ▸ hj) (e3 ▸ hq) (e3 ▸ hq)]
  · rw [second_some e]
    exact ht.k22 F e j j q q hj hj hq hq

/-- An optional nonlinearity on top. -/
lemma tracks_act {M : Net} {v : Vals State} {t : State} (hM : NetSem M v (.one t)) (ht : Tracks I B A (D I.S1) (D I.S2) K t) (f : Option Act)
    (hg : t.info.isGaussian = true) (psd : ∀ a b, Valid I.ok D a → Valid I.ok D b → Psd (K a a, K a b, K b b))
    (hf : ∀ g, f = some g → ∃ C dφ N T, (∀ v, 0 ≤ v → C v) ∧ Nonlinearity g.kernelFn C g.fn dφ N T) :
    ∃ s, NetSem (match (generalizing := false) f with
      | none => M
      | some g => M.seq (.layer (.act g.kernelFn) id)) v (.one s) ∧
      Tracks I B A (D I.S1) (D I.S2) (fun a b => E2 (fn f) (fn f) (K a a, K a b, K b b)) s ∧ s.info.diagonalSpatial = t.info.diagonalSpatial := by
  rcases f with _ | f
  · have id' : ∀ a b, Valid I.ok D a → Valid I.ok D b → E2 (fn none) (fn none) (K a a, K a b, K b b) = K a b := fun a b ha hb => C92.E2_id (psd a b ha hb)
    refine ⟨t, hM, ⟨ht.dims, ht.shape, ht.closed, ?_, ?_, ht.some22, ?_, ht.diag⟩, rfl⟩
    · intro i j p q hi hj hp hq
      rw [id' _ _ (I.valid_a hi hp) (I.valid_b hj hq), ht.k12 i j p q hi hj hp hq]
    · intro i j p q hi hj hp hq
      rw [id' _ _ (I.valid_a hi hp) (I.valid_a hj hq), ht.k11 i j p q hi hj hp hq]
    · intro F hF i j p q hi hj hp hq
      rw [id' _ _ (I.valid_b hi hp) (I.valid_b hj hq), ht.k22 F hF i j p q hi hj hp hq]
  · obtain ⟨Cv, dφ, N, T, hCv, hnl⟩ := hf f rfl
    have id' : ∀ a b, Valid I.ok D a → Valid I.ok D b → E2 (fn (some f)) (fn (some f)) (K a a, K a b, K b b) = N (K a b) (K a a) (K b b) := fun a b ha hb =>
      (C92.pair_dual hCv hnl (psd a b ha hb)).symm
    have nn : ∀ a, Valid I.ok D a → 0 ≤ K a a := fun a ha => (psd a a ha ha).1
    have hv : t.L.Vars Cv := by
      refine ⟨fun i p hi hp => hCv _ ?_, fun F hF i p hi hp => hCv _ ?_⟩
      · rw [ht.dims.1] at hi
        rw [ht.dims.2.2.1] at hp
        rw [ht.k11 i i p p hi hi hp hp]
        exact nn _ (I.valid_a hi hp)
      · rw [ht.dims.2.1] at hi
        rw [ht.dims.2.2.2] at hp
        rw [ht.k22 F hF i i p p hi hi hp hp]
        exact nn _ (I.valid_b hi hp)
    have hsem : LayerSem (.act f.kernelFn) t { t with L := entrywise N T t.L, info := { t.info with isGaussian := false }, full := true } :=
      ⟨hg, Cv, _, _, N, T, hnl, hv, rfl⟩
    have hcl := layer_closed ht.closed hsem
    refine ⟨_, .seq hM (.layer ht.closed hsem), ⟨ht.dims, ht.shape, hcl, ?_, ?_, ?_, ?_, ht.diag⟩, rfl⟩
    · intro i j p q hi hj hp hq
      show N (t.L.k12 [i, j] p q) (t.L.k11 [i, i] p p) (t.L.second [j, j] q q) = _
      rw [id' _ _ (I.valid_a hi hp) (I.valid_b hj hq), ht.k12 i j p q hi hj hp hq, ht.k11 i i p p hi hi hp hp, ht.second (fun e => by rw [e]) hj hq]
    · intro i j p q hi hj hp hq
      show N (t.L.k11 [i, j] p q) (t.L.k11 [i, i] p p) (t.L.k11 [j, j] q q) = _
      rw [id' _ _ (I.valid_a hi hp) (I.valid_a hj hq), ht.k11 i j p q hi hj hp hq, ht.k11 i i p p hi hi hp hp, ht.k11 j j q q hj hj hq hq]
    · rw [← ht.some22]
      exact Option.isSome_map
    · intro F hF i j p q hi hj hp hq
      have hF' : t.L.k22.map (fun F b p q => N (F b p q) (F [b.getD 0 0, b.getD 0 0] p p) (F [b.getD 1 0, b.getD 1 0] q q)) = some F := hF
      obtain ⟨G, hG, rfl⟩ := Option.map_eq_some_iff.1 hF'
      show N (G [i, j] p q) (G [i, i] p p) (G [j, j] q q) = _
      rw [id' _ _ (I.valid_b hi hp) (I.valid_b hj hq), ht.k22 G hG i j p q hi hj hp hq, ht.k22 G hG i i p p hi hi hp hp, ht.k22 G hG j j q q hj hj hq hq]

/-- A convolution on top, before its nonlinearity. -/
lemma tracks_conv (hax : Axes I.ok B A r D) {st : ConvStage} (hst : C101.StageOk r st) {n : ℕ} {d : Conv × Option Act} (hd : ConvStage.Fits B A n d st)
    {M : Net} {v : Vals State} {s : State} (hM : NetSem M v (.one s)) (ht : Tracks I B A (D I.S1) (D I.S2) K s) :
    ∃ t, NetSem (M.seq (.layer (.conv d.1) (convOut d.1))) v (.one t) ∧
      Tracks I B A (outDims st.padding (D I.S1) st.filter) (outDims st.padding (D I.S2) st.filter) (WideConv.pre st D K) t ∧
      t.info.diagonalSpatial = s.info.diagonalSpatial ∧ t.info.isGaussian = true := by
  have hsm' := hst.smooth
  have hl1 := hax.rank _ _ _ (.inl ⟨rfl, rfl, rfl⟩)
  have hl2 := hax.rank _ _ _ (.inr ⟨rfl, rfl, rfl⟩)
  have hrk := hst.rank
  have hB := hax.B
  have hA := hax.A
  obtain ⟨c, hs1, hs2⟩ := ht.shape
  have hsem : LayerSem (.conv d.1) s { s with
        L := C53.after d.1 (s.info.shape1.getD d.1.channelAxis 0) s.L
        info := { s.info with
          isGaussian := true, isInput := false, isReversed := convRev d.1 s.info, batchAxis := d.1.batchAxis, channelAxis := d.1.channelAxis }
        full := true } := by
    refine ⟨hd.param, hd.sample, by rw [hd.filter]; exact hst.pos, ?_, ?_, ht.diag, fun h => ?_, ?_, rfl⟩
    · rw [ht.dims.2.2.1, hd.filter]; omega
    · rw [ht.dims.2.2.2, hd.filter]; omega
    · rw [hd.shared] at h; simp at h
    · rw [hs1, hs2, hd.channelAxis, Inputs.getD_actIdx_c B A _ c _ hax.ne (by omega) (by omega), Inputs.getD_actIdx_c B A _ c _ hax.ne (by omega) (by omega)]
  have hcl := layer_closed ht.closed hsem
  refine ⟨_, .seq hM (.layer ht.closed hsem), ⟨⟨ht.dims.1, ht.dims.2.1, ?_, ?_⟩, ⟨d.1.width, ?_, ?_⟩, hcl, ?_, ?_, ?_, ?_, ?_⟩, rfl, rfl⟩
  · show outDims d.1.padding s.L.S1 d.1.filter = _
    rw [ht.dims.2.2.1, hd.filter, hd.padding]
  · show outDims d.1.padding s.L.S2 d.1.filter = _
    rw [ht.dims.2.2.2, hd.filter, hd.padding]
  · show convOut d.1 s.info.shape1 = _
    rw [hs1, C101.convOut_act hax.ne (by omega) (by omega) hd.batchAxis hd.channelAxis, hd.filter, hd.padding]
  · show convOut d.1 s.info.shape2 = _
    rw [hs2, C101.convOut_act hax.ne (by omega) (by omega) hd.batchAxis hd.channelAxis, hd.filter, hd.padding]
  · intro i j p q hi hj hp hq
    show C53.gate d.1 p q (d.1.wStd ^ 2 * C53.avg d.1 s.L.S1 s.L.S2 (s.L.k12 [i, j]) p q + C53.bVar d.1) = _
    rw [ht.dims.2.2.1, ht.dims.2.2.2]
    exact C101.avg_eq (a := I.a i p) (b := I.b j q) hd hsm' hl1 hl2 (fun p q hp hq => ht.k12 i j p q hi hj hp hq) hp hq
  · intro i j p q hi hj hp hq
    show C53.gate d.1 p q (d.1.wStd ^ 2 * C53.avg d.1 s.L.S1 s.L.S1 (s.L.k11 [i, j]) p q + C53.bVar d.1) = _
    rw [ht.dims.2.2.1]
    exact C101.avg_eq (a := I.a i p) (b := I.a j q) hd hsm' hl1 hl1 (fun p q hp hq => ht.k11 i j p q hi hj hp hq) hp hq
  · rw [← ht.some22]
    show (s.L.k22.map _).isSome = _
    rw [Option.isSome_map]
  · intro F hF i j p q hi hj hp hq
    have hF' : s.L.k22.map (fun F b o o' => C53.gate d.1 o o' (d.1.wStd ^ 2 * C53.avg d.1 s.L.S2 s.L.S2 (F b) o o' + C53.bVar d.1)) = some F := hF
    obtain ⟨G, hG, rfl⟩ := Option.map_eq_some_iff.1 hF'
    show C53.gate d.1 p q (d.1.wStd ^ 2 * C53.avg d.1 s.L.S2 s.L.S2 (G [i, j]) p q + C53.bVar d.1) = _
    rw [ht.dims.2.2.2]
    exact C101.avg_eq (a := I.b i p) (b := I.b j q) hd hsm' hl2 hl2 (fun p q hp hq => ht.k22 G hG i j p q hi hj hp hq) hp hq
  · intro h
    have h' : s.info.diagonalSpatial = true := h
    show convRev d.1 s.info = false
    unfold convRev
    rw [h']
    exact ht.diag h'

/-- A dense layer on top, before its nonlinearity. -/
lemma tracks_dense (hax : Axes I.ok B A r D) {st : Stage} {n : ℕ} {d : Dense × Option Act} (hd : Stage.Fits r A n d st)
    {M : Net} {v : Vals State} {s : State} (hM : NetSem M v (.one s)) (ht : Tracks I B A (D I.S1) (D I.S2) K s) :
    ∃ t, NetSem (M.seq (.layer (.dense d.1) (DeepLayer.dense d.1 d.2).outShape)) v (.one t) ∧
      Tracks I B A (D I.S1) (D I.S2) (densePre st K) t ∧
      t.info.diagonalSpatial = s.info.diagonalSpatial ∧ t.info.isGaussian = true := by
  have hl1 := hax.rank _ _ _ (.inl ⟨rfl, rfl, rfl⟩)
  have hl2 := hax.rank _ _ _ (.inr ⟨rfl, rfl, rfl⟩)
  have hB := hax.B
  have hA := hax.A
  obtain ⟨c, hs1, hs2⟩ := ht.shape
  have hsem : LayerSem (.dense d.1) s { s with L := C52.after d.1 c s.L, info := { s.info with isGaussian := true, isInput := false }, full := true } := by
    refine ⟨hd.param, hd.sample, c, ?_, ?_, rfl⟩
    · rw [hs1]; exact C92.pyGet_axis hl1 hax.ne hB hd.axis hd.inRange
    · rw [hs2]; exact C92.pyGet_axis hl2 hax.ne hB hd.axis hd.inRange
  have hcl := layer_closed ht.closed hsem
  have out : ∀ (m : ℕ) (T : List ℕ), T.length + 2 = r → (DeepLayer.dense d.1 d.2).outShape (actIdx B A m c T) = actIdx B A m d.1.width T := by
    intro m T hT
    show (actIdx B A m c T).set (d.1.channelAxis % ((actIdx B A m c T).length : ℤ)).toNat d.1.width = _
    rw [actIdx_length B A m c T hax.ne (by omega) (by omega), hT, ← hd.axis, Int.toNat_natCast, C92.actIdx_set B A m c _ T hax.ne (by omega) (by omega)]
  have e : ∀ x : ℝ, d.1.wStd ^ 2 * x + C52.bVar d.1 = st.wStd ^ 2 * x + (st.bStd.getD 0) ^ 2 := fun x => by rw [C52.bVar, hd.wStd, hd.bStd]
  refine ⟨_, .seq hM (.layer ht.closed hsem), ⟨ht.dims, ⟨d.1.width, ?_, ?_⟩, hcl, ?_, ?_, ?_, ?_, ht.diag⟩, rfl, rfl⟩
  · show DeepLayer.outShape (DeepLayer.dense d.1 d.2) s.info.shape1 = _
    rw [hs1, out _ _ hl1]
  · show DeepLayer.outShape (DeepLayer.dense d.1 d.2) s.info.shape2 = _
    rw [hs2, out _ _ hl2]
  · intro i j p q hi hj hp hq
    show d.1.wStd ^ 2 * s.L.k12 [i, j] p q + C52.bVar d.1 = _
    rw [e, ht.k12 i j p q hi hj hp hq, densePre]
  · intro i j p q hi hj hp hq
    show d.1.wStd ^ 2 * s.L.k11 [i, j] p q + C52.bVar d.1 = _
    rw [e, ht.k11 i j p q hi hj hp hq, densePre]
  · rw [← ht.some22]
    show (s.L.k22.map _).isSome = _
    rw [Option.isSome_map]
  · intro F hF i j p q hi hj hp hq
    have hF' : s.L.k22.map (fun F b p q => d.1.wStd ^ 2 * F b p q + C52.bVar d.1) = some F := hF
    obtain ⟨G, hG, rfl⟩ := Option.map_eq_some_iff.1 hF'
    show d.1.wStd ^ 2 * G [i, j] p q + C52.bVar d.1 = _
    rw [e, ht.k22 G hG i j p q hi hj hp hq, densePre]

/-- The entries of a kernel after a layer that takes linear combinations of positions. -/
lemma lin_entries {ι : Type} (s : List ℕ → Finset ι) (w : List ℕ → List ℕ → ι → ℝ) (t : List ℕ → List ℕ → ι → Option (List ℕ)) {a b : Pt}
    {F : List ℕ → List ℕ → ℝ} (hF : ∀ p q, InRange p (D a.S) → InRange q (D b.S) → F p q = K { a with p := p } { b with p := q })
    (ha : ∀ u ∈ s (D a.S), ∀ p, t (D a.S) a.p u = some p → InRange p (D a.S)) (hb : ∀ u ∈ s (D b.S), ∀ p, t (D b.S) b.p u = some p → InRange p (D b.S)) :
    ∑ u ∈ s (D a.S), ∑ v ∈ s (D b.S), w (D a.S) a.p u * w (D b.S) b.p v * read2 F (t (D a.S) a.p u) (t (D b.S) b.p v) = linK s w t D K a b := by
  unfold linK
  refine Finset.sum_congr rfl fun u hu => Finset.sum_congr rfl fun v hv => ?_
  congr 1
  rcases e1 : t (D a.S) a.p u with _ | p
  · rfl
  rcases e2 : t (D b.S) b.p v with _ | q
  · rfl
  exact hF p q (ha u hu p e1) (hb v hv q e2)

/-- The kernel after a layer that takes linear combinations of positions. -/
lemma tracks_lin {ι : Type} (s : List ℕ → Finset ι) (w : List ℕ → List ℕ → ι → ℝ) (t : List ℕ → List ℕ → ι → Option (List ℕ)) (out : List ℕ → List ℕ)
    (hr : ∀ x n S, I.ok x n S → ∀ o, InRange o (out (D S)) → ∀ u ∈ s (D S), ∀ p, t (D S) o u = some p → InRange p (D S))
    {z z' : State} (ht : Tracks I B A (D I.S1) (D I.S2) K z) {B' A' : ℕ} (hL : z'.L = linLogical s w t out z.L) (hcl : z'.L.Closed)
    (hsh : ∃ c, z'.info.shape1 = actIdx B' A' I.n1 c (out (D I.S1)) ∧ z'.info.shape2 = actIdx B' A' I.n2 c (out (D I.S2)))
    (hdg : z'.info.diagonalSpatial = true → z'.info.isReversed = false) :
    Tracks I B' A' (out (D I.S1)) (out (D I.S2)) (linK s w t D K) z' := by
  have r1 := hr I.x1 I.n1 I.S1 (.inl ⟨rfl, rfl, rfl⟩)
  have r2 := hr _ I.n2 I.S2 (.inr ⟨rfl, rfl, rfl⟩)
  refine ⟨?_, hsh, hcl, ?_, ?_, ?_, ?_, hdg⟩
  · rw [hL]
    refine ⟨ht.dims.1, ht.dims.2.1, ?_, ?_⟩
    · show out z.L.S1 = _
      rw [ht.dims.2.2.1]
    · show out z.L.S2 = _
      rw [ht.dims.2.2.2]
  · intro i j p q hi hj hp hq
    rw [hL]
    show ∑ u ∈ s z.L.S1, ∑ v ∈ s z.L.S2, w z.L.S1 p u * w z.L.S2 q v * read2 (z.L.k12 [i, j]) (t z.L.S1 p u) (t z.L.S2 q v) = _
    rw [ht.dims.2.2.1, ht.dims.2.2.2]
    exact lin_entries (a := I.a i p) (b := I.b j q) s w t (fun p q hp hq => ht.k12 i j p q hi hj hp hq) (r1 p hp) (r2 q hq)
  · intro i j p q hi hj hp hq
    rw [hL]
    show ∑ u ∈ s z.L.S1, ∑ v ∈ s z.L.S1, w z.L.S1 p u * w z.L.S1 q v * read2 (z.L.k11 [i, j]) (t z.L.S1 p u) (t z.L.S1 q v) = _
    rw [ht.dims.2.2.1]
    exact lin_entries (a := I.a i p) (b := I.a j q) s w t (fun p q hp hq => ht.k11 i j p q hi hj hp hq) (r1 p hp) (r1 q hq)
  · rw [← ht.some22, hL]
    show (z.L.k22.map _).isSome = _
    rw [Option.isSome_map]
  · intro F hF i j p q hi hj hp hq
    rw [hL] at hF
    obtain ⟨G, hG, rfl⟩ := Option.map_eq_some_iff.1 hF
    show ∑ u ∈ s z.L.S2, ∑ v ∈ s z.L.S2, w z.L.S2 p u * w z.L.S2 q v * read2 (G [i, j]) (t z.L.S2 p u) (t z.L.S2 q v) = _
    rw [ht.dims.2.2.2]
    exact lin_entries (a := I.b i p) (b := I.b j q) s w t (fun p q hp hq => ht.k22 G hG i j p q hi hj hp hq) (r2 p hp) (r2 q hq)

/-- A pooling layer on top. -/
lemma tracks_pool (hax : Axes I.ok B A r D) {d : Pool} (hw : ∀ v ∈ d.window, 0 < v.1 ∧ 0 < v.2) (hl : d.window.length + 2 = r) (hB' : d.batchAxis = B)
    (hA' : d.ca = A) {M : Net} {v : Vals State} {s : State} (hM : NetSem M v (.one s)) (ht : Tracks I B A (D I.S1) (D I.S2) K s)
    (hds : s.info.diagonalSpatial = false) :
    ∃ t, NetSem (M.seq (.layer (.pool d) (DeepLayer.pool d).outShape)) v (.one t) ∧
      Tracks I B A (outDims d.padding (D I.S1) d.window) (outDims d.padding (D I.S2) d.window)
        (linK (fun _ => offsets d.window) (fun S o _ => (C54.denom d S o)⁻¹) (fun S o f => readIdx d.padding S d.window o f) D K) t ∧
      t.info.diagonalSpatial = false := by
  have hl1 := hax.rank _ _ _ (.inl ⟨rfl, rfl, rfl⟩)
  have hl2 := hax.rank _ _ _ (.inr ⟨rfl, rfl, rfl⟩)
  have hB := hax.B
  have hA := hax.A
  obtain ⟨c, hs1, hs2⟩ := ht.shape
  have hsem : LayerSem (.pool d) s { s with L := C54.pooled d s.L } :=
    ⟨hw, by rw [ht.dims.2.2.1]; omega, by rw [ht.dims.2.2.2]; omega, fun h => by rw [hds] at h; simp at h, rfl⟩
  have hcl := layer_closed ht.closed hsem
  have out : ∀ (m : ℕ) (T : List ℕ), T.length + 2 = r → (DeepLayer.pool d).outShape (actIdx B A m c T) = actIdx B A m c (outDims d.padding T d.window) := by
    intro m T hT
    obtain ⟨g1, g2, g3⟩ := gather_act B A m c T hax.ne (by omega) (by omega)
    have e : Arr.gather ((List.range (T.length + 2)).filter fun i => !([B, A].contains i)) (actIdx B A m c T) = T := g1
    show actIdx d.batchAxis d.ca ((actIdx B A m c T).getD d.batchAxis 0) ((actIdx B A m c T).getD d.ca 0)
      (outDims d.padding (spatialOf d.batchAxis d.ca (actIdx B A m c T)) d.window) = _
    rw [hB', hA', spatialOf, actIdx_length B A m c T hax.ne (by omega) (by omega), e, g2, g3]
  refine ⟨_, .seq hM (.layer ht.closed hsem), ?_, hds⟩
  refine tracks_lin _ _ _ (fun S => outDims d.padding S d.window) ?_ ht rfl hcl ⟨c, ?_, ?_⟩ ht.diag
  · intro x n S hx o ho u _ p e
    have h1 := hax.rank x n S hx
    exact readIdx_inRange _ _ _ _ _ _ (fun v hv => hw v hv) (by omega) ho e
  · show DeepLayer.outShape (DeepLayer.pool d) s.info.shape1 = _
    rw [hs1, out _ _ hl1]
  · show DeepLayer.outShape (DeepLayer.pool d) s.info.shape2 = _
    rw [hs2, out _ _ hl2]

/-- A global pooling layer on top. -/
lemma tracks_globalPool (hax : Axes I.ok B A r D) {d : GlobalPool} (hB' : (B : ℤ) = d.batchAxis % r) (hA' : (A : ℤ) = d.channelAxis % r)
    {M : Net} {v : Vals State} {s : State} (hM : NetSem M v (.one s)) (ht : Tracks I B A (D I.S1) (D I.S2) K s) (hds : s.info.diagonalSpatial = false) :
    ∃ t, NetSem (M.seq (.layer (.globalPool d) (DeepLayer.globalPool d).outShape)) v (.one t) ∧
      Tracks I (if B < A then 0 else 1) (if B < A then 1 else 0) [] []
        (linK (fun S => box S) (fun S _ _ => C54.weight d.type S) (fun _ _ p => some p) D K) t ∧
      t.info.diagonalSpatial = false := by
  have hl1 := hax.rank _ _ _ (.inl ⟨rfl, rfl, rfl⟩)
  have hl2 := hax.rank _ _ _ (.inr ⟨rfl, rfl, rfl⟩)
  have hB := hax.B
  have hA := hax.A
  obtain ⟨c, hs1, hs2⟩ := ht.shape
  have hsem : LayerSem (.globalPool d) s _ := ⟨fun h => by rw [hds] at h; simp at h, by
    rw [hs1, hs2, actIdx_length B A _ _ _ hax.ne (by omega) (by omega), actIdx_length B A _ _ _ hax.ne (by omega) (by omega)]; omega, rfl⟩
  have hcl := layer_closed ht.closed hsem
  have out : ∀ (m : ℕ) (T : List ℕ), T.length + 2 = r → (DeepLayer.globalPool d).outShape (actIdx B A m c T) =
      actIdx (if B < A then 0 else 1) (if B < A then 1 else 0) m c [] := by
    intro m T hT
    obtain ⟨g1, g2, g3⟩ := gather_act B A m c T hax.ne (by omega) (by omega)
    unfold DeepLayer.outShape
    dsimp only
    rw [actIdx_length B A m c T hax.ne (by omega) (by omega), hT, ← hB', ← hA', Int.toNat_natCast, Int.toNat_natCast, g2, g3]
    split_ifs <;> rfl
  refine ⟨_, .seq hM (.layer ht.closed hsem), ?_, hds⟩
  refine tracks_lin (D := D) _ _ _ (fun _ => []) ?_ ht rfl hcl ⟨c, ?_, ?_⟩ fun _ => rfl
  · intro x n S hx o _ u hu p e
    simp only [Option.some.injEq] at e
    subst e
    exact mem_box.1 hu
  · show DeepLayer.outShape (DeepLayer.globalPool d) s.info.shape1 = _
    rw [hs1, out _ _ hl1]
  · show DeepLayer.outShape (DeepLayer.globalPool d) s.info.shape2 = _
    rw [hs2, out _ _ hl2]

/-- A flattening layer on top. -/
lemma tracks_flatten (hax : Axes I.ok B A r D) {f : Flatten} {bo co : ℕ} (hf : f.axesOut = .ok (bo, co)) (hB' : (B : ℤ) = f.batchAxis % r)
    (hT : D I.S1 = D I.S2) (hpos : 0 ∉ D I.S1) {M : Net} {v : Vals State} {s : State} (hM : NetSem M v (.one s)) (ht : Tracks I B A (D I.S1) (D I.S2) K s) :
    ∃ t, NetSem (M.seq (.layer (.flatten f) (DeepLayer.flatten f).outShape)) v (.one t) ∧
      Tracks I bo co [] [] (flatK D K) t ∧ t.info.diagonalSpatial = false := by
  have hl1 := hax.rank _ _ _ (.inl ⟨rfl, rfl, rfl⟩)
  have hl2 := hax.rank _ _ _ (.inr ⟨rfl, rfl, rfl⟩)
  have hB := hax.B
  have hA := hax.A
  obtain ⟨c, hs1, hs2⟩ := ht.shape
  have hsem : LayerSem (.flatten f) s _ := ⟨bo, co, hf, by rw [ht.dims.2.2.1, ht.dims.2.2.2]; exact hT, by rw [ht.dims.2.2.1]; exact hpos, rfl⟩
  have hcl := layer_closed ht.closed hsem
  have out : ∀ (m : ℕ) (T : List ℕ), T.length + 2 = r → (DeepLayer.flatten f).outShape (actIdx B A m c T) = actIdx bo co m (c * T.prod) [] := by
    intro m T hT
    have hn : newAxis A B ≤ T.length := Inputs.newAxis_le hax.ne.symm (by omega) (by omega)
    obtain ⟨g1, g2, g3⟩ := gather_act B A m c T hax.ne (by omega) (by omega)
    have e : ((actIdx B A m c T).eraseIdx B).prod = c * T.prod := by
      rw [actIdx_insert' B A m c T hax.ne (by omega) (by omega), List.eraseIdx_insertIdx_self, insertIdx_app _ _ _ hn, List.prod_append, List.prod_cons]
      conv_rhs => rw [← List.take_append_drop (newAxis A B) T, List.prod_append]
      ring
    unfold DeepLayer.outShape
    dsimp only
    rw [hf, actIdx_length B A m c T hax.ne (by omega) (by omega), hT, ← hB', Int.toNat_natCast, g2]
    dsimp only
    rw [e]
  refine ⟨_, .seq hM (.layer ht.closed hsem), ⟨⟨ht.dims.1, ht.dims.2.1, rfl, rfl⟩, ⟨c * (D I.S1).prod, ?_, ?_⟩, hcl, ?_, ?_, ?_, ?_, fun _ => rfl⟩, rfl⟩
  · show DeepLayer.outShape (DeepLayer.flatten f) s.info.shape1 = _
    rw [hs1, out _ _ hl1]
  · show DeepLayer.outShape (DeepLayer.flatten f) s.info.shape2 = _
    rw [hs2, out _ _ hl2, hT]
  · intro i j p q hi hj hp hq
    show (∑ p ∈ box s.L.S1, s.L.k12 [i, j] p p) / (s.L.S1.prod : ℕ) = (∑ p ∈ box (D I.S1), K (I.a i p) (I.b j p)) / ((D I.S1).prod : ℕ)
    rw [ht.dims.2.2.1]
    congr 1
    exact Finset.sum_congr rfl fun p hp => ht.k12 i j p p hi hj (mem_box.1 hp) (hT ▸ mem_box.1 hp)
  · intro i j p q hi hj hp hq
    show (∑ p ∈ box s.L.S1, s.L.k11 [i, j] p p) / (s.L.S1.prod : ℕ) = (∑ p ∈ box (D I.S1), K (I.a i p) (I.a j p)) / ((D I.S1).prod : ℕ)
    rw [ht.dims.2.2.1]
    congr 1
    exact Finset.sum_congr rfl fun p hp => ht.k11 i j p p hi hj (mem_box.1 hp) (mem_box.1 hp)
  · rw [← ht.some22]
    exact Option.isSome_map
  · intro F hF i j p q hi hj hp hq
    have hF' : s.L.k22.map (C55.avg s.L.S2) = some F := hF
    obtain ⟨G, hG, rfl⟩ := Option.map_eq_some_iff.1 hF'
    show (∑ p ∈ box s.L.S2, G [i, j] p p) / (s.L.S2.prod : ℕ) = (∑ p ∈ box (D I.S2), K (I.b i p) (I.b j p)) / ((D I.S2).prod : ℕ)
    rw [ht.dims.2.2.2]
    congr 1
    exact Finset.sum_congr rfl fun p hp => ht.k22 G hG i j p p hi hj (mem_box.1 hp) (mem_box.1 hp)

end NT.WideDeep
