import Verif.Tac
import Verif.Props.C80
import Verif.Lemmas.Nonlinearity

/-!
A convolutional network as an example: `serial(Conv, Relu, Conv, Flatten, Dense)` on images of any size.
-/

namespace NT.ConvNet
open NT NT.Network NT.Spec NT.Semantics NT.Arr NT.Kernel

/-- `Conv(8, (3, 3), padding='SAME', W_std=2, b_std=1)`. -/
noncomputable def conv8 : Conv := ⟨8, [(3, 1), (3, 1)], .same, 2, some 1, .ntk, (1, 1), true, 0, 3⟩

/-- `Flatten()`. -/
def flat0 : Flatten := ⟨0, 0⟩

/-- `serial(Conv, Relu, Conv)`. -/
noncomputable def body : Net :=
  .seq (.layer (.conv conv8) fun s => s.set 3 8) <|
  .seq (.layer (.act (abReluDual 0 1).kernelFn) id) <|
  .layer (.conv conv8) fun s => s.set 3 8

/-- `Dense` after `Flatten`. -/
noncomputable def head : Net := .layer (.dense C80.dense8) fun s => s.set 1 8

/-- The output shape of `Flatten`. -/
def flatOut (s : List ℕ) : List ℕ := [s.getD 0 0, s.getD 1 0 * s.getD 2 0 * s.getD 3 0]

/-- `serial(Conv, Relu, Conv, Flatten, Dense)`. -/
noncomputable def cnn : Net := .seq body (.seq (.layer (.flatten flat0) flatOut) head)

lemma avg_nonneg {d : Conv} {S : List ℕ} {F : List ℕ → List ℕ → ℝ} (hw : ∀ v ∈ d.filter, 0 < v.1 ∧ 0 < v.2) (hl : S.length = d.filter.length)
    (h : ∀ p, InRange p S → 0 ≤ F p p) (o : List ℕ) (ho : InRange o (outDims d.padding S d.filter)) : 0 ≤ C53.avg d S S F o o := by
  refine div_nonneg (Finset.sum_nonneg fun f _ => ?_) (Nat.cast_nonneg _)
  cases hr : readIdx d.padding S d.filter o f with
  | none => simp [read2]
  | some p => exact h p (readIdx_inRange _ _ _ _ _ _ (fun v hv => hw v hv) hl ho hr)

lemma vars_conv {d : Conv} {C : ℕ} {L : Logical ℝ} (hw : ∀ v ∈ d.filter, 0 < v.1 ∧ 0 < v.2) (hl : L.S1.length = d.filter.length)
    (hl2 : L.S2.length = d.filter.length) (hv : L.Vars (fun v => 0 ≤ v)) : (C53.after d C L).Vars (fun v => 0 ≤ v) := by
  have hb : 0 ≤ C53.bVar d := by unfold C53.bVar; positivity
  refine ⟨fun i p hi hp => ?_, fun F hF i p hi hp => ?_⟩
  · simp only [C53.after, C53.gate, or_true, if_true]
    have := avg_nonneg (F := L.k11 [i, i]) hw hl (fun q hq => hv.one i q hi hq) p hp
    positivity
  · simp only [C53.after, Option.map_eq_some_iff] at hF
    obtain ⟨G, hG, rfl⟩ := hF
    simp only [C53.gate, or_true, if_true]
    have := avg_nonneg (F := G [i, i]) hw hl2 (fun q hq => hv.two G hG i q hi hq) p hp
    positivity

/-- A state of images of size `H × W` with nonnegative variances. -/
structure Images (n1 n2 H W C : ℕ) (s : State) : Prop where
  shape1 : s.info.shape1 = [n1, H, W, C]
  shape2 : s.info.shape2 = [n2, H, W, C]
  S1 : s.L.S1 = [H, W]
  S2 : s.L.S2 = [H, W]
  n1 : s.L.n1 = n1
  n2 : s.L.n2 = n2
  batchAxis : s.info.batchAxis = 0
  channelAxis : s.info.channelAxis = 3
  layout : s.info.diagonalSpatial = true → s.info.isReversed = false
  closed : s.L.Closed
  vars : s.L.Vars fun v => 0 ≤ v

lemma conv_sem {s : State} {n1 n2 H W C : ℕ} (h : Images n1 n2 H W C s) :
    ∃ t, LayerSem (.conv conv8) s t ∧ Images n1 n2 H W 8 (t.withShapes (s.info.shape1.set 3 8) (s.info.shape2.set 3 8)) ∧ t.full = true ∧
      t.info.isGaussian = true ∧ t.info.diagonalSpatial = s.info.diagonalSpatial ∧ t.info.diagonalBatch = s.info.diagonalBatch ∧ t.same = s.same ∧
      t.L.k22.isSome = s.L.k22.isSome ∧ t.info.isInput = false := by
  have hw : ∀ v ∈ conv8.filter, 0 < v.1 ∧ 0 < v.2 := by simp [conv8]
  have l1 : s.L.S1.length = conv8.filter.length := by rw [h.S1]; rfl
  have l2 : s.L.S2.length = conv8.filter.length := by rw [h.S2]; rfl
  have hl : LayerSem (.conv conv8) s
      { s with
        L := C53.after conv8 (s.info.shape1.getD conv8.channelAxis 0) s.L
        info := { s.info with
          isGaussian := true, isInput := false, isReversed := convRev conv8 s.info, batchAxis := conv8.batchAxis, channelAxis := conv8.channelAxis }
        full := true } := by
    refine ⟨by simp [conv8], by simp [conv8], hw, l1, l2, h.layout, by simp [conv8], ?_, rfl⟩
    rw [h.shape1, h.shape2]
    rfl
  have hc := layer_closed h.closed hl
  refine ⟨_, hl, ⟨?_, ?_, ?_, ?_, h.n1, h.n2, rfl, rfl, ?_, hc, vars_conv hw l1 l2 h.vars⟩, rfl, rfl, rfl, rfl, rfl, ?_, rfl⟩
  · simp [State.withShapes, h.shape1]
  · simp [State.withShapes, h.shape2]
  · simp [State.withShapes, C53.after, h.S1, conv8, outDims, outDim]
  · simp [State.withShapes, C53.after, h.S2, conv8, outDims, outDim]
  · intro hd
    have hd : s.info.diagonalSpatial = true := hd
    simp only [State.withShapes, convRev, hd]
    exact h.layout hd
  · simp [C53.after]

lemma act_sem {s : State} {n1 n2 H W C : ℕ} (h : Images n1 n2 H W C s) (hg : s.info.isGaussian = true) :
    ∃ t, LayerSem (.act (abReluDual 0 1).kernelFn) s t ∧ Images n1 n2 H W C (t.withShapes s.info.shape1 s.info.shape2) ∧ t.full = true ∧
      t.info.diagonalSpatial = s.info.diagonalSpatial ∧ t.info.diagonalBatch = s.info.diagonalBatch ∧ t.same = s.same ∧
      t.L.k22.isSome = s.L.k22.isSome := by
  obtain ⟨C1, d1, N1, T1, p1, a1⟩ := abRelu_nonlinearity 0 1
  have hl : LayerSem (.act (abReluDual 0 1).kernelFn) s { s with L := entrywise N1 T1 s.L, info := { s.info with isGaussian := false }, full := true } :=
    ⟨hg, C1, _, d1, N1, T1, a1, ⟨fun i p hi hp => p1 _ (h.vars.one i p hi hp), fun F hF i p hi hp => p1 _ (h.vars.two F hF i p hi hp)⟩, rfl⟩
  refine ⟨_, hl, ⟨h.shape1, h.shape2, h.S1, h.S2, h.n1, h.n2, h.batchAxis, h.channelAxis, h.layout, layer_closed h.closed hl, vars_entrywise a1 p1 h.vars⟩, rfl,
    rfl, rfl, rfl, ?_⟩
  simp [entrywise]

lemma body_sem {s : State} {n1 n2 H W C : ℕ} (h : Images n1 n2 H W C s) :
    ∃ t, NetSem body (.one s) (.one t) ∧ Images n1 n2 H W 8 t ∧ t.full = true ∧ t.info.isGaussian = true ∧ t.L.k22.isSome = s.L.k22.isSome ∧
      t.same = s.same ∧ t.info.isInput = false := by
  obtain ⟨t1, l1, i1, f1, g1, d1, b1, m1, c1, -⟩ := conv_sem h
  obtain ⟨t2, l2, i2, f2, d2, b2, m2, c2⟩ := act_sem i1 g1
  obtain ⟨t3, l3, i3, f3, g3, d3, b3, m3, c3, n3⟩ := conv_sem i2
  have e1 := NetSem.layer (out := fun s => s.set 3 8) h.closed l1
  have e2 := NetSem.layer (out := id) i1.closed l2
  have e3 := NetSem.layer (out := fun s => s.set 3 8) i2.closed l3
  exact ⟨_, .seq e1 (.seq e2 e3), i3, f3, g3, c3.trans (c2.trans c1), m3.trans (m2.trans m1), n3⟩

lemma cnn_sem {s : State} {n1 n2 H W C : ℕ} (h : Images n1 n2 H W C s) (hH : 0 < H) (hW : 0 < W) :
    ∃ t, NetSem cnn (.one s) (.one t) ∧ t.full = true := by
  obtain ⟨t, e, i, f, g, c, m, -⟩ := body_sem h
  have hl : LayerSem (.flatten flat0) t
      { t with
        L := C55.flat t.L
        info := { t.info with isGaussian := false, isReversed := false, batchAxis := 0, channelAxis := 1, diagonalSpatial := false } } := by
    refine ⟨0, 1, by simp [flat0, Flatten.axesOut], by rw [i.S1, i.S2], ?_, rfl⟩
    rw [i.S1]
    simp only [List.mem_cons, List.not_mem_nil, or_false, not_or]
    omega
  have e2 := NetSem.layer (out := flatOut) i.closed hl
  have hc := layer_closed i.closed hl
  have hd : ∃ u, NetSem head (.one (State.withShapes (flatOut t.info.shape1) (flatOut t.info.shape2)
      { t with
        L := C55.flat t.L
        info := { t.info with isGaussian := false, isReversed := false, batchAxis := 0, channelAxis := 1, diagonalSpatial := false } })) (.one u) ∧
      u.full = true := by
    refine ⟨_, .layer hc ⟨by simp [C80.dense8], by simp [C80.dense8], H * W * 8, ?_, ?_, rfl⟩, rfl⟩
    · rw [i.shape1]; simp [State.withShapes, flatOut, C80.dense8, pyGetNat]
    · rw [i.shape2]; simp [State.withShapes, flatOut, C80.dense8, pyGetNat]
  obtain ⟨u, e3, fu⟩ := hd
  exact ⟨u, .seq e (.seq e2 e3), fu⟩

lemma images_input (x1 x2 : Arr ℝ) (db ds ntk same : Bool) (n1 n2 H W C : ℕ) (h1 : x1.shape = [n1, H, W, C]) (h2 : x2.shape = [n2, H, W, C]) :
    Images n1 n2 H W C (C80.inputState x1 (some x2) db ds ntk same 0 3 C n1 n2 [H, W] [H, W]) := by
  have key : ∀ (x : Arr ℝ) i p, 0 ≤ C35.meanProd none x x 0 3 C [i, i] p p := by
    intro x i p
    unfold C35.meanProd
    exact div_nonneg (Finset.sum_nonneg fun c _ => mul_self_nonneg _) (Nat.cast_nonneg _)
  refine ⟨h1, h2, rfl, rfl, rfl, rfl, rfl, rfl, fun _ => rfl, by simp [Logical.Closed, C80.inputState, C35.second], fun i p hi hp => key _ _ _,
    fun F hF i p hi hp => ?_⟩
  obtain rfl : C35.meanProd none x2 x2 0 3 C = F := by simpa [C80.inputState, C35.second] using hF
  exact key _ _ _

end NT.ConvNet
