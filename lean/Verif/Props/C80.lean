import Verif.Tac
import Verif.Lemmas.Swap
import Verif.Lemmas.Closed
import Verif.Props.C35
import Verif.Lemmas.Nonlinearity

/-!
# C80: swapping the two inputs of a network
-/

namespace NT.C80
open NT NT.Network NT.Spec NT.Semantics NT.Arr NT.Kernel

lemma swappedArr {a a' : Arr ℝ} {n1 n2 : ℕ} {S1 S2 : List ℕ} {ds rev : Bool} {F : List ℕ → List ℕ → List ℕ → ℝ}
    (h : Holds a [n1, n2] S1 S2 ds rev F) (h' : Holds a' [n2, n1] S2 S1 ds rev (swap2 F)) : SwappedArr ds rev a a' := by
  refine ⟨n1, n2, S1, S2, h.rank, h.shape, h'.shape, fun i j p q hi hj hp hq hd => ?_⟩
  rw [show i :: j :: pos ds rev p q = [i, j] ++ pos ds rev p q from rfl, h.get [i, j] p q (by simp [InRange, hi, hj]) hp hq hd,
    show j :: i :: pos ds rev q p = [j, i] ++ pos ds rev q p from rfl,
    h'.get [j, i] q p (by simp [InRange, hi, hj]) hq hp fun h => (hd h).symm]
  rfl

lemma holds_zero {a : Arr ℝ} {B S T : List ℕ} {ds rev : Bool} {F : List ℕ → List ℕ → List ℕ → ℝ} (h : Holds a B S T ds rev F)
    (h0 : ∀ b p q, F b p q = 0) : ∀ i, InRange i a.shape → a.get i = 0 := by
  have hz : Holds (⟨a.shape, fun _ => 0⟩ : Arr ℝ) B S T ds rev F := ⟨h.rank, h.square, h.shape, fun b p q _ _ _ _ => (h0 b p q).symm⟩
  exact fun i hi => (h.eqv hz).2 i hi

lemma swapped_of {s : State} {k k' : Kernel ℝ} (hc : s.L.Closed) (h : Describes s k) (h' : Describes s.swap k') : Swapped k k' := by
  have e : k'.static = { k.static with shape1 := k.shape2, shape2 := k.shape1 } := by
    rw [h'.static]
    show ({ s.info with shape1 := _, shape2 := _ } : Kernel.Static) = _
    rw [← h.static]
    rfl
  have ds : k'.diagonalSpatial = k.diagonalSpatial := congrArg Static.diagonalSpatial e
  have rv : k'.isReversed = k.isReversed := congrArg Static.isReversed e
  have db : k'.diagonalBatch = k.diagonalBatch := congrArg Static.diagonalBatch e
  have s1 := h.stores
  have s2 := h'.stores
  have c2 := s1.cov2
  have c2' := s2.cov2
  have c1' := s2.cov1
  have nn := s2.nngp
  have t1 := s1.ntk
  have t2 := s2.ntk
  rw [ds, rv] at nn c1' c2' t2
  rw [db] at c1' c2'
  simp only [State.swap, Logical.swap] at nn c1' c2' t2
  refine ⟨swappedArr s1.nngp nn, ?_, ?_, ?_, e⟩
  · cases e1 : s.L.ntk with
    | none =>
      rw [e1] at t1 t2
      cases f1 : k.ntk <;> cases f2 : k'.ntk <;> rw [f1] at t1 <;> rw [f2] at t2 <;> simp_all [OptRel]
    | some F =>
      rw [e1] at t1 t2
      cases f1 : k.ntk with
      | none => rw [f1] at t1; simp [OptRel] at t1
      | some a =>
        cases f2 : k'.ntk with
        | none => rw [f2] at t2; simp [OptRel] at t2
        | some a' =>
          rw [f1] at t1
          rw [f2] at t2
          simp only [OptRel, Option.map_some] at t1 t2 ⊢
          have hz : ∀ {b : Arr ℝ}, b.shape = [] → b.get [] = 0 → ∀ i, InRange i b.shape → b.get i = 0 := by
            intro b hb h0 i hi
            rw [hb] at hi
            cases hi
            exact h0
          rcases t1 with ⟨g1, g2⟩ | g1
          · have z := h.zero a f1 g1
            rcases t2 with ⟨g3, g4⟩ | g3
            · exact .inl ⟨.inl g1, hz g1 z, hz g3 (h'.zero a' f2 g3)⟩
            · exact .inl ⟨.inl g1, hz g1 z, holds_zero g3 fun b p q => by rw [swap2, g2, z]⟩
          · rcases t2 with ⟨g3, g4⟩ | g3
            · have z := h'.zero a' f2 g3
              refine .inl ⟨.inr g3, ?_, hz g3 z⟩
              refine holds_zero (F := fun _ _ _ => 0) (g1.congr fun b p q hb hp hq => ?_) fun _ _ _ => rfl
              obtain ⟨i, j, rfl⟩ : ∃ i j, b = [i, j] := by
                rcases b with _ | ⟨i, _ | ⟨j, _ | ⟨l, b⟩⟩⟩ <;> simp_all [InRange]
              have := g4 [j, i] q p
              rw [z] at this
              exact this
            · exact .inr (swappedArr g1 g3)
  · cases e1 : s.L.k22 with
    | none =>
      rw [e1] at c2
      cases f1 : k.cov2 with
      | some c => rw [f1] at c2; simp [OptRel] at c2
      | none =>
        rw [(hc e1).1, (hc e1).2, second_none e1] at c1'
        exact c1'.eqv s1.cov1
    | some F =>
      rw [e1] at c2
      cases f1 : k.cov2 with
      | none => rw [f1] at c2; simp [OptRel] at c2
      | some c =>
        rw [f1] at c2
        rw [second_some e1] at c1'
        exact c1'.eqv c2
  · cases e1 : s.L.k22 with
    | none =>
      rw [e1] at c2 c2'
      cases f1 : k.cov2 <;> cases f2 : k'.cov2 <;> rw [f1] at c2 <;> rw [f2] at c2' <;> simp_all [OptRel]
    | some F =>
      rw [e1] at c2 c2'
      cases f1 : k.cov2 <;> cases f2 : k'.cov2 <;> rw [f1] at c2 <;> rw [f2] at c2' <;> simp only [OptRel, Option.map_some] at c2 c2' ⊢
      exact c2'.eqv s1.cov1

lemma rel_swap {R : Kernel ℝ → State → Prop} {x : Vals (Kernel ℝ)} {v : Vals State} (h : Rel (fun k s => R k s.swap) x v) :
    ∃ v', Rel R x v' ∧ Rel (fun s t => t = s.swap) v v' := by
  induction h with
  | one a b h => exact ⟨.one b.swap, .one _ _ h, .one _ _ rfl⟩
  | many l m hl h ih =>
    choose u h1 h2 using ih
    refine ⟨.many (List.ofFn fun i : Fin m.length => u i.1 (by rw [hl]; exact i.2) i.2), .many _ _ (by simp [hl]) fun i p q => ?_, .many _ _ (by simp) fun i p q => ?_⟩
    · rw [List.getElem_ofFn]
      exact h1 i p (by simpa using q)
    · rw [List.getElem_ofFn]
      exact h2 i (by rw [hl]; exact p) p

lemma rel_trans3 {w w' : Vals State} (hw : Rel (fun s t => t = s.swap) w w') : ∀ {y y' : Vals (Kernel ℝ)},
    Rel (fun k s => Describes s k ∧ s.L.Closed) y w → Rel (fun k s => Describes s k) y' w' → Rel Swapped y y' := by
  induction hw with
  | one s t h =>
    intro y y' h1 h2
    cases h1 with
    | one k _ h1 =>
      cases h2 with
      | one k' _ h2 => exact .one _ _ (swapped_of h1.2 h1.1 (h ▸ h2))
  | many l m hl h ih =>
    intro y y' h1 h2
    cases h1 with
    | many a _ ha h1 =>
      cases h2 with
      | many b _ hb h2 =>
        refine .many _ _ (by rw [ha, hl, hb]) fun i p q => ?_
        exact ih i (by rw [← ha]; exact p) (by rw [← hb]; exact q) (h1 i p (by rw [← ha]; exact p)) (h2 i q (by rw [← hb]; exact q))

/-- The kernels of a network of the modelled layers for two inputs in either order: both computations succeed, and each kernel of the one is
that of the other with the inputs swapped.  `v` describes the kernels given to the network for the inputs in the first order and `w` those that
come out (`NetSem` says that every layer is applied as documented).  Missing for the full property: `Aggregate`
and masked inputs
(for these see the file with suffix `Masked`). -/
theorem network_swap_partial {net : Net} {v w : Vals State} (h : NetSem net v w) (hc : Every (fun s => s.L.Closed) v) {x x' : Vals (Kernel ℝ)}
    (hx : Rel (fun k s => Describes s k) x v) (hx' : Rel (fun k s => Describes s.swap k) x' v) :
    ∃ y y', net.run x = .ok y ∧ net.run x' = .ok y' ∧ Rel Swapped y y' := by
  obtain ⟨v', h1, h2⟩ := rel_swap (R := fun k s => Describes s k) hx'
  obtain ⟨w', h3, h4⟩ := net_swap h h2
  obtain ⟨y, e1, f1⟩ := net_sound h hx
  obtain ⟨y', e2, f2⟩ := net_sound h3 h1
  exact ⟨y, y', e1, e2, rel_trans3 h4 (rel_every f1 (net_closed h hc)) f2⟩

/-- The state of the input kernel of two batches. -/
noncomputable def inputState (x1 : Arr ℝ) (x2 : Option (Arr ℝ)) (db ds ntk same : Bool) (B A C n1 n2 : ℕ) (S1 S2 : List ℕ) : State where
  L := C35.second none x1 x2 ntk B A C n1 n2 S1 S2
  info :=
    { isGaussian := false, isReversed := false, isInput := false, diagonalBatch := db, diagonalSpatial := ds
      shape1 := x1.shape, shape2 := (x2.getD x1).shape, batchAxis := B, channelAxis := A }
  same := same
  full := false

lemma input_describes {k : Kernel ℝ} {x1 : Arr ℝ} {x2 : Option (Arr ℝ)} {db ds ntk same : Bool} {B A C n1 n2 : ℕ} {S1 S2 : List ℕ}
    (h1 : k.Stores (C35.second none x1 x2 ntk B A C n1 n2 S1 S2)) (h2 : C35.Static k none x1 x2 db ds same B A) :
    Describes (inputState x1 x2 db ds ntk same B A C n1 n2 S1 S2) k := by
  refine ⟨h1, ?_, by rw [h2.same]; exact ⟨rfl, rfl⟩, by rw [h2.mask1]; rfl, by rw [h2.mask2]; cases x2 <;> rfl, by simp [inputState], ?_⟩
  · simp only [Kernel.static, inputState, h2.diagonalBatch, h2.diagonalSpatial, h2.isReversed, h2.isGaussian, h2.isInput, h2.batchAxis, h2.channelAxis,
      h2.shape1, h2.shape2]
  · intro a ha hs
    have := h1.ntk
    rw [ha] at this
    cases ntk
    · simp [C35.second, OptRel] at this
    · simp only [C35.second, if_true, OptRel] at this
      rcases this with ⟨-, g⟩ | g
      · exact (g [] [] []).symm
      · exact absurd hs (g.ne_nil (by simp))

lemma input_swap (x1 x2 : Arr ℝ) (db ds ntk same : Bool) (B A C n1 n2 : ℕ) (S1 S2 : List ℕ) :
    (inputState x1 (some x2) db ds ntk same B A C n1 n2 S1 S2).swap = inputState x2 (some x1) db ds ntk same B A C n2 n1 S2 S1 := by
  refine state_ext (logical_ext rfl rfl rfl rfl ?_ rfl rfl ?_) rfl rfl rfl
  · funext b p q
    simp only [State.swap, Logical.swap, swap2, inputState, C35.second, C35.meanProd, Option.getD_some]
    congr 1
    exact Finset.sum_congr rfl fun c _ => mul_comm _ _
  · cases ntk <;> rfl

/-- The whole computation, from the two batches of inputs: `kernel_fn(x1, x2)` and `kernel_fn(x2, x1)` of a network. -/
theorem inputs_swap_partial (x1 x2 : Arr ℝ) (db ds ntk same : Bool) (ba ca : ℤ) (n1 n2 C : ℕ) (S1 S2 : List ℕ) (B A : ℕ)
    (hB : (B : ℤ) = ba % (S1.length + 2)) (hA : (A : ℤ) = ca % (S1.length + 2)) (hne : B ≠ A) (hS : S1.length = S2.length)
    (hds : ds = true → S1 = S2) (h1 : x1.shape = actIdx B A n1 C S1) (h2 : x2.shape = actIdx B A n2 C S2) {net : Net} {w : Vals State}
    (h : NetSem net (.one (inputState x1 (some x2) db ds ntk same B A C n1 n2 S1 S2)) w) :
    ∃ k k' y y', Inputs.inputsToKernel x1 (some x2) db ds ntk ba (some ca) none same = .ok k ∧
      Inputs.inputsToKernel x2 (some x1) db ds ntk ba (some ca) none same = .ok k' ∧
      net.run (.one k) = .ok y ∧ net.run (.one k') = .ok y' ∧ Rel Swapped y y' := by
  obtain ⟨k, e1, f1, g1⟩ := C35.second_moment none db ds ntk same x1 (some x2) ba ca n1 n2 C S1 S2 B A hB hA hne hS hds h1 h2
  obtain ⟨k', e2, f2, g2⟩ := C35.second_moment none db ds ntk same x2 (some x1) ba ca n2 n1 C S2 S1 B A (by rw [hB, hS]) (by rw [hA, hS]) hne hS.symm
    (fun h => (hds h).symm) h2 h1
  obtain ⟨y, y', h3, h4, h5⟩ := network_swap_partial h (.one _ (by simp [Logical.Closed, inputState, C35.second])) (.one _ _ (input_describes f1 g1))
    (x' := .one k') (.one _ _ (by rw [input_swap]; exact input_describes f2 g2))
  exact ⟨k, k', y, y', e1, e2, h3, h4, h5⟩

/-! ### A concrete case: a residual network with biases, two inputs of different batch size -/

/-- `Dense(8, W_std=2, b_std=1)` with NTK parameterization. -/
noncomputable def dense8 : Dense where
  outDim := 8
  wStd := 2
  bStd := some 1
  channelAxis := -1
  param := .ntk
  s := (1, 1)

/-- `serial(Dense, Relu, Dense, FanOut(2), parallel(Identity, serial(Erf, Dense)), FanInSum)`. -/
noncomputable def resnet : Net :=
  .seq (.layer (.dense dense8) fun s => s.set 1 8) <|
  .seq (.layer (.act (abReluDual 0 1).kernelFn) id) <|
  .seq (.layer (.dense dense8) fun s => s.set 1 8) <|
  .seq (.fanOut 2) <|
  .seq (.par 2 ![.layer .identity id,
    .seq (.layer (.act fun k => (erfDual.kernelFn (k.mul 1)).map fun k => (k.mul 1).add 0) id) (.layer (.dense dense8) fun s => s.set 1 8)])
  (.fanIn .sum fun s => s.getD 0 [])

lemma vars_dense {d : Dense} {C : ℕ} {L : Logical ℝ} (hv : L.Vars (fun v => 0 ≤ v)) : (C52.after d C L).Vars (fun v => 0 ≤ v) := by
  have key : ∀ v, 0 ≤ v → 0 ≤ d.wStd ^ 2 * v + C52.bVar d := fun v hv => by
    have : 0 ≤ C52.bVar d := by unfold C52.bVar; positivity
    positivity
  refine ⟨fun i p hi hp => key _ (hv.one i p hi hp), fun F hF i p hi hp => ?_⟩
  simp only [C52.after, Option.map_eq_some_iff] at hF
  obtain ⟨G, hG, rfl⟩ := hF
  exact key _ (hv.two G hG i p hi hp)

/-- A state of flat inputs with nonnegative variances. -/
structure Good (n1 n2 C : ℕ) (s : State) : Prop where
  shape1 : s.info.shape1 = [n1, C]
  shape2 : s.info.shape2 = [n2, C]
  closed : s.L.Closed
  vars : s.L.Vars fun v => 0 ≤ v

/-- The layout is the same. -/
def layout (s : State) := (s.info.diagonalBatch, s.info.diagonalSpatial, s.info.batchAxis, s.info.channelAxis, s.info.isReversed, s.same, s.L.n1, s.L.n2,
  s.L.S1, s.L.S2, s.L.k22.isSome, s.L.ntk.isSome)

lemma dense_step {s : State} {n1 n2 C : ℕ} (h : Good n1 n2 C s) :
    ∃ t, NetSem (.layer (.dense dense8) fun s => s.set 1 8) (.one s) (.one t) ∧ Good n1 n2 8 t ∧ layout t = layout s ∧ t.full = true ∧
      t.info.isGaussian = true := by
  have hl : LayerSem (.dense dense8) s
      { s with L := C52.after dense8 C s.L, info := { s.info with isGaussian := true, isInput := false }, full := true } := by
    refine ⟨by simp [dense8], by simp [dense8], C, ?_, ?_, rfl⟩
    · rw [h.shape1]; simp [dense8, pyGetNat]
    · rw [h.shape2]; simp [dense8, pyGetNat]
  have hcl := layer_closed h.closed hl
  refine ⟨_, .layer h.closed hl, ⟨?_, ?_, hcl, vars_dense h.vars⟩, ?_, rfl, rfl⟩
  · simp [State.withShapes, h.shape1]
  · simp [State.withShapes, h.shape2]
  · simp [State.withShapes, layout, C52.after]

lemma act_step {s : State} {n1 n2 C : ℕ} (h : Good n1 n2 C s) (hg : s.info.isGaussian = true) {f : Kernel ℝ → Except Err (Kernel ℝ)} {φ : ℝ → ℝ}
    (hf : ∃ C dφ N T, (∀ v, 0 ≤ v → C v) ∧ Nonlinearity f C φ dφ N T) :
    ∃ t, NetSem (.layer (.act f) id) (.one s) (.one t) ∧ Good n1 n2 C t ∧ layout t = layout s ∧ t.full = true := by
  obtain ⟨C1, d1, N1, T1, p1, a1⟩ := hf
  have hl : LayerSem (.act f) s { s with L := entrywise N1 T1 s.L, info := { s.info with isGaussian := false }, full := true } :=
    ⟨hg, C1, _, d1, N1, T1, a1, ⟨fun i p hi hp => p1 _ (h.vars.one i p hi hp), fun F hF i p hi hp => p1 _ (h.vars.two F hF i p hi hp)⟩, rfl⟩
  have hcl := layer_closed h.closed hl
  refine ⟨_, .layer h.closed hl, ⟨?_, ?_, hcl, vars_entrywise a1 p1 h.vars⟩, ?_, rfl⟩
  · exact h.shape1
  · exact h.shape2
  · simp [State.withShapes, layout, entrywise]

/-- The network applies to flat inputs. -/
lemma resnet_sem {s : State} {n1 n2 C : ℕ} (h : Good n1 n2 C s) (hr : s.info.isReversed = false) :
    ∃ t, NetSem resnet (.one s) (.one t) ∧ t.full = true := by
  obtain ⟨s1, e1, g1, l1, f1, q1⟩ := dense_step h
  obtain ⟨s2, e2, g2, l2, f2⟩ := act_step g1 q1 (abRelu_nonlinearity 0 1)
  obtain ⟨s3, e3, g3, l3, f3, q3⟩ := dense_step g2
  obtain ⟨s4, e4, g4, l4, f4⟩ := act_step g3 q3 (erf_nonlinearity 1 1 0)
  obtain ⟨s5, e5, g5, l5, f5, q5⟩ := dense_step g4
  have e0 : NetSem (.layer .identity id) (.one s3) (.one s3) := .layer (s := s3) (t := s3) (out := id) g3.closed rfl
  have l6 : layout s5 = layout s3 := l5.trans l4
  have l7 : layout s3 = layout s := l3.trans (l2.trans l1)
  simp only [layout, Prod.mk.injEq] at l6 l7
  have hfan : ∃ t, FanSem .sum ![s3, s5] t ∧ t.full = true := by
    refine ⟨_, ⟨⟨?_, ?_, ?_, ?_, ?_, ?_, ?_, ?_⟩, .inl ?_, ?_, s3.L.k22.isSome, s3.L.ntk.isSome, ?_, ?_, rfl⟩, f3⟩
    all_goals first | (intro r; fin_cases r; done) | (intro r; fin_cases r) | (intro _ r; fin_cases r)
    all_goals simp_all [g3.shape1, g3.shape2, g5.shape1, g5.shape2]
  obtain ⟨t, hfan, hfull⟩ := hfan
  have hp : NetSem (.par 2 ![.layer .identity id,
      .seq (.layer (.act fun k => (erfDual.kernelFn (k.mul 1)).map fun k => (k.mul 1).add 0) id) (.layer (.dense dense8) fun s => s.set 1 8)])
      (.many (List.ofFn ![.one s3, .one s3])) (.many (List.ofFn ![.one s3, .one s5])) := by
    refine .par fun i => ?_
    fin_cases i
    · exact e0
    · exact .seq e4 e5
  have hf := NetSem.fanIn (out := fun s => s.getD 0 []) (fun r => by fin_cases r; exacts [g3.closed, g5.closed]) hfan
  have e8 : (List.ofFn fun r : Fin 2 => Vals.one (![s3, s5] r)) = List.ofFn ![Vals.one s3, .one s5] := rfl
  exact ⟨_, .seq e1 (.seq e2 (.seq e3 (.seq .fanOut (.seq hp hf)))), hfull⟩

lemma input_good (x1 x2 : Arr ℝ) (db ds ntk same : Bool) (n1 n2 C : ℕ) (h1 : x1.shape = [n1, C]) (h2 : x2.shape = [n2, C]) :
    Good n1 n2 C (inputState x1 (some x2) db ds ntk same 0 1 C n1 n2 [] []) := by
  have key : ∀ (x : Arr ℝ) i p, 0 ≤ C35.meanProd none x x 0 1 C [i, i] p p := by
    intro x i p
    unfold C35.meanProd
    exact div_nonneg (Finset.sum_nonneg fun c _ => mul_self_nonneg _) (Nat.cast_nonneg _)
  refine ⟨h1, h2, by simp [Logical.Closed, inputState, C35.second], fun i p hi hp => key _ _ _, fun F hF i p hi hp => ?_⟩
  obtain rfl : C35.meanProd none x2 x2 0 1 C = F := by simpa [inputState, C35.second] using hF
  exact key _ _ _

example (x1 x2 : Arr ℝ) (db ds same : Bool) (h1 : x1.shape = [2, 3]) (h2 : x2.shape = [1, 3]) :
    ∃ k k' y y', Inputs.inputsToKernel x1 (some x2) db ds true 0 (some (-1)) none same = .ok k ∧
      Inputs.inputsToKernel x2 (some x1) db ds true 0 (some (-1)) none same = .ok k' ∧
      resnet.run (.one k) = .ok y ∧ resnet.run (.one k') = .ok y' ∧ Rel Swapped y y' := by
  obtain ⟨t, ht, -⟩ := resnet_sem (input_good x1 x2 db ds true same 2 1 3 h1 h2) rfl
  exact inputs_swap_partial x1 x2 db ds true same 0 (-1) 2 1 3 [] [] 0 1 (by simp) (by simp) (by simp) rfl (by simp) h1 h2 ht

/-- `ConvTranspose(6, (2,), (2,), padding, W_std=3/2, b_std=1/2)`. -/
noncomputable def upsample (pad : Padding) : ConvTranspose :=
  ⟨{ outChan := 6, filter := [(2, 2)], padding := pad, wStd := 3 / 2, bStd := some (1 / 2), param := .ntk, s := (1, 1), batchAxis := 0, channelAxis := 2, sharedWeights := true }, rfl⟩

/-- `serial(ConvTranspose, Dense)` of images of three pixels. -/
noncomputable def upsampleNet (pad : Padding) : Net :=
  .seq (.layer (.convTranspose (upsample pad)) fun s => (s.set 1 6).set 2 6) (.layer (.dense dense8) fun s => s.set 2 8)

lemma upsampleNet_sem (pad : Padding) (x1 x2 : Arr ℝ) (db same : Bool) (h1 : x1.shape = [4, 3, 5]) (h2 : x2.shape = [3, 3, 5]) :
    ∃ w, NetSem (upsampleNet pad) (.one (inputState x1 (some x2) db false true same 0 2 5 4 3 [3] [3])) w := by
  have hl : ∃ t, LayerSem (.convTranspose (upsample pad)) (inputState x1 (some x2) db false true same 0 2 5 4 3 [3] [3]) t ∧
      t.info.shape1 = x1.shape ∧ t.info.shape2 = x2.shape := by
    refine ⟨_, ⟨by simp [upsample], by simp [upsample], by simp [upsample], rfl, rfl, by simp [inputState, C35.second], by simp [inputState, C35.second], by simp [inputState],
      by simp [inputState, h1, h2, upsample], rfl⟩, rfl, rfl⟩
  obtain ⟨t, hl, ht⟩ := hl
  have hc : (inputState x1 (some x2) db false true same 0 2 5 4 3 [3] [3]).L.Closed := by simp [Logical.Closed, inputState, C35.second]
  have e1 := NetSem.layer (out := fun s => (s.set 1 6).set 2 6) hc hl
  refine ⟨_, .seq e1 (.layer (show t.L.Closed from layer_closed hc hl) ⟨by simp [dense8], by simp [dense8], 6, ?_, ?_, rfl⟩)⟩
  · simp [dense8, pyGetNat, State.withShapes, inputState, h1]
  · simp [dense8, pyGetNat, State.withShapes, inputState, h2]

example (pad : Padding) (x1 x2 : Arr ℝ) (db same : Bool) (h1 : x1.shape = [4, 3, 5]) (h2 : x2.shape = [3, 3, 5]) :
    ∃ k k' y y', Inputs.inputsToKernel x1 (some x2) db false true 0 (some (-1)) none same = .ok k ∧
      Inputs.inputsToKernel x2 (some x1) db false true 0 (some (-1)) none same = .ok k' ∧
      (upsampleNet pad).run (.one k) = .ok y ∧ (upsampleNet pad).run (.one k') = .ok y' ∧ Rel Swapped y y' := by
  obtain ⟨t, ht⟩ := upsampleNet_sem pad x1 x2 db same h1 h2
  exact inputs_swap_partial x1 x2 db false true same 0 (-1) 4 3 5 [3] [3] 0 2 (by simp) (by simp) (by simp) rfl (by simp) h1 h2 ht

/-- `ImageResize((-1, 6, -1), 'linear')`. -/
def enlarge : ImageResize := ⟨[none, some 6, none], .linear, true, true, 0, -1⟩

/-- `serial(ImageResize, Dense)` of images of three pixels. -/
noncomputable def enlargeNet : Net :=
  .seq (.layer (.resize enlarge) fun s => s.set 1 6) (.layer (.dense dense8) fun s => s.set 2 8)

lemma enlargeNet_sem (x1 x2 : Arr ℝ) (db same : Bool) (h1 : x1.shape = [4, 3, 5]) (h2 : x2.shape = [3, 3, 5]) :
    ∃ w, NetSem enlargeNet (.one (inputState x1 (some x2) db false true same 0 2 5 4 3 [3] [3])) w := by
  have hl : ∃ t, LayerSem (.resize enlarge) (inputState x1 (some x2) db false true same 0 2 5 4 3 [3] [3]) t ∧ t.info =
      (inputState x1 (some x2) db false true same 0 2 5 4 3 [3] [3]).info := by
    refine ⟨_, ⟨0, 2, [some 6], ⟨⟨rfl, by simp, by simp, by simp, by simp [enlarge], by simp [enlarge]⟩, rfl, .inr rfl, rfl, rfl, rfl, ⟨5, h1⟩, ⟨5, h2⟩,
      by simp [inputState], by simp [inputState]⟩, rfl⟩, rfl⟩
  obtain ⟨t, hl, ht⟩ := hl
  have hc : (inputState x1 (some x2) db false true same 0 2 5 4 3 [3] [3]).L.Closed := by simp [Logical.Closed, inputState, C35.second]
  have e1 := NetSem.layer (out := fun s => s.set 1 6) hc hl
  have e : (inputState x1 (some x2) db false true same 0 2 5 4 3 [3] [3]).info.shape1.set 1 6 = [4, 6, 5] ∧
      (inputState x1 (some x2) db false true same 0 2 5 4 3 [3] [3]).info.shape2.set 1 6 = [3, 6, 5] := by
    simp [inputState, h1, h2]
  rw [e.1, e.2] at e1
  refine ⟨_, .seq e1 (.layer (show t.L.Closed from layer_closed hc hl) ⟨by simp [dense8], by simp [dense8], 5, ?_, ?_, rfl⟩)⟩
  · simp [dense8, pyGetNat, State.withShapes]
  · simp [dense8, pyGetNat, State.withShapes]

example (x1 x2 : Arr ℝ) (db same : Bool) (h1 : x1.shape = [4, 3, 5]) (h2 : x2.shape = [3, 3, 5]) :
    ∃ k k' y y', Inputs.inputsToKernel x1 (some x2) db false true 0 (some (-1)) none same = .ok k ∧
      Inputs.inputsToKernel x2 (some x1) db false true 0 (some (-1)) none same = .ok k' ∧
      enlargeNet.run (.one k) = .ok y ∧ enlargeNet.run (.one k') = .ok y' ∧ Rel Swapped y y' := by
  obtain ⟨t, ht⟩ := enlargeNet_sem x1 x2 db same h1 h2
  exact inputs_swap_partial x1 x2 db false true same 0 (-1) 4 3 5 [3] [3] 0 2 (by simp) (by simp) (by simp) rfl (by simp) h1 h2 ht

/-- `GlobalSelfAttention(linear_scaling=True, pos_emb_type='CONCAT', b_std=0.1)` with the softmax mechanism. -/
noncomputable def softmaxAttention : Attention := ⟨true, .softmax, 1, 1, 1, 1, some (1 / 10), .concat, 2, none, some 4, 1, true⟩

/-- `GlobalSelfAttention(linear_scaling=False, attention_mechanism='IDENTITY')`. -/
noncomputable def identityAttention : Attention := ⟨false, .identity, 1, 1, 1, 1, none, .none, 2, none, none, 1, false⟩

/-- `serial(GlobalSelfAttention, Dense)` of sequences of three tokens. -/
noncomputable def tokenNet (d : Attention) : Net :=
  .seq (.layer (.attention d) fun s => s.set 2 7) (.layer (.dense dense8) fun s => s.set 2 8)

lemma tokenNet_sem {d : Attention} (hs : d.linearScaling = true ∨ d.mechanism = .identity) (hd : d.decay = none) (x1 x2 : Arr ℝ) (db same : Bool) (h1 : x1.shape = [4, 3, 5]) (h2 : x2.shape = [3, 3, 5]) :
    ∃ w, NetSem (tokenNet d) (.one (inputState x1 (some x2) db false true same 0 2 5 4 3 [3] [3])) w := by
  have hl : ∃ t, LayerSem (.attention d) (inputState x1 (some x2) db false true same 0 2 5 4 3 [3] [3]) t :=
    ⟨_, 5, ⟨hs, rfl, by simp [inputState, C35.second], rfl, h1, h2, fun _ => rfl, fun _ => by rw [hd]; exact Attn.posCov_none_psd _ _⟩, rfl⟩
  obtain ⟨t, hl⟩ := hl
  have hc : (inputState x1 (some x2) db false true same 0 2 5 4 3 [3] [3]).L.Closed := by simp [Logical.Closed, inputState, C35.second]
  have e1 := NetSem.layer (out := fun s => s.set 2 7) hc hl
  have e : (inputState x1 (some x2) db false true same 0 2 5 4 3 [3] [3]).info.shape1.set 2 7 = [4, 3, 7] ∧
      (inputState x1 (some x2) db false true same 0 2 5 4 3 [3] [3]).info.shape2.set 2 7 = [3, 3, 7] := by
    simp [inputState, h1, h2]
  rw [e.1, e.2] at e1
  refine ⟨_, .seq e1 (.layer (show t.L.Closed from layer_closed hc hl) ⟨by simp [dense8], by simp [dense8], 7, ?_, ?_, rfl⟩)⟩
  · simp [dense8, pyGetNat, State.withShapes]
  · simp [dense8, pyGetNat, State.withShapes]

example {d : Attention} (hd : d ∈ [softmaxAttention, identityAttention]) (x1 x2 : Arr ℝ) (db same : Bool) (h1 : x1.shape = [4, 3, 5]) (h2 : x2.shape = [3, 3, 5]) :
    ∃ k k' y y', Inputs.inputsToKernel x1 (some x2) db false true 0 (some (-1)) none same = .ok k ∧
      Inputs.inputsToKernel x2 (some x1) db false true 0 (some (-1)) none same = .ok k' ∧
      (tokenNet d).run (.one k) = .ok y ∧ (tokenNet d).run (.one k') = .ok y' ∧ Rel Swapped y y' := by
  obtain ⟨t, ht⟩ := tokenNet_sem (d := d) (by simp at hd; rcases hd with rfl | rfl <;> simp [softmaxAttention, identityAttention]) (by simp at hd; rcases hd with rfl | rfl <;> rfl) x1 x2 db same h1 h2
  exact inputs_swap_partial x1 x2 db false true same 0 (-1) 4 3 5 [3] [3] 0 2 (by simp) (by simp) (by simp) rfl (by simp) h1 h2 ht

/-- Every other example, the pixel in the middle, of images of three pixels. -/
def middle : Utils.Idx := .tuple [.slice none none (some 2), .int 1]

lemma middle_sem (x1 x2 : Arr ℝ) (db ds same : Bool) (h1 : x1.shape = [4, 3, 5]) (h2 : x2.shape = [3, 3, 5]) :
    ∃ t, LayerSem (.index middle) (inputState x1 (some x2) db ds true same 0 2 5 4 3 [3] [3]) t ∧ t.L.n1 = 2 ∧ t.L.n2 = 2 ∧ t.L.S1 = [] ∧
      t.info.shape1 = [2, 5] ∧ t.info.channelAxis = 1 ∧ t.L.k12 [1, 0] [] [] = (∑ c ∈ Finset.range 5, x1.get [2, 1, c] * x2.get [0, 1, c]) / 5 := by
  refine ⟨_, ⟨[.slice none none (some 2), .int 1, Utils.full], none, none, some 2, 2, 2, [], [], [2, 5], [2, 5],
    ⟨?_, by simp [inputState, C35.second], rfl, ⟨5, ?_⟩, ⟨5, ?_⟩, rfl, rfl, ?_, ?_,
      show Utils.sliceLen 4 none none (some 2) = .ok 2 by decide +kernel, show Utils.sliceLen 3 none none (some 2) = .ok 2 by decide +kernel, by rfl, by rfl⟩, rfl⟩, rfl, rfl, rfl, rfl, by rfl, ?_⟩
  · show C21.Means x1.shape.length _ _
    rw [h1]
    exact .plain (ndim := 3) [.slice none none (some 2), .int 1] (by simp) (by simp)
  · exact h1
  · exact h2
  · show Utils.npIndexShape x1.shape _ = _
    rw [h1]; rfl
  · show Utils.npIndexShape x2.shape _ = _
    rw [h2]; rfl
  · show C35.meanProd none x1 x2 0 2 5 [2, 0] [1] [1] = _
    simp [C35.meanProd, actIdx, C35.value]

example (x1 x2 : Arr ℝ) (db ds same : Bool) (h1 : x1.shape = [4, 3, 5]) (h2 : x2.shape = [3, 3, 5]) :
    ∃ k k' y y', Inputs.inputsToKernel x1 (some x2) db ds true 0 (some (-1)) none same = .ok k ∧
      Inputs.inputsToKernel x2 (some x1) db ds true 0 (some (-1)) none same = .ok k' ∧
      (Net.layer (.index middle) fun s => [(s.getD 0 0 + 1) / 2, s.getD 2 0]).run (.one k) = .ok y ∧
      (Net.layer (.index middle) fun s => [(s.getD 0 0 + 1) / 2, s.getD 2 0]).run (.one k') = .ok y' ∧ Rel Swapped y y' := by
  obtain ⟨t, ht, -⟩ := middle_sem x1 x2 db ds same h1 h2
  exact inputs_swap_partial x1 x2 db ds true same 0 (-1) 4 3 5 [3] [3] 0 2 (by simp) (by simp) (by simp) rfl (by simp) h1 h2
    (.layer (by simp [Logical.Closed, inputState, C35.second]) ht)

/-- Two `Dense` layers of images, concatenated along the pixels and along the batch. -/
noncomputable def joinNet (axis : ℤ) (out : List (List ℕ) → List ℕ) : Net :=
  .seq (.fanOut 2) <| .seq (.par 2 ![.layer (.dense dense8) fun s => s.set 2 8, .layer (.dense dense8) fun s => s.set 2 8]) (.fanIn (.concat axis) out)

/-- What `dense8` gives for images of three pixels. -/
noncomputable def denseImg (x1 x2 : Arr ℝ) (db ds same : Bool) : State :=
  let s := inputState x1 (some x2) db ds true same 0 2 5 4 3 [3] [3]
  (({ s with L := C52.after dense8 5 s.L, info := { s.info with isGaussian := true, isInput := false }, full := true } : State)).withShapes [4, 3, 8] [3, 3, 8]

lemma denseImg_sem (x1 x2 : Arr ℝ) (db ds same : Bool) (h1 : x1.shape = [4, 3, 5]) (h2 : x2.shape = [3, 3, 5]) :
    NetSem (.layer (.dense dense8) fun s => s.set 2 8) (.one (inputState x1 (some x2) db ds true same 0 2 5 4 3 [3] [3]))
      (.one (denseImg x1 x2 db ds same)) := by
  have hl : LayerSem (.dense dense8) (inputState x1 (some x2) db ds true same 0 2 5 4 3 [3] [3])
      { inputState x1 (some x2) db ds true same 0 2 5 4 3 [3] [3] with
        L := C52.after dense8 5 (inputState x1 (some x2) db ds true same 0 2 5 4 3 [3] [3]).L
        info := { (inputState x1 (some x2) db ds true same 0 2 5 4 3 [3] [3]).info with isGaussian := true, isInput := false }, full := true } := by
    refine ⟨by simp [dense8], by simp [dense8], 5, ?_, ?_, rfl⟩
    · show pyGetNat x1.shape _ = _
      rw [h1]; simp [dense8, pyGetNat]
    · show pyGetNat x2.shape _ = _
      rw [h2]; simp [dense8, pyGetNat]
  have := NetSem.layer (out := fun s => s.set 2 8) (by simp [Logical.Closed, inputState, C35.second]) hl
  have e1 : (inputState x1 (some x2) db ds true same 0 2 5 4 3 [3] [3]).info.shape1 = [4, 3, 5] := h1
  have e2 : (inputState x1 (some x2) db ds true same 0 2 5 4 3 [3] [3]).info.shape2 = [3, 3, 5] := h2
  rw [e1, e2] at this
  exact this

lemma denseImg_closed (x1 x2 : Arr ℝ) (db ds same : Bool) : (denseImg x1 x2 db ds same).L.Closed := by
  simp [Logical.Closed, denseImg, State.withShapes, C52.after, inputState, C35.second]

lemma spatial_sem (x1 x2 : Arr ℝ) (db ds same : Bool) :
    FanSem (.concat 1) (fun _ : Fin 2 => denseImg x1 x2 db ds same)
      { denseImg x1 x2 db ds same with
        L := C40.spatialL 0 true true fun _ : Fin 2 => (denseImg x1 x2 db ds same).L
        info := joined (fun _ : Fin 2 => denseImg x1 x2 db ds same) 1 true } := by
  refine .inr (.inl ⟨⟨fun _ => rfl, fun _ => rfl, fun _ => rfl, fun _ => rfl, fun _ _ => rfl, fun _ => rfl, fun _ => rfl, fun _ => rfl⟩, 1, 0, ?_, ⟨rfl, rfl, rfl⟩,
    ⟨show 0 < 3 by decide, show 2 < 3 by decide, show 0 ≠ 2 by decide⟩, show (restAxes 3 0 2)[0]? = some 1 by decide, fun _ => ⟨rfl, rfl⟩,
    fun _ => ⟨rfl, rfl⟩, fun _ => ⟨rfl, rfl⟩, true, true, fun _ => rfl, fun _ => rfl, rfl⟩)
  show (1 : ℤ) % 3 = 1
  rfl

lemma batch_sem (x1 x2 : Arr ℝ) (db ds same : Bool) :
    FanSem (.concat 0) (fun _ : Fin 2 => denseImg x1 x2 db ds same)
      { denseImg x1 x2 db ds same with
        L := C40.batchL true true fun _ : Fin 2 => (denseImg x1 x2 db ds same).L
        info := joined (fun _ : Fin 2 => denseImg x1 x2 db ds same) 0 true } :=
  .inr (.inr ⟨⟨fun _ => rfl, fun _ => rfl, fun _ => rfl, fun _ => rfl, fun _ _ => rfl, fun _ => rfl, fun _ => rfl, fun _ => rfl⟩, by simp [denseImg, State.withShapes], rfl,
    rfl, show 0 ≠ 2 by decide, fun _ => ⟨rfl, rfl⟩, fun _ => ⟨rfl, rfl⟩, true, true, fun _ => rfl, fun _ => rfl, rfl⟩)

lemma joinNet_sem (x1 x2 : Arr ℝ) (db ds same : Bool) (h1 : x1.shape = [4, 3, 5]) (h2 : x2.shape = [3, 3, 5]) {axis : ℤ} {t : State}
    (ht : FanSem (.concat axis) (fun _ : Fin 2 => denseImg x1 x2 db ds same) t) (out : List (List ℕ) → List ℕ) :
    ∃ w, NetSem (joinNet axis out) (.one (inputState x1 (some x2) db ds true same 0 2 5 4 3 [3] [3])) w := by
  refine ⟨_, .seq .fanOut (.seq (v := .many (List.ofFn fun _ : Fin 2 => .one (denseImg x1 x2 db ds same))) ?_ (.fanIn (fun _ => denseImg_closed _ _ _ _ _) ht))⟩
  refine NetSem.par (u := fun _ => .one (inputState x1 (some x2) db ds true same 0 2 5 4 3 [3] [3])) fun i => ?_
  fin_cases i <;> exact denseImg_sem x1 x2 db ds same h1 h2

/-- Along the pixels (`FanInConcat(1)`) and along the batch (`FanInConcat(0)`). -/
example (x1 x2 : Arr ℝ) (db ds same : Bool) (h1 : x1.shape = [4, 3, 5]) (h2 : x2.shape = [3, 3, 5]) (axis : ℤ) (ha : axis = 0 ∨ axis = 1)
    (out : List (List ℕ) → List ℕ) :
    ∃ k k' y y', Inputs.inputsToKernel x1 (some x2) db ds true 0 (some (-1)) none same = .ok k ∧
      Inputs.inputsToKernel x2 (some x1) db ds true 0 (some (-1)) none same = .ok k' ∧
      (joinNet axis out).run (.one k) = .ok y ∧ (joinNet axis out).run (.one k') = .ok y' ∧ Rel Swapped y y' := by
  obtain ⟨w, hw⟩ : ∃ w, NetSem (joinNet axis out) (.one (inputState x1 (some x2) db ds true same 0 2 5 4 3 [3] [3])) w := by
    rcases ha with rfl | rfl
    · exact joinNet_sem x1 x2 db ds same h1 h2 (batch_sem x1 x2 db ds same) out
    · exact joinNet_sem x1 x2 db ds same h1 h2 (spatial_sem x1 x2 db ds same) out
  exact inputs_swap_partial x1 x2 db ds true same 0 (-1) 4 3 5 [3] [3] 0 2 (by simp) (by simp) (by simp) rfl (by simp) h1 h2 hw

end NT.C80
