import Verif.Tac
import Verif.Spec.Layouts
import Verif.Props.C84

/-!
# C85: `diagonal_batch` changes what is stored, not the values
-/

namespace NT.C85
open NT NT.Network NT.Spec NT.Semantics NT.Arr NT.Kernel

lemma layer_batch {l : Layer} {s t : State} (db : Bool) (hl : LayerSem l s t) : LayerSem l (s.withBatch db) (t.withBatch db) := by
  cases l with
  | dense d =>
    obtain ⟨h1, h0, C, h2, h3, rfl⟩ := hl
    exact ⟨h1, h0, C, h2, h3, rfl⟩
  | conv d =>
    obtain ⟨h1, h0, h2, h3, h4, h5, h6, h7, rfl⟩ := hl
    exact ⟨h1, h0, h2, h3, h4, h5, h6, h7, rfl⟩
  | convTranspose d =>
    obtain ⟨h1, h0, h2, h3, h4, h5, h6, h7, h8, rfl⟩ := hl
    exact ⟨h1, h0, h2, h3, h4, h5, h6, h7, h8, rfl⟩
  | pool d =>
    obtain ⟨h1, h2, h3, h4, rfl⟩ := hl
    exact ⟨h1, h2, h3, h4, rfl⟩
  | globalPool d =>
    obtain ⟨h1, h2, rfl⟩ := hl
    exact ⟨h1, h2, rfl⟩
  | flatten f =>
    obtain ⟨bo, co, h1, h2, h3, rfl⟩ := hl
    exact ⟨bo, co, h1, h2, h3, rfl⟩
  | dropout d =>
    obtain ⟨h0, h1, ⟨hm, rfl⟩ | ⟨hm, h2, h3, h4, rfl⟩⟩ := hl
    · exact ⟨h0, h1, .inl ⟨hm, rfl⟩⟩
    · exact ⟨h0, h1, .inr ⟨hm, h2, h3, h4, rfl⟩⟩
  | layerNorm axis eps ba ca =>
    obtain ⟨h1, h2, h0, h3, h9, h10, b, c, ax, rfl, h4, h5, h6, h7, h8, rfl⟩ := hl
    exact ⟨h1, h2, h0, h3, h9, h10, b, c, ax, rfl, h4, h5, h6, h7, h8, rfl⟩
  | act f =>
    obtain ⟨h1, C, φ, dφ, N, T, h2, h3, rfl⟩ := hl
    exact ⟨h1, C, φ, dφ, N, T, h2, h3, rfl⟩
  | dotGeneral other isLhs inputC otherC inputB otherB =>
    obtain ⟨h1, h2, h3, h4, h5, h6, h7, h8, h9, h10, rfl⟩ := hl
    exact ⟨h1, h2, h3, h4, h5, h6, h7, h8, h9, h10, rfl⟩
  | index i =>
    obtain ⟨l, a, b, st, n1', n2', S1', S2', out1, out2, h, rfl⟩ := hl
    exact ⟨l, a, b, st, n1', n2', S1', S2', out1, out2, ⟨h.means, h.axes, h.rank, h.shape1, h.shape2, h.batch, h.channel, h.out1, h.out2, h.n1, h.n2, h.S1, h.S2⟩, rfl⟩
  | resize d =>
    obtain ⟨B, A, oS, h, rfl⟩ := hl
    exact ⟨B, A, oS, ⟨h.args, h.str, h.method, h.axis, h.rank1, h.rank2, h.shape1, h.shape2, h.diagonal, h.reversed⟩, rfl⟩
  | attention d =>
    obtain ⟨c, h, rfl⟩ := hl
    exact ⟨c, ⟨h.scaling, h.pairs, h.axes, h.rank, h.shape1, h.shape2, h.same, h.psd⟩, rfl⟩
  | identity =>
    obtain rfl := hl
    rfl

lemma sameLayout_batch {m : ℕ} {s : Fin (m + 1) → State} (db : Bool) (h : SameLayout s) : SameLayout fun r => (s r).withBatch db where
  diagonalBatch _ := rfl
  diagonalSpatial := h.diagonalSpatial
  batchAxis := h.batchAxis
  channelAxis := h.channelAxis
  notReversed := h.notReversed
  sizes := h.sizes
  same := h.same
  full := h.full

lemma alike_batch {m : ℕ} {s : Fin (m + 1) → State} (db : Bool) (h : Alike s) : Alike fun r => (s r).withBatch db :=
  ⟨fun _ => rfl, h.diagonalSpatial, h.batchAxis, h.channelAxis, h.notReversed, h.same, h.full, h.gaussian⟩

lemma majority_batch {m : ℕ} (db : Bool) (s : Fin (m + 1) → State) : majority (fun r => (s r).withBatch db) = majority s := by
  unfold majority
  rw [countP_ofFn (f := fun r => (s r).withBatch db) (p := fun x => x.info.isReversed) (g := s) (q := fun x => x.info.isReversed) fun r => rfl]

lemma fan_batch {f : Fan} {m : ℕ} {s : Fin (m + 1) → State} {t : State} (db : Bool) (hf : FanSem f s t) :
    FanSem f (fun r => (s r).withBatch db) (t.withBatch db) := by
  cases f with
  | sum =>
    obtain ⟨h1, h2, h3, c2, cn, h4, h5, rfl⟩ := hf
    refine ⟨sameLayout_batch db h1, h2, h3, c2, cn, h4, h5, state_ext rfl ?_ rfl rfl⟩
    rw [majority_batch]
    rfl
  | prod =>
    obtain ⟨h1, h3, c2, cn, h4, h5, rfl⟩ := hf
    refine ⟨sameLayout_batch db h1, h3, c2, cn, h4, h5, state_ext rfl ?_ rfl rfl⟩
    rw [majority_batch]
    rfl
  | concat axis =>
    rcases hf with hf | hf | hf
    rotate_left
    · obtain ⟨h1, ax, c, g1, g2, g3, g4, g5, g6, g7, c2, cn, h4, h5, rfl⟩ := hf
      refine Or.inr (Or.inl ⟨alike_batch db h1, ax, c, g1, g2, g3, g4, g5, g6, g7, c2, cn, h4, h5, state_ext rfl ?_ rfl rfl⟩)
      unfold joined
      rw [majority_batch]
      rfl
    · obtain ⟨h1, g1, g2, g3, g4, g5, g6, c2, cn, h4, h5, rfl⟩ := hf
      refine Or.inr (Or.inr ⟨alike_batch db h1, g1, g2, g3, g4, g5, g6, c2, cn, h4, h5, state_ext rfl ?_ rfl rfl⟩)
      unfold joined
      rw [majority_batch]
      rfl
    obtain ⟨h1, h2, h0, h3, h6, w, h7, h8, h9, c2, cn, h4, h5, rfl⟩ := hf
    refine Or.inl ⟨sameLayout_batch db h1, h2, h0, h3, h6, w, h7, h8, h9, c2, cn, h4, h5, state_ext rfl ?_ rfl rfl⟩
    rw [majority_batch]
    rfl

lemma net_batch {net : Net} {v w : Vals State} (db : Bool) (h : NetSem net v w) : ∀ {v' : Vals State}, Rel (fun s t => t = s.withBatch db) v v' →
    ∃ w', NetSem net v' w' ∧ Rel (fun s t => t = s.withBatch db) w w' := by
  induction h with
  | @layer l out s t hc hl =>
    intro x hx
    cases hx with
    | one _ s' hs =>
      subst hs
      exact ⟨_, .layer hc (layer_batch db hl), .one _ _ rfl⟩
  | fanOut =>
    intro x hx
    exact ⟨_, .fanOut, rel_replicate hx _⟩
  | @fanIn f out m s t hc hf =>
    intro x hx
    obtain ⟨u', rfl, hu⟩ := rel_ofFn hx
    have : u' = fun r => .one ((s r).withBatch db) := by
      funext r
      have := hu r
      generalize u' r = z at this
      cases this with
      | one _ b h => rw [h]
    subst this
    exact ⟨_, .fanIn hc (fan_batch db hf), .one _ _ rfl⟩
  | seq _ _ ih1 ih2 =>
    intro x hx
    obtain ⟨y, h1, h2⟩ := ih1 hx
    obtain ⟨z, h3, h4⟩ := ih2 h2
    exact ⟨z, .seq h1 h3, h4⟩
  | @par n branches u v h ih =>
    intro x hx
    obtain ⟨u', rfl, hu⟩ := rel_ofFn hx
    choose y h1 h2 using fun i => ih i (hu i)
    exact ⟨_, .par h1, rel_many h2⟩

lemma layer_db {l : Layer} {s t : State} (hl : LayerSem l s t) : t.info.diagonalBatch = s.info.diagonalBatch := by
  cases l with
  | dense d => obtain ⟨-, -, C, -, -, rfl⟩ := hl; rfl
  | conv d => obtain ⟨-, -, -, -, -, -, -, -, rfl⟩ := hl; rfl
  | convTranspose d => obtain ⟨-, -, -, -, -, -, -, -, -, rfl⟩ := hl; rfl
  | pool d => obtain ⟨-, -, -, -, rfl⟩ := hl; rfl
  | globalPool d => obtain ⟨-, -, rfl⟩ := hl; rfl
  | flatten f => obtain ⟨bo, co, -, -, -, rfl⟩ := hl; rfl
  | dropout d => obtain ⟨-, -, ⟨-, rfl⟩ | ⟨-, -, -, -, rfl⟩⟩ := hl <;> rfl
  | layerNorm axis eps ba ca => obtain ⟨-, -, -, -, -, -, b, c, ax, -, -, -, -, -, -, rfl⟩ := hl; rfl
  | act f => obtain ⟨-, C, φ, dφ, N, T, -, -, rfl⟩ := hl; rfl
  | dotGeneral other isLhs inputC otherC inputB otherB => obtain ⟨-, -, -, -, -, -, -, -, -, -, rfl⟩ := hl; rfl
  | index i => obtain ⟨l, a, b, st, n1', n2', S1', S2', out1, out2, h, rfl⟩ := hl; rfl
  | resize d => obtain ⟨B, A, oS, -, rfl⟩ := hl; rfl
  | attention d => obtain ⟨c, -, rfl⟩ := hl; rfl
  | identity => obtain rfl := hl; rfl

lemma fan_db {f : Fan} {m : ℕ} {s : Fin (m + 1) → State} {t : State} (hf : FanSem f s t) : t.info.diagonalBatch = (s 0).info.diagonalBatch := by
  cases f with
  | sum => obtain ⟨-, -, -, c2, cn, -, -, rfl⟩ := hf; rfl
  | prod => obtain ⟨-, -, c2, cn, -, -, rfl⟩ := hf; rfl
  | concat axis =>
    rcases hf with hf | hf | hf
    · obtain ⟨-, -, -, -, -, w, -, -, -, c2, cn, -, -, rfl⟩ := hf; rfl
    · obtain ⟨-, ax, c, -, -, -, -, -, -, -, c2, cn, -, -, rfl⟩ := hf; rfl
    · obtain ⟨-, -, -, -, -, -, -, c2, cn, -, -, rfl⟩ := hf; rfl

/-- The flag is kept. -/
lemma net_db {net : Net} {v w : Vals State} (db : Bool) (h : NetSem net v w) (hv : Every (fun s => s.info.diagonalBatch = db) v) :
    Every (fun s => s.info.diagonalBatch = db) w :=
  net_every (P := fun s => s.info.diagonalBatch = db) (fun _ _ _ h => h) (fun _ hn hl => (layer_db hl).trans hn)
    (fun _ hn hf => (fan_db hf).trans (hn 0)) h hv

lemma batchDiagonal {a a' : Arr ℝ} {n : ℕ} {S : List ℕ} {ds rev : Bool} {F : List ℕ → List ℕ → List ℕ → ℝ}
    (h : Holds a (batchShape false n) S S ds rev fun b => F (dbl b)) (h' : Holds a' (batchShape true n) S S ds rev fun b => F (dbl b)) : BatchDiagonal a a' := by
  refine ⟨n, _, h.shape, h'.shape, fun i t hi ht => ?_⟩
  obtain ⟨p, q, rfl, hp, hq, hpq⟩ := C82.holds_split h ht
  have e := h.get [i, i] p q (by simp [InRange, batchShape, hi]) hp hq hpq
  have e' := h'.get [i] p q (by simp [InRange, batchShape, hi]) hp hq hpq
  exact e'.trans e.symm

lemma same_of {s : State} {k k' : Kernel ℝ} (hdb : s.info.diagonalBatch = false) (h : Describes s k) (h' : Describes (s.withBatch true) k') :
    SameUpToBatch k k' := by
  have e : k'.static = { k.static with diagonalBatch := true } := by
    rw [h'.static, h.static]
    rfl
  have ds : k'.diagonalSpatial = k.diagonalSpatial := congrArg Static.diagonalSpatial e
  have rv : k'.isReversed = k.isReversed := congrArg Static.isReversed e
  have db' : k'.diagonalBatch = true := congrArg Static.diagonalBatch e
  have db : k.diagonalBatch = false := (congrArg Static.diagonalBatch h.static).trans hdb
  have s1 := h.stores
  have s2 := h'.stores
  have c1 := s1.cov1
  have c2 := s1.cov2
  have c2' := s2.cov2
  have c1' := s2.cov1
  have nn := s2.nngp
  have t1 := s1.ntk
  have t2 := s2.ntk
  rw [ds, rv] at nn c1' c2' t2
  rw [db'] at c1' c2'
  rw [db] at c1 c2
  simp only [State.withBatch] at nn c1' c2' t2
  refine ⟨nn.eqv s1.nngp, ?_, batchDiagonal c1 c1', ?_, db, e, ?_, by rw [h.mask1, h'.mask1], by rw [h.mask2, h'.mask2]⟩
  · cases e1 : s.L.ntk with
    | none =>
      rw [e1] at t1 t2
      cases f1 : k.ntk <;> cases f2 : k'.ntk <;> rw [f1] at t1 <;> rw [f2] at t2 <;> simp_all [OptRel]
    | some F =>
      rw [e1] at t1 t2
      cases f1 : k.ntk with
      | none => rw [f1] at t1; simp [OptRel] at t1
      | some a =>
        cases f2 : k'.ntk with
        | none => rw [f2] at t2; simp [OptRel] at t2
        | some a' =>
          rw [f1] at t1
          rw [f2] at t2
          simp only [OptRel] at t1 t2 ⊢
          have hz : ∀ {b : Arr ℝ}, b.shape = [] → b.get [] = 0 → ∀ i, InRange i b.shape → b.get i = 0 := by
            intro b hb h0 i hi
            rw [hb] at hi
            cases hi
            exact h0
          rcases t1 with ⟨g1, g2⟩ | g1
          · have z := h.zero a f1 g1
            rcases t2 with ⟨g3, g4⟩ | g3
            · exact .inl ⟨.inl g1, hz g1 z, hz g3 (h'.zero a' f2 g3)⟩
            · exact .inl ⟨.inl g1, hz g1 z, C80.holds_zero g3 fun b p q => by rw [g2, z]⟩
          · rcases t2 with ⟨g3, g4⟩ | g3
            · have z := h'.zero a' f2 g3
              exact .inl ⟨.inr g3, C80.holds_zero g1 fun b p q => by rw [g4, z], hz g3 z⟩
            · exact .inr (g3.eqv g1)
  · cases e1 : s.L.k22 with
    | none =>
      rw [e1] at c2 c2'
      cases f1 : k.cov2 <;> cases f2 : k'.cov2 <;> rw [f1] at c2 <;> rw [f2] at c2' <;> simp_all [OptRel]
    | some F =>
      rw [e1] at c2 c2'
      cases f1 : k.cov2 <;> cases f2 : k'.cov2 <;> rw [f1] at c2 <;> rw [f2] at c2' <;> simp only [OptRel] at c2 c2' ⊢
      exact batchDiagonal c2 c2'
  · refine ⟨by rw [h.same.1, h'.same.1], fun i hi => ?_⟩
    rw [h'.same.1] at hi
    cases hi
    rw [h.same.2, h'.same.2]
    rfl

lemma rel_trans3 {w w' : Vals State} (hw : Rel (fun s t => t = s.withBatch true) w w') : ∀ {y y' : Vals (Kernel ℝ)},
    Rel (fun k s => Describes s k ∧ s.info.diagonalBatch = false) y w → Rel (fun k s => Describes s k) y' w' → Rel SameUpToBatch y y' := by
  induction hw with
  | one s t h =>
    intro y y' h1 h2
    cases h1 with
    | one k _ h1 =>
      cases h2 with
      | one k' _ h2 => exact .one _ _ (same_of h1.2 h1.1 (h ▸ h2))
  | many l m hl h ih =>
    intro y y' h1 h2
    cases h1 with
    | many a _ ha h1 =>
      cases h2 with
      | many b _ hb h2 =>
        refine .many _ _ (by rw [ha, hl, hb]) fun i p q => ?_
        exact ih i (by rw [← ha]; exact p) (by rw [← hb]; exact q) (h1 i p (by rw [← ha]; exact p)) (h2 i q (by rw [← hb]; exact q))

/-- A network computes the same with `diagonal_batch=False` and `diagonal_batch=True`: both calls succeed, `nngp` and `ntk` are equal, and the covariances of
each input stored by the second are the diagonal of those stored by the first.  Missing for the full property: as in C80. -/
theorem diagonal_batch_partial (x1 : Arr ℝ) (x2 : Option (Arr ℝ)) (ds ntk same : Bool) (ba ca : ℤ) (n1 n2 C : ℕ) (S1 S2 : List ℕ) (B A : ℕ)
    (hB : (B : ℤ) = ba % (S1.length + 2)) (hA : (A : ℤ) = ca % (S1.length + 2)) (hne : B ≠ A) (hS : S1.length = S2.length)
    (hds : ds = true → S1 = S2) (h1 : x1.shape = actIdx B A n1 C S1) (h2 : (x2.getD x1).shape = actIdx B A n2 C S2) {net : Net} {w : Vals State}
    (h : NetSem net (.one (C80.inputState x1 x2 false ds ntk same B A C n1 n2 S1 S2)) w) :
    ∃ k k' y y', Inputs.inputsToKernel x1 x2 false ds ntk ba (some ca) none same = .ok k ∧
      Inputs.inputsToKernel x1 x2 true ds ntk ba (some ca) none same = .ok k' ∧
      net.run (.one k) = .ok y ∧ net.run (.one k') = .ok y' ∧ Rel SameUpToBatch y y' := by
  obtain ⟨k, e1, f1, g1⟩ := C35.second_moment none false ds ntk same x1 x2 ba ca n1 n2 C S1 S2 B A hB hA hne hS hds h1 h2
  obtain ⟨k', e2, f2, g2⟩ := C35.second_moment none true ds ntk same x1 x2 ba ca n1 n2 C S1 S2 B A hB hA hne hS hds h1 h2
  obtain ⟨w', h3, h4⟩ := net_batch true h (v' := .one (C80.inputState x1 x2 true ds ntk same B A C n1 n2 S1 S2)) (.one _ _ rfl)
  obtain ⟨y, r1, d1⟩ := net_sound h (.one _ _ (C80.input_describes f1 g1))
  obtain ⟨y', r2, d2⟩ := net_sound h3 (.one _ _ (C80.input_describes f2 g2))
  exact ⟨k, k', y, y', e1, e2, r1, r2, rel_trans3 h4 (rel_every d1 (net_db false h (.one _ rfl))) d2⟩

example (x1 x2 : Arr ℝ) (ds same : Bool) (h1 : x1.shape = [2, 3]) (h2 : x2.shape = [4, 3]) :
    ∃ k k' y y', Inputs.inputsToKernel x1 (some x2) false ds true 0 (some (-1)) none same = .ok k ∧
      Inputs.inputsToKernel x1 (some x2) true ds true 0 (some (-1)) none same = .ok k' ∧
      C80.resnet.run (.one k) = .ok y ∧ C80.resnet.run (.one k') = .ok y' ∧ Rel SameUpToBatch y y' := by
  obtain ⟨t, ht, -⟩ := C80.resnet_sem (C80.input_good x1 x2 false ds true same 2 4 3 h1 h2) rfl
  exact diagonal_batch_partial x1 (some x2) ds true same 0 (-1) 2 4 3 [] [] 0 1 (by simp) (by simp) (by simp) rfl (by simp) h1 h2 ht

end NT.C85
