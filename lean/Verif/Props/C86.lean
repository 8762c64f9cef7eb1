import Verif.Tac
import Verif.Lemmas.ConvNet
import Verif.Spec.Layouts
import Verif.Props.C85

/-!
# C86: networks in the diagonal layout
-/

namespace NT.C86
open NT NT.Network NT.Spec NT.Semantics NT.Arr NT.Kernel

lemma layer_diag {l : Layer} {s t : State} (hloc : l.Local) (hl : LayerSem l s t) : LayerSem l s.diagonal t.diagonal := by
  cases l with
  | dense d =>
    obtain ⟨h1, h0, C, h2, h3, rfl⟩ := hl
    exact ⟨h1, h0, C, h2, h3, rfl⟩
  | conv d =>
    obtain ⟨h1, h0, h2, h3, h4, h5, h6, h7, rfl⟩ := hl
    exact ⟨h1, h0, h2, h3, h4, fun _ => rfl, fun _ h => by simp [State.diagonal] at h, h7, state_ext rfl (by simp [State.diagonal, convRev]) rfl rfl⟩
  | convTranspose d =>
    obtain ⟨h1, h0, h2, h3, h4, h5, h6, h7, h8, rfl⟩ := hl
    exact ⟨h1, h0, h2, h3, h4, h5, h6, fun _ => rfl, h8, state_ext rfl (by simp [State.diagonal]) rfl rfl⟩
  | pool d => exact hloc.elim
  | globalPool d => exact hloc.elim
  | flatten f => exact hloc.elim
  | dropout d =>
    obtain ⟨h0, h1, ⟨hm, rfl⟩ | ⟨hm, h2, h3, h4, rfl⟩⟩ := hl
    · exact ⟨h0, h1, .inl ⟨hm, rfl⟩⟩
    · exact ⟨h0, h1, .inr ⟨hm, h2, h3, h4, rfl⟩⟩
  | layerNorm axis eps ba ca =>
    obtain ⟨h1, h2, h0, h3, h9, h10, b, c, ax, rfl, h4, h5, h6, h7, h8, rfl⟩ := hl
    exact ⟨h1, h2, h0, h3, h9, h10, b, c, ax, rfl, h4, h5, h6, h7, h8, rfl⟩
  | act f =>
    obtain ⟨h1, C, φ, dφ, N, T, h2, h3, rfl⟩ := hl
    exact ⟨h1, C, φ, dφ, N, T, h2, h3, rfl⟩
  | dotGeneral other isLhs inputC otherC inputB otherB => exact hloc.elim
  | index i =>
    obtain ⟨l, a, b, st, n1', n2', S1', S2', out1, out2, h, rfl⟩ := hl
    exact ⟨l, a, b, st, n1', n2', S1', S2', out1, out2, ⟨h.means, h.axes, h.rank, h.shape1, h.shape2, h.batch, h.channel, h.out1, h.out2, h.n1, h.n2, h.S1, h.S2⟩, rfl⟩
  | resize d => exact hloc.elim
  | attention d => exact hloc.elim
  | identity =>
    obtain rfl := hl
    rfl

lemma sameLayout_diag {m : ℕ} {s : Fin (m + 1) → State} (h : SameLayout s) : SameLayout fun r => (s r).diagonal where
  diagonalBatch := h.diagonalBatch
  diagonalSpatial _ := rfl
  batchAxis := h.batchAxis
  channelAxis := h.channelAxis
  notReversed _ _ := rfl
  sizes := h.sizes
  same := h.same
  full := h.full

lemma alike_diag {m : ℕ} {s : Fin (m + 1) → State} (h : Alike s) : Alike fun r => (s r).diagonal :=
  ⟨h.diagonalBatch, fun _ => rfl, h.batchAxis, h.channelAxis, fun _ _ => rfl, h.same, h.full, h.gaussian⟩

lemma majority_diag {m : ℕ} (s : Fin (m + 1) → State) : majority (fun r => (s r).diagonal) = false := by
  unfold majority
  have : (List.ofFn fun r => (s r).diagonal).countP (fun x => x.info.isReversed) = 0 := by
    rw [List.countP_eq_zero]
    intro x hx
    obtain ⟨r, rfl⟩ := (List.mem_ofFn' _ _).1 hx
    simp [State.diagonal]
  rw [this]
  simp

lemma fan_diag {f : Fan} {m : ℕ} {s : Fin (m + 1) → State} {t : State} (hf : FanSem f s t) : FanSem f (fun r => (s r).diagonal) t.diagonal := by
  cases f with
  | sum =>
    obtain ⟨h1, h2, h3, c2, cn, h4, h5, rfl⟩ := hf
    refine ⟨sameLayout_diag h1, h2, h3, c2, cn, h4, h5, state_ext rfl ?_ rfl rfl⟩
    rw [majority_diag]
    rfl
  | prod =>
    obtain ⟨h1, h3, c2, cn, h4, h5, rfl⟩ := hf
    refine ⟨sameLayout_diag h1, h3, c2, cn, h4, h5, state_ext rfl ?_ rfl rfl⟩
    rw [majority_diag]
    rfl
  | concat axis =>
    rcases hf with hf | hf | hf
    rotate_left
    · obtain ⟨h1, ax, c, g1, g2, g3, g4, g5, g6, g7, c2, cn, h4, h5, rfl⟩ := hf
      refine Or.inr (Or.inl ⟨alike_diag h1, ax, c, g1, g2, g3, g4, g5, g6, g7, c2, cn, h4, h5, state_ext rfl ?_ rfl rfl⟩)
      unfold joined
      rw [majority_diag]
      rfl
    · obtain ⟨h1, g1, g2, g3, g4, g5, g6, c2, cn, h4, h5, rfl⟩ := hf
      refine Or.inr (Or.inr ⟨alike_diag h1, g1, g2, g3, g4, g5, g6, c2, cn, h4, h5, state_ext rfl ?_ rfl rfl⟩)
      unfold joined
      rw [majority_diag]
      rfl
    obtain ⟨h1, h2, h0, h3, h6, w, h7, h8, h9, c2, cn, h4, h5, rfl⟩ := hf
    refine Or.inl ⟨sameLayout_diag h1, h2, h0, h3, h6, w, h7, h8, h9, c2, cn, h4, h5, state_ext rfl ?_ rfl rfl⟩
    rw [majority_diag]
    rfl

lemma net_diag {net : Net} {v w : Vals State} (h : NetSem net v w) : ∀ {v' : Vals State}, Local net → Rel (fun s t => t = s.diagonal) v v' →
    ∃ w', NetSem net v' w' ∧ Rel (fun s t => t = s.diagonal) w w' := by
  induction h with
  | @layer l out s t hc hl =>
    intro x hloc hx
    cases hloc with
    | layer hloc =>
      cases hx with
      | one _ s' hs =>
        subst hs
        exact ⟨_, .layer hc (layer_diag hloc hl), .one _ _ rfl⟩
  | fanOut =>
    intro x _ hx
    exact ⟨_, .fanOut, rel_replicate hx _⟩
  | @fanIn f out m s t hc hf =>
    intro x _ hx
    obtain ⟨u', rfl, hu⟩ := rel_ofFn hx
    have : u' = fun r => .one (s r).diagonal := by
      funext r
      have := hu r
      generalize u' r = z at this
      cases this with
      | one _ b h => rw [h]
    subst this
    exact ⟨_, .fanIn hc (fan_diag hf), .one _ _ rfl⟩
  | seq _ _ ih1 ih2 =>
    intro x hloc hx
    cases hloc with
    | seq l1 l2 =>
      obtain ⟨y, h1, h2⟩ := ih1 l1 hx
      obtain ⟨z, h3, h4⟩ := ih2 l2 h2
      exact ⟨z, .seq h1 h3, h4⟩
  | @par n branches u v h ih =>
    intro x hloc hx
    cases hloc with
    | par hloc =>
      obtain ⟨u', rfl, hu⟩ := rel_ofFn hx
      choose y h1 h2 using fun i => ih i (hloc i) (hu i)
      exact ⟨_, .par h1, rel_many h2⟩

/-- The full layout with positions in either order, or the diagonal one. -/
lemma layer_ds {l : Layer} {s t : State} (hn : s.info.diagonalSpatial = false) (hl : LayerSem l s t) : t.info.diagonalSpatial = false := by
  cases l with
  | dense d => obtain ⟨-, -, C, -, -, rfl⟩ := hl; exact hn
  | conv d => obtain ⟨-, -, -, -, -, -, -, -, rfl⟩ := hl; exact hn
  | convTranspose d => obtain ⟨-, -, -, -, -, -, -, -, -, rfl⟩ := hl; exact hn
  | pool d => obtain ⟨-, -, -, -, rfl⟩ := hl; exact hn
  | globalPool d => obtain ⟨-, -, rfl⟩ := hl; exact hn
  | flatten f => obtain ⟨bo, co, -, -, -, rfl⟩ := hl; rfl
  | dropout d => obtain ⟨-, -, ⟨-, rfl⟩ | ⟨-, -, -, -, rfl⟩⟩ := hl <;> exact hn
  | layerNorm axis eps ba ca => obtain ⟨-, -, -, -, -, -, b, c, ax, -, -, -, -, -, -, rfl⟩ := hl; exact hn
  | act f => obtain ⟨-, C, φ, dφ, N, T, -, -, rfl⟩ := hl; exact hn
  | dotGeneral other isLhs inputC otherC inputB otherB => obtain ⟨-, -, -, -, -, -, -, -, -, -, rfl⟩ := hl; exact hn
  | index i => obtain ⟨l, a, b, st, n1', n2', S1', S2', out1, out2, h, rfl⟩ := hl; exact hn
  | resize d => obtain ⟨B, A, oS, -, rfl⟩ := hl; exact hn
  | attention d => obtain ⟨c, -, rfl⟩ := hl; exact hn
  | identity => obtain rfl := hl; exact hn

lemma fan_ds {f : Fan} {m : ℕ} {s : Fin (m + 1) → State} {t : State} (hf : FanSem f s t) : t.info.diagonalSpatial = (s 0).info.diagonalSpatial := by
  cases f with
  | sum => obtain ⟨-, -, -, c2, cn, -, -, rfl⟩ := hf; rfl
  | prod => obtain ⟨-, -, c2, cn, -, -, rfl⟩ := hf; rfl
  | concat axis =>
    rcases hf with hf | hf | hf
    · obtain ⟨-, -, -, -, -, w, -, -, -, c2, cn, -, -, rfl⟩ := hf; rfl
    · obtain ⟨-, ax, c, -, -, -, -, -, -, -, c2, cn, -, -, rfl⟩ := hf; rfl
    · obtain ⟨-, -, -, -, -, -, -, c2, cn, -, -, rfl⟩ := hf; rfl

lemma net_ds {net : Net} {v w : Vals State} (h : NetSem net v w) (hv : Every (fun s => s.info.diagonalSpatial = false) v) :
    Every (fun s => s.info.diagonalSpatial = false) w :=
  net_every (P := fun s => s.info.diagonalSpatial = false) (fun _ _ _ h => h) (fun _ hn hl => layer_ds hn hl)
    (fun _ hn hf => (fan_ds hf).trans (hn 0)) h hv

lemma spatialDiagonal {a a' : Arr ℝ} {B S T : List ℕ} {rev : Bool} {F : List ℕ → List ℕ → List ℕ → ℝ}
    (h : Holds a B S T false rev F) (h' : Holds a' B S T true false F) : SpatialDiagonal rev a a' := by
  obtain rfl := h'.square rfl
  exact ⟨B, S, h.shape, h'.shape, fun b p hb hp => (h'.get b p p hb hp hp fun _ => rfl).trans (h.get b p p hb hp hp fun _ => rfl).symm⟩

lemma isZero_scalar {b : Arr ℝ} (hb : b.shape = []) (h0 : b.get [] = 0) : IsZero b := by
  intro i hi
  rw [hb] at hi
  cases hi
  exact h0

lemma same_of {s : State} {k k' : Kernel ℝ} (hds : s.info.diagonalSpatial = false) (h : Describes s k) (h' : Describes s.diagonal k') :
    SameUpToSpatial k k' := by
  have e : k'.static = { k.static with diagonalSpatial := true, isReversed := false } := by
    rw [h'.static, h.static]
    rfl
  have ds' : k'.diagonalSpatial = true := congrArg Static.diagonalSpatial e
  have rv' : k'.isReversed = false := congrArg Static.isReversed e
  have db : k'.diagonalBatch = k.diagonalBatch := congrArg Static.diagonalBatch e
  have ds : k.diagonalSpatial = false := (congrArg Static.diagonalSpatial h.static).trans hds
  have s1 := h.stores
  have s2 := h'.stores
  have nn := s1.nngp
  have c1 := s1.cov1
  have c2 := s1.cov2
  have t1 := s1.ntk
  have nn' := s2.nngp
  have c1' := s2.cov1
  have c2' := s2.cov2
  have t2 := s2.ntk
  rw [ds] at nn c1 c2 t1
  rw [ds', rv'] at nn' c1' c2' t2
  rw [db] at c1' c2'
  simp only [State.diagonal] at nn' c1' c2' t2
  refine ⟨spatialDiagonal nn nn', ?_, spatialDiagonal c1 c1', ?_, ds, e, ?_, by rw [h.mask1, h'.mask1], by rw [h.mask2, h'.mask2]⟩
  · cases e1 : s.L.ntk with
    | none =>
      rw [e1] at t1 t2
      cases f1 : k.ntk <;> cases f2 : k'.ntk <;> rw [f1] at t1 <;> rw [f2] at t2 <;> simp_all [OptRel]
    | some F =>
      rw [e1] at t1 t2
      cases f1 : k.ntk with
      | none => rw [f1] at t1; simp [OptRel] at t1
      | some a =>
        cases f2 : k'.ntk with
        | none => rw [f2] at t2; simp [OptRel] at t2
        | some a' =>
          rw [f1] at t1
          rw [f2] at t2
          simp only [OptRel] at t1 t2 ⊢
          rcases t1 with ⟨g1, g2⟩ | g1
          · have z := h.zero a f1 g1
            refine .inl ⟨.inl g1, isZero_scalar g1 z, ?_⟩
            rcases t2 with ⟨g3, g4⟩ | g3
            · exact isZero_scalar g3 (h'.zero a' f2 g3)
            · exact C80.holds_zero g3 fun b p q => by rw [g2, z]
          · rcases t2 with ⟨g3, g4⟩ | g3
            · have z := h'.zero a' f2 g3
              exact .inl ⟨.inr g3, C80.holds_zero g1 fun b p q => by rw [g4, z], isZero_scalar g3 z⟩
            · exact .inr (spatialDiagonal g1 g3)
  · cases e1 : s.L.k22 with
    | none =>
      rw [e1] at c2 c2'
      cases f1 : k.cov2 <;> cases f2 : k'.cov2 <;> rw [f1] at c2 <;> rw [f2] at c2' <;> simp_all [OptRel]
    | some F =>
      rw [e1] at c2 c2'
      cases f1 : k.cov2 <;> cases f2 : k'.cov2 <;> rw [f1] at c2 <;> rw [f2] at c2' <;> simp only [OptRel] at c2 c2' ⊢
      exact spatialDiagonal c2 c2'
  · refine ⟨by rw [h.same.1, h'.same.1], fun i hi => ?_⟩
    rw [h'.same.1] at hi
    cases hi
    rw [h.same.2, h'.same.2]
    rfl

lemma same_content {s : State} {k k' : Kernel ℝ} (h : Describes s k) (h' : Describes s k') : SameContent k k' := by
  have e : k'.static = k.static := by rw [h'.static, h.static]
  have ds : k'.diagonalSpatial = k.diagonalSpatial := congrArg Static.diagonalSpatial e
  have rv : k'.isReversed = k.isReversed := congrArg Static.isReversed e
  have db : k'.diagonalBatch = k.diagonalBatch := congrArg Static.diagonalBatch e
  have s1 := h.stores
  have s2 := h'.stores
  have c2 := s1.cov2
  have t1 := s1.ntk
  have nn' := s2.nngp
  have c1' := s2.cov1
  have c2' := s2.cov2
  have t2 := s2.ntk
  rw [ds, rv] at nn' c1' c2' t2
  rw [db] at c1' c2'
  refine ⟨nn'.eqv s1.nngp, ?_, c1'.eqv s1.cov1, ?_, e, ?_, by rw [h.mask1, h'.mask1], by rw [h.mask2, h'.mask2]⟩
  · cases e1 : s.L.ntk with
    | none =>
      rw [e1] at t1 t2
      cases f1 : k.ntk <;> cases f2 : k'.ntk <;> rw [f1] at t1 <;> rw [f2] at t2 <;> simp_all [OptRel]
    | some F =>
      rw [e1] at t1 t2
      cases f1 : k.ntk with
      | none => rw [f1] at t1; simp [OptRel] at t1
      | some a =>
        cases f2 : k'.ntk with
        | none => rw [f2] at t2; simp [OptRel] at t2
        | some a' =>
          rw [f1] at t1
          rw [f2] at t2
          simp only [OptRel] at t1 t2 ⊢
          rcases t1 with ⟨g1, g2⟩ | g1
          · have z := h.zero a f1 g1
            refine .inl ⟨.inl g1, isZero_scalar g1 z, ?_⟩
            rcases t2 with ⟨g3, g4⟩ | g3
            · exact isZero_scalar g3 (h'.zero a' f2 g3)
            · exact C80.holds_zero g3 fun b p q => by rw [g2, z]
          · rcases t2 with ⟨g3, g4⟩ | g3
            · have z := h'.zero a' f2 g3
              exact .inl ⟨.inr g3, C80.holds_zero g1 fun b p q => by rw [g4, z], isZero_scalar g3 z⟩
            · exact .inr (g3.eqv g1)
  · cases e1 : s.L.k22 with
    | none =>
      rw [e1] at c2 c2'
      cases f1 : k.cov2 <;> cases f2 : k'.cov2 <;> rw [f1] at c2 <;> rw [f2] at c2' <;> simp_all [OptRel]
    | some F =>
      rw [e1] at c2 c2'
      cases f1 : k.cov2 <;> cases f2 : k'.cov2 <;> rw [f1] at c2 <;> rw [f2] at c2' <;> simp only [OptRel] at c2 c2' ⊢
      exact c2'.eqv c2
  · refine ⟨by rw [h.same.1, h'.same.1], fun i hi => ?_⟩
    rw [h'.same.1] at hi
    cases hi
    rw [h.same.2, h'.same.2]

lemma rel_trans3 {R : State → State → Prop} {P : State → Prop} {Q : Kernel ℝ → Kernel ℝ → Prop}
    (hR : ∀ s t k k', R s t → P s → Describes s k → Describes t k' → Q k k') {w w' : Vals State} (hw : Rel R w w') : ∀ {y y' : Vals (Kernel ℝ)},
    Rel (fun k s => Describes s k ∧ P s) y w → Rel (fun k s => Describes s k) y' w' → Rel Q y y' := by
  induction hw with
  | one s t h =>
    intro y y' h1 h2
    cases h1 with
    | one k _ h1 =>
      cases h2 with
      | one k' _ h2 => exact .one _ _ (hR s t k k' h h1.2 h1.1 h2)
  | many l m hl h ih =>
    intro y y' h1 h2
    cases h1 with
    | many a _ ha h1 =>
      cases h2 with
      | many b _ hb h2 =>
        refine .many _ _ (by rw [ha, hl, hb]) fun i p q => ?_
        exact ih i (by rw [← ha]; exact p) (by rw [← hb]; exact q) (h1 i p (by rw [← ha]; exact p)) (h2 i q (by rw [← hb]; exact q))

/-- A network of layers that combine equal positions only, run in the full layout (`diagonal_spatial=False`) and in the diagonal one
(`diagonal_spatial=True`): both succeed, and each kernel of the second holds the equal-position entries of that of the first.
Missing for the full property: pooling of positions with known zero covariances; `DotGeneral`; masked inputs. -/
theorem diagonal_spatial_partial (x1 : Arr ℝ) (x2 : Option (Arr ℝ)) (db ntk same : Bool) (ba ca : ℤ) (n1 n2 C : ℕ) (S : List ℕ) (B A : ℕ)
    (hB : (B : ℤ) = ba % (S.length + 2)) (hA : (A : ℤ) = ca % (S.length + 2)) (hne : B ≠ A) (h1 : x1.shape = actIdx B A n1 C S)
    (h2 : (x2.getD x1).shape = actIdx B A n2 C S) {net : Net} (hloc : Local net) {w : Vals State}
    (h : NetSem net (.one (C80.inputState x1 x2 db false ntk same B A C n1 n2 S S)) w) :
    ∃ k k' y y', Inputs.inputsToKernel x1 x2 db false ntk ba (some ca) none same = .ok k ∧
      Inputs.inputsToKernel x1 x2 db true ntk ba (some ca) none same = .ok k' ∧
      net.run (.one k) = .ok y ∧ net.run (.one k') = .ok y' ∧ Rel SameUpToSpatial y y' := by
  obtain ⟨k, e1, f1, g1⟩ := C35.second_moment none db false ntk same x1 x2 ba ca n1 n2 C S S B A hB hA hne rfl (by simp) h1 h2
  obtain ⟨k', e2, f2, g2⟩ := C35.second_moment none db true ntk same x1 x2 ba ca n1 n2 C S S B A hB hA hne rfl (by simp) h1 h2
  obtain ⟨w', h3, h4⟩ := net_diag h (v' := .one (C80.inputState x1 x2 db true ntk same B A C n1 n2 S S)) hloc (.one _ _ rfl)
  obtain ⟨y, r1, d1⟩ := net_sound h (.one _ _ (C80.input_describes f1 g1))
  obtain ⟨y', r2, d2⟩ := net_sound h3 (.one _ _ (C80.input_describes f2 g2))
  exact ⟨k, k', y, y', e1, e2, r1, r2, rel_trans3 (fun s t k k' hst hs hk hk' => same_of hs hk (hst ▸ hk')) h4 (rel_every d1 (net_ds h (.one _ rfl))) d2⟩

/-- The same network followed by `Flatten` and any other layers: both layouts succeed and return the same kernel. -/
theorem diagonal_flatten_partial (x1 : Arr ℝ) (x2 : Option (Arr ℝ)) (db ntk same : Bool) (ba ca : ℤ) (n1 n2 C : ℕ) (S : List ℕ) (B A : ℕ)
    (hB : (B : ℤ) = ba % (S.length + 2)) (hA : (A : ℤ) = ca % (S.length + 2)) (hne : B ≠ A) (h1 : x1.shape = actIdx B A n1 C S)
    (h2 : (x2.getD x1).shape = actIdx B A n2 C S) {net rest : Net} (hloc : Local net) {f : Flatten} {out : List ℕ → List ℕ} {w : Vals State}
    (h : NetSem (.seq net (.seq (.layer (.flatten f) out) rest)) (.one (C80.inputState x1 x2 db false ntk same B A C n1 n2 S S)) w) :
    ∃ k k' y y', Inputs.inputsToKernel x1 x2 db false ntk ba (some ca) none same = .ok k ∧
      Inputs.inputsToKernel x1 x2 db true ntk ba (some ca) none same = .ok k' ∧
      (Net.seq net (.seq (.layer (.flatten f) out) rest)).run (.one k) = .ok y ∧
      (Net.seq net (.seq (.layer (.flatten f) out) rest)).run (.one k') = .ok y' ∧ Rel SameContent y y' := by
  obtain ⟨k, e1, f1, g1⟩ := C35.second_moment none db false ntk same x1 x2 ba ca n1 n2 C S S B A hB hA hne rfl (by simp) h1 h2
  obtain ⟨k', e2, f2, g2⟩ := C35.second_moment none db true ntk same x1 x2 ba ca n1 n2 C S S B A hB hA hne rfl (by simp) h1 h2
  have h' : NetSem (.seq net (.seq (.layer (.flatten f) out) rest)) (.one (C80.inputState x1 x2 db true ntk same B A C n1 n2 S S)) w := by
    cases h with
    | @seq _ _ _ v _ ha hbc =>
      obtain ⟨v', h3, h4⟩ := net_diag ha (v' := .one (C80.inputState x1 x2 db true ntk same B A C n1 n2 S S)) hloc (.one _ _ rfl)
      cases hbc with
      | seq hb hc =>
        cases hb with
        | @layer _ _ s t hcl hl =>
          cases h4 with
          | one _ s' hs =>
            subst hs
            obtain ⟨bo, co, q1, q2, q3, rfl⟩ := hl
            have hl' : LayerSem (.flatten f) s.diagonal _ := ⟨bo, co, q1, q2, q3, rfl⟩
            exact .seq h3 (.seq (.layer (s := s.diagonal) hcl hl') hc)
  obtain ⟨y, r1, d1⟩ := net_sound h (.one _ _ (C80.input_describes f1 g1))
  obtain ⟨y', r2, d2⟩ := net_sound h' (.one _ _ (C80.input_describes f2 g2))
  refine ⟨k, k', y, y', e1, e2, r1, r2, ?_⟩
  have hr : ∀ {v : Vals State} {y : Vals (Kernel ℝ)}, Rel (fun k s => Describes s k) y v → ∀ {y' : Vals (Kernel ℝ)}, Rel (fun k s => Describes s k) y' v →
      Rel SameContent y y' := by
    intro v y hy
    induction hy with
    | one a b h =>
      intro y' hy'
      cases hy' with
      | one k' _ h' => exact .one _ _ (same_content h h')
    | many l m hl h ih =>
      intro y' hy'
      cases hy' with
      | many b _ hb h2 =>
        refine .many _ _ (by rw [hl, hb]) fun i p q => ?_
        exact ih i p (by rw [← hl]; exact p) (h2 i q (by rw [← hl]; exact p))
  exact hr d1 d2

lemma body_local : Local ConvNet.body := .seq (.layer trivial) (.seq (.layer trivial) (.layer trivial))

example (x1 x2 : Arr ℝ) (db same : Bool) (h1 : x1.shape = [2, 4, 5, 3]) (h2 : x2.shape = [6, 4, 5, 3]) :
    ∃ k k' y y', Inputs.inputsToKernel x1 (some x2) db false true 0 (some (-1)) none same = .ok k ∧
      Inputs.inputsToKernel x1 (some x2) db true true 0 (some (-1)) none same = .ok k' ∧
      ConvNet.body.run (.one k) = .ok y ∧ ConvNet.body.run (.one k') = .ok y' ∧ Rel SameUpToSpatial y y' := by
  obtain ⟨t, ht, -⟩ := ConvNet.body_sem (ConvNet.images_input x1 x2 db false true same 2 6 4 5 3 h1 h2)
  exact diagonal_spatial_partial x1 (some x2) db true same 0 (-1) 2 6 3 [4, 5] 0 3 (by simp) (by simp) (by simp) h1 h2 body_local ht

example (x1 x2 : Arr ℝ) (db same : Bool) (h1 : x1.shape = [2, 4, 5, 3]) (h2 : x2.shape = [6, 4, 5, 3]) :
    ∃ k k' y y', Inputs.inputsToKernel x1 (some x2) db false true 0 (some (-1)) none same = .ok k ∧
      Inputs.inputsToKernel x1 (some x2) db true true 0 (some (-1)) none same = .ok k' ∧
      ConvNet.cnn.run (.one k) = .ok y ∧ ConvNet.cnn.run (.one k') = .ok y' ∧ Rel SameContent y y' := by
  obtain ⟨t, ht, -⟩ := ConvNet.cnn_sem (ConvNet.images_input x1 x2 db false true same 2 6 4 5 3 h1 h2) (by omega) (by omega)
  exact diagonal_flatten_partial x1 (some x2) db true same 0 (-1) 2 6 3 [4, 5] 0 3 (by simp) (by simp) (by simp) h1 h2 body_local ht

end NT.C86
