import Verif.Lemmas.Masked

/-!
# The layers on padded batches
-/

namespace NT.Masked
open NT NT.Network Arr Spec Semantics

/-- `s` describes the kernel, apart from masks. -/
structure Core (s : State) (k : Kernel ℝ) : Prop where
  stores : k.Stores s.L
  static : k.static = s.info
  full : s.full = true → ∀ a, k.ntk = some a → a.shape ≠ []
  zero : ∀ a, k.ntk = some a → a.shape = [] → a.get [] = 0

lemma Core.fields {s : State} {k : Kernel ℝ} (h : Core s k) : k.isGaussian = s.info.isGaussian ∧ k.isReversed = s.info.isReversed ∧
    k.diagonalBatch = s.info.diagonalBatch ∧ k.diagonalSpatial = s.info.diagonalSpatial ∧
    k.shape1 = s.info.shape1 ∧ k.shape2 = s.info.shape2 ∧ k.batchAxis = s.info.batchAxis ∧ k.channelAxis = s.info.channelAxis := by
  rw [← h.static]
  exact ⟨rfl, rfl, rfl, rfl, rfl, rfl, rfl, rfl⟩

/-- `k'` is described by `t` and has the masks of `k`. -/
def After (t : State) (k k' : Kernel ℝ) : Prop := Core t k' ∧ k'.mask1 = k.mask1 ∧ k'.mask2 = k.mask2

lemma core_dense {d : Dense} {s t : State} {k : Kernel ℝ} (hk : Core s k) (hl : LayerSem (.dense d) s t) :
    ∃ k', d.kernelFn k = .ok k' ∧ After t k k' := by
  obtain ⟨h1, -, C, h2, -, rfl⟩ := hl
  obtain ⟨k', e1, e2, e3, e4⟩ := C52.kernel_formula d h1 k s.L hk.stores C (by rw [hk.fields.2.2.2.2.1]; exact h2)
  simp only [Prod.mk.injEq] at e4
  have hn : ∀ a, k'.ntk = some a → a.shape ≠ [] := fun a ha => dense_ntk e1 (stores_nngp_shape hk.stores) ha
  exact ⟨k', e1, ⟨e2, by rw [e3, hk.static], fun _ => hn, fun a ha h0 => absurd h0 (hn a ha)⟩, e4.1, e4.2.1⟩

lemma core_conv {d : Conv} {s t : State} {k : Kernel ℝ} (hk : Core s k) (hl : LayerSem (.conv d) s t) :
    ∃ k', d.kernelFn k = .ok k' ∧ After t k k' := by
  obtain ⟨h1, -, h2, h3, h4, h5, h6, h7, rfl⟩ := hl
  obtain ⟨i1, i2, i4, i5, i6, i7, i8, i9⟩ := hk.fields
  obtain ⟨k', e1, e2, e3, e4⟩ := C53.kernel_formula d h1 k s.L hk.stores
    ⟨h2, h3, by rw [i5, i2]; exact h5, by rw [i5, i2]; exact h6, hk.zero⟩
  simp only [Prod.mk.injEq] at e4
  have hn : ∀ a, k'.ntk = some a → a.shape ≠ [] := fun a ha => conv_ntk e1 (stores_nngp_shape e2) ha
  rw [i6] at e2
  exact ⟨k', e1, ⟨e2, by rw [e3, hk.static]; simp [C53.newRev, convRev, i5, i2], fun _ => hn, fun a ha h0 => absurd h0 (hn a ha)⟩, e4.1, e4.2.1⟩

/-- The kernel without masks. -/
def bare (k : Kernel ℝ) : Kernel ℝ := { k with mask1 := none, mask2 := none, x1IsX2 := ⟨[], fun _ => true⟩ }

lemma bare_describes {s : State} {k : Kernel ℝ} (hk : Core s k) : Describes { s with same := true } (bare k) :=
  ⟨⟨hk.stores.nngp, hk.stores.cov1, hk.stores.cov2, hk.stores.ntk⟩, hk.static, ⟨rfl, rfl⟩, rfl, rfl, hk.full, hk.zero⟩

lemma core_pool {d : Pool} {s t : State} {k : Kernel ℝ} (hk : Core s k) (hc : s.L.Closed) (hl : LayerSem (.pool d) s t) : After t k (d.kernelFn k) := by
  obtain ⟨h1, h2, h3, h4, rfl⟩ := hl
  obtain ⟨k', e, hd⟩ := layer_sound (bare_describes hk) (l := .pool d) (t := { s with L := C54.pooled d s.L, same := true }) hc ⟨h1, h2, h3, h4, rfl⟩
  have e : bare (d.kernelFn k) = k' := Except.ok.inj e
  subst e
  have h := hd.stores
  exact ⟨⟨⟨h.nngp, h.cov1, h.cov2, h.ntk⟩, hd.static, hd.full, hd.zero⟩, rfl, rfl⟩

lemma core_act {f : Kernel ℝ → Except Err (Kernel ℝ)} {C : ℝ → Prop} {φ dφ : ℝ → ℝ} {N T : ℝ → ℝ → ℝ → ℝ} {s : State} {k : Kernel ℝ} (hk : Core s k)
    (hc : s.L.Closed) (hg : s.info.isGaussian = true) (hf : Nonlinearity f C φ dφ N T) (hv : s.L.Vars C) :
    ∃ k', elementwise f k = .ok k' ∧
      After { s with L := entrywise N T s.L, info := { s.info with isGaussian := false }, full := true } k k' := by
  obtain ⟨k', e1, e2, e3, -, e5, e6, e7⟩ := hf.computes k s.L hk.stores hc hv (by rw [hk.fields.1]; exact hg)
  exact ⟨k', e1, ⟨e2, by rw [e3, hk.static], fun _ => e7, fun a ha h0 => absurd h0 (e7 a ha)⟩, e5, e6⟩

/-! ### Masking -/

/-- The same information, as far as it is stored. -/
structure Agree (L L' : Logical ℝ) : Prop where
  sizes : (L'.n1, L'.n2, L'.S1, L'.S2) = (L.n1, L.n2, L.S1, L.S2)
  k12 : ∀ i < L.n1, ∀ j < L.n2, ∀ p q, InRange p L.S1 → InRange q L.S2 → L.k12 [i, j] p q = L'.k12 [i, j] p q
  k11 : ∀ i < L.n1, ∀ j < L.n1, ∀ p q, InRange p L.S1 → InRange q L.S1 → L.k11 [i, j] p q = L'.k11 [i, j] p q
  k22 : OptRel (fun F F' => ∀ i < L.n2, ∀ j < L.n2, ∀ p q, InRange p L.S2 → InRange q L.S2 → F [i, j] p q = F' [i, j] p q) L.k22 L'.k22
  ntk : OptRel (fun F F' => ∀ i < L.n1, ∀ j < L.n2, ∀ p q, InRange p L.S1 → InRange q L.S2 → F [i, j] p q = F' [i, j] p q) L.ntk L'.ntk

lemma batch_pair {d : Bool} {n : ℕ} {b : List ℕ} (h : InRange b (batchShape d n)) : ∃ i j, i < n ∧ j < n ∧ dbl b = [i, j] := by
  cases d
  · obtain ⟨i, j, rfl, hi, hj⟩ := Inputs.inRange_two h
    exact ⟨i, j, hi, hj, rfl⟩
  · simp only [batchShape, if_true] at h
    obtain ⟨i, t, rfl, hi, h⟩ := inRange_cons_right.1 h
    rw [inRange_nil_right] at h
    subst h
    exact ⟨i, i, hi, hi, rfl⟩

lemma stores_agree {k : Kernel ℝ} {L L' : Logical ℝ} (h : k.Stores L) (hn : ∀ a, k.ntk = some a → a.shape ≠ []) (ha : Agree L L') : k.Stores L' := by
  obtain ⟨hs, a12, a11, a22, an⟩ := ha
  simp only [Prod.mk.injEq] at hs
  obtain ⟨s1, s2, s3, s4⟩ := hs
  refine ⟨?_, ?_, ?_, ?_⟩
  · rw [s1, s2, s3, s4]
    refine h.nngp.congr fun b p q hb hp hq => ?_
    obtain ⟨i, j, rfl, hi, hj⟩ := Inputs.inRange_two hb
    exact a12 i hi j hj p q hp hq
  · rw [s1, s3]
    refine h.cov1.congr fun b p q hb hp hq => ?_
    obtain ⟨i, j, hi, hj, e⟩ := batch_pair hb
    rw [e]
    exact a11 i hi j hj p q hp hq
  · have h2 := h.cov2
    rw [s2, s4]
    cases e1 : k.cov2 <;> cases e2 : L.k22 <;> cases e3 : L'.k22 <;> rw [e1, e2] at h2 <;> rw [e2, e3] at a22 <;>
      simp only [OptRel] at h2 a22 ⊢
    refine h2.congr fun b p q hb hp hq => ?_
    obtain ⟨i, j, hi, hj, e⟩ := batch_pair hb
    rw [e]
    exact a22 i hi j hj p q hp hq
  · have h2 := h.ntk
    rw [s1, s2, s3, s4]
    cases e1 : k.ntk <;> cases e2 : L.ntk <;> cases e3 : L'.ntk <;> rw [e1, e2] at h2 <;> rw [e2, e3] at an <;>
      simp only [OptRel] at h2 an ⊢
    rcases h2 with ⟨h2, -⟩ | h2
    · exact absurd h2 (hn _ e1)
    · refine .inr (h2.congr fun b p q hb hp hq => ?_)
      obtain ⟨i, j, rfl, hi, hj⟩ := Inputs.inRange_two hb
      exact an i hi j hj p q hp hq

lemma masked_or {len1 len2 : ℕ → List ℕ} {i j : ℕ} {p q : List ℕ} : (padding len1 i p || padding len2 j q) = true ↔ ¬(InRange p (len1 i) ∧ InRange q (len2 j)) := by
  simp only [padding, Bool.or_eq_true, Bool.not_eq_true', decide_eq_false_iff_not]
  tauto

lemma mask_zero (L : Logical ℝ) (len1 len2 : ℕ → List ℕ) : ZeroPadding (C25.maskL L (padding len1) (padding len2)) len1 len2 := by
  refine ⟨fun i _ j _ p q _ _ h => ?_, fun i _ j _ p q _ _ h => ?_, fun F hF i _ j _ p q _ _ h => ?_, fun F hF i _ j _ p q _ _ h => ?_⟩
  · exact if_pos (masked_or.2 h)
  · exact if_pos (masked_or.2 h)
  · simp only [C25.maskL, Option.map_eq_some_iff] at hF
    obtain ⟨G, -, rfl⟩ := hF
    exact if_pos (masked_or.2 h)
  · simp only [C25.maskL, Option.map_eq_some_iff] at hF
    obtain ⟨G, -, rfl⟩ := hF
    exact if_pos (masked_or.2 h)

/-- Where the padding is zero, masking it changes nothing. -/
lemma agree_mask {L : Logical ℝ} {len1 len2 : ℕ → List ℕ} (h : ZeroPadding L len1 len2) : Agree L (C25.maskL L (padding len1) (padding len2)) := by
  have key : ∀ (x : ℝ) (b : Bool), (b = true → x = 0) → x = if b = true then 0 else x := by
    intro x b hb
    cases b
    · simp
    · simp [hb rfl]
  refine ⟨rfl, fun i hi j hj p q hp hq => ?_, fun i hi j hj p q hp hq => ?_, ?_, ?_⟩
  · exact key _ _ fun g => h.k12 i hi j hj p q hp hq (masked_or.1 g)
  · exact key _ _ fun g => h.k11 i hi j hj p q hp hq (masked_or.1 g)
  · cases e : L.k22 with
    | none => simp [C25.maskL, e, OptRel]
    | some F =>
      simp only [C25.maskL, e, Option.map_some, OptRel]
      exact fun i hi j hj p q hp hq => key _ _ fun g => h.k22 F e i hi j hj p q hp hq (masked_or.1 g)
  · cases e : L.ntk with
    | none => simp [C25.maskL, e, OptRel]
    | some F =>
      simp only [C25.maskL, e, Option.map_some, OptRel]
      exact fun i hi j hj p q hp hq => key _ _ fun g => h.ntk F e i hi j hj p q hp hq (masked_or.1 g)

lemma core_unmasked {t : State} {k : Kernel ℝ} (hk : Core t k) {len1 len2 : ℕ → List ℕ} (h : ZeroPadding t.L len1 len2) :
    Core { t with L := C25.maskL t.L (padding len1) (padding len2) } k := by
  refine ⟨?_, hk.static, hk.full, hk.zero⟩
  by_cases hn : ∀ a, k.ntk = some a → a.shape ≠ []
  · exact stores_agree hk.stores hn (agree_mask h)
  · push Not at hn
    obtain ⟨a, ha, h0⟩ := hn
    have h1 : Kernel.Stores { k with ntk := none } { t.L with ntk := none } := ⟨hk.stores.nngp, hk.stores.cov1, hk.stores.cov2, trivial⟩
    have h2 := stores_agree h1 (by simp) (agree_mask (len1 := len1) (len2 := len2) ⟨h.k12, h.k11, h.k22, by simp⟩)
    refine ⟨h2.nngp, h2.cov1, h2.cov2, ?_⟩
    have h3 := hk.stores.ntk
    rw [ha] at h3 ⊢
    cases e : t.L.ntk with
    | none => rw [e] at h3; exact h3.elim
    | some F =>
      rw [e] at h3
      simp only [C25.maskL, e, Option.map_some, OptRel]
      rcases h3 with ⟨-, g⟩ | g
      · refine .inl ⟨h0, fun b p q => ?_⟩
        rw [g, hk.zero a ha h0, ite_self]
      · exact absurd h0 (g.ne_nil (by simp))

lemma core_masked {t : State} {k : Kernel ℝ} (hk : Core t k) {len1 len2 : ℕ → List ℕ} {m1 m2 : Arr Bool}
    (hx : t.info.batchAxis ≠ t.info.channelAxis ∧ t.info.batchAxis < t.L.S1.length + 2 ∧ t.info.channelAxis < t.L.S1.length + 2)
    (hr : t.L.S2.length = t.L.S1.length)
    (h1 : MaskOf m1 t.info.batchAxis t.info.channelAxis t.L.n1 1 t.L.S1 len1) (h2 : MaskOf m2 t.info.batchAxis t.info.channelAxis t.L.n2 1 t.L.S2 len2) :
    ∃ k', k.mask (some m1) (some m2) = .ok k' ∧ Core { t with L := C25.maskL t.L (padding len1) (padding len2) } k' ∧
      k'.mask1 = some m1 ∧ k'.mask2 = some m2 := by
  obtain ⟨x1, x2, x3⟩ := hx
  obtain ⟨i1, i2, i4, i5, i6, i7, i8, i9⟩ := hk.fields
  obtain ⟨k', e1, e2, e3, e4, e5, e6⟩ := C25.mask_aux k t.L hk.stores m1 m2 (by rw [i8, i9]; exact ⟨x1, x2, x3, h1.shape⟩)
    (by rw [i8, i9]; exact ⟨x1, by omega, by omega, h2.shape⟩)
  refine ⟨k', e1, ⟨stores_agree e2 e6 ?_, by rw [e3, hk.static], fun _ => e6, fun a ha h0 => absurd h0 (e6 a ha)⟩, e4, e5⟩
  have g1 : ∀ i < t.L.n1, ∀ p, InRange p t.L.S1 → C25.Masked m1 k.batchAxis k.channelAxis i p = padding len1 i p := by
    intro i hi p hp
    rw [i8, i9]
    exact h1.get i hi 0 Nat.one_pos p hp
  have g2 : ∀ i < t.L.n2, ∀ p, InRange p t.L.S2 → C25.Masked m2 k.batchAxis k.channelAxis i p = padding len2 i p := by
    intro i hi p hp
    rw [i8, i9]
    exact h2.get i hi 0 Nat.one_pos p hp
  refine ⟨rfl, fun i hi j hj p q hp hq => ?_, fun i hi j hj p q hp hq => ?_, ?_, ?_⟩
  · simp only [C25.maskL, List.getD_cons_zero, List.getD_cons_succ, g1 i hi p hp, g2 j hj q hq]
  · simp only [C25.maskL, List.getD_cons_zero, List.getD_cons_succ, g1 i hi p hp, g1 j hj q hq]
  · cases e : t.L.k22 with
    | none => simp [C25.maskL, e, OptRel]
    | some F =>
      simp only [C25.maskL, e, Option.map_some, OptRel]
      intro i hi j hj p q hp hq
      simp only [List.getD_cons_zero, List.getD_cons_succ, g2 i hi p hp, g2 j hj q hq]
  · cases e : t.L.ntk with
    | none => simp [C25.maskL, e, OptRel]
    | some F =>
      simp only [C25.maskL, e, Option.map_some, OptRel]
      intro i hi j hj p q hp hq
      simp only [List.getD_cons_zero, List.getD_cons_succ, g1 i hi p hp, g2 j hj q hq]

/-! ### One step -/

/-- `k` is the kernel of the padded batches `s`. -/
structure Batch (s : Padded) (k : Kernel ℝ) : Prop where
  core : Core s.toState k
  mask1 : ∃ m, k.mask1 = some m ∧ MaskOf m s.info.batchAxis s.info.channelAxis s.L.n1 s.mc s.L.S1 s.len1
  mask2 : ∃ m, k.mask2 = some m ∧ MaskOf m s.info.batchAxis s.info.channelAxis s.L.n2 s.mc s.L.S2 s.len2

lemma core_setShapes {t : State} {k : Kernel ℝ} (hk : Core t k) (s1 s2 : List ℕ) : Core (t.withShapes s1 s2) (setShapes s1 s2 k) :=
  ⟨⟨hk.stores.nngp, hk.stores.cov1, hk.stores.cov2, hk.stores.ntk⟩, by rw [State.withShapes, ← hk.static]; rfl, hk.full, hk.zero⟩

lemma closed_of {s : Padded} (h : s.Ok) : s.L.Closed := fun g => absurd g h.two

/-- A layer without remasking. -/
lemma plain_step {l : MLayer} {s : Padded} {t : State} {k k' : Kernel ℝ} (out : List ℕ → List ℕ) (c : ℕ) (hk : Batch s k) (hr : l.remask = false) (hm : l.maskFn = .ok)
    (he : l.kernelFn k = .ok k') (ha : After t k k') (hz : ZeroPadding t.L s.len1 s.len2)
    (hd : t.info.batchAxis = s.info.batchAxis ∧ t.info.channelAxis = s.info.channelAxis ∧ t.L.n1 = s.L.n1 ∧ t.L.n2 = s.L.n2 ∧ t.L.S1 = s.L.S1 ∧ t.L.S2 = s.L.S2) :
    ∃ k'', l.withMasking k = .ok k'' ∧ Batch (s.next t out c s.mc) (setShapes (out k.shape1) (out k.shape2) k'') := by
  obtain ⟨m1, e1, g1⟩ := hk.mask1
  obtain ⟨m2, e2, g2⟩ := hk.mask2
  obtain ⟨d1, d2, d3, d4, d5, d6⟩ := hd
  have hf := hk.core.fields
  refine ⟨{ k' with mask1 := some m1, mask2 := some m2 }, ?_, ?_⟩
  · unfold MLayer.withMasking
    rw [e1, e2]
    simp [onMask, hm, he, hr, Except.map]
    rfl
  · refine ⟨?_, ⟨m1, rfl, ?_⟩, ⟨m2, rfl, ?_⟩⟩
    · have := core_setShapes (core_unmasked ha.1 hz) (out k.shape1) (out k.shape2)
      rw [hf.2.2.2.2.1, hf.2.2.2.2.2.1] at this ⊢
      exact ⟨⟨this.stores.nngp, this.stores.cov1, this.stores.cov2, this.stores.ntk⟩, this.static, this.full, this.zero⟩
    · simp only [Padded.next, State.withShapes, C25.maskL, d1, d2, d3, d5]; exact g1
    · simp only [Padded.next, State.withShapes, C25.maskL, d1, d2, d4, d6]; exact g2

/-- A layer with remasking. -/
lemma remask_step {l : MLayer} {s : Padded} {t : State} {k k' : Kernel ℝ} (out : List ℕ → List ℕ) (c : ℕ) (hs : s.Ok) (hk : Batch s k) (hr : l.remask = true)
    (hm : ∀ m n S len, S.length = s.L.S1.length → MaskOf m s.info.batchAxis s.info.channelAxis n s.mc S len →
      ∃ m', l.maskFn m = .ok m' ∧ MaskOf m' s.info.batchAxis s.info.channelAxis n 1 S len)
    (he : l.kernelFn k = .ok k') (ha : After t k k')
    (hd : t.info.batchAxis = s.info.batchAxis ∧ t.info.channelAxis = s.info.channelAxis ∧ t.L.n1 = s.L.n1 ∧ t.L.n2 = s.L.n2 ∧ t.L.S1 = s.L.S1 ∧ t.L.S2 = s.L.S2) :
    ∃ k'', l.withMasking k = .ok k'' ∧ Batch (s.next t out c 1) (setShapes (out k.shape1) (out k.shape2) k'') := by
  obtain ⟨m1, e1, g1⟩ := hk.mask1
  obtain ⟨m2, e2, g2⟩ := hk.mask2
  obtain ⟨d1, d2, d3, d4, d5, d6⟩ := hd
  have hf := hk.core.fields
  obtain ⟨m1', f1, g1'⟩ := hm m1 _ _ _ rfl g1
  obtain ⟨m2', f2, g2'⟩ := hm m2 _ _ _ hs.rank g2
  obtain ⟨k'', q1, q2, q3, q4⟩ := core_masked (len1 := s.len1) (len2 := s.len2) (m1 := m1') (m2 := m2') ha.1 (by rw [d1, d2, d5]; exact hs.axes)
    (by rw [d5, d6]; exact hs.rank) (by rw [d1, d2, d3, d5]; exact g1') (by rw [d1, d2, d4, d6]; exact g2')
  refine ⟨k'', ?_, ?_⟩
  · unfold MLayer.withMasking
    rw [e1, e2]
    simp [onMask, f1, f2, he, hr, Except.map, q1, bind, Except.bind]
  · refine ⟨?_, ⟨m1', q3, ?_⟩, ⟨m2', q4, ?_⟩⟩
    · have := core_setShapes q2 (out k.shape1) (out k.shape2)
      rw [hf.2.2.2.2.1, hf.2.2.2.2.2.1] at this ⊢
      exact this
    · simp only [Padded.next, State.withShapes, C25.maskL, d1, d2, d3, d5]; exact g1'
    · simp only [Padded.next, State.withShapes, C25.maskL, d1, d2, d4, d6]; exact g2'

end NT.Masked
