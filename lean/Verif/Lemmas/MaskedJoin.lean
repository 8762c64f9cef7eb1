import Verif.Lemmas.MaskedFan
import Verif.Lemmas.MaskedConcat

/-!
# Concatenations of the channels of branches on padded batches
-/

namespace NT.Masked
open NT NT.Network Arr Spec Semantics

/-- The concatenation of kernels, apart from masks. -/
lemma cat_core {m : ℕ} {s : Fin (m + 1) → State} {k : Fin (m + 1) → Kernel ℝ} {axis : ℤ} {t : State} (hk : ∀ r, Core (s r) (k r)) (h : ChannelSem axis s t) :
    ∃ k', (Fan.concat axis).kernelFn (List.ofFn k) = .ok k' ∧ Core t k' ∧ k'.x1IsX2 = (k 0).x1IsX2 ∧ k'.mask1 = none ∧ k'.mask2 = none := by
  have i5 := fun r => (hk r).fields.2.2.2.2.1
  have i6 := fun r => (hk r).fields.2.2.2.2.2.1
  have i8 := fun r => (hk r).fields.2.2.2.2.2.2.2
  obtain ⟨h1, h2, -, h3, h6, w, h7, h8, -, c2, cn, h4, h5, rfl⟩ := h
  have hax : axis % ((k 0).shape1.length : ℤ) = ((k 0).channelAxis : ℕ) := by rw [i5, i8]; exact h3
  obtain ⟨k', e1, e2, e3, e4, e5, e6, e7, e8, e9⟩ := C40.channel_content k _ (core_combinable hk h1) axis (by rw [i5]; exact h2)
    hax (fun r => by rw [i5, i6, i5, i6, i8]; exact h6 r) w h7 (fun r => by rw [i5, i8]; exact h8 r) c2 cn h4 h5
  refine ⟨k', e1, fan_core_common (f := .concat axis) hk h1 (fun x hx => by rw [← Fan.concat.inj hx, hax]; simp) e1 e2 fun hr hin => ?_⟩
  simp only [i5, i6, i8] at e7 e8
  have hs0 := (hk 0).static
  rw [← hs0] at e7 e8 ⊢
  simp only [Kernel.static] at e7 e8 ⊢
  rw [e9, e3, e4, e5, e6, e7, e8, hr, hin]

lemma forall₂_ofFn {A B : Type} {R : A → B → Prop} : ∀ {n : ℕ} {f : Fin n → A} {g : Fin n → B}, (∀ r, R (f r) (g r)) → List.Forall₂ R (List.ofFn f) (List.ofFn g)
  | 0, f, g, _ => by simp
  | n + 1, f, g, h => by
    rw [List.ofFn_succ, List.ofFn_succ]
    exact .cons (h 0) (forall₂_ofFn fun r => h r.succ)

section
variable {m : ℕ} {s : Fin (m + 1) → Padded} {axis : ℤ} {t : State}

/-- What a concatenation has in common with the branches. -/
lemma cat_same (hs : ∀ r, (s r).Ok) (h : ChannelSem axis (fun r => (s r).toState) t) :
    SameLayout (fun r => (s r).toState) ∧
    t.info.diagonalSpatial = (s 0).info.diagonalSpatial ∧ t.info.batchAxis = (s 0).info.batchAxis ∧ t.info.channelAxis = (s 0).info.channelAxis ∧
    t.info.shape1 = actIdx (s 0).info.batchAxis (s 0).info.channelAxis (s 0).L.n1 (∑ r, (s r).c) (s 0).L.S1 ∧
    t.info.shape2 = actIdx (s 0).info.batchAxis (s 0).info.channelAxis (s 0).L.n2 (∑ r, (s r).c) (s 0).L.S2 ∧
    t.L.n1 = (s 0).L.n1 ∧ t.L.n2 = (s 0).L.n2 ∧ t.L.S1 = (s 0).L.S1 ∧ t.L.S2 = (s 0).L.S2 ∧ t.L.k22.isSome = (s 0).L.k22.isSome ∧
    axis % (((s 0).L.S1.length + 2 : ℕ) : ℤ) = ((s 0).info.channelAxis : ℕ) := by
  obtain ⟨h1, -, -, h3, -, w, -, h8, h9, c2, cn, h4, h5, rfl⟩ := h
  obtain ⟨x1, x2, x3⟩ := (hs 0).axes
  have hr := (hs 0).rank
  have hb : ∀ r, (s r).info.batchAxis = (s 0).info.batchAxis := h1.batchAxis
  have hc : ∀ r, (s r).info.channelAxis = (s 0).info.channelAxis := h1.channelAxis
  have hz : ∀ r, (s r).L.n1 = (s 0).L.n1 ∧ (s r).L.n2 = (s 0).L.n2 ∧ (s r).L.S1 = (s 0).L.S1 ∧ (s r).L.S2 = (s 0).L.S2 := h1.sizes
  have g1 : ∀ r, (s r).info.shape1.getD (s 0).info.channelAxis 0 = (s r).c := by
    intro r
    rw [(hs r).shape1, hb, hc, (hz r).1, (hz r).2.2.1]
    exact act_getChannel _ _ _ _ _ x1 x2 x3
  have g2 : ∀ r, (s r).info.shape2.getD (s 0).info.channelAxis 0 = (s r).c := by
    intro r
    rw [(hs r).shape2, hb, hc, (hz r).2.1, (hz r).2.2.2]
    exact act_getChannel _ _ _ _ _ x1 (by omega) (by omega)
  refine ⟨h1, rfl, rfl, rfl, ?_, ?_, rfl, rfl, rfl, rfl, ?_, ?_⟩
  · dsimp only
    simp only [g1]
    rw [(hs 0).shape1]
    exact act_setChannel _ _ _ _ _ _ x1 x2 x3
  · dsimp only
    simp only [g2]
    rw [(hs 0).shape2]
    exact act_setChannel _ _ _ _ _ _ x1 (by omega) (by omega)
  · have := h4 0
    dsimp only at this
    rw [this]
    cases c2 <;> simp [C40.channelL]
  · dsimp only at h3
    rw [(hs 0).shape1, actIdx_length _ _ _ _ _ x1 x2 x3] at h3
    exact h3

lemma weighted_zero {w : Fin (m + 1) → ℕ} {f : Fin (m + 1) → ℝ} (h : ∀ r, f r = 0) : (∑ r, (w r : ℝ) * f r) / ∑ r, (w r : ℝ) = 0 := by
  rw [Finset.sum_eq_zero fun r _ => by rw [h r, mul_zero], zero_div]

/-- Averages of zeros are zero. -/
lemma cat_zero (ht : Beside s) (hs : ∀ r, (s r).Ok) (h : ChannelSem axis (fun r => (s r).toState) t) : ZeroPadding t.L (s 0).len1 (s 0).len2 := by
  obtain ⟨hl, -, -, -, -, w, -, -, -, c2, cn, h4, h5, rfl⟩ := h
  have hz : ∀ r, (s r).L.n1 = (s 0).L.n1 ∧ (s r).L.n2 = (s 0).L.n2 ∧ (s r).L.S1 = (s 0).L.S1 ∧ (s r).L.S2 = (s 0).L.S2 := hl.sizes
  have z12 : ∀ r, ∀ i < (s 0).L.n1, ∀ j < (s 0).L.n2, ∀ p q, InRange p (s 0).L.S1 → InRange q (s 0).L.S2 →
      ¬(InRange p ((s 0).len1 i) ∧ InRange q ((s 0).len2 j)) → (s r).L.k12 [i, j] p q = 0 := by
    intro r
    have := (hs r).zero.k12
    have z := hz r
    rwa [z.1, z.2.1, z.2.2.1, z.2.2.2, ht.len1, ht.len2] at this
  have z11 : ∀ r, ∀ i < (s 0).L.n1, ∀ j < (s 0).L.n1, ∀ p q, InRange p (s 0).L.S1 → InRange q (s 0).L.S1 →
      ¬(InRange p ((s 0).len1 i) ∧ InRange q ((s 0).len1 j)) → (s r).L.k11 [i, j] p q = 0 := by
    intro r
    have := (hs r).zero.k11
    have z := hz r
    rwa [z.1, z.2.2.1, ht.len1] at this
  have z22 : ∀ r, ∀ i < (s 0).L.n2, ∀ j < (s 0).L.n2, ∀ p q, InRange p (s 0).L.S2 → InRange q (s 0).L.S2 →
      ¬(InRange p ((s 0).len2 i) ∧ InRange q ((s 0).len2 j)) → ((s r).L.k22.getD 0) [i, j] p q = 0 := by
    intro r
    cases e : (s r).L.k22 with
    | none => intros; rfl
    | some F =>
      have := (hs r).zero.k22 F e
      have z := hz r
      rwa [z.2.1, z.2.2.2, ht.len2] at this
  have zn : ∀ r, ∀ i < (s 0).L.n1, ∀ j < (s 0).L.n2, ∀ p q, InRange p (s 0).L.S1 → InRange q (s 0).L.S2 →
      ¬(InRange p ((s 0).len1 i) ∧ InRange q ((s 0).len2 j)) → ((s r).L.ntk.getD 0) [i, j] p q = 0 := by
    intro r
    cases e : (s r).L.ntk with
    | none => intros; rfl
    | some F =>
      have := (hs r).zero.ntk F e
      have z := hz r
      rwa [z.1, z.2.1, z.2.2.1, z.2.2.2, ht.len1, ht.len2] at this
  refine ⟨fun i hi j hj p q hp hq hn => weighted_zero fun r => z12 r i hi j hj p q hp hq hn,
    fun i hi j hj p q hp hq hn => weighted_zero fun r => z11 r i hi j hj p q hp hq hn, fun F hF i hi j hj p q hp hq hn => ?_,
    fun F hF i hi j hj p q hp hq hn => ?_⟩
  · cases c2 <;> simp only [C40.channelL, reduceCtorEq, if_false, if_true, Bool.false_eq_true, Option.some.injEq] at hF
    subst hF
    exact weighted_zero fun r => z22 r i hi j hj p q hp hq hn
  · cases cn <;> simp only [C40.channelL, reduceCtorEq, if_false, if_true, Bool.false_eq_true, Option.some.injEq] at hF
    subst hF
    exact weighted_zero fun r => zn r i hi j hj p q hp hq hn

/-- The masks of a concatenation. -/
lemma cat_masks {B A n : ℕ} {S : List ℕ} {len : ℕ → List ℕ} (hne : B ≠ A) (hB : B < S.length + 2) (hA : A < S.length + 2)
    (hax : axis % ((S.length + 2 : ℕ) : ℤ) = (A : ℕ)) {c mc : Fin (m + 1) → ℕ} {ms : Fin (m + 1) → Arr Bool}
    (h : ∀ r, MaskOf (ms r) B A n (mc r) S len ∧ (mc r = 1 ∨ mc r = c r)) :
    ∃ M, fanMask (.concat axis) (List.ofFn fun r => some (ms r)) (List.ofFn fun r => actIdx B A n (c r) S) = .ok (some M) ∧ MaskOf M B A n (∑ r, c r) S len := by
  obtain ⟨M, e, hM⟩ := concat_masks_ok (vs := List.ofFn fun r => (c r, mc r)) (ms := List.ofFn ms) hne hB hA (by simp) (forall₂_ofFn h)
  rw [List.map_ofFn, List.map_ofFn] at e
  rw [List.map_ofFn, List.sum_ofFn] at hM
  refine ⟨M, ?_, hM⟩
  have : ∀ ms' : List (Option (Arr Bool)), fanMask (.concat axis) ms' (List.ofFn fun r => actIdx B A n (c r) S) =
      Masks.concat ms' (List.ofFn fun r => actIdx B A n (c r) S) A := by
    intro ms'
    rw [List.ofFn_succ]
    simp only [fanMask]
    rw [actIdx_length _ _ _ _ _ hne hB hA, hax, Int.toNat_natCast]
  rw [this]
  exact e

/-- The concatenation of padded batches. -/
lemma cat_batch {out : List (List ℕ) → List ℕ} (ht : Beside s) (hs : ∀ r, (s r).Ok) (h : ChannelSem axis (fun r => (s r).toState) t)
    (ho : ∀ n T, T.length = (s 0).L.S1.length → out (List.ofFn fun r => actIdx (s 0).info.batchAxis (s 0).info.channelAxis n (s r).c T) =
      actIdx (s 0).info.batchAxis (s 0).info.channelAxis n (∑ r, (s r).c) T) : (joinedChannels s t).Ok ∧ ∀ k : Fin (m + 1) → Kernel ℝ,
      (∀ r, Batch (s r) (k r)) → ∃ k', fanWithMasking (.concat axis) (List.ofFn k) = .ok k' ∧
        Batch (joinedChannels s t) (setShapes (out ((List.ofFn k).map (·.shape1))) (out ((List.ofFn k).map (·.shape2))) k') := by
  obtain ⟨hl, a1, a2, a3, a4, a5, b1, b2, b3, b4, b5, hax⟩ := cat_same hs h
  have hb : ∀ r, (s r).info.batchAxis = (s 0).info.batchAxis := hl.batchAxis
  have hc : ∀ r, (s r).info.channelAxis = (s 0).info.channelAxis := hl.channelAxis
  have hz : ∀ r, (s r).L.n1 = (s 0).L.n1 ∧ (s r).L.n2 = (s 0).L.n2 ∧ (s r).L.S1 = (s 0).L.S1 ∧ (s r).L.S2 = (s 0).L.S2 := hl.sizes
  have h0 := hs 0
  obtain ⟨x1, x2, x3⟩ := h0.axes
  have hr := h0.rank
  have hmc : 0 < (joinedChannels s t).mc := Finset.sum_pos (fun r _ => ht.channels r) Finset.univ_nonempty
  refine ⟨⟨?_, ?_, ?_, ?_, ?_, ?_, ?_, ?_, hmc, cat_zero ht hs h⟩, fun k hk => ?_⟩
  · exact a1.trans h0.pairs
  · intro g
    have := Option.isSome_iff_ne_none.2 h0.two
    rw [← b5] at this
    change t.L.k22 = none at g
    rw [g] at this
    simp at this
  · simp only [joinedChannels, a2, a3, b3]; exact h0.axes
  · simp only [joinedChannels, b3, b4]; exact h0.rank
  · simp only [joinedChannels, a2, a3, a4, b1, b3]
  · simp only [joinedChannels, a2, a3, a5, b2, b4]
  · simp only [joinedChannels, b1, b3]; exact h0.len1
  · simp only [joinedChannels, b2, b4]; exact h0.len2
  · obtain ⟨k', e, hco, -, -, -⟩ := cat_core (s := fun r => (s r).toState) (fun r => (hk r).core) h
    choose m1 e1 g1 using fun r => (hk r).mask1
    choose m2 e2 g2 using fun r => (hk r).mask2
    have w1 : ∀ r, MaskOf (m1 r) (s 0).info.batchAxis (s 0).info.channelAxis (s 0).L.n1 (s r).mc (s 0).L.S1 (s 0).len1 := by
      intro r
      have := g1 r
      rwa [(hz r).1, (hz r).2.2.1, hb, hc, ht.len1] at this
    have w2 : ∀ r, MaskOf (m2 r) (s 0).info.batchAxis (s 0).info.channelAxis (s 0).L.n2 (s r).mc (s 0).L.S2 (s 0).len2 := by
      intro r
      have := g2 r
      rwa [(hz r).2.1, (hz r).2.2.2, hb, hc, ht.len2] at this
    obtain ⟨M1, p1, q1⟩ := cat_masks (axis := axis) x1 x2 x3 hax fun r => ⟨w1 r, ht.maskChannels r⟩
    obtain ⟨M2, p2, q2⟩ := cat_masks (axis := axis) x1 (by omega) (by omega) (by rw [hr]; exact hax) fun r => ⟨w2 r, ht.maskChannels r⟩
    have r1 : (List.ofFn k).map (·.shape1) = List.ofFn fun r => actIdx (s 0).info.batchAxis (s 0).info.channelAxis (s 0).L.n1 (s r).c (s 0).L.S1 := by
      rw [List.map_ofFn]
      congr 1
      funext r
      have := (hk r).core.fields.2.2.2.2.1.trans (hs r).shape1
      rwa [hb, hc, (hz r).1, (hz r).2.2.1] at this
    have r2 : (List.ofFn k).map (·.shape2) = List.ofFn fun r => actIdx (s 0).info.batchAxis (s 0).info.channelAxis (s 0).L.n2 (s r).c (s 0).L.S2 := by
      rw [List.map_ofFn]
      congr 1
      funext r
      have := (hk r).core.fields.2.2.2.2.2.1.trans (hs r).shape2
      rwa [hb, hc, (hz r).2.1, (hz r).2.2.2] at this
    have f1 : (List.ofFn k).map (·.mask1) = List.ofFn fun r => some (m1 r) := by
      rw [List.map_ofFn]
      congr 1
      funext r
      exact e1 r
    have f2 : (List.ofFn k).map (·.mask2) = List.ofFn fun r => some (m2 r) := by
      rw [List.map_ofFn]
      congr 1
      funext r
      exact e2 r
    refine ⟨{ k' with mask1 := some M1, mask2 := some M2 }, by simp only [fanWithMasking, f1, f2, r1, r2, p1, p2, e, bind, Except.bind], ?_⟩
    rw [r1, r2, ho _ _ rfl, ho _ _ hr, ← a4, ← a5]
    have hst : setShapes t.info.shape1 t.info.shape2 { k' with mask1 := some M1, mask2 := some M2 } = { k' with mask1 := some M1, mask2 := some M2 } := by
      rw [← hco.fields.2.2.2.2.1, ← hco.fields.2.2.2.2.2.1]
      rfl
    rw [hst]
    refine ⟨⟨⟨hco.stores.nngp, hco.stores.cov1, hco.stores.cov2, hco.stores.ntk⟩, hco.static, hco.full, hco.zero⟩, ⟨M1, rfl, ?_⟩, ⟨M2, rfl, ?_⟩⟩
    · simp only [joinedChannels, a2, a3, b1, b3]; exact q1
    · simp only [joinedChannels, a2, a3, b2, b4]; exact q2

end

end NT.Masked
