import Verif.Tac
import Verif.Lemmas.MaskedAlone
import Verif.Lemmas.MaskedBranch
import Verif.Spec.MaskedTree

/-!
# Sums and products of branches on padded batches
-/

namespace NT.Masked
open NT NT.Network Arr Spec Semantics

section
variable {m : ℕ} {s : Fin (m + 1) → State} {k : Fin (m + 1) → Kernel ℝ}

lemma core_combinable (hk : ∀ r, Core (s r) (k r)) (h : SameLayout s) : Combinable k fun r => (s r).L where
  stores r := (hk r).stores
  diagonalBatch r := by rw [(hk r).fields.2.2.1, (hk 0).fields.2.2.1]; exact h.diagonalBatch r
  diagonalSpatial r := by rw [(hk r).fields.2.2.2.1, (hk 0).fields.2.2.2.1]; exact h.diagonalSpatial r
  batchAxis r := by rw [(hk r).fields.2.2.2.2.2.2.1, (hk 0).fields.2.2.2.2.2.2.1]; exact h.batchAxis r
  channelAxis r := by rw [(hk r).fields.2.2.2.2.2.2.2, (hk 0).fields.2.2.2.2.2.2.2]; exact h.channelAxis r
  notReversed hd r := by rw [(hk r).fields.2.1]; exact h.notReversed (by rw [← (hk 0).fields.2.2.2.1]; exact hd) r
  sizes := h.sizes

lemma fan_core_common {f : Fan} (hk : ∀ r, Core (s r) (k r)) (h : SameLayout s) (hc : ∀ axis, f = .concat axis → (axis % ((k 0).shape1.length : ℤ)).toNat = (k 0).channelAxis)
    {k' : Kernel ℝ} (e : f.kernelFn (List.ofFn k) = .ok k') {L : Logical ℝ} (hL : k'.Stores L) {i : Kernel.Static}
    (hi : k'.isReversed = majority s → k'.isInput = (k 0).isInput → k'.static = i) :
    Core { s 0 with L := L, info := i } k' ∧ k'.x1IsX2 = (k 0).x1IsX2 ∧ k'.mask1 = none ∧ k'.mask2 = none := by
  rw [List.ofFn_succ] at e
  obtain ⟨e1, e2, e3, e4, e5⟩ := fan_fields e
  rw [← List.ofFn_succ] at e1
  have hrev : k'.isReversed = majority s := by
    rw [e1, majority, countP_ofFn (g := s) (q := fun x => x.info.isReversed) fun r => (hk r).fields.2.1, List.length_ofFn]
  have hn : ∀ a, k'.ntk = some a → a.shape ≠ [] := by
    obtain ⟨r, rev, hp, hr⟩ := preprocess_ok' (core_combinable hk h).aligned
    intro a ha
    refine fan_ntk e hp (fun q hq => ?_) hc ha
    obtain ⟨j, rfl⟩ := List.mem_ofFn.1 hq
    refine ⟨stores_nngp_shape (hr j).1, fun b hb h0 => ?_⟩
    have h1 := (hr j).2.2.2
    rw [hb] at h1
    cases hn : (k j).ntk with
    | none => rw [hn] at h1; simp at h1
    | some c =>
      rw [hn] at h1
      simp only [Option.map_some, Option.some.injEq, Arr.ndim, h0, List.length_nil] at h1
      exact (hk j).full (h.full j) c hn (List.length_eq_zero_iff.1 h1.symm)
  exact ⟨⟨hL, hi hrev e2, fun _ => hn, fun a ha h0 => absurd h0 (hn a ha)⟩, e3, e4, e5⟩

/-- The sum or product of kernels, apart from masks. -/
lemma fan_core {f : Fan} {t : State} (hf : f = .sum ∨ f = .prod) (hk : ∀ r, Core (s r) (k r)) (h : FanSem f s t) :
    ∃ k', f.kernelFn (List.ofFn k) = .ok k' ∧ Core t k' ∧ k'.x1IsX2 = (k 0).x1IsX2 ∧ k'.mask1 = none ∧ k'.mask2 = none := by
  have i1 := fun r => (hk r).fields.1
  have i5 := fun r => (hk r).fields.2.2.2.2.1
  have i6 := fun r => (hk r).fields.2.2.2.2.2.1
  rcases hf with rfl | rfl
  · obtain ⟨h1, h2, h3, c2, cn, h4, h5, rfl⟩ := h
    obtain ⟨k', e1, e2, e3, e4, e5, e6, e7, e8, e9⟩ := C38.sum_content k _ (core_combinable hk h1) c2 cn h4 h5 (fun r => by
      rw [i5, i6, i5, i6]; exact h3 r) (h2.imp (fun h r => by rw [i1]; exact h r) id)
    refine ⟨k', e1, fan_core_common (f := .sum) hk h1 (fun _ h => by simp at h) e1 e2 fun hr hin => ?_⟩
    have hg : k'.isGaussian = (k 0).isGaussian := by
      rw [Bool.eq_iff_iff, e9]
      rcases h2 with h | h
      · exact ⟨fun h => h 0, fun _ r => by rw [i1]; exact h r⟩
      · subst h
        exact ⟨fun h => h 0, fun h r => by rw [show r = 0 from Fin.ext (by omega)]; exact h⟩
    rw [← (hk 0).static]
    simp only [Kernel.static]
    rw [hg, e3, e4, e5, e6, e7, e8, hr, hin]
  · obtain ⟨h1, h3, c2, cn, h4, h5, rfl⟩ := h
    obtain ⟨k', e1, e2, e3, e4, e5, e6, e9⟩ := C39.prod_content k _ (core_combinable hk h1) c2 cn h4 h5 (fun r => by
      rw [i5, i6, i5, i6]; exact h3 r)
    refine ⟨k', e1, fan_core_common (f := .prod) hk h1 (fun _ h => by simp at h) e1 e2 fun hr hin => ?_⟩
    have hg : k'.isGaussian = (decide (m = 0) && (k 0).isGaussian) := by
      rw [Bool.eq_iff_iff, e9]; simp
    have hsh : k'.shape1 = (k 0).shape1 ∧ k'.shape2 = (k 0).shape2 := by
      have e := e1
      rw [List.ofFn_succ] at e
      simp only [Kernel.fanInProd] at e
      split at e
      · simp at e
      · split at e
        · simp at e
        · split at e <;> first | (simp at e; done) | skip
          rw [← Except.ok.inj e]
          exact ⟨rfl, rfl⟩
    rw [← (hk 0).static]
    simp only [Kernel.static]
    rw [hg, e3, e4, e5, e6, hsh.1, hsh.2, hr, hin]

end

/-- The conjunction of the masks of several branches. -/
lemma sum_masks_ok {B A n C : ℕ} {S : List ℕ} {len : ℕ → List ℕ} : ∀ {m : ℕ} {c : ℕ} {mc : Fin m → ℕ} {a : Arr Bool} {ms : Fin m → Arr Bool},
    MaskOf a B A n c S len → (c = 1 ∨ c = C) → 0 < c → (∀ r, MaskOf (ms r) B A n (mc r) S len) → (∀ r, mc r = 1 ∨ mc r = C) → (∀ r, 0 < mc r) →
    ∃ M, Masks.sumFrom (some a) (List.ofFn fun r => some (ms r)) = .ok (some M) ∧ MaskOf M B A n ((List.ofFn mc).foldl max c) S len ∧
      0 < (List.ofFn mc).foldl max c
  | 0, c, mc, a, ms, h, hc, hp, _, _, _ => ⟨a, by simp [Masks.sumFrom], by simpa using h, by simpa using hp⟩
  | m + 1, c, mc, a, ms, h, hc, hp, hm, hmc, hmp => by
    obtain ⟨M, e, hM⟩ := and_ok h (hm 0) hc (hmc 0) hp (hmp 0)
    have h0 := hmp 0
    have h1 := hmc 0
    obtain ⟨M', e', hM'⟩ := sum_masks_ok (m := m) (c := max c (mc 0)) (mc := fun r => mc r.succ) (ms := fun r => ms r.succ) hM (by omega) (by omega)
      (fun r => hm r.succ) (fun r => hmc r.succ) fun r => hmp r.succ
    refine ⟨M', ?_, by rw [List.ofFn_succ]; exact hM'⟩
    rw [List.ofFn_succ]
    simp only [Masks.sumFrom, Masks.addTwo, e, Except.map]
    exact e'

section
variable {m : ℕ} {s : Fin (m + 1) → Padded}

/-- What a sum or product has in common with the branches. -/
lemma fan_same {f : Fan} {t : State} (hf : f = .sum ∨ f = .prod) (h : FanSem f (fun r => (s r).toState) t) :
    SameLayout (fun r => (s r).toState) ∧ (∀ r, (s r).info.shape1 = (s 0).info.shape1 ∧ (s r).info.shape2 = (s 0).info.shape2) ∧
    t.info.diagonalSpatial = (s 0).info.diagonalSpatial ∧ t.info.batchAxis = (s 0).info.batchAxis ∧ t.info.channelAxis = (s 0).info.channelAxis ∧
    t.info.shape1 = (s 0).info.shape1 ∧ t.info.shape2 = (s 0).info.shape2 ∧
    t.L.n1 = (s 0).L.n1 ∧ t.L.n2 = (s 0).L.n2 ∧ t.L.S1 = (s 0).L.S1 ∧ t.L.S2 = (s 0).L.S2 ∧ t.L.k22.isSome = (s 0).L.k22.isSome := by
  rcases hf with rfl | rfl
  · obtain ⟨h1, h2, h3, c2, cn, h4, h5, rfl⟩ := h
    refine ⟨h1, h3, rfl, rfl, rfl, rfl, rfl, rfl, rfl, rfl, rfl, ?_⟩
    have := h4 0
    dsimp only at this
    rw [this]
    cases c2 <;> simp [C38.sumL]
  · obtain ⟨h1, h3, c2, cn, h4, h5, rfl⟩ := h
    refine ⟨h1, h3, rfl, rfl, rfl, rfl, rfl, rfl, rfl, rfl, rfl, ?_⟩
    have := h4 0
    dsimp only at this
    rw [this]
    cases c2 <;> simp [C39.prodL]

/-- Sums and products of zeros are zero. -/
lemma fan_zero {f : Fan} {t : State} (hf : f = .sum ∨ f = .prod) (ht : Together s) (hs : ∀ r, (s r).Ok) (h : FanSem f (fun r => (s r).toState) t) :
    ZeroPadding t.L (s 0).len1 (s 0).len2 := by
  have hl := (fan_same hf h).1
  have z12 : ∀ r, ∀ i < (s 0).L.n1, ∀ j < (s 0).L.n2, ∀ p q, InRange p (s 0).L.S1 → InRange q (s 0).L.S2 →
      ¬(InRange p ((s 0).len1 i) ∧ InRange q ((s 0).len2 j)) → (s r).L.k12 [i, j] p q = 0 := by
    intro r
    have := (hs r).zero.k12
    have z := hl.sizes r
    rwa [z.1, z.2.1, z.2.2.1, z.2.2.2, ht.len1, ht.len2] at this
  have z11 : ∀ r, ∀ i < (s 0).L.n1, ∀ j < (s 0).L.n1, ∀ p q, InRange p (s 0).L.S1 → InRange q (s 0).L.S1 →
      ¬(InRange p ((s 0).len1 i) ∧ InRange q ((s 0).len1 j)) → (s r).L.k11 [i, j] p q = 0 := by
    intro r
    have := (hs r).zero.k11
    have z := hl.sizes r
    rwa [z.1, z.2.2.1, ht.len1] at this
  have z22 : ∀ r, ∀ i < (s 0).L.n2, ∀ j < (s 0).L.n2, ∀ p q, InRange p (s 0).L.S2 → InRange q (s 0).L.S2 →
      ¬(InRange p ((s 0).len2 i) ∧ InRange q ((s 0).len2 j)) → ((s r).L.k22.getD 0) [i, j] p q = 0 := by
    intro r
    cases e : (s r).L.k22 with
    | none => intros; rfl
    | some F =>
      have := (hs r).zero.k22 F e
      have z := hl.sizes r
      rwa [z.2.1, z.2.2.2, ht.len2] at this
  have zn : ∀ r, ∀ i < (s 0).L.n1, ∀ j < (s 0).L.n2, ∀ p q, InRange p (s 0).L.S1 → InRange q (s 0).L.S2 →
      ¬(InRange p ((s 0).len1 i) ∧ InRange q ((s 0).len2 j)) → ((s r).L.ntk.getD 0) [i, j] p q = 0 := by
    intro r
    cases e : (s r).L.ntk with
    | none => intros; rfl
    | some F =>
      have := (hs r).zero.ntk F e
      have z := hl.sizes r
      rwa [z.1, z.2.1, z.2.2.1, z.2.2.2, ht.len1, ht.len2] at this
  rcases hf with rfl | rfl
  · obtain ⟨h1, h2, h3, c2, cn, h4, h5, rfl⟩ := h
    refine ⟨fun i hi j hj p q hp hq hn => (Finset.sum_eq_zero fun r _ => z12 r i hi j hj p q hp hq hn : ∑ r, (s r).L.k12 [i, j] p q = 0),
      fun i hi j hj p q hp hq hn => (Finset.sum_eq_zero fun r _ => z11 r i hi j hj p q hp hq hn : ∑ r, (s r).L.k11 [i, j] p q = 0), fun F hF i hi j hj p q hp hq hn => ?_,
      fun F hF i hi j hj p q hp hq hn => ?_⟩
    · cases c2 <;> simp only [C38.sumL, reduceCtorEq, if_false, if_true, Bool.false_eq_true, Option.some.injEq] at hF
      subst hF
      exact Finset.sum_eq_zero fun r _ => z22 r i hi j hj p q hp hq hn
    · cases cn <;> simp only [C38.sumL, reduceCtorEq, if_false, if_true, Bool.false_eq_true, Option.some.injEq] at hF
      subst hF
      exact Finset.sum_eq_zero fun r _ => zn r i hi j hj p q hp hq hn
  · obtain ⟨h1, h3, c2, cn, h4, h5, rfl⟩ := h
    refine ⟨fun i hi j hj p q hp hq hn => (Finset.prod_eq_zero (Finset.mem_univ 0) (z12 0 i hi j hj p q hp hq hn) : ∏ r, (s r).L.k12 [i, j] p q = 0),
      fun i hi j hj p q hp hq hn => (Finset.prod_eq_zero (Finset.mem_univ 0) (z11 0 i hi j hj p q hp hq hn) : ∏ r, (s r).L.k11 [i, j] p q = 0), fun F hF i hi j hj p q hp hq hn => ?_,
      fun F hF i hi j hj p q hp hq hn => ?_⟩
    · cases c2 <;> simp only [C39.prodL, reduceCtorEq, if_false, if_true, Bool.false_eq_true, Option.some.injEq] at hF
      subst hF
      exact Finset.prod_eq_zero (Finset.mem_univ 0) (z22 0 i hi j hj p q hp hq hn)
    · cases cn <;> simp only [C39.prodL, reduceCtorEq, if_false, if_true, Bool.false_eq_true, Option.some.injEq] at hF
      subst hF
      exact Finset.sum_eq_zero fun r _ => by rw [zn r i hi j hj p q hp hq hn, zero_mul]

/-- The sum or product of padded batches. -/
lemma fan_batch {f : Fan} {t : State} {out : List (List ℕ) → List ℕ} (hf : f = .sum ∨ f = .prod) (ht : Together s) (hs : ∀ r, (s r).Ok)
    (h : FanSem f (fun r => (s r).toState) t) (ho : ∀ x, out (List.replicate (m + 1) x) = x) : (fanned s t).Ok ∧ ∀ k : Fin (m + 1) → Kernel ℝ,
      (∀ r, Batch (s r) (k r)) → ∃ k', fanWithMasking f (List.ofFn k) = .ok k' ∧
        Batch (fanned s t) (setShapes (out ((List.ofFn k).map (·.shape1))) (out ((List.ofFn k).map (·.shape2))) k') := by
  obtain ⟨hl, hsh, a1, a2, a3, a4, a5, b1, b2, b3, b4, b5⟩ := fan_same hf h
  have hmc : 0 < (fanned s t).mc := by
    have key : ∀ (l : List ℕ) (c : ℕ), 0 < c → 0 < l.foldl max c := by
      intro l
      induction l with
      | nil => exact fun c h => h
      | cons a l ih => exact fun c h => ih _ (by omega)
    exact key _ _ (hs 0).mc
  have h0 := hs 0
  refine ⟨⟨?_, ?_, ?_, ?_, ?_, ?_, ?_, ?_, hmc, fan_zero hf ht hs h⟩, fun k hk => ?_⟩
  · exact a1.trans h0.pairs
  · intro g
    have := Option.isSome_iff_ne_none.2 h0.two
    rw [← b5] at this
    change t.L.k22 = none at g
    rw [g] at this
    simp at this
  · simp only [fanned, a2, a3, b3]; exact h0.axes
  · simp only [fanned, b3, b4]; exact h0.rank
  · simp only [fanned, a2, a3, a4, b1, b3]; exact h0.shape1
  · simp only [fanned, a2, a3, a5, b2, b4]; exact h0.shape2
  · simp only [fanned, b1, b3]; exact h0.len1
  · simp only [fanned, b2, b4]; exact h0.len2
  · obtain ⟨k', e, hc, -, -, -⟩ := fan_core (s := fun r => (s r).toState) hf (fun r => (hk r).core) h
    choose m1 e1 g1 using fun r => (hk r).mask1
    choose m2 e2 g2 using fun r => (hk r).mask2
    have w1 : ∀ r, MaskOf (m1 r) (s 0).info.batchAxis (s 0).info.channelAxis (s 0).L.n1 (s r).mc (s 0).L.S1 (s 0).len1 := by
      intro r
      have := g1 r
      have z := hl.sizes r
      have y1 := hl.batchAxis r
      have y2 := hl.channelAxis r
      rwa [z.1, z.2.2.1, y1, y2, ht.len1] at this
    have w2 : ∀ r, MaskOf (m2 r) (s 0).info.batchAxis (s 0).info.channelAxis (s 0).L.n2 (s r).mc (s 0).L.S2 (s 0).len2 := by
      intro r
      have := g2 r
      have z := hl.sizes r
      have y1 := hl.batchAxis r
      have y2 := hl.channelAxis r
      rwa [z.2.1, z.2.2.2, y1, y2, ht.len2] at this
    obtain ⟨M1, p1, q1, -⟩ := sum_masks_ok (w1 0) (ht.maskChannels 0) (hs 0).mc (fun r => w1 r.succ) (fun r => ht.maskChannels r.succ) fun r => (hs r.succ).mc
    obtain ⟨M2, p2, q2, -⟩ := sum_masks_ok (w2 0) (ht.maskChannels 0) (hs 0).mc (fun r => w2 r.succ) (fun r => ht.maskChannels r.succ) fun r => (hs r.succ).mc
    have f1 : ∀ sh, fanMask f ((List.ofFn k).map (·.mask1)) sh = .ok (some M1) := by
      intro sh
      have : Masks.sum ((List.ofFn k).map (·.mask1)) = .ok (some M1) := by
        rw [List.map_ofFn, List.ofFn_succ]
        simp only [Masks.sum, Masks.sumFrom, Function.comp_apply, e1, Masks.addTwo]
        exact p1
      rcases hf with rfl | rfl <;> exact this
    have f2 : ∀ sh, fanMask f ((List.ofFn k).map (·.mask2)) sh = .ok (some M2) := by
      intro sh
      have : Masks.sum ((List.ofFn k).map (·.mask2)) = .ok (some M2) := by
        rw [List.map_ofFn, List.ofFn_succ]
        simp only [Masks.sum, Masks.sumFrom, Function.comp_apply, e2, Masks.addTwo]
        exact p2
      rcases hf with rfl | rfl <;> exact this
    refine ⟨{ k' with mask1 := some M1, mask2 := some M2 }, by simp only [fanWithMasking, f1, f2, e, bind, Except.bind], ?_⟩
    have r1 : (List.ofFn k).map (·.shape1) = List.replicate (m + 1) (s 0).info.shape1 := by
      rw [List.map_ofFn, ← List.ofFn_const]
      congr 1
      funext r
      exact (hk r).core.fields.2.2.2.2.1.trans (hsh r).1
    have r2 : (List.ofFn k).map (·.shape2) = List.replicate (m + 1) (s 0).info.shape2 := by
      rw [List.map_ofFn, ← List.ofFn_const]
      congr 1
      funext r
      exact (hk r).core.fields.2.2.2.2.2.1.trans (hsh r).2
    rw [r1, r2, ho, ho, ← a4, ← a5]
    have hst : setShapes t.info.shape1 t.info.shape2 { k' with mask1 := some M1, mask2 := some M2 } = { k' with mask1 := some M1, mask2 := some M2 } := by
      rw [← hc.fields.2.2.2.2.1, ← hc.fields.2.2.2.2.2.1]
      rfl
    rw [hst]
    refine ⟨⟨⟨hc.stores.nngp, hc.stores.cov1, hc.stores.cov2, hc.stores.ntk⟩, hc.static, hc.full, hc.zero⟩, ⟨M1, rfl, ?_⟩, ⟨M2, rfl, ?_⟩⟩
    · simp only [fanned, a2, a3, b1, b3]; exact q1
    · simp only [fanned, a2, a3, b2, b4]; exact q2

end

end NT.Masked
