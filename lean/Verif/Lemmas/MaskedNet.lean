import Verif.Lemmas.MaskedPool

/-!
# A padded batch and one of its examples alone
-/

namespace NT.Masked
open NT NT.Network Arr Spec Semantics

/-! ### Padded batches -/

/-- What layers other than global pooling leave as it is. -/
structure Kept (s : Padded) (t : State) : Prop where
  batchAxis : t.info.batchAxis = s.info.batchAxis
  channelAxis : t.info.channelAxis = s.info.channelAxis
  diagonalSpatial : t.info.diagonalSpatial = s.info.diagonalSpatial
  sizes : t.L.n1 = s.L.n1 ∧ t.L.n2 = s.L.n2 ∧ t.L.S1 = s.L.S1 ∧ t.L.S2 = s.L.S2
  two : t.L.k22.isSome = s.L.k22.isSome

lemma Kept.dims {s : Padded} {t : State} (h : Kept s t) : t.info.batchAxis = s.info.batchAxis ∧ t.info.channelAxis = s.info.channelAxis ∧
    t.L.n1 = s.L.n1 ∧ t.L.n2 = s.L.n2 ∧ t.L.S1 = s.L.S1 ∧ t.L.S2 = s.L.S2 := ⟨h.batchAxis, h.channelAxis, h.sizes⟩

lemma next_ok {s : Padded} {t : State} {out : List ℕ → List ℕ} {c mc : ℕ} (hs : s.Ok) (h : Kept s t) (ho : SameSizes out s c) (hm : 0 < mc) :
    (s.next t out c mc).Ok := by
  obtain ⟨h1, h2, h3, ⟨h4, h5, h6, h7⟩, h8⟩ := h
  have e1 := ho s.L.n1 s.L.S1 rfl
  have e2 := ho s.L.n2 s.L.S2 hs.rank
  rw [← hs.shape1] at e1
  rw [← hs.shape2] at e2
  refine ⟨?_, ?_, ?_, ?_, ?_, ?_, ?_, ?_, hm, mask_zero t.L s.len1 s.len2⟩
  · exact h3.trans hs.pairs
  · intro g
    simp only [Padded.next, State.withShapes, C25.maskL, Option.map_eq_none_iff] at g
    have := Option.isSome_iff_ne_none.2 hs.two
    rw [← h8, g] at this
    simp at this
  · simp only [Padded.next, State.withShapes, C25.maskL, h1, h2, h6]; exact hs.axes
  · simp only [Padded.next, State.withShapes, C25.maskL, h6, h7]; exact hs.rank
  · simp only [Padded.next, State.withShapes, C25.maskL, h1, h2, h4, h6]; exact e1
  · simp only [Padded.next, State.withShapes, C25.maskL, h1, h2, h5, h7]; exact e2
  · simp only [Padded.next, State.withShapes, C25.maskL, h4, h6]; exact hs.len1
  · simp only [Padded.next, State.withShapes, C25.maskL, h5, h7]; exact hs.len2

lemma kept_dense {d : Dense} {s : Padded} {t : State} (h : LayerSem (.dense d) s.toState t) : Kept s t := by
  obtain ⟨-, -, C, -, -, rfl⟩ := h
  exact ⟨rfl, rfl, rfl, ⟨rfl, rfl, rfl, rfl⟩, by simp [C52.after]⟩

lemma kept_conv {d : Conv} {s : Padded} {t : State} (h : LayerSem (.conv d) s.toState t) (hp : d.padding = .same) (hw : ∀ v ∈ d.filter, v.2 = 1)
    (hb : d.batchAxis = s.info.batchAxis) (ha : d.channelAxis = s.info.channelAxis) : Kept s t := by
  obtain ⟨-, -, -, h3, h4, -, -, -, rfl⟩ := h
  exact ⟨hb, ha, rfl, ⟨rfl, rfl, by simp only [C53.after, hp]; exact outDims_same _ _ hw h3, by simp only [C53.after, hp]; exact outDims_same _ _ hw h4⟩,
    by simp [C53.after]⟩

lemma kept_pool {d : Pool} {s : Padded} {t : State} (h : LayerSem (.pool d) s.toState t) (hp : d.padding = .same) (hw : ∀ v ∈ d.window, v.2 = 1) : Kept s t := by
  obtain ⟨-, h3, h4, -, rfl⟩ := h
  exact ⟨rfl, rfl, rfl, ⟨rfl, rfl, by simp only [C54.pooled, linLogical, hp]; exact outDims_same _ _ hw h3,
    by simp only [C54.pooled, linLogical, hp]; exact outDims_same _ _ hw h4⟩, by simp [C54.pooled, linLogical]⟩

/-- Each layer computes the kernel of the padded batch. -/
theorem step_batch {l : MLayer} {out : List ℕ → List ℕ} {s t : Padded} (hs : s.Ok) (h : Step l out s t) :
    t.Ok ∧ ∀ k, Batch s k → ∃ k', l.withMasking k = .ok k' ∧ Batch t (setShapes (out k.shape1) (out k.shape2) k') := by
  obtain ⟨x1, x2, x3⟩ := hs.axes
  cases h with
  | @dense d _ _ t c ha hl ho =>
    refine ⟨next_ok hs (kept_dense hl) ho Nat.one_pos, fun k hk => ?_⟩
    obtain ⟨k', e, hk'⟩ := core_dense hk.core hl
    refine remask_step out c hs hk rfl (fun m n S len hS hm => ?_) e hk' (kept_dense hl).dims
    have hnd : m.ndim = S.length + 2 := by unfold ndim; rw [hm.shape, actIdx_length _ _ _ _ _ x1 (by omega) (by omega)]
    refine ⟨allKeep m s.info.channelAxis, ?_, allKeep_ok hm x1 (by omega) (by omega) hs.mc⟩
    simp only [MLayer.maskFn, hnd, hS, ha, Int.toNat_natCast]
  | @conv d _ _ t c hp hw hsh hb ha hl ho =>
    have kp := kept_conv hl hp hw hb ha
    refine ⟨next_ok hs kp ho Nat.one_pos, fun k hk => ?_⟩
    obtain ⟨k', e, hk'⟩ := core_conv hk.core hl
    obtain ⟨-, -, h2, h3, -⟩ := hl
    refine remask_step out c hs hk rfl (fun m n S len hS hm => ?_) e hk' kp.dims
    have hm' := allKeep_ok hm x1 (by omega) (by omega) hs.mc
    refine ⟨allKeep m s.info.channelAxis, ?_, hm'⟩
    simp only [MLayer.maskFn, hp, reduceCtorEq, if_false, hb, ha]
    exact poolMask_ok hm'.shape x1 (by omega) (by omega) (fun v hv => ⟨(h2 v hv).1, hw v hv⟩) (by rw [hS]; exact h3)
  | @pool d _ _ t hp hw hn hb ha hmc hl ho =>
    have kp := kept_pool hl hp hw
    refine ⟨next_ok hs kp ho Nat.one_pos, fun k hk => ?_⟩
    have hk' := core_pool hk.core (closed_of hs) hl
    obtain ⟨h2, h3, -⟩ := hl
    refine remask_step out s.c hs hk rfl (fun m n S len hS hm => ?_) rfl hk' kp.dims
    rw [hmc] at hm
    refine ⟨m, ?_, hm⟩
    simp only [MLayer.maskFn, hp, reduceCtorEq, if_false, hb, ha]
    rw [if_neg (by rw [hm.shape, act_getChannel _ _ _ _ _ x1 (by omega) (by omega)]; simp)]
    exact poolMask_ok hm.shape x1 (by omega) (by omega) (fun v hv => ⟨(h2 v hv).1, hw v hv⟩) (by rw [hS]; exact h3)
  | @act f remask _ _ C φ dφ N T hr hmc hg hf hv ho =>
    have kp : Kept s { s.toState with L := entrywise N T s.L, info := { s.info with isGaussian := false }, full := true } :=
      ⟨rfl, rfl, rfl, ⟨rfl, rfl, rfl, rfl⟩, by simp [entrywise]⟩
    refine ⟨next_ok hs kp ho hs.mc, fun k hk => ?_⟩
    obtain ⟨k', e, hk'⟩ := core_act hk.core (closed_of hs) hg hf hv
    cases remask with
    | true =>
      have h1 := hmc rfl
      have := remask_step (l := .act f true) out s.c hs hk rfl (fun m n S len hS hm => ⟨m, rfl, by rw [h1] at hm; exact hm⟩) e hk' kp.dims
      rw [h1]
      exact this
    | false =>
      rcases hr with hr | ⟨h0, hp⟩
      · simp at hr
      · exact plain_step (l := .act f false) out s.c hk rfl rfl e hk' (entrywise_zero hf h0 hs.two hv hp hs.zero) kp.dims
  | @dropout d _ _ h0 h1 hm ho =>
    have kp : Kept s s.toState := ⟨rfl, rfl, rfl, ⟨rfl, rfl, rfl, rfl⟩, rfl⟩
    exact ⟨next_ok hs kp ho hs.mc, fun k hk => plain_step (l := .dropout d) out s.c hk rfl rfl
      (C56.test_identity d h0 h1 hm k (scalar 0) fun _ => true).1 ⟨hk.core, rfl, rfl⟩ hs.zero kp.dims⟩
  | identity ho =>
    have kp : Kept s s.toState := ⟨rfl, rfl, rfl, ⟨rfl, rfl, rfl, rfl⟩, rfl⟩
    exact ⟨next_ok hs kp ho hs.mc, fun k hk => plain_step (l := .identity) out s.c hk rfl rfl rfl ⟨hk.core, rfl, rfl⟩ hs.zero kp.dims⟩
  | @globalPool d _ _ b a hmc hfull hb ha hp1 hp2 hb' ha' ho =>
    refine ⟨?_, fun k hk => global_step out hs hk hmc hfull hb ha hp1 hp2 hb' ha'⟩
    refine ⟨hs.pairs, ?_, ?_, rfl, ?_, ?_, fun i _ => List.Forall₂.nil, fun i _ => List.Forall₂.nil, Nat.one_pos, ?_⟩
    · have := hs.two
      simpa [pooledExamples] using this
    · by_cases h : s.info.batchAxis < s.info.channelAxis <;> simp [hb', ha', h, pooledExamples]
    · simp only [pooledExamples, hs.shape1]; exact ho _ _ rfl
    · simp only [pooledExamples, hs.shape2]; exact ho _ _ hs.rank
    · have e : ∀ p : List ℕ, InRange p [] → ∀ q : List ℕ, InRange q [] → ¬(InRange p [] ∧ InRange q []) → False := fun p hp q hq h => h ⟨hp, hq⟩
      exact ⟨fun i _ j _ p q hp hq h => (e p hp q hq h).elim, fun i _ j _ p q hp hq h => (e p hp q hq h).elim,
        fun F _ i _ j _ p q hp hq h => (e p hp q hq h).elim, fun F _ i _ j _ p q hp hq h => (e p hp q hq h).elim⟩

/-- The network computes the kernel of the padded batch. -/
theorem steps_batch {net : List (MLayer × (List ℕ → List ℕ))} {s t : Padded} (hs : s.Ok) (h : Steps net s t) :
    t.Ok ∧ ∀ k, Batch s k → ∃ k', run net k = .ok k' ∧ Batch t k' := by
  induction h with
  | nil => exact ⟨hs, fun k hk => ⟨k, rfl, hk⟩⟩
  | cons h1 _ ih =>
    obtain ⟨o1, b1⟩ := step_batch hs h1
    obtain ⟨o2, b2⟩ := ih o1
    refine ⟨o2, fun k hk => ?_⟩
    obtain ⟨k', e1, hk'⟩ := b1 k hk
    obtain ⟨k'', e2, hk''⟩ := b2 _ hk'
    exact ⟨k'', by simp [run, e1, bind, Except.bind, e2], hk''⟩

end NT.Masked
