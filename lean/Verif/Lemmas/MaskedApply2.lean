import Verif.Lemmas.MaskedNorm
import Verif.Props.C53
import Verif.Lemmas.Pool

/-!
# Layers of finite networks on padded batches
-/

namespace NT.Masked
open NT NT.Network Arr Spec

lemma tap_len {F F' : List ℕ → ℝ} {S T : List ℕ} {ws : List (ℕ × ℕ)} (hw : ∀ v ∈ ws, 0 < v.1 ∧ v.2 = 1) (hT : List.Forall₂ (· ≤ ·) T S)
    (hl : S.length = ws.length) (he : ∀ p, InRange p T → F p = F' p) (hz : ∀ p, InRange p S → ¬InRange p T → F p = 0) {o : List ℕ} (ho : InRange o S)
    (f : List ℕ) : readTap F (readIdx .same S ws o f) = readTap F' (readIdx .same T ws o f) := by
  have hp : PosWin ws := fun v hv => ⟨(hw v hv).1, by rw [(hw v hv).2]; exact Nat.one_pos⟩
  rw [readIdx_len S T ws o f hw hT]
  cases e : readIdx .same S ws o f with
  | none => rfl
  | some p =>
    have r := readIdx_inRange .same S ws o f p hp hl (by rw [outDims_same S ws (fun v hv => (hw v hv).2) hl]; exact ho) e
    by_cases h : InRange p T
    · simp only [Option.filter_some, h, decide_true, if_true, readTap]
      exact he p h
    · simp only [Option.filter_some, h, decide_false, Bool.false_eq_true, if_false, readTap]
      exact hz p r h

variable {f g : Format} {n i : ℕ} {S : List ℕ} {len : ℕ → List ℕ} {X Y : Arr ℝ} {m : Arr Bool}

lemma Out.rank' (h : Out f n i S len X m Y) (hi : i < n) : (len i).length = f.rank := (h.fits i hi).length_eq.trans h.rank

/-- A layer takes `X`, `Y` to `X'`, `Y'` and the mask `m` to `m'`. -/
def Takes' (l : ALayer) (X : Arr ℝ) (m : Arr Bool) (Y X' : Arr ℝ) (m' : Arr Bool) (Y' : Arr ℝ) : Prop :=
  l.apply X (some m) = .ok X' ∧ l.mlayer.maskFn m = .ok m' ∧ l.apply Y none = .ok Y'

lemma dense_step {d : Dense} {W : Arr ℝ} {b : Option (Arr ℝ)} {D : ℕ} (hf : f.Ok) (h : In f n i S len X m Y) (hi : i < n) (hd : d.param ≠ .other)
    (hc : d.channelAxis % ((f.rank + 2 : ℕ) : ℤ) = f.channelAxis) (hW : W.shape = [f.channels, D])
    (hb : ∀ b', b = some b' → b'.shape = (List.replicate (f.rank + 1) 1).insertIdx f.channelAxis D) :
    ∃ X' m' Y', Takes' (.dense d W b) X m Y X' m' Y' ∧ Out { f with channels := D, maskChannels := 1 } n i S len X' m' Y' := by
  obtain ⟨h1, h2, h3, h4, h5⟩ := hf
  have r1 := h.rank
  have r2 := h.rank' hi
  have key : ∀ (x : Arr ℝ) (k : ℕ) (T : List ℕ), T.length = f.rank → x.shape = actIdx f.batchAxis f.channelAxis k f.channels T →
      ∃ z, d.apply W b x = .ok z ∧ z.shape = actIdx f.batchAxis f.channelAxis k D T ∧ ∀ j < k, ∀ p, InRange p T → ∀ o < D,
        z.get (actIdx f.batchAxis f.channelAxis j o p) =
          d.gain f.channels * ((List.range f.channels).map fun c => W.get [c, o] * x.get (actIdx f.batchAxis f.channelAxis j c p)).sum +
            d.biasTerm b ((List.replicate (f.rank + 1) 0).insertIdx f.channelAxis o) := by
    intro x k T hT hx
    have e : ∀ (u v : ℕ) (p : List ℕ), p.length = f.rank → actIdx f.batchAxis f.channelAxis u v p =
        (p.insertIdx (newAxis f.batchAxis f.channelAxis) u).insertIdx f.channelAxis v := fun u v p hp =>
      actIdx_insert _ _ _ _ _ h1 (by omega) (by omega)
    have hna : newAxis f.batchAxis f.channelAxis ≤ f.rank := by unfold newAxis; split <;> omega
    have hl : (T.insertIdx (newAxis f.batchAxis f.channelAxis) k).length = f.rank + 1 := by rw [List.length_insertIdx_of_le_length (by omega), hT]
    obtain ⟨z, z1, z2, z3⟩ := Dense.apply_ok d hd W x b f.channelAxis f.channels D (T.insertIdx (newAxis f.batchAxis f.channelAxis) k) (by omega)
      (by rw [hl, ← hc]; push_cast; congr 1) hW (by rw [hx, e _ _ _ hT]) (by rw [hl]; exact hb)
    refine ⟨z, z1, by rw [z2, e _ _ _ hT], fun j hj p hp o ho => ?_⟩
    have hpl : p.length = f.rank := hp.length.trans hT
    have := z3 (p.insertIdx (newAxis f.batchAxis f.channelAxis) j) o (inRange_insert hp (by omega) hj) ho
    rw [hl] at this
    rw [e _ _ _ hpl, this]
    simp only [e _ _ _ hpl]
  obtain ⟨z, z1, z2, z3⟩ := key X n S r1 h.shape
  obtain ⟨w, w1, w2, w3⟩ := key Y 1 (len i) r2 h.alone
  have hnd : m.ndim = f.rank + 2 := by unfold ndim; rw [h.mask.shape, actIdx_length _ _ _ _ _ h1 (by omega) (by omega), r1]
  have hax : (d.channelAxis % (m.ndim : ℤ)).toNat = f.channelAxis := by rw [hnd, hc]; simp
  have hmk := allKeep_ok h.mask h1 (by omega) (by omega) h5
  refine ⟨z, allKeep m f.channelAxis, w, ⟨z1, ?_, w1⟩, z2, hmk, w2, fun c hc' p hp => ?_, r1, h.fits⟩
  · simp only [ALayer.mlayer, MLayer.maskFn, hax]
  · dsimp only at hc' ⊢
    rw [z3 i hi p (inRange_le hp (h.fits i hi)) c hc', w3 0 Nat.one_pos p hp c hc']
    congr 3
    refine List.map_congr_left fun c' hc'' => ?_
    rw [h.same c' (by simpa using hc'') p hp]

lemma conv_step {d : Conv} {W : Arr ℝ} {b : Option (Arr ℝ)} {D : ℕ} (hf : f.Ok) (h : In f n i S len X m Y) (hi : i < n) (hd : d.param ≠ .other)
    (hsh : d.sharedWeights = true) (hp : d.padding = .same) (hw : ∀ v ∈ d.filter, 0 < v.1 ∧ v.2 = 1) (hl : d.filter.length = f.rank)
    (hB : d.batchAxis = f.batchAxis) (hA : d.channelAxis = f.channelAxis) (hW : W.shape = d.filter.map Prod.fst ++ [f.channels, D])
    (hb : ∀ b', b = some b' → b'.shape = (List.replicate (f.rank + 1) 1).insertIdx f.channelAxis D) :
    ∃ X' m' Y', Takes' (.conv d W b) X m Y X' m' Y' ∧ Out { f with channels := D, maskChannels := 1 } n i S len X' m' Y' := by
  obtain ⟨h1, h2, h3, h4, h5⟩ := hf
  have r1 := h.rank
  have r2 := h.rank' hi
  have hpw : PosWin d.filter := fun v hv => ⟨(hw v hv).1, by rw [(hw v hv).2]; exact Nat.one_pos⟩
  have hst : ∀ v ∈ d.filter, v.2 = 1 := fun v hv => (hw v hv).2
  obtain ⟨z, z1, z2, z3⟩ := C53.apply_ok d hd hsh hpw W X b n f.channels D S (by omega) (by omega) (by omega) (by rw [hB, hA]; exact h1) hW
    (by rw [hB, hA]; exact h.shape) (by rw [r1, hA]; exact hb)
  obtain ⟨w, w1, w2, w3⟩ := C53.apply_ok d hd hsh hpw W Y b 1 f.channels D (len i) (by omega) (by omega) (by omega) (by rw [hB, hA]; exact h1) hW
    (by rw [hB, hA]; exact h.alone) (by rw [r2, hA]; exact hb)
  rw [hp, outDims_same S d.filter hst (by omega), hB, hA] at z2 z3
  rw [hp, outDims_same (len i) d.filter hst (by omega), hB, hA] at w2 w3
  have hmk := allKeep_ok h.mask h1 (by omega) (by omega) h5
  refine ⟨z, allKeep m f.channelAxis, w, ⟨z1, ?_, w1⟩, z2, hmk, w2, fun c hc p hp' => ?_, r1, h.fits⟩
  · simp only [ALayer.mlayer, MLayer.maskFn, hp, hB, hA, reduceCtorEq, if_false]
    exact poolMask_ok hmk.shape h1 (by omega) (by omega) hw (by omega)
  · dsimp only at hc ⊢
    have hpS := inRange_le hp' (h.fits i hi)
    rw [z3 i c p hi hc hpS, w3 0 c p Nat.one_pos hc hp', r1, r2]
    congr 2
    refine Finset.sum_congr rfl fun q hq => ?_
    have hq' := mem_box.1 hq
    have hqc : q.getD d.filter.length 0 < f.channels := by
      have := (inRange_iff.1 hq').2 d.filter.length (by simp)
      simpa using this
    congr 1
    exact tap_len hw (h.fits i hi) (by omega) (fun p hp => h.same _ hqc p hp) (fun p hp hn => h.zero i hi _ hqc p hp hn) hpS _

lemma pool_step {d : Pool} (hf : f.Ok) (h : In f n i S len X m Y) (hi : i < n) (hp : d.padding = .same) (hw : ∀ v ∈ d.window, 0 < v.1 ∧ v.2 = 1)
    (ht : d.type = .sum ∨ d.normalizeEdges = false) (hl : d.window.length = f.rank) (hB : d.batchAxis = f.batchAxis) (hA : d.ca = f.channelAxis)
    (hmc : f.maskChannels = 1) : ∃ X' m' Y', Takes' (.pool d) X m Y X' m' Y' ∧ Out f n i S len X' m' Y' := by
  obtain ⟨h1, h2, h3, h4, h5⟩ := hf
  have r1 := h.rank
  have r2 := h.rank' hi
  have hpw : PosWin d.window := fun v hv => ⟨(hw v hv).1, by rw [(hw v hv).2]; exact Nat.one_pos⟩
  have hst : ∀ v ∈ d.window, v.2 = 1 := fun v hv => (hw v hv).2
  obtain ⟨z2, z3⟩ := pool_apply d X hpw S n f.channels (by omega) (by omega) (by rw [hB, hA]; exact h1) (by rw [hB, hA]; exact h.shape)
  obtain ⟨w2, w3⟩ := pool_apply d Y hpw (len i) 1 f.channels (by omega) (by omega) (by rw [hB, hA]; exact h1) (by rw [hB, hA]; exact h.alone)
  rw [hp, outDims_same S d.window hst (by omega), hB, hA] at z2 z3
  rw [hp, outDims_same (len i) d.window hst (by omega), hB, hA] at w2 w3
  have hm := h.mask
  rw [hmc] at hm
  refine ⟨_, m, _, ⟨rfl, ?_, rfl⟩, z2, h.mask, w2, fun c hc p hp' => ?_, r1, h.fits⟩
  · simp only [ALayer.mlayer, MLayer.maskFn, hp, hB, hA, hm.shape, act_getChannel _ _ _ _ _ h1 (by rw [r1]; exact h2) (by rw [r1]; exact h3), reduceCtorEq,
      if_false, ne_eq, not_true_eq_false]
    exact poolMask_ok hm.shape h1 (by omega) (by omega) hw (by omega)
  · have hpS := inRange_le hp' (h.fits i hi)
    rw [z3 i hi c hc p hpS, w3 0 Nat.one_pos c hc p hp']
    congr 1
    · exact Finset.sum_congr rfl fun q _ => tap_len hw (h.fits i hi) (by omega) (fun p hp => h.same c hc p hp) (fun p hp hn => h.zero i hi c hc p hp hn) hpS _
    · unfold Pool.size
      rcases ht with ht | ht
      · rw [ht]
      · cases d.type <;> simp [avgSize, ht]

lemma sum_len1 {M : Type} [AddCommMonoid M] {F : List ℕ → M} {S T : List ℕ} (hT : List.Forall₂ (· ≤ ·) T S)
    (hz : ∀ p, InRange p S → ¬InRange p T → F p = 0) : ∑ p ∈ box S, F p = ∑ p ∈ box T, F p :=
  (Finset.sum_subset (box_mono hT) fun p hp hn => hz p (mem_box.1 hp) fun g => hn (mem_box.2 g)).symm

/-- Global pooling with the number of positions `N` that a mean divides by. -/
noncomputable def pooled (t : Pooling) (F : List ℕ → ℝ) (T : List ℕ) : ℝ :=
  match t with
  | .avg => (∑ p ∈ box T, F p) / (T.prod : ℕ)
  | .sum => ∑ p ∈ box T, F p

lemma at_pooled (B A i c : ℕ) :
    ((actIdx (if B < A then 0 else 1) (if B < A then 1 else 0) i c []).getD (if decide (B < A) = true then 0 else 1) 0) = i ∧
      ((actIdx (if B < A then 0 else 1) (if B < A then 1 else 0) i c []).getD (if decide (B < A) = true then 1 else 0) 0) = c := by
  by_cases hlt : B < A <;> simp [hlt, actIdx]

lemma global_plain {d : GlobalPool} {B A k C : ℕ} {T : List ℕ} {x : Arr ℝ} (h1 : B ≠ A) (h2 : B < T.length + 2) (h3 : A < T.length + 2)
    (hb : d.batchAxis % ((T.length + 2 : ℕ) : ℤ) = B) (ha : d.channelAxis % ((T.length + 2 : ℕ) : ℤ) = A) (hx : x.shape = actIdx B A k C T) :
    (d.apply x).shape = actIdx (if B < A then 0 else 1) (if B < A then 1 else 0) k C [] ∧ ∀ i c,
      (d.apply x).get (actIdx (if B < A then 0 else 1) (if B < A then 1 else 0) i c []) = pooled d.type (fun p => x.get (actIdx B A i c p)) T := by
  have hnd : x.ndim = T.length + 2 := by unfold ndim; rw [hx, actIdx_length B A k C T h1 h2 h3]
  obtain ⟨g1, g2, g3⟩ := gather_act B A k C T h1 h2 h3
  have e1 : (d.batchAxis % (x.ndim : ℤ)).toNat = B := by rw [hnd, hb]; simp
  have e2 : (d.channelAxis % (x.ndim : ℤ)).toNat = A := by rw [hnd, ha]; simp
  have e3 : gather ((List.range x.ndim).filter fun i => !([B, A].contains i)) x.shape = T := by rw [hnd, hx]; exact g1
  unfold GlobalPool.apply
  simp only [e1, e2, e3]
  refine ⟨?_, fun i c => ?_⟩
  · simp only [hx, g2, g3]
    by_cases hlt : B < A <;> simp [hlt, actIdx]
  · obtain ⟨q1, q2⟩ := at_pooled B A i c
    simp only [q1, q2, sumOver_eq_box]
    cases d.type <;> rfl

lemma global_step_apply {d : GlobalPool} (hf : f.Ok) (h : In f n i S len X m Y) (hi : i < n) (hpos : ∀ j < n, 0 ∉ len j)
    (hb : d.batchAxis % ((f.rank + 2 : ℕ) : ℤ) = f.batchAxis) (ha : d.channelAxis % ((f.rank + 2 : ℕ) : ℤ) = f.channelAxis)
    (hmc : f.maskChannels = 1) : ∃ X' m' Y', Takes' (.globalPool d) X m Y X' m' Y' ∧ Out
      { f with batchAxis := if f.batchAxis < f.channelAxis then 0 else 1, channelAxis := if f.batchAxis < f.channelAxis then 1 else 0, rank := 0 }
      n i [] (fun _ => []) X' m' Y' := by
  obtain ⟨h1, h2, h3, h4, h5⟩ := hf
  have r1 := h.rank
  have r2 := h.rank' hi
  have hm := h.mask
  rw [hmc] at hm
  obtain ⟨m', q1, q2⟩ := globalMask_ok (d := d) hm h1 (by omega) (by omega) (by rw [r1]; exact hb) (by rw [r1]; exact ha) h.fits hpos rfl rfl
  obtain ⟨w2, w3⟩ := global_plain (d := d) h1 (by omega) (by omega) (by rw [r2]; exact hb) (by rw [r2]; exact ha) h.alone
  obtain ⟨z2, z3⟩ := global_plain (d := d) h1 (by omega) (by omega) (by rw [r1]; exact hb) (by rw [r1]; exact ha) h.shape
  have hsum : ∀ c < f.channels, ∑ p ∈ box S, X.get (actIdx f.batchAxis f.channelAxis i c p) =
      ∑ p ∈ box (len i), Y.get (actIdx f.batchAxis f.channelAxis 0 c p) := fun c hc => by
    rw [sum_len1 (h.fits i hi) (h.zero i hi c hc)]
    exact Finset.sum_congr rfl fun p hp => h.same c hc p (mem_box.1 hp)
  suffices hX : ∃ X', globalApply d X (some m) = .ok X' ∧ X'.shape = (d.apply X).shape ∧ ∀ c < f.channels,
      X'.get (actIdx (if f.batchAxis < f.channelAxis then 0 else 1) (if f.batchAxis < f.channelAxis then 1 else 0) i c []) =
        pooled d.type (fun p => Y.get (actIdx f.batchAxis f.channelAxis 0 c p)) (len i) by
    obtain ⟨X', x1, x2, x3⟩ := hX
    refine ⟨X', m', _, ⟨x1, q1, ?_⟩, x2.trans z2, by rw [hmc]; exact q2, w2, fun c hc p hp => ?_, rfl, fun _ _ => .nil⟩
    · show globalApply d Y none = _
      unfold globalApply
      cases d.type <;> rfl
    · rw [inRange_nil_right] at hp
      subst hp
      rw [x3 c hc, w3]
  cases ht : d.type with
  | sum =>
    refine ⟨d.apply X, by unfold globalApply; rw [ht], rfl, fun c hc => ?_⟩
    rw [z3, ht]
    exact hsum c hc
  | avg =>
    have hnd : X.ndim = S.length + 2 := by unfold ndim; rw [h.shape, actIdx_length _ _ _ _ S h1 (by omega) (by omega)]
    obtain ⟨g1, g2, g3⟩ := gather_act f.batchAxis f.channelAxis n f.channels S h1 (by omega) (by omega)
    have e1 : (d.batchAxis % (X.ndim : ℤ)).toNat = f.batchAxis := by rw [hnd, r1, hb]; simp
    have e2 : (d.channelAxis % (X.ndim : ℤ)).toNat = f.channelAxis := by rw [hnd, r1, ha]; simp
    have e3 : gather ((List.range X.ndim).filter fun i => !([f.batchAxis, f.channelAxis].contains i)) X.shape = S := by rw [hnd, h.shape]; exact g1
    have hbr : broadcasts m.shape X.shape = true := by
      have hl : (S : List ℕ).length = S.length := rfl
      unfold broadcasts
      rw [hm.shape, h.shape, zipWith_act _ _ _ _ _ _ _ _ _ hl, actIdx_length _ _ _ _ S h1 (by omega) (by omega),
        actIdx_length _ _ _ _ S h1 (by omega) (by omega)]
      simp only [beq_self_eq_true, Bool.true_and, List.all_eq_true, id_eq]
      intro v hv
      rcases act_mem hv with rfl | rfl | hv
      · simp
      · simp
      · obtain ⟨k, hk, rfl⟩ := List.mem_iff_getElem.1 hv
        simp
    unfold globalApply
    rw [ht]
    simp only [hbr, Bool.not_true, Bool.false_eq_true, if_false, e1, e2, e3]
    refine ⟨_, rfl, ?_, fun c hc => ?_⟩
    · rw [z2, h.shape, g2, g3]
      by_cases hlt : f.batchAxis < f.channelAxis <;> simp [hlt, actIdx]
    · obtain ⟨p1, p2⟩ := at_pooled f.batchAxis f.channelAxis i c
      simp only [p1, p2, sumOver_eq_box, pooled]
      rw [hsum c hc]
      have count : S.prod - ∑ p ∈ box S, (if m.get (bcastIdx m.shape (actIdx f.batchAxis f.channelAxis i c p)) = true then 1 else 0) = (len i).prod := by
        have e : ∑ p ∈ box S, 1 = (∑ p ∈ box S, if m.get (bcastIdx m.shape (actIdx f.batchAxis f.channelAxis i c p)) = true then 1 else 0) +
            ∑ p ∈ box S, if InRange p (len i) then 1 else 0 := by
          rw [← Finset.sum_add_distrib]
          refine Finset.sum_congr rfl fun p hp => ?_
          obtain ⟨ch, hch, e'⟩ := bcastIdx_act (B := f.batchAxis) (A := f.channelAxis) (mc := 1) (.inl rfl) hi hc (mem_box.1 hp)
          rw [hm.shape, e', hm.get i hi ch hch p (mem_box.1 hp)]
          by_cases hin : InRange p (len i) <;> simp [padding, hin]
        rw [← box_card, Finset.card_eq_sum_ones, e, Nat.add_sub_cancel_left, sum_len1 (h.fits i hi) fun p _ hn => if_neg hn, ← box_card,
          Finset.card_eq_sum_ones]
        exact Finset.sum_congr rfl fun p hp => if_pos (mem_box.1 hp)
      rw [count, max_eq_left (prod_pos' (hpos i hi))]

lemma norm_step {axis : List Int} {eps : ℝ} (hf : f.Ok) (h : In f n i S len X m Y) (hi : i < n)
    (hax : Utils.canonicalizeAxis axis (f.rank + 2) = .ok {f.channelAxis}) :
    ∃ X' m' Y', Takes' (.layerNorm axis eps) X m Y X' m' Y' ∧ Out f n i S len X' m' Y' := by
  have r1 := h.rank
  have r2 := h.rank' hi
  obtain ⟨X', x1, x2, x3⟩ := norm_masked (eps := eps) hf h hax
  obtain ⟨Y', y1, y2, y3⟩ := norm_plain (eps := eps) hf.ne (r2 ▸ hf.batch) (r2 ▸ hf.channel) h.alone (r2 ▸ hax)
  refine ⟨X', m, Y', ⟨x1, rfl, y1⟩, x2, h.mask, y2, fun c hc p hp => ?_, r1, h.fits⟩
  rw [x3 i hi c hc p hp, y3 0 Nat.one_pos c hc p hp]
  exact normal_congr (fun c hc => h.same c hc p hp) hc

/-- One layer. -/
lemma apply_step {l : ALayer} (hl : Accepts l f g) (hf : f.Ok) (h : In f n i S len X m Y) (hi : i < n) (hpos : ∀ j < n, 0 ∉ len j) :
    ∃ X' m' Y', Takes' l X m Y X' m' Y' ∧ Out g n i (S.take g.rank) (fun j => (len j).take g.rank) X' m' Y' := by
  have r1 := h.rank
  have keep : ∀ {g' : Format} {X' m' Y'}, g'.rank = f.rank → Out g' n i S len X' m' Y' → Out g' n i (S.take g'.rank) (fun j => (len j).take g'.rank) X' m' Y' := by
    intro g' X' m' Y' hr o
    rw [hr, ← r1, List.take_length]
    have e : ∀ j < n, (len j).take S.length = len j := fun j hj => by rw [← (h.fits j hj).length_eq, List.take_length]
    refine ⟨o.shape, ⟨o.mask.shape, fun j hj c hc p hp => ?_⟩, ?_, fun c hc p hp => ?_, o.rank, fun j hj => ?_⟩
    · rw [o.mask.get j hj c hc p hp]
      simp only [padding, e j hj]
    · rw [e i hi]; exact o.alone
    · exact o.same c hc p (by rwa [e i hi] at hp)
    · rw [e j hj]; exact o.fits j hj
  cases hl with
  | dense a1 a2 a3 a4 => obtain ⟨X', m', Y', t, o⟩ := dense_step hf h hi a1 a2 a3 a4; exact ⟨X', m', Y', t, keep rfl o⟩
  | conv a1 a2 a3 a4 a5 a6 a7 a8 a9 => obtain ⟨X', m', Y', t, o⟩ := conv_step hf h hi a1 a2 a3 a4 a5 a6 a7 a8 a9; exact ⟨X', m', Y', t, keep rfl o⟩
  | pool a1 a2 a3 a4 a5 a6 a7 => obtain ⟨X', m', Y', t, o⟩ := pool_step hf h hi a1 a2 a3 a4 a5 a6 a7; exact ⟨X', m', Y', t, keep rfl o⟩
  | @act φ =>
    refine ⟨X.map φ, m, Y.map φ, ⟨rfl, rfl, rfl⟩, keep rfl ⟨h.shape, h.mask, h.alone, fun c hc p hp => ?_, h.rank, h.fits⟩⟩
    simp only [Arr.map, h.same c hc p hp]
  | dropout a1 =>
    refine ⟨X, m, Y, ⟨?_, rfl, ?_⟩, keep rfl h.toOut⟩ <;> simp [ALayer.apply, Dropout.apply, a1]
  | layerNorm a1 => obtain ⟨X', m', Y', t, o⟩ := norm_step hf h hi a1; exact ⟨X', m', Y', t, keep rfl o⟩
  | identity => exact ⟨X, m, Y, ⟨rfl, rfl, rfl⟩, keep rfl h.toOut⟩
  | globalPool a1 a2 a3 =>
    obtain ⟨X', m', Y', t, o⟩ := global_step_apply hf h hi hpos a1 a2 a3
    exact ⟨X', m', Y', t, by simpa using o⟩

end NT.Masked
