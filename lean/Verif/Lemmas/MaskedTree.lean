import Verif.Lemmas.MaskedJoin

/-!
# Branched networks on padded batches and on examples alone
-/

namespace NT.Masked
open NT NT.Network Arr Spec Semantics

section
variable {m : ℕ} {s : Fin (m + 1) → Padded}

lemma optRel_isSome {A B : Type} {R : A → B → Prop} {a : Option A} {b : Option B} (h : OptRel R a b) : a.isSome = b.isSome := by
  cases a <;> cases b <;> simp_all [OptRel]

/-- The sum or product of examples alone. -/
lemma fan_alone {f : Fan} {t : State} {i j : ℕ} {s' : Fin (m + 1) → State} (hf : f = .sum ∨ f = .prod) (ht : Together s)
    (h : FanSem f (fun r => (s r).toState) t) (ha : ∀ r, Alone i j (s r) (s' r)) :
    ∃ t', FanSem f (fun r => { s' r with same := true }) t' ∧ Alone i j (fanned s t) t' := by
  obtain ⟨hl, hsh, -⟩ := fan_same hf h
  have hb : ∀ r, (s r).info.batchAxis = (s 0).info.batchAxis := hl.batchAxis
  have hc : ∀ r, (s r).info.channelAxis = (s 0).info.channelAxis := hl.channelAxis
  have hlay : SameLayout (fun r => ({ s' r with same := true } : State)) := by
    refine ⟨fun r => ?_, fun r => ?_, fun r => ?_, fun r => ?_, fun hd r => ?_, fun r => ?_, fun r => rfl, fun r => ?_⟩
    · simp only [(ha r).info, (ha 0).info]; exact hl.diagonalBatch r
    · simp only [(ha r).info, (ha 0).info]; exact hl.diagonalSpatial r
    · simp only [(ha r).info, (ha 0).info]; exact hl.batchAxis r
    · simp only [(ha r).info, (ha 0).info]; exact hl.channelAxis r
    · simp only [(ha r).info, (ha 0).info] at hd ⊢; exact hl.notReversed hd r
    · obtain ⟨x1, x2, x3, x4⟩ := (ha r).content.sizes
      obtain ⟨y1, y2, y3, y4⟩ := (ha 0).content.sizes
      dsimp only
      rw [x1, x2, x3, x4, y1, y2, y3, y4, ht.len1 r, ht.len2 r]
      exact ⟨rfl, rfl, rfl, rfl⟩
    · dsimp only; rw [(ha r).full]; exact hl.full r
  have hsh' : ∀ r, (s' r).info.shape1 = (s' 0).info.shape1 ∧ (s' r).info.shape2 = (s' 0).info.shape2 := by
    intro r
    rw [(ha r).info, (ha 0).info]
    dsimp only
    rw [hb r, hc r, ht.channels r, ht.len1 r, ht.len2 r]
    exact ⟨rfl, rfl⟩
  have hmaj : majority (fun r => ({ s' r with same := true } : State)) = majority fun r => (s r).toState := by
    unfold majority
    rw [countP_ofFn (g := fun r => (s r).toState) (q := fun x => x.info.isReversed) fun r => by dsimp only; rw [(ha r).info]]
  have k2 : ∀ r, (s' r).L.k22.isSome = (s r).L.k22.isSome := fun r => optRel_isSome (ha r).content.k22
  have kn : ∀ r, (s' r).L.ntk.isSome = (s r).L.ntk.isSome := fun r => optRel_isSome (ha r).content.ntk
  have c12 : ∀ r p q, InRange p ((s 0).len1 i) → InRange q ((s 0).len2 j) → (s' r).L.k12 [0, 0] p q = (s r).L.k12 [i, j] p q := by
    intro r
    have := (ha r).content.k12
    rwa [ht.len1, ht.len2] at this
  have c11 : ∀ r p q, InRange p ((s 0).len1 i) → InRange q ((s 0).len1 i) → (s' r).L.k11 [0, 0] p q = (s r).L.k11 [i, i] p q := by
    intro r
    have := (ha r).content.k11
    rwa [ht.len1] at this
  have c22 : ∀ r p q, InRange p ((s 0).len2 j) → InRange q ((s 0).len2 j) → ((s' r).L.k22.getD 0) [0, 0] p q = ((s r).L.k22.getD 0) [j, j] p q := by
    intro r p q hp hq
    rcases optRel_some (ha r).content.k22 with ⟨e', e⟩ | ⟨F', F, e', e, g⟩
    · rw [e, e']; rfl
    · rw [e, e']; exact g p q (by rw [ht.len2]; exact hp) (by rw [ht.len2]; exact hq)
  have cn : ∀ r p q, InRange p ((s 0).len1 i) → InRange q ((s 0).len2 j) → ((s' r).L.ntk.getD 0) [0, 0] p q = ((s r).L.ntk.getD 0) [i, j] p q := by
    intro r p q hp hq
    rcases optRel_some (ha r).content.ntk with ⟨e', e⟩ | ⟨F', F, e', e, g⟩
    · rw [e, e']; rfl
    · rw [e, e']; exact g p q (by rw [ht.len1]; exact hp) (by rw [ht.len2]; exact hq)
  rcases hf with rfl | rfl
  · obtain ⟨h1, h2, h3, d2, dn, h4, h5, rfl⟩ := h
    refine ⟨_, ⟨hlay, h2.imp_left fun h r => ?_, hsh', d2, dn, fun r => (k2 r).trans (h4 r), fun r => (kn r).trans (h5 r), rfl⟩, ⟨⟨(ha 0).content.sizes,
      fun p q hp hq => ?_, fun p q hp hq => ?_, ?_, ?_⟩, ?_, (ha 0).full⟩⟩
    · dsimp only; rw [(ha r).info]; exact h r
    · exact (Finset.sum_congr rfl fun r _ => c12 r p q hp hq : ∑ r, (s' r).L.k12 [0, 0] p q = ∑ r, (s r).L.k12 [i, j] p q)
    · exact (Finset.sum_congr rfl fun r _ => c11 r p q hp hq : ∑ r, (s' r).L.k11 [0, 0] p q = ∑ r, (s r).L.k11 [i, i] p q)
    · cases d2
      · trivial
      · exact fun p q hp hq => Finset.sum_congr rfl fun r _ => c22 r p q hp hq
    · cases dn
      · trivial
      · exact fun p q hp hq => Finset.sum_congr rfl fun r _ => cn r p q hp hq
    · dsimp only; rw [hmaj, (ha 0).info]; rfl
  · obtain ⟨h1, h3, d2, dn, h4, h5, rfl⟩ := h
    refine ⟨_, ⟨hlay, hsh', d2, dn, fun r => (k2 r).trans (h4 r), fun r => (kn r).trans (h5 r), rfl⟩, ⟨⟨(ha 0).content.sizes,
      fun p q hp hq => ?_, fun p q hp hq => ?_, ?_, ?_⟩, ?_, (ha 0).full⟩⟩
    · exact (Finset.prod_congr rfl fun r _ => c12 r p q hp hq : ∏ r, (s' r).L.k12 [0, 0] p q = ∏ r, (s r).L.k12 [i, j] p q)
    · exact (Finset.prod_congr rfl fun r _ => c11 r p q hp hq : ∏ r, (s' r).L.k11 [0, 0] p q = ∏ r, (s r).L.k11 [i, i] p q)
    · cases d2
      · trivial
      · exact fun p q hp hq => Finset.prod_congr rfl fun r _ => c22 r p q hp hq
    · cases dn
      · trivial
      · exact fun p q hp hq => Finset.sum_congr rfl fun r _ => by
          rw [cn r p q hp hq]
          exact congrArg _ (Finset.prod_congr rfl fun a _ => c12 a p q hp hq)
    · dsimp only; rw [hmaj, (ha 0).info]; rfl

/-- The masks of branches without masks. -/
lemma sum_none : ∀ n, Masks.sum (List.replicate n none) = .ok none := by
  intro n
  unfold Masks.sum
  induction n with
  | zero => rfl
  | succ n ih => rw [List.replicate_succ, Masks.sumFrom]; exact ih

/-- The sum or product of kernels without masks. -/
lemma fan_plain {f : Fan} {t' : State} {s' : Fin (m + 1) → State} {k : Fin (m + 1) → Kernel ℝ} (hf : f = .sum ∨ f = .prod)
    (h : FanSem f (fun r => { s' r with same := true }) t') (hk : ∀ r, Describes (s' r) (k r)) :
    ∃ k', fanWithMasking f (List.ofFn k) = .ok k' ∧ Describes { t' with same := (s' 0).same } k' := by
  obtain ⟨k', e, hc, hx, g1, g2⟩ := fan_core (s := fun r => { s' r with same := true }) (k := k) hf
    (fun r => ⟨(hk r).stores, (hk r).static, (hk r).full, (hk r).zero⟩) h
  have f1 : ∀ sh, fanMask f ((List.ofFn k).map (·.mask1)) sh = .ok none := by
    intro sh
    have : Masks.sum ((List.ofFn k).map (·.mask1)) = .ok none := by
      rw [List.map_ofFn, show (fun k : Kernel ℝ => k.mask1) ∘ k = fun _ => none from funext fun r => (hk r).mask1, List.ofFn_const]
      exact sum_none _
    rcases hf with rfl | rfl <;> exact this
  have f2 : ∀ sh, fanMask f ((List.ofFn k).map (·.mask2)) sh = .ok none := by
    intro sh
    have : Masks.sum ((List.ofFn k).map (·.mask2)) = .ok none := by
      rw [List.map_ofFn, show (fun k : Kernel ℝ => k.mask2) ∘ k = fun _ => none from funext fun r => (hk r).mask2, List.ofFn_const]
      exact sum_none _
    rcases hf with rfl | rfl <;> exact this
  refine ⟨{ k' with mask1 := none, mask2 := none }, by simp only [fanWithMasking, f1, f2, e, bind, Except.bind],
    ⟨hc.stores.nngp, hc.stores.cov1, hc.stores.cov2, hc.stores.ntk⟩, hc.static, ?_, rfl, rfl, hc.full, hc.zero⟩
  dsimp only
  rw [hx]
  exact (hk 0).same

/-- The concatenation of examples alone. -/
lemma cat_alone {axis : ℤ} {t : State} {i j : ℕ} {s' : Fin (m + 1) → State} (ht : Beside s) (hs : ∀ r, (s r).Ok) (hi : i < (s 0).L.n1) (hj : j < (s 0).L.n2)
    (h : ChannelSem axis (fun r => (s r).toState) t) (ha : ∀ r, Alone i j (s r) (s' r)) :
    ∃ t', ChannelSem axis (fun r => { s' r with same := true }) t' ∧ Alone i j (joinedChannels s t) t' := by
  obtain ⟨hl, -, -, -, -, -, -, -, -, -, -, hax⟩ := cat_same hs h
  have hb : ∀ r, (s r).info.batchAxis = (s 0).info.batchAxis := hl.batchAxis
  have hc : ∀ r, (s r).info.channelAxis = (s 0).info.channelAxis := hl.channelAxis
  have hz : ∀ r, (s r).L.n1 = (s 0).L.n1 ∧ (s r).L.n2 = (s 0).L.n2 ∧ (s r).L.S1 = (s 0).L.S1 ∧ (s r).L.S2 = (s 0).L.S2 := hl.sizes
  obtain ⟨x1, x2, x3⟩ := (hs 0).axes
  have l1 := ((hs 0).len1 i hi).length_eq
  have l2 := ((hs 0).len2 j hj).length_eq
  have hr := (hs 0).rank
  have hlay : SameLayout (fun r => ({ s' r with same := true } : State)) := by
    refine ⟨fun r => ?_, fun r => ?_, fun r => ?_, fun r => ?_, fun hd r => ?_, fun r => ?_, fun r => rfl, fun r => ?_⟩
    · simp only [(ha r).info, (ha 0).info]; exact hl.diagonalBatch r
    · simp only [(ha r).info, (ha 0).info]; exact hl.diagonalSpatial r
    · simp only [(ha r).info, (ha 0).info]; exact hl.batchAxis r
    · simp only [(ha r).info, (ha 0).info]; exact hl.channelAxis r
    · simp only [(ha r).info, (ha 0).info] at hd ⊢; exact hl.notReversed hd r
    · obtain ⟨x1, x2, x3, x4⟩ := (ha r).content.sizes
      obtain ⟨y1, y2, y3, y4⟩ := (ha 0).content.sizes
      dsimp only
      rw [x1, x2, x3, x4, y1, y2, y3, y4, ht.len1 r, ht.len2 r]
      exact ⟨rfl, rfl, rfl, rfl⟩
    · dsimp only; rw [(ha r).full]; exact hl.full r
  have hsh : ∀ r, (s' r).info.shape1 = actIdx (s 0).info.batchAxis (s 0).info.channelAxis 1 (s r).c ((s 0).len1 i) ∧
      (s' r).info.shape2 = actIdx (s 0).info.batchAxis (s 0).info.channelAxis 1 (s r).c ((s 0).len2 j) := by
    intro r
    rw [(ha r).info]
    dsimp only
    rw [hb r, hc r, ht.len1 r, ht.len2 r]
    exact ⟨rfl, rfl⟩
  have hca : ∀ r, (s' r).info.channelAxis = (s 0).info.channelAxis := by
    intro r
    rw [(ha r).info]
    exact hc r
  have er : ∀ (a b : ℕ) (T : List ℕ), T.length = (s 0).L.S1.length → (actIdx (s 0).info.batchAxis (s 0).info.channelAxis 1 a T).eraseIdx (s 0).info.channelAxis =
      (actIdx (s 0).info.batchAxis (s 0).info.channelAxis 1 b T).eraseIdx (s 0).info.channelAxis := by
    intro a b T hT
    rw [← act_setChannel _ _ _ b a T x1 (by omega) (by omega), List.eraseIdx_set_eq]
  have g1 : ∀ r, (actIdx (s 0).info.batchAxis (s 0).info.channelAxis 1 (s r).c ((s 0).len1 i)).getD (s 0).info.channelAxis 0 = (s r).c := fun r =>
    act_getChannel _ _ _ _ _ x1 (by omega) (by omega)
  have g2 : ∀ r, (actIdx (s 0).info.batchAxis (s 0).info.channelAxis 1 (s r).c ((s 0).len2 j)).getD (s 0).info.channelAxis 0 = (s r).c := fun r =>
    act_getChannel _ _ _ _ _ x1 (by omega) (by omega)
  have hmaj : majority (fun r => ({ s' r with same := true } : State)) = majority fun r => (s r).toState := by
    unfold majority
    rw [countP_ofFn (g := fun r => (s r).toState) (q := fun x => x.info.isReversed) fun r => by dsimp only; rw [(ha r).info]]
  have k2 : ∀ r, (s' r).L.k22.isSome = (s r).L.k22.isSome := fun r => optRel_isSome (ha r).content.k22
  have kn : ∀ r, (s' r).L.ntk.isSome = (s r).L.ntk.isSome := fun r => optRel_isSome (ha r).content.ntk
  have c12 : ∀ r p q, InRange p ((s 0).len1 i) → InRange q ((s 0).len2 j) → (s' r).L.k12 [0, 0] p q = (s r).L.k12 [i, j] p q := by
    intro r
    have := (ha r).content.k12
    rwa [ht.len1, ht.len2] at this
  have c11 : ∀ r p q, InRange p ((s 0).len1 i) → InRange q ((s 0).len1 i) → (s' r).L.k11 [0, 0] p q = (s r).L.k11 [i, i] p q := by
    intro r
    have := (ha r).content.k11
    rwa [ht.len1] at this
  have c22 : ∀ r p q, InRange p ((s 0).len2 j) → InRange q ((s 0).len2 j) → ((s' r).L.k22.getD 0) [0, 0] p q = ((s r).L.k22.getD 0) [j, j] p q := by
    intro r p q hp hq
    rcases optRel_some (ha r).content.k22 with ⟨e', e⟩ | ⟨F', F, e', e, g⟩
    · rw [e, e']; rfl
    · rw [e, e']; exact g p q (by rw [ht.len2]; exact hp) (by rw [ht.len2]; exact hq)
  have cn : ∀ r p q, InRange p ((s 0).len1 i) → InRange q ((s 0).len2 j) → ((s' r).L.ntk.getD 0) [0, 0] p q = ((s r).L.ntk.getD 0) [i, j] p q := by
    intro r p q hp hq
    rcases optRel_some (ha r).content.ntk with ⟨e', e⟩ | ⟨F', F, e', e, g⟩
    · rw [e, e']; rfl
    · rw [e, e']; exact g p q (by rw [ht.len1]; exact hp) (by rw [ht.len2]; exact hq)
  have hw : ∀ (w : Fin (m + 1) → ℕ) {f g : Fin (m + 1) → ℝ}, (∀ r, f r = g r) →
      (∑ r, (w r : ℝ) * f r) / ∑ r, (w r : ℝ) = (∑ r, (w r : ℝ) * g r) / ∑ r, (w r : ℝ) := by
    intro w f g h
    rw [Finset.sum_congr rfl fun r _ => by rw [h r]]
  obtain ⟨-, -, -, -, -, w, w1, w2, -, d2, dn, h4, h5, rfl⟩ := h
  have hwc : ∀ r, w r = (s r).c := by
    intro r
    have := w2 r
    dsimp only at this
    rw [(hs r).shape1, hb, hc, (hz r).1, (hz r).2.2.1, act_getChannel _ _ _ _ _ x1 x2 x3] at this
    exact this.symm
  refine ⟨_, ⟨hlay, ?_, ?_, ?_, fun r => ⟨?_, ?_⟩, w, w1, fun r => ?_, fun r => ?_, d2, dn, fun r => (k2 r).trans (h4 r), fun r => (kn r).trans (h5 r), rfl⟩,
    ⟨⟨(ha 0).content.sizes, fun p q hp hq => hw w fun r => c12 r p q hp hq, fun p q hp hq => hw w fun r => c11 r p q hp hq, ?_, ?_⟩, ?_, (ha 0).full⟩⟩
  · dsimp only
    rw [(hsh 0).1]
    intro h
    have := congrArg List.length h
    rw [actIdx_length _ _ _ _ _ x1 (by omega) (by omega)] at this
    simp at this
  · dsimp only
    rw [(hsh 0).1, (hsh 0).2, actIdx_length _ _ _ _ _ x1 (by omega) (by omega), actIdx_length _ _ _ _ _ x1 (by omega) (by omega)]
    omega
  · dsimp only
    rw [(hsh 0).1, hca, actIdx_length _ _ _ _ _ x1 (by omega) (by omega), l1]
    exact hax
  · dsimp only
    rw [(hsh r).1, (hsh 0).1, hca]
    exact er _ _ _ l1
  · dsimp only
    rw [(hsh r).2, (hsh 0).2, hca]
    exact er _ _ _ (l2.trans hr)
  · dsimp only
    rw [(hsh r).1, hca, g1, hwc]
  · dsimp only
    rw [(hsh r).2, hca, g2, hwc]
  · cases d2
    · trivial
    · exact fun p q hp hq => hw w fun r => c22 r p q hp hq
  · cases dn
    · trivial
    · exact fun p q hp hq => hw w fun r => cn r p q hp hq
  · dsimp only
    simp only [(hsh _).1, (hsh _).2, hca, g1, g2]
    rw [hmaj, act_setChannel _ _ _ _ _ _ x1 (by omega) (by omega), act_setChannel _ _ _ _ _ _ x1 (by omega) (by omega), (ha 0).info]
    rfl

/-- The concatenation of kernels without masks. -/
lemma cat_plain {axis : ℤ} {t' : State} {s' : Fin (m + 1) → State} {k : Fin (m + 1) → Kernel ℝ}
    (h : ChannelSem axis (fun r => { s' r with same := true }) t') (hk : ∀ r, Describes (s' r) (k r)) :
    ∃ k', fanWithMasking (.concat axis) (List.ofFn k) = .ok k' ∧ Describes { t' with same := (s' 0).same } k' := by
  obtain ⟨k', e, hc, hx, g1, g2⟩ := cat_core (s := fun r => { s' r with same := true }) (k := k)
    (fun r => ⟨(hk r).stores, (hk r).static, (hk r).full, (hk r).zero⟩) h
  have key : ∀ sh : Fin (m + 1) → List ℕ, fanMask (.concat axis) (List.ofFn fun _ : Fin (m + 1) => none) (List.ofFn sh) = .ok none := by
    intro sh
    rw [List.ofFn_succ (f := sh)]
    simp only [fanMask, Masks.concat]
    rw [if_neg (by simp), if_pos (by simp)]
  have f1 : fanMask (.concat axis) ((List.ofFn k).map (·.mask1)) ((List.ofFn k).map (·.shape1)) = .ok none := by
    rw [List.map_ofFn, List.map_ofFn, show (fun k : Kernel ℝ => k.mask1) ∘ k = fun _ => none from funext fun r => (hk r).mask1]
    exact key _
  have f2 : fanMask (.concat axis) ((List.ofFn k).map (·.mask2)) ((List.ofFn k).map (·.shape2)) = .ok none := by
    rw [List.map_ofFn, List.map_ofFn, show (fun k : Kernel ℝ => k.mask2) ∘ k = fun _ => none from funext fun r => (hk r).mask2]
    exact key _
  refine ⟨{ k' with mask1 := none, mask2 := none }, by simp only [fanWithMasking, f1, f2, e, bind, Except.bind],
    ⟨hc.stores.nngp, hc.stores.cov1, hc.stores.cov2, hc.stores.ntk⟩, hc.static, ?_, rfl, rfl, hc.full, hc.zero⟩
  dsimp only
  rw [hx]
  exact (hk 0).same

end

/-! ### Networks -/

/-- Several kernels that are related to several padded batches. -/
lemma rel_ofFn {R : Kernel ℝ → Padded → Prop} {m : ℕ} {s : Fin (m + 1) → Padded} {l : List (Vals (Kernel ℝ))}
    (hl' : l.length = (List.ofFn fun r => Vals.one (s r)).length)
    (hr : ∀ (i : ℕ) (h1 : i < l.length) (h2 : i < (List.ofFn fun r => Vals.one (s r)).length), Rel R (l[i]'h1) ((List.ofFn fun r => Vals.one (s r))[i]'h2)) :
    ∃ k : Fin (m + 1) → Kernel ℝ, l = List.ofFn (fun r => Vals.one (k r)) ∧ ∀ r, R (k r) (s r) := by
  have hlen : l.length = m + 1 := by simpa using hl'
  have key : ∀ r : Fin (m + 1), ∃ k, l[r.1]'(by rw [hlen]; exact r.2) = Vals.one k ∧ R k (s r) := by
    intro r
    have h1 := hr r.1 (by rw [hlen]; exact r.2) (by simpa using Nat.lt_succ_iff.1 r.2)
    simp only [List.getElem_ofFn] at h1
    generalize l[r.1]'(by rw [hlen]; exact r.2) = z at h1
    cases h1 with
    | one k _ hk => exact ⟨k, rfl, hk⟩
  choose k h1 h2 using key
  refine ⟨k, List.ext_getElem (by simp [hlen]) fun n hn1 hn2 => ?_, h2⟩
  have := h1 ⟨n, by rw [← hlen]; exact hn1⟩
  rw [this, List.getElem_ofFn]

/-- A network keeps a relation between kernels and padded batches which its layers keep. -/
lemma tree_rel {R : Kernel ℝ → Padded → Prop}
    (hl : ∀ {l : MLayer} {out : List ℕ → List ℕ} {s t : Padded} {k : Kernel ℝ}, Step l out s t → R k s →
      ∃ k', l.withMasking k = .ok k' ∧ R (setShapes (out k.shape1) (out k.shape2) k') t)
    (hfan : ∀ {f : Fan} {out : List (List ℕ) → List ℕ} {m : ℕ} {s : Fin (m + 1) → Padded} {t : State} {k : Fin (m + 1) → Kernel ℝ}, f = .sum ∨ f = .prod →
      Together s → FanSem f (fun r => (s r).toState) t → (∀ x, out (List.replicate (m + 1) x) = x) → (∀ r, R (k r) (s r)) →
      ∃ k', fanWithMasking f (List.ofFn k) = .ok k' ∧
        R (setShapes (out ((List.ofFn k).map (·.shape1))) (out ((List.ofFn k).map (·.shape2))) k') (fanned s t))
    (hcat : ∀ {axis : ℤ} {out : List (List ℕ) → List ℕ} {m : ℕ} {s : Fin (m + 1) → Padded} {t : State} {k : Fin (m + 1) → Kernel ℝ},
      Beside s → ChannelSem axis (fun r => (s r).toState) t →
      (∀ n T, T.length = (s 0).L.S1.length → out (List.ofFn fun r => actIdx (s 0).info.batchAxis (s 0).info.channelAxis n (s r).c T) =
        actIdx (s 0).info.batchAxis (s 0).info.channelAxis n (∑ r, (s r).c) T) → (∀ r, R (k r) (s r)) →
      ∃ k', fanWithMasking (.concat axis) (List.ofFn k) = .ok k' ∧
        R (setShapes (out ((List.ofFn k).map (·.shape1))) (out ((List.ofFn k).map (·.shape2))) k') (joinedChannels s t))
    {net : MNet} {v w : Vals Padded} (h : Tree net v w) : ∀ {x : Vals (Kernel ℝ)}, Rel R x v → ∃ y, net.run x = .ok y ∧ Rel R y w := by
  induction h with
  | @layer l out s t h =>
    intro x hx
    cases hx with
    | one k _ hk =>
      obtain ⟨k', h1, h2⟩ := hl h hk
      exact ⟨_, by simp only [MNet.run, h1], .one _ _ h2⟩
  | fanOut =>
    intro x hx
    exact ⟨_, rfl, rel_replicate hx _⟩
  | @fanIn f out m s t hf ht hs ho =>
    intro x hx
    cases hx with
    | many l _ hl' hr =>
      obtain ⟨k, rfl, hk⟩ := rel_ofFn hl' hr
      obtain ⟨k', h1, h2⟩ := hfan hf ht hs ho hk
      exact ⟨_, by simp only [MNet.run, ones_ofFn, h1], .one _ _ h2⟩
  | @concat axis out m s t ht hs ho =>
    intro x hx
    cases hx with
    | many l _ hl' hr =>
      obtain ⟨k, rfl, hk⟩ := rel_ofFn hl' hr
      obtain ⟨k', h1, h2⟩ := hcat ht hs ho hk
      exact ⟨_, by simp only [MNet.run, ones_ofFn, h1], .one _ _ h2⟩
  | seq _ _ ih1 ih2 =>
    intro x hx
    obtain ⟨y, h1, h2⟩ := ih1 hx
    obtain ⟨z, h3, h4⟩ := ih2 h2
    exact ⟨z, by simp only [MNet.run, h1, h3], h4⟩
  | @par n branches u v h ih =>
    intro x hx
    cases hx with
    | many l _ hl' hr =>
      have hlen : l.length = n := by simpa using hl'
      have key : ∀ i : Fin n, ∃ y, (branches i).run (l[i.1]'(by rw [hlen]; exact i.2)) = .ok y ∧ Rel R y (v i) := by
        intro i
        have h1 := hr i.1 (by rw [hlen]; exact i.2) (by simp)
        simp only [List.getElem_ofFn] at h1
        exact ih i h1
      choose y h1 h2 using key
      refine ⟨.many (List.ofFn y), ?_, .many _ _ (by simp) fun i p q => ?_⟩
      · simp only [MNet.run]
        rw [dif_pos hlen, collect_ok (g := y)]
        intro i
        exact h1 i
      · simp only [List.getElem_ofFn]
        exact h2 _

lemma step_sizes {l : MLayer} {out : List ℕ → List ℕ} {s t : Padded} (h : Step l out s t) : t.L.n1 = s.L.n1 ∧ t.L.n2 = s.L.n2 := by
  cases h with
  | dense _ hl _ => exact ⟨(kept_dense hl).sizes.1, (kept_dense hl).sizes.2.1⟩
  | conv hp hw _ hb hax hl _ => exact ⟨(kept_conv hl hp hw hb hax).sizes.1, (kept_conv hl hp hw hb hax).sizes.2.1⟩
  | pool hp hw _ _ _ _ hl _ => exact ⟨(kept_pool hl hp hw).sizes.1, (kept_pool hl hp hw).sizes.2.1⟩
  | act => exact ⟨rfl, rfl⟩
  | dropout => exact ⟨rfl, rfl⟩
  | identity => exact ⟨rfl, rfl⟩
  | globalPool => exact ⟨rfl, rfl⟩

/-- The kernel of padded batches of `n1` and `n2` examples. -/
def InBatch (n1 n2 : ℕ) (k : Kernel ℝ) (s : Padded) : Prop := s.Ok ∧ s.L.n1 = n1 ∧ s.L.n2 = n2 ∧ Batch s k

/-- The network computes the kernels of the padded batch. -/
theorem tree_batch {n1 n2 : ℕ} {net : MNet} {v w : Vals Padded} (h : Tree net v w) {x : Vals (Kernel ℝ)} (hx : Rel (InBatch n1 n2) x v) :
    ∃ y, net.run x = .ok y ∧ Rel (InBatch n1 n2) y w := by
  refine tree_rel (fun {l out s t k} hs hk => ?_) (fun {f out m s t k} hf ht hs ho hk => ?_) (fun {axis out m s t k} ht hs ho hk => ?_) h hx
  · obtain ⟨g1, g2, g3, g4⟩ := hk
    obtain ⟨o, b⟩ := step_batch g1 hs
    obtain ⟨k', e, hk'⟩ := b k g4
    obtain ⟨z1, z2⟩ := step_sizes hs
    exact ⟨k', e, o, z1.trans g2, z2.trans g3, hk'⟩
  · obtain ⟨o, b⟩ := fan_batch hf ht (fun r => (hk r).1) hs ho
    obtain ⟨k', e, hk'⟩ := b k fun r => (hk r).2.2.2
    obtain ⟨-, -, -, -, -, -, -, z1, z2, -⟩ := fan_same hf hs
    exact ⟨k', e, o, z1.trans (hk 0).2.1, z2.trans (hk 0).2.2.1, hk'⟩
  · obtain ⟨o, b⟩ := cat_batch ht (fun r => (hk r).1) hs ho
    obtain ⟨k', e, hk'⟩ := b k fun r => (hk r).2.2.2
    obtain ⟨-, -, -, -, -, -, z1, z2, -⟩ := cat_same (fun r => (hk r).1) hs
    exact ⟨k', e, o, z1.trans (hk 0).2.1, z2.trans (hk 0).2.2.1, hk'⟩

/-- The kernel of examples `i` and `j` of padded batches, alone. -/
def OfExample (i j : ℕ) (k : Kernel ℝ) (s : Padded) : Prop := s.Ok ∧ i < s.L.n1 ∧ j < s.L.n2 ∧ ∃ s', Alone i j s s' ∧ Describes s' k

/-- The network computes the kernels of the examples alone. -/
theorem tree_alone {i j : ℕ} {net : MNet} {v w : Vals Padded} (h : Tree net v w) {x : Vals (Kernel ℝ)} (hx : Rel (OfExample i j) x v) :
    ∃ y, net.run x = .ok y ∧ Rel (OfExample i j) y w := by
  refine tree_rel (fun {l out s t k} hs hk => ?_) (fun {f out m s t k} hf ht hs ho hk => ?_) (fun {axis out m s t k} ht hs ho hk => ?_) h hx
  · obtain ⟨g1, g2, g3, s', ha, hd⟩ := hk
    obtain ⟨t', hl, ha'⟩ := step_alone g1 g2 g3 hs ha
    obtain ⟨k', e, hk'⟩ := plain_sound hd (alone_closed g1 ha) hl
    obtain ⟨z1, z2⟩ := step_sizes hs
    have sh : k.shape1 = s'.info.shape1 ∧ k.shape2 = s'.info.shape2 := by rw [← hd.static]; exact ⟨rfl, rfl⟩
    rw [sh.1, sh.2]
    exact ⟨k', e, (step_batch g1 hs).1, by omega, by omega, _, ha', describes_withShapes hk' _ _⟩
  · choose g1 g2 g3 s' ha hd using hk
    obtain ⟨t', hl, ha'⟩ := fan_alone hf ht hs ha
    obtain ⟨k', e, hk'⟩ := fan_plain hf hl hd
    obtain ⟨-, hsh, -, -, -, -, -, z1, z2, -⟩ := fan_same hf hs
    refine ⟨k', e, (fan_batch hf ht g1 hs ho).1, by have := g2 0; simp only [fanned]; omega, by have := g3 0; simp only [fanned]; omega, _, ?_,
      describes_withShapes hk' _ _⟩
    refine ⟨ha'.content, ?_, ha'.full⟩
    have hb : ∀ r, (s r).info.batchAxis = (s 0).info.batchAxis := (fan_same hf hs).1.batchAxis
    have hc : ∀ r, (s r).info.channelAxis = (s 0).info.channelAxis := (fan_same hf hs).1.channelAxis
    have r1 : (List.ofFn k).map (·.shape1) = List.replicate (m + 1) (actIdx (s 0).info.batchAxis (s 0).info.channelAxis 1 (s 0).c ((s 0).len1 i)) := by
      rw [List.map_ofFn, ← List.ofFn_const]
      congr 1
      funext r
      have := (hd r).static.trans (ha r).info
      rw [← hb r, ← hc r, ← ht.channels r, ← ht.len1 r]
      exact congrArg Kernel.Static.shape1 this
    have r2 : (List.ofFn k).map (·.shape2) = List.replicate (m + 1) (actIdx (s 0).info.batchAxis (s 0).info.channelAxis 1 (s 0).c ((s 0).len2 j)) := by
      rw [List.map_ofFn, ← List.ofFn_const]
      congr 1
      funext r
      have := (hd r).static.trans (ha r).info
      rw [← hb r, ← hc r, ← ht.channels r, ← ht.len2 r]
      exact congrArg Kernel.Static.shape2 this
    obtain ⟨-, -, -, a2, a3, -⟩ := fan_same hf hs
    rw [r1, r2, ho, ho]
    simp only [State.withShapes, ha'.info, fanned, a2, a3]
  · choose g1 g2 g3 s' ha hd using hk
    obtain ⟨t', hl, ha'⟩ := cat_alone ht g1 (g2 0) (g3 0) hs ha
    obtain ⟨k', e, hk'⟩ := cat_plain hl hd
    obtain ⟨hlay, -, a2, a3, -, -, z1, z2, -⟩ := cat_same g1 hs
    refine ⟨k', e, (cat_batch ht g1 hs ho).1, by have := g2 0; simp only [joinedChannels]; omega, by have := g3 0; simp only [joinedChannels]; omega, _, ?_,
      describes_withShapes hk' _ _⟩
    refine ⟨ha'.content, ?_, ha'.full⟩
    have hb : ∀ r, (s r).info.batchAxis = (s 0).info.batchAxis := hlay.batchAxis
    have hc : ∀ r, (s r).info.channelAxis = (s 0).info.channelAxis := hlay.channelAxis
    have r1 : (List.ofFn k).map (·.shape1) = List.ofFn fun r => actIdx (s 0).info.batchAxis (s 0).info.channelAxis 1 (s r).c ((s 0).len1 i) := by
      rw [List.map_ofFn]
      congr 1
      funext r
      have := (hd r).static.trans (ha r).info
      rw [← hb r, ← hc r, ← ht.len1 r]
      exact congrArg Kernel.Static.shape1 this
    have r2 : (List.ofFn k).map (·.shape2) = List.ofFn fun r => actIdx (s 0).info.batchAxis (s 0).info.channelAxis 1 (s r).c ((s 0).len2 j) := by
      rw [List.map_ofFn]
      congr 1
      funext r
      have := (hd r).static.trans (ha r).info
      rw [← hb r, ← hc r, ← ht.len2 r]
      exact congrArg Kernel.Static.shape2 this
    rw [r1, r2, ho _ _ ((g1 0).len1 i (g2 0)).length_eq, ho _ _ (((g1 0).len2 j (g3 0)).length_eq.trans (g1 0).rank)]
    simp only [State.withShapes, ha'.info, joinedChannels, a2, a3]

end NT.Masked
