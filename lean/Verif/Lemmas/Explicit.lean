import Verif.Tac
import Verif.Spec.Explicit
import Verif.Lemmas.Swap
import Verif.Lemmas.Closed

/-!
Every layer does the same whether the covariances of the second inputs are those of the first or given.
-/

namespace NT.Semantics
open NT NT.Network NT.Spec

lemma explicit_some {L : Logical ℝ} {F} (h : L.k22 = some F) : L.explicit = L := by
  cases L
  simp only at h
  subst h
  rfl

lemma explicit_second (L : Logical ℝ) : L.explicit.second = L.second := rfl

lemma closed_explicit (L : Logical ℝ) : L.explicit.Closed := by
  intro h
  simp [Logical.explicit] at h

/-- An operation that keeps given covariances of the second inputs, and gives the same in the other case. -/
lemma explicit_of (f : Logical ℝ → Logical ℝ) (h1 : ∀ L F, L.k22 = some F → (f L).k22 ≠ none) (L : Logical ℝ)
    (h2 : L.k22 = none → (f L).explicit = f L.explicit) : (f L).explicit = f L.explicit := by
  cases h : L.k22 with
  | none => exact h2 h
  | some F =>
    obtain ⟨G, hG⟩ := Option.ne_none_iff_exists'.1 (h1 L F h)
    rw [explicit_some h, explicit_some hG]

lemma dense_explicit (d : Dense) (C : ℕ) (L : Logical ℝ) : (C52.after d C L).explicit = C52.after d C L.explicit := by
  refine explicit_of _ (fun L F h => by simp [C52.after, h]) L fun h => logical_ext rfl rfl rfl rfl rfl rfl ?_ rfl
  simp [Logical.explicit, Logical.second, C52.after, h]

lemma conv_explicit (d : Conv) (C : ℕ) (L : Logical ℝ) (hc : L.Closed) : (C53.after d C L).explicit = C53.after d C L.explicit := by
  refine explicit_of _ (fun L F h => by simp [C53.after, h]) L fun h => logical_ext rfl rfl rfl rfl rfl rfl ?_ rfl
  simp [Logical.explicit, Logical.second, C53.after, h, (hc h).2]

lemma convTranspose_explicit (d : ConvTranspose) (C : ℕ) (L : Logical ℝ) (hc : L.Closed) :
    (C97.after d C L).explicit = C97.after d C L.explicit := by
  refine explicit_of _ (fun L F h => by simp [C97.after, h]) L fun h => logical_ext rfl rfl rfl rfl rfl rfl ?_ rfl
  simp [Logical.explicit, Logical.second, C97.after, h, (hc h).2]

lemma lin_explicit {ι : Type} (s : List ℕ → Finset ι) (w : List ℕ → List ℕ → ι → ℝ) (t : List ℕ → List ℕ → ι → Option (List ℕ))
    (out : List ℕ → List ℕ) (L : Logical ℝ) (hc : L.Closed) : (linLogical s w t out L).explicit = linLogical s w t out L.explicit := by
  refine explicit_of _ (fun L F h => by simp [linLogical, h]) L fun h => logical_ext rfl rfl rfl rfl rfl rfl ?_ rfl
  simp [Logical.explicit, Logical.second, linLogical, h, (hc h).2]

lemma offDiag_explicit {L : Logical ℝ} (h : C54.OffDiagZero L) : C54.OffDiagZero L.explicit where
  k12 := h.k12
  k11 := h.k11
  k22 F hF b p q hpq := by
    simp only [Logical.explicit, Option.some.injEq] at hF
    subst hF
    cases hk : L.k22
    · rw [second_none hk]; exact h.k11 _ _ _ hpq
    · rw [second_some hk]; exact h.k22 _ hk _ _ _ hpq
  ntk := h.ntk

lemma flat_explicit (L : Logical ℝ) (hS : L.S1 = L.S2) : (C55.flat L).explicit = C55.flat L.explicit := by
  refine explicit_of _ (fun L F h => by simp [C55.flat, h]) L fun h => logical_ext rfl rfl rfl rfl rfl rfl ?_ rfl
  simp [Logical.explicit, Logical.second, C55.flat, h, hS]

lemma dropout_explicit (rate : ℝ) (same : Bool) (L : Logical ℝ) : (C56.after rate same L).explicit = C56.after rate same L.explicit := by
  refine explicit_of _ (fun L F h => by simp [C56.after, h]) L fun h => logical_ext rfl rfl rfl rfl rfl rfl ?_ rfl
  simp [Logical.explicit, Logical.second, C56.after, h]

lemma norm_explicit (L : Logical ℝ) (eps : ℝ) (batch : Bool) (A : ℕ → Prop) (hc : L.Closed) :
    (normalised L eps batch A).explicit = normalised L.explicit eps batch A := by
  refine explicit_of (normalised · eps batch A) (fun L F h => by simp [normalised, h]) L fun h => logical_ext rfl rfl rfl rfl rfl rfl ?_ rfl
  obtain ⟨h1, h2⟩ := hc h
  simp [Logical.explicit, Logical.second, normalised, h, h1, h2]

lemma entrywise_explicit {N T : ℝ → ℝ → ℝ → ℝ} (L : Logical ℝ) : (entrywise N T L).explicit = entrywise N T L.explicit := by
  refine explicit_of _ (fun L F h => by simp [entrywise, h]) L fun h => logical_ext rfl rfl rfl rfl rfl rfl ?_ rfl
  simp [Logical.explicit, Logical.second, entrywise, h]

lemma vars_explicit {L : Logical ℝ} {C : ℝ → Prop} (hc : L.Closed) (h : L.Vars C) : L.explicit.Vars C where
  one := h.one
  two F hF i p hi hp := by
    simp only [Logical.explicit, Option.some.injEq] at hF
    subst hF
    cases hk : L.k22
    · obtain ⟨h1, h2⟩ := hc hk
      rw [second_none hk]
      exact h.one i p (by rw [← h1]; exact hi) (by rw [← h2]; exact hp)
    · rw [second_some hk]; exact h.two _ hk i p hi hp

lemma contraction_explicit (C : Contraction) (hC : C.Ok) (s s' t : List ℕ) (o : List ℕ → ℝ) (L : Logical ℝ) (hc : L.Closed)
    (h1 : L.S1 = (spatialAxes C.n C.ba C.ca).map (s.getD · 0)) (h2 : L.S2 = (spatialAxes C.n C.ba C.ca).map (s'.getD · 0)) :
    (C.logical s s' t t o o L).explicit = C.logical s s' t t o o L.explicit := by
  refine explicit_of (C.logical s s' t t o o ·) (fun L F h => by simp [Contraction.logical, h]) L fun h => logical_ext rfl rfl rfl rfl rfl rfl ?_ rfl
  obtain ⟨-, h3⟩ := hc h
  have e : C.cs.map (s.getD · 0) = C.cs.map (s'.getD · 0) := by
    refine List.map_congr_left fun a ha => ?_
    obtain ⟨g1, g2, g3⟩ := KernelDot.cs_lt hC ha
    rw [h2, h1] at h3
    exact (List.map_inj_left.1 h3 a (by simp [spatialAxes, g1, g2, g3])).symm
  simp only [Logical.explicit, Logical.second, Contraction.logical, h, Option.map_none, Option.getD_none, Option.map_some, Option.some.injEq]
  funext b p q
  simp only [Contraction.covar, e]

/-- Every layer does the same when the covariances of the second inputs are given. -/
lemma reindexed_explicit (L : Logical ℝ) (a b st : Option ℤ) (sp : List Utils.Entry) (n1' n2' : ℕ) (S1' S2' : List ℕ) (hc : L.Closed) :
    (C27.reindexed L a b st sp n1' n2' S1' S2').explicit = C27.reindexed L.explicit a b st sp n1' n2' S1' S2' := by
  unfold C27.reindexed Logical.explicit Logical.second
  cases h : L.k22 with
  | none => simp [(hc h).1, (hc h).2]
  | some F => simp

theorem layer_explicit {l : Layer} {s t : State} (hc : s.L.Closed) (hl : LayerSem l s t) : LayerSem l s.explicit t.explicit := by
  cases l with
  | dense d =>
    obtain ⟨h1, h0, C, h2, h3, rfl⟩ := hl
    exact ⟨h1, h0, C, h2, h3, state_ext (dense_explicit _ _ _) rfl rfl rfl⟩
  | conv d =>
    obtain ⟨h1, h0, h2, h3, h4, h5, h6, h7, rfl⟩ := hl
    exact ⟨h1, h0, h2, h3, h4, h5, h6, h7, state_ext (conv_explicit _ _ _ hc) rfl rfl rfl⟩
  | convTranspose d =>
    obtain ⟨h1, h0, h2, h3, h4, h5, h6, h7, h8, rfl⟩ := hl
    exact ⟨h1, h0, h2, h3, h4, h5, h6, h7, h8, state_ext (convTranspose_explicit _ _ _ hc) rfl rfl rfl⟩
  | pool d =>
    obtain ⟨h1, h2, h3, h4, rfl⟩ := hl
    exact ⟨h1, h2, h3, fun h => ⟨(h4 h).1, (h4 h).2.1, offDiag_explicit (h4 h).2.2.1, (h4 h).2.2.2⟩, state_ext (lin_explicit _ _ _ _ _ hc) rfl rfl rfl⟩
  | globalPool d =>
    obtain ⟨h1, h2, rfl⟩ := hl
    exact ⟨fun h => offDiag_explicit (h1 h), h2, state_ext (lin_explicit _ _ _ _ _ hc) rfl rfl rfl⟩
  | flatten f =>
    obtain ⟨bo, co, h1, h2, h3, rfl⟩ := hl
    exact ⟨bo, co, h1, h2, h3, state_ext (flat_explicit _ h2) rfl rfl rfl⟩
  | dropout d =>
    obtain ⟨h0, h1, ⟨hm, rfl⟩ | ⟨hm, h2, h3, h4, rfl⟩⟩ := hl
    · exact ⟨h0, h1, .inl ⟨hm, rfl⟩⟩
    · exact ⟨h0, h1, .inr ⟨hm, h2, h3, h4, state_ext (dropout_explicit _ _ _) rfl rfl rfl⟩⟩
  | layerNorm axis eps ba ca =>
    obtain ⟨h1, h2, h0, h3, h9, h10, b, c, ax, rfl, h4, h5, h6, h7, h8, rfl⟩ := hl
    exact ⟨h1, h2, h0, h3, h9, h10, b, c, ax, rfl, h4, h5, h6, h7, h8, state_ext (norm_explicit _ _ _ _ hc) rfl rfl rfl⟩
  | act f =>
    obtain ⟨h1, C, φ, dφ, N, T, h2, h3, rfl⟩ := hl
    exact ⟨h1, C, φ, dφ, N, T, h2, vars_explicit hc h3, state_ext (entrywise_explicit _) rfl rfl rfl⟩
  | dotGeneral other isLhs inputC otherC inputB otherB =>
    obtain ⟨h1, h2, h3, h4, h5, h6, h7, h8, h9, h10, rfl⟩ := hl
    exact ⟨h1, h2, h3, h4, h5, h6, h7, h8, h9, h10, state_ext (contraction_explicit _ h1 _ _ _ _ _ hc h5 h6) rfl rfl rfl⟩
  | index i =>
    obtain ⟨l, a, b, st, n1', n2', S1', S2', out1, out2, h, rfl⟩ := hl
    exact ⟨l, a, b, st, n1', n2', S1', S2', out1, out2, ⟨h.means, h.axes, h.rank, h.shape1, h.shape2, h.batch, h.channel, h.out1, h.out2, h.n1, h.n2, h.S1, h.S2⟩,
      state_ext (reindexed_explicit _ _ _ _ _ _ _ _ _ hc) rfl rfl rfl⟩
  | resize d =>
    obtain ⟨B, A, oS, h, rfl⟩ := hl
    exact ⟨B, A, oS, ⟨h.args, h.str, h.method, h.axis, h.rank1, h.rank2, h.shape1, h.shape2, h.diagonal, h.reversed⟩, state_ext (lin_explicit _ _ _ _ _ hc) rfl rfl rfl⟩
  | attention d =>
    obtain ⟨c, h, rfl⟩ := hl
    exact ⟨c, ⟨h.scaling, h.pairs, h.axes, h.rank, h.shape1, h.shape2, h.same, h.psd⟩, state_ext (Attn.layer_explicit fun e => (hc e).2).symm rfl rfl rfl⟩
  | identity =>
    obtain rfl := hl
    rfl

lemma sum_explicit {m : ℕ} {c2 cn : Bool} {L : Fin (m + 1) → Logical ℝ} (h2 : ∀ r, (L r).k22.isSome = c2) :
    (C38.sumL c2 cn L).explicit = C38.sumL true cn fun r => (L r).explicit := by
  refine logical_ext rfl rfl rfl rfl rfl rfl ?_ rfl
  simp only [Logical.explicit, C38.sumL, Logical.second, if_true, Option.some.injEq]
  funext b p q
  cases c2
  · simp only [Bool.false_eq_true, if_false, Option.getD_none]
    refine Finset.sum_congr rfl fun r _ => ?_
    have := h2 r
    cases h : (L r).k22 <;> simp_all
  · simp only [if_true, Option.getD_some]
    refine Finset.sum_congr rfl fun r _ => ?_
    have := h2 r
    cases h : (L r).k22 <;> simp_all

lemma prod_explicit {m : ℕ} {c2 cn : Bool} {L : Fin (m + 1) → Logical ℝ} (h2 : ∀ r, (L r).k22.isSome = c2) :
    (C39.prodL c2 cn L).explicit = C39.prodL true cn fun r => (L r).explicit := by
  refine logical_ext rfl rfl rfl rfl rfl rfl ?_ rfl
  simp only [Logical.explicit, C39.prodL, Logical.second, if_true, Option.some.injEq]
  funext b p q
  cases c2
  · simp only [Bool.false_eq_true, if_false, Option.getD_none]
    refine Finset.prod_congr rfl fun r _ => ?_
    have := h2 r
    cases h : (L r).k22 <;> simp_all
  · simp only [if_true, Option.getD_some]
    refine Finset.prod_congr rfl fun r _ => ?_
    have := h2 r
    cases h : (L r).k22 <;> simp_all

lemma channel_explicit {m : ℕ} {w : Fin (m + 1) → ℕ} {c2 cn : Bool} {L : Fin (m + 1) → Logical ℝ} (h2 : ∀ r, (L r).k22.isSome = c2) :
    (C40.channelL w c2 cn L).explicit = C40.channelL w true cn fun r => (L r).explicit := by
  refine logical_ext rfl rfl rfl rfl rfl rfl ?_ rfl
  simp only [Logical.explicit, C40.channelL, Logical.second, if_true, Option.some.injEq]
  funext b p q
  cases c2
  · simp only [Bool.false_eq_true, if_false, Option.getD_none]
    congr 1
    refine Finset.sum_congr rfl fun r _ => ?_
    have := h2 r
    cases h : (L r).k22 <;> simp_all
  · simp only [if_true, Option.getD_some]
    congr 1
    refine Finset.sum_congr rfl fun r _ => ?_
    have := h2 r
    cases h : (L r).k22 <;> simp_all

lemma spatial_explicit {m c : ℕ} {c2 cn : Bool} {L : Fin (m + 1) → Logical ℝ} (hc : ∀ r, (L r).Closed) (h2 : ∀ r, (L r).k22.isSome = c2) :
    (C40.spatialL c c2 cn L).explicit = C40.spatialL c true cn fun r => (L r).explicit := by
  refine logical_ext rfl rfl rfl rfl rfl rfl ?_ rfl
  simp only [Logical.explicit, C40.spatialL, Logical.second, if_true, Option.some.injEq, Option.getD_some]
  cases c2
  · have h : ∀ r, (L r).k22 = none := fun r => by simpa using h2 r
    simp only [Bool.false_eq_true, if_false, Option.getD_none, h, (hc _ (h _)).2]
  · simp only [if_true, Option.getD_some]
    congr 1
    funext r
    obtain ⟨F, hF⟩ := Option.isSome_iff_exists.1 (h2 r)
    rw [hF]
    rfl

lemma joint_explicit {m : ℕ} {c2 cn : Bool} {L : Fin (m + 1) → Logical ℝ} (hc : ∀ r, (L r).Closed) (h2 : ∀ r, (L r).k22.isSome = c2) :
    (C40.batchL c2 cn L).explicit = C40.batchL true cn fun r => (L r).explicit := by
  refine logical_ext rfl rfl rfl rfl rfl rfl ?_ rfl
  simp only [Logical.explicit, C40.batchL, Logical.second, if_true, Option.some.injEq, Option.getD_some]
  cases c2
  · have h : ∀ r, (L r).k22 = none := fun r => by simpa using h2 r
    simp only [Bool.false_eq_true, if_false, Option.getD_none, h, (hc _ (h _)).1]
  · simp only [if_true, Option.getD_some]
    congr 1
    funext r
    obtain ⟨F, hF⟩ := Option.isSome_iff_exists.1 (h2 r)
    rw [hF]
    rfl

lemma alike_explicit {m : ℕ} {s : Fin (m + 1) → State} (h : Alike s) : Alike fun r => (s r).explicit :=
  ⟨h.diagonalBatch, h.diagonalSpatial, h.batchAxis, h.channelAxis, h.notReversed, h.same, h.full, h.gaussian⟩

lemma sameLayout_explicit {m : ℕ} {s : Fin (m + 1) → State} (h : SameLayout s) : SameLayout fun r => (s r).explicit where
  diagonalBatch := h.diagonalBatch
  diagonalSpatial := h.diagonalSpatial
  batchAxis := h.batchAxis
  channelAxis := h.channelAxis
  notReversed := h.notReversed
  sizes := h.sizes
  same := h.same
  full := h.full

lemma majority_explicit {m : ℕ} (s : Fin (m + 1) → State) : majority (fun r => (s r).explicit) = majority s := by
  unfold majority
  rw [countP_ofFn (f := fun r => (s r).explicit) (p := fun x => x.info.isReversed) (g := s) (q := fun x => x.info.isReversed) fun r => rfl]

/-- Every fan-in layer does the same when the covariances of the second inputs are given. -/
theorem fan_explicit {f : Fan} {m : ℕ} {s : Fin (m + 1) → State} {t : State} (hc : ∀ r, (s r).L.Closed) (hf : FanSem f s t) : FanSem f (fun r => (s r).explicit) t.explicit := by
  cases f with
  | sum =>
    obtain ⟨h1, h2, h3, c2, cn, h4, h5, rfl⟩ := hf
    refine ⟨sameLayout_explicit h1, h2, h3, true, cn, fun r => rfl, h5, state_ext (sum_explicit h4) ?_ rfl rfl⟩
    rw [majority_explicit]
    rfl
  | prod =>
    obtain ⟨h1, h3, c2, cn, h4, h5, rfl⟩ := hf
    refine ⟨sameLayout_explicit h1, h3, true, cn, fun r => rfl, h5, state_ext (prod_explicit h4) ?_ rfl rfl⟩
    rw [majority_explicit]
    rfl
  | concat axis =>
    rcases hf with hf | hf | hf
    rotate_left
    · obtain ⟨h1, ax, c, g1, g2, g3, g4, g5, g6, g7, c2, cn, h4, h5, rfl⟩ := hf
      refine Or.inr (Or.inl ⟨alike_explicit h1, ax, c, g1, g2, g3, g4, g5, g6, g7, true, cn, fun r => rfl, h5, state_ext (spatial_explicit hc h4) ?_ rfl rfl⟩)
      unfold joined
      rw [majority_explicit]
      rfl
    · obtain ⟨h1, g1, g2, g3, g4, g5, g6, c2, cn, h4, h5, rfl⟩ := hf
      refine Or.inr (Or.inr ⟨alike_explicit h1, g1, g2, g3, g4, g5, g6, true, cn, fun r => rfl, h5, state_ext (joint_explicit hc h4) ?_ rfl rfl⟩)
      unfold joined
      rw [majority_explicit]
      rfl
    obtain ⟨h1, h2, h0, h3, h6, w, h7, h8, h9, c2, cn, h4, h5, rfl⟩ := hf
    refine Or.inl ⟨sameLayout_explicit h1, h2, h0, h3, h6, w, h7, h8, h9, true, cn, fun r => rfl, h5, state_ext (channel_explicit h4) ?_ rfl rfl⟩
    rw [majority_explicit]
    rfl

/-- A network does the same when the covariances of the second inputs are given. -/
theorem net_explicit {net : Net} {v w : Vals State} (h : NetSem net v w) : ∀ {v' : Vals State}, Rel (fun s t => t = s.explicit) v v' →
    ∃ w', NetSem net v' w' ∧ Rel (fun s t => t = s.explicit) w w' := by
  induction h with
  | @layer l out s t hc hl =>
    intro x hx
    cases hx with
    | one _ s' hs =>
      subst hs
      exact ⟨_, .layer (closed_explicit _) (layer_explicit hc hl), .one _ _ rfl⟩
  | fanOut =>
    intro x hx
    exact ⟨_, .fanOut, rel_replicate hx _⟩
  | @fanIn f out m s t hc hf =>
    intro x hx
    obtain ⟨u', rfl, hu⟩ := rel_ofFn hx
    have : u' = fun r => .one (s r).explicit := by
      funext r
      have := hu r
      generalize u' r = z at this
      cases this with
      | one _ b h => rw [h]
    subst this
    exact ⟨_, .fanIn (fun r => closed_explicit _) (fan_explicit hc hf), .one _ _ rfl⟩
  | seq _ _ ih1 ih2 =>
    intro x hx
    obtain ⟨y, h1, h2⟩ := ih1 hx
    obtain ⟨z, h3, h4⟩ := ih2 h2
    exact ⟨z, .seq h1 h3, h4⟩
  | @par n branches u v h ih =>
    intro x hx
    obtain ⟨u', rfl, hu⟩ := rel_ofFn hx
    choose y h1 h2 using fun i => ih i (hu i)
    exact ⟨_, .par h1, rel_many h2⟩

lemma layer_none {l : Layer} {s t : State} (hn : s.L.k22 = none) (hl : LayerSem l s t) : t.L.k22 = none := by
  cases l with
  | dense d => obtain ⟨-, -, C, -, -, rfl⟩ := hl; simp [C52.after, hn]
  | conv d => obtain ⟨-, -, -, -, -, -, -, -, rfl⟩ := hl; simp [C53.after, hn]
  | convTranspose d => obtain ⟨-, -, -, -, -, -, -, -, -, rfl⟩ := hl; simp [C97.after, hn]
  | pool d => obtain ⟨-, -, -, -, rfl⟩ := hl; simp [C54.pooled, linLogical, hn]
  | globalPool d => obtain ⟨-, -, rfl⟩ := hl; simp [C54.globalPooled, linLogical, hn]
  | flatten f => obtain ⟨bo, co, -, -, -, rfl⟩ := hl; simp [C55.flat, hn]
  | dropout d =>
    obtain ⟨-, -, ⟨-, rfl⟩ | ⟨-, -, -, -, rfl⟩⟩ := hl
    · exact hn
    · simp [C56.after, hn]
  | layerNorm axis eps ba ca => obtain ⟨-, -, -, -, -, -, b, c, ax, -, -, -, -, -, -, rfl⟩ := hl; simp [normalised, hn]
  | act f => obtain ⟨-, C, φ, dφ, N, T, -, -, rfl⟩ := hl; simp [entrywise, hn]
  | dotGeneral other isLhs inputC otherC inputB otherB => obtain ⟨-, -, -, -, -, -, -, -, -, -, rfl⟩ := hl; simp [Contraction.logical, hn]
  | index i => obtain ⟨l, a, b, st, n1', n2', S1', S2', out1, out2, h, rfl⟩ := hl; simp [indexed, C27.reindexed, hn]
  | resize d => obtain ⟨B, A, oS, -, rfl⟩ := hl; simp [C95.resizedSpatial, linLogical, hn]
  | attention d => obtain ⟨c, -, rfl⟩ := hl; exact Attn.layer_none.2 hn
  | identity => obtain rfl := hl; exact hn

lemma fan_none {f : Fan} {m : ℕ} {s : Fin (m + 1) → State} {t : State} (hn : ∀ r, (s r).L.k22 = none) (hf : FanSem f s t) : t.L.k22 = none := by
  cases f with
  | sum =>
    obtain ⟨-, -, -, c2, cn, h4, -, rfl⟩ := hf
    have := h4 0
    rw [hn 0] at this
    subst this
    simp [C38.sumL]
  | prod =>
    obtain ⟨-, -, c2, cn, h4, -, rfl⟩ := hf
    have := h4 0
    rw [hn 0] at this
    subst this
    simp [C39.prodL]
  | concat axis =>
    rcases hf with hf | hf | hf
    · obtain ⟨-, -, -, -, -, w, -, -, -, c2, cn, h4, -, rfl⟩ := hf
      have := h4 0
      rw [hn 0] at this
      subst this
      simp [C40.channelL]
    · obtain ⟨-, ax, c, -, -, -, -, -, -, -, c2, cn, h4, -, rfl⟩ := hf
      have := h4 0
      rw [hn 0] at this
      subst this
      simp [C40.spatialL]
    · obtain ⟨-, -, -, -, -, -, -, c2, cn, h4, -, rfl⟩ := hf
      have := h4 0
      rw [hn 0] at this
      subst this
      simp [C40.batchL]

/-- Absent covariances of the second inputs stay absent. -/
lemma net_none {net : Net} {v w : Vals State} (h : NetSem net v w) (hv : Every (fun s => s.L.k22 = none) v) : Every (fun s => s.L.k22 = none) w :=
  net_every (P := fun s => s.L.k22 = none) (fun _ _ _ h => h) (fun _ hn hl => layer_none hn hl) (fun _ hn hf => fan_none hn hf) h hv

end NT.Semantics
