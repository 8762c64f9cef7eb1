import Verif.Tac
import Verif.Spec.Swap
import Verif.Lemmas.Semantics
import Verif.Lemmas.AttentionNet2

/-!
Every layer does the same to a kernel and to the kernel of the swapped inputs.
-/

namespace NT.Semantics
open NT NT.Network NT.Spec

lemma logical_ext {L M : Logical ℝ} (h1 : L.n1 = M.n1) (h2 : L.n2 = M.n2) (h3 : L.S1 = M.S1) (h4 : L.S2 = M.S2) (h5 : L.k12 = M.k12)
    (h6 : L.k11 = M.k11) (h7 : L.k22 = M.k22) (h8 : L.ntk = M.ntk) : L = M := by
  cases L; cases M; simp_all

lemma swap_second (L : Logical ℝ) : L.swap.second = L.k11 := by
  unfold Logical.swap Logical.second
  cases L.k22 <;> rfl

lemma closed_swap {L : Logical ℝ} (h : L.Closed) : L.swap.Closed := by
  intro hn
  have : L.k22 = none := by simpa [Logical.swap] using hn
  exact ⟨(h this).1.symm, (h this).2.symm⟩

lemma state_ext {s t : State} (h1 : s.L = t.L) (h2 : s.info = t.info) (h3 : s.same = t.same) (h4 : s.full = t.full) : s = t := by
  cases s; cases t; simp_all

lemma read2_swap (F : List ℕ → List ℕ → ℝ) (a b : Option (List ℕ)) : read2 (fun p q => F q p) a b = read2 F b a := by
  cases a <;> cases b <;> rfl

lemma second_none {L : Logical ℝ} (h : L.k22 = none) : L.second = L.k11 := by simp [Logical.second, h]

lemma second_some {L : Logical ℝ} {F} (h : L.k22 = some F) : L.second = F := by simp [Logical.second, h]

lemma dense_swap (d : Dense) (C : ℕ) (L : Logical ℝ) : (C52.after d C L).swap = C52.after d C L.swap := by
  refine logical_ext rfl rfl rfl rfl rfl ?_ ?_ ?_
  · cases h : L.k22 <;> simp [Logical.swap, Logical.second, C52.after, h]
  · cases h : L.k22 <;> simp [Logical.swap, C52.after, h]
  · cases h : L.ntk
    · simp [Logical.swap, C52.after, h]
    · simp only [Logical.swap, C52.after, h, Option.map_some, Option.some.injEq]
      rfl

lemma avg_swap (d : Conv) (S T : List ℕ) (F : List ℕ → List ℕ → ℝ) (o o' : List ℕ) :
    C53.avg d T S (fun p q => F q p) o o' = C53.avg d S T F o' o := by
  unfold C53.avg
  congr 1
  exact Finset.sum_congr rfl fun f _ => read2_swap _ _ _

lemma gate_swap (d : Conv) (o o' : List ℕ) (v : ℝ) : C53.gate d o o' v = C53.gate d o' o v := by
  unfold C53.gate
  simp only [eq_comm (a := o)]

lemma conv_swap (d : Conv) (C : ℕ) (L : Logical ℝ) (hc : L.Closed) : (C53.after d C L).swap = C53.after d C L.swap := by
  refine logical_ext rfl rfl rfl rfl ?_ ?_ ?_ ?_
  · funext b p q
    show C53.gate d q p (_ * C53.avg d L.S1 L.S2 (L.k12 [b.getD 1 0, b.getD 0 0]) q p + _) = C53.gate d p q _
    rw [gate_swap, ← avg_swap]
    rfl
  · cases h : L.k22
    · obtain ⟨-, h2⟩ := hc h
      simp [Logical.swap, Logical.second, C53.after, h, h2]
    · simp [Logical.swap, Logical.second, C53.after, h]
  · cases h : L.k22 <;> simp [Logical.swap, C53.after, h]
  · cases h : L.ntk
    · simp [Logical.swap, C53.after, h]
    · rename_i F
      simp only [Logical.swap, C53.after, h, Option.map_some, Option.some.injEq]
      funext b p q
      simp only [swap2]
      rw [gate_swap, ← avg_swap, ← avg_swap d L.S1 L.S2 (F _)]
      rfl

lemma upAvg_swap (d : ConvTranspose) (S T : List ℕ) (F : List ℕ → List ℕ → ℝ) (o o' : List ℕ) :
    C97.avg d T S (fun p q => F q p) o o' = C97.avg d S T F o' o := by
  unfold C97.avg
  congr 1
  exact Finset.sum_congr rfl fun f _ => read2_swap _ _ _

lemma convTranspose_swap (d : ConvTranspose) (C : ℕ) (L : Logical ℝ) (hc : L.Closed) : (C97.after d C L).swap = C97.after d C L.swap := by
  refine logical_ext rfl rfl rfl rfl ?_ ?_ ?_ ?_
  · funext b p q
    show _ * C97.avg d L.S1 L.S2 (L.k12 [b.getD 1 0, b.getD 0 0]) q p + _ = _
    rw [← upAvg_swap]
    rfl
  · cases h : L.k22
    · obtain ⟨-, h2⟩ := hc h
      simp [Logical.swap, Logical.second, C97.after, h, h2]
    · simp [Logical.swap, Logical.second, C97.after, h]
  · cases h : L.k22 <;> simp [Logical.swap, C97.after, h]
  · cases h : L.ntk
    · simp [Logical.swap, C97.after, h]
    · rename_i F
      simp only [Logical.swap, C97.after, h, Option.map_some, Option.some.injEq]
      funext b p q
      simp only [swap2]
      rw [← upAvg_swap, ← upAvg_swap d L.S1 L.S2 (F _)]
      rfl

lemma lin_swap {ι : Type} (s : List ℕ → Finset ι) (w : List ℕ → List ℕ → ι → ℝ) (t : List ℕ → List ℕ → ι → Option (List ℕ))
    (out : List ℕ → List ℕ) (L : Logical ℝ) (hc : L.Closed) : (linLogical s w t out L).swap = linLogical s w t out L.swap := by
  have key : ∀ (F : List ℕ → List ℕ → List ℕ → ℝ) (S T b p q : List ℕ),
      (∑ u ∈ s S, ∑ v ∈ s T, w S q u * w T p v * read2 (F [b.getD 1 0, b.getD 0 0]) (t S q u) (t T p v)) =
        ∑ u ∈ s T, ∑ v ∈ s S, w T p u * w S q v * read2 (swap2 F b) (t T p u) (t S q v) := by
    intro F S T b p q
    rw [Finset.sum_comm]
    refine Finset.sum_congr rfl fun u _ => Finset.sum_congr rfl fun v _ => ?_
    rw [mul_comm (w S q v), ← read2_swap]
    rfl
  refine logical_ext rfl rfl rfl rfl ?_ ?_ ?_ ?_
  · funext b p q
    exact key _ _ _ _ _ _
  · cases h : L.k22
    · obtain ⟨-, h2⟩ := hc h
      simp [Logical.swap, Logical.second, linLogical, h, h2]
    · simp [Logical.swap, Logical.second, linLogical, h]
  · cases h : L.k22 <;> simp [Logical.swap, linLogical, h]
  · cases h : L.ntk
    · simp [Logical.swap, linLogical, h]
    · simp only [Logical.swap, linLogical, h, Option.map_some, Option.some.injEq]
      funext b p q
      exact key _ _ _ _ _ _

lemma offDiag_swap {L : Logical ℝ} (h : C54.OffDiagZero L) : C54.OffDiagZero L.swap where
  k12 b p q hpq := h.k12 _ _ _ hpq.symm
  k11 b p q hpq := by
    show L.second b p q = 0
    cases hk : L.k22
    · rw [second_none hk]; exact h.k11 _ _ _ hpq
    · rw [second_some hk]; exact h.k22 _ hk _ _ _ hpq
  k22 F hF b p q hpq := by
    simp only [Logical.swap, Option.map_eq_some_iff] at hF
    obtain ⟨-, -, rfl⟩ := hF
    exact h.k11 _ _ _ hpq
  ntk F hF b p q hpq := by
    simp only [Logical.swap, Option.map_eq_some_iff] at hF
    obtain ⟨G, hG, rfl⟩ := hF
    exact h.ntk G hG _ _ _ hpq.symm

lemma flat_swap (L : Logical ℝ) (hS : L.S1 = L.S2) : (C55.flat L).swap = C55.flat L.swap := by
  refine logical_ext rfl rfl rfl rfl ?_ ?_ ?_ ?_
  · funext b p q
    simp only [Logical.swap, C55.flat, C55.avg, swap2, hS]
  · cases h : L.k22 <;> simp [Logical.swap, Logical.second, C55.flat, h, hS]
  · cases h : L.k22 <;> simp [Logical.swap, C55.flat, h]
  · cases h : L.ntk
    · simp [Logical.swap, C55.flat, h]
    · simp only [Logical.swap, C55.flat, h, Option.map_some, Option.some.injEq]
      funext b p q
      simp only [C55.avg, swap2, hS]

lemma drop_swap (rate : ℝ) (F : List ℕ → List ℕ → List ℕ → ℝ) : swap2 (C56.drop rate F) = C56.drop rate (swap2 F) := by
  funext b p q
  simp only [swap2, C56.drop, List.getD_cons_zero, List.getD_cons_succ]
  simp only [eq_comm (a := b.getD 1 0), eq_comm (a := q)]

lemma dropout_swap (rate : ℝ) (same : Bool) (L : Logical ℝ) : (C56.after rate same L).swap = C56.after rate same L.swap := by
  refine logical_ext rfl rfl rfl rfl ?_ ?_ ?_ ?_
  · cases same
    · rfl
    · exact drop_swap _ _
  · cases h : L.k22 <;> simp [Logical.swap, Logical.second, C56.after, h]
  · cases h : L.k22 <;> simp [Logical.swap, C56.after, h]
  · cases same
    · rfl
    · cases h : L.ntk <;> simp [Logical.swap, C56.after, h, drop_swap]

lemma norm_swap (L : Logical ℝ) (eps : ℝ) (batch : Bool) (A : ℕ → Prop) (hc : L.Closed) :
    (normalised L eps batch A).swap = normalised L.swap eps batch A := by
  refine logical_ext rfl rfl rfl rfl ?_ ?_ ?_ ?_
  · funext b p q
    simp only [normalised, swap_second]
    simp only [Logical.swap, swap2, List.getD_cons_zero, List.getD_cons_succ]
    rw [mul_comm]
  · cases h : L.k22
    · obtain ⟨h1, h2⟩ := hc h
      simp [Logical.swap, Logical.second, normalised, h, h1, h2]
    · simp [Logical.swap, Logical.second, normalised, h]
  · simp only [normalised, swap_second]
    cases h : L.k22
    · simp [Logical.swap, h]
    · simp [Logical.swap, h]
  · simp only [normalised, swap_second]
    cases h : L.ntk
    · simp [Logical.swap, h]
    · simp only [Logical.swap, h, Option.map_some, Option.some.injEq]
      funext b p q
      simp only [swap2, List.getD_cons_zero, List.getD_cons_succ]
      rw [mul_comm]

lemma entrywise_swap {N T : ℝ → ℝ → ℝ → ℝ} (h : ∀ c u v, N c u v = N c v u ∧ T c u v = T c v u) (L : Logical ℝ) :
    (entrywise N T L).swap = entrywise N T L.swap := by
  refine logical_ext rfl rfl rfl rfl ?_ ?_ ?_ ?_
  · funext b p q
    simp only [entrywise, swap_second]
    simp only [Logical.swap, swap2, List.getD_cons_zero, List.getD_cons_succ]
    exact (h _ _ _).1
  · cases h : L.k22 <;> simp [Logical.swap, Logical.second, entrywise, h]
  · cases h : L.k22 <;> simp [Logical.swap, entrywise, h]
  · simp only [entrywise, swap_second]
    cases hn : L.ntk
    · simp [Logical.swap, hn]
    · simp only [Logical.swap, hn, Option.map_some, Option.some.injEq]
      funext b p q
      simp only [swap2, List.getD_cons_zero, List.getD_cons_succ]
      rw [(h _ _ _).2]

lemma vars_swap {L : Logical ℝ} {C : ℝ → Prop} (hc : L.Closed) (h : L.Vars C) : L.swap.Vars C where
  one i p hi hp := by
    show C (L.second [i, i] p p)
    cases hk : L.k22
    · obtain ⟨h1, h2⟩ := hc hk
      rw [second_none hk]
      exact h.one i p (by rw [← h1]; exact hi) (by rw [← h2]; exact hp)
    · rw [second_some hk]; exact h.two _ hk i p hi hp
  two F hF i p hi hp := by
    simp only [Logical.swap, Option.map_eq_some_iff] at hF
    obtain ⟨-, -, rfl⟩ := hF
    exact h.one i p hi hp

lemma covar_swap (C : Contraction) (s s' : List ℕ) (o : List ℕ → ℝ) (F : List ℕ → List ℕ → List ℕ → ℝ) :
    swap2 (C.covar s s' o o F) = C.covar s' s o o (swap2 F) := by
  funext b p q
  simp only [swap2, Contraction.covar, List.getD_cons_zero, List.getD_cons_succ]
  rw [Finset.sum_comm]
  refine Finset.sum_congr rfl fun u _ => Finset.sum_congr rfl fun v _ => ?_
  ring

lemma contraction_swap (C : Contraction) (hC : C.Ok) (s s' t : List ℕ) (o : List ℕ → ℝ) (L : Logical ℝ) (hc : L.Closed)
    (h1 : L.S1 = (spatialAxes C.n C.ba C.ca).map (s.getD · 0)) (h2 : L.S2 = (spatialAxes C.n C.ba C.ca).map (s'.getD · 0)) :
    (C.logical s s' t t o o L).swap = C.logical s' s t t o o L.swap := by
  refine logical_ext rfl rfl rfl rfl (covar_swap _ _ _ _ _) ?_ ?_ ?_
  · cases h : L.k22
    · obtain ⟨-, h3⟩ := hc h
      have e : C.cs.map (s.getD · 0) = C.cs.map (s'.getD · 0) := by
        refine List.map_congr_left fun a ha => ?_
        obtain ⟨g1, g2, g3⟩ := KernelDot.cs_lt hC ha
        rw [h2, h1] at h3
        exact (List.map_inj_left.1 h3 a (by simp [spatialAxes, g1, g2, g3])).symm
      simp only [Logical.swap, Logical.second, Contraction.logical, h, Option.map_none, Option.getD_none]
      funext b p q
      simp only [Contraction.covar, e]
    · simp [Logical.swap, Logical.second, Contraction.logical, h]
  · cases h : L.k22 <;> simp [Logical.swap, Contraction.logical, h]
  · cases h : L.ntk
    · simp [Logical.swap, Contraction.logical, h]
    · simp only [Logical.swap, Contraction.logical, h, Option.map_some, Option.some.injEq]
      exact covar_swap _ _ _ _ _

/-- Every layer does the same to the kernel of the swapped inputs. -/
lemma reindexed_swap (L : Logical ℝ) (a b st : Option ℤ) (sp : List Utils.Entry) (n1' n2' : ℕ) (S1' S2' : List ℕ) (hc : L.Closed) :
    (C27.reindexed L a b st sp n1' n2' S1' S2').swap = C27.reindexed L.swap a b st sp n2' n1' S2' S1' := by
  refine logical_ext rfl rfl rfl rfl ?_ ?_ ?_ ?_
  · rfl
  · unfold C27.reindexed Logical.swap Logical.second
    cases h : L.k22 with
    | none => simp [(hc h).1, (hc h).2]
    | some F => simp
  · unfold C27.reindexed Logical.swap
    cases L.k22 <;> rfl
  · unfold C27.reindexed Logical.swap
    cases L.ntk <;> rfl

theorem layer_swap {l : Layer} {s t : State} (hc : s.L.Closed) (hl : LayerSem l s t) : LayerSem l s.swap t.swap := by
  cases l with
  | dense d =>
    obtain ⟨h1, h0, C, h2, h3, rfl⟩ := hl
    exact ⟨h1, h0, C, h3, h2, state_ext (dense_swap _ _ _) rfl rfl rfl⟩
  | conv d =>
    obtain ⟨h1, h0, h2, h3, h4, h5, h6, h7, rfl⟩ := hl
    refine ⟨h1, h0, h2, h4, h3, h5, fun a b => ⟨(h6 a b).1.symm, (h6 a b).2⟩, h7.symm, state_ext ?_ rfl rfl rfl⟩
    show (C53.after d (s.info.shape1.getD d.channelAxis 0) s.L).swap = C53.after d (s.info.shape2.getD d.channelAxis 0) s.L.swap
    rw [← h7]
    exact conv_swap _ _ _ hc
  | convTranspose d =>
    obtain ⟨h1, h0, h2, h3, h4, h5, h6, h7, h8, rfl⟩ := hl
    refine ⟨h1, h0, h2, h4, h3, h6, h5, h7, h8.symm, state_ext ?_ rfl rfl rfl⟩
    show (C97.after d (s.info.shape1.getD d.conv.channelAxis 0) s.L).swap = C97.after d (s.info.shape2.getD d.conv.channelAxis 0) s.L.swap
    rw [← h8]
    exact convTranspose_swap _ _ _ hc
  | pool d =>
    obtain ⟨h1, h2, h3, h4, rfl⟩ := hl
    refine ⟨h1, h3, h2, fun h => ⟨(h4 h).1, (h4 h).2.1.symm, offDiag_swap (h4 h).2.2.1, fun hp => ?_⟩, state_ext (lin_swap _ _ _ _ _ hc) rfl rfl rfl⟩
    have := (h4 h).2.2.2 hp
    rwa [(h4 h).2.1] at this
  | globalPool d =>
    obtain ⟨h1, h2, rfl⟩ := hl
    refine ⟨fun h => offDiag_swap (h1 h), h2.symm, state_ext (lin_swap _ _ _ _ _ hc) ?_ rfl rfl⟩
    simp only [State.swap, h2]
    rfl
  | flatten f =>
    obtain ⟨bo, co, h1, h2, h3, rfl⟩ := hl
    exact ⟨bo, co, h1, h2.symm, show 0 ∉ s.L.S2 from h2 ▸ h3, state_ext (flat_swap _ h2) rfl rfl rfl⟩
  | dropout d =>
    obtain ⟨h0, h1, ⟨hm, rfl⟩ | ⟨hm, h2, h3, h4, rfl⟩⟩ := hl
    · exact ⟨h0, h1, .inl ⟨hm, rfl⟩⟩
    · exact ⟨h0, h1, .inr ⟨hm, h2, h3, fun h => (h4 h).symm, state_ext (dropout_swap _ _ _) rfl rfl rfl⟩⟩
  | layerNorm axis eps ba ca =>
    obtain ⟨h1, h2, h0, h3, h9, h10, b, c, ax, rfl, h4, h5, h6, h7, h8, rfl⟩ := hl
    refine ⟨h1, h2, h0, ?_, h9.symm, h10.symm, b, c, ax, rfl, h4, ?_, ?_, ?_, h8, state_ext ?_ rfl rfl rfl⟩
    · show s.info.shape2.length = s.L.S2.length + 2
      rw [h9, h10]; exact h3
    · show b < s.info.shape2.length
      rw [h9]; exact h5
    · show ca % (s.info.shape2.length : ℤ) = c
      rw [h9]; exact h6
    · show Utils.canonicalizeAxis axis s.info.shape2.length = .ok ax
      rw [h9]; exact h7
    · show (normalised s.L eps (decide (b ∈ ax)) (C57.Among ax s.info.shape1.length b c)).swap =
        normalised s.L.swap eps (decide (b ∈ ax)) (C57.Among ax s.info.shape2.length b c)
      rw [h9]
      exact norm_swap _ _ _ _ hc
  | act f =>
    obtain ⟨h1, C, φ, dφ, N, T, h2, h3, rfl⟩ := hl
    exact ⟨h1, C, φ, dφ, N, T, h2, vars_swap hc h3, state_ext (entrywise_swap h2.symm _) rfl rfl rfl⟩
  | dotGeneral other isLhs inputC otherC inputB otherB =>
    obtain ⟨h1, h2, h3, h4, h5, h6, h7, h8, h9, h10, rfl⟩ := hl
    have hC : contraction s.swap.info other.ndim isLhs inputC otherC inputB otherB =
        contraction s.info other.ndim isLhs inputC otherC inputB otherB := by
      unfold contraction
      simp only [State.swap, h2]
    unfold LayerSem
    dsimp only
    rw [hC]
    refine ⟨h1, h2.symm, h4, h3, ?_, ?_, h8, h7, fun h => ⟨(h9 h).1, (h9 h).2.symm⟩, h10, state_ext ?_ rfl rfl rfl⟩
    · simp only [State.swap, Logical.swap, h2]; exact h6
    · simp only [State.swap, Logical.swap, h2]; exact h5
    · exact contraction_swap _ h1 _ _ _ _ _ hc h5 h6
  | index i =>
    obtain ⟨l, a, b, st, n1', n2', S1', S2', out1, out2, h, rfl⟩ := hl
    refine ⟨l, a, b, st, n2', n1', S2', S1', out2, out1, ?_, state_ext ?_ rfl rfl rfl⟩
    · obtain ⟨c1, hs1⟩ := h.shape1
      obtain ⟨c2, hs2⟩ := h.shape2
      have hlen : s.info.shape2.length = s.info.shape1.length := by
        rw [hs1, hs2, actIdx_length _ _ _ _ _ h.axes.1 h.axes.2.1 h.axes.2.2,
          actIdx_length _ _ _ _ _ h.axes.1 (by rw [h.rank]; exact h.axes.2.1) (by rw [h.rank]; exact h.axes.2.2), h.rank]
      exact ⟨by simpa only [State.swap, hlen] using h.means, by simpa only [State.swap, Logical.swap, h.rank] using h.axes, h.rank.symm, ⟨c2, hs2⟩, ⟨c1, hs1⟩,
        h.batch, h.channel, h.out2, h.out1, h.n2, h.n1, h.S2, h.S1⟩
    · exact reindexed_swap _ _ _ _ _ _ _ _ _ hc
  | resize d =>
    obtain ⟨B, A, oS, h, rfl⟩ := hl
    exact ⟨B, A, oS, ⟨h.args, h.str, h.method, h.axis, h.rank2, h.rank1, h.shape2, h.shape1, h.diagonal, fun e => (h.reversed e).symm⟩,
      state_ext (lin_swap _ _ _ _ _ hc) rfl rfl rfl⟩
  | attention d =>
    obtain ⟨c, h, rfl⟩ := hl
    refine ⟨c, ⟨h.scaling, h.pairs, ?_, h.rank.symm, h.shape2, h.shape1, fun e => (h.same e).symm, fun e => ?_⟩,
      state_ext (Attn.layer_swap _ _ _ _ _ fun e => ⟨(hc e).2, rfl⟩).symm rfl rfl rfl⟩
    · simpa only [State.swap, Logical.swap, h.rank] using h.axes
    · simpa only [State.swap, Logical.swap, h.same e] using h.psd e
  | identity =>
    obtain rfl := hl
    rfl

lemma sum_swap {m : ℕ} {c2 cn : Bool} {L : Fin (m + 1) → Logical ℝ} (h2 : ∀ r, (L r).k22.isSome = c2) (hn : ∀ r, (L r).ntk.isSome = cn) :
    (C38.sumL c2 cn L).swap = C38.sumL c2 cn fun r => (L r).swap := by
  refine logical_ext rfl rfl rfl rfl rfl ?_ ?_ ?_
  · cases c2
    · funext b p q
      simp only [C38.sumL, Logical.swap, Logical.second, Bool.false_eq_true, if_false, Option.getD_none]
      refine Finset.sum_congr rfl fun r _ => ?_
      have := h2 r
      cases h : (L r).k22 <;> simp_all
    · funext b p q
      simp only [C38.sumL, Logical.swap, Logical.second, if_true, Option.getD_some]
      refine Finset.sum_congr rfl fun r _ => ?_
      have := h2 r
      cases h : (L r).k22 <;> simp_all
  · cases c2
    · rfl
    · simp only [C38.sumL, Logical.swap, if_true, Option.map_some, Option.some.injEq]
      funext b p q
      refine Finset.sum_congr rfl fun r _ => ?_
      have := h2 r
      cases h : (L r).k22 <;> simp_all
  · cases cn
    · rfl
    · simp only [C38.sumL, Logical.swap, if_true, Option.map_some, Option.some.injEq]
      funext b p q
      refine Finset.sum_congr rfl fun r _ => ?_
      have := hn r
      cases h : (L r).ntk <;> simp_all [swap2]

lemma prod_swap {m : ℕ} {c2 cn : Bool} {L : Fin (m + 1) → Logical ℝ} (h2 : ∀ r, (L r).k22.isSome = c2) (hn : ∀ r, (L r).ntk.isSome = cn) :
    (C39.prodL c2 cn L).swap = C39.prodL c2 cn fun r => (L r).swap := by
  refine logical_ext rfl rfl rfl rfl rfl ?_ ?_ ?_
  · cases c2
    · funext b p q
      simp only [C39.prodL, Logical.swap, Logical.second, Bool.false_eq_true, if_false, Option.getD_none]
      refine Finset.prod_congr rfl fun r _ => ?_
      have := h2 r
      cases h : (L r).k22 <;> simp_all
    · funext b p q
      simp only [C39.prodL, Logical.swap, Logical.second, if_true, Option.getD_some]
      refine Finset.prod_congr rfl fun r _ => ?_
      have := h2 r
      cases h : (L r).k22 <;> simp_all
  · cases c2
    · rfl
    · simp only [C39.prodL, Logical.swap, if_true, Option.map_some, Option.some.injEq]
      funext b p q
      refine Finset.prod_congr rfl fun r _ => ?_
      have := h2 r
      cases h : (L r).k22 <;> simp_all
  · cases cn
    · rfl
    · simp only [C39.prodL, Logical.swap, if_true, Option.map_some, Option.some.injEq]
      funext b p q
      refine Finset.sum_congr rfl fun r _ => ?_
      have := hn r
      cases h : (L r).ntk <;> simp_all [swap2]

lemma channel_swap {m : ℕ} {w : Fin (m + 1) → ℕ} {c2 cn : Bool} {L : Fin (m + 1) → Logical ℝ} (h2 : ∀ r, (L r).k22.isSome = c2)
    (hn : ∀ r, (L r).ntk.isSome = cn) : (C40.channelL w c2 cn L).swap = C40.channelL w c2 cn fun r => (L r).swap := by
  refine logical_ext rfl rfl rfl rfl rfl ?_ ?_ ?_
  · cases c2
    · funext b p q
      simp only [C40.channelL, Logical.swap, Logical.second, Bool.false_eq_true, if_false, Option.getD_none]
      congr 1
      refine Finset.sum_congr rfl fun r _ => ?_
      have := h2 r
      cases h : (L r).k22 <;> simp_all
    · funext b p q
      simp only [C40.channelL, Logical.swap, Logical.second, if_true, Option.getD_some]
      congr 1
      refine Finset.sum_congr rfl fun r _ => ?_
      have := h2 r
      cases h : (L r).k22 <;> simp_all
  · cases c2
    · rfl
    · simp only [C40.channelL, Logical.swap, if_true, Option.map_some, Option.some.injEq]
      funext b p q
      congr 1
      refine Finset.sum_congr rfl fun r _ => ?_
      have := h2 r
      cases h : (L r).k22 <;> simp_all
  · cases cn
    · rfl
    · simp only [C40.channelL, Logical.swap, if_true, Option.map_some, Option.some.injEq]
      funext b p q
      simp only [swap2]
      congr 1
      refine Finset.sum_congr rfl fun r _ => ?_
      have := hn r
      cases h : (L r).ntk <;> simp_all [swap2]

lemma catF_swap {m : ℕ} (c : ℕ) (S T : Fin (m + 1) → List ℕ) (F : Fin (m + 1) → List ℕ → List ℕ → List ℕ → ℝ) :
    swap2 (Cat.catF c S T F) = Cat.catF c T S fun r => swap2 (F r) := by
  funext b p q
  unfold swap2 Cat.catF
  dsimp only
  by_cases h : (Cat.blk (sizes c S) (q.getD c 0)).1 = (Cat.blk (sizes c T) (p.getD c 0)).1
  · rw [if_pos h, if_pos h.symm, h]
  · rw [if_neg h, if_neg (Ne.symm h)]

lemma batF_swap {m : ℕ} (n n' : Fin (m + 1) → ℕ) (F : Fin (m + 1) → List ℕ → List ℕ → List ℕ → ℝ) :
    swap2 (Cat.batF n n' F) = Cat.batF n' n fun r => swap2 (F r) := by
  funext b p q
  unfold swap2 Cat.batF
  simp only [List.getD_cons_zero, List.getD_cons_succ]
  by_cases h : (Cat.blk n (b.getD 1 0)).1 = (Cat.blk n' (b.getD 0 0)).1
  · rw [if_pos h, if_pos h.symm, h]
  · rw [if_neg h, if_neg (Ne.symm h)]

lemma spatial_swap {m c : ℕ} {c2 cn : Bool} {L : Fin (m + 1) → Logical ℝ} (hc : ∀ r, (L r).Closed) (h2 : ∀ r, (L r).k22.isSome = c2)
    (hn : ∀ r, (L r).ntk.isSome = cn) : (C40.spatialL c c2 cn L).swap = C40.spatialL c c2 cn fun r => (L r).swap := by
  refine logical_ext rfl rfl rfl rfl (catF_swap c (fun r => (L r).S1) (fun r => (L r).S2) fun r => (L r).k12) ?_ ?_ ?_
  · cases c2
    · have h : ∀ r, (L r).k22 = none := fun r => by simpa using h2 r
      simp only [C40.spatialL, Logical.swap, Logical.second, Bool.false_eq_true, if_false, Option.getD_none, h, (hc _ (h _)).2]
    · simp only [C40.spatialL, Logical.swap, Logical.second, if_true, Option.getD_some]
      congr 1
      funext r
      obtain ⟨F, hF⟩ := Option.isSome_iff_exists.1 (h2 r)
      rw [hF]
      rfl
  · cases c2
    · rfl
    · simp only [C40.spatialL, Logical.swap, if_true, Option.map_some, Option.some.injEq]
      congr 1
      funext r
      obtain ⟨F, hF⟩ := Option.isSome_iff_exists.1 (h2 r)
      rw [hF]
      rfl
  · cases cn
    · rfl
    · simp only [C40.spatialL, Logical.swap, if_true, Option.map_some, Option.some.injEq]
      rw [catF_swap]
      congr 1
      funext r
      obtain ⟨F, hF⟩ := Option.isSome_iff_exists.1 (hn r)
      rw [hF]
      rfl

lemma joint_swap {m : ℕ} {c2 cn : Bool} {L : Fin (m + 1) → Logical ℝ} (hc : ∀ r, (L r).Closed) (h2 : ∀ r, (L r).k22.isSome = c2)
    (hn : ∀ r, (L r).ntk.isSome = cn) : (C40.batchL c2 cn L).swap = C40.batchL c2 cn fun r => (L r).swap := by
  refine logical_ext rfl rfl rfl rfl (batF_swap (fun r => (L r).n1) (fun r => (L r).n2) fun r => (L r).k12) ?_ ?_ ?_
  · cases c2
    · have h : ∀ r, (L r).k22 = none := fun r => by simpa using h2 r
      simp only [C40.batchL, Logical.swap, Logical.second, Bool.false_eq_true, if_false, Option.getD_none, h, (hc _ (h _)).1]
    · simp only [C40.batchL, Logical.swap, Logical.second, if_true, Option.getD_some]
      congr 1
      funext r
      obtain ⟨F, hF⟩ := Option.isSome_iff_exists.1 (h2 r)
      rw [hF]
      rfl
  · cases c2
    · rfl
    · simp only [C40.batchL, Logical.swap, if_true, Option.map_some, Option.some.injEq]
      congr 1
      funext r
      obtain ⟨F, hF⟩ := Option.isSome_iff_exists.1 (h2 r)
      rw [hF]
      rfl
  · cases cn
    · rfl
    · simp only [C40.batchL, Logical.swap, if_true, Option.map_some, Option.some.injEq]
      rw [batF_swap]
      congr 1
      funext r
      obtain ⟨F, hF⟩ := Option.isSome_iff_exists.1 (hn r)
      rw [hF]
      rfl

lemma alike_swap {m : ℕ} {s : Fin (m + 1) → State} (h : Alike s) : Alike fun r => (s r).swap :=
  ⟨h.diagonalBatch, h.diagonalSpatial, h.batchAxis, h.channelAxis, h.notReversed, h.same, h.full, h.gaussian⟩

lemma sameLayout_swap {m : ℕ} {s : Fin (m + 1) → State} (h : SameLayout s) : SameLayout fun r => (s r).swap where
  diagonalBatch := h.diagonalBatch
  diagonalSpatial := h.diagonalSpatial
  batchAxis := h.batchAxis
  channelAxis := h.channelAxis
  notReversed := h.notReversed
  sizes r := ⟨(h.sizes r).2.1, (h.sizes r).1, (h.sizes r).2.2.2, (h.sizes r).2.2.1⟩
  same := h.same
  full := h.full

lemma majority_swap {m : ℕ} (s : Fin (m + 1) → State) : majority (fun r => (s r).swap) = majority s := by
  unfold majority
  rw [countP_ofFn (f := fun r => (s r).swap) (p := fun x => x.info.isReversed) (g := s) (q := fun x => x.info.isReversed) fun r => rfl]

lemma isSome_swap {m : ℕ} {s : Fin (m + 1) → State} {c2 cn : Bool} (h2 : ∀ r, (s r).L.k22.isSome = c2) (hn : ∀ r, (s r).L.ntk.isSome = cn) :
    (∀ r, (s r).swap.L.k22.isSome = c2) ∧ ∀ r, (s r).swap.L.ntk.isSome = cn :=
  ⟨fun r => by rw [← h2 r]; simp [State.swap, Logical.swap], fun r => by rw [← hn r]; simp [State.swap, Logical.swap]⟩

/-- Every fan-in layer does the same to the kernels of the swapped inputs. -/
theorem fan_swap {f : Fan} {m : ℕ} {s : Fin (m + 1) → State} {t : State} (hc : ∀ r, (s r).L.Closed) (hf : FanSem f s t) : FanSem f (fun r => (s r).swap) t.swap := by
  cases f with
  | sum =>
    obtain ⟨h1, h2, h3, c2, cn, h4, h5, rfl⟩ := hf
    obtain ⟨g4, g5⟩ := isSome_swap h4 h5
    refine ⟨sameLayout_swap h1, h2, fun r => ⟨(h3 r).2, (h3 r).1⟩, c2, cn, g4, g5, state_ext (sum_swap h4 h5) ?_ rfl rfl⟩
    rw [majority_swap]
    rfl
  | prod =>
    obtain ⟨h1, h3, c2, cn, h4, h5, rfl⟩ := hf
    obtain ⟨g4, g5⟩ := isSome_swap h4 h5
    refine ⟨sameLayout_swap h1, fun r => ⟨(h3 r).2, (h3 r).1⟩, c2, cn, g4, g5, state_ext (prod_swap h4 h5) ?_ rfl rfl⟩
    rw [majority_swap]
    rfl
  | concat axis =>
    rcases hf with hf | hf | hf
    rotate_left
    · obtain ⟨h1, ax, c, g1, ⟨g2, g3, g3'⟩, g6, g7, g8, g9, g10, c2, cn, h4, h5, rfl⟩ := hf
      obtain ⟨i4, i5⟩ := isSome_swap h4 h5
      refine Or.inr (Or.inl ⟨alike_swap h1, ax, c, ?_, ⟨?_, g3.symm, g3'.symm⟩, ?_, ?_, fun r => ⟨(g8 r).2, (g8 r).1⟩, fun r => ⟨(g9 r).2, (g9 r).1⟩,
        fun r => ⟨(g10 r).2, (g10 r).1⟩, c2, cn, i4, i5, state_ext (spatial_swap hc h4 h5) ?_ rfl rfl⟩)
      · show axis % ((s 0).info.shape2.length : ℤ) = _
        rw [g3]
        exact g1
      · show (s 0).info.shape2.length = (s 0).L.S2.length + 2
        rw [g3, g3', g2]
      · show (s 0).info.batchAxis < (s 0).info.shape2.length ∧ (s 0).info.channelAxis < (s 0).info.shape2.length ∧ _
        rw [g3]
        exact g6
      · show (restAxes (s 0).info.shape2.length (s 0).info.batchAxis (s 0).info.channelAxis)[c]? = _
        rw [g3]
        exact g7
      · unfold joined
        rw [majority_swap]
        rfl
    · obtain ⟨h1, h2, h0, h3, g3, g4, g5, c2, cn, h4, h5, rfl⟩ := hf
      obtain ⟨i4, i5⟩ := isSome_swap h4 h5
      refine Or.inr (Or.inr ⟨alike_swap h1, ?_, h0.symm, ?_, g3, fun r => ⟨(g4 r).2, (g4 r).1⟩, fun r => ⟨(g5 r).2, (g5 r).1⟩, c2, cn, i4, i5,
        state_ext (joint_swap hc h4 h5) ?_ rfl rfl⟩)
      · show (s 0).info.shape2 ≠ []
        intro h
        rw [h] at h0
        exact h2 (List.length_eq_zero_iff.1 h0.symm)
      · show axis % ((s 0).info.shape2.length : ℤ) = _
        rw [h0]
        exact h3
      · unfold joined
        rw [majority_swap]
        rfl
    obtain ⟨h1, h2, h0, h3, h6, w, h7, h8, h9, c2, cn, h4, h5, rfl⟩ := hf
    obtain ⟨g4, g5⟩ := isSome_swap h4 h5
    refine Or.inl ⟨sameLayout_swap h1, ?_, h0.symm, ?_, fun r => ⟨(h6 r).2, (h6 r).1⟩, w, h7, h9, h8, c2, cn, g4, g5, state_ext (channel_swap h4 h5) ?_ rfl rfl⟩
    · show (s 0).info.shape2 ≠ []
      intro h
      rw [h] at h0
      exact h2 (List.length_eq_zero_iff.1 h0.symm)
    · show axis % ((s 0).info.shape2.length : ℤ) = _
      rw [h0]
      exact h3
    · rw [majority_swap]
      rfl

lemma rel_ofFn {A B : Type} {R : A → B → Prop} {n : ℕ} {u : Fin n → Vals A} {v' : Vals B} (h : Rel R (.many (List.ofFn u)) v') :
    ∃ u' : Fin n → Vals B, v' = .many (List.ofFn u') ∧ ∀ i, Rel R (u i) (u' i) := by
  cases h with
  | many _ m hl h =>
    have hlen : m.length = n := by simpa using hl.symm
    refine ⟨fun i => m[i.1]'(by rw [hlen]; exact i.2), ?_, fun i => ?_⟩
    · congr 1
      exact List.ext_getElem (by simp [hlen]) fun j h1 h2 => by simp
    · have := h i.1 (by simp) (by rw [hlen]; exact i.2)
      simpa only [List.getElem_ofFn] using this

lemma rel_many {A B : Type} {R : A → B → Prop} {n : ℕ} {u : Fin n → Vals A} {u' : Fin n → Vals B} (h : ∀ i, Rel R (u i) (u' i)) :
    Rel R (.many (List.ofFn u)) (.many (List.ofFn u')) :=
  .many _ _ (by simp) fun i _ _ => by simpa only [List.getElem_ofFn] using h _

/-- A network does the same to the kernels of the swapped inputs. -/
theorem net_swap {net : Net} {v w : Vals State} (h : NetSem net v w) : ∀ {v' : Vals State}, Rel (fun s t => t = s.swap) v v' →
    ∃ w', NetSem net v' w' ∧ Rel (fun s t => t = s.swap) w w' := by
  induction h with
  | @layer l out s t hc hl =>
    intro x hx
    cases hx with
    | one _ s' hs =>
      subst hs
      exact ⟨_, .layer (closed_swap hc) (layer_swap hc hl), .one _ _ rfl⟩
  | fanOut =>
    intro x hx
    exact ⟨_, .fanOut, rel_replicate hx _⟩
  | @fanIn f out m s t hc hf =>
    intro x hx
    obtain ⟨u', rfl, hu⟩ := rel_ofFn hx
    have : u' = fun r => .one (s r).swap := by
      funext r
      have := hu r
      generalize u' r = z at this
      cases this with
      | one _ b h => rw [h]
    subst this
    exact ⟨_, .fanIn (fun r => closed_swap (hc r)) (fan_swap hc hf), .one _ _ rfl⟩
  | seq _ _ ih1 ih2 =>
    intro x hx
    obtain ⟨y, h1, h2⟩ := ih1 hx
    obtain ⟨z, h3, h4⟩ := ih2 h2
    exact ⟨z, .seq h1 h3, h4⟩
  | @par n branches u v h ih =>
    intro x hx
    obtain ⟨u', rfl, hu⟩ := rel_ofFn hx
    choose y h1 h2 using fun i => ih i (hu i)
    exact ⟨_, .par h1, rel_many h2⟩

end NT.Semantics
