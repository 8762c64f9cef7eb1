import Verif.Tac
import Verif.Lemmas.MaskedTree
import Verif.Lemmas.Swap

/-!
# Swapping the two padded batches of a network
-/

namespace NT.Spec
open NT NT.Network

/-- The batches `(x2, x1)`. -/
def Padded.swap (s : Padded) : Padded where
  toState := s.toState.swap
  len1 := s.len2
  len2 := s.len1
  c := s.c
  mc := s.mc

end NT.Spec

namespace NT.Masked
open NT NT.Network Arr Spec Semantics

lemma padded_ext {s t : Padded} (h : s.toState = t.toState) (h1 : s.len1 = t.len1) (h2 : s.len2 = t.len2) (h3 : s.c = t.c) (h4 : s.mc = t.mc) : s = t := by
  cases s; cases t; simp_all

lemma mask_swap (L : Logical ℝ) (f g : ℕ → List ℕ → Bool) (h : L.k22 ≠ none) : (C25.maskL L f g).swap = C25.maskL L.swap g f := by
  obtain ⟨F, hF⟩ := Option.ne_none_iff_exists'.1 h
  refine logical_ext rfl rfl rfl rfl ?_ ?_ ?_ ?_
  · funext b p q
    simp only [Logical.swap, C25.maskL, swap2, List.getD_cons_zero, List.getD_cons_succ]
    rw [Bool.or_comm]
  · simp [Logical.swap, Logical.second, C25.maskL, hF]
  · simp [Logical.swap, C25.maskL, hF]
  · cases hn : L.ntk with
    | none => simp [Logical.swap, C25.maskL, hn]
    | some G =>
      simp only [Logical.swap, C25.maskL, hn, Option.map_some, Option.some.injEq]
      funext b p q
      simp only [swap2, List.getD_cons_zero, List.getD_cons_succ]
      rw [Bool.or_comm]

lemma pooled_swap (type : Pooling) (len1 len2 : ℕ → List ℕ) (L : Logical ℝ) (h : L.k22 ≠ none) :
    (pooledExamples type len1 len2 L).swap = pooledExamples type len2 len1 L.swap := by
  obtain ⟨F, hF⟩ := Option.ne_none_iff_exists'.1 h
  refine logical_ext rfl rfl rfl rfl ?_ ?_ ?_ ?_
  · funext b p q
    simp only [Logical.swap, pooledExamples, swap2, List.getD_cons_zero, List.getD_cons_succ]
    rw [Finset.sum_comm, mul_comm (C54.weight type (len1 _))]
  · simp [Logical.swap, Logical.second, pooledExamples, hF]
  · simp [Logical.swap, pooledExamples, hF]
  · cases hn : L.ntk with
    | none => simp [Logical.swap, pooledExamples, hn]
    | some G =>
      simp only [Logical.swap, pooledExamples, hn, Option.map_some, Option.some.injEq]
      funext b p q
      simp only [swap2, List.getD_cons_zero, List.getD_cons_succ]
      rw [Finset.sum_comm, mul_comm (C54.weight type (len1 _))]

lemma next_swap (s : Padded) (t : State) (out : List ℕ → List ℕ) (c mc : ℕ) (h : t.L.k22 ≠ none) : (s.next t out c mc).swap = s.swap.next t.swap out c mc :=
  padded_ext (state_ext (mask_swap _ _ _ h) rfl rfl rfl) rfl rfl rfl rfl

lemma sizes_swap {s : Padded} {out : List ℕ → List ℕ} {c : ℕ} (hs : s.Ok) (h : SameSizes out s c) : SameSizes out s.swap c :=
  fun n T hT => h n T (hT.trans hs.rank)

lemma two_of_next {s : Padded} {t : State} {out : List ℕ → List ℕ} {c mc : ℕ} (h : (s.next t out c mc).Ok) : t.L.k22 ≠ none := fun e =>
  h.two (by simp [Padded.next, State.withShapes, C25.maskL, e])

/-- Every layer does the same to the swapped batches. -/
theorem step_swap {l : MLayer} {out : List ℕ → List ℕ} {s t : Padded} (hs : s.Ok) (h : Step l out s t) : Step l out s.swap t.swap := by
  have ht := (step_batch hs h).1
  have hr : s.swap.L.S1.length = s.L.S1.length := hs.rank
  have hc := closed_of hs
  cases h with
  | dense ha hl ho =>
    rw [next_swap _ _ _ _ _ (two_of_next ht)]
    exact .dense (by rw [hr]; exact ha) (layer_swap hc hl) (sizes_swap hs ho)
  | conv h1 h2 h3 h4 h5 hl ho =>
    rw [next_swap _ _ _ _ _ (two_of_next ht)]
    exact .conv h1 h2 h3 h4 h5 (layer_swap hc hl) (sizes_swap hs ho)
  | pool h1 h2 h3 h4 h5 h6 hl ho =>
    rw [next_swap _ _ _ _ _ (two_of_next ht)]
    exact .pool h1 h2 h3 h4 h5 h6 (layer_swap hc hl) (sizes_swap hs ho)
  | @act f remask _ _ C φ dφ N T h1 h2 h3 h4 h5 ho =>
    rw [next_swap _ _ _ _ _ (two_of_next ht)]
    rw [show ({ s.toState with L := entrywise N T s.L, info := { s.info with isGaussian := false }, full := true } : State).swap =
      { s.swap.toState with L := entrywise N T s.swap.L, info := { s.swap.info with isGaussian := false }, full := true } from
      state_ext (entrywise_swap h4.symm _) rfl rfl rfl]
    exact .act (h1.imp_right fun h => ⟨h.1, vars_swap hc h.2⟩) h2 h3 h4 (vars_swap hc h5) (sizes_swap hs ho)
  | dropout h1 h2 h3 ho =>
    rw [next_swap _ _ _ _ _ (two_of_next ht)]
    exact .dropout h1 h2 h3 (sizes_swap hs ho)
  | identity ho =>
    rw [next_swap _ _ _ _ _ (two_of_next ht)]
    exact .identity (sizes_swap hs ho)
  | @globalPool d _ _ b a h1 h2 h3 h4 h5 h6 h7 h8 h9 =>
    have key := Step.globalPool (d := d) (out := out) (s := s.swap) (b := b) (a := a) h1 h2 (by rw [hr]; exact h3) (by rw [hr]; exact h4) h6 h5 h7 h8
      fun n T hT => h9 n T (hT.trans hr)
    convert key using 1
    exact padded_ext (state_ext (pooled_swap d.type s.len1 s.len2 s.L hs.two) rfl rfl rfl) rfl rfl rfl rfl

lemma sum_or_prod_swap {f : Fan} {m : ℕ} {s : Fin (m + 1) → Padded} {t : State} (hs : ∀ r, (s r).Ok) (ht : Together s)
    (h : FanSem f (fun r => (s r).toState) t) : Together (fun r => (s r).swap) ∧ FanSem f (fun r => (s r).swap.toState) t.swap :=
  ⟨⟨ht.len2, ht.len1, ht.channels, ht.maskChannels⟩, fan_swap (fun r => closed_of (hs r)) h⟩

lemma channelSem_swap {axis : ℤ} {m : ℕ} {s : Fin (m + 1) → State} {t : State} (h : ChannelSem axis s t) : ChannelSem axis (fun r => (s r).swap) t.swap := by
  obtain ⟨h1, h2, h0, h3, h6, w, h7, h8, h9, c2, cn, h4, h5, rfl⟩ := h
  obtain ⟨g4, g5⟩ := isSome_swap h4 h5
  refine ⟨sameLayout_swap h1, ?_, h0.symm, ?_, fun r => ⟨(h6 r).2, (h6 r).1⟩, w, h7, h9, h8, c2, cn, g4, g5, state_ext (channel_swap h4 h5) ?_ rfl rfl⟩
  · show (s 0).info.shape2 ≠ []
    intro h
    rw [h] at h0
    exact h2 (List.length_eq_zero_iff.1 h0.symm)
  · show axis % ((s 0).info.shape2.length : ℤ) = _
    rw [h0]
    exact h3
  · rw [majority_swap]
    rfl

/-- A network does the same to the swapped batches. -/
theorem tree_swap {net : MNet} {v w : Vals Padded} (h : Tree net v w) : ∀ {v' : Vals Padded}, Rel (fun s t => s.Ok ∧ t = s.swap) v v' →
    ∃ w', Tree net v' w' ∧ Rel (fun s t => s.Ok ∧ t = s.swap) w w' := by
  have ones : ∀ {m : ℕ} {s : Fin (m + 1) → Padded} {u' : Fin (m + 1) → Vals Padded}, (∀ r, Rel (fun s t => s.Ok ∧ t = s.swap) (.one (s r)) (u' r)) →
      (∀ r, (s r).Ok) ∧ u' = fun r => .one (s r).swap := by
    intro m s u' hu
    have : ∀ r, (s r).Ok ∧ u' r = .one (s r).swap := by
      intro r
      have := hu r
      generalize u' r = z at this
      cases this with
      | one _ b h => exact ⟨h.1, by rw [h.2]⟩
    exact ⟨fun r => (this r).1, funext fun r => (this r).2⟩
  induction h with
  | @layer l out s t hl =>
    intro x hx
    cases hx with
    | one _ s' hs =>
      obtain ⟨hs, rfl⟩ := hs
      exact ⟨_, .layer (step_swap hs hl), .one _ _ ⟨(step_batch hs hl).1, rfl⟩⟩
  | fanOut =>
    intro x hx
    exact ⟨_, .fanOut, rel_replicate hx _⟩
  | @fanIn f out m s t hf ht hl ho =>
    intro x hx
    obtain ⟨u', rfl, hu⟩ := Semantics.rel_ofFn hx
    obtain ⟨hs, rfl⟩ := ones hu
    obtain ⟨h1, h2⟩ := sum_or_prod_swap hs ht hl
    exact ⟨_, .fanIn hf h1 h2 ho, .one _ _ ⟨(fan_batch hf ht hs hl ho).1, rfl⟩⟩
  | @concat axis out m s t ht hl ho =>
    intro x hx
    obtain ⟨u', rfl, hu⟩ := Semantics.rel_ofFn hx
    obtain ⟨hs, rfl⟩ := ones hu
    exact ⟨_, .concat ⟨ht.len2, ht.len1, ht.channels, ht.maskChannels⟩ (channelSem_swap hl) fun n T hT => ho n T (hT.trans (hs 0).rank),
      .one _ _ ⟨(cat_batch ht hs hl ho).1, rfl⟩⟩
  | seq _ _ ih1 ih2 =>
    intro x hx
    obtain ⟨y, h1, h2⟩ := ih1 hx
    obtain ⟨z, h3, h4⟩ := ih2 h2
    exact ⟨z, .seq h1 h3, h4⟩
  | @par n branches u v h ih =>
    intro x hx
    obtain ⟨u', rfl, hu⟩ := Semantics.rel_ofFn hx
    choose y h1 h2 using fun i => ih i (hu i)
    exact ⟨_, .par h1, rel_many h2⟩

end NT.Masked
