import Verif.Lemmas.MaskedApply
import Verif.Props.C78

/-!
# `LayerNorm` over the channels, with masks
-/

namespace NT.Masked
open NT NT.Network Arr Spec

/-- The values `F c` of `C` channels, normalised. -/
noncomputable def normal (eps : ℝ) (F : ℕ → ℝ) (C c : ℕ) : ℝ :=
  (F c - (∑ e ∈ Finset.range C, F e) / C) / √(eps + (∑ d ∈ Finset.range C, (F d - (∑ e ∈ Finset.range C, F e) / C) ^ 2) / C)

lemma normal_congr {eps : ℝ} {F G : ℕ → ℝ} {C c : ℕ} (h : ∀ c < C, F c = G c) (hc : c < C) : normal eps F C c = normal eps G C c := by
  have e : ∑ e ∈ Finset.range C, F e = ∑ e ∈ Finset.range C, G e := Finset.sum_congr rfl fun c hc => h c (Finset.mem_range.1 hc)
  unfold normal
  rw [e, h c hc]
  congr 4
  exact Finset.sum_congr rfl fun d hd => by rw [h d (Finset.mem_range.1 hd)]

lemma forall₂_insertIdx {α β : Type} {R : α → β → Prop} {l : List α} {m : List β} (h : List.Forall₂ R l m) {a : α} {b : β} (hr : R a b) :
    ∀ k, List.Forall₂ R (l.insertIdx k a) (m.insertIdx k b) := by
  induction h with
  | nil =>
    intro k
    cases k with
    | zero => exact .cons hr .nil
    | succ k => simp
  | cons h1 h2 ih =>
    intro k
    cases k with
    | zero => exact .cons hr (.cons h1 h2)
    | succ k => exact .cons h1 (ih k)

lemma forall₂_act {α β : Type} {R : α → β → Prop} {B A : ℕ} {a b : α} {a' b' : β} {S : List α} {T : List β} (h1 : R a a') (h2 : R b b')
    (h : List.Forall₂ R S T) : List.Forall₂ R (actIdx B A a b S) (actIdx B A a' b' T) := by
  unfold actIdx
  split
  · exact forall₂_insertIdx (forall₂_insertIdx h (by assumption) _) (by assumption) _
  · exact forall₂_insertIdx (forall₂_insertIdx h (by assumption) _) (by assumption) _

lemma forall₂_of_insertIdx {α β : Type} {R : α → β → Prop} {a : α} {b : β} : ∀ {l : List α} {m : List β} {k : ℕ}, l.length = m.length → k ≤ m.length →
    List.Forall₂ R (l.insertIdx k a) (m.insertIdx k b) → R a b ∧ List.Forall₂ R l m
  | [], [], 0, _, _, h => by cases h; exact ⟨by assumption, .nil⟩
  | x :: l, y :: m, 0, _, _, h => by cases h; exact ⟨by assumption, by assumption⟩
  | x :: l, y :: m, k + 1, hl, hk, h => by
    simp only [List.insertIdx_succ_cons, List.forall₂_cons] at h
    obtain ⟨h1, h2⟩ := forall₂_of_insertIdx (by simpa using hl) (by simpa using hk) h.2
    exact ⟨h1, .cons h.1 h2⟩

lemma act_of_inRange {B A n C : ℕ} {S j : List ℕ} (h1 : B ≠ A) (h2 : B < S.length + 2) (h3 : A < S.length + 2) (hj : InRange j (actIdx B A n C S)) :
    ∃ a b q, j = actIdx B A a b q ∧ a < n ∧ b < C ∧ InRange q S := by
  have hl : j.length = S.length + 2 := by rw [hj.length, actIdx_length _ _ _ _ _ h1 h2 h3]
  obtain ⟨a, b, q, rfl, hq⟩ : ∃ a b q, j = actIdx B A a b q ∧ q.length = S.length := by
    obtain ⟨U, V, W, x, y, e, ⟨-, -, e'⟩ | ⟨-, -, e'⟩⟩ := exists_actIdx B A h1 j S.length hl h2 h3
    all_goals
      refine ⟨_, _, _, e', ?_⟩
      have := congrArg List.length e
      simp only [List.length_append, List.length_cons] at this ⊢
      omega
  refine ⟨a, b, q, rfl, ?_⟩
  have hj' : List.Forall₂ (· < ·) (actIdx B A a b q) (actIdx B A n C S) := hj
  unfold actIdx at hj'
  split at hj'
  · obtain ⟨u1, u2⟩ := forall₂_of_insertIdx (by rw [List.length_insertIdx, List.length_insertIdx, hq])
      (by rw [List.length_insertIdx_of_le_length (by omega)]; omega) hj'
    obtain ⟨u3, u4⟩ := forall₂_of_insertIdx hq (by omega) u2
    exact ⟨u3, u1, u4⟩
  · obtain ⟨u1, u2⟩ := forall₂_of_insertIdx (by rw [List.length_insertIdx, List.length_insertIdx, hq])
      (by rw [List.length_insertIdx_of_le_length (by omega)]; omega) hj'
    obtain ⟨u3, u4⟩ := forall₂_of_insertIdx hq (by omega) u2
    exact ⟨u1, u3, u4⟩

lemma line_one {s i : List ℕ} {a : ℕ} (hi : InRange i s) (ha : a < s.length) : line s {a} i = (Finset.range (s.getD a 0)).image fun c => i.set a c := by
  ext j
  simp only [line, Finset.mem_filter, mem_box, Finset.mem_singleton, Finset.mem_image, Finset.mem_range]
  have hl := hi.length
  constructor
  · rintro ⟨h1, h2⟩
    refine ⟨j.getD a 0, (inRange_iff.1 h1).2 a ha, ?_⟩
    refine List.ext_getElem (by rw [List.length_set, hl, h1.length]) fun k hk hk' => ?_
    rw [List.getElem_set]
    split
    · next e => subst e; exact List.getD_eq_getElem _ _ hk'
    · next e =>
      have := h2 k (by rw [← h1.length]; exact hk') fun h => e h.symm
      rw [List.getD_eq_getElem _ _ hk', List.getD_eq_getElem _ _ (by rwa [List.length_set] at hk)] at this
      exact this.symm
  · rintro ⟨c, hc, rfl⟩
    refine ⟨inRange_iff.2 ⟨by rw [List.length_set, hl], fun k hk => ?_⟩, fun k hk hka => ?_⟩
    · by_cases e : k = a
      · subst e
        rw [List.getD_eq_getElem _ _ (by rw [List.length_set]; omega), List.getElem_set_self]
        exact hc
      · rw [List.getD_eq_getElem _ _ (by rw [List.length_set]; omega), List.getElem_set_ne fun h => e h.symm, ← List.getD_eq_getElem _ 0]
        exact (inRange_iff.1 hi).2 k hk
    · rw [List.getD_eq_getElem _ _ (by rw [List.length_set]; omega), List.getElem_set_ne fun h => hka h.symm, ← List.getD_eq_getElem _ 0]

variable {B A n C i c : ℕ} {S p : List ℕ}

lemma line_channel (h1 : B ≠ A) (h2 : B < S.length + 2) (h3 : A < S.length + 2) (hi : i < n) (hc : c < C) (hp : InRange p S) :
    line (actIdx B A n C S) {A} (actIdx B A i c p) = (Finset.range C).image fun d => actIdx B A i d p := by
  have hl := hp.length
  rw [line_one (C82.inRange_act h1 h2 h3 hi hc hp) (by rw [actIdx_length _ _ _ _ _ h1 h2 h3]; omega), act_getChannel _ _ _ _ _ h1 h2 h3]
  congr 1
  funext d
  exact act_setChannel B A i c d p h1 (by omega) (by omega)

lemma act_inj (h1 : B ≠ A) (h2 : B < p.length + 2) (h3 : A < p.length + 2) : Function.Injective fun d => actIdx B A i d p := fun d e h => by
  have := congrArg (fun l : List ℕ => l.getD A 0) h
  simpa only [act_getChannel _ _ _ _ _ h1 h2 h3] using this

lemma mean_channel (h1 : B ≠ A) (h2 : B < S.length + 2) (h3 : A < S.length + 2) (hi : i < n) (hc : c < C) (hp : InRange p S) (f : List ℕ → ℝ) :
    meanOver (line (actIdx B A n C S) {A} (actIdx B A i c p)) f = (∑ d ∈ Finset.range C, f (actIdx B A i d p)) / C := by
  have hl := hp.length
  have inj := act_inj (B := B) (A := A) (i := i) (p := p) h1 (by omega) (by omega)
  rw [line_channel h1 h2 h3 hi hc hp, meanOver, Finset.sum_image fun _ _ _ _ h => inj h, Finset.card_image_of_injective _ inj, Finset.card_range]

lemma var_channel (h1 : B ≠ A) (h2 : B < S.length + 2) (h3 : A < S.length + 2) (hi : i < n) (hc : c < C) (hp : InRange p S) (f : List ℕ → ℝ) :
    varOver (line (actIdx B A n C S) {A} (actIdx B A i c p)) f =
      (∑ d ∈ Finset.range C, (f (actIdx B A i d p) - (∑ e ∈ Finset.range C, f (actIdx B A i e p)) / C) ^ 2) / C := by
  have := mean_channel h1 h2 h3 hi hc hp fun j => (f j - meanOver (line (actIdx B A n C S) {A} (actIdx B A i c p)) f) ^ 2
  rw [mean_channel h1 h2 h3 hi hc hp f] at this
  rw [← this, varOver, mean_channel h1 h2 h3 hi hc hp f]
  rfl

lemma norm_entries {axis : List Int} {eps : ℝ} {x mean v : Arr ℝ} {ax : Finset ℕ} {mask : Option (Arr Bool)} (hax : Utils.canonicalizeAxis axis x.ndim = .ok ax)
    (h1 : meanKeep x ax mask = .ok mean) (h2 : varKeep x ax mask = .ok v) (h3 : mean.shape = keepShape (flagsOf ax x.ndim) x.shape)
    (h4 : v.shape = keepShape (flagsOf ax x.ndim) x.shape) : ∃ z, layerNormApply axis eps x mask = .ok z ∧ z.shape = x.shape ∧ ∀ j, InRange j x.shape →
      z.get j = (x.get j - mean.get (bcastIdx mean.shape j)) / √(eps + v.get (bcastIdx v.shape j)) := by
  have w : Widens (keepShape (flagsOf ax x.ndim) x.shape) x.shape := keep_widens _ _ (by simp [flagsOf, ndim])
  have s1 : (bcast (fun u v : ℝ => u - v) x mean).shape = x.shape := by
    show List.zipWith bcastDim x.shape mean.shape = _
    rw [h3]; exact bcast_dims w
  refine ⟨bcast (fun u v : ℝ => u / Real.sqrt (eps + v)) (bcast (fun u v : ℝ => u - v) x mean) v,
    by simp only [layerNormApply, hax, h1, h2, bind, Except.bind, pure, Except.pure], ?_, fun j hj => ?_⟩
  · show List.zipWith bcastDim (bcast (fun u v : ℝ => u - v) x mean).shape v.shape = _
    rw [s1, h4]; exact bcast_dims w
  · show (bcast (fun u v : ℝ => u - v) x mean).get (bcastIdx (bcast (fun u v : ℝ => u - v) x mean).shape j) / √(eps + v.get (bcastIdx v.shape j)) = _
    rw [s1, bcastIdx_self hj]
    show (x.get (bcastIdx x.shape j) - mean.get (bcastIdx mean.shape j)) / _ = _
    rw [bcastIdx_self hj]

lemma norm_plain {axis : List Int} {eps : ℝ} {x : Arr ℝ} (h1 : B ≠ A) (h2 : B < S.length + 2) (h3 : A < S.length + 2) (hx : x.shape = actIdx B A n C S)
    (hax : Utils.canonicalizeAxis axis (S.length + 2) = .ok {A}) : ∃ z, layerNormApply axis eps x none = .ok z ∧ z.shape = actIdx B A n C S ∧
      ∀ j < n, ∀ c < C, ∀ p, InRange p S → z.get (actIdx B A j c p) = normal eps (fun d => x.get (actIdx B A j d p)) C c := by
  have hnd : x.ndim = S.length + 2 := by unfold ndim; rw [hx, actIdx_length _ _ _ _ _ h1 h2 h3]
  obtain ⟨mean, v, q1, q2, q3, q4, q5⟩ := C78.plain x {A} (by simpa [hnd] using h3)
  obtain ⟨z, z1, z2, z3⟩ := norm_entries (eps := eps) (by rw [hnd]; exact hax) q1 q2 q3 q4
  refine ⟨z, z1, z2.trans hx, fun j hj c hc p hp => ?_⟩
  have hr := C82.inRange_act h1 h2 h3 hj hc hp
  rw [← hx] at hr
  obtain ⟨u1, u2⟩ := q5 _ hr
  rw [z3 _ hr, u1, u2, hx, mean_channel h1 h2 h3 hj hc hp, var_channel h1 h2 h3 hj hc hp]
  rfl

lemma norm_masked {f : Format} {len : ℕ → List ℕ} {X Y : Arr ℝ} {m : Arr Bool} {axis : List Int} {eps : ℝ} (hf : f.Ok) (h : In f n i S len X m Y)
    (hax : Utils.canonicalizeAxis axis (f.rank + 2) = .ok {f.channelAxis}) : ∃ z, layerNormApply axis eps X (some m) = .ok z ∧
      z.shape = actIdx f.batchAxis f.channelAxis n f.channels S ∧ ∀ j < n, ∀ c < f.channels, ∀ p, InRange p (len j) →
        z.get (actIdx f.batchAxis f.channelAxis j c p) = normal eps (fun d => X.get (actIdx f.batchAxis f.channelAxis j d p)) f.channels c := by
  obtain ⟨h1, h2, h3, h4, h5⟩ := hf
  have hr := h.rank
  rw [← hr] at h2 h3 hax
  have hx := h.shape
  have hnd : X.ndim = S.length + 2 := by unfold ndim; rw [hx, actIdx_length _ _ _ _ _ h1 h2 h3]
  have hb : Masks.broadcastTo m X.shape = .ok ⟨X.shape, fun j => m.get (Masks.clip j m.shape)⟩ := by
    unfold Masks.broadcastTo
    rw [if_pos]
    rw [hx, h.mask.shape]
    exact forall₂_act (.inl rfl) (h4.symm) (List.forall₂_same.2 fun _ _ => .inl rfl)
  have clip : ∀ j < n, ∀ d < f.channels, ∀ p, InRange p S →
      m.get (Masks.clip (actIdx f.batchAxis f.channelAxis j d p) m.shape) = padding len j p := fun j hj d hd p hp => by
    obtain ⟨ch, hch, e'⟩ := bcastIdx_act (B := f.batchAxis) (A := f.channelAxis) h4 hj hd hp
    have : Masks.clip (actIdx f.batchAxis f.channelAxis j d p) m.shape = bcastIdx m.shape (actIdx f.batchAxis f.channelAxis j d p) := by
      unfold Masks.clip bcastIdx
      rw [List.zipWith_comm]
    rw [this, h.mask.shape, e', h.mask.get j hj ch hch p hp]
  have hz : ∀ j, InRange j X.shape → m.get (Masks.clip j m.shape) = true → X.get j = 0 := by
    intro j hj hm
    rw [hx] at hj
    obtain ⟨a, b, q, rfl, ha, hb', hq⟩ := act_of_inRange h1 h2 h3 hj
    rw [clip a ha b hb' q hq] at hm
    exact h.zero a ha b hb' q hq (by simpa [padding] using hm)
  have hA : ∀ a ∈ ({f.channelAxis} : Finset ℕ), a < X.ndim := by simpa [hnd] using h3
  obtain ⟨mean, q1, q3, q5⟩ := C78.masked_mean X {f.channelAxis} hA m _ hb hz
  obtain ⟨v, q2, q4, q6⟩ := C78.masked_var_excess X {f.channelAxis} hA m _ hb hz
  obtain ⟨z, z1, z2, z3⟩ := norm_entries (eps := eps) (by rw [hnd]; exact hax) q1 q2 q3 q4
  refine ⟨z, z1, z2.trans hx, fun j hj c hc p hp => ?_⟩
  have hpS := inRange_le hp (h.fits j hj)
  have hr := C82.inRange_act h1 h2 h3 hj hc hpS
  rw [← hx] at hr
  have hu : unmasked X.shape {f.channelAxis} (fun j => m.get (Masks.clip j m.shape)) (actIdx f.batchAxis f.channelAxis j c p) =
      line X.shape {f.channelAxis} (actIdx f.batchAxis f.channelAxis j c p) := by
    unfold unmasked
    rw [Finset.filter_eq_self, hx, line_channel h1 h2 h3 hj hc hpS]
    intro y hy
    obtain ⟨d, hd, rfl⟩ := Finset.mem_image.1 hy
    show m.get _ = false
    rw [clip j hj d (Finset.mem_range.1 hd) p hpS]
    simp [padding, hp]
  have u1 := q5 _ hr
  have u2 := q6 _ hr (by dsimp only; rw [hu]; exact ⟨_, C78.self_mem_line _ hr⟩)
  dsimp only at u1 u2
  rw [hu] at u1 u2
  rw [Nat.sub_self, Nat.cast_zero, zero_mul, zero_div, add_zero] at u2
  rw [z3 _ hr, u1, u2, hx, mean_channel h1 h2 h3 hj hc hpS, var_channel h1 h2 h3 hj hc hpS]
  rfl

end NT.Masked
