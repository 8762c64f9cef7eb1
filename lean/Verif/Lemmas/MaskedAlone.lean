import Verif.Lemmas.MaskedNet

/-!
# One example of a padded batch, alone
-/

namespace NT.Masked
open NT NT.Network Arr Spec Semantics

/-- `L'` is the information about examples `i` and `j` of `L`, without padding. -/
structure AloneL (i j : ℕ) (S T : List ℕ) (L L' : Logical ℝ) : Prop where
  sizes : L'.n1 = 1 ∧ L'.n2 = 1 ∧ L'.S1 = S ∧ L'.S2 = T
  k12 : ∀ p q, InRange p S → InRange q T → L'.k12 [0, 0] p q = L.k12 [i, j] p q
  k11 : ∀ p q, InRange p S → InRange q S → L'.k11 [0, 0] p q = L.k11 [i, i] p q
  k22 : OptRel (fun F' F => ∀ p q, InRange p T → InRange q T → F' [0, 0] p q = F [j, j] p q) L'.k22 L.k22
  ntk : OptRel (fun F' F => ∀ p q, InRange p S → InRange q T → F' [0, 0] p q = F [i, j] p q) L'.ntk L.ntk

/-- `s'` is what `s` says about examples `i` and `j`, without padding. -/
structure Alone (i j : ℕ) (s : Padded) (s' : State) : Prop where
  content : AloneL i j (s.len1 i) (s.len2 j) s.L s'.L
  info : s'.info = { s.info with
    shape1 := actIdx s.info.batchAxis s.info.channelAxis 1 s.c (s.len1 i), shape2 := actIdx s.info.batchAxis s.info.channelAxis 1 s.c (s.len2 j) }
  full : s'.full = s.full

lemma optRel_some {A B : Type} {R : A → B → Prop} {a : Option A} {b : Option B} (h : OptRel R a b) :
    (a = none ∧ b = none) ∨ ∃ x y, a = some x ∧ b = some y ∧ R x y := by
  cases a <;> cases b <;> simp_all [OptRel]

lemma optRel_map {A B A' B' : Type} {R : A → B → Prop} {R' : A' → B' → Prop} {a : Option A} {b : Option B} (f : A → A') (g : B → B') (h : OptRel R a b)
    (hR : ∀ x y, a = some x → b = some y → R x y → R' (f x) (g y)) : OptRel R' (a.map f) (b.map g) := by
  cases a <;> cases b <;> simp_all [OptRel]

lemma AloneL.mask {i j : ℕ} {len1 len2 : ℕ → List ℕ} {L L' : Logical ℝ} (h : AloneL i j (len1 i) (len2 j) L L') :
    AloneL i j (len1 i) (len2 j) (C25.maskL L (padding len1) (padding len2)) L' := by
  have key : ∀ {f g : ℕ → List ℕ} {a b : ℕ} {p q : List ℕ} {x : ℝ}, InRange p (f a) → InRange q (g b) → (if (padding f a p || padding g b q) = true then 0 else x) = x :=
    fun hp hq => if_neg fun e => masked_or.1 e ⟨hp, hq⟩
  refine ⟨h.sizes, fun p q hp hq => ?_, fun p q hp hq => ?_, ?_, ?_⟩
  · exact (h.k12 p q hp hq).trans (key hp hq).symm
  · exact (h.k11 p q hp hq).trans (key hp hq).symm
  · have := optRel_map id (fun F b p q => if padding len2 (b.getD 0 0) p || padding len2 (b.getD 1 0) q then 0 else F b p q) h.k22
      (R' := fun F' F => ∀ p q, InRange p (len2 j) → InRange q (len2 j) → F' [0, 0] p q = F [j, j] p q)
      fun x y _ _ g p q hp hq => (g p q hp hq).trans (key hp hq).symm
    simp only [Option.map_id, id] at this
    exact this
  · have := optRel_map id (fun F b p q => if padding len1 (b.getD 0 0) p || padding len2 (b.getD 1 0) q then 0 else F b p q) h.ntk
      (R' := fun F' F => ∀ p q, InRange p (len1 i) → InRange q (len2 j) → F' [0, 0] p q = F [i, j] p q)
      fun x y _ _ g p q hp hq => (g p q hp hq).trans (key hp hq).symm
    simp only [Option.map_id, id] at this
    exact this

lemma alone_next {i j : ℕ} {s : Padded} {s' t t' : State} {out : List ℕ → List ℕ} {c mc : ℕ} (hs : s.Ok) (hi : i < s.L.n1) (hj : j < s.L.n2) (ha : Alone i j s s')
    (hk : Kept s t) (ho : SameSizes out s c) (hL : AloneL i j (s.len1 i) (s.len2 j) t.L t'.L)
    (hI : t'.info = { t.info with shape1 := s'.info.shape1, shape2 := s'.info.shape2 }) (hf : t'.full = t.full) :
    Alone i j (s.next t out c mc) (t'.withShapes (out s'.info.shape1) (out s'.info.shape2)) := by
  refine ⟨hL.mask, ?_, hf⟩
  have l1 := (hs.len1 i hi).length_eq
  have l2 := (hs.len2 j hj).length_eq
  simp only [Padded.next, State.withShapes, hI, ha.info, hk.batchAxis, hk.channelAxis]
  rw [ho _ _ l1, ho _ _ (l2.trans hs.rank)]

lemma pyGetNat_act {l l' : List ℕ} {i : ℤ} {C : ℕ} (h : pyGetNat l i = .ok C) (hl : l'.length = l.length)
    (he : l'.getD (i % (l.length : ℤ)).toNat 0 = l.getD (i % (l.length : ℤ)).toNat 0) : pyGetNat l' i = .ok C := by
  unfold pyGetNat at *
  rw [hl, he]; exact h

lemma alone_closed {i j : ℕ} {s : Padded} {s' : State} (hs : s.Ok) (ha : Alone i j s s') : s'.L.Closed := by
  intro g
  have := ha.content.k22
  rw [g] at this
  cases e : s.L.k22 with
  | none => exact absurd e hs.two
  | some F => rw [e] at this; exact this.elim

/-- Averages over the filter, of an example alone. -/
lemma avg_len {d : Conv} {F F' : List ℕ → List ℕ → ℝ} {S T S' T' : List ℕ} (hp : d.padding = .same) (hw : ∀ v ∈ d.filter, 0 < v.1 ∧ v.2 = 1)
    (hS : List.Forall₂ (· ≤ ·) S' S) (hT : List.Forall₂ (· ≤ ·) T' T) (hl : S.length = d.filter.length) (hl' : T.length = d.filter.length)
    (he : ∀ p q, InRange p S' → InRange q T' → F' p q = F p q)
    (hz : ∀ p q, InRange p S → InRange q T → ¬(InRange p S' ∧ InRange q T') → F p q = 0) {o o' : List ℕ} (ho : InRange o S')
    (ho' : InRange o' T') : C53.avg d S' T' F' o o' = C53.avg d S T F o o' := by
  unfold C53.avg
  rw [hp]
  congr 1
  exact Finset.sum_congr rfl fun f _ => read2_len hw hS hT hl hl' he hz (inRange_le ho hS) (inRange_le ho' hT) f f

/-- Sums over the window, of an example alone. -/
lemma win_len {d : Pool} {F F' : List ℕ → List ℕ → ℝ} {S T S' T' : List ℕ} (hp : d.padding = .same) (hw : ∀ v ∈ d.window, 0 < v.1 ∧ v.2 = 1)
    (hn : d.type = .sum ∨ d.normalizeEdges = false)
    (hS : List.Forall₂ (· ≤ ·) S' S) (hT : List.Forall₂ (· ≤ ·) T' T) (hl : S.length = d.window.length) (hl' : T.length = d.window.length)
    (he : ∀ p q, InRange p S' → InRange q T' → F' p q = F p q)
    (hz : ∀ p q, InRange p S → InRange q T → ¬(InRange p S' ∧ InRange q T') → F p q = 0) {o o' : List ℕ} (ho : InRange o S')
    (ho' : InRange o' T') :
    (∑ u ∈ offsets d.window, ∑ v ∈ offsets d.window, (C54.denom d S' o)⁻¹ * (C54.denom d T' o')⁻¹ *
      read2 F' (readIdx d.padding S' d.window o u) (readIdx d.padding T' d.window o' v)) =
    ∑ u ∈ offsets d.window, ∑ v ∈ offsets d.window, (C54.denom d S o)⁻¹ * (C54.denom d T o')⁻¹ *
      read2 F (readIdx d.padding S d.window o u) (readIdx d.padding T d.window o' v) := by
  have hd : ∀ S T o, C54.denom d S o = C54.denom d T o := by
    intro S T o
    unfold C54.denom
    rcases hn with hn | hn <;> simp [hn]
  refine Finset.sum_congr rfl fun f _ => Finset.sum_congr rfl fun g _ => ?_
  rw [hp, hd S' S, hd T' T, read2_len hw hS hT hl hl' he hz (inRange_le ho hS) (inRange_le ho' hT) f g]

lemma act_alone {i j : ℕ} {S T : List ℕ} {N D : ℝ → ℝ → ℝ → ℝ} {L L' : Logical ℝ} (h : AloneL i j S T L L') (h2 : L.k22 ≠ none) :
    AloneL i j S T (entrywise N D L) (entrywise N D L') := by
  have hsec : ∀ q, InRange q T → L'.second [0, 0] q q = L.second [j, j] q q := by
    intro q hq
    rcases optRel_some h.k22 with ⟨-, e⟩ | ⟨F', F, e', e, g⟩
    · exact absurd e h2
    · simp only [Logical.second, e, e', Option.getD_some]; exact g q q hq hq
  refine ⟨h.sizes, fun p q hp hq => ?_, fun p q hp hq => ?_, ?_, ?_⟩
  · simp only [entrywise, List.getD_cons_zero, List.getD_cons_succ, h.k12 p q hp hq, h.k11 p p hp hp, hsec q hq]
  · simp only [entrywise, List.getD_cons_zero, List.getD_cons_succ, h.k11 p q hp hq, h.k11 p p hp hp, h.k11 q q hq hq]
  · refine optRel_map _ _ h.k22 fun F' F _ _ g p q hp hq => ?_
    simp only [List.getD_cons_zero, List.getD_cons_succ, g p q hp hq, g p p hp hp, g q q hq hq]
  · refine optRel_map _ _ h.ntk fun F' F _ _ g p q hp hq => ?_
    simp only [List.getD_cons_zero, List.getD_cons_succ, h.k12 p q hp hq, h.k11 p p hp hp, hsec q hq, g p q hp hq]

/-- What a layer does to a padded batch, it does to each of the examples alone. -/
theorem step_alone {l : MLayer} {out : List ℕ → List ℕ} {s t : Padded} {s' : State} {i j : ℕ} (hs : s.Ok) (hi : i < s.L.n1) (hj : j < s.L.n2)
    (h : Step l out s t) (ha : Alone i j s s') :
    ∃ t', LayerSem l.layer s' t' ∧ Alone i j t (t'.withShapes (out s'.info.shape1) (out s'.info.shape2)) := by
  obtain ⟨x1, x2, x3⟩ := hs.axes
  obtain ⟨z1, z2, z3, z4⟩ := ha.content.sizes
  have l1 := (hs.len1 i hi).length_eq
  have l2 := (hs.len2 j hj).length_eq
  have hr := hs.rank
  have hI := ha.info
  cases h with
  | @dense d _ _ t c hax hl ho =>
    have kp := kept_dense hl
    obtain ⟨h1, h2, C, h3, h4, rfl⟩ := hl
    have p1 : pyGetNat s'.info.shape1 d.channelAxis = .ok C := by
      have e : s.info.shape1.length = s.L.S1.length + 2 := by rw [hs.shape1, actIdx_length _ _ _ _ _ x1 x2 x3]
      refine pyGetNat_act h3 ?_ ?_
      · rw [hI, e, actIdx_length _ _ _ _ _ x1 (by omega) (by omega), l1]
      · rw [e, hax, Int.toNat_natCast, hI, hs.shape1, act_getChannel _ _ _ _ _ x1 (by omega) (by omega), act_getChannel _ _ _ _ _ x1 x2 x3]
    have p2 : pyGetNat s'.info.shape2 d.channelAxis = .ok C := by
      have e : s.info.shape2.length = s.L.S1.length + 2 := by rw [hs.shape2, actIdx_length _ _ _ _ _ x1 (by omega) (by omega), hr]
      refine pyGetNat_act h4 ?_ ?_
      · rw [hI, e, actIdx_length _ _ _ _ _ x1 (by omega) (by omega), l2, hr]
      · rw [e, hax, Int.toNat_natCast, hI, hs.shape2, act_getChannel _ _ _ _ _ x1 (by omega) (by omega), act_getChannel _ _ _ _ _ x1 (by omega) (by omega)]
    refine ⟨_, ⟨h1, h2, C, p1, p2, rfl⟩, alone_next hs hi hj ha kp ho ?_ (by simp only [hI]) rfl⟩
    refine ⟨⟨z1, z2, z3, z4⟩, fun p q hp hq => ?_, fun p q hp hq => ?_, ?_, ?_⟩
    · simp only [C52.after, ha.content.k12 p q hp hq]
    · simp only [C52.after, ha.content.k11 p q hp hq]
    · exact optRel_map _ _ ha.content.k22 fun F' F _ _ g p q hp hq => by simp only [g p q hp hq]
    · exact optRel_map _ _ ha.content.ntk fun F' F _ _ g p q hp hq => by simp only [g p q hp hq, ha.content.k12 p q hp hq]
  | @conv d _ _ t c hp hw hsh hb hax hl ho =>
    have kp := kept_conv hl hp hw hb hax
    obtain ⟨h1, h2, h3, h4, h5, h6, h7, h8, rfl⟩ := hl
    have hw' : ∀ v ∈ d.filter, 0 < v.1 ∧ v.2 = 1 := fun v hv => ⟨(h3 v hv).1, hw v hv⟩
    have c1 : s'.info.shape1.getD d.channelAxis 0 = s.info.shape1.getD d.channelAxis 0 := by
      rw [hI, hax, hs.shape1, act_getChannel _ _ _ _ _ x1 (by omega) (by omega), act_getChannel _ _ _ _ _ x1 x2 x3]
    have c2 : s'.info.shape2.getD d.channelAxis 0 = s.info.shape2.getD d.channelAxis 0 := by
      rw [hI, hax, hs.shape2, act_getChannel _ _ _ _ _ x1 (by omega) (by omega), act_getChannel _ _ _ _ _ x1 (by omega) (by omega)]
    have hpr : s'.info.diagonalSpatial = false := by rw [hI]; exact hs.pairs
    refine ⟨_, ⟨h1, h2, h3, by rw [z3, l1, h4], by rw [z4, l2, h5], by simp [hpr], by simp [hsh], by rw [c1, c2, h8], rfl⟩,
      alone_next hs hi hj ha kp ho ?_ (by simp only [hI, convRev]) rfl⟩
    rw [c1]
    have hg : ∀ o o' v, C53.gate d o o' v = v := fun o o' v => by simp [C53.gate, hsh]
    have r12 : ∀ p q, InRange p (s.len1 i) → InRange q (s.len2 j) →
        C53.avg d (s.len1 i) (s.len2 j) (s'.L.k12 [0, 0]) p q = C53.avg d s.L.S1 s.L.S2 (s.L.k12 [i, j]) p q := fun p q hp' hq' =>
      avg_len hp hw' (hs.len1 i hi) (hs.len2 j hj) h4 h5 ha.content.k12 (hs.zero.k12 i hi j hj) hp' hq'
    refine ⟨⟨z1, z2, ?_, ?_⟩, fun p q hp' hq' => ?_, fun p q hp' hq' => ?_, ?_, ?_⟩
    · simp only [C53.after, hp, z3]; exact outDims_same _ _ hw (by omega)
    · simp only [C53.after, hp, z4]; exact outDims_same _ _ hw (by omega)
    · simp only [C53.after, hg, z3, z4, r12 p q hp' hq']
    · simp only [C53.after, hg, z3, z4]
      rw [avg_len hp hw' (hs.len1 i hi) (hs.len1 i hi) h4 h4 ha.content.k11 (hs.zero.k11 i hi i hi) hp' hq']
    · refine optRel_map _ _ ha.content.k22 fun F' F _ e g p q hp' hq' => ?_
      simp only [hg, z4]
      rw [avg_len hp hw' (hs.len2 j hj) (hs.len2 j hj) h5 h5 g (hs.zero.k22 F e j hj j hj) hp' hq']
    · refine optRel_map _ _ ha.content.ntk fun F' F _ e g p q hp' hq' => ?_
      simp only [hg, z3, z4, r12 p q hp' hq']
      rw [avg_len hp hw' (hs.len1 i hi) (hs.len2 j hj) h4 h5 g (hs.zero.ntk F e i hi j hj) hp' hq']
  | @pool d _ _ t hp hw hn hb hax hmc hl ho =>
    have kp := kept_pool hl hp hw
    obtain ⟨h3, h4, h5, h6, rfl⟩ := hl
    have hw' : ∀ v ∈ d.window, 0 < v.1 ∧ v.2 = 1 := fun v hv => ⟨(h3 v hv).1, hw v hv⟩
    have hpr : s'.info.diagonalSpatial = false := by rw [hI]; exact hs.pairs
    refine ⟨_, ⟨h3, by rw [z3, l1, h4], by rw [z4, l2, h5], by simp [hpr], rfl⟩,
      alone_next hs hi hj ha kp ho ?_ (by simp only [hI]) ha.full⟩
    refine ⟨⟨z1, z2, ?_, ?_⟩, fun p q hp' hq' => ?_, fun p q hp' hq' => ?_, ?_, ?_⟩
    · simp only [C54.pooled, linLogical, hp, z3]; exact outDims_same _ _ hw (by omega)
    · simp only [C54.pooled, linLogical, hp, z4]; exact outDims_same _ _ hw (by omega)
    · simp only [C54.pooled, linLogical, z3, z4]
      exact win_len hp hw' hn (hs.len1 i hi) (hs.len2 j hj) h4 h5 ha.content.k12 (hs.zero.k12 i hi j hj) hp' hq'
    · simp only [C54.pooled, linLogical, z3, z4]
      exact win_len hp hw' hn (hs.len1 i hi) (hs.len1 i hi) h4 h4 ha.content.k11 (hs.zero.k11 i hi i hi) hp' hq'
    · refine optRel_map _ _ ha.content.k22 fun F' F _ e g p q hp' hq' => ?_
      simp only [z4]
      exact win_len hp hw' hn (hs.len2 j hj) (hs.len2 j hj) h5 h5 g (hs.zero.k22 F e j hj j hj) hp' hq'
    · refine optRel_map _ _ ha.content.ntk fun F' F _ e g p q hp' hq' => ?_
      simp only [z3, z4]
      exact win_len hp hw' hn (hs.len1 i hi) (hs.len2 j hj) h4 h5 g (hs.zero.ntk F e i hi j hj) hp' hq'
  | @act f remask _ _ C φ dφ N T hrm hmc hg hf hv ho =>
    have kp : Kept s { s.toState with L := entrywise N T s.L, info := { s.info with isGaussian := false }, full := true } :=
      ⟨rfl, rfl, rfl, ⟨rfl, rfl, rfl, rfl⟩, by simp [entrywise]⟩
    have hv' : s'.L.Vars C := by
      refine ⟨fun a p h0 hp => ?_, fun F' e a p h0 hp => ?_⟩
      · rw [z1] at h0; rw [z3] at hp
        obtain rfl : a = 0 := by omega
        rw [ha.content.k11 p p hp hp]
        exact hv.one i p hi (inRange_le hp (hs.len1 i hi))
      · rw [z2] at h0; rw [z4] at hp
        obtain rfl : a = 0 := by omega
        rcases optRel_some ha.content.k22 with ⟨e', -⟩ | ⟨F'', F, e', e'', g⟩
        · rw [e] at e'; simp at e'
        · obtain rfl : F' = F'' := by rw [e] at e'; simpa using e'
          rw [g p p hp hp]
          exact hv.two F e'' j p hj (inRange_le hp (hs.len2 j hj))
    exact ⟨_, ⟨by rw [hI]; exact hg, C, φ, dφ, N, T, hf, hv', rfl⟩,
      alone_next hs hi hj ha kp ho (act_alone ha.content hs.two) (by simp only [hI]) rfl⟩
  | @dropout d _ _ h0 h1 hm ho =>
    have kp : Kept s s.toState := ⟨rfl, rfl, rfl, ⟨rfl, rfl, rfl, rfl⟩, rfl⟩
    exact ⟨s', ⟨h0, h1, .inl ⟨hm, rfl⟩⟩, alone_next hs hi hj ha kp ho ha.content (by rw [hI]) ha.full⟩
  | identity ho =>
    have kp : Kept s s.toState := ⟨rfl, rfl, rfl, ⟨rfl, rfl, rfl, rfl⟩, rfl⟩
    exact ⟨s', rfl, alone_next hs hi hj ha kp ho ha.content (by rw [hI]) ha.full⟩
  | @globalPool d _ _ b a hmc hfull hb hax hp1 hp2 hb' ha' ho =>
    have e1 : s'.info.shape1.length = s.L.S1.length + 2 := by rw [hI, actIdx_length _ _ _ _ _ x1 (by omega) (by omega), l1]
    have e2 : s'.info.shape2.length = s.L.S1.length + 2 := by rw [hI, actIdx_length _ _ _ _ _ x1 (by omega) (by omega), l2, hr]
    have hpr : s'.info.diagonalSpatial = false := by rw [hI]; exact hs.pairs
    refine ⟨_, ⟨by simp [hpr], by rw [e1, e2], rfl⟩, ?_, ?_, ?_⟩
    · have tot : ∀ {S T : List ℕ} {F F' : List ℕ → List ℕ → ℝ}, (∀ p q, InRange p S → InRange q T → F' p q = F p q) →
          (∑ u ∈ box S, ∑ v ∈ box T, C54.weight d.type S * C54.weight d.type T * read2 F' (some u) (some v)) =
          C54.weight d.type S * C54.weight d.type T * ∑ u ∈ box S, ∑ v ∈ box T, F u v := by
        intro S T F F' g
        rw [Finset.mul_sum]
        refine Finset.sum_congr rfl fun u hu => ?_
        rw [Finset.mul_sum]
        refine Finset.sum_congr rfl fun v hv => ?_
        simp only [read2, g u v (mem_box.1 hu) (mem_box.1 hv)]
      refine ⟨⟨z1, z2, rfl, rfl⟩, fun p q hp' hq' => ?_, fun p q hp' hq' => ?_, ?_, ?_⟩
      · simp only [C54.globalPooled, linLogical, pooledExamples, State.withShapes, z3, z4, List.getD_cons_zero, List.getD_cons_succ]
        exact tot ha.content.k12
      · simp only [C54.globalPooled, linLogical, pooledExamples, State.withShapes, z3, z4, List.getD_cons_zero, List.getD_cons_succ]
        exact tot ha.content.k11
      · refine optRel_map _ _ ha.content.k22 fun F' F _ e g p q hp' hq' => ?_
        simp only [z4, List.getD_cons_zero, List.getD_cons_succ]
        exact tot g
      · refine optRel_map _ _ ha.content.ntk fun F' F _ e g p q hp' hq' => ?_
        simp only [z3, z4, List.getD_cons_zero, List.getD_cons_succ]
        exact tot g
    · simp only [State.withShapes, e1, hb, hax, hb', ha', Nat.cast_lt]
      rw [hI]
      simp only
      rw [ho _ _ l1, ho _ _ (l2.trans hr), hb', ha']
    · exact ha.full.trans hfull

/-! ### Without masks -/

lemma maskProd_none (k : Kernel ℝ) (bn : ℕ) : Kernel.maskProd k none none bn = .ok none := rfl

lemma poolArr_none (d : GlobalPool) (ds : Bool) (bn : ℕ) (x : Arr ℝ) : poolArr d ds bn x none = .ok
    (let out := GlobalPool.poolTail d.type bn x; if ds ∧ d.type = .avg then out.map fun v => v / ((x.shape.drop bn).prod : ℕ) else out) := by
  unfold poolArr
  cases h : d.type <;> simp [maskedMean, GlobalPool.poolTail, bind, Except.bind, pure, Except.pure]

lemma globalPool_none (d : GlobalPool) {k : Kernel ℝ} (h1 : k.mask1 = none) (h2 : k.mask2 = none) : globalPoolKernel d k = .ok (d.kernelFn k) := by
  unfold globalPoolKernel
  simp only [h1, h2, maskProd_none, bind, Except.bind, pure, Except.pure, poolArr_none]
  have hb : k.batchNdim = if k.diagonalBatch = true then 1 else 2 := rfl
  cases h3 : k.cov2 <;> cases h4 : k.ntk <;>
    simp only [poolArr?, poolArr_none, Except.map, GlobalPool.kernelFn, GlobalPool.pool, hb, h1, h2, h3, h4, Option.map_some, Option.map_none]

/-- A layer on a kernel without masks. -/
lemma plain_sound {l : MLayer} {s t : State} {k : Kernel ℝ} (hk : Describes s k) (hc : s.L.Closed) (hl : LayerSem l.layer s t) :
    ∃ k', l.withMasking k = .ok k' ∧ Describes t k' := by
  obtain ⟨k', e, hk'⟩ := layer_sound hk hc hl
  have ef : l.kernelFn k = .ok k' := by
    cases l <;> first | exact e | skip
    rename_i d
    exact (globalPool_none d hk.mask1 hk.mask2).trans e
  refine ⟨{ k' with mask1 := none, mask2 := none }, ?_, ⟨hk'.stores.nngp, hk'.stores.cov1, hk'.stores.cov2, hk'.stores.ntk⟩, hk'.static, hk'.same, rfl, rfl, hk'.full, hk'.zero⟩
  unfold MLayer.withMasking
  rw [hk.mask1, hk.mask2]
  simp only [onMask, ef, bind, Except.bind]
  split
  · exact C25.mask_none k'
  · rfl

/-- The network on an example alone. -/
theorem steps_alone {net : List (MLayer × (List ℕ → List ℕ))} {s t : Padded} {i j : ℕ} (h : Steps net s t) : ∀ {s' : State}, s.Ok → i < s.L.n1 → j < s.L.n2 →
    Alone i j s s' → ∀ k, Describes s' k → ∃ t' k', run net k = .ok k' ∧ Alone i j t t' ∧ Describes t' k' := by
  induction h with
  | nil => exact fun hs hi hj ha k hk => ⟨_, k, rfl, ha, hk⟩
  | @cons l out rest s t u h1 _ ih =>
    intro s' hs hi hj ha k hk
    obtain ⟨t', hl, ha'⟩ := step_alone hs hi hj h1 ha
    obtain ⟨k', e, hk'⟩ := plain_sound hk (alone_closed hs ha) hl
    have hn : t.L.n1 = s.L.n1 ∧ t.L.n2 = s.L.n2 := by
      cases h1 with
      | dense _ hl _ => exact ⟨(kept_dense hl).sizes.1, (kept_dense hl).sizes.2.1⟩
      | conv hp hw _ hb hax hl _ => exact ⟨(kept_conv hl hp hw hb hax).sizes.1, (kept_conv hl hp hw hb hax).sizes.2.1⟩
      | pool hp hw _ _ _ _ hl _ => exact ⟨(kept_pool hl hp hw).sizes.1, (kept_pool hl hp hw).sizes.2.1⟩
      | act => exact ⟨rfl, rfl⟩
      | dropout => exact ⟨rfl, rfl⟩
      | identity => exact ⟨rfl, rfl⟩
      | globalPool => exact ⟨rfl, rfl⟩
    have sh : k.shape1 = s'.info.shape1 ∧ k.shape2 = s'.info.shape2 := by rw [← hk.static]; exact ⟨rfl, rfl⟩
    obtain ⟨u', k'', e2, ha'', hk''⟩ := ih (step_batch hs h1).1 (by omega) (by omega) ha' _ (describes_withShapes hk' _ _)
    refine ⟨u', k'', ?_, ha'', hk''⟩
    simp only [run, e, bind, Except.bind, sh.1, sh.2]
    exact e2

end NT.Masked
