import Verif.Lemmas.Rules2

/-!
# The rules of `squeeze`, `reduce_sum`, `broadcast_in_dim` and `reshape`
-/

namespace NT.Rules
open NT Arr Spec
variable {α : Type} [Field α]

lemma nodup_free (n : ℕ) (D : List ℕ) : (freeAxes n D).Nodup := List.nodup_range.filter _

lemma mem_free {n : ℕ} {D : List ℕ} {a : ℕ} : a ∈ freeAxes n D ↔ a < n ∧ a ∉ D := by simp [freeAxes]

/-- Keep the axes satisfying `p`. -/
def keep (p : ℕ → Bool) (S : List ℕ) : List ℕ := gather ((List.range S.length).filter p) S

lemma keep_cons (p : ℕ → Bool) (n : ℕ) (S : List ℕ) : keep p (n :: S) = (if p 0 then [n] else []) ++ keep (fun x => p (x + 1)) S := by
  have e : List.filter (fun x => p (x + 1)) (List.range S.length) = List.filter (p ∘ Nat.succ) (List.range S.length) := rfl
  unfold keep
  rw [List.length_cons, List.range_succ_eq_map, List.filter_cons, List.filter_map, e]
  split <;> simp [gather]

lemma keep_prod (p : ℕ → Bool) (S : List ℕ) (h : ∀ k, k < S.length → p k = false → S.getD k 0 = 1) : (keep p S).prod = S.prod := by
  induction S generalizing p with
  | nil => simp [keep, gather]
  | cons n S ih =>
    rw [keep_cons, List.prod_append, ih _ fun k hk hp => by simpa using h (k + 1) (by simpa using hk) hp]
    have h0 := h 0 (by simp)
    by_cases hp : p 0
    · simp [hp]
    · have := h0 (by simpa using hp)
      simp only [List.getD_cons_zero] at this
      simp [hp, this]

lemma keep_ravel (p : ℕ → Bool) (S i : List ℕ) (hi : InRange i S) (h : ∀ k, k < S.length → p k = false → S.getD k 0 = 1) :
    ravel (keep p S) (keep p i) = ravel S i := by
  induction S generalizing p i with
  | nil =>
    rw [inRange_nil_right] at hi
    subst hi
    simp [keep, gather, ravel]
  | cons n S ih =>
    obtain ⟨a, i', rfl, ha, hi'⟩ := inRange_cons_right.1 hi
    have hS : ∀ k, k < S.length → p (k + 1) = false → S.getD k 0 = 1 := fun k hk hp => by simpa using h (k + 1) (by simpa using hk) hp
    have := ih (fun x => p (x + 1)) i' hi' hS
    have hpr := keep_prod (fun x => p (x + 1)) S hS
    have h0 := h 0 (by simp)
    rw [keep_cons, keep_cons]
    by_cases hp : p 0
    · simp only [hp, if_true, List.singleton_append, ravel, hpr, this]
    · have h1 := h0 (by simpa using hp)
      simp only [List.getD_cons_zero] at h1
      have h2 : a = 0 := by omega
      simp only [hp, ravel, h2]
      simp [this]

lemma keep_free (D S : List ℕ) (n : ℕ) (h : S.length = n) : gather (freeAxes n D) S = keep (fun k => !D.contains k) S := by
  subst h
  rfl

/-! ### `squeeze` -/

/-- `lax.squeeze`: the axes `dims` have size one and are dropped. -/
lemma rules_squeeze {dims inp : List ℕ} (hd : ∀ a ∈ dims, inp.getD a 0 = 1) (other : Arr α) :
    ∃ J, RulesOk (fun w => w.reshapeE (gather (freeAxes inp.length dims) inp)) eyeJ (squeezeS 0 dims inp (gather (freeAxes inp.length dims) inp)) 0 [inp] inp other
      (gather (freeAxes inp.length dims) inp) J := by
  set out := gather (freeAxes inp.length dims) inp with hout
  have hol : out.length = (freeAxes inp.length dims).length := by simp [hout]
  have key : ∀ inp', inp'.length = inp.length → (∀ a ∈ dims, inp'.getD a 0 = 1) →
      (gather (freeAxes inp.length dims) inp').prod = inp'.prod ∧ ∀ i, InRange i inp' →
        ravel (gather (freeAxes inp.length dims) inp') (gather (freeAxes inp.length dims) i) = ravel inp' i := by
    intro inp' hl h1
    have h2 : ∀ k, k < inp'.length → (!dims.contains k) = false → inp'.getD k 0 = 1 := fun k _ hk => h1 k (by simpa using hk)
    refine ⟨by rw [keep_free dims inp' _ hl]; exact keep_prod _ _ h2, fun i hi => ?_⟩
    rw [keep_free dims inp' _ hl, keep_free dims i _ (hi.length.trans hl)]
    exact keep_ravel _ _ _ hi h2
  have hf : Fits (squeezeS 0 dims inp out) inp out := by
    refine ⟨?_, List.nodup_range, nodup_free _ _, ?_, ?_, ?_, by simp [squeezeS]⟩
    · simp [squeezeS, hol]
    · simp [squeezeS]
    · exact fun a ha => (mem_free.1 ha).1
    · show gather (List.range out.length) out = _
      rw [gather_range_self _ _ rfl]
      rfl
  refine ⟨_, rulesOk_const 1 (fun i _ => ∀ a ∈ dims, i.getD a 0 = 1) rfl rfl rfl hf hd ?_ ?_ ?_⟩
  · intro as bs cs hc a ha
    by_cases hal : a < inp.length
    · rw [getD_trim _ _ _ hal, hd a ha]
      simp
    · have := hd a ha
      rw [List.getD_eq_default _ _ (by omega)] at this
      exact absurd this (by simp)
  · intro inp' out' hf' hi' ho' hx
    have he := hf'.eq
    simp only [squeezeS] at he
    rw [gather_range_self _ _ ho'] at he
    obtain ⟨k1, k2⟩ := key inp' hi' hx
    rw [← he] at k1
    obtain ⟨j, e1, e2, e3⟩ := eye_reshape (α := α) k1
    refine ⟨j, by unfold eyeJ eyeLike; rw [if_pos k1]; exact e1, e2, fun o i ho hi => ?_⟩
    rw [e3 o i ho hi]
    refine delta_iff 1 ?_
    have h3 := k2 i hi
    rw [← he] at h3
    simp only [squeezeS]
    rw [gather_range_self _ _ (ho.length.trans ho'), ← h3]
    refine ⟨fun h => h ▸ rfl, fun h => ravel_inj ho ?_ h⟩
    rw [he]
    exact gather_inRange hi fun k hk => by rw [hi']; exact (mem_free.1 hk).1
  · obtain ⟨k1, k2⟩ := key inp rfl hd
    have hlt : ∀ o, InRange o out → ravel out o < inp.prod := fun o ho => k1 ▸ ravel_lt ho
    refine jacobian_const 1 (fun _ => 0) (fun o => unravel inp (ravel out o)) (fun o ho => inRange_unravel (hlt o ho)) ?_ ?_
    · intro o i ho hi
      show gather (List.range out.length) o = gather (freeAxes inp.length dims) i ↔ _
      rw [gather_range_self _ _ ho.length]
      constructor
      · rintro rfl
        rw [k2 i hi, unravel_ravel hi]
      · rintro h
        have h3 := k2 i hi
        have h4 : ravel inp i = ravel out o := by rw [h, ravel_unravel (hlt o ho)]
        rw [h4] at h3
        exact (ravel_inj (gather_inRange hi fun k hk => (mem_free.1 hk).1) ho h3).symm
    · intro w hw
      refine ⟨w.reshape out, by unfold reshapeE; rw [if_pos (by rw [hw]; exact k1)], rfl, fun o ho => ?_⟩
      show w.get (unravel w.shape (ravel out o)) = _
      rw [hw, zero_add, one_mul]

/-! ### `reshape` without `dimensions` -/

/-- The Jacobian of `reshape` is that of the identity: its cotangents are reshaped to the shape of the input. -/
lemma rules_reshape {inp out : List ℕ} (h : out.prod = inp.prod) (other : Arr α) :
    ∃ s J, reshapeS 0 none inp = .ok s ∧
      RulesOk (fun w => do (← w.reshapeE out).reshapeE inp) (reshapeJ none) s 0 [inp] inp other inp J := by
  refine ⟨eyeS 0 inp inp, _, rfl, rulesOk_const (s := eyeS 0 inp inp) 1 (fun _ _ => True) rfl rfl rfl (fits_eye 0 inp) trivial (fun _ _ _ _ => trivial) ?_ ?_⟩
  · intro inp' out' hf h1 h2 _
    obtain rfl := eye_out rfl hf h1 h2
    obtain ⟨j, e1, e2, e3⟩ := eyeLike_ok (α := α) out'
    obtain ⟨j2, a1, a2⟩ := reshapeE_self j e2
    obtain ⟨j3, b1, b2⟩ := reshapeE_self j2 (a2.1.trans e2)
    refine ⟨j3, ?_, b2.1.trans (a2.1.trans e2), fun o i ho hi => ?_⟩
    · unfold reshapeJ
      rw [e1]
      simp only [bind, Except.bind]
      rw [a1]
      exact b1
    · have hr : InRange (o ++ i) (out' ++ out') := (inRange_append ho.length).2 ⟨ho, hi⟩
      rw [b2.2 _ (by rw [b2.1, a2.1, e2]; exact hr), a2.2 _ (by rw [a2.1, e2]; exact hr), e3 o i ho hi]
      refine delta_iff 1 ?_
      simp only [eyeS, ← h1]
      exact range_iff ho hi
  · refine jacobian_const 1 (fun _ => 0) id (fun o ho => ho) ?_ ?_
    · intro o i ho hi
      rw [id, eq_comm (a := i)]
      exact range_iff ho hi
    · intro w hw
      have e1 : w.reshapeE out = .ok (w.reshape out) := by unfold reshapeE; rw [if_pos (by rw [hw, h])]
      have e2 : (w.reshape out).reshapeE inp = .ok ((w.reshape out).reshape inp) := by
        unfold reshapeE; rw [if_pos (show inp.prod = (w.reshape out).shape.prod from h.symm)]
      refine ⟨(w.reshape out).reshape inp, ?_, rfl, fun o ho => ?_⟩
      · rw [e1]
        exact e2
      · have := reshape_reshape_eqv w out (by rw [hw, h])
        rw [hw] at this
        rw [this.2 o ho]
        simp

/-! ### `reduce_sum` and `broadcast_in_dim` -/

omit [Field α] in
/-- The entry of `a` that an entry of `broadcast_in_dim(a)` reads. -/
lemma bid_ok (a : Arr α) {shape dims : List ℕ} (hl : dims.length = a.shape.length)
    (h : ∀ x, x < a.shape.length → dims.getD x 0 < shape.length ∧ (a.shape.getD x 0 = 1 ∨ a.shape.getD x 0 = shape.getD (dims.getD x 0) 0)) :
    ∃ b, a.broadcastInDim shape dims = .ok b ∧ b.shape = shape ∧ ∀ k, InRange k shape → ∃ k', b.get k = a.get k' ∧ k'.length = a.shape.length ∧
      (∀ x, x < a.shape.length → a.shape.getD x 0 = shape.getD (dims.getD x 0) 0 → k'.getD x 0 = k.getD (dims.getD x 0) 0) ∧
      ∀ x, x < a.shape.length → a.shape.getD x 0 = 1 → k'.getD x 0 = 0 := by
  refine ⟨⟨shape, fun k => a.get (a.shape.mapIdx fun x n => if n = 1 then 0 else k.getD (dims.getD x 0) 0)⟩,
    by unfold broadcastInDim; rw [if_pos ⟨hl, h⟩], rfl, fun k hk => ⟨_, rfl, by simp, ?_, ?_⟩⟩
  · intro x hx he
    rw [getD_mapIdx _ _ _ hx]
    split
    · rename_i h1
      have := (inRange_iff.1 hk).2 _ (h x hx).1
      omega
    · rfl
  · intro x hx h1
    rw [getD_mapIdx _ _ _ hx, if_pos h1]

lemma free_shift (m n : ℕ) (D : List ℕ) : freeAxes (m + n) (D.map (· + m)) = List.range m ++ (freeAxes n D).map (· + m) := by
  unfold freeAxes
  rw [List.range_add, List.filter_append, List.filter_map]
  congr 1
  · rw [List.filter_eq_self]
    intro a ha
    have := List.mem_range.1 ha
    simp only [List.contains_iff_mem, List.mem_map, Bool.not_eq_true', ← Bool.not_eq_true]
    rintro ⟨b, _, hb⟩
    omega
  · rw [show (fun x => m + x) = (fun x => x + m) from funext fun x => Nat.add_comm _ _]
    congr 1
    refine List.filter_congr fun a _ => ?_
    simp only [Function.comp]
    congr 1
    rw [Bool.eq_iff_iff, List.contains_iff_mem, List.contains_iff_mem, List.mem_map]
    constructor
    · rintro ⟨b, hb, he⟩
      have : b = a := by omega
      exact this ▸ hb
    · exact fun h => ⟨a, h, rfl⟩

lemma gather_shift' (P o i : List ℕ) {m : ℕ} (ho : o.length = m) : gather (P.map (· + m)) (o ++ i) = gather P i := by
  unfold gather
  rw [List.map_map]
  refine List.map_congr_left fun k _ => ?_
  simp only [Function.comp]
  rw [List.getD_append_right _ _ _ _ (by omega)]
  congr 1
  omega

lemma gather_left (P o i : List ℕ) (h : ∀ k ∈ P, k < o.length) : gather P (o ++ i) = gather P o :=
  List.map_congr_left fun k hk => List.getD_append _ _ _ _ (h k hk)

lemma gather_congr {P x y : List ℕ} (h : ∀ k ∈ P, x.getD k 0 = y.getD k 0) : gather P x = gather P y := List.map_congr_left h

lemma getD_range_add (n k x : ℕ) (h : x < n) : ((List.range n).map (· + k)).getD x 0 = x + k := by
  rw [getD_map_range _ _ _ h]

lemma gather_getD' (p x : List ℕ) (k : ℕ) (h : k < p.length) : (gather p x).getD k 0 = x.getD (p.getD k 0) 0 := by
  rw [gather_getD _ _ _ h, List.getD_eq_getElem p _ h]

lemma idxOf_shift (F : List ℕ) (m x : ℕ) : (F.map (· + m)).idxOf (x + m) = F.idxOf x := by
  induction F with
  | nil => rfl
  | cons a F ih =>
    rw [List.map_cons, List.idxOf_cons, List.idxOf_cons, ih]
    have : (a + m == x + m) = (a == x) := by
      rw [Bool.eq_iff_iff]
      simp
    rw [this]

lemma reduceSumJ_ok {axes inp : List ℕ} (hn : axes.Nodup) (hl : ∀ a ∈ axes, a < inp.length) (other : Arr α) :
    ∃ j, reduceSumJ axes inp other (gather (freeAxes inp.length axes) inp) = .ok j ∧ j.shape = gather (freeAxes inp.length axes) inp ++ inp ∧
      ∀ o i, InRange o (gather (freeAxes inp.length axes) inp) → InRange i inp →
        j.get (o ++ i) = if o = gather (freeAxes inp.length axes) i then 1 else 0 := by
  set F := freeAxes inp.length axes with hF
  set out := gather F inp with hout
  have hFl : ∀ k ∈ F, k < inp.length := fun k hk => (mem_free.1 hk).1
  have hol : out.length = F.length := by simp [hout]
  have hlen : F.length + axes.length = inp.length := by
    have := freeAxes_length hn hl
    have h2 : axes.length ≤ inp.length := by
      have := List.Nodup.length_le_of_subset hn (l₂ := List.range inp.length) fun a ha => List.mem_range.2 (hl a ha)
      simpa using this
    rw [← hF] at this
    omega
  obtain ⟨j0, a1, a2, a3⟩ := eye_same (α := α) out
  set m := out.length with hm
  set j1 := j0.expandDims (axes.map (· + m)) with hj1
  have hnd : j0.ndim + (axes.map (· + m)).length = m + inp.length := by
    show j0.shape.length + _ = _
    rw [a2, List.length_append, List.length_map]
    omega
  have hfree : freeAxes (j0.ndim + (axes.map (· + m)).length) (axes.map (· + m)) = List.range m ++ F.map (· + m) := by rw [hnd, free_shift]
  have b1 : ∀ k, j1.get k = j0.get (gather (List.range m ++ F.map (· + m)) k) := by
    intro k
    rw [← hfree]
    rfl
  have b2 : j1.shape = (List.range (m + inp.length)).map fun x => if x ∈ axes.map (· + m) then 1 else
      (out ++ out).getD ((List.range m ++ F.map (· + m)).idxOf x) 0 := by
    rw [← hfree, ← a2, ← hnd]
    rfl
  have b3 : j1.shape.length = m + inp.length := by rw [b2]; simp
  have b4 : ∀ x, x < m → j1.shape.getD x 0 = out.getD x 0 := by
    intro x hx
    rw [b2, getD_map_range _ _ _ (by omega), if_neg, List.idxOf_append_of_mem (List.mem_range.2 hx)]
    · rw [show List.idxOf x (List.range m) = x from ?_, List.getD_append _ _ _ _ hx]
      have := (List.nodup_range (n := m)).idxOf_getElem x (by simpa using hx)
      simpa using this
    · simp only [List.mem_map, not_exists]
      rintro y ⟨_, h⟩
      omega
  have b5 : ∀ x, x < inp.length → x ∈ axes → j1.shape.getD (m + x) 0 = 1 := by
    intro x hx ha
    rw [b2, getD_map_range _ _ _ (by omega), if_pos]
    exact List.mem_map.2 ⟨x, ha, Nat.add_comm _ _⟩
  have b6 : ∀ x, x < inp.length → x ∉ axes → j1.shape.getD (m + x) 0 = inp.getD x 0 := by
    intro x hx ha
    have hxF : x ∈ F := mem_free.2 ⟨hx, ha⟩
    rw [b2, getD_map_range _ _ _ (by omega), if_neg, List.idxOf_append_of_notMem (by simp), List.length_range]
    · have : List.idxOf (m + x) (F.map (· + m)) = F.idxOf x := by
        rw [Nat.add_comm]
        exact idxOf_shift F m x
      rw [this, List.getD_append_right _ _ _ _ (by omega), show m + F.idxOf x - out.length = F.idxOf x by omega, hout,
        gather_getD _ _ _ (List.idxOf_lt_length_iff.2 hxF), List.getElem_idxOf]
    · simp only [List.mem_map, not_exists]
      rintro y ⟨h1, h⟩
      exact ha (by rwa [show y = x by omega] at h1)
  have b7 : ∀ x, x < m + inp.length → j1.shape.getD x 0 = 1 ∨ j1.shape.getD x 0 = (out ++ inp).getD x 0 := by
    intro x hx
    by_cases h : x < m
    · right
      rw [b4 x h, List.getD_append _ _ _ _ h]
    · obtain ⟨y, rfl⟩ : ∃ y, x = m + y := ⟨x - m, by omega⟩
      by_cases ha : y ∈ axes
      · exact Or.inl (b5 y (by omega) ha)
      · right
        rw [b6 y (by omega) ha, List.getD_append_right _ _ _ _ (by omega)]
        congr 1
        omega
  have hd : ∀ x, x < m + inp.length → ((List.range j1.ndim).map (· + ((out ++ inp).length - j1.ndim))).getD x 0 = x := by
    intro x hx
    have : j1.ndim = m + inp.length := b3
    rw [this, getD_range_add _ _ _ hx, List.length_append]
    omega
  obtain ⟨j, c1, c2, c3⟩ := bid_ok j1 (shape := out ++ inp) (dims := (List.range j1.ndim).map (· + ((out ++ inp).length - j1.ndim)))
    (by simp; rfl) (by
      intro x hx
      rw [b3] at hx
      rw [hd x hx, List.length_append]
      exact ⟨hx, b7 x hx⟩)
  refine ⟨j, ?_, c2, fun o i ho hi => ?_⟩
  · unfold reduceSumJ
    rw [a1]
    simp only [bind, Except.bind]
    unfold broadcastTo
    rw [if_pos (by show j1.shape.length ≤ _; rw [b3, List.length_append])]
    exact c1
  · obtain ⟨k', d1, d2, d3, d4⟩ := c3 (o ++ i) ((inRange_append ho.length).2 ⟨ho, hi⟩)
    have hg : gather (List.range m ++ F.map (· + m)) k' = o ++ gather F i := by
      have : gather (List.range m ++ F.map (· + m)) k' = gather (List.range m ++ F.map (· + m)) (o ++ i) := by
        refine gather_congr fun x hx => ?_
        have hx2 : x < m + inp.length ∧ j1.shape.getD x 0 = (out ++ inp).getD x 0 := by
          rcases List.mem_append.1 hx with h | h
          · have h := List.mem_range.1 h
            exact ⟨by omega, by rw [b4 x h, List.getD_append _ _ _ _ h]⟩
          · obtain ⟨y, hy, rfl⟩ := List.mem_map.1 h
            have hy2 := hFl y hy
            refine ⟨by omega, ?_⟩
            rw [Nat.add_comm, b6 y hy2 (mem_free.1 hy).2, List.getD_append_right _ _ _ _ (by omega)]
            congr 1
            omega
        have := d3 x (by rw [b3]; exact hx2.1) (by rw [hd x hx2.1]; exact hx2.2)
        rwa [hd x hx2.1] at this
      rw [this, gather_append, gather_shift' _ _ _ ho.length, gather_left _ _ _ (by simp [ho.length]; omega), gather_range_self _ _ ho.length]
    rw [d1, b1, hg, a3 o _ ho (gather_inRange hi hFl)]

lemma rules_reduceSum {axes inp : List ℕ} (hn : axes.Nodup) (hl : ∀ a ∈ axes, a < inp.length) (other : Arr α) :
    ∃ J, RulesOk (fun w => .ok (w.reduceSum axes)) (reduceSumJ axes) (reduceSumS 0 axes inp (gather (freeAxes inp.length axes) inp)) 0 [inp] inp other
      (gather (freeAxes inp.length axes) inp) J := by
  set out := gather (freeAxes inp.length axes) inp with hout
  have hf : Fits (reduceSumS 0 axes inp out) inp out := by
    refine ⟨?_, List.nodup_range, nodup_free _ _, ?_, ?_, ?_, by simp [reduceSumS]⟩
    · simp [reduceSumS, hout]
    · simp [reduceSumS]
    · exact fun a ha => (mem_free.1 ha).1
    · show gather (List.range out.length) out = _
      rw [gather_range_self _ _ rfl]
      rfl
  refine ⟨_, rulesOk_const 1 (fun _ _ => True) rfl rfl rfl hf trivial (fun _ _ _ _ => trivial) ?_ ?_⟩
  · intro inp' out' hf' hi' ho' _
    have he := hf'.eq
    simp only [reduceSumS] at he
    rw [gather_range_self _ _ ho', ← hi'] at he
    subst he
    obtain ⟨j, e1, e2, e3⟩ := reduceSumJ_ok hn (inp := inp') (by rwa [hi']) other
    refine ⟨j, e1, e2, fun o i ho hi => ?_⟩
    rw [e3 o i ho hi]
    refine delta_iff 1 ?_
    simp only [reduceSumS]
    rw [gather_range_self _ _ (ho.length.trans ho'), hi']
  · refine ⟨fun _ => 0, fun w hw => ⟨_, rfl, by show gather (freeAxes w.shape.length axes) w.shape = _; rw [hw], fun o ho => ?_⟩⟩
    show (List.map w.get (List.filter (fun i => gather (freeAxes w.shape.length axes) i == o) (indices w.shape))).sum = _
    rw [hw, zero_add]
    have : ∀ (l : List (List ℕ)), (List.map w.get (List.filter (fun i => gather (freeAxes inp.length axes) i == o) l)).sum =
        (l.map fun i => (if o = gather (freeAxes inp.length axes) i then 1 else 0) * w.get i).sum := by
      intro l
      induction l with
      | nil => rfl
      | cons a l ih =>
        rw [List.map_cons, List.sum_cons, ← ih, List.filter_cons]
        by_cases h : o = gather (freeAxes inp.length axes) a
        · rw [if_pos (by simp [h]), if_pos h, List.map_cons, List.sum_cons, one_mul]
        · rw [if_neg (by simpa using fun h2 => h h2.symm), if_neg h, zero_mul, zero_add]
    rw [this]
    have h2 := sumOver_eq_box (α := α) inp fun i => (if o = gather (freeAxes inp.length axes) i then 1 else 0) * w.get i
    unfold sumOver at h2
    rw [h2]
    refine Finset.sum_congr rfl fun i hi => ?_
    congr 1
    refine delta_iff 1 ?_
    show gather (List.range out.length) o = gather (freeAxes inp.length axes) i ↔ _
    rw [gather_range_self _ _ ho.length]

/-- `lax.broadcast_in_dim` with operand sizes equal to those of the result. -/
lemma rules_broadcast {dims inp out : List ℕ} (hn : dims.Nodup) (hl : ∀ a ∈ dims, a < out.length) (h : gather dims out = inp) (other : Arr α) :
    ∃ J, RulesOk (fun w => w.broadcastInDim out dims) (broadcastJ dims) (broadcastS 0 dims inp out) 0 [inp] inp other out J := by
  have hdl : dims.length = inp.length := by rw [← h]; simp
  have hf : Fits (broadcastS 0 dims inp out) inp out := by
    refine ⟨?_, hn, List.nodup_range, hl, ?_, ?_, ?_⟩
    · simp [broadcastS, hdl]
    · simp [broadcastS]
    · show _ = gather (List.range inp.length) inp
      rw [gather_range_self _ _ rfl]
      exact h
    · exact fun a ha hb => (mem_free.1 hb).2 ha
  have hsz : ∀ x, x < inp.length → dims.getD x 0 ∈ dims := fun x hx => by
    rw [List.getD_eq_getElem _ _ (by omega)]
    exact List.getElem_mem _
  refine ⟨_, rulesOk_const 1 (fun _ _ => True) rfl rfl rfl hf trivial (fun _ _ _ _ => trivial) ?_ ?_⟩
  · intro inp' out' hf' hi' ho' _
    have he := hf'.eq
    simp only [broadcastS] at he
    rw [gather_range_self _ _ hi'] at he
    obtain ⟨j0, a1, a2, a3⟩ := eye_same (α := α) inp'
    have hsize : ∀ x, x < inp'.length → inp'.getD x 0 = out'.getD (dims.getD x 0) 0 := by
      intro x hx
      rw [← he, gather_getD' _ _ _ (by omega)]
    have hdl' : dims.length = inp'.length := by omega
    have hlt : ∀ x, x < inp'.length → dims.getD x 0 < out'.length := fun x hx => by rw [ho']; exact hl _ (hsz x (by omega))
    have hD1 : ∀ x, x < inp'.length → (dims ++ (List.range inp'.length).map (· + out'.length)).getD x 0 = dims.getD x 0 := fun x hx =>
      List.getD_append _ _ _ _ (by omega)
    have hD2 : ∀ x, x < inp'.length → (dims ++ (List.range inp'.length).map (· + out'.length)).getD (inp'.length + x) 0 = x + out'.length := by
      intro x hx
      rw [List.getD_append_right _ _ _ _ (by omega), show inp'.length + x - dims.length = x by omega, getD_range_add _ _ _ hx]
    have hall : ∀ x, x < j0.shape.length → (dims ++ (List.range inp'.length).map (· + out'.length)).getD x 0 < (out' ++ inp').length ∧
        j0.shape.getD x 0 = (out' ++ inp').getD ((dims ++ (List.range inp'.length).map (· + out'.length)).getD x 0) 0 := by
      intro x hx
      rw [a2, List.length_append] at hx
      rw [a2, List.length_append]
      by_cases hxl : x < inp'.length
      · rw [hD1 x hxl, List.getD_append _ _ _ _ hxl, List.getD_append _ _ _ _ (hlt x hxl), hsize x hxl]
        exact ⟨by have := hlt x hxl; omega, rfl⟩
      · obtain ⟨y, rfl⟩ : ∃ y, x = inp'.length + y := ⟨x - inp'.length, by omega⟩
        rw [hD2 y (by omega), List.getD_append_right _ _ _ _ (by omega), List.getD_append_right _ _ _ _ (by omega)]
        refine ⟨by omega, ?_⟩
        congr 1
        omega
    obtain ⟨j, c1, c2, c3⟩ := bid_ok j0 (shape := out' ++ inp') (dims := dims ++ (List.range inp'.length).map (· + out'.length))
      (by rw [a2]; simp [hdl']) (fun x hx => ⟨(hall x hx).1, Or.inr (hall x hx).2⟩)
    refine ⟨j, ?_, c2, fun o i ho hi => ?_⟩
    · unfold broadcastJ
      rw [a1]
      exact c1
    · obtain ⟨k', d1, d2, d3, d4⟩ := c3 (o ++ i) ((inRange_append ho.length).2 ⟨ho, hi⟩)
      have hk : k' = gather dims o ++ i := by
        rw [a2, List.length_append] at d2
        refine ext_getD (by rw [d2]; simp [hdl', hi.length]) fun x hx => ?_
        rw [d2] at hx
        rw [d3 x (by rw [a2, List.length_append]; exact hx) (hall x (by rw [a2, List.length_append]; exact hx)).2]
        by_cases hxl : x < inp'.length
        · rw [hD1 x hxl, List.getD_append _ _ _ _ (by rw [ho.length]; exact hlt x hxl), List.getD_append _ _ _ _ (by simpa [hdl'] using hxl),
            gather_getD' _ _ _ (by omega)]
        · obtain ⟨y, rfl⟩ : ∃ y, x = inp'.length + y := ⟨x - inp'.length, by omega⟩
          rw [hD2 y (by omega), List.getD_append_right _ _ _ _ (by rw [ho.length]; omega), List.getD_append_right _ _ _ _ (by simp [hdl'])]
          congr 1
          rw [ho.length, gather_length]
          omega
      have hgr : InRange (gather dims o) inp' := by
        rw [← he]
        exact gather_inRange ho fun k hk => by rw [ho']; exact hl k hk
      rw [d1, hk, a3 _ _ hgr hi]
      refine delta_iff 1 ?_
      simp only [broadcastS]
      rw [gather_range_self i _ (hi.length.trans hi')]
  · refine jacobian_const 1 (fun _ => 0) (gather dims) (fun o ho => ?_) ?_ ?_
    · rw [← h]
      exact gather_inRange ho hl
    · intro o i ho hi
      show gather dims o = gather (List.range inp.length) i ↔ _
      rw [gather_range_self i _ hi.length, eq_comm]
    · intro w hw
      have hsize : ∀ x, x < inp.length → inp.getD x 0 = out.getD (dims.getD x 0) 0 := by
        intro x hx
        rw [← h, gather_getD' _ _ _ (by omega)]
      obtain ⟨y, c1, c2, c3⟩ := bid_ok w (shape := out) (dims := dims) (by rw [hw]; exact hdl)
        (fun x hx => by rw [hw] at hx ⊢; exact ⟨hl _ (hsz x hx), Or.inr (hsize x hx)⟩)
      refine ⟨y, c1, c2, fun o ho => ?_⟩
      obtain ⟨k', d1, d2, d3, d4⟩ := c3 o ho
      rw [hw] at d2 d3
      have : k' = gather dims o := by
        refine ext_getD (by rw [d2]; simp [hdl]) fun x hx => ?_
        rw [d2] at hx
        rw [d3 x hx (hsize x hx), gather_getD' _ _ _ (by omega)]
      rw [d1, this, zero_add, one_mul]

end NT.Rules
