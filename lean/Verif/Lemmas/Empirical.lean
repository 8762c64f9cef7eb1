import Verif.Lemmas.Reduce
import Verif.Lemmas.Network

/-!
# The dot product of empirical kernels
-/

namespace NT.Emp

open NT.Arr
open NT.Spec NT.Utils NT.Network

variable {α : Type}

lemma putAt_length (T t i : List ℕ) : (putAt T t i).length = i.length := by simp [putAt]

lemma putAt_getD {T t i : List ℕ} {a : ℕ} (h : a < i.length) :
    (putAt T t i).getD a 0 = if a ∈ T then t.getD (T.idxOf a) 0 else i.getD a 0 := by
  unfold putAt
  rw [getD_map_range _ _ _ h]

lemma gather_putAt_off {P T t i : List ℕ} (h : ∀ a ∈ P, a ∉ T) (hP : ∀ a ∈ P, a < i.length) :
    gather P (putAt T t i) = gather P i := by
  refine List.map_congr_left fun a ha => ?_
  rw [putAt_getD (hP a ha), if_neg (h a ha)]

lemma gather_putAt {T t i : List ℕ} (hT : T.Nodup) (hl : ∀ a ∈ T, a < i.length) (ht : t.length = T.length) :
    gather T (putAt T t i) = t := by
  refine ext_getD (by simp [gather, ht]) fun k hk => ?_
  simp only [gather, List.length_map] at hk
  rw [gather_getD _ _ _ hk, putAt_getD (hl _ (List.getElem_mem hk)), if_pos (List.getElem_mem hk), List.Nodup.idxOf_getElem hT]

lemma Axes.nodup {n : ℕ} {T : List ℕ} (h : Axes n T) : T.Nodup := h.1.imp fun h => h.ne

lemma mem_other {n a : ℕ} {D : List ℕ} : a ∈ otherAxes n D ↔ a < n ∧ a ∉ D := by simp [otherAxes]

lemma arangeAt_lt {n k : ℕ} {i : ℤ} (h : arangeAt n i = .ok k) : k < n := by
  unfold arangeAt at h
  split_ifs at h with h1 h2
  · cases h; omega
  · cases h; omega

lemma mapM_ok {β γ : Type} (f : β → Except Err γ) (P : γ → Prop) : ∀ (l : List β) (r : List γ),
    l.mapM f = .ok r → (∀ x ∈ l, ∀ y, f x = .ok y → P y) → ∀ y ∈ r, P y := by
  intro l
  induction l with
  | nil => intro r h _; simp [pure, Except.pure] at h; subst h; simp
  | cons x l ih =>
    intro r h hP
    rw [List.mapM_cons] at h
    obtain ⟨y, hy, h⟩ := bind_ok h
    obtain ⟨ys, hys, h⟩ := bind_ok h
    cases h
    intro z hz
    rcases List.mem_cons.1 hz with rfl | hz
    · exact hP x (by simp) _ hy
    · exact ih ys hys (fun x hx => hP x (by simp [hx])) z hz

lemma axesList_axes {l : List ℤ} {n : ℕ} {T : List ℕ} (h : axesList l n = .ok T) : Axes n T := by
  unfold axesList canonicalizeAxis at h
  obtain ⟨s, hs, h⟩ := bind_ok h
  obtain ⟨r, hr, hs⟩ := bind_ok hs
  cases h; cases hs
  refine ⟨Finset.sortedLT_sort _ |>.pairwise, fun a ha => ?_⟩
  rw [Finset.mem_sort, List.mem_toFinset] at ha
  exact mapM_ok _ (· < n) l r hr (fun x _ y hy => arangeAt_lt hy) a ha

lemma mapM_arange (n : ℕ) (T : List ℕ) (h : ∀ a ∈ T, a < n) : (T.map Int.ofNat).mapM (arangeAt n) = .ok T := by
  induction T with
  | nil => rfl
  | cons a T ih =>
    have h1 : arangeAt n (Int.ofNat a) = .ok a := by
      unfold arangeAt
      have := h a (by simp)
      simp only [Int.ofNat_eq_natCast]
      rw [if_pos (by omega)]; simp
    rw [List.map_cons, List.mapM_cons, h1, ih fun a ha => h a (by simp [ha])]
    rfl

lemma axesList_self {n : ℕ} {T : List ℕ} (h : Axes n T) : axesList (T.map Int.ofNat) n = .ok T := by
  unfold axesList canonicalizeAxis
  rw [mapM_arange n T h.2]
  simp only [bind, Except.bind, pure, Except.pure]
  congr 1
  exact List.Pairwise.eq_of_mem_iff (r := (· < ·)) (Finset.sortedLT_sort _).pairwise h.1 (by simp)

/-- The axes as given by the user, canonicalised. -/
structure AxesOk (n : ℕ) (trace diagonal : List ℤ) (T D : List ℕ) : Prop where
  trace : axesList trace n = .ok T
  diagonal : axesList diagonal n = .ok D
  disjoint : ∀ a ∈ T, a ∉ D

lemma arangeAt_eq {n k : ℕ} {i : ℤ} : arangeAt n i = .ok k ↔ (-(n : ℤ) ≤ i ∧ i < n) ∧ k < n ∧ (i = k ∨ i = (k : ℤ) - n) := by
  unfold arangeAt
  split_ifs with h1 h2
  · rw [Except.ok.injEq]; omega
  · rw [Except.ok.injEq]; omega
  · simp only [false_iff]; omega

lemma mapM_arange_ok {n : ℕ} : ∀ (raw : List ℤ), (∀ r ∈ raw, -(n : ℤ) ≤ r ∧ r < n) →
    ∃ l, raw.mapM (arangeAt n) = .ok l ∧ ∀ a, a ∈ l ↔ a < n ∧ ((a : ℤ) ∈ raw ∨ (a : ℤ) - n ∈ raw) := by
  intro raw
  induction raw with
  | nil => intro _; exact ⟨[], rfl, by simp⟩
  | cons r raw ih =>
    intro h
    obtain ⟨l, hl, hm⟩ := ih fun r hr => h r (by simp [hr])
    have hr := h r (by simp)
    obtain ⟨k, hk⟩ : ∃ k, arangeAt n r = .ok k := by
      by_cases h0 : 0 ≤ r
      · exact ⟨r.toNat, arangeAt_eq.2 ⟨hr, by omega, by omega⟩⟩
      · exact ⟨(r + n).toNat, arangeAt_eq.2 ⟨hr, by omega, by omega⟩⟩
    refine ⟨k :: l, by rw [List.mapM_cons, hk, hl]; rfl, fun a => ?_⟩
    have hk' := arangeAt_eq.1 hk
    rw [List.mem_cons, hm, List.mem_cons, List.mem_cons]
    constructor
    · rintro (rfl | ⟨h1, h2⟩)
      · refine ⟨hk'.2.1, ?_⟩
        rcases hk'.2.2 with h | h
        · exact Or.inl (Or.inl h.symm)
        · exact Or.inr (Or.inl h.symm)
      · exact ⟨h1, h2.imp Or.inr Or.inr⟩
    · rintro ⟨h1, (h2 | h2) | (h2 | h2)⟩
      · left; rcases hk'.2.2 with h | h <;> omega
      · exact Or.inr ⟨h1, Or.inl h2⟩
      · left; rcases hk'.2.2 with h | h <;> omega
      · exact Or.inr ⟨h1, Or.inr h2⟩

lemma mapM_arange_err {n : ℕ} : ∀ (raw : List ℤ), (¬ ∀ r ∈ raw, -(n : ℤ) ≤ r ∧ r < n) → raw.mapM (arangeAt n) = .error .indexError := by
  intro raw
  induction raw with
  | nil => intro h; simp at h
  | cons r raw ih =>
    intro h
    rw [List.mapM_cons]
    by_cases hr : -(n : ℤ) ≤ r ∧ r < n
    · obtain ⟨k, hk⟩ : ∃ k, arangeAt n r = .ok k := by
        by_cases h0 : 0 ≤ r
        · exact ⟨r.toNat, arangeAt_eq.2 ⟨hr, by omega, by omega⟩⟩
        · exact ⟨(r + n).toNat, arangeAt_eq.2 ⟨hr, by omega, by omega⟩⟩
      rw [hk, ih]
      · rfl
      · intro h'
        refine h fun x hx => ?_
        rcases List.mem_cons.1 hx with rfl | hx
        · exact hr
        · exact h' x hx
    · have : arangeAt n r = .error .indexError := by
        unfold arangeAt
        rw [if_neg (by omega), if_neg (by omega)]
      rw [this]; rfl

lemma axesList_ok {n : ℕ} {raw : List ℤ} {T : List ℕ} (h : IsAxes n raw T) : axesList raw n = .ok T := by
  obtain ⟨l, hl, hm⟩ := mapM_arange_ok raw h.inBounds
  unfold axesList canonicalizeAxis
  rw [hl]
  simp only [bind, Except.bind, pure, Except.pure]
  congr 1
  refine List.Pairwise.eq_of_mem_iff (r := (· < ·)) (Finset.sortedLT_sort _).pairwise h.increasing fun a => ?_
  rw [Finset.mem_sort, List.mem_toFinset, hm, h.mem]

lemma exists_axes {n : ℕ} {raw : List ℤ} (h : ∀ r ∈ raw, -(n : ℤ) ≤ r ∧ r < n) : ∃ T, IsAxes n raw T := by
  obtain ⟨l, hl, hm⟩ := mapM_arange_ok raw h
  refine ⟨l.toFinset.sort, (Finset.sortedLT_sort _).pairwise, h, fun a => ?_⟩
  rw [Finset.mem_sort, List.mem_toFinset, hm]

lemma axesList_err {n : ℕ} {raw : List ℤ} (h : ¬ ∀ r ∈ raw, -(n : ℤ) ≤ r ∧ r < n) : axesList raw n = .error .indexError := by
  unfold axesList canonicalizeAxis
  rw [mapM_arange_err raw h]; rfl

lemma axesOk {n : ℕ} {trace diagonal : List ℤ} {T D : List ℕ} (h : ReducedAxes n trace diagonal T D) : AxesOk n trace diagonal T D :=
  ⟨axesList_ok h.trace, axesList_ok h.diagonal, h.disjoint⟩

lemma dot_reduced [NonUnitalNonAssocSemiring α] (x y : Arr α) {n : ℕ} {c b : List ℤ} {T D : List ℕ} (hx : x.ndim = n) (hy : y.ndim = n)
    (h : AxesOk n c b T D) (hT : sizesAt T x.shape = sizesAt T y.shape) (hD : sizesAt D x.shape = sizesAt D y.shape) :
    ∃ z, dot x y c b = .ok z ∧ Reduced x.shape y.shape T D (fun i j => x.get i * y.get j) z := by
  have aT := axesList_axes h.trace
  have aD := axesList_axes h.diagonal
  have hdis := h.disjoint
  have hnd : (D ++ T).Nodup := by
    rw [List.nodup_append]
    exact ⟨aD.nodup, aT.nodup, fun a ha b hb hab => hdis b hb (hab ▸ ha)⟩
  have hlt : ∀ k ∈ D ++ T, k < n := by
    intro k hk
    rcases List.mem_append.1 hk with hk | hk
    · exact aD.2 k hk
    · exact aT.2 k hk
  have hany : (T.any (D.contains ·)) = false := by
    rw [List.any_eq_false]
    intro a ha
    simpa using hdis a ha
  have hx' : x.shape.length = n := hx
  have hy' : y.shape.length = n := hy
  obtain ⟨z, hz, hzs, hzg⟩ := dotGeneral_ok x y T T D D ⟨hnd, by rw [hx]; exact hlt⟩ ⟨hnd, by rw [hy]; exact hlt⟩ hT hD
  rw [hx, hy, freeAxes_eq] at hzs hzg
  set F := otherAxes n (D ++ T) with hF
  have hFm : ∀ a ∈ F, a < n ∧ a ∉ T := fun a ha => by
    have := mem_other.1 ha
    exact ⟨this.1, fun h => this.2 (List.mem_append_right _ h)⟩
  obtain ⟨w, hw, hws, hwg⟩ := zipAxes_ok z (gather D x.shape) (gather F x.shape) (gather F y.shape) [] (by simpa using hzs) (by simp [gather])
  have hzn : z.ndim = (gather D x.shape).length + 2 * (gather F x.shape).length := by
    unfold ndim; rw [hzs]; simp [gather]; omega
  have hw' : zipAxes z D.length = .ok w := by
    rw [← hw]
    unfold zipAxes zipAxesCore
    simp only [Option.getD_none, Option.getD_some, hzn]
    simp only [gather, List.length_map]
  have hwn : w.ndim = D.length + 2 * F.length := by
    unfold ndim; rw [hws]; simp [gather, interleave_length]
  have hp := moveaxisPerm_res aT aD hdis 0 D.length (Or.inl ⟨rfl, rfl⟩)
  rw [← hF, ← hwn, ← List.range_eq_range'] at hp
  refine ⟨w.moveaxis (List.range D.length) (resBatchDims T D), ?_, ?_, ?_⟩
  · unfold dot
    rw [if_neg (by rw [hx, hy]; simp)]
    simp only [bind, Except.bind, pure, Except.pure, hx, h.trace, h.diagonal, hany, Bool.false_eq_true, if_false, hz, hw']
  · unfold moveaxis
    rw [hp]
    show gather _ w.shape = _
    rw [hws, List.append_nil, hF, gather_first aD hdis, hx']
  · intro i j hi hj hij
    have hil : i.length = n := by rw [hi.1, hx']
    have hjl : j.length = n := by rw [hj.1, hy']
    have hDij : gather D i = gather D j := List.map_congr_left fun a ha => hij a ha
    unfold moveaxis
    rw [hp, hx', ← gather_first aD hdis i j]
    have hperm : (labels ((List.range n).map (kind T D)) 0 D.length).Perm (List.range w.ndim) := by
      rw [← hp]
      refine moveaxis_perm' w ?_ List.nodup_range fun k hk => ?_
      · simp [resBatchDims]
      · have := List.mem_range.1 hk; omega
    rw [transpose_get w hperm (by rw [hwn, List.length_append, interleave_length (by simp [gather])]; simp [gather, hF])]
    have := hwg (gather D i) (gather F i) (gather F j) [] (by simp [gather]) (by simp [gather]) (by simp [gather]) rfl
    rw [List.append_nil, List.append_nil] at this
    rw [this]
    refine hzg (gather D i) (gather F i) (gather F j) (fun t => putAt T t i) (fun t => putAt T t j) (by simp [gather]) (by simp [gather]) ?_ ?_
    · intro t ht
      refine ⟨by rw [putAt_length, hil], ?_, ?_, ?_⟩
      · exact gather_putAt_off (fun a ha hT => hdis a hT ha) (by rw [hil]; exact aD.2)
      · exact gather_putAt_off (fun a ha => (hFm a ha).2) (by rw [hil]; exact fun a ha => (hFm a ha).1)
      · exact gather_putAt aT.nodup (by rw [hil]; exact aT.2) ht
    · intro t ht
      refine ⟨by rw [putAt_length, hjl], ?_, ?_, ?_⟩
      · rw [hDij]; exact gather_putAt_off (fun a ha hT => hdis a hT ha) (by rw [hjl]; exact aD.2)
      · exact gather_putAt_off (fun a ha => (hFm a ha).2) (by rw [hjl]; exact fun a ha => (hFm a ha).1)
      · exact gather_putAt aT.nodup (by rw [hjl]; exact aT.2) ht

/-- Every entry of a reduced kernel is given by the specification. -/
lemma pairIdx_surj (S1 S2 T D : List ℕ) : ∀ (m s : ℕ), (∀ a ∈ D, S1.getD a 0 = S2.getD a 0) → ∀ k,
    InRange k ((List.range' s m).flatMap fun a => if a ∈ T then [] else if a ∈ D then [S1.getD a 0] else [S1.getD a 0, S2.getD a 0]) →
    ∃ fi fj : ℕ → ℕ, (∀ a, s ≤ a → a < s + m → a ∉ T → fi a < S1.getD a 0 ∧ fj a < S2.getD a 0) ∧ (∀ a ∈ D, fi a = fj a) ∧
      k = (List.range' s m).flatMap fun a => if a ∈ T then [] else if a ∈ D then [fi a] else [fi a, fj a] := by
  intro m
  induction m with
  | zero =>
    intro s _ k hk
    refine ⟨fun _ => 0, fun _ => 0, fun a h1 h2 => by omega, by simp, ?_⟩
    simpa [InRange] using hk
  | succ m ih =>
    intro s hD k hk
    rw [List.range'_succ, List.flatMap_cons] at hk
    by_cases hT : s ∈ T
    · rw [if_pos hT, List.nil_append] at hk
      obtain ⟨fi, fj, h1, h2, h3⟩ := ih (s + 1) hD k hk
      refine ⟨fi, fj, fun a ha hb hc => h1 a ?_ (by omega) hc, h2, ?_⟩
      · rcases Nat.eq_or_lt_of_le ha with rfl | h
        · exact absurd hT hc
        · exact h
      · rw [List.range'_succ, List.flatMap_cons, if_pos hT, List.nil_append, ← h3]
    · have hcongr : ∀ (fi fj : ℕ → ℕ) (u v : ℕ), ((List.range' (s + 1) m).flatMap fun a => if a ∈ T then [] else if a ∈ D then
          [Function.update fi s u a] else [Function.update fi s u a, Function.update fj s v a]) =
          (List.range' (s + 1) m).flatMap fun a => if a ∈ T then [] else if a ∈ D then [fi a] else [fi a, fj a] := by
        intro fi fj u v
        refine List.flatMap_congr fun a ha => ?_
        have : a ≠ s := by have := List.mem_range'_1.1 ha; omega
        rw [Function.update_of_ne this, Function.update_of_ne this]
      rw [if_neg hT] at hk
      by_cases hd : s ∈ D
      · rw [if_pos hd] at hk
        cases k with
        | nil => exact absurd hk (by simp [InRange])
        | cons x k =>
          obtain ⟨hx, hk⟩ : x < S1.getD s 0 ∧ InRange k _ := by simpa [InRange] using hk
          obtain ⟨fi, fj, h1, h2, h3⟩ := ih (s + 1) hD k hk
          refine ⟨Function.update fi s x, Function.update fj s x, fun a ha hb hc => ?_, fun a ha => ?_, ?_⟩
          · rcases Nat.eq_or_lt_of_le ha with rfl | h
            · rw [Function.update_self, Function.update_self, ← hD s hd]; exact ⟨hx, hx⟩
            · rw [Function.update_of_ne (by omega), Function.update_of_ne (by omega)]
              exact h1 a h (by omega) hc
          · by_cases has : a = s
            · subst has; rw [Function.update_self, Function.update_self]
            · rw [Function.update_of_ne has, Function.update_of_ne has, h2 a ha]
          · rw [List.range'_succ, List.flatMap_cons, if_neg hT, if_pos hd, Function.update_self, hcongr, ← h3]; rfl
      · rw [if_neg hd] at hk
        match k, hk with
        | [], hk => exact absurd hk (by simp [InRange])
        | [_], hk => exact absurd hk (by simp [InRange])
        | x :: y :: k, hk =>
          obtain ⟨hx, hy, hk⟩ : x < S1.getD s 0 ∧ y < S2.getD s 0 ∧ InRange k _ := by simpa [InRange] using hk
          obtain ⟨fi, fj, h1, h2, h3⟩ := ih (s + 1) hD k hk
          refine ⟨Function.update fi s x, Function.update fj s y, fun a ha hb hc => ?_, fun a ha => ?_, ?_⟩
          · rcases Nat.eq_or_lt_of_le ha with rfl | h
            · rw [Function.update_self, Function.update_self]; exact ⟨hx, hy⟩
            · rw [Function.update_of_ne (by omega), Function.update_of_ne (by omega)]
              exact h1 a h (by omega) hc
          · have has : a ≠ s := by rintro rfl; exact hd ha
            rw [Function.update_of_ne has, Function.update_of_ne has, h2 a ha]
          · rw [List.range'_succ, List.flatMap_cons, if_neg hT, if_neg hd, Function.update_self, Function.update_self, hcongr, ← h3]; rfl

lemma pairIdx_all {S1 S2 T D : List ℕ} (hS : S1.length = S2.length) (hD : sizesAt D S1 = sizesAt D S2) (hd : ∀ a ∈ D, a < S1.length)
    {k : List ℕ} (hk : InRange k (pairIdx S1.length T D S1 S2)) :
    ∃ i j, InRangeOff T i S1 ∧ InRangeOff T j S2 ∧ (∀ a ∈ D, i.getD a 0 = j.getD a 0) ∧ k = pairIdx S1.length T D i j := by
  have hD' : ∀ a ∈ D, S1.getD a 0 = S2.getD a 0 := List.map_inj_left.1 hD
  unfold pairIdx at hk
  rw [List.range_eq_range'] at hk
  obtain ⟨fi, fj, h1, h2, h3⟩ := pairIdx_surj S1 S2 T D _ _ hD' k hk
  rw [← List.range_eq_range'] at h3
  refine ⟨(List.range S1.length).map fi, (List.range S1.length).map fj, ⟨by simp, fun a ha hT => ?_⟩, ⟨by simp [hS], fun a ha hT => ?_⟩, fun a ha => ?_, ?_⟩
  · rw [getD_map_range _ _ _ ha]; exact (h1 a (by omega) (by omega) hT).1
  · rw [getD_map_range _ _ _ (hS ▸ ha)]; exact (h1 a (by omega) (by omega) hT).2
  · rw [getD_map_range _ _ _ (hd a ha), getD_map_range _ _ _ (hd a ha), h2 a ha]
  · rw [h3]
    unfold pairIdx
    refine List.flatMap_congr fun a ha => ?_
    rw [getD_map_range _ _ _ (List.mem_range.1 ha), getD_map_range _ _ _ (List.mem_range.1 ha)]

lemma reduced_unique [Zero α] [Add α] {S1 S2 T D : List ℕ} {K : List ℕ → List ℕ → α} {x y : Arr α} (hx : Reduced S1 S2 T D K x)
    (hy : Reduced S1 S2 T D K y) (hS : S1.length = S2.length) (hD : sizesAt D S1 = sizesAt D S2) (hd : ∀ a ∈ D, a < S1.length) : x ≋ y := by
  refine ⟨by rw [hx.shape, hy.shape], fun k hk => ?_⟩
  rw [hx.shape] at hk
  obtain ⟨i, j, hi, hj, hij, rfl⟩ := pairIdx_all hS hD hd hk
  rw [hx.get i j hi hj hij, hy.get i j hi hj hij]

end NT.Emp
