import Verif.Lemmas.Empirical

/-!
# `_trace_and_diagonal`
-/

namespace NT.Emp

open NT.Arr NT.Spec NT.Utils NT.Network

variable {α : Type}

lemma insertIdx_left {β : Type} (I J : List β) (k : ℕ) (v : β) (h : k ≤ I.length) :
    (I ++ J).insertIdx k v = I.insertIdx k v ++ J := by
  induction k generalizing I with
  | zero => simp
  | succ k ih =>
    cases I with
    | nil => simp at h
    | cons a I => simpa using ih I (by simpa using h)

lemma insertIdx_right {β : Type} (I J : List β) (k : ℕ) (v : β) :
    (I ++ J).insertIdx (I.length + k) v = I ++ J.insertIdx k v := by
  induction I with
  | nil => simp
  | cons a I ih => simpa [show I.length + 1 + k = I.length + k + 1 by ring] using ih

lemma sum_flatMap' {β : Type} [AddMonoid α] (l : List β) (f : β → List α) : (l.flatMap f).sum = (l.map fun x => (f x).sum).sum := by
  induction l with
  | nil => simp
  | cons a l ih => simp [ih]

lemma sumOver_nil [AddMonoid α] (f : List ℕ → α) : sumOver [] f = f [] := by simp [sumOver, indices]

lemma sumOver_cons [AddMonoid α] (n : ℕ) (s : List ℕ) (f : List ℕ → α) :
    sumOver (n :: s) f = ((List.range n).map fun k => sumOver s fun t => f (k :: t)).sum := by
  unfold sumOver
  rw [indices, List.map_flatMap, sum_flatMap']
  simp [Function.comp_def]

/-- Splitting the kept axes at `c`. -/
lemma other_split {n c : ℕ} {R : List ℕ} (hc : c < n) (hR : c ∉ R) :
    otherAxes n R = otherAxes c R ++ c :: ((List.range' (c + 1) (n - (c + 1))).filter fun k => k ∉ R) ∧
    otherAxes n (c :: R) = otherAxes c R ++ ((List.range' (c + 1) (n - (c + 1))).filter fun k => k ∉ R) := by
  have h : List.range n = List.range c ++ c :: List.range' (c + 1) (n - (c + 1)) := by
    rw [← List.range'_succ, List.range_eq_range', List.range_eq_range']
    have := List.range'_append_1 (s := 0) (m := c) (n := n - (c + 1) + 1)
    rw [zero_add] at this
    rw [this]
    congr 1; omega
  unfold otherAxes
  rw [h, List.filter_append, List.filter_append, List.filter_cons, List.filter_cons, if_pos (by simpa using hR), if_neg (by simp)]
  refine ⟨rfl, ?_⟩
  congr 1
  · refine List.filter_congr fun a ha => ?_
    have := List.mem_range.1 ha
    simp [show a ≠ c by omega]
  · refine List.filter_congr fun a ha => ?_
    have := List.mem_range'_1.1 ha
    simp [show a ≠ c by omega]

lemma other_congr {n : ℕ} {R R' : List ℕ} (h : ∀ a, a ∈ R ↔ a ∈ R') : otherAxes n R = otherAxes n R' := by
  unfold otherAxes
  exact List.filter_congr fun a _ => by simp [h a]

lemma gather_set_off {P i : List ℕ} {c v : ℕ} (h : c ∉ P) : gather P (i.set c v) = gather P i := by
  refine List.map_congr_left fun a ha => ?_
  have : c ≠ a := fun h' => h (h' ▸ ha)
  simp only [List.getD_eq_getElem?_getD]
  rw [List.getElem?_set_ne this]

lemma gather_insert {n c v : ℕ} {R i : List ℕ} (hc : c < n) (hR : c ∉ R) (hi : i.length = n) :
    gather (otherAxes n R) (i.set c v) = (gather (otherAxes n (c :: R)) i).insertIdx (otherAxes c R).length v := by
  obtain ⟨h1, h2⟩ := other_split hc hR
  have ha : c ∉ otherAxes c R := by simp [otherAxes]
  have hb : c ∉ (List.range' (c + 1) (n - (c + 1))).filter fun k => k ∉ R := by
    simp [List.mem_filter, List.mem_range'_1]
  rw [h1, h2, gather_append, gather_append, gather_set_off ha]
  have hl : (otherAxes c R).length = (gather (otherAxes c R) i).length := by simp [gather]
  rw [hl, show (gather (otherAxes c R) i).length = (gather (otherAxes c R) i).length + 0 from rfl, insertIdx_right]
  rw [show ∀ Q, gather (c :: Q) (i.set c v) = (i.set c v).getD c 0 :: gather Q (i.set c v) from fun _ => rfl, gather_set_off hb]
  simp [hi, hc]

lemma gather_erase {n c : ℕ} {R s : List ℕ} (hc : c < n) (hR : c ∉ R) :
    (gather (otherAxes n R) s).eraseIdx (otherAxes c R).length = gather (otherAxes n (c :: R)) s ∧
    (gather (otherAxes n R) s).getD (otherAxes c R).length 0 = s.getD c 0 := by
  obtain ⟨h1, h2⟩ := other_split hc hR
  rw [h1, h2, gather_append, gather_append]
  have hl : (otherAxes c R).length = (gather (otherAxes c R) s).length := by simp [gather]
  rw [show ∀ Q, gather (c :: Q) s = s.getD c 0 :: gather Q s from fun _ => rfl, hl]
  refine ⟨?_, ?_⟩
  · rw [List.eraseIdx_append_of_length_le (le_refl _)]; simp
  · rw [List.getD_append_right _ _ _ _ (le_refl _)]; simp

lemma other_length {c : ℕ} {R : List ℕ} (hR : R.Nodup) : (otherAxes c R).length = c - (R.filter (· < c)).length := by
  induction c with
  | zero => simp [otherAxes]
  | succ c ih =>
    have h1 : (otherAxes (c + 1) R).length = (otherAxes c R).length + if c ∈ R then 0 else 1 := by
      unfold otherAxes
      rw [List.range_succ, List.filter_append, List.length_append]
      by_cases h : c ∈ R <;> simp [h]
    have h2 := count_succ R hR c
    have h3 : (R.filter (· < c)).length ≤ c := by
      have : (R.filter (· < c)).Subperm (List.range c) := by
        apply List.subperm_of_subset (hR.filter _)
        intro a ha
        simpa using (List.mem_filter.1 ha).2
      simpa using this.length_le
    rw [h1, ih, h2]
    split_ifs <;> omega

/-- Inserting a shared coordinate into both halves. -/
lemma insert_both (I J : List ℕ) (k v : ℕ) (hI : k ≤ I.length) :
    ((I ++ J).insertIdx k v).insertIdx (I.length + 1 + k) v = I.insertIdx k v ++ J.insertIdx k v := by
  rw [insertIdx_left _ _ _ _ hI]
  have : (I.insertIdx k v).length = I.length + 1 := by
    rw [List.length_insertIdx]; simp [hI]
  rw [← this, insertIdx_right]

lemma erase_both (A B : List ℕ) (k : ℕ) (hA : k < A.length) : ((A ++ B).eraseIdx (A.length + k)).eraseIdx k = A.eraseIdx k ++ B.eraseIdx k := by
  rw [List.eraseIdx_append_of_length_le (by omega), List.eraseIdx_append_of_lt_length hA]
  congr 2
  omega

lemma putAt_cons {c v : ℕ} {R t i : List ℕ} (hR : c ∉ R) (hc : c < i.length) : putAt (c :: R) (v :: t) i = putAt R t (i.set c v) := by
  refine ext_getD (by simp [putAt]) fun a ha => ?_
  rw [putAt_length] at ha
  rw [putAt_getD ha, putAt_getD (by simpa using ha)]
  by_cases h : a = c
  · subst h
    simp [hR, hc]
  · have h' : c ≠ a := fun h' => h h'.symm
    simp only [List.mem_cons, h, false_or, List.getD_eq_getElem?_getD, List.getElem?_set_ne h']
    rw [List.idxOf_cons_ne _ h']
    simp

lemma putAt_nil (i t : List ℕ) : putAt [] t i = i := by
  refine ext_getD (by simp [putAt]) fun a ha => ?_
  rw [putAt_length] at ha
  rw [putAt_getD ha]; simp

/-- After tracing over the axes `R`. -/
structure Traced [AddMonoid α] (n : ℕ) (S1 S2 R : List ℕ) (N X : Arr α) : Prop where
  shape : X.shape = gather (otherAxes n R) S1 ++ gather (otherAxes n R) S2
  get : ∀ i j, i.length = n → j.length = n → X.get (gather (otherAxes n R) i ++ gather (otherAxes n R) j) =
    sumOver (sizesAt R S1) fun t => N.get (putAt R t i ++ putAt R t j)

lemma traced_step [AddMonoid α] {n c : ℕ} {S1 S2 R : List ℕ} {N X : Arr α} (h : Traced n S1 S2 R N X) (hc : c < n) (hR : c ∉ R)
    (hs : S1.getD c 0 = S2.getD c 0) :
    Traced n S1 S2 (c :: R) N (traceAt X (otherAxes c R).length ((otherAxes n R).length + (otherAxes c R).length)) := by
  set k := (otherAxes c R).length with hk
  obtain ⟨o1, o2⟩ := other_split hc hR
  have hkl : k < (otherAxes n R).length := by rw [o1]; simp [← hk]
  have hA : ∀ s, (gather (otherAxes n R) s).length = (otherAxes n R).length := fun s => by simp [gather]
  have hA' : ∀ s, (gather (otherAxes n (c :: R)) s).length + 1 = (otherAxes n R).length := fun s => by
    rw [o1, o2]; simp [gather]; omega
  refine ⟨?_, fun i j hi hj => ?_⟩
  · show (X.shape.eraseIdx _).eraseIdx _ = _
    rw [h.shape, ← hA S1, erase_both _ _ _ (by rw [hA]; exact hkl), (gather_erase hc hR).1, (gather_erase hc hR).1]
  · show ((List.range (min (X.shape.getD _ 0) (X.shape.getD _ 0))).map _).sum = _
    have e1 : X.shape.getD k 0 = S1.getD c 0 := by
      rw [h.shape, List.getD_append _ _ _ _ (by rw [hA]; exact hkl), (gather_erase hc hR).2]
    have e2 : X.shape.getD ((otherAxes n R).length + k) 0 = S1.getD c 0 := by
      rw [h.shape, List.getD_append_right _ _ _ _ (by rw [hA]; omega), hA, Nat.add_sub_cancel_left, (gather_erase hc hR).2, hs]
    rw [e1, e2, min_self, show sizesAt (c :: R) S1 = S1.getD c 0 :: sizesAt R S1 from rfl, sumOver_cons]
    congr 1
    refine List.map_congr_left fun v _ => ?_
    have hlen := hA' i
    rw [← hlen, insert_both _ _ _ _ (by omega), hk, ← gather_insert hc hR hi, ← gather_insert hc hR hj,
      h.get _ _ (by simpa using hi) (by simpa using hj)]
    unfold sumOver
    congr 1
    refine List.map_congr_left fun t _ => ?_
    rw [putAt_cons hR (by omega), putAt_cons hR (by omega)]

lemma other_length_le {c : ℕ} {R : List ℕ} (h : ∀ a ∈ R, c ≤ a) : (otherAxes c R).length = c := by
  have : otherAxes c R = List.range c := by
    unfold otherAxes
    rw [List.filter_eq_self]
    intro a ha
    have := List.mem_range.1 ha
    simp only [decide_eq_true_eq]
    intro h'
    have := h a h'
    omega
  rw [this, List.length_range]

lemma other_length_axes {n : ℕ} {R : List ℕ} (h : Axes n R) : (otherAxes n R).length = n - R.length := by
  rw [other_length h.nodup]
  congr 2
  rw [List.filter_eq_self]
  intro a ha
  simpa using h.2 a ha

lemma traceLoop_cons [AddMonoid α] (n c : ℕ) (a : Arr α) (R : List ℕ) :
    traceLoop n a (c :: R) = traceAt (traceLoop n a R) c (n + c - R.length) := by
  unfold traceLoop
  rw [List.reverse_cons, List.zipIdx_append, List.foldl_append]
  simp

lemma traceLoop_ok [AddMonoid α] {n : ℕ} {S1 S2 : List ℕ} {N : Arr α} (h1 : S1.length = n) (h2 : S2.length = n) (hN : N.shape = S1 ++ S2) :
    ∀ (T : List ℕ), Axes n T → sizesAt T S1 = sizesAt T S2 → Traced n S1 S2 T N (traceLoop n N T) := by
  intro T
  induction T with
  | nil =>
    intro _ _
    have ho : otherAxes n [] = List.range n := by simp [otherAxes]
    refine ⟨?_, fun i j hi hj => ?_⟩
    · rw [ho, gather_range_self _ _ h1, gather_range_self _ _ h2]; exact hN
    · rw [ho, gather_range_self _ _ hi, gather_range_self _ _ hj]
      show _ = sumOver [] _
      rw [sumOver_nil, putAt_nil, putAt_nil]; rfl
  | cons c R ih =>
    intro hT hs
    have hc : c < n := hT.2 c (by simp)
    have hR : ∀ a ∈ R, c < a := (List.pairwise_cons.1 hT.1).1
    have aR : Axes n R := ⟨(List.pairwise_cons.1 hT.1).2, fun a ha => hT.2 a (by simp [ha])⟩
    have hs' : S1.getD c 0 = S2.getD c 0 ∧ sizesAt R S1 = sizesAt R S2 := by
      simpa only [sizesAt, List.map_cons, List.cons.injEq] using hs
    have := traced_step (ih aR hs'.2) hc (fun h => lt_irrefl _ (hR c h)) hs'.1
    rw [other_length_le (fun a ha => (hR a ha).le), other_length_axes aR] at this
    rw [traceLoop_cons]
    have hle : R.length ≤ n := by
      have h3 : R.Subperm (List.range n) := List.subperm_of_subset aR.nodup fun a ha => by simpa using aR.2 a ha
      simpa using h3.length_le
    rwa [show n + c - R.length = n - R.length + c by omega]

/-- After taking the diagonals along `E`. -/
structure Diagonals (n : ℕ) (S1 S2 T E : List ℕ) (Y X : Arr α) : Prop where
  shape : X.shape = gather (otherAxes n (E ++ T)) S1 ++ gather (otherAxes n (E ++ T)) S2 ++ gather E S1
  get : ∀ i j, i.length = n → j.length = n → (∀ a ∈ E, i.getD a 0 = j.getD a 0) →
    X.get (gather (otherAxes n (E ++ T)) i ++ gather (otherAxes n (E ++ T)) j ++ gather E i) =
      Y.get (gather (otherAxes n T) i ++ gather (otherAxes n T) j)

lemma diagonals_step {n c : ℕ} {S1 S2 T E : List ℕ} {Y X : Arr α} (h : Diagonals n S1 S2 T E Y X) (hc : c < n) (hE : c ∉ E ++ T)
    (hs : S1.getD c 0 = S2.getD c 0) :
    Diagonals n S1 S2 T (E ++ [c]) Y (diagonalAt X (otherAxes c (E ++ T)).length ((otherAxes n (E ++ T)).length + (otherAxes c (E ++ T)).length)) := by
  set R := E ++ T with hRdef
  set k := (otherAxes c R).length with hk
  obtain ⟨o1, o2⟩ := other_split hc hE
  have hoc : otherAxes n (E ++ [c] ++ T) = otherAxes n (c :: R) := other_congr fun a => by simp [hRdef, or_left_comm]
  have hkl : k < (otherAxes n R).length := by rw [o1]; simp [← hk]
  have hA : ∀ s, (gather (otherAxes n R) s).length = (otherAxes n R).length := fun s => by simp [gather]
  have hA' : ∀ s, (gather (otherAxes n (c :: R)) s).length + 1 = (otherAxes n R).length := fun s => by
    rw [o1, o2]; simp [gather]; omega
  refine ⟨?_, fun i j hi hj hij => ?_⟩
  · show (X.shape.eraseIdx _).eraseIdx _ ++ [min (X.shape.getD _ 0) (X.shape.getD _ 0)] = _
    have e1 : X.shape.getD k 0 = S1.getD c 0 := by
      rw [h.shape, List.append_assoc, List.getD_append _ _ _ _ (by rw [hA]; exact hkl), (gather_erase hc hE).2]
    have e2 : X.shape.getD ((otherAxes n R).length + k) 0 = S1.getD c 0 := by
      rw [h.shape, List.append_assoc, List.getD_append_right _ _ _ _ (by rw [hA]; omega), hA, Nat.add_sub_cancel_left,
        List.getD_append _ _ _ _ (by rw [hA]; exact hkl), (gather_erase hc hE).2, hs]
    rw [e1, e2, min_self, h.shape, ← hA S1, List.append_assoc, erase_both _ _ _ (by rw [hA]; exact hkl),
      List.eraseIdx_append_of_lt_length (by rw [hA]; exact hkl), (gather_erase hc hE).1, (gather_erase hc hE).1, hoc, gather_append]
    simp [gather]
  · have hcE : i.getD c 0 = j.getD c 0 := hij c (by simp)
    have hset : ∀ l : List ℕ, l.length = n → l.set c (l.getD c 0) = l := by
      intro l hl
      refine ext_getD (by simp) fun a ha => ?_
      by_cases hac : a = c
      · subst hac; simp [hl, hc]
      · have h' : c ≠ a := fun h' => hac h'.symm
        simp only [List.getD_eq_getElem?_getD, List.getElem?_set_ne h']
    rw [hoc, gather_append, ← h.get i j hi hj fun a ha => hij a (by simp [ha])]
    show X.get _ = _
    have hg : gather [c] i = [i.getD c 0] := rfl
    have hlen := hA' i
    rw [hg, ← List.append_assoc, List.dropLast_concat, show ∀ (l : List ℕ) (v : ℕ), (l ++ [v]).getLastD 0 = v from fun l v => by simp,
      List.append_assoc, ← hlen, insert_both _ _ _ _ (by omega), insertIdx_left _ _ _ _ (by have := hA' j; omega), hk,
      ← gather_insert hc hE hi]
    rw [hset i hi, ← List.append_assoc, hcE, ← gather_insert hc hE hj, hset j hj]

lemma diagonalLoop_snoc (n c : ℕ) (a : Arr α) (T E : List ℕ) :
    diagonalLoop n a T (E ++ [c]) = diagonalAt (diagonalLoop n a T E) (c - E.length - (T.filter (· < c)).length)
      (n + c - 2 * E.length - T.length - (T.filter (· < c)).length) := by
  unfold diagonalLoop
  rw [List.zipIdx_append, List.foldl_append]
  simp

lemma diagonalLoop_ok {n : ℕ} {S1 S2 T : List ℕ} {Y : Arr α} (aT : Axes n T)
    (hY : Y.shape = gather (otherAxes n T) S1 ++ gather (otherAxes n T) S2) :
    ∀ (E : List ℕ), Axes n E → (∀ a ∈ T, a ∉ E) → sizesAt E S1 = sizesAt E S2 → Diagonals n S1 S2 T E Y (diagonalLoop n Y T E) := by
  intro E
  induction E using List.reverseRecOn with
  | nil =>
    intro _ _ _
    refine ⟨by simpa [diagonalLoop, gather] using hY, fun i j hi hj _ => ?_⟩
    simp [diagonalLoop, gather]
  | append_singleton E c ih =>
    intro aE hd hs
    have hp := List.pairwise_append.1 aE.1
    have hlt : ∀ a ∈ E, a < c := fun a ha => hp.2.2 a ha c (by simp)
    have aE' : Axes n E := ⟨hp.1, fun a ha => aE.2 a (by simp [ha])⟩
    have hc : c < n := aE.2 c (by simp)
    have hcT : c ∉ T := fun h => hd c h (by simp)
    have hcE : c ∉ E := fun h => lt_irrefl _ (hlt c h)
    have hs' : sizesAt E S1 = sizesAt E S2 ∧ S1.getD c 0 = S2.getD c 0 := by
      have : sizesAt E S1 ++ [S1.getD c 0] = sizesAt E S2 ++ [S2.getD c 0] := by simpa [sizesAt] using hs
      have := List.append_inj this (by simp [sizesAt])
      exact ⟨this.1, by simpa using this.2⟩
    have hnd : (E ++ T).Nodup := by
      rw [List.nodup_append]
      exact ⟨aE'.nodup, aT.nodup, fun a ha b hb hab => hd b hb (by simp [← hab, ha])⟩
    have hlt' : ∀ a ∈ E ++ T, a < n := fun a ha => by
      rcases List.mem_append.1 ha with h | h
      · exact aE'.2 a h
      · exact aT.2 a h
    have := diagonals_step (ih aE' (fun a ha h => hd a ha (by simp [h])) hs'.1) hc (by simp [hcE, hcT]) hs'.2
    have e1 : (otherAxes c (E ++ T)).length = c - E.length - (T.filter (· < c)).length := by
      rw [other_length hnd, List.filter_append, List.length_append, List.filter_eq_self.2 (fun a ha => by simpa using hlt a ha)]
      omega
    have e2 : (otherAxes n (E ++ T)).length = n - E.length - T.length := by
      rw [other_length hnd, List.filter_eq_self.2 (fun a ha => by simpa using hlt' a ha), List.length_append]
      omega
    have h3 : (E ++ [c] ++ T).length ≤ n := by
      have h3 : (E ++ [c] ++ T).Subperm (List.range n) := by
        refine List.subperm_of_subset ?_ fun a ha => ?_
        · rw [List.nodup_append]
          exact ⟨aE.nodup, aT.nodup, fun a ha b hb hab => hd b hb (hab ▸ ha)⟩
        · rw [List.mem_range]
          rcases List.mem_append.1 ha with h | h
          · exact aE.2 a h
          · exact aT.2 a h
      simpa using h3.length_le
    have h4 : E.length + (T.filter (· < c)).length ≤ c := by
      have h3 : (E ++ T.filter (· < c)).Subperm (List.range c) := by
        refine List.subperm_of_subset ?_ fun a ha => ?_
        · rw [List.nodup_append]
          exact ⟨aE'.nodup, aT.nodup.filter _, fun a ha b hb hab => hd b (List.mem_of_mem_filter hb) (by simp [← hab, ha])⟩
        · rw [List.mem_range]
          rcases List.mem_append.1 ha with h | h
          · exact hlt a h
          · simpa using (List.mem_filter.1 h).2
      simpa using h3.length_le
    rw [diagonalLoop_snoc, ← e1]
    rw [e2, e1] at this
    simp only [List.length_append, List.length_singleton] at h3
    rwa [e1, show n + c - 2 * E.length - T.length - (T.filter (· < c)).length =
      n - E.length - T.length + (c - E.length - (T.filter (· < c)).length) by omega]

end NT.Emp
