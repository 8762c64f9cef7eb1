import Verif.Lemmas.Axes

/-! Auxiliary lemmas: `reverse_zipped`, `make_2d`, `diagonal_between`, `outer_prod`. -/

namespace NT
open Arr Spec

variable {α β γ : Type*}

theorem getD_append_len (x y : List β) (k : Nat) (d : β) :
    (x ++ y).getD (x.length + k) d = y.getD k d := by
  simp only [List.getD]
  rw [List.getElem?_append_right (by omega)]
  simp

theorem reverseSource_zero (s : Nat) : reverseSource s s = [] := by simp [reverseSource]

theorem reverseSource_succ (s h : Nat) :
    reverseSource (s + 2 * (h + 1)) s = [s + 2 * h, s + 2 * h + 1] ++ reverseSource (s + 2 * h) s := by
  unfold reverseSource
  have e1 : (s + 2 * (h + 1) - s) / 2 = h + 1 := by omega
  have e2 : (s + 2 * h - s) / 2 = h := by omega
  rw [e1, e2, List.range_succ_eq_map]
  simp only [List.map_cons, List.flatMap_cons, List.map_map]
  have e3 : s + 2 * (h + 1) - 2 * (0 + 1) = s + 2 * h := by omega
  rw [e3]
  congr 2
  apply List.map_congr_left
  intro k _
  simp; omega

theorem reverseSource_perm (s h : Nat) :
    (reverseSource (s + 2 * h) s).Perm (List.range' s (2 * h)) := by
  induction h with
  | zero => simp [reverseSource_zero]
  | succ h ih =>
    rw [reverseSource_succ]
    have e : List.range' s (2 * (h + 1)) = List.range' s (2 * h) ++ [s + 2 * h, s + 2 * h + 1] := by
      rw [show 2 * (h + 1) = 2 * h + 1 + 1 by ring, List.range'_concat, List.range'_concat]
      simp; omega
    rw [e]
    exact List.perm_append_comm.trans (ih.append_right _)

theorem gather_congr {P x y : List Nat} (h : ∀ k ∈ P, x.getD k 0 = y.getD k 0) :
    gather P x = gather P y := by
  unfold gather; exact List.map_congr_left h

theorem gather_reverseSource (l p q : List Nat) (h : Nat) (hp : p.length = h) (hq : q.length = h) :
    gather (reverseSource (l.length + 2 * h) l.length) (l ++ interleave p q)
      = interleave p.reverse q.reverse := by
  induction h generalizing p q with
  | zero =>
    simp [List.length_eq_zero_iff] at hp hq
    subst hp hq
    simp [reverseSource_zero, gather, interleave]
  | succ h ih =>
    rcases List.eq_nil_or_concat p with rfl | ⟨p, a, rfl⟩
    · simp at hp
    rcases List.eq_nil_or_concat q with rfl | ⟨q, b, rfl⟩
    · simp at hq
    simp only [List.concat_eq_append, List.length_append, List.length_cons, List.length_nil] at hp hq
    have hp' : p.length = h := by omega
    have hq' : q.length = h := by omega
    have hlen : (interleave p q).length = 2 * h := by rw [interleave_length (by omega), hp']
    rw [reverseSource_succ, gather_append]
    simp only [List.concat_eq_append, List.reverse_append, List.reverse_cons, List.reverse_nil,
      List.nil_append, List.cons_append]
    rw [interleave_append (by omega)]
    simp only [interleave]
    have e1 : gather [l.length + 2 * h, l.length + 2 * h + 1] (l ++ (interleave p q ++ [a, b]))
        = [a, b] := by
      have hL : (l ++ interleave p q).length = l.length + 2 * h := by simp [hlen]
      simp only [gather, List.map_cons, List.map_nil, ← List.append_assoc, ← hL]
      rw [getD_append_len, show (l ++ interleave p q).length = (l ++ interleave p q).length + 0 from rfl,
        getD_append_len]
      simp
    rw [e1]
    have e2 : gather (reverseSource (l.length + 2 * h) l.length) (l ++ (interleave p q ++ [a, b]))
        = gather (reverseSource (l.length + 2 * h) l.length) (l ++ interleave p q) := by
      apply gather_congr
      intro k hk
      have hk' := (reverseSource_perm l.length h).mem_iff.1 hk
      simp [List.mem_range'_1] at hk'
      rw [← List.append_assoc]
      simp only [List.getD]
      rw [List.getElem?_append_left (by simp [hlen]; omega)]
    rw [e2, ih p q hp' hq']
    simp

theorem moveaxisPerm_reverse (s h : Nat) :
    moveaxisPerm (s + 2 * h) (reverseSource (s + 2 * h) s) (List.range' s (2 * h)) =
      List.range s ++ reverseSource (s + 2 * h) s := by
  unfold moveaxisPerm
  rw [mergeSort_zip_of_sorted (List.pairwise_lt_range')]
  have hmem : ∀ k, k ∈ reverseSource (s + 2 * h) s ↔ s ≤ k ∧ k < s + 2 * h := by
    intro k; rw [(reverseSource_perm s h).mem_iff]; simp [List.mem_range'_1]
  have hl : (reverseSource (s + 2 * h) s).length = 2 * h := by
    simpa using (reverseSource_perm s h).length_eq
  have hf : (List.range (s + 2 * h)).filter (fun k => !(reverseSource (s + 2 * h) s).contains k)
      = List.range s := by
    have := range_split s (2 * h) 0
    simp only [Nat.add_zero, List.range'_zero, List.append_nil] at this
    rw [this]
    simp only [List.filter_append]
    have e1 : (List.range s).filter (fun k => !(reverseSource (s + 2 * h) s).contains k)
        = List.range s := by
      apply List.filter_eq_self.2
      intro a ha; simp [hmem] at ha ⊢; omega
    have e2 : (List.range' s (2 * h)).filter (fun k => !(reverseSource (s + 2 * h) s).contains k)
        = [] := by
      apply List.filter_eq_nil_iff.2
      intro a ha; simp [hmem, List.mem_range'_1] at ha ⊢; omega
    rw [e1, e2]; simp
  rw [hf]
  have := foldl_insert_consec (List.range s) (reverseSource (s + 2 * h) s) []
  simp only [List.length_range, hl, List.append_nil] at this
  exact this

theorem reverseZipped_ok (x : Arr α) (L A B : List Nat) (hx : x.shape = L ++ interleave A B)
    (hAB : A.length = B.length) :
    ∃ z, reverseZipped x L.length = .ok z ∧
      z.shape = L ++ interleave A.reverse B.reverse ∧
      ∀ l p q, l.length = L.length → p.length = A.length → q.length = B.length →
        z.get (l ++ interleave p.reverse q.reverse) = x.get (l ++ interleave p q) := by
  have hn : x.ndim = L.length + 2 * A.length := by
    simp [ndim, hx, interleave_length hAB]
  have hl : (reverseSource x.ndim L.length).length = 2 * A.length := by
    rw [hn]; simpa using (reverseSource_perm L.length A.length).length_eq
  have hperm : (moveaxisPerm x.ndim (reverseSource x.ndim L.length)
      (List.range' L.length (2 * A.length))).Perm (List.range x.ndim) := by
    apply moveaxis_perm' x (by simp [hl])
    · rw [hn, (reverseSource_perm _ _).nodup_iff]; exact List.nodup_range'
    · intro k hk
      rw [hn, (reverseSource_perm _ _).mem_iff] at hk
      simp [List.mem_range'_1] at hk; omega
  refine ⟨x.moveaxis (reverseSource x.ndim L.length) (List.range' L.length (2 * A.length)), ?_, ?_, ?_⟩
  · unfold reverseZipped
    simp only [pyRange_one, hl]
    have : x.ndim - L.length = 2 * A.length := by omega
    simp [this]
  · show gather _ _ = _
    rw [hn, moveaxisPerm_reverse, hx, gather_append, gather_range L _ _ rfl rfl,
      gather_reverseSource L A B A.length rfl hAB.symm]
  · intro l p q hl' hp hq
    have hg : gather (moveaxisPerm x.ndim (reverseSource x.ndim L.length)
        (List.range' L.length (2 * A.length))) (l ++ interleave p q)
        = l ++ interleave p.reverse q.reverse := by
      rw [hn, moveaxisPerm_reverse, ← hl', ← hp, gather_append, gather_range l _ _ rfl rfl,
        gather_reverseSource l p q p.length rfl (by omega)]
    rw [← hg]
    exact transpose_get x hperm (by simp [hn, interleave_length (show p.length = q.length by omega)]; omega)

theorem reverseZippedList_eq [Inhabited β] (L A B : List β) (hAB : A.length = B.length) :
    reverseZippedList (L ++ interleave A B) L.length = L ++ interleave A.reverse B.reverse := by
  unfold reverseZippedList
  have hlen : (L ++ interleave A B).length = L.length + 2 * A.length := by
    simp [interleave_length hAB]
  rw [hlen, List.take_left']
  · congr 1
    generalize hh : A.length = h at *
    clear hlen
    induction h generalizing A B with
    | zero =>
      simp [List.length_eq_zero_iff] at hh
      have : B = [] := by simpa [eq_comm, List.length_eq_zero_iff] using hAB
      subst hh this
      simp [reverseSource_zero, interleave]
    | succ h ih =>
      rcases List.eq_nil_or_concat A with rfl | ⟨A, a, rfl⟩
      · simp at hh
      rcases List.eq_nil_or_concat B with rfl | ⟨B, b, rfl⟩
      · simp at hAB
      simp only [List.concat_eq_append, List.length_append, List.length_cons, List.length_nil] at hh hAB
      have hA : A.length = h := by omega
      have hB : h = B.length := by omega
      have hlen : (interleave A B).length = 2 * h := by rw [interleave_length (by omega), hA]
      rw [reverseSource_succ, List.map_append]
      simp only [List.concat_eq_append, List.reverse_append, List.reverse_cons, List.reverse_nil,
        List.nil_append, List.cons_append]
      rw [interleave_append (by omega)]
      have e1 : [L.length + 2 * h, L.length + 2 * h + 1].map
          (fun i => (L ++ (interleave A B ++ interleave [a] [b])).getD i default) = [a, b] := by
        have hL : (L ++ interleave A B).length = L.length + 2 * h := by simp [hlen]
        simp only [interleave, List.map_cons, List.map_nil, ← List.append_assoc, ← hL]
        rw [getD_append_len, show (L ++ interleave A B).length = (L ++ interleave A B).length + 0 from rfl,
          getD_append_len]
        simp
      have e2 : (reverseSource (L.length + 2 * h) L.length).map
            (fun i => (L ++ (interleave A B ++ interleave [a] [b])).getD i default)
          = (reverseSource (L.length + 2 * h) L.length).map
            (fun i => (L ++ interleave A B).getD i default) := by
        apply List.map_congr_left
        intro k hk
        have hk' := (reverseSource_perm L.length h).mem_iff.1 hk
        simp [List.mem_range'_1] at hk'
        rw [← List.append_assoc]
        simp only [List.getD]
        rw [List.getElem?_append_left (by simp [hlen]; omega)]
      rw [e1, e2, ih A B hA hB]
      simp [interleave]
  · rfl

theorem foldl_mul_eq_prod (l : List Nat) (c : Nat) : l.foldl (· * ·) c = c * l.prod := by
  induction l generalizing c with
  | nil => simp
  | cons a l ih => simp [ih, Nat.mul_assoc]

@[simp] theorem sizeAt_eq_prod (s : List Nat) : sizeAt s = s.prod := by
  simp [sizeAt, foldl_mul_eq_prod]

theorem make2d_ok (x : Arr α) (L A B T : List Nat) (hx : x.shape = L ++ interleave A B ++ T)
    (hAB : A.length = B.length) :
    ∃ z, make2d x L.length (some (L.length + 2 * A.length)) = .ok z ∧
      z.shape = L ++ [A.prod, B.prod] ++ T ∧
      ∀ l p q t, InRange l L → InRange p A → InRange q B → InRange t T →
        z.get (l ++ [ravel A p, ravel B q] ++ t) = x.get (l ++ interleave p q ++ t) := by
  obtain ⟨y, hy, hys, hyg⟩ := unzipAxes_ok x L A B T hx hAB
  have hs : y.shape.take L.length ++
      [sizeAt ((y.shape.drop L.length).take ((L.length + 2 * A.length - L.length) / 2)),
      sizeAt ((y.shape.drop (L.length + (L.length + 2 * A.length - L.length) / 2)).take
        (L.length + 2 * A.length - (L.length + (L.length + 2 * A.length - L.length) / 2)))] ++
      y.shape.drop (L.length + 2 * A.length) = L ++ [A.prod, B.prod] ++ T := by
    have e2 : (L.length + 2 * A.length - L.length) / 2 = A.length := by omega
    have e3 : L.length + 2 * A.length - (L.length + A.length) = B.length := by omega
    rw [e2, e3, hys]
    have t1 : (L ++ A ++ B ++ T).take L.length = L := by simp
    have t2 : ((L ++ A ++ B ++ T).drop L.length).take A.length = A := by simp
    have t3 : (L ++ A ++ B ++ T).drop (L.length + A.length) = B ++ T := by
      have : L.length + A.length = (L ++ A).length := by simp
      rw [this, List.append_assoc (L ++ A), List.drop_left]
    have t4 : (L ++ A ++ B ++ T).drop (L.length + 2 * A.length) = T := by
      have : L.length + 2 * A.length = (L ++ A ++ B).length := by simp; omega
      rw [this, List.drop_left]
    rw [t1, t2, t3, t4]
    simp
  refine ⟨y.reshape (L ++ [A.prod, B.prod] ++ T), ?_, rfl, ?_⟩
  · unfold make2d
    simp only [Option.getD_some, hy, bind, Except.bind, pure, Except.pure]
    rw [hs]
  · intro l p q t hl hp hq ht
    rw [← hyg l p q t hl.length hp.length hq.length ht.length]
    apply reshape_get
    · rw [hys, inRange_append, inRange_append, inRange_append]
      · exact ⟨⟨⟨hl, hp⟩, hq⟩, ht⟩
      · exact hl.length
      · simp [hl.length, hp.length]
      · simp [hl.length, hp.length, hq.length]
    · rw [hys]
      rw [ravel_append (s := L ++ [A.prod, B.prod]) (by simp [hl.length]),
        ravel_append (s := L) hl.length]
      rw [ravel_append (s := L ++ A ++ B) (by simp [hl.length, hp.length, hq.length]),
        ravel_append (s := L ++ A) (by simp [hl.length, hp.length]), ravel_append (s := L) hl.length]
      simp only [ravel, List.prod_cons, List.prod_nil]
      ring

/-! ### diagonal_between -/

theorem moveaxisPerm_last (s t : Nat) :
    moveaxisPerm (s + t + 1) [s + t] [s] = List.range s ++ [s + t] ++ List.range' s t := by
  unfold moveaxisPerm
  rw [mergeSort_zip_of_sorted (by simp)]
  have hf : (List.range (s + t + 1)).filter (fun k => !([s + t].contains k))
      = List.range s ++ List.range' s t := by
    have := range_split s t 1
    rw [this]
    simp only [List.filter_append]
    have e1 : (List.range s).filter (fun k => !([s + t].contains k)) = List.range s := by
      apply List.filter_eq_self.2
      intro a ha; simp at ha ⊢; omega
    have e2 : (List.range' s t).filter (fun k => !([s + t].contains k)) = List.range' s t := by
      apply List.filter_eq_self.2
      intro a ha; simp [List.mem_range'_1] at ha ⊢; omega
    rw [e1, e2]
    simp
  rw [hf]
  have := foldl_insert_consec (List.range s) [s + t] (List.range' s t)
  simpa using this

theorem diagonalAdj_get (x : Arr α) (l t : List Nat) (k : Nat) :
    (diagonalAdj x l.length).get (l ++ t ++ [k]) = x.get (l ++ [k, k] ++ t) := by
  have h : l.length + t.length + 1 - 1 = (l ++ t).length := by simp
  simp only [diagonalAdj, List.length_append, List.length_cons, List.length_nil, Nat.zero_add]
  rw [h, List.take_left, show (l ++ t).length = (l ++ t).length + 0 from rfl, getD_append_len]
  simp

theorem diagonalBetween_ok (x : Arr α) (L A T : List Nat) (hx : x.shape = L ++ A ++ A ++ T) :
    ∃ z, diagonalBetween x L.length (some (L.length + 2 * A.length)) = .ok z ∧
      z.shape = L ++ A ++ T ∧
      ∀ l p t, InRange l L → InRange p A → InRange t T →
        z.get (l ++ p ++ t) = x.get (l ++ p ++ p ++ t) := by
  unfold diagonalBetween
  simp only [Option.getD_some]
  have e1 : (L.length + 2 * A.length - L.length) % 2 = 0 := by omega
  have e2 : (L.length + 2 * A.length - L.length) / 2 = A.length := by omega
  simp only [e1, e2, ne_eq, not_true_eq_false, if_false]
  split
  · rename_i h0
    have : A = [] := List.length_eq_zero_iff.1 h0
    subst this
    refine ⟨x, rfl, by simpa using hx, ?_⟩
    intro l p t _ hp _
    simp at hp; subst hp; simp
  · have t1 : x.shape.take L.length = L := by rw [hx]; simp
    have t2 : (x.shape.drop L.length).take A.length = A := by rw [hx]; simp
    have t4 : x.shape.drop (L.length + 2 * A.length) = T := by
      have : L.length + 2 * A.length = (L ++ A ++ A).length := by simp; omega
      rw [hx, this, List.drop_left]
    simp only [t1, t2, t4, sizeAt_eq_prod]
    set y := x.reshape (L ++ [A.prod, A.prod] ++ T) with hy
    have hys : y.shape = L ++ [A.prod, A.prod] ++ T := rfl
    set d := diagonalAdj y L.length with hd
    have hds : d.shape = L ++ T ++ [A.prod] := by
      simp only [hd, diagonalAdj, hys]
      congr 1
      · congr 1
        · simp
        · have : L.length + 2 = (L ++ [A.prod, A.prod]).length := by simp
          rw [this, List.drop_left]
      · simp [List.getD]
    have hdn : d.ndim = L.length + T.length + 1 := by simp [ndim, hds]; omega
    have hdn1 : d.ndim - 1 = L.length + T.length := by omega
    rw [hdn1]
    have hpm : moveaxisPerm d.ndim [L.length + T.length] [L.length]
        = List.range L.length ++ [L.length + T.length] ++ List.range' L.length T.length := by
      rw [hdn]; exact moveaxisPerm_last _ _
    have hperm : (moveaxisPerm d.ndim [L.length + T.length] [L.length]).Perm (List.range d.ndim) := by
      apply moveaxis_perm' d (by simp) (by simp)
      intro k hk; simp at hk; omega
    have hg : ∀ l t : List Nat, ∀ k, l.length = L.length → t.length = T.length →
        gather (moveaxisPerm d.ndim [L.length + T.length] [L.length]) (l ++ t ++ [k])
          = l ++ [k] ++ t := by
      intro l t k hl ht
      rw [hpm, gather_append, gather_append, gather_range l (t ++ [k]) _ (by simp) hl.symm,
        gather_range' l t [k] _ _ (by simp) hl.symm ht.symm]
      congr 2
      simp only [gather, List.map_cons, List.map_nil]
      have : L.length + T.length = (l ++ t).length + 0 := by simp [hl, ht]
      rw [this, getD_append_len]
      simp
    have hms : (d.moveaxis [L.length + T.length] [L.length]).shape = L ++ [A.prod] ++ T := by
      show gather _ _ = _
      rw [hds]; exact hg L T A.prod rfl rfl
    refine ⟨_, rfl, rfl, ?_⟩
    intro l p t hl hp ht
    rw [reshape_get (d.moveaxis [L.length + T.length] [L.length]) (L ++ A ++ T)
      (j := l ++ [ravel A p] ++ t)]
    · rw [← hg l t _ hl.length ht.length, moveaxis,
        transpose_get d hperm (by simp [hdn, hl.length, ht.length]; omega), hd, ← hl.length, diagonalAdj_get]
      apply reshape_get
      · rw [hx, inRange_append, inRange_append, inRange_append]
        · exact ⟨⟨⟨hl, hp⟩, hp⟩, ht⟩
        · exact hl.length
        · simp [hl.length, hp.length]
        · simp [hl.length, hp.length]
      · rw [hx]
        rw [ravel_append (s := L ++ [A.prod, A.prod]) (by simp [hl.length]),
          ravel_append (s := L) hl.length]
        rw [ravel_append (s := L ++ A ++ A) (by simp [hl.length, hp.length]),
          ravel_append (s := L ++ A) (by simp [hl.length, hp.length]), ravel_append (s := L) hl.length]
        simp only [ravel, List.prod_cons, List.prod_nil]
        ring
    · rw [hms, inRange_append, inRange_append]
      · refine ⟨⟨hl, ?_⟩, ht⟩
        simp [ravel_lt hp]
      · exact hl.length
      · simp [hl.length]
    · rw [hms]
      rw [ravel_append (s := L ++ A) (by simp [hl.length, hp.length]), ravel_append (s := L) hl.length]
      rw [ravel_append (s := L ++ [A.prod]) (by simp [hl.length]), ravel_append (s := L) hl.length]
      simp [ravel]

/-! ### outer_prod -/

theorem ravel_interleave_ones_left (A p : List Nat) (h : p.length = A.length) :
    ravel (interleave A (List.replicate A.length 1)) (interleave p (List.replicate p.length 0))
      = ravel A p ∧ (interleave A (List.replicate A.length 1)).prod = A.prod := by
  induction A generalizing p with
  | nil =>
    have : p = [] := by simpa using h
    subst this; simp [interleave, ravel]
  | cons a A ih =>
    cases p with
    | nil => simp at h
    | cons x p =>
      obtain ⟨h1, h2⟩ := ih p (by simpa using h)
      simp [List.replicate_succ, interleave, ravel, h1, h2]

theorem ravel_interleave_ones_right (A p : List Nat) (h : p.length = A.length) :
    ravel (interleave (List.replicate A.length 1) A) (interleave (List.replicate p.length 0) p)
      = ravel A p ∧ (interleave (List.replicate A.length 1) A).prod = A.prod := by
  induction A generalizing p with
  | nil =>
    have : p = [] := by simpa using h
    subst this; simp [interleave, ravel]
  | cons a A ih =>
    cases p with
    | nil => simp at h
    | cons x p =>
      obtain ⟨h1, h2⟩ := ih p (by simpa using h)
      simp [List.replicate_succ, interleave, ravel, h1, h2]

theorem interleaveOnes_get (x : Arr α) (L A T : List Nat) (hx : x.shape = L ++ A ++ T) (b : Bool) :
    (interleaveOnes x L.length (L.length + A.length) b).shape =
      L ++ (if b then interleave A (List.replicate A.length 1)
        else interleave (List.replicate A.length 1) A) ++ T ∧
    ∀ l p t, InRange l L → InRange p A → InRange t T →
      (interleaveOnes x L.length (L.length + A.length) b).get
        (l ++ (if b then interleave p (List.replicate p.length 0)
          else interleave (List.replicate p.length 0) p) ++ t) = x.get (l ++ p ++ t) := by
  have e0 : L.length + A.length - L.length = A.length := by omega
  have t1 : x.shape.take L.length = L := by rw [hx]; simp
  have t2 : (x.shape.drop L.length).take A.length = A := by rw [hx]; simp
  have t4 : x.shape.drop (L.length + A.length) = T := by
    have : L.length + A.length = (L ++ A).length := by simp
    rw [hx, this, List.drop_left]
  unfold interleaveOnes
  simp only [e0, t1, t2, t4, zipFlat_eq_interleave]
  refine ⟨rfl, ?_⟩
  intro l p t hl hp ht
  apply reshape_get
  · rw [hx, inRange_append, inRange_append]
    · exact ⟨⟨hl, hp⟩, ht⟩
    · exact hl.length
    · simp [hl.length, hp.length]
  · rw [hx]
    have hlen : ∀ (u v : List Nat), u.length = v.length → (interleave u v).length = 2 * u.length :=
      fun u v h => interleave_length h
    have k1 := ravel_interleave_ones_left A p hp.length
    have k2 := ravel_interleave_ones_right A p hp.length
    rw [ravel_append (s := L ++ A) (by simp [hl.length, hp.length]), ravel_append (s := L) hl.length]
    cases b
    · simp only [Bool.false_eq_true, if_false]
      rw [ravel_append (s := L ++ _) (by simp [hl.length, hp.length, interleave_length]),
        ravel_append (s := L) hl.length, k2.1, k2.2]
    · simp only [if_true]
      rw [ravel_append (s := L ++ _) (by simp [hl.length, hp.length, interleave_length]),
        ravel_append (s := L) hl.length, k1.1, k1.2]

theorem bcastIdx_append {s s' i i' : List Nat} (h : s.length = i.length) :
    bcastIdx (s ++ s') (i ++ i') = bcastIdx s i ++ bcastIdx s' i' := by
  simp [bcastIdx, List.zipWith_append h]

theorem bcastIdx_self {s i : List Nat} (h : InRange i s) : bcastIdx s i = i := by
  induction s generalizing i with
  | nil => simp at h; subst h; rfl
  | cons n s ih =>
    obtain ⟨a, i, rfl, ha, hi⟩ := inRange_cons_right.1 h
    have := ih hi
    simp only [bcastIdx] at this
    simp only [bcastIdx, List.zipWith_cons_cons, this]
    split
    · congr 1; omega
    · rfl

theorem bcastIdx_ones_left {A p q : List Nat} (hp : InRange p A) (hq : q.length = A.length) :
    bcastIdx (interleave A (List.replicate A.length 1)) (interleave p q)
      = interleave p (List.replicate p.length 0) := by
  induction A generalizing p q with
  | nil => simp at hp; subst hp; simp [bcastIdx, interleave]
  | cons n A ih =>
    obtain ⟨a, p, rfl, ha, hp⟩ := inRange_cons_right.1 hp
    cases q with
    | nil => simp at hq
    | cons b q =>
      have := ih (q := q) hp (by simpa using hq)
      simp only [bcastIdx] at this
      simp only [bcastIdx, List.length_cons, List.replicate_succ, interleave,
        List.zipWith_cons_cons, this, if_true]
      congr 1
      split
      · omega
      · rfl

theorem bcastIdx_ones_right {A p q : List Nat} (hp : InRange p A) (hq : q.length = A.length) :
    bcastIdx (interleave (List.replicate A.length 1) A) (interleave q p)
      = interleave (List.replicate p.length 0) p := by
  induction A generalizing p q with
  | nil =>
    have : q = [] := by simpa using hq
    simp at hp; subst hp this; simp [bcastIdx, interleave]
  | cons n A ih =>
    obtain ⟨a, p, rfl, ha, hp⟩ := inRange_cons_right.1 hp
    cases q with
    | nil => simp at hq
    | cons b q =>
      have := ih (q := q) hp (by simpa using hq)
      simp only [bcastIdx] at this
      simp only [bcastIdx, List.length_cons, List.replicate_succ, interleave,
        List.zipWith_cons_cons, this, if_true]
      congr 2
      split
      · omega
      · rfl

theorem zipWith_bcastDim_self (s : List Nat) : List.zipWith bcastDim s s = s := by
  induction s with
  | nil => rfl
  | cons n s ih => simp [bcastDim]

theorem zipWith_bcastDim_ones (A B : List Nat) (h : A.length = B.length) :
    List.zipWith bcastDim (interleave A (List.replicate A.length 1))
      (interleave (List.replicate B.length 1) B) = interleave A B := by
  induction A generalizing B with
  | nil => cases B <;> simp [interleave]
  | cons a A ih => cases B with
    | nil => simp at h
    | cons b B =>
      simp only [List.length_cons, List.replicate_succ, interleave, List.zipWith_cons_cons,
        ih B (by simpa using h)]
      simp [bcastDim]; intro h; exact h.symm

theorem outerProd_ok (op : α → α → γ) (x y : Arr α) (L A B T : List Nat)
    (hx : x.shape = L ++ A ++ T) (hy : y.shape = L ++ B ++ T) (hAB : A.length = B.length) :
    (outerProd x (some y) L.length (L.length + A.length) op).shape = L ++ interleave A B ++ T ∧
    ∀ l p q t, InRange l L → InRange p A → InRange q B → InRange t T →
      (outerProd x (some y) L.length (L.length + A.length) op).get (l ++ interleave p q ++ t)
        = op (x.get (l ++ p ++ t)) (y.get (l ++ q ++ t)) := by
  obtain ⟨sx, gx⟩ := interleaveOnes_get x L A T hx true
  obtain ⟨sy, gy⟩ := interleaveOnes_get y L B T hy false
  rw [← hAB] at sy gy
  simp only [if_true, Bool.false_eq_true, if_false] at sx gx sy gy
  have hl1 : (interleave A (List.replicate A.length 1)).length = 2 * A.length :=
    interleave_length (by simp)
  have hl2 : (interleave (List.replicate A.length 1) B).length = 2 * A.length := by
    rw [interleave_length (by simp [hAB])]; simp
  unfold outerProd bcast
  simp only [Option.getD_some]
  refine ⟨?_, ?_⟩
  · rw [sx, sy, List.zipWith_append (by simp [hl1, hl2]), List.zipWith_append rfl,
      zipWith_bcastDim_self, zipWith_bcastDim_self]
    conv_lhs => rw [show List.replicate A.length 1 = List.replicate B.length 1 by rw [hAB]]
    have := zipWith_bcastDim_ones A B hAB
    rw [show List.replicate A.length 1 = List.replicate B.length 1 by rw [hAB]] at this
    rw [this]
  · intro l p q t hl hp hq ht
    have hpq : (interleave p q).length = 2 * A.length := by
      rw [interleave_length (by rw [hp.length, hq.length, hAB]), hp.length]
    rw [sx, sy, bcastIdx_append (by simp [hl.length, hl1, hpq]), bcastIdx_append hl.length.symm,
      bcastIdx_append (by simp [hl.length, hl2, hpq]), bcastIdx_append hl.length.symm,
      bcastIdx_self hl, bcastIdx_self ht, bcastIdx_ones_left hp (by rw [hq.length, hAB])]
    have := bcastIdx_ones_right (q := p) hq (by rw [hp.length, hAB])
    rw [← hAB] at this
    rw [this, gx l p t hl hp ht, gy l q t hl hq ht]

end NT
