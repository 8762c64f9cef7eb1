import Verif.Tac
import Verif.Lemmas.Dot
import Verif.Lemmas.Axes2
import Verif.Spec.JoinIdx

/-!
# Moving a group of axes to the end and back
-/

namespace NT
open Arr Spec
variable {α : Type}

lemma freeAxes_eq (n : ℕ) (D : List ℕ) : freeAxes n D = otherAxes n D := by
  unfold freeAxes otherAxes
  congr 1
  funext k
  by_cases h : k ∈ D <;> simp [h]

lemma gather_eq_sizesAt (D s : List ℕ) : gather D s = sizesAt D s := rfl

lemma freeAxes_length {n : ℕ} {D : List ℕ} (hn : D.Nodup) (hl : ∀ k ∈ D, k < n) :
    (freeAxes n D).length + D.length = n := by
  have := (freeAxes_perm n D hn hl).length_eq
  simpa using this

lemma pyInsert_len {β : Type} (l : List β) (x : β) (k : ℕ) (h : k = l.length) : pyInsert l k x = l ++ [x] := by
  subst h
  simp [pyInsert]

lemma foldl_insert_end (l D : List ℕ) :
    ((List.range' l.length D.length).zip D).foldl (fun acc p => pyInsert acc p.1 p.2) l = l ++ D := by
  induction D generalizing l with
  | nil => simp
  | cons d D ih =>
    simp only [List.length_cons, List.range'_succ, List.zip_cons_cons, List.foldl_cons]
    rw [pyInsert_len l d _ rfl]
    have := ih (l ++ [d])
    simp only [List.length_append, List.length_singleton] at this
    rw [this]
    simp

/-- Moving axes to the end. -/
lemma moveaxisPerm_toEnd {n : ℕ} {D : List ℕ} (hn : D.Nodup) (hl : ∀ k ∈ D, k < n) :
    moveaxisPerm n D (List.range' (n - D.length) D.length) = freeAxes n D ++ D := by
  unfold moveaxisPerm
  rw [mergeSort_zip_of_sorted (List.pairwise_lt_range')]
  have h := freeAxes_length hn hl
  have : n - D.length = (freeAxes n D).length := by omega
  rw [this]
  exact foldl_insert_end (freeAxes n D) D

lemma map_pyInsert {β γ : Type} (f : β → γ) (l : List β) (k : ℕ) (x : β) :
    (pyInsert l k x).map f = pyInsert (l.map f) k (f x) := by
  simp [pyInsert, List.map_take, List.map_drop]

lemma map_foldl_insert (f : ℕ → ℕ) (L : List (ℕ × ℕ)) (l : List ℕ) :
    (L.foldl (fun acc p => pyInsert acc p.1 p.2) l).map f =
      (L.map fun p => (p.1, f p.2)).foldl (fun acc p => pyInsert acc p.1 p.2) (l.map f) := by
  induction L generalizing l with
  | nil => simp
  | cons p L ih => simp only [List.foldl_cons, List.map_cons, ih, map_pyInsert]

/-- Inserting the missing numbers in increasing order at their places gives all numbers. -/
lemma foldl_insert_sorted (n : ℕ) (L : List ℕ) (hs : L.Pairwise (· < ·)) (hl : ∀ k ∈ L, k < n) :
    L.foldl (fun acc d => pyInsert acc d d) ((List.range n).filter fun k => k ∉ L) = List.range n := by
  induction L with
  | nil => simp
  | cons d L ih =>
    simp only [List.foldl_cons]
    have hd : d < n := hl d (by simp)
    have hgt : ∀ k ∈ L, d < k := (List.pairwise_cons.1 hs).1
    have e : pyInsert ((List.range n).filter fun k => k ∉ d :: L) d d = (List.range n).filter fun k => k ∉ L := by
      have hsplit : List.range n = List.range d ++ d :: List.range' (d + 1) (n - d - 1) := by
        have h1 := range_split d 1 (n - d - 1)
        have h2 : d + 1 + (n - d - 1) = n := by omega
        rw [h2] at h1
        rw [h1]
        simp
      have f1 : (List.range d).filter (fun k => decide (k ∉ d :: L)) = List.range d := by
        rw [List.filter_eq_self]
        intro k hk
        have hk := List.mem_range.1 hk
        simp only [List.mem_cons, not_or, decide_eq_true_eq]
        exact ⟨by omega, fun h => by have := hgt k h; omega⟩
      have f2 : (List.range d).filter (fun k => decide (k ∉ L)) = List.range d := by
        rw [List.filter_eq_self]
        intro k hk
        have hk := List.mem_range.1 hk
        simp only [decide_eq_true_eq]
        exact fun h => by have := hgt k h; omega
      have f3 : (List.range' (d + 1) (n - d - 1)).filter (fun k => decide (k ∉ d :: L)) =
          (List.range' (d + 1) (n - d - 1)).filter (fun k => decide (k ∉ L)) := by
        refine List.filter_congr fun k hk => ?_
        have := List.mem_range'_1.1 hk
        have hne : k ≠ d := by omega
        simp [hne]
      have hdL : d ∉ L := fun h => lt_irrefl _ (hgt d h)
      rw [hsplit, List.filter_append, List.filter_append, f1, f2, List.filter_cons_of_neg (by simp), f3,
        List.filter_cons_of_pos (by simpa using hdL)]
      simp [pyInsert]
    rw [e]
    exact ih (List.pairwise_cons.1 hs).2 fun k hk => hl k (by simp [hk])

lemma pairLe_trans (a b c : ℕ × ℕ) : pairLe a b = true → pairLe b c = true → pairLe a c = true := by
  simp only [pairLe, Bool.or_eq_true, decide_eq_true_eq, Bool.and_eq_true, beq_iff_eq]
  omega

lemma pairLe_total (a b : ℕ × ℕ) : (pairLe a b || pairLe b a) = true := by
  simp only [pairLe, Bool.or_eq_true, decide_eq_true_eq, Bool.and_eq_true, beq_iff_eq]
  omega

/-- Moving the last axes to the places `D` is the inverse of moving the axes `D` to the end. -/
lemma moveaxisPerm_fromEnd {n : ℕ} {D : List ℕ} (hn : D.Nodup) (hl : ∀ k ∈ D, k < n) :
    gather (moveaxisPerm n (List.range' (n - D.length) D.length) D) (freeAxes n D ++ D) = List.range n := by
  have hlen := freeAxes_length hn hl
  have hm : n - D.length = (freeAxes n D).length := by omega
  set m := n - D.length with hm'
  have hrem : (List.range n).filter (fun k => !((List.range' m D.length).contains k)) = List.range m := by
    have : List.range n = List.range m ++ List.range' m D.length := by
      have := range_split m D.length 0
      simp only [Nat.add_zero, List.range'_zero, List.append_nil] at this
      rw [← this]
      congr 1
      omega
    rw [this, List.filter_append, List.filter_eq_self.2, List.filter_eq_nil_iff.2, List.append_nil]
    · intro a ha
      simp [ha, List.contains_eq_mem]
    · intro a ha
      have := List.mem_range.1 ha
      simp [List.contains_eq_mem, List.mem_range'_1]
      omega
  unfold moveaxisPerm
  rw [hrem]
  set L := (D.zip (List.range' m D.length)).mergeSort pairLe with hL
  have hperm : L.Perm (D.zip (List.range' m D.length)) := List.mergeSort_perm _ _
  change List.map _ (List.foldl _ _ _) = _
  rw [map_foldl_insert]
  have hfst : (L.map Prod.fst).Perm D := by
    refine (hperm.map _).trans ?_
    rw [List.map_fst_zip (by simp)]
  have hval : ∀ p ∈ L, (freeAxes n D ++ D).getD p.2 0 = p.1 := by
    intro p hp
    have hp' := hperm.mem_iff.1 hp
    obtain ⟨i, hi, he⟩ := List.mem_iff_getElem.1 hp'
    simp only [List.length_zip, List.length_range', min_self] at hi
    simp only [List.getElem_zip, List.getElem_range', one_mul] at he
    rw [← he]
    simp only [hm]
    rw [getD_append_len]
    simp [List.getD, hi]
  have hmap : (L.map fun p => (p.1, (freeAxes n D ++ D).getD p.2 0)) = (L.map Prod.fst).map fun d => (d, d) := by
    rw [List.map_map]
    refine List.map_congr_left fun p hp => ?_
    simp only [Function.comp]
    rw [hval p hp]
  have hstart : (List.range m).map (fun k => (freeAxes n D ++ D).getD k 0) = (List.range n).filter fun k => k ∉ L.map Prod.fst := by
    have h1 : (List.range n).filter (fun k => decide (k ∉ L.map Prod.fst)) = freeAxes n D := by
      rw [freeAxes_eq]
      refine List.filter_congr fun k _ => ?_
      rw [decide_eq_decide, hfst.mem_iff]
    rw [h1]
    have := gather_range (x := freeAxes n D ++ D) (freeAxes n D) D m rfl hm
    exact this
  rw [hmap, hstart, List.foldl_map]
  refine foldl_insert_sorted n (L.map Prod.fst) ?_ fun k hk => hl k (hfst.mem_iff.1 hk)
  have hsorted : L.Pairwise (fun a b => pairLe a b = true) := List.pairwise_mergeSort pairLe_trans pairLe_total _
  have hle : (L.map Prod.fst).Pairwise (· ≤ ·) := by
    rw [List.pairwise_map]
    refine hsorted.imp ?_
    intro a b h
    simp only [pairLe, Bool.or_eq_true, decide_eq_true_eq, Bool.and_eq_true, beq_iff_eq] at h
    omega
  have hnd : (L.map Prod.fst).Nodup := hfst.nodup_iff.2 hn
  exact (hle.and hnd).imp fun ⟨h1, h2⟩ => lt_of_le_of_ne h1 h2

lemma gather_gather (P Q x : List ℕ) (h : ∀ k ∈ P, k < Q.length) : gather P (gather Q x) = gather (gather P Q) x := by
  unfold gather
  rw [List.map_map]
  refine List.map_congr_left fun k hk => ?_
  simp [List.getD, h k hk]

lemma gather_range_self (x : List ℕ) (n : ℕ) (h : x.length = n) : gather (List.range n) x = x := by
  have := gather_range (x := x) x [] n (by simp) h.symm
  simpa using this

variable {n : ℕ} {D : List ℕ}

lemma gather_join_other (p r : List ℕ) (hp : p.length = (otherAxes n D).length) :
    gather (otherAxes n D) (joinIdx n D p r) = p := by
  refine ext_getD (by simp [gather, hp]) fun k hk => ?_
  simp only [gather, List.length_map] at hk
  rw [gather_getD _ _ _ hk]
  have hmem : (otherAxes n D)[k] ∈ otherAxes n D := List.getElem_mem hk
  have h' := List.mem_filter.1 hmem
  have hlt : (otherAxes n D)[k] < n := List.mem_range.1 h'.1
  have hnd : (otherAxes n D).Nodup := List.nodup_range.filter _
  unfold joinIdx
  rw [getD_map_range _ _ _ hlt, if_neg (by simpa using h'.2), List.Nodup.idxOf_getElem hnd]

lemma gather_join (hn : D.Nodup) (hl : ∀ k ∈ D, k < n) (p r : List ℕ) (hr : r.length = D.length) :
    gather D (joinIdx n D p r) = r := by
  refine ext_getD (by simp [gather, hr]) fun k hk => ?_
  simp only [gather, List.length_map] at hk
  rw [gather_getD _ _ _ hk]
  have hmem : D[k] ∈ D := List.getElem_mem hk
  unfold joinIdx
  rw [getD_map_range _ _ _ (hl _ hmem), if_pos hmem, List.Nodup.idxOf_getElem hn]

lemma join_length (p r : List ℕ) : (joinIdx n D p r).length = n := by simp [joinIdx]

lemma join_gather {j : List ℕ} (hj : j.length = n) :
    joinIdx n D (gather (otherAxes n D) j) (gather D j) = j := by
  refine ext_getD (by simp [joinIdx, hj]) fun k hk => ?_
  rw [join_length] at hk
  unfold joinIdx
  rw [getD_map_range _ _ _ hk]
  split_ifs with h
  · rw [gather_getD _ _ _ (List.idxOf_lt_length_iff.2 h)]
    congr 1
    simp
  · have h' : k ∈ otherAxes n D := by simp [otherAxes, hk, h]
    rw [gather_getD _ _ _ (List.idxOf_lt_length_iff.2 h')]
    congr 1
    simp

lemma join_inRange {s p r : List ℕ} (hs : s.length = n) (hp : InRange p (sizesAt (otherAxes n D) s))
    (hr : InRange r (sizesAt D s)) : InRange (joinIdx n D p r) s := by
  rw [inRange_iff]
  refine ⟨by rw [join_length, hs], fun k hk => ?_⟩
  rw [hs] at hk
  have hp' := inRange_iff.1 hp
  have hr' := inRange_iff.1 hr
  unfold joinIdx
  rw [getD_map_range _ _ _ hk]
  split_ifs with h
  · have hi := List.idxOf_lt_length_iff.2 h
    have := hr'.2 (D.idxOf k) (by simp only [sizesAt, List.length_map]; exact hi)
    rw [show sizesAt D s = gather D s from rfl, gather_getD _ _ _ hi] at this
    simpa using this
  · have h' : k ∈ otherAxes n D := by simp [otherAxes, hk, h]
    have hi := List.idxOf_lt_length_iff.2 h'
    have := hp'.2 ((otherAxes n D).idxOf k) (by simp only [sizesAt, List.length_map]; exact hi)
    rw [show sizesAt (otherAxes n D) s = gather (otherAxes n D) s from rfl, gather_getD _ _ _ hi] at this
    simpa using this

lemma gather_inRange {P j s : List ℕ} (h : InRange j s) (hP : ∀ k ∈ P, k < s.length) : InRange (gather P j) (gather P s) := by
  rw [inRange_iff]
  refine ⟨by simp [gather], fun k hk => ?_⟩
  simp only [gather, List.length_map] at hk
  rw [gather_getD _ _ _ hk, gather_getD _ _ _ hk]
  exact (inRange_iff.1 h).2 _ (hP _ (List.getElem_mem hk))

/-- `moveaxis(a, D, last)`. -/
lemma moveaxis_toEnd (a : Arr α) (hn : D.Nodup) (hl : ∀ k ∈ D, k < a.ndim) :
    (a.moveaxis D (List.range' (a.ndim - D.length) D.length)).shape = sizesAt (otherAxes a.ndim D) a.shape ++ sizesAt D a.shape ∧
    ∀ p r, p.length = (otherAxes a.ndim D).length → r.length = D.length →
      (a.moveaxis D (List.range' (a.ndim - D.length) D.length)).get (p ++ r) = a.get (joinIdx a.ndim D p r) := by
  unfold moveaxis
  rw [moveaxisPerm_toEnd hn hl]
  refine ⟨?_, ?_⟩
  · simp only [transpose, gather_append, freeAxes_eq]
    rfl
  · intro p r hp hr
    have := transpose_get a (freeAxes_perm a.ndim D hn hl) (join_length (n := a.ndim) (D := D) p r)
    rw [gather_append, freeAxes_eq, gather_join_other p r hp, gather_join hn hl p r hr] at this
    rw [freeAxes_eq]
    exact this

/-- `moveaxis(a, last, D)`. -/
lemma moveaxis_fromEnd (a : Arr α) (s : List ℕ) (hn : D.Nodup) (hl : ∀ k ∈ D, k < s.length)
    (ha : a.shape = sizesAt (otherAxes s.length D) s ++ sizesAt D s) :
    (a.moveaxis (List.range' (a.ndim - D.length) D.length) D).shape = s ∧
    ∀ p r, p.length = (otherAxes s.length D).length → r.length = D.length →
      (a.moveaxis (List.range' (a.ndim - D.length) D.length) D).get (joinIdx s.length D p r) = a.get (p ++ r) := by
  have hlen := freeAxes_length hn hl
  have hnd : a.ndim = s.length := by
    simp only [ndim, ha, List.length_append, sizesAt, List.length_map]
    rw [freeAxes_eq] at hlen
    exact hlen
  have hsrc : (moveaxisPerm s.length (List.range' (s.length - D.length) D.length) D).Perm (List.range s.length) :=
    moveaxisPerm_perm _ _ _ (by simp) (List.nodup_range') (by
      intro k hk
      have := List.mem_range'_1.1 hk
      omega)
  have key : ∀ j : List ℕ, j.length = s.length →
      gather (moveaxisPerm s.length (List.range' (s.length - D.length) D.length) D) (gather (freeAxes s.length D ++ D) j) = j := by
    intro j hj
    rw [gather_gather _ _ _ (fun k hk => by
      have := List.mem_range.1 (hsrc.mem_iff.1 hk)
      simp only [List.length_append]
      omega), moveaxisPerm_fromEnd hn hl, gather_range_self _ _ hj]
  unfold moveaxis
  rw [hnd]
  refine ⟨?_, ?_⟩
  · simp only [transpose]
    rw [ha, show sizesAt (otherAxes s.length D) s ++ sizesAt D s = gather (freeAxes s.length D ++ D) s by
      rw [gather_append, freeAxes_eq]; rfl, key s rfl]
  · intro p r hp hr
    have h1 := transpose_get a (p := moveaxisPerm s.length (List.range' (s.length - D.length) D.length) D) (by rw [hnd]; exact hsrc)
      (j := p ++ r) (by rw [hnd, List.length_append, hp, hr, ← freeAxes_eq, hlen])
    have h2 := key (joinIdx s.length D p r) (join_length p r)
    rw [gather_append, freeAxes_eq, gather_join_other p r hp, gather_join hn hl p r hr] at h2
    rw [h2] at h1
    exact h1

end NT
