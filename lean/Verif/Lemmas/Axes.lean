import Verif.Lemmas.Arr
import Verif.Model.Axes
import Verif.Spec.Interleave

/-! Auxiliary lemmas on axis utilities. -/

namespace NT
open Arr Spec

variable {α β : Type*}

theorem interleave_length {A B : List β} (h : A.length = B.length) :
    (interleave A B).length = 2 * A.length := by
  induction A generalizing B with
  | nil => simp [interleave]
  | cons a A ih =>
    cases B with
    | nil => simp at h
    | cons b B => simp [interleave, ih (by simpa using h)]; omega

theorem interleave_map {γ : Type*} (f : β → γ) (A B : List β) :
    (interleave A B).map f = interleave (A.map f) (B.map f) := by
  induction A generalizing B with
  | nil => simp [interleave]
  | cons a A ih => cases B with
    | nil => simp [interleave]
    | cons b B => simp [interleave, ih]

theorem gather_interleave (P Q x : List Nat) :
    gather (interleave P Q) x = interleave (gather P x) (gather Q x) := interleave_map _ _ _

theorem interleave_append {A B A' B' : List β} (h : A.length = B.length) :
    interleave (A ++ A') (B ++ B') = interleave A B ++ interleave A' B' := by
  induction A generalizing B with
  | nil => cases B with
    | nil => simp [interleave]
    | cons b B => simp at h
  | cons a A ih => cases B with
    | nil => simp at h
    | cons b B => simp [interleave, ih (B := B) (by simpa using h)]

theorem zipFlat_eq_interleave (A B : List β) : zipFlat A B = interleave A B := by
  induction A generalizing B with
  | nil => simp [zipFlat, interleave]
  | cons a A ih => cases B with
    | nil => simp [zipFlat, interleave]
    | cons b B =>
      have := ih B
      simp only [zipFlat] at this
      simp [zipFlat, interleave, this]

theorem interleave_inj {A B A' B' : List β} (h : A.length = B.length) (h' : A'.length = B'.length)
    (he : interleave A B = interleave A' B') : A = A' ∧ B = B' := by
  induction A generalizing B A' B' with
  | nil =>
    cases B with
    | cons b B => simp at h
    | nil =>
      have hl := congrArg List.length he
      rw [interleave_length h', interleave_length h] at hl
      have h0 : A'.length = 0 := by simp at hl; simp [hl]
      have h1 : B'.length = 0 := by omega
      simp [List.length_eq_zero_iff] at h1 h0
      simp [h1, h0]
  | cons a A ih =>
    cases B with
    | nil => simp at h
    | cons b B =>
      cases A' with
      | nil => cases B' <;> simp [interleave] at he
      | cons a' A' =>
        cases B' with
        | nil => simp at h'
        | cons b' B' =>
          simp [interleave] at he
          obtain ⟨h1, h2, h3⟩ := he
          obtain ⟨h4, h5⟩ := ih (by simpa using h) (by simpa using h') h3
          simp [h1, h2, h4, h5]

/-- Every list of even length is an interleaving. -/
theorem exists_interleave (h : Nat) {x : List β} (hx : x.length = 2 * h) :
    ∃ p q, p.length = h ∧ q.length = h ∧ x = interleave p q := by
  induction h generalizing x with
  | zero =>
    refine ⟨[], [], rfl, rfl, ?_⟩
    simpa [interleave, List.length_eq_zero_iff] using hx
  | succ h ih =>
    match x, hx with
    | a :: b :: x, hx =>
      obtain ⟨p, q, hp, hq, rfl⟩ := ih (x := x) (by simp at hx; omega)
      exact ⟨a :: p, b :: q, by simp [hp], by simp [hq], rfl⟩
    | [a], hx => simp at hx; omega
    | [], hx => simp at hx

theorem inRange_interleave {p q A B : List Nat} (hp : p.length = A.length) (hq : q.length = B.length)
    (hAB : A.length = B.length) :
    InRange (interleave p q) (interleave A B) ↔ InRange p A ∧ InRange q B := by
  induction A generalizing p q B with
  | nil =>
    cases B with
    | nil =>
      simp at hp hq; subst hp hq; simp [interleave]
    | cons b B => simp at hAB
  | cons a A ih =>
    cases B with
    | nil => simp at hAB
    | cons b B =>
      cases p with
      | nil => simp at hp
      | cons x p =>
        cases q with
        | nil => simp at hq
        | cons y q =>
          simp only [interleave, inRange_cons]
          rw [ih (by simpa using hp) (by simpa using hq) (by simpa using hAB)]
          tauto

theorem interleave_reverse {A B : List β} (h : A.length = B.length) :
    interleave A.reverse B.reverse = ((A.zip B).reverse).flatMap fun p => [p.1, p.2] := by
  rw [← zipFlat_eq_interleave, zipFlat]
  congr 1
  induction A generalizing B with
  | nil => simp
  | cons a A ih =>
    cases B with
    | nil => simp at h
    | cons b B =>
      have h' : A.length = B.length := by simpa using h
      simp only [List.reverse_cons, List.zip_cons_cons]
      rw [List.zip_append (by simpa using h'), ih h']
      rfl

/-! ### pyRange -/

theorem pyRange_one (lo hi : Nat) : pyRange lo hi 1 = List.range' lo (hi - lo) := by
  simp [pyRange]

theorem pyRange_two (s h : Nat) : pyRange (s + 1) (s + 2 * h) 2 = List.range' (s + 1) h 2 := by
  simp only [pyRange]
  congr 1
  omega

/-! ### the permutations of zip / unzip / reverse -/

theorem range_split (s m t : Nat) :
    List.range (s + m + t) = List.range s ++ List.range' s m ++ List.range' (s + m) t := by
  rw [List.range_eq_range', List.range_eq_range']
  have h1 : List.range' 0 (s + m + t) = List.range' 0 (s + m) ++ List.range' (s + m) t := by
    have := @List.range'_append 0 (s+m) t 1
    simpa using this.symm
  have h2 : List.range' 0 (s + m) = List.range' 0 s ++ List.range' s m := by
    have := @List.range'_append 0 s m 1
    simpa using this.symm
  rw [h1, h2]

theorem gather_range'_append (l p t : List Nat) :
    gather (List.range' l.length p.length) (l ++ p ++ t) = p := by
  apply ext_getD
  · simp
  · intro k hk
    simp at hk
    rw [gather_getD _ _ _ (by simpa using hk)]
    simp [List.getD, hk]
    rw [List.getElem?_append_right (by simp)]
    simp [List.getElem?_append_left, hk]

theorem gather_range' {x : List Nat} (l p t : List Nat) (s h : Nat) (hx : x = l ++ p ++ t)
    (hs : s = l.length) (hh : h = p.length) : gather (List.range' s h) x = p := by
  subst hx hs hh; exact gather_range'_append l p t

theorem gather_range {x : List Nat} (l t : List Nat) (s : Nat) (hx : x = l ++ t)
    (hs : s = l.length) : gather (List.range s) x = l := by
  rw [List.range_eq_range']
  exact gather_range' [] l t 0 s (by simpa using hx) rfl hs

theorem foldl_insert_odd (pre A B post : List Nat) (h : A.length = B.length) :
    ((List.range' (pre.length + 1) A.length 2).zip B).foldl
      (fun acc p => pyInsert acc p.1 p.2) (pre ++ A ++ post) = pre ++ interleave A B ++ post := by
  induction A generalizing pre B with
  | nil => cases B with
    | nil => simp [interleave]
    | cons b B => simp at h
  | cons a A ih => cases B with
    | nil => simp at h
    | cons b B =>
      have h' : A.length = B.length := by simpa using h
      simp only [List.length_cons, List.range'_succ, List.zip_cons_cons, List.foldl_cons, interleave]
      have e : pyInsert (pre ++ a :: A ++ post) (pre.length + 1) b
          = (pre ++ [a, b]) ++ A ++ post := by
        have := pyInsert_append' (pre ++ [a]) (A ++ post) b (pre.length + 1) (by simp)
        simpa using this
      rw [e]
      have := ih (pre ++ [a, b]) B h'
      simp only [List.length_append, List.length_cons, List.length_nil] at this
      simpa [Nat.add_assoc] using this

theorem foldl_insert_consec (pre B post : List Nat) :
    ((List.range' pre.length B.length).zip B).foldl
      (fun acc p => pyInsert acc p.1 p.2) (pre ++ post) = pre ++ B ++ post := by
  induction B generalizing pre with
  | nil => simp
  | cons b B ih =>
    simp only [List.length_cons, List.range'_succ, List.zip_cons_cons, List.foldl_cons,
      pyInsert_append]
    have := ih (pre ++ [b])
    simp only [List.length_append, List.length_cons, List.length_nil] at this
    simpa using this

theorem moveaxisPerm_zip (s h t : Nat) :
    moveaxisPerm (s + 2 * h + t) (List.range' (s + h) h) (List.range' (s + 1) h 2) =
      List.range s ++ interleave (List.range' s h) (List.range' (s + h) h)
        ++ List.range' (s + 2 * h) t := by
  unfold moveaxisPerm
  rw [mergeSort_zip_of_sorted (List.pairwise_lt_range' (step := 2))]
  have hf : (List.range (s + 2 * h + t)).filter (fun k => !(List.range' (s + h) h).contains k)
      = List.range s ++ List.range' s h ++ List.range' (s + 2 * h) t := by
    rw [range_split s (2 * h) t]
    have : List.range' s (2 * h) = List.range' s h ++ List.range' (s + h) h := by
      have := @List.range'_append s h h 1
      rw [Nat.two_mul]; simp
    rw [this]
    simp only [List.filter_append]
    have e1 : (List.range s).filter (fun k => !(List.range' (s + h) h).contains k) = List.range s := by
      apply List.filter_eq_self.2
      intro a ha; simp [List.mem_range'_1] at ha ⊢; omega
    have e2 : (List.range' s h).filter (fun k => !(List.range' (s + h) h).contains k)
        = List.range' s h := by
      apply List.filter_eq_self.2
      intro a ha; simp [List.mem_range'_1] at ha ⊢; omega
    have e3 : (List.range' (s + h) h).filter (fun k => !(List.range' (s + h) h).contains k) = [] := by
      apply List.filter_eq_nil_iff.2
      intro a ha; simp [List.mem_range'_1] at ha ⊢; omega
    have e4 : (List.range' (s + 2 * h) t).filter (fun k => !(List.range' (s + h) h).contains k)
        = List.range' (s + 2 * h) t := by
      apply List.filter_eq_self.2
      intro a ha; simp [List.mem_range'_1] at ha ⊢; omega
    rw [e1, e2, e3, e4]; simp
  rw [hf]
  have := foldl_insert_odd (List.range s) (List.range' s h) (List.range' (s + h) h)
    (List.range' (s + 2 * h) t) (by simp)
  simpa using this

theorem range'_interleave (s h : Nat) :
    List.range' s (2 * h) = interleave (List.range' s h 2) (List.range' (s + 1) h 2) := by
  induction h generalizing s with
  | zero => simp [interleave]
  | succ h ih =>
    rw [show 2 * (h + 1) = 2 * h + 1 + 1 by ring]
    simp only [List.range'_succ, interleave]
    rw [ih (s + 1 + 1)]

theorem filter_interleave (p : Nat → Bool) {A B : List Nat} (h : A.length = B.length)
    (hA : ∀ a ∈ A, p a = true) (hB : ∀ b ∈ B, p b = false) : (interleave A B).filter p = A := by
  induction A generalizing B with
  | nil => simp [interleave]
  | cons a A ih => cases B with
    | nil => simp at h
    | cons b B =>
      simp only [interleave]
      rw [List.filter_cons_of_pos (hA a (by simp)), List.filter_cons_of_neg (by simp [hB b (by simp)]),
        ih (by simpa using h) (fun a ha => hA a (by simp [ha])) (fun b hb => hB b (by simp [hb]))]

theorem moveaxisPerm_unzip (s h t : Nat) :
    moveaxisPerm (s + 2 * h + t) (List.range' (s + 1) h 2) (List.range' (s + h) h) =
      List.range s ++ List.range' s h 2 ++ List.range' (s + 1) h 2
        ++ List.range' (s + 2 * h) t := by
  unfold moveaxisPerm
  rw [mergeSort_zip_of_sorted (List.pairwise_lt_range')]
  have hf : (List.range (s + 2 * h + t)).filter (fun k => !(List.range' (s + 1) h 2).contains k)
      = List.range s ++ List.range' s h 2 ++ List.range' (s + 2 * h) t := by
    rw [range_split s (2 * h) t, range'_interleave]
    simp only [List.filter_append]
    have e1 : (List.range s).filter (fun k => !(List.range' (s + 1) h 2).contains k) = List.range s := by
      apply List.filter_eq_self.2
      intro a ha; simp [List.mem_range'] at ha ⊢; omega
    have e2 : (interleave (List.range' s h 2) (List.range' (s + 1) h 2)).filter
        (fun k => !(List.range' (s + 1) h 2).contains k) = List.range' s h 2 := by
      apply filter_interleave
      · simp
      · intro a ha; simp [List.mem_range'] at ha ⊢; omega
      · intro a ha; simpa using ha
    have e4 : (List.range' (s + 2 * h) t).filter (fun k => !(List.range' (s + 1) h 2).contains k)
        = List.range' (s + 2 * h) t := by
      apply List.filter_eq_self.2
      intro a ha; simp [List.mem_range'] at ha ⊢; omega
    rw [e1, e2, e4]
  rw [hf]
  have := foldl_insert_consec (List.range s ++ List.range' s h 2) (List.range' (s + 1) h 2)
    (List.range' (s + 2 * h) t)
  simpa using this

theorem gather_even (l p q t : List Nat) (h : p.length = q.length) :
    gather (List.range' l.length p.length 2) (l ++ interleave p q ++ t) = p := by
  induction p generalizing l q with
  | nil => simp [gather]
  | cons a p ih => cases q with
    | nil => simp at h
    | cons b q =>
      have := ih (l ++ [a, b]) q (by simpa using h)
      simp only [List.length_append, List.length_cons, List.length_nil] at this
      simp only [List.length_cons, List.range'_succ, gather, List.map_cons, interleave] at this ⊢
      congr 1
      · simp [List.getD]
      · simpa using this

theorem gather_odd (l p q t : List Nat) (h : p.length = q.length) :
    gather (List.range' (l.length + 1) p.length 2) (l ++ interleave p q ++ t) = q := by
  induction p generalizing l q with
  | nil =>
    have : q = [] := by simpa [eq_comm] using h
    simp [gather, this]
  | cons a p ih => cases q with
    | nil => simp at h
    | cons b q =>
      have := ih (l ++ [a, b]) q (by simpa using h)
      simp only [List.length_append, List.length_cons, List.length_nil] at this
      simp only [List.length_cons, List.range'_succ, gather, List.map_cons, interleave] at this ⊢
      congr 1
      · simp [List.getD]
      · have e : l.length + 1 + 2 = l.length + (0 + 1 + 1) + 1 := by omega
        rw [e]; simpa using this

/-- gather for the zip permutation. -/
theorem gather_zipPerm (l p q t : List Nat) (h : p.length = q.length) :
    gather (List.range l.length ++ interleave (List.range' l.length p.length)
        (List.range' (l.length + p.length) p.length) ++ List.range' (l.length + 2 * p.length) t.length)
      (l ++ p ++ q ++ t) = l ++ interleave p q ++ t := by
  rw [gather_append, gather_append, gather_interleave]
  rw [gather_range l (p ++ q ++ t) _ (by simp) rfl,
    gather_range' l p (q ++ t) _ _ (by simp) rfl rfl,
    gather_range' (l ++ p) q t _ _ (by simp) (by simp) h,
    gather_range' (l ++ p ++ q) t [] _ _ (by simp) (by simp [← h]; omega) rfl]

theorem gather_unzipPerm (l p q t : List Nat) (h : p.length = q.length) :
    gather (List.range l.length ++ List.range' l.length p.length 2 ++
        List.range' (l.length + 1) p.length 2 ++ List.range' (l.length + 2 * p.length) t.length)
      (l ++ interleave p q ++ t) = l ++ p ++ q ++ t := by
  rw [gather_append, gather_append, gather_append]
  rw [gather_range l (interleave p q ++ t) _ (by simp) rfl, gather_even _ _ _ _ h,
    gather_odd _ _ _ _ h,
    gather_range' (l ++ interleave p q) t [] _ _ (by simp) (by simp [interleave_length h]) rfl]

/-- The permutation of a moveaxis with legal arguments. -/
theorem moveaxis_perm' (a : Arr α) {src dst : List Nat} (hlen : dst.length = src.length)
    (hnd : src.Nodup) (hlt : ∀ k ∈ src, k < a.ndim) :
    (moveaxisPerm a.ndim src dst).Perm (List.range a.ndim) :=
  moveaxisPerm_perm _ _ _ hlen hnd hlt

theorem nodup_range'_two (s h : Nat) : (List.range' s h 2).Nodup :=
  (List.pairwise_lt_range' (s := s) (n := h) (step := 2)).imp (fun h => Nat.ne_of_lt h)

/-! ### zip / unzip on arrays -/

theorem zipAxes_ok (x : Arr α) (L A B T : List Nat) (hx : x.shape = L ++ A ++ B ++ T)
    (hAB : A.length = B.length) :
    ∃ z, zipAxes x L.length (some (L.length + 2 * A.length)) = .ok z ∧
      z.shape = L ++ interleave A B ++ T ∧
      ∀ l p q t, l.length = L.length → p.length = A.length → q.length = B.length →
        t.length = T.length → z.get (l ++ interleave p q ++ t) = x.get (l ++ p ++ q ++ t) := by
  have hn : x.ndim = L.length + 2 * A.length + T.length := by
    simp [ndim, hx, ← hAB]; omega
  have hperm : (moveaxisPerm x.ndim (List.range' (L.length + A.length) A.length)
      (List.range' (L.length + 1) A.length 2)).Perm (List.range x.ndim) := by
    apply moveaxis_perm' x (by simp) List.nodup_range'
    intro k hk; simp [List.mem_range'_1] at hk; omega
  refine ⟨x.moveaxis (List.range' (L.length + A.length) A.length)
      (List.range' (L.length + 1) A.length 2), ?_, ?_, ?_⟩
  · unfold zipAxes zipAxesCore
    simp only [Option.getD_some]
    have e1 : (L.length + 2 * A.length - L.length) % 2 = 0 := by omega
    have e2 : (L.length + 2 * A.length - L.length) / 2 = A.length := by omega
    have e3 : L.length + 2 * A.length - A.length = L.length + A.length := by omega
    simp only [e1, e2, e3, ne_eq, not_true_eq_false, if_false, Bool.false_eq_true]
    rw [pyRange_one, pyRange_two]
    congr 3
    omega
  · show gather _ _ = _
    rw [hn, moveaxisPerm_zip, hx]
    exact gather_zipPerm L A B T hAB
  · intro l p q t hl hp hq ht
    have hg : gather (moveaxisPerm x.ndim (List.range' (L.length + A.length) A.length)
      (List.range' (L.length + 1) A.length 2)) (l ++ p ++ q ++ t) = l ++ interleave p q ++ t := by
      rw [hn, moveaxisPerm_zip, ← hl, ← hp, ← ht]
      exact gather_zipPerm l p q t (by omega)
    rw [← hg]
    exact transpose_get x hperm (by simp [hn]; omega)

theorem unzipAxes_ok (x : Arr α) (L A B T : List Nat) (hx : x.shape = L ++ interleave A B ++ T)
    (hAB : A.length = B.length) :
    ∃ z, unzipAxes x L.length (some (L.length + 2 * A.length)) = .ok z ∧
      z.shape = L ++ A ++ B ++ T ∧
      ∀ l p q t, l.length = L.length → p.length = A.length → q.length = B.length →
        t.length = T.length → z.get (l ++ p ++ q ++ t) = x.get (l ++ interleave p q ++ t) := by
  have hn : x.ndim = L.length + 2 * A.length + T.length := by
    simp [ndim, hx, interleave_length hAB]; omega
  have hperm : (moveaxisPerm x.ndim (List.range' (L.length + 1) A.length 2)
      (List.range' (L.length + A.length) A.length)).Perm (List.range x.ndim) := by
    apply moveaxis_perm' x (by simp) (nodup_range'_two _ _)
    intro k hk; simp [List.mem_range'] at hk; omega
  refine ⟨x.moveaxis (List.range' (L.length + 1) A.length 2)
      (List.range' (L.length + A.length) A.length), ?_, ?_, ?_⟩
  · unfold unzipAxes zipAxesCore
    simp only [Option.getD_some]
    have e1 : (L.length + 2 * A.length - L.length) % 2 = 0 := by omega
    have e2 : (L.length + 2 * A.length - L.length) / 2 = A.length := by omega
    have e3 : L.length + 2 * A.length - A.length = L.length + A.length := by omega
    simp only [e1, e2, e3, ne_eq, not_true_eq_false, if_false, if_true]
    rw [pyRange_one, pyRange_two]
    congr 3
    omega
  · show gather _ _ = _
    rw [hn, moveaxisPerm_unzip, hx]
    exact gather_unzipPerm L A B T hAB
  · intro l p q t hl hp hq ht
    have hg : gather (moveaxisPerm x.ndim (List.range' (L.length + 1) A.length 2)
      (List.range' (L.length + A.length) A.length)) (l ++ interleave p q ++ t)
        = l ++ p ++ q ++ t := by
      rw [hn, moveaxisPerm_unzip, ← hl, ← hp, ← ht]
      exact gather_unzipPerm l p q t (by omega)
    rw [← hg]
    exact transpose_get x hperm (by simp [hn, interleave_length (show p.length = q.length by omega)]; omega)

theorem zipAxes_none (x : Arr α) (s : Nat) : zipAxes x s none = zipAxes x s (some x.ndim) := rfl
theorem unzipAxes_none (x : Arr α) (s : Nat) : unzipAxes x s none = unzipAxes x s (some x.ndim) := rfl

/-- Splitting a shape at start/end with an even gap. -/
theorem split_shape (sh : List Nat) (s h e : Nat) (he : e = s + 2 * h) (hle : e ≤ sh.length) :
    ∃ L A B T, sh = L ++ A ++ B ++ T ∧ L.length = s ∧ A.length = h ∧ B.length = h := by
  refine ⟨sh.take s, (sh.drop s).take h, (sh.drop (s + h)).take h, sh.drop e, ?_, ?_, ?_, ?_⟩
  · have h1 : sh.drop (s + h) = (sh.drop (s + h)).take h ++ sh.drop e := by
      rw [he, show s + 2 * h = (s + h) + h by ring, ← List.drop_drop (i := h) (j := s + h),
        List.take_append_drop]
    have h2 : sh.drop s = (sh.drop s).take h ++ sh.drop (s + h) := by
      rw [← List.drop_drop, List.take_append_drop]
    calc sh = sh.take s ++ sh.drop s := (List.take_append_drop _ _).symm
      _ = sh.take s ++ ((sh.drop s).take h ++ ((sh.drop (s + h)).take h ++ sh.drop e)) := by
          rw [← h1, ← h2]
      _ = _ := by simp
  · simp; omega
  · simp; omega
  · simp; omega

end NT
