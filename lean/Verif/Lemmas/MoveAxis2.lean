import Verif.Lemmas.MoveAxis
import Verif.Tac
import Mathlib.Data.List.GetD

/-!
# `moveaxis` in general
-/

namespace NT.Arr
open NT

variable {α : Type}

/-- The order of axes after `moveaxis`: `i` and `j` agree at the moved axes and at the others. -/
lemma gather_moveaxisPerm {n : ℕ} {src dst i j : List ℕ} (hl : dst.length = src.length) (hdn : dst.Nodup) (hd : ∀ k ∈ dst, k < n)
    (hj : j.length = n) (h1 : gather src i = gather dst j) (h2 : gather (freeAxes n src) i = gather (freeAxes n dst) j) :
    gather (moveaxisPerm n src dst) i = j := by
  unfold moveaxisPerm
  set L := (dst.zip src).mergeSort pairLe with hL
  have hperm : L.Perm (dst.zip src) := List.mergeSort_perm _ _
  change List.map _ (List.foldl _ _ _) = _
  rw [map_foldl_insert]
  have hfst : (L.map Prod.fst).Perm dst := by
    refine (hperm.map _).trans ?_
    rw [List.map_fst_zip (by simp [hl])]
  have hval : ∀ p ∈ L, i.getD p.2 0 = j.getD p.1 0 := by
    intro p hp
    obtain ⟨k, hk, he⟩ := List.mem_iff_getElem.1 (hperm.mem_iff.1 hp)
    simp only [List.length_zip, hl, min_self] at hk
    have := congrArg (fun l => l.getD k 0) h1
    rw [gather_getD _ _ _ hk, gather_getD _ _ _ (by omega)] at this
    rw [← he]
    simpa using this
  have hmap : (L.map fun p => (p.1, i.getD p.2 0)) = ((L.map Prod.fst).map fun d => (d, d)).map fun p => (p.1, j.getD p.2 0) := by
    rw [List.map_map, List.map_map]
    refine List.map_congr_left fun p hp => ?_
    simp only [Function.comp]
    rw [hval p hp]
  have hstart : ((List.range n).filter fun k => !(src.contains k)).map (fun k => i.getD k 0) =
      ((List.range n).filter fun k => k ∉ L.map Prod.fst).map fun k => j.getD k 0 := by
    have e : (List.range n).filter (fun k => decide (k ∉ L.map Prod.fst)) = freeAxes n dst := by
      rw [freeAxes_eq]
      refine List.filter_congr fun k _ => ?_
      rw [decide_eq_decide, hfst.mem_iff]
    rw [e]
    exact h2
  rw [hmap, hstart, ← map_foldl_insert, List.foldl_map, foldl_insert_sorted]
  · exact gather_range_self j n hj
  · have hsorted : L.Pairwise (fun a b => pairLe a b = true) := List.pairwise_mergeSort pairLe_trans pairLe_total _
    have hle : (L.map Prod.fst).Pairwise (· ≤ ·) := by
      rw [List.pairwise_map]
      refine hsorted.imp ?_
      intro a b h
      simp only [pairLe, Bool.or_eq_true, decide_eq_true_eq, Bool.and_eq_true, beq_iff_eq] at h
      omega
    exact (hle.and (hfst.nodup_iff.2 hdn)).imp fun ⟨h1, h2⟩ => lt_of_le_of_ne h1 h2
  · exact fun k hk => hd k (hfst.mem_iff.1 hk)

/-- The entries of the result of `moveaxis`. -/
lemma moveaxis_read (a : Arr α) {src dst : List ℕ} (hl : dst.length = src.length) (hsn : src.Nodup) (hs : ∀ k ∈ src, k < a.ndim)
    (hdn : dst.Nodup) (hd : ∀ k ∈ dst, k < a.ndim) {i j : List ℕ} (hi : i.length = a.ndim) (hj : j.length = a.ndim)
    (h1 : gather src i = gather dst j) (h2 : gather (freeAxes a.ndim src) i = gather (freeAxes a.ndim dst) j) :
    (a.moveaxis src dst).get j = a.get i := by
  have hp : (moveaxisPerm a.ndim src dst).Perm (List.range a.ndim) := moveaxisPerm_perm _ _ _ hl hsn hs
  have := gather_moveaxisPerm hl hdn hd hj h1 h2
  rw [← this]
  exact transpose_get a hp hi

lemma moveaxis_shape_eq (a : Arr α) {src dst s : List ℕ} (hl : dst.length = src.length)
    (hdn : dst.Nodup) (hd : ∀ k ∈ dst, k < a.ndim) (hj : s.length = a.ndim)
    (h1 : gather src a.shape = gather dst s) (h2 : gather (freeAxes a.ndim src) a.shape = gather (freeAxes a.ndim dst) s) :
    (a.moveaxis src dst).shape = s := gather_moveaxisPerm hl hdn hd hj h1 h2

end NT.Arr

namespace NT.Arr
open NT

variable {α : Type}

/-- Axis `dst k` of the index `gather P x` is axis `src k` of `x`, and the other axes come in order. -/
structure Moves (n : ℕ) (P src dst : List ℕ) : Prop where
  perm : P.Perm (List.range n)
  nodup : dst.Nodup
  lt : ∀ k ∈ dst, k < n
  moved : gather dst P = src
  rest : gather (freeAxes n dst) P = freeAxes n src

lemma freeAxes_sorted (n : ℕ) (l : List ℕ) : (freeAxes n l).Pairwise (· < ·) := by
  unfold freeAxes
  exact List.Pairwise.filter _ List.pairwise_lt_range

lemma mem_freeAxes {n k : ℕ} {l : List ℕ} : k ∈ freeAxes n l ↔ k < n ∧ k ∉ l := by simp [freeAxes]

lemma gather_nodup {l P : List ℕ} (hP : P.Nodup) (hl : l.Nodup) (h : ∀ k ∈ l, k < P.length) : (gather l P).Nodup := by
  unfold gather
  refine List.Nodup.map_on ?_ hl
  intro x hx y hy e
  rw [List.getD_eq_getElem _ _ (h x hx), List.getD_eq_getElem _ _ (h y hy)] at e
  exact (List.Nodup.getElem_inj_iff hP).1 e

lemma gather_perm_right {n : ℕ} {l P : List ℕ} (hl : l.Perm (List.range n)) (hP : P.Perm (List.range n)) : (gather l P).Perm (List.range n) := by
  refine (hl.map _).trans ?_
  have := gather_range_self P n (by simpa using hP.length_eq)
  unfold gather at this
  rw [this]
  exact hP

/-- The other axes come in order as soon as they are increasing. -/
lemma Moves.of_sorted {n : ℕ} {P src dst : List ℕ} (hP : P.Perm (List.range n)) (hn : dst.Nodup) (hl : ∀ k ∈ dst, k < n)
    (hm : gather dst P = src) (hs : (gather (freeAxes n dst) P).Pairwise (· < ·)) : Moves n P src dst := by
  refine ⟨hP, hn, hl, hm, ?_⟩
  have hPl : P.length = n := by simpa using hP.length_eq
  have h1 : (gather (freeAxes n dst ++ dst) P).Perm (List.range n) := gather_perm_right (freeAxes_perm n dst hn hl) hP
  rw [gather_append, hm] at h1
  have hsn : src.Nodup := hm ▸ gather_nodup (hP.nodup_iff.2 List.nodup_range) hn fun k hk => hPl ▸ hl k hk
  have hsl : ∀ k ∈ src, k < n := fun k hk => List.mem_range.1 (h1.mem_iff.1 (by simp [hk]))
  have h2 := (freeAxes_perm n src hsn hsl).symm
  have h3 := (List.perm_append_right_iff src).1 (h1.trans h2)
  exact List.Perm.eq_of_pairwise (fun a b _ _ h1 h2 => absurd h1 (by omega)) hs (freeAxes_sorted n src) h3

lemma middle_sorted {n : ℕ} {A M C dst : List ℕ} (hM : M.Pairwise (· < ·)) (hn : A.length + M.length + C.length = n)
    (hA : ∀ k < A.length, k ∈ dst) (hC : ∀ k < C.length, A.length + M.length + k ∈ dst) :
    (gather (freeAxes n dst) (A ++ M ++ C)).Pairwise (· < ·) := by
  unfold gather
  rw [List.pairwise_map]
  refine (freeAxes_sorted n dst).imp_of_mem ?_
  intro a b ha hb hab
  have key : ∀ x ∈ freeAxes n dst, ∃ y, y < M.length ∧ x = A.length + y := by
    intro x hx
    obtain ⟨h1, h2⟩ := mem_freeAxes.1 hx
    have h3 : A.length ≤ x := by
      by_contra h
      exact h2 (hA x (by omega))
    refine ⟨x - A.length, ?_, by omega⟩
    by_contra h
    refine h2 ?_
    have := hC (x - A.length - M.length) (by omega)
    have e : A.length + M.length + (x - A.length - M.length) = x := by omega
    rwa [e] at this
  obtain ⟨a', ha', rfl⟩ := key a ha
  obtain ⟨b', hb', rfl⟩ := key b hb
  have e : ∀ y < M.length, (A ++ M ++ C).getD (A.length + y) 0 = M.getD y 0 := by
    intro y hy
    rw [List.append_assoc, getD_append_len, List.getD_append _ _ _ _ hy]
  rw [e a' ha', e b' hb', List.getD_eq_getElem _ _ ha', List.getD_eq_getElem _ _ hb']
  exact List.pairwise_iff_getElem.1 hM a' b' ha' hb' (by omega)

variable {n : ℕ} {P src dst : List ℕ}

lemma Moves.lengthP (h : Moves n P src dst) : P.length = n := by simpa using h.perm.length_eq

lemma Moves.len (h : Moves n P src dst) : src.length = dst.length := by rw [← h.moved]; simp

lemma Moves.srcNodup (h : Moves n P src dst) : src.Nodup :=
  h.moved ▸ gather_nodup (h.perm.nodup_iff.2 List.nodup_range) h.nodup fun k hk => h.lengthP ▸ h.lt k hk

lemma Moves.srcLt (h : Moves n P src dst) : ∀ k ∈ src, k < n := by
  intro k hk
  rw [← h.moved] at hk
  obtain ⟨x, hx, rfl⟩ := List.mem_map.1 hk
  have hx' := h.lengthP ▸ h.lt x hx
  rw [List.getD_eq_getElem _ _ hx']
  exact List.mem_range.1 (h.perm.mem_iff.1 (List.getElem_mem hx'))

lemma Moves.eq1 (h : Moves n P src dst) (x : List ℕ) : gather dst (gather P x) = gather src x := by
  rw [gather_gather _ _ _ fun k hk => h.lengthP ▸ h.lt k hk, h.moved]

lemma Moves.eq2 (h : Moves n P src dst) (x : List ℕ) : gather (freeAxes n dst) (gather P x) = gather (freeAxes n src) x := by
  rw [gather_gather _ _ _ fun k hk => h.lengthP ▸ (mem_freeAxes.1 hk).1, h.rest]

lemma Moves.forth (h : Moves n P src dst) (a : Arr α) (ha : a.ndim = n) :
    (a.moveaxis src dst).shape = gather P a.shape ∧ ∀ x, x.length = n → (a.moveaxis src dst).get (gather P x) = a.get x := by
  subst ha
  refine ⟨moveaxis_shape_eq a h.len.symm h.nodup h.lt (by simp [h.lengthP]) (h.eq1 _).symm (h.eq2 _).symm, fun x hx => ?_⟩
  exact moveaxis_read a h.len.symm h.srcNodup h.srcLt h.nodup h.lt hx (by simp [h.lengthP]) (h.eq1 x).symm (h.eq2 x).symm

lemma Moves.back (h : Moves n P src dst) (a : Arr α) (ha : a.ndim = n) :
    (∀ s, s.length = n → a.shape = gather P s → (a.moveaxis dst src).shape = s) ∧
      ∀ x, x.length = n → (a.moveaxis dst src).get x = a.get (gather P x) := by
  subst ha
  refine ⟨fun s hs e => ?_, fun x hx => ?_⟩
  · refine moveaxis_shape_eq a h.len h.srcNodup h.srcLt hs ?_ ?_
    · rw [e, h.eq1]
    · rw [e, h.eq2]
  · exact moveaxis_read a h.len h.nodup h.lt h.srcNodup h.srcLt (by simp [h.lengthP]) hx (h.eq1 x) (h.eq2 x)

end NT.Arr
