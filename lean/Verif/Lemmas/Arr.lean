import Verif.Model.Arr
import Mathlib.Tactic.Ring
import Mathlib.Tactic.Linarith
import Mathlib.Data.List.Nodup
import Mathlib.Data.List.Perm.Basic
import Mathlib.Data.Nat.ModEq
import Mathlib.Algebra.Order.BigOperators.Group.List

/-! Auxiliary lemmas on arrays (not property theorems). -/

namespace NT

theorem InRange.length {i s : List Nat} (h : InRange i s) : i.length = s.length :=
  List.Forall₂.length_eq h

@[simp] theorem inRange_nil : InRange [] [] := List.Forall₂.nil

@[simp] theorem inRange_cons {a n : Nat} {i s : List Nat} :
    InRange (a :: i) (n :: s) ↔ a < n ∧ InRange i s := by
  simp [InRange]

theorem inRange_cons_right {n : Nat} {j s : List Nat} :
    InRange j (n :: s) ↔ ∃ a i, j = a :: i ∧ a < n ∧ InRange i s := by
  cases j with
  | nil => simp [InRange]
  | cons a i => simp

@[simp] theorem inRange_nil_right {j : List Nat} : InRange j [] ↔ j = [] := by
  simp [InRange]

theorem inRange_iff {i s : List Nat} :
    InRange i s ↔ i.length = s.length ∧ ∀ k, k < s.length → i.getD k 0 < s.getD k 0 := by
  induction s generalizing i with
  | nil => cases i <;> simp [InRange]
  | cons n s ih =>
    cases i with
    | nil => simp [InRange]
    | cons a i =>
      rw [inRange_cons, ih]
      constructor
      · rintro ⟨h1, h2, h3⟩
        refine ⟨by simp [h2], ?_⟩
        intro k hk
        cases k with
        | zero => simpa using h1
        | succ k => simpa using h3 k (by simpa using hk)
      · rintro ⟨h2, h3⟩
        refine ⟨by simpa using h3 0 (by simp), by simpa using h2, ?_⟩
        intro k hk
        simpa using h3 (k+1) (by simpa using hk)

theorem inRange_append {i i' s s' : List Nat} (h : i.length = s.length) :
    InRange (i ++ i') (s ++ s') ↔ InRange i s ∧ InRange i' s' := by
  induction s generalizing i with
  | nil => cases i with
    | nil => simp
    | cons a i => simp at h
  | cons n s ih =>
    cases i with
    | nil => simp at h
    | cons a i =>
      simp only [List.cons_append, inRange_cons]
      rw [ih (by simpa using h)]
      exact and_assoc.symm

theorem inRange_append_right {j s s' : List Nat} (h : InRange j (s ++ s')) :
    ∃ i i', j = i ++ i' ∧ InRange i s ∧ InRange i' s' := by
  have hl := h.length
  refine ⟨j.take s.length, j.drop s.length, (List.take_append_drop _ _).symm, ?_⟩
  have hlen : (j.take s.length).length = s.length := by
    simp at hl ⊢; omega
  rw [← inRange_append hlen, List.take_append_drop]
  exact h

namespace Arr
variable {α β γ : Type*}
open scoped NT.Arr

theorem Eqv.refl (a : Arr α) : a ≋ a := ⟨rfl, fun _ _ => rfl⟩
theorem Eqv.symm {a b : Arr α} (h : a ≋ b) : b ≋ a :=
  ⟨h.1.symm, fun i hi => (h.2 i (h.1 ▸ hi)).symm⟩
theorem Eqv.trans {a b c : Arr α} (h : a ≋ b) (h' : b ≋ c) : a ≋ c :=
  ⟨h.1.trans h'.1, fun i hi => (h.2 i hi).trans (h'.2 i (h.1 ▸ hi))⟩

@[simp] theorem gather_length (p x : List Nat) : (gather p x).length = p.length := by
  simp [gather]

@[simp] theorem scatter_length (p : List Nat) (n : Nat) (x : List Nat) :
    (scatter p n x).length = n := by
  simp [scatter]

theorem gather_append (p q x : List Nat) : gather (p ++ q) x = gather p x ++ gather q x := by
  simp [gather]

theorem getD_map_range (f : Nat → Nat) (n k : Nat) (h : k < n) :
    ((List.range n).map f).getD k 0 = f k := by
  simp [List.getD, h]

theorem scatter_getD (p : List Nat) (n : Nat) (x : List Nat) (k : Nat) (h : k < n) :
    (scatter p n x).getD k 0 = x.getD (p.idxOf k) 0 := getD_map_range _ _ _ h

theorem gather_getD (p x : List Nat) (k : Nat) (h : k < p.length) :
    (gather p x).getD k 0 = x.getD p[k] 0 := by
  simp [gather, List.getD, h]

theorem ext_getD {x y : List Nat} (hl : x.length = y.length)
    (h : ∀ k, k < x.length → x.getD k 0 = y.getD k 0) : x = y := by
  apply List.ext_getElem hl
  intro k hk hk'
  have := h k hk
  simpa [List.getD, hk, hk'] using this

theorem scatter_gather {p : List Nat} {n : Nat} (hp : p.Perm (List.range n)) {j : List Nat}
    (hj : j.length = n) : scatter p n (gather p j) = j := by
  apply ext_getD
  · simp [hj]
  · intro k hk
    simp at hk
    have hmem : k ∈ p := hp.mem_iff.2 (List.mem_range.2 hk)
    have hlt : p.idxOf k < p.length := List.idxOf_lt_length_iff.2 hmem
    rw [scatter_getD _ _ _ _ hk, gather_getD _ _ _ hlt, List.getElem_idxOf]

theorem gather_scatter {p : List Nat} {n : Nat} (hp : p.Perm (List.range n)) {i : List Nat}
    (hi : i.length = n) : gather p (scatter p n i) = i := by
  have hl : p.length = n := by simpa using hp.length_eq
  apply ext_getD
  · simp [hl, hi]
  · intro k hk
    simp at hk
    have hnd : p.Nodup := hp.nodup_iff.2 List.nodup_range
    have hmem : p[k] < n := List.mem_range.1 (hp.mem_iff.1 (List.getElem_mem hk))
    rw [gather_getD _ _ _ hk, scatter_getD _ _ _ _ hmem, hnd.idxOf_getElem]

theorem inRange_gather {p : List Nat} {n : Nat} (hp : p.Perm (List.range n)) {j s : List Nat}
    (hj : j.length = n) (hs : s.length = n) :
    InRange (gather p j) (gather p s) ↔ InRange j s := by
  have hl : p.length = n := by simpa using hp.length_eq
  rw [inRange_iff, inRange_iff]
  constructor
  · rintro ⟨_, h⟩
    refine ⟨by omega, fun k hk => ?_⟩
    have hmem : k ∈ p := hp.mem_iff.2 (List.mem_range.2 (by omega))
    have hlt : p.idxOf k < p.length := List.idxOf_lt_length_iff.2 hmem
    have := h (p.idxOf k) (by simpa using hlt)
    rwa [gather_getD _ _ _ hlt, gather_getD _ _ _ hlt, List.getElem_idxOf] at this
  · rintro ⟨_, h⟩
    refine ⟨by simp, fun k hk => ?_⟩
    simp at hk
    have hmem : p[k] < n := List.mem_range.1 (hp.mem_iff.1 (List.getElem_mem hk))
    rw [gather_getD _ _ _ hk, gather_getD _ _ _ hk]
    exact h _ (by omega)

/-- The defining property of `transpose`: the output at the permuted index is the input. -/
theorem transpose_get (a : Arr α) {p : List Nat} (hp : p.Perm (List.range a.ndim)) {j : List Nat}
    (hj : j.length = a.ndim) : (a.transpose p).get (gather p j) = a.get j := by
  show a.get _ = _
  rw [scatter_gather hp hj]

theorem inRange_transpose (a : Arr α) {p : List Nat} (hp : p.Perm (List.range a.ndim))
    {i : List Nat} (hi : InRange i (a.transpose p).shape) :
    ∃ j, i = gather p j ∧ InRange j a.shape := by
  have hl : p.length = a.ndim := by simpa using hp.length_eq
  have hil : i.length = a.ndim := by
    rw [hi.length]; simp [transpose, hl]
  refine ⟨scatter p a.ndim i, (gather_scatter hp hil).symm, ?_⟩
  rw [← inRange_gather hp (by simp) rfl, gather_scatter hp hil]
  exact hi

/-! ### ravel / unravel -/

theorem ravel_lt {s i : List Nat} (h : InRange i s) : ravel s i < s.prod := by
  induction s generalizing i with
  | nil => simp at h; subst h; simp [ravel]
  | cons n s ih =>
    obtain ⟨a, i, rfl, ha, hi⟩ := inRange_cons_right.1 h
    simp only [ravel, List.prod_cons]
    have := ih hi
    calc a * s.prod + ravel s i < a * s.prod + s.prod := by omega
      _ = (a + 1) * s.prod := by ring
      _ ≤ n * s.prod := Nat.mul_le_mul_right _ ha

theorem unravel_ravel {s i : List Nat} (h : InRange i s) : unravel s (ravel s i) = i := by
  induction s generalizing i with
  | nil => simp at h; subst h; rfl
  | cons n s ih =>
    obtain ⟨a, i, rfl, ha, hi⟩ := inRange_cons_right.1 h
    have hlt := ravel_lt hi
    have hpos : 0 < s.prod := by omega
    simp only [ravel, unravel]
    rw [Nat.mul_comm, Nat.mul_add_div hpos, Nat.div_eq_of_lt hlt, Nat.mul_add_mod,
      Nat.mod_eq_of_lt hlt, ih hi]
    simp

theorem ravel_unravel {s : List Nat} {k : Nat} (h : k < s.prod) : ravel s (unravel s k) = k := by
  induction s generalizing k with
  | nil => simp at h; subst h; rfl
  | cons n s ih =>
    simp only [ravel, unravel]
    have hpos : 0 < s.prod := by
      rcases Nat.eq_zero_or_pos s.prod with h0 | h0
      · simp [h0] at h
      · exact h0
    rw [ih (Nat.mod_lt _ hpos)]
    rw [Nat.mul_comm]; exact Nat.div_add_mod k s.prod

theorem inRange_unravel {s : List Nat} {k : Nat} (h : k < s.prod) : InRange (unravel s k) s := by
  induction s generalizing k with
  | nil => simp [unravel]
  | cons n s ih =>
    have hpos : 0 < s.prod := by
      rcases Nat.eq_zero_or_pos s.prod with h0 | h0
      · simp [h0] at h
      · exact h0
    simp only [unravel, inRange_cons]
    exact ⟨Nat.div_lt_of_lt_mul (by simpa [Nat.mul_comm] using h), ih (Nat.mod_lt _ hpos)⟩

theorem ravel_inj {s i j : List Nat} (hi : InRange i s) (hj : InRange j s)
    (h : ravel s i = ravel s j) : i = j := by
  rw [← unravel_ravel hi, h, unravel_ravel hj]

theorem ravel_append {s s' i i' : List Nat} (h : i.length = s.length) :
    ravel (s ++ s') (i ++ i') = ravel s i * s'.prod + ravel s' i' := by
  induction s generalizing i with
  | nil =>
    cases i with
    | nil => simp [ravel]
    | cons a i => simp at h
  | cons n s ih =>
    cases i with
    | nil => simp at h
    | cons a i =>
      simp only [List.cons_append, ravel, List.prod_append]
      rw [ih (by simpa using h)]
      ring

/-- `reshape` only depends on row-major position: same position, same value. -/
theorem reshape_get (a : Arr α) (s : List Nat) {i j : List Nat}
    (hj : InRange j a.shape) (h : ravel s i = ravel a.shape j) :
    (a.reshape s).get i = a.get j := by
  show a.get _ = _
  rw [h, unravel_ravel hj]

theorem reshape_reshape_eqv (a : Arr α) (s : List Nat) (hs : s.prod = a.shape.prod) :
    (a.reshape s).reshape a.shape ≋ a := by
  refine ⟨rfl, fun i hi => ?_⟩
  have hi' : InRange i a.shape := hi
  have hlt : ravel a.shape i < s.prod := by rw [hs]; exact ravel_lt hi'
  rw [reshape_get (a.reshape s) a.shape (j := unravel s (ravel a.shape i)) (inRange_unravel hlt)]
  · exact reshape_get a s hi' (ravel_unravel hlt)
  · exact (ravel_unravel hlt).symm

theorem mem_indices {s i : List Nat} : i ∈ indices s ↔ InRange i s := by
  induction s generalizing i with
  | nil => simp [indices]
  | cons n s ih =>
    simp only [indices, List.mem_flatMap, List.mem_range, List.mem_map, inRange_cons_right]
    constructor
    · rintro ⟨a, ha, j, hj, rfl⟩; exact ⟨a, j, rfl, ha, ih.1 hj⟩
    · rintro ⟨a, j, rfl, ha, hj⟩; exact ⟨a, ha, j, ih.2 hj, rfl⟩

theorem nodup_indices (s : List Nat) : (indices s).Nodup := by
  induction s with
  | nil => simp [indices]
  | cons n s ih =>
    simp only [indices]
    rw [List.nodup_flatMap]
    refine ⟨fun k _ => ih.map (by intro a b h; simpa using h), ?_⟩
    refine List.Nodup.pairwise_of_forall_ne List.nodup_range ?_
    intro a _ b _ hab
    simp only [Function.onFun, List.disjoint_left, List.mem_map]
    rintro x ⟨y, _, rfl⟩ ⟨z, _, h⟩
    simp at h; exact hab h.1.symm

/-- Decidable equality check for arrays on their index set. -/
theorem eqv_iff_indices (a b : Arr α) :
    a ≋ b ↔ a.shape = b.shape ∧ ∀ i ∈ indices a.shape, a.get i = b.get i := by
  simp [Eqv, mem_indices]

instance [DecidableEq α] (a b : Arr α) : Decidable (a ≋ b) :=
  decidable_of_iff _ (eqv_iff_indices a b).symm

/-! ### moveaxis -/

@[simp] theorem pyInsert_append {β : Type*} (pre post : List β) (x : β) :
    pyInsert (pre ++ post) pre.length x = pre ++ x :: post := by
  simp [pyInsert]

theorem pyInsert_append' {β : Type*} (pre post : List β) (x : β) (k : Nat) (h : k = pre.length) :
    pyInsert (pre ++ post) k x = pre ++ x :: post := by
  subst h; simp

theorem pyInsert_perm {β : Type*} (l : List β) (k : Nat) (x : β) :
    (pyInsert l k x).Perm (x :: l) := by
  unfold pyInsert
  refine List.perm_middle.trans ?_
  rw [List.take_append_drop]

theorem foldl_pyInsert_perm (l : List (Nat × Nat)) (acc : List Nat) :
    (l.foldl (fun acc p => pyInsert acc p.1 p.2) acc).Perm (l.map Prod.snd ++ acc) := by
  induction l generalizing acc with
  | nil => simp
  | cons p l ih =>
    simp only [List.foldl_cons, List.map_cons, List.cons_append]
    refine (ih _).trans ?_
    refine (List.Perm.append_left _ (pyInsert_perm acc p.1 p.2)).trans ?_
    exact List.perm_middle

theorem moveaxisPerm_perm (n : Nat) (src dst : List Nat) (hlen : dst.length = src.length)
    (hnd : src.Nodup) (hlt : ∀ k ∈ src, k < n) :
    (moveaxisPerm n src dst).Perm (List.range n) := by
  unfold moveaxisPerm
  refine (foldl_pyInsert_perm _ _).trans ?_
  have h1 : ((dst.zip src).mergeSort pairLe).map Prod.snd |>.Perm src := by
    refine ((List.mergeSort_perm _ _).map _).trans ?_
    rw [List.map_snd_zip (by omega)]
  refine (h1.append_right _).trans ?_
  rw [List.perm_ext_iff_of_nodup]
  · intro a
    simp only [List.mem_append, List.mem_filter, List.mem_range]
    constructor
    · rintro (h | h)
      · exact hlt a h
      · exact h.1
    · intro h
      by_cases ha : a ∈ src
      · exact Or.inl ha
      · exact Or.inr ⟨h, by simpa using ha⟩
  · rw [List.nodup_append]
    refine ⟨hnd, List.nodup_range.filter _, ?_⟩
    intro a ha b hb hab
    subst hab
    simp at hb
    exact hb.2 ha
  · exact List.nodup_range

/-- With increasing destinations the sort in `moveaxis` does nothing. -/
theorem mergeSort_zip_of_sorted {src dst : List Nat} (h : dst.Pairwise (· < ·)) :
    (dst.zip src).mergeSort pairLe = dst.zip src := by
  apply List.mergeSort_of_pairwise
  have : ((dst.zip src).map Prod.fst).Pairwise (· < ·) := by
    refine h.sublist ?_
    clear h
    induction dst generalizing src with
    | nil => simp
    | cons d dst ih =>
      cases src with
      | nil => simp
      | cons x src => simpa using ih
  rw [List.pairwise_map] at this
  exact this.imp fun {a b} hab => by simp [pairLe, hab]

end Arr
end NT
