import Verif.Model.Dot
import Verif.Lemmas.Act
import Verif.Tac
import Mathlib.Algebra.BigOperators.Intervals

/-!
# Lemmas about contractions
-/

namespace NT
open Arr
variable {α : Type}

lemma freeAxes_perm (n : ℕ) (l : List ℕ) (hn : l.Nodup) (hl : ∀ k ∈ l, k < n) :
    (freeAxes n l ++ l).Perm (List.range n) := by
  rw [List.perm_ext_iff_of_nodup]
  · intro a
    simp only [freeAxes, List.mem_append, List.mem_filter, List.mem_range, List.contains_eq_mem]
    by_cases h : a ∈ l
    · simp [h, hl a h]
    · simp [h]
  · rw [List.nodup_append]
    refine ⟨List.nodup_range.filter _, hn, ?_⟩
    intro a ha b hb hab
    subst hab
    simp [freeAxes, hb] at ha
  · exact List.nodup_range

lemma freeAxes_perm' (n : ℕ) (b c : List ℕ) (hn : (b ++ c).Nodup) (hl : ∀ k ∈ b ++ c, k < n) :
    (b ++ freeAxes n (b ++ c) ++ c).Perm (List.range n) := by
  refine List.Perm.trans ?_ (freeAxes_perm n (b ++ c) hn hl)
  rw [List.append_assoc]
  refine (List.perm_append_comm).trans ?_
  rw [List.append_assoc]
  exact List.Perm.append_left _ List.perm_append_comm

variable [NonUnitalNonAssocSemiring α]

/-- Entries of a contraction: `ja c`, `jb c` are the indices of `a` and `b` with the given values at batch
and free axes and `c` at the contracted axes. -/
lemma dotGeneral_ok (a b : Arr α) (cA cB bA bB : List ℕ)
    (hA : (bA ++ cA).Nodup ∧ ∀ k ∈ bA ++ cA, k < a.ndim)
    (hB : (bB ++ cB).Nodup ∧ ∀ k ∈ bB ++ cB, k < b.ndim)
    (hc : gather cA a.shape = gather cB b.shape) (hb : gather bA a.shape = gather bB b.shape) :
    ∃ z, dotGeneral a b cA cB bA bB = .ok z ∧
      z.shape = gather bA a.shape ++ gather (freeAxes a.ndim (bA ++ cA)) a.shape ++
        gather (freeAxes b.ndim (bB ++ cB)) b.shape ∧
      ∀ (ib iA iB : List ℕ) (ja jb : List ℕ → List ℕ), ib.length = bA.length →
        iA.length = (freeAxes a.ndim (bA ++ cA)).length →
        (∀ c, c.length = cA.length → (ja c).length = a.ndim ∧ gather bA (ja c) = ib ∧
          gather (freeAxes a.ndim (bA ++ cA)) (ja c) = iA ∧ gather cA (ja c) = c) →
        (∀ c, c.length = cA.length → (jb c).length = b.ndim ∧ gather bB (jb c) = ib ∧
          gather (freeAxes b.ndim (bB ++ cB)) (jb c) = iB ∧ gather cB (jb c) = c) →
        z.get (ib ++ iA ++ iB) = sumOver (gather cA a.shape) fun c => a.get (ja c) * b.get (jb c) := by
  refine ⟨_, by unfold dotGeneral; rw [if_pos ⟨hc, hb⟩], rfl, ?_⟩
  intro ib iA iB ja jb h1 h2 h3 h4
  have pA := freeAxes_perm' a.ndim bA cA hA.1 hA.2
  have pB := freeAxes_perm' b.ndim bB cB hB.1 hB.2
  simp only [sumOver]
  have t1 : (ib ++ iA ++ iB).take bA.length = ib := by
    rw [List.append_assoc, ← h1, List.take_left]
  have t2 : (ib ++ iA ++ iB).drop bA.length = iA ++ iB := by
    rw [List.append_assoc, ← h1, List.drop_left]
  rw [t1, t2, ← h2, List.take_left, List.drop_left]
  congr 1
  refine List.map_congr_left fun c hc' => ?_
  have hcl : c.length = cA.length := by simpa using (mem_indices.1 hc').length
  obtain ⟨a1, a2, a3, a4⟩ := h3 c hcl
  obtain ⟨b1, b2, b3, b4⟩ := h4 c hcl
  have eA : ib ++ iA ++ c = gather (bA ++ freeAxes a.ndim (bA ++ cA) ++ cA) (ja c) := by
    rw [gather_append, gather_append, a2, a3, a4]
  have eB : ib ++ iB ++ c = gather (bB ++ freeAxes b.ndim (bB ++ cB) ++ cB) (jb c) := by
    rw [gather_append, gather_append, b2, b3, b4]
  rw [eA, eB, transpose_get a pA a1, transpose_get b pB b1]

lemma indices_singleton (n : ℕ) : indices [n] = (List.range n).map fun c => [c] := by
  simp [indices, ← List.map_eq_flatMap]

lemma sumOver_singleton (n : ℕ) (f : List ℕ → α) : sumOver [n] f = ((List.range n).map fun c => f [c]).sum := by
  simp [sumOver, indices_singleton, Function.comp_def]

lemma sum_range_list {β : Type} [AddCommMonoid β] (n : ℕ) (f : ℕ → β) :
    ((List.range n).map f).sum = ∑ c ∈ Finset.range n, f c := by
  induction n with
  | zero => simp
  | succ n ih => rw [List.range_succ, List.map_append, List.sum_append, ih, Finset.sum_range_succ]; simp

/-- The batch axis once the channel axis is removed. -/
def newAxis (ba ca : ℕ) : ℕ := if ba > ca then ba - 1 else ba

lemma actIdx_insert {β : Type} (ba ca : ℕ) (b c : β) (p : List β) (hne : ba ≠ ca)
    (hb : ba < p.length + 2) (_hc : ca < p.length + 2) :
    actIdx ba ca b c p = (p.insertIdx (newAxis ba ca) b).insertIdx ca c := by
  unfold actIdx newAxis
  rcases lt_or_gt_of_ne hne with h | h
  · rw [if_pos h, if_neg (by omega)]
  · rw [if_neg (by omega), if_pos h]
    obtain ⟨k, rfl⟩ : ∃ k, ba = k + 1 := ⟨ba - 1, by omega⟩
    rw [show k + 1 - 1 = k by omega, List.insertIdx_comm c b (by omega) (by omega)]

lemma gather_free_one (l : List ℕ) (k c : ℕ) (hk : k ≤ l.length) :
    gather (freeAxes (l.length + 1) [k]) (l.insertIdx k c) = l ∧
      gather [k] (l.insertIdx k c) = [c] := by
  have hr : List.range (l.length + 1) = List.range' 0 k ++ (k :: List.range' (k + 1) (l.length - k)) := by
    rw [List.range_eq_range', show l.length + 1 = k + (1 + (l.length - k)) by omega,
      ← List.range'_append_1, ← List.range'_append_1]
    simp
  have hf : freeAxes (l.length + 1) [k] = List.range' 0 k ++ List.range' (k + 1) (l.length - k) := by
    unfold freeAxes
    rw [hr, List.filter_append, List.filter_cons]
    rw [filter_range'_out 0 k [k] (by simp), filter_range'_out (k + 1) _ [k] (by simp)]
    simp
  rw [insertIdx_app l k c hk]
  have hu : (l.take k).length = k := by simp; omega
  constructor
  · rw [hf, gather_append]
    rw [gather_range' [] (l.take k) (c :: l.drop k) 0 k (by simp) rfl hu.symm]
    rw [gather_range' (l.take k ++ [c]) (l.drop k) [] (k + 1) (l.length - k) (by simp) (by simp; omega)
      (by simp)]
    simp
  · have := getD_append_len (l.take k) (c :: l.drop k) 0 0
    rw [hu] at this
    simpa [gather] using this

/-- Moving two axes to the front. -/
lemma moveaxis_front2 {β : Type} (a : Arr β) (x y n m : ℕ) (S : List ℕ) (hne : x ≠ y)
    (hx : x < S.length + 2) (hy : y < S.length + 2) (ha : a.shape = actIdx x y n m S) :
    (a.moveaxis [x, y] [0, 1]).shape = n :: m :: S ∧
      ∀ i j p, p.length = S.length → (a.moveaxis [x, y] [0, 1]).get (i :: j :: p) = a.get (actIdx x y i j p) := by
  have hnd : a.ndim = S.length + 2 := by
    unfold ndim; rw [ha, actIdx_length x y n m S hne hx hy]
  have hperm := moveaxis_perm' a (src := [x, y]) (dst := [0, 1]) rfl (by simp [hne])
    (by simp; omega)
  have hP : moveaxisPerm a.ndim [x, y] [0, 1] = x :: y :: restAxes (S.length + 2) x y := by
    rw [hnd]
    unfold moveaxisPerm
    rw [mergeSort_zip_of_sorted (by simp)]
    simp only [List.zip_cons_cons, List.zip_nil_left, List.foldl_cons, List.foldl_nil]
    change pyInsert (pyInsert (restAxes (S.length + 2) x y) 0 x) 1 y = _
    simp [pyInsert]
  have hg : ∀ i k p, p.length = S.length →
      gather (x :: y :: restAxes (S.length + 2) x y) (actIdx x y i k p) = i :: k :: p := by
    intro i k p hp
    obtain ⟨g1, g2, g3⟩ := gather_act x y i k p hne (by omega) (by omega)
    rw [hp] at g1
    have e : ∀ l z, gather (x :: y :: l) z = z.getD x 0 :: z.getD y 0 :: gather l z := by
      intro l z; simp [gather]
    rw [e, g1, g2, g3]
  constructor
  · show gather _ a.shape = _
    rw [hP, ha]
    exact hg n m S rfl
  · intro i j p hp
    rw [← hg i j p hp]
    unfold moveaxis
    rw [← hP]
    exact transpose_get a hperm (by rw [actIdx_length x y i j p hne (by omega) (by omega), hp, hnd])

/-- Moving one axis to the front. -/
lemma moveaxis_front {β : Type} (a : Arr β) (x n : ℕ) (S : List ℕ) (hx : x ≤ S.length)
    (ha : a.shape = S.insertIdx x n) :
    (a.moveaxis [x] [0]).shape = n :: S ∧
      ∀ i p, p.length = S.length → (a.moveaxis [x] [0]).get (i :: p) = a.get (p.insertIdx x i) := by
  have hnd : a.ndim = S.length + 1 := by
    unfold ndim; rw [ha, List.length_insertIdx, if_pos hx]
  have hperm := moveaxis_perm' a (src := [x]) (dst := [0]) rfl (by simp) (by simp; omega)
  have hP : moveaxisPerm a.ndim [x] [0] = x :: freeAxes (S.length + 1) [x] := by
    rw [hnd]
    unfold moveaxisPerm
    rw [mergeSort_zip_of_sorted (by simp)]
    simp only [List.zip_cons_cons, List.zip_nil_left, List.foldl_cons, List.foldl_nil]
    change pyInsert (freeAxes (S.length + 1) [x]) 0 x = _
    simp [pyInsert]
  have hg : ∀ i p, p.length = S.length →
      gather (x :: freeAxes (S.length + 1) [x]) (p.insertIdx x i) = i :: p := by
    intro i p hp
    obtain ⟨g1, g2⟩ := gather_free_one p x i (by omega)
    rw [hp] at g1
    have e : ∀ l z, gather (x :: l) z = gather [x] z ++ gather l z := by
      intro l z; simp [gather]
    rw [e, g1, g2]
    rfl
  constructor
  · show gather _ a.shape = _
    rw [hP, ha]
    exact hg n S rfl
  · intro i p hp
    rw [← hg i p hp]
    unfold moveaxis
    rw [← hP]
    refine transpose_get a hperm ?_
    rw [List.length_insertIdx, if_pos (by omega), hp, hnd]

end NT
