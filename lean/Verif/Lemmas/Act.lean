import Verif.Lemmas.Axes2
import Verif.Lemmas.Layout
import Verif.Spec.Act
import Verif.Tac

/-!
Lemmas about activation indices (`actIdx`) and moving batch and channel axes.
-/

namespace NT
open Arr

variable {α : Type}

/-- The axes other than `ba`, `ca`. -/
def restAxes (n ba ca : Nat) : List Nat := (List.range n).filter fun k => !([ba, ca].contains k)

lemma insertIdx_app {β : Type} (p : List β) (k : Nat) (x : β) (h : k ≤ p.length) :
    p.insertIdx k x = p.take k ++ x :: p.drop k := by
  induction p generalizing k with
  | nil => simp at h; subst h; rfl
  | cons a p ih =>
    cases k with
    | zero => rfl
    | succ k => simp [ih k (by simpa using h)]

/-- An activation index in three parts. -/
lemma actIdx_split {β : Type} (ba ca : Nat) (hne : ba ≠ ca) (m : Nat) (hb : ba < m + 2) (hc : ca < m + 2) :
    ∃ u v, u + v ≤ m ∧ ((ba = u ∧ ca = u + 1 + v ∧ ∀ (b c : β) p, p.length = m →
        actIdx ba ca b c p = p.take u ++ b :: ((p.drop u).take v ++ c :: (p.drop u).drop v)) ∨
      (ca = u ∧ ba = u + 1 + v ∧ ∀ (b c : β) p, p.length = m →
        actIdx ba ca b c p = p.take u ++ c :: ((p.drop u).take v ++ b :: (p.drop u).drop v))) := by
  have key : ∀ u v x y (p : List β), u + v ≤ p.length → (p.insertIdx u x).insertIdx (u + 1 + v) y =
      p.take u ++ x :: ((p.drop u).take v ++ y :: (p.drop u).drop v) := by
    intro u v x y p h
    have hu : (p.take u).length = u := by simp; omega
    rw [insertIdx_app p u x (by omega), insertIdx_app _ _ y (by simp; omega)]
    have e1 : (p.take u ++ x :: p.drop u).take (u + 1 + v) = p.take u ++ x :: (p.drop u).take v := by
      conv_lhs => rw [show u + 1 + v = (p.take u).length + (v + 1) by omega]
      rw [List.take_length_add_append]
      rfl
    have e2 : (p.take u ++ x :: p.drop u).drop (u + 1 + v) = (p.drop u).drop v := by
      conv_lhs => rw [show u + 1 + v = (p.take u).length + (v + 1) by omega]
      rw [List.drop_length_add_append]
      rfl
    rw [e1, e2]
    simp
  rcases lt_or_gt_of_ne hne with h | h
  · refine ⟨ba, ca - ba - 1, by omega, .inl ⟨rfl, by omega, fun b c p hp => ?_⟩⟩
    unfold actIdx
    rw [if_pos h]
    have := key ba (ca - ba - 1) b c p (by omega)
    rwa [show ba + 1 + (ca - ba - 1) = ca by omega] at this
  · refine ⟨ca, ba - ca - 1, by omega, .inr ⟨rfl, by omega, fun b c p hp => ?_⟩⟩
    unfold actIdx
    rw [if_neg (by omega)]
    have := key ca (ba - ca - 1) c b p (by omega)
    rwa [show ca + 1 + (ba - ca - 1) = ba by omega] at this

lemma actIdx_length {β : Type} (ba ca : Nat) (b c : β) (p : List β) (hne : ba ≠ ca) (hb : ba < p.length + 2)
    (hc : ca < p.length + 2) : (actIdx ba ca b c p).length = p.length + 2 := by
  obtain ⟨u, v, h, ⟨-, -, e⟩ | ⟨-, -, e⟩⟩ := actIdx_split ba ca hne p.length hb hc <;>
  · rw [e b c p rfl]
    simp
    omega

/-- Putting an activation index together from its parts. -/
lemma actIdx_join {β : Type} (A B C : List β) (b c : β) :
    actIdx A.length (A.length + 1 + B.length) b c (A ++ B ++ C) = A ++ b :: (B ++ c :: C) ∧
    actIdx (A.length + 1 + B.length) A.length b c (A ++ B ++ C) = A ++ c :: (B ++ b :: C) := by
  have t1 : (A ++ B ++ C).take A.length = A := by simp
  have t2 : (A ++ B ++ C).drop A.length = B ++ C := by simp
  constructor
  · obtain ⟨u, v, h, ⟨h1, h2, e⟩ | ⟨h1, h2, e⟩⟩ := actIdx_split (β := β) A.length
      (A.length + 1 + B.length) (by omega) (A ++ B ++ C).length (by simp; omega) (by simp; omega)
    · have hv : v = B.length := by omega
      rw [e _ _ _ rfl, ← h1, hv, t1, t2]
      simp
    · omega
  · obtain ⟨u, v, h, ⟨h1, h2, e⟩ | ⟨h1, h2, e⟩⟩ := actIdx_split (β := β)
      (A.length + 1 + B.length) A.length (by omega) (A ++ B ++ C).length (by simp; omega) (by simp; omega)
    · omega
    · have hv : v = B.length := by omega
      rw [e _ _ _ rfl, ← h1, hv, t1, t2]
      simp

/-- Every list of the right length is an activation index. -/
lemma exists_actIdx {β : Type} (ba ca : Nat) (hne : ba ≠ ca) (l : List β) (m : Nat)
    (hl : l.length = m + 2) (hb : ba < m + 2) (hc : ca < m + 2) :
    ∃ A B C x y, l = A ++ x :: (B ++ y :: C) ∧
      ((ba = A.length ∧ ca = A.length + 1 + B.length ∧ l = actIdx ba ca x y (A ++ B ++ C)) ∨
       (ca = A.length ∧ ba = A.length + 1 + B.length ∧ l = actIdx ba ca y x (A ++ B ++ C))) := by
  have main : ∀ u v, u + v ≤ m → ∃ A B C x y, l = A ++ x :: (B ++ y :: C) ∧ u = A.length ∧ v = B.length := by
    intro u v huv
    have h1 : l = l.take u ++ l.drop u := (List.take_append_drop u l).symm
    obtain ⟨x, l2, h2⟩ := List.exists_cons_of_length_pos (l := l.drop u) (by simp; omega)
    have h3 : l2 = l2.take v ++ l2.drop v := (List.take_append_drop v l2).symm
    have hl2 : l2.length = m + 1 - u := by
      have := congrArg List.length h2
      simp at this
      omega
    obtain ⟨y, l4, h4⟩ := List.exists_cons_of_length_pos (l := l2.drop v) (by simp; omega)
    refine ⟨l.take u, l2.take v, l4, x, y, ?_, by simp; omega, by simp; omega⟩
    rw [← h4, ← h3, ← h2, ← h1]
  rcases lt_or_gt_of_ne hne with h | h
  · obtain ⟨A, B, C, x, y, e, hA, hB⟩ := main ba (ca - ba - 1) (by omega)
    refine ⟨A, B, C, x, y, e, .inl ⟨hA, by omega, ?_⟩⟩
    have := (actIdx_join A B C x y).1
    rw [← hA, ← hB, show ba + 1 + (ca - ba - 1) = ca by omega] at this
    rw [this, e]
  · obtain ⟨A, B, C, x, y, e, hA, hB⟩ := main ca (ba - ca - 1) (by omega)
    refine ⟨A, B, C, x, y, e, .inr ⟨hA, by omega, ?_⟩⟩
    have := (actIdx_join A B C y x).2
    rw [← hA, ← hB, show ca + 1 + (ba - ca - 1) = ba by omega] at this
    rw [this, e]

lemma filter_range'_out (s n : Nat) (l : List Nat) (h : ∀ a ∈ l, a < s ∨ s + n ≤ a) :
    (List.range' s n).filter (fun k => !(l.contains k)) = List.range' s n := by
  rw [List.filter_eq_self]
  intro k hk
  rw [List.mem_range'_1] at hk
  simp only [Bool.not_eq_eq_eq_not, Bool.not_true, List.contains_eq_mem, decide_eq_false_iff_not]
  intro hm
  have := h k hm
  omega

lemma restAxes_split (u v w a b : Nat) (h : (a = u ∧ b = u + 1 + v) ∨ (b = u ∧ a = u + 1 + v)) :
    restAxes (u + 1 + v + 1 + w) a b =
      List.range' 0 u ++ List.range' (u + 1) v ++ List.range' (u + 1 + v + 1) w := by
  have hr : List.range (u + 1 + v + 1 + w) = List.range' 0 u ++ (u :: (List.range' (u + 1) v ++
      ((u + 1 + v) :: List.range' (u + 1 + v + 1) w))) := by
    rw [List.range_eq_range', show u + 1 + v + 1 + w = u + (1 + (v + (1 + w))) by omega,
      ← List.range'_append_1, ← List.range'_append_1 (m := 1), ← List.range'_append_1 (m := v),
      ← List.range'_append_1 (m := 1)]
    simp
  unfold restAxes
  rw [hr, List.filter_append, List.filter_cons, List.filter_append, List.filter_cons]
  rw [filter_range'_out 0 u [a, b] (by simp; omega), filter_range'_out (u + 1) v [a, b] (by simp; omega),
    filter_range'_out (u + 1 + v + 1) w [a, b] (by simp; omega)]
  rcases h with ⟨rfl, rfl⟩ | ⟨rfl, rfl⟩ <;> simp

lemma gather_act (ba ca b c : Nat) (p : List Nat) (hne : ba ≠ ca) (hb : ba < p.length + 2)
    (hc : ca < p.length + 2) :
    gather (restAxes (p.length + 2) ba ca) (actIdx ba ca b c p) = p ∧
      (actIdx ba ca b c p).getD ba 0 = b ∧ (actIdx ba ca b c p).getD ca 0 = c := by
  have main : ∀ u v x y, u + v ≤ p.length →
      gather (List.range' 0 u ++ List.range' (u + 1) v ++ List.range' (u + 1 + v + 1) (p.length - u - v))
        (p.take u ++ x :: ((p.drop u).take v ++ y :: (p.drop u).drop v)) = p ∧
      (p.take u ++ x :: ((p.drop u).take v ++ y :: (p.drop u).drop v)).getD u 0 = x ∧
      (p.take u ++ x :: ((p.drop u).take v ++ y :: (p.drop u).drop v)).getD (u + 1 + v) 0 = y := by
    intro u v x y h
    have hu : (p.take u).length = u := by simp; omega
    have hv : ((p.drop u).take v).length = v := by simp; omega
    refine ⟨?_, ?_, ?_⟩
    · rw [gather_append, gather_append]
      rw [gather_range' [] (p.take u) (x :: ((p.drop u).take v ++ y :: (p.drop u).drop v)) 0 u
        (by simp) rfl hu.symm]
      rw [gather_range' (p.take u ++ [x]) ((p.drop u).take v) (y :: (p.drop u).drop v) (u + 1) v
        (by simp) (by simp; omega) hv.symm]
      rw [gather_range' (p.take u ++ [x] ++ (p.drop u).take v ++ [y]) ((p.drop u).drop v) []
        (u + 1 + v + 1) (p.length - u - v) (by simp) (by simp; omega) (by simp; omega)]
      simp
    · have := getD_append_len (p.take u) (x :: ((p.drop u).take v ++ y :: (p.drop u).drop v)) 0 0
      rw [hu] at this
      simpa using this
    · have := getD_append_len (p.take u ++ [x] ++ (p.drop u).take v) (y :: (p.drop u).drop v) 0 0
      rw [show (p.take u ++ [x] ++ (p.drop u).take v).length + 0 = u + 1 + v by simp; omega] at this
      simpa using this
  obtain ⟨u, v, h, ⟨h1, h2, e⟩ | ⟨h1, h2, e⟩⟩ := actIdx_split ba ca hne p.length hb hc
  · obtain ⟨m1, m2, m3⟩ := main u v b c h
    rw [e b c p rfl, show p.length + 2 = u + 1 + v + 1 + (p.length - u - v) by omega,
      restAxes_split u v _ ba ca (.inl ⟨h1, h2⟩)]
    rw [h1, h2]
    exact ⟨m1, m2, m3⟩
  · obtain ⟨m1, m2, m3⟩ := main u v c b h
    rw [e b c p rfl, show p.length + 2 = u + 1 + v + 1 + (p.length - u - v) by omega,
      restAxes_split u v _ ba ca (.inr ⟨h1, h2⟩)]
    rw [h1, h2]
    exact ⟨m1, m3, m2⟩

lemma restAxes_length (m ba ca : Nat) (hne : ba ≠ ca) (hb : ba < m + 2) (hc : ca < m + 2) :
    (restAxes (m + 2) ba ca).length = m := by
  have := (gather_act ba ca 0 0 (List.replicate m 0) hne (by simpa using hb) (by simpa using hc)).1
  have := congrArg List.length this
  simpa using this

lemma moveaxisPerm_act (m ba ca : Nat) (hne : ba ≠ ca) (hb : ba < m + 2) (hc : ca < m + 2) :
    moveaxisPerm (m + 2) [ba, ca] [0, m + 2 - 1] = ba :: (restAxes (m + 2) ba ca ++ [ca]) := by
  unfold moveaxisPerm
  rw [mergeSort_zip_of_sorted (by simp)]
  simp only [List.zip_cons_cons, List.zip_nil_left, List.foldl_cons, List.foldl_nil]
  change pyInsert (pyInsert (restAxes (m + 2) ba ca) 0 ba) (m + 1) ca = _
  have h := restAxes_length m ba ca hne hb hc
  have e : pyInsert (restAxes (m + 2) ba ca) 0 ba = ba :: restAxes (m + 2) ba ca := by simp [pyInsert]
  rw [e]
  have := pyInsert_append' (ba :: restAxes (m + 2) ba ca) [] ca (m + 1) (by simp [h])
  simpa using this

/-- Moving the batch axis first and the channel axis last. -/
lemma moveaxis_act (a : Arr α) (ba ca n c : Nat) (S : List Nat) (hne : ba ≠ ca)
    (hb : ba < S.length + 2) (hc : ca < S.length + 2) (ha : a.shape = actIdx ba ca n c S) :
    (a.moveaxis [ba, ca] [0, a.ndim - 1]).shape = n :: (S ++ [c]) ∧
      ∀ i p k, p.length = S.length →
        (a.moveaxis [ba, ca] [0, a.ndim - 1]).get (i :: (p ++ [k])) = a.get (actIdx ba ca i k p) := by
  have hnd : a.ndim = S.length + 2 := by
    unfold ndim; rw [ha, actIdx_length ba ca n c S hne hb hc]
  have hperm := moveaxis_perm' a (src := [ba, ca]) (dst := [0, a.ndim - 1]) rfl (by simp [hne])
    (by simp; omega)
  have hP : moveaxisPerm a.ndim [ba, ca] [0, a.ndim - 1] =
      ba :: (restAxes (S.length + 2) ba ca ++ [ca]) := by
    rw [hnd]; exact moveaxisPerm_act _ _ _ hne hb hc
  have hg : ∀ i k p, p.length = S.length →
      gather (ba :: (restAxes (S.length + 2) ba ca ++ [ca])) (actIdx ba ca i k p) =
        i :: (p ++ [k]) := by
    intro i k p hp
    obtain ⟨g1, g2, g3⟩ := gather_act ba ca i k p hne (by omega) (by omega)
    rw [hp] at g1
    have e : ∀ l x, gather (ba :: (l ++ [ca])) x = x.getD ba 0 :: (gather l x ++ [x.getD ca 0]) := by
      intro l x; simp [gather]
    rw [e, g1, g2, g3]
  constructor
  · show gather _ a.shape = _
    rw [hP, ha]
    exact hg n c S rfl
  · intro i p k hp
    rw [← hg i k p hp]
    unfold moveaxis
    rw [← hP]
    exact transpose_get a hperm (by rw [actIdx_length ba ca i k p hne (by omega) (by omega), hp, hnd])

/-- If some rearrangement of the source list goes with the increasing list of destinations, the sort in
`moveaxis` finds it. -/
lemma mergeSort_zip_perm {src dst src' dst' : List Nat} (h : (dst.zip src).Perm (dst'.zip src'))
    (hs : dst'.Pairwise (· < ·)) : (dst.zip src).mergeSort pairLe = dst'.zip src' := by
  have hs' := mergeSort_zip_of_sorted (src := src') hs
  have hsorted : ∀ l : List (Nat × Nat), (l.mergeSort pairLe).Pairwise (fun a b => pairLe a b = true) := by
    intro l
    apply List.pairwise_mergeSort
    · intro a b c hab hbc
      simp [pairLe] at hab hbc ⊢
      omega
    · intro a b
      simp [pairLe]
      omega
  have hp : ((dst.zip src).mergeSort pairLe).Perm ((dst'.zip src').mergeSort pairLe) :=
    (List.mergeSort_perm _ _).trans (h.trans (List.mergeSort_perm _ _).symm)
  rw [← hs']
  refine hp.eq_of_pairwise ?_ (hsorted _) (hsorted _)
  intro a b _ _ hab hba
  simp [pairLe] at hab hba
  exact Prod.ext (by omega) (by omega)

lemma zip_reverse_perm {A B : List Nat} (h : A.length = B.length) :
    (A.reverse.zip B).Perm (A.zip B.reverse) := by
  have e : A.zip B.reverse = (A.reverse.zip B).reverse := by
    have hx : ∀ (A B : List Nat), A.length = B.length → A.reverse.zip B.reverse = (A.zip B).reverse := by
      intro A
      induction A with
      | nil => intro B _; cases B <;> simp_all
      | cons a A ih =>
        intro B hB
        cases B with
        | nil => simp at hB
        | cons b B =>
          have hB' : A.length = B.length := by simpa using hB
          simp only [List.reverse_cons, List.zip_cons_cons]
          rw [List.zip_append (by simp [hB']), ih B hB']
          rfl
    have := hx A.reverse B (by simpa using h)
    simpa using this
  rw [e]
  exact (List.reverse_perm _).symm

/-- Reversing the axes after the first. -/
lemma moveaxis_rev (a : Arr α) (n : Nat) (S : List Nat) (ha : a.shape = n :: S) :
    let z := a.moveaxis (List.range' 1 (a.ndim - 1)) (List.range' 1 (a.ndim - 1)).reverse
    z.shape = n :: S.reverse ∧ ∀ i p, p.length = S.length → z.get (i :: p.reverse) = a.get (i :: p) := by
  have hnd : a.ndim = S.length + 1 := by simp [ndim, ha]
  intro z
  have hperm := moveaxis_perm' a (src := List.range' 1 (a.ndim - 1))
    (dst := (List.range' 1 (a.ndim - 1)).reverse) (by simp) List.nodup_range'
    (by intro k hk; rw [List.mem_range'_1] at hk; omega)
  have hP : moveaxisPerm a.ndim (List.range' 1 (a.ndim - 1)) (List.range' 1 (a.ndim - 1)).reverse =
      0 :: (List.range' 1 S.length).reverse := by
    unfold moveaxisPerm
    rw [mergeSort_zip_perm (zip_reverse_perm (by simp)) (List.pairwise_lt_range'),
      hnd]
    have hf : (List.range (S.length + 1)).filter
        (fun k => !((List.range' 1 (S.length + 1 - 1)).contains k)) = [0] := by
      rw [List.range_eq_range', Nat.add_comm, ← List.range'_append_1, List.filter_append,
        filter_range'_out 0 1 (List.range' 1 (1 + S.length - 1))
          (by intro a ha; rw [List.mem_range'_1] at ha; omega)]
      have : (List.range' (0 + 1) S.length).filter
          (fun k => !((List.range' 1 (1 + S.length - 1)).contains k)) = [] := by
        rw [List.filter_eq_nil_iff]
        intro k hk
        rw [List.mem_range'_1] at hk
        simp
        omega
      rw [this]
      rfl
    rw [hf]
    have := foldl_insert_consec [0] (List.range' 1 S.length).reverse []
    simpa using this
  have hg : ∀ i p, p.length = S.length →
      gather (0 :: (List.range' 1 S.length).reverse) (i :: p) = i :: p.reverse := by
    intro i p hp
    have := gather_range' [i] p [] 1 S.length (x := i :: p) (by simp) rfl hp.symm
    unfold gather at this ⊢
    simp only [List.map_cons, List.map_reverse, this]
    rfl
  constructor
  · show gather _ a.shape = _
    rw [hP, ha]
    exact hg n S rfl
  · intro i p hp
    rw [← hg i p hp, ← hP]
    exact transpose_get a hperm (by simp [hp, hnd])

end NT
