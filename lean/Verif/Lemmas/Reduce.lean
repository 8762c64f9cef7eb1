import Verif.Spec.Reduce
import Verif.Model.Empirical
import Verif.Lemmas.MoveAxis
import Verif.Lemmas.Dot
import Verif.Lemmas.Axes
import Verif.Tac
import Mathlib.Data.List.GetD

/-!
# Order of the axes of empirical kernels
-/

namespace NT.Emp

open NT.Arr NT.Spec

/-- What is done with an axis. -/
inductive Kind | trace | diag | free
  deriving DecidableEq

/-- The kind of axis `a`. -/
def kind (T D : List ℕ) (a : ℕ) : Kind := if a ∈ T then .trace else if a ∈ D then .diag else .free

/-- Labels (old positions) of the axes in the wanted order; diagonal axes are at `kd`, `kd + 1`, …, pairs of free
axes at `kf`, `kf + 2`, …. -/
def labels : List Kind → ℕ → ℕ → List ℕ
  | [], _, _ => []
  | .trace :: ks, kd, kf => labels ks kd kf
  | .diag :: ks, kd, kf => kd :: labels ks (kd + 1) kf
  | .free :: ks, kd, kf => kf :: (kf + 1) :: labels ks kd (kf + 2)

def freeLabels : List Kind → ℕ → List ℕ
  | [], _ => []
  | .free :: ks, kf => kf :: (kf + 1) :: freeLabels ks (kf + 2)
  | _ :: ks, kf => freeLabels ks kf

/-- Wanted position and label of each diagonal axis. -/
def moves : List Kind → ℕ → ℕ → List (ℕ × ℕ)
  | [], _, _ => []
  | .trace :: ks, p, kd => moves ks p kd
  | .diag :: ks, p, kd => (p, kd) :: moves ks (p + 1) (kd + 1)
  | .free :: ks, p, kd => moves ks (p + 2) kd

lemma foldl_moves (ks : List Kind) : ∀ (pre : List ℕ) (kd kf : ℕ),
    (moves ks pre.length kd).foldl (fun acc p => pyInsert acc p.1 p.2) (pre ++ freeLabels ks kf) =
      pre ++ labels ks kd kf := by
  induction ks with
  | nil => intro pre kd kf; simp [moves, freeLabels, labels]
  | cons k ks ih =>
    intro pre kd kf
    cases k with
    | trace => simpa [moves, freeLabels, labels] using ih pre kd kf
    | diag =>
      simp only [moves, freeLabels, labels, List.foldl_cons]
      rw [pyInsert_append' _ _ _ _ rfl]
      have := ih (pre ++ [kd]) (kd + 1) kf
      simpa using this
    | free =>
      have := ih (pre ++ [kf, kf + 1]) kd (kf + 2)
      simpa [moves, freeLabels, labels] using this

lemma moves_fst (ks : List Kind) : ∀ p kd, ((moves ks p kd).map Prod.fst).Pairwise (· < ·) ∧
    ∀ x ∈ (moves ks p kd).map Prod.fst, p ≤ x := by
  induction ks with
  | nil => intro p kd; simp [moves]
  | cons k ks ih =>
    intro p kd
    cases k with
    | trace => simpa [moves] using ih p kd
    | diag =>
      obtain ⟨h1, h2⟩ := ih (p + 1) (kd + 1)
      simp only [moves, List.map_cons, List.pairwise_cons, List.mem_cons]
      refine ⟨⟨fun x hx => h2 x hx, h1⟩, ?_⟩
      rintro x (rfl | hx)
      · rfl
      · exact (Nat.le_succ p).trans (h2 x hx)
    | free =>
      obtain ⟨h1, h2⟩ := ih (p + 2) kd
      refine ⟨h1, fun x hx => ?_⟩
      exact le_trans (by omega) (h2 x hx)

lemma count_succ (T : List ℕ) (hT : T.Nodup) (s : ℕ) :
    (T.filter (· < s + 1)).length = (T.filter (· < s)).length + if s ∈ T then 1 else 0 := by
  have h : (T.filter (· < s + 1)).length = (T.filter (· < s)).length + T.count s := by
    clear hT
    induction T with
    | nil => simp
    | cons x T ih =>
      rw [List.filter_cons, List.filter_cons, List.count_cons]
      rcases lt_trichotomy x s with h | h | h
      · rw [if_pos (by simp; omega), if_pos (by simpa using h), if_neg (by simpa using h.ne), List.length_cons, List.length_cons, ih]
        omega
      · rw [if_pos (by simp; omega), if_neg (by simp; omega), if_pos (by simpa using h), List.length_cons, ih]
        omega
      · rw [if_neg (by simp; omega), if_neg (by simp; omega), if_neg (by simpa using h.ne'), ih]
        omega
  rw [h, hT.count]

/-- `resBatchDims` on a final segment of the axes. -/
lemma moves_eq (T D : List ℕ) (hTs : T.Pairwise (· < ·)) : ∀ (m s nd : ℕ),
    nd + 2 * (T.filter (· < s)).length ≤ 2 * s →
    (((List.range' s m).filter fun a => decide (kind T D a = .diag)).zipIdx nd).map
        (fun bi => 2 * bi.1 - bi.2 - 2 * (T.filter (· < bi.1)).length) =
      (moves ((List.range' s m).map (kind T D)) (2 * s - nd - 2 * (T.filter (· < s)).length) nd).map Prod.fst := by
  have hcount := count_succ T (hTs.imp (fun h => h.ne))
  intro m
  induction m with
  | zero => intro s nd h; simp [moves]
  | succ m ih =>
    intro s nd h
    rw [List.range'_succ, List.map_cons, List.filter_cons]
    have hc := hcount s
    rcases hk : kind T D s with _ | _ | _
    · have hs : s ∈ T := by
        by_contra hs
        simp only [kind, hs, if_false] at hk
        split at hk <;> cases hk
      rw [if_pos hs] at hc
      have := ih (s + 1) nd (by omega)
      simp only [moves, reduceCtorEq, decide_false, if_false, Bool.false_eq_true]
      rw [this, hc, show 2 * (s + 1) - nd - 2 * ((T.filter (· < s)).length + 1) = 2 * s - nd - 2 * (T.filter (· < s)).length by omega]
    · have hs : s ∉ T := by intro hs; simp [kind, hs] at hk
      rw [if_neg hs, add_zero] at hc
      have := ih (s + 1) (nd + 1) (by omega)
      simp only [moves, decide_true, if_true, List.zipIdx_cons, List.map_cons]
      rw [this, hc]
      congr 3
      omega
    · have hs : s ∉ T := by intro hs; simp [kind, hs] at hk
      rw [if_neg hs, add_zero] at hc
      have := ih (s + 1) nd (by omega)
      simp only [moves, reduceCtorEq, decide_false, if_false, Bool.false_eq_true]
      rw [this, hc]
      congr 2
      omega

lemma moves_fst_indep (ks : List Kind) : ∀ p kd kd', (moves ks p kd).map Prod.fst = (moves ks p kd').map Prod.fst := by
  induction ks with
  | nil => intro p kd kd'; rfl
  | cons k ks ih =>
    intro p kd kd'
    cases k with
    | trace => exact ih p kd kd'
    | diag => simp only [moves, List.map_cons]; rw [ih (p + 1) (kd + 1) (kd' + 1)]
    | free => exact ih (p + 2) kd kd'

lemma moves_snd (ks : List Kind) : ∀ p kd, (moves ks p kd).map Prod.snd = List.range' kd (ks.count .diag) := by
  induction ks with
  | nil => intro p kd; rfl
  | cons k ks ih =>
    intro p kd
    cases k with
    | trace => simpa [moves] using ih p kd
    | diag => simp [moves, ih, List.range'_succ]
    | free => simpa [moves] using ih (p + 2) kd

lemma freeLabels_eq (ks : List Kind) : ∀ kf, freeLabels ks kf = List.range' kf (2 * ks.count .free) := by
  induction ks with
  | nil => intro kf; rfl
  | cons k ks ih =>
    intro kf
    cases k with
    | trace => simpa [freeLabels] using ih kf
    | diag => simpa [freeLabels] using ih kf
    | free =>
      rw [freeLabels, ih, List.count_cons_self, show 2 * (ks.count Kind.free + 1) = (2 * ks.count Kind.free + 1) + 1 by ring,
        List.range'_succ, List.range'_succ]

/-- The entries picked by the labels. -/
lemma gather_labels (T D i j X : List ℕ) : ∀ (m s kd kf : ℕ),
    (∀ r < ((List.range' s m).filter fun a => decide (kind T D a = .diag)).length, X.getD (kd + r) 0 =
      (gather ((List.range' s m).filter fun a => decide (kind T D a = .diag)) i).getD r 0) →
    (∀ r < ((List.range' s m).filter fun a => decide (kind T D a = .free)).length,
      X.getD (kf + 2 * r) 0 = (gather ((List.range' s m).filter fun a => decide (kind T D a = .free)) i).getD r 0 ∧
      X.getD (kf + 2 * r + 1) 0 = (gather ((List.range' s m).filter fun a => decide (kind T D a = .free)) j).getD r 0) →
    gather (labels ((List.range' s m).map (kind T D)) kd kf) X = (List.range' s m).flatMap fun a =>
      if a ∈ T then [] else if a ∈ D then [i.getD a 0] else [i.getD a 0, j.getD a 0] := by
  intro m
  induction m with
  | zero => intro s kd kf _ _; rfl
  | succ m ih =>
    intro s kd kf hD hF
    rw [List.range'_succ, List.map_cons, List.flatMap_cons]
    rw [List.range'_succ, List.filter_cons] at hD hF
    by_cases hT : s ∈ T
    · have hk : kind T D s = .trace := by simp [kind, hT]
      simp only [hk, reduceCtorEq, decide_false, if_false, Bool.false_eq_true] at hD hF
      rw [hk, if_pos hT, labels, List.nil_append]
      exact ih _ _ _ hD hF
    · by_cases hd : s ∈ D
      · have hk : kind T D s = .diag := by simp [kind, hT, hd]
        simp only [hk, reduceCtorEq, decide_false, if_false, Bool.false_eq_true, decide_true, if_true] at hD hF
        rw [hk, if_neg hT, if_pos hd, labels]
        have h0 := hD 0 (by simp)
        have := ih (s + 1) (kd + 1) kf (fun r hr => ?_) hF
        · rw [← this]
          simp only [gather, List.map_cons, List.cons_append, List.nil_append]
          rw [show X.getD kd 0 = i.getD s 0 from h0]
        · have := hD (r + 1) (by simp only [List.length_cons]; omega)
          rw [show kd + 1 + r = kd + (r + 1) by ring, this]
          rfl
      · have hk : kind T D s = .free := by simp [kind, hT, hd]
        simp only [hk, reduceCtorEq, decide_false, if_false, Bool.false_eq_true, decide_true, if_true] at hD hF
        rw [hk, if_neg hT, if_neg hd, labels]
        have h0 := hF 0 (by simp)
        have := ih (s + 1) kd (kf + 2) hD (fun r hr => ?_)
        · rw [← this]
          simp only [gather, List.map_cons, List.cons_append, List.nil_append]
          rw [show X.getD kf 0 = i.getD s 0 from h0.1, show X.getD (kf + 1) 0 = j.getD s 0 from h0.2]
        · have := hF (r + 1) (by simp only [List.length_cons]; omega)
          rw [show kf + 2 + 2 * r = kf + 2 * (r + 1) by ring, this.1, this.2]
          exact ⟨rfl, rfl⟩

/-- A set of axes below `n` in increasing order. -/
def Axes (n : ℕ) (T : List ℕ) : Prop := T.Pairwise (· < ·) ∧ ∀ a ∈ T, a < n

lemma kind_diag {T D : List ℕ} {a : ℕ} : kind T D a = .diag ↔ a ∉ T ∧ a ∈ D := by
  unfold kind; split_ifs <;> simp_all

lemma kind_free {T D : List ℕ} {a : ℕ} : kind T D a = .free ↔ a ∉ T ∧ a ∉ D := by
  unfold kind; split_ifs <;> simp_all

lemma filter_diag {n : ℕ} {T D : List ℕ} (hD : Axes n D) (h : ∀ a ∈ T, a ∉ D) :
    ((List.range n).filter fun a => decide (kind T D a = .diag)) = D := by
  refine List.Pairwise.eq_of_mem_iff (r := (· < ·)) (List.pairwise_lt_range.filter _) hD.1 fun a => ?_
  rw [List.mem_filter, List.mem_range, decide_eq_true_eq, kind_diag]
  exact ⟨fun h => h.2.2, fun ha => ⟨hD.2 a ha, fun hT => h a hT ha, ha⟩⟩

lemma filter_free {n : ℕ} {T D : List ℕ} :
    ((List.range n).filter fun a => decide (kind T D a = .free)) = otherAxes n (D ++ T) := by
  unfold otherAxes
  refine List.filter_congr fun a _ => ?_
  rw [decide_eq_decide, kind_free, List.mem_append]
  tauto

lemma count_kind (n : ℕ) (T D : List ℕ) (k : Kind) :
    ((List.range n).map (kind T D)).count k = ((List.range n).filter fun a => decide (kind T D a = k)).length := by
  rw [List.count, List.countP_map, List.countP_eq_length_filter]
  rfl

/-- The axis permutation of `jnp.moveaxis(prod, diagonal, res_batch_dims)`. -/
lemma moveaxisPerm_res {n : ℕ} {T D : List ℕ} (hT : Axes n T) (hD : Axes n D) (h : ∀ a ∈ T, a ∉ D) (kd kf : ℕ)
    (hk : (kd = 0 ∧ kf = D.length) ∨ (kd = 2 * (otherAxes n (D ++ T)).length ∧ kf = 0)) :
    moveaxisPerm (D.length + 2 * (otherAxes n (D ++ T)).length) (List.range' kd D.length) (resBatchDims T D) =
      labels ((List.range n).map (kind T D)) kd kf := by
  have h1 : resBatchDims T D = (moves ((List.range n).map (kind T D)) 0 kd).map Prod.fst := by
    have := moves_eq T D hT.1 n 0 0 (by simp)
    rw [← List.range_eq_range', filter_diag hD h] at this
    rw [moves_fst_indep _ _ _ 0]
    simpa [resBatchDims] using this
  have h2 : List.range' kd D.length = (moves ((List.range n).map (kind T D)) 0 kd).map Prod.snd := by
    rw [moves_snd, count_kind, filter_diag hD h]
  have hfst := moves_fst ((List.range n).map (kind T D)) 0 kd
  have hz : (resBatchDims T D).zip (List.range' kd D.length) = moves ((List.range n).map (kind T D)) 0 kd := by
    rw [h1, h2]
    have := List.zip_unzip (moves ((List.range n).map (kind T D)) 0 kd)
    rwa [List.unzip_eq_map] at this
  have hs : ((resBatchDims T D).zip (List.range' kd D.length)).mergeSort pairLe = (resBatchDims T D).zip (List.range' kd D.length) := by
    apply mergeSort_zip_of_sorted
    rw [h1]; exact hfst.1
  have hb : ((List.range (D.length + 2 * (otherAxes n (D ++ T)).length)).filter fun k => !((List.range' kd D.length).contains k)) =
      freeLabels ((List.range n).map (kind T D)) kf := by
    rw [freeLabels_eq, count_kind, filter_free]
    refine List.Pairwise.eq_of_mem_iff (r := (· < ·)) (List.pairwise_lt_range.filter _) List.pairwise_lt_range' fun a => ?_
    simp only [List.mem_filter, List.mem_range, List.contains_iff_mem, Bool.not_eq_true',
      List.mem_range'_1, ← Bool.not_eq_true]
    omega
  unfold moveaxisPerm
  rw [hs, hb, hz]
  simpa using foldl_moves ((List.range n).map (kind T D)) [] kd kf

lemma interleave_getD (A B : List ℕ) (h : A.length = B.length) (r : ℕ) (hr : r < A.length) :
    (interleave A B).getD (2 * r) 0 = A.getD r 0 ∧ (interleave A B).getD (2 * r + 1) 0 = B.getD r 0 := by
  induction A generalizing B r with
  | nil => simp at hr
  | cons a A ih =>
    cases B with
    | nil => simp at h
    | cons b B =>
      cases r with
      | zero => simp [interleave]
      | succ r =>
        have := ih B (by simpa using h) r (by simpa using hr)
        simpa [interleave, show 2 * (r + 1) = 2 * r + 1 + 1 by ring] using this

/-- Diagonal axes first. -/
lemma gather_first {n : ℕ} {T D : List ℕ} (hD : Axes n D) (h : ∀ a ∈ T, a ∉ D) (i j : List ℕ) :
    gather (labels ((List.range n).map (kind T D)) 0 D.length)
      (gather D i ++ interleave (gather (otherAxes n (D ++ T)) i) (gather (otherAxes n (D ++ T)) j)) = pairIdx n T D i j := by
  have := gather_labels T D i j (gather D i ++ interleave (gather (otherAxes n (D ++ T)) i) (gather (otherAxes n (D ++ T)) j)) n 0 0 D.length
  rw [← List.range_eq_range', filter_diag hD h, filter_free] at this
  have hl : (gather D i).length = D.length := by simp [gather]
  refine this (fun r hr => ?_) (fun r hr => ?_)
  · rw [zero_add, List.getD_append _ _ _ _ (by rw [hl]; exact hr)]
  · have := interleave_getD (gather (otherAxes n (D ++ T)) i) (gather (otherAxes n (D ++ T)) j) (by simp [gather]) r (by simpa [gather] using hr)
    rw [List.getD_append_right _ _ _ _ (by omega), List.getD_append_right _ _ _ _ (by omega), hl, ← this.1, ← this.2]
    exact ⟨by congr 1; omega, by congr 1; omega⟩

/-- Diagonal axes last. -/
lemma gather_last {n : ℕ} {T D : List ℕ} (hD : Axes n D) (h : ∀ a ∈ T, a ∉ D) (i j : List ℕ) :
    gather (labels ((List.range n).map (kind T D)) (2 * (otherAxes n (D ++ T)).length) 0)
      (interleave (gather (otherAxes n (D ++ T)) i) (gather (otherAxes n (D ++ T)) j) ++ gather D i) = pairIdx n T D i j := by
  have := gather_labels T D i j (interleave (gather (otherAxes n (D ++ T)) i) (gather (otherAxes n (D ++ T)) j) ++ gather D i) n 0
    (2 * (otherAxes n (D ++ T)).length) 0
  rw [← List.range_eq_range', filter_diag hD h, filter_free] at this
  have hl : (interleave (gather (otherAxes n (D ++ T)) i) (gather (otherAxes n (D ++ T)) j)).length = 2 * (otherAxes n (D ++ T)).length := by
    rw [interleave_length (by simp [gather])]; simp [gather]
  refine this (fun r hr => ?_) (fun r hr => ?_)
  · rw [List.getD_append_right _ _ _ _ (by omega), hl]
    congr 1; omega
  · have := interleave_getD (gather (otherAxes n (D ++ T)) i) (gather (otherAxes n (D ++ T)) j) (by simp [gather]) r (by simpa [gather] using hr)
    rw [zero_add, List.getD_append _ _ _ _ (by omega), List.getD_append _ _ _ _ (by omega)]
    exact this

end NT.Emp
