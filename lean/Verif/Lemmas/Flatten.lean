import Mathlib.Algebra.BigOperators.Field
import Verif.Model.Flatten
import Verif.Lemmas.Box
import Verif.Lemmas.Dense
import Verif.Lemmas.Inputs

/-!
Lemmas for `Flatten`.
-/

namespace NT
open Arr Spec

variable {α : Type}

lemma interleave_snoc (A B : List ℕ) (a b : ℕ) (h : A.length = B.length) :
    interleave (A ++ [a]) (B ++ [b]) = interleave A B ++ [a, b] := by
  rw [interleave_append h]; rfl

lemma traceLoop_get (B : List ℕ) : ∀ (A : List ℕ) (x : Arr ℝ) (fuel : ℕ), A.length ≤ fuel →
    x.shape = B ++ interleave A A →
    (traceLoop fuel B.length x).shape = B ∧ ∀ b, b.length = B.length →
      (traceLoop fuel B.length x).get b = (∑ p ∈ box A, x.get (b ++ interleave p p)) / A.prod := by
  intro A
  induction A using List.reverseRecOn with
  | nil =>
    intro x fuel _ hx
    have hn : ¬ x.ndim > B.length := by unfold ndim; rw [hx]; simp [interleave]
    have e : traceLoop fuel B.length x = x := by cases fuel <;> simp [traceLoop, hn]
    rw [e]
    refine ⟨by rw [hx]; simp [interleave], fun b _ => by simp [interleave]⟩
  | append_singleton A n ih =>
    intro x fuel hf hx
    obtain ⟨fuel, rfl⟩ : ∃ g, fuel = g + 1 := ⟨fuel - 1, by simp at hf; omega⟩
    rw [interleave_snoc A A n n rfl, ← List.append_assoc] at hx
    have hn : x.ndim > B.length := by unfold ndim; rw [hx]; simp
    have hs : (traceLast x).shape = B ++ interleave A A := by
      simp only [traceLast, hx]
      rw [show B ++ interleave A A ++ [n, n] = (B ++ interleave A A ++ [n]) ++ [n] by simp,
        List.dropLast_concat, List.dropLast_concat]
    obtain ⟨h1, h2⟩ := ih (traceLast x) fuel (by simp at hf; omega) hs
    simp only [traceLoop, if_pos hn]
    refine ⟨h1, fun b hb => ?_⟩
    rw [h2 b hb, box_sum_append]
    simp only [box_sum_singleton]
    have hg : ∀ i, (traceLast x).get i = (∑ t ∈ Finset.range n, x.get (i ++ [t, t])) / n := by
      intro i
      have e1 : x.shape.getLastD 0 = n := by
        rw [hx, show B ++ interleave A A ++ [n, n] = (B ++ interleave A A ++ [n]) ++ [n] by simp]; simp
      have e2 : x.shape.dropLast.getLastD 0 = n := by
        rw [hx, show B ++ interleave A A ++ [n, n] = (B ++ interleave A A ++ [n]) ++ [n] by simp,
          List.dropLast_concat]
        simp
      simp only [traceLast, e1, e2, min_self, sum_range_list]
    rw [← Finset.sum_congr rfl fun p (hp : p ∈ box A) => (hg (b ++ interleave p p)).symm, ← Finset.sum_div,
      div_div]
    congr 1
    · refine Finset.sum_congr rfl fun p _ => Finset.sum_congr rfl fun t _ => ?_
      rw [interleave_snoc p p t t rfl, List.append_assoc]
    · simp [mul_comm]

lemma meanTail_get (B A : List ℕ) (x : Arr ℝ) (hx : x.shape = B ++ A) :
    (meanTail B.length x).shape = B ∧ ∀ b, (meanTail B.length x).get b = (∑ p ∈ box A, x.get (b ++ p)) / A.prod := by
  have h1 : x.shape.take B.length = B := by rw [hx]; simp
  have h2 : x.shape.drop B.length = A := by rw [hx]; simp
  refine ⟨h1, fun b => ?_⟩
  show sumOver (x.shape.drop B.length) (fun p => x.get (b ++ p)) / ((x.shape.drop B.length).prod : ℝ) = _
  rw [h2, sumOver_eq_box]

lemma prod_rv (rev : Bool) (A : List ℕ) : (rv rev A).prod = A.prod := by
  unfold rv; cases rev <;> simp

/-- `trace` averages the equal-position entries. -/
lemma trace_holds {a : Arr ℝ} {B S : List ℕ} {ds rev : Bool} {F : List ℕ → List ℕ → List ℕ → ℝ}
    (h : Holds a B S S ds rev F) :
    Holds (Flatten.trace ds B.length a) B [] [] false false
      (fun b _ _ => (∑ p ∈ box S, F b p p) / S.prod) := by
  have key : (Flatten.trace ds B.length a).shape = B ∧ ∀ b, InRange b B →
      (Flatten.trace ds B.length a).get b = (∑ p ∈ box S, F b p p) / S.prod := by
    cases ds
    · have hs := h.shape
      rw [pos_full] at hs
      obtain ⟨h1, h2⟩ := traceLoop_get B (rv rev S) a a.ndim (by
        unfold ndim; rw [hs, List.length_append, interleave_length rfl]; omega) hs
      refine ⟨h1, fun b hb => ?_⟩
      show (traceLoop a.ndim B.length a).get b = _
      rw [h2 b hb.length, prod_rv, box_sum_rv]
      congr 1
      refine Finset.sum_congr rfl fun p hp => ?_
      rw [mem_box] at hp
      rw [← pos_full, h.get b p p hb hp hp (by simp)]
    · have hs := h.shape
      rw [pos_diag] at hs
      obtain ⟨h1, h2⟩ := meanTail_get B (rv rev S) a hs
      refine ⟨h1, fun b hb => ?_⟩
      show (meanTail B.length a).get b = _
      rw [h2 b, prod_rv, box_sum_rv]
      congr 1
      refine Finset.sum_congr rfl fun p hp => ?_
      rw [mem_box] at hp
      rw [← pos_diag rev p p, h.get b p p hb hp hp (by simp)]
  refine ⟨rfl, by simp, ?_, ?_⟩
  · rw [key.1]; simp [pos, interleave]
  · intro b p q hb hp hq _
    rw [inRange_nil_right] at hp hq
    subst hp hq
    rw [show b ++ pos false false [] [] = b by simp [pos, interleave]]
    exact key.2 b hb

lemma trace_scalar (ds : Bool) (bn : ℕ) (a : Arr ℝ) (ha : a.shape = []) :
    (Flatten.trace ds bn a).shape = [] ∧ (Flatten.trace ds bn a).get [] = a.get [] := by
  cases ds
  · have : a.ndim = 0 := by unfold ndim; rw [ha]; rfl
    simp [Flatten.trace, this, traceLoop, ha]
  · simp [Flatten.trace, meanTail, ha, sumOver_eq_box]

lemma actIdx_insert' {β : Type} (ba ca : ℕ) (b c : β) (p : List β) (hne : ba ≠ ca)
    (_hb : ba < p.length + 2) (hc : ca < p.length + 2) :
    actIdx ba ca b c p = (p.insertIdx (newAxis ca ba) c).insertIdx ba b := by
  unfold actIdx newAxis
  rcases lt_or_gt_of_ne hne with h | h
  · rw [if_pos h, if_pos h]
    obtain ⟨k, rfl⟩ : ∃ k, ca = k + 1 := ⟨ca - 1, by omega⟩
    rw [show k + 1 - 1 = k by omega, List.insertIdx_comm b c (by omega) (by omega)]
  · rw [if_neg (by omega), if_neg (by omega)]

/-- Moving one axis to the end. -/
lemma moveaxis_end (a : Arr α) (x n : ℕ) (S : List ℕ) (hx : x ≤ S.length) (ha : a.shape = S.insertIdx x n) :
    (a.moveaxis [x] [S.length]).shape = S ++ [n] ∧
      ∀ i p, p.length = S.length → (a.moveaxis [x] [S.length]).get (p ++ [i]) = a.get (p.insertIdx x i) := by
  have hnd : a.ndim = S.length + 1 := by
    unfold ndim; rw [ha, List.length_insertIdx, if_pos hx]
  have hperm := moveaxis_perm' a (src := [x]) (dst := [S.length]) rfl (by simp) (by simp; omega)
  have hlen : (freeAxes (S.length + 1) [x]).length = S.length := by
    have := congrArg List.length (gather_free_one S x n hx).1
    simpa using this
  have hP : moveaxisPerm a.ndim [x] [S.length] = freeAxes (S.length + 1) [x] ++ [x] := by
    rw [hnd]
    unfold moveaxisPerm
    rw [mergeSort_zip_of_sorted (by simp)]
    simp only [List.zip_cons_cons, List.zip_nil_left, List.foldl_cons, List.foldl_nil]
    change pyInsert (freeAxes (S.length + 1) [x]) S.length x = _
    have := pyInsert_append' (freeAxes (S.length + 1) [x]) [] x S.length hlen.symm
    simpa using this
  have hg : ∀ i p, p.length = S.length →
      gather (freeAxes (S.length + 1) [x] ++ [x]) (p.insertIdx x i) = p ++ [i] := by
    intro i p hp
    obtain ⟨g1, g2⟩ := gather_free_one p x i (by omega)
    rw [hp] at g1
    rw [gather_append, g1, g2]
  constructor
  · show gather _ a.shape = _
    rw [hP, ha]
    exact hg n S rfl
  · intro i p hp
    rw [← hg i p hp]
    unfold moveaxis
    rw [← hP]
    refine transpose_get a hperm ?_
    rw [List.length_insertIdx, if_pos (by omega), hp, hnd]

/-- The flattened array: entry `m` of example `i` is the entry at the row-major position `m` among the
non-batch axes. -/
lemma flatten_apply_ok (f : Flatten) (bo co : ℕ) (hax : f.axesOut = .ok (bo, co)) (x : Arr α) (n B : ℕ) (R : List ℕ)
    (hB : B ≤ R.length) (hB' : (B : ℤ) = f.batchAxis % (R.length + 1)) (hx : x.shape = R.insertIdx B n) :
    ∃ z, f.apply x = .ok z ∧ z.shape = actIdx bo co n R.prod [] ∧
      ∀ i r, i < n → InRange r R → z.get (actIdx bo co i (ravel R r) []) = x.get (r.insertIdx B i) := by
  have hnd : x.ndim = R.length + 1 := by unfold ndim; rw [hx, List.length_insertIdx, if_pos hB]
  have hlen : x.shape.length = R.length + 1 := hnd
  have hbax : f.axis (R.length + 1) = B := by unfold Flatten.axis; push_cast; rw [← hB']; simp
  have hin := insertIdx_app R B n hB
  have hbat : x.shape.getD B 0 = n := by
    rw [hx, hin]
    simp [hB]
  have hch : (x.shape.take B ++ x.shape.drop (B + 1)).prod = R.prod := by
    have l1 : (R.take B).length = B := by simp [hB]
    rw [hx, hin]
    rw [List.take_append_of_le_length (by omega), List.take_take, min_self]
    rw [show B + 1 = (R.take B).length + 1 by omega, List.drop_append]
    simp only [l1]
    rw [show B + 1 - B = 1 by omega]
    simp only [List.drop_succ_cons, List.drop_zero]
    rw [List.drop_eq_nil_of_le (by omega), List.nil_append, List.take_append_drop]
  have hprod : x.shape.prod = n * R.prod := by
    rw [hx, hin, List.prod_append, List.prod_cons]
    conv_rhs => rw [← List.take_append_drop B R, List.prod_append]
    ring
  have hcases : (bo = 0 ∧ co = 1) ∨ (bo = 1 ∧ co = 0) := by
    unfold Flatten.axesOut at hax
    split_ifs at hax <;> simp at hax <;> omega
  unfold Flatten.apply Flatten.outputShape
  rw [hax]
  simp only [hlen, hnd, hbax, hbat, hch]
  rcases hcases with ⟨rfl, rfl⟩ | ⟨rfl, rfl⟩
  · obtain ⟨h1, h2⟩ := moveaxis_front x B n R hB hx
    simp only [if_true]
    unfold reshapeE
    rw [if_pos (by rw [h1]; simp)]
    refine ⟨_, rfl, rfl, fun i r hi hr => ?_⟩
    rw [← h2 i r hr.length]
    refine reshape_get _ _ (by rw [h1, inRange_cons]; exact ⟨hi, hr⟩) ?_
    rw [h1]
    simp [ravel, actIdx]
  · obtain ⟨h1, h2⟩ := moveaxis_end x B n R hB hx
    simp only [one_ne_zero, if_false, Nat.add_sub_cancel]
    unfold reshapeE
    rw [if_pos (by rw [h1]; simp)]
    refine ⟨_, rfl, rfl, fun i r hi hr => ?_⟩
    rw [← h2 i r hr.length]
    refine reshape_get _ _ (by rw [h1, inRange_append hr.length]; exact ⟨hr, by simpa using hi⟩) ?_
    rw [h1, ravel_append hr.length]
    simp [ravel, actIdx]

end NT
