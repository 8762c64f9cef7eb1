import Verif.Lemmas.Upsample4
import Verif.Lemmas.Flatten
import Verif.Props.C53

/-!
# Lemmas on transposed convolutions: activations
-/

namespace NT
open Arr Spec Kernel

lemma box_sum_insert_one : ∀ (l : List ℕ) (k : ℕ) (f : List ℕ → ℝ), k ≤ l.length →
    ∑ h ∈ box (l.insertIdx k 1), f h = ∑ h ∈ box l, f (h.insertIdx k 0) := by
  intro l
  induction l with
  | nil =>
    intro k f hk
    obtain rfl : k = 0 := by simpa using hk
    rw [List.insertIdx_zero, box_sum_cons]
    simp
  | cons n l ih =>
    intro k f hk
    cases k with
    | zero =>
      rw [List.insertIdx_zero, box_sum_cons]
      simp
    | succ k =>
      rw [List.insertIdx_succ_cons, box_sum_cons, box_sum_cons]
      refine Finset.sum_congr rfl fun t _ => ?_
      rw [ih k (fun h => f (t :: h)) (by simpa using hk)]
      rfl

lemma alongAxes_insert {α : Type} (τ : ℕ → α → ℕ → ℕ → Option ℕ) : ∀ (S : List ℕ) (vs : List α) (o h : List ℕ) (k n : ℕ) (u : α)
    (i f j : ℕ), S.length = vs.length → S.length = o.length → S.length = h.length → k ≤ S.length → τ n u i f = some j →
    alongAxes τ (S.insertIdx k n) (vs.insertIdx k u) (o.insertIdx k i) (h.insertIdx k f) =
      (alongAxes τ S vs o h).map fun p => p.insertIdx k j := by
  intro S
  induction S with
  | nil =>
    intro vs o h k n u i f j h1 h2 h3 hk ht
    obtain rfl := List.length_eq_zero_iff.1 h1.symm
    obtain rfl := List.length_eq_zero_iff.1 h2.symm
    obtain rfl := List.length_eq_zero_iff.1 h3.symm
    obtain rfl : k = 0 := by simpa using hk
    simp [alongAxes, ht]
  | cons m S ih =>
    intro vs o h k n u i f j h1 h2 h3 hk ht
    cases vs with
    | nil => simp at h1
    | cons v vs =>
    cases o with
    | nil => simp at h2
    | cons o os =>
    cases h with
    | nil => simp at h3
    | cons g gs =>
      cases k with
      | zero =>
        simp only [List.insertIdx_zero]
        rw [alongAxes, ht]
        cases alongAxes τ (m :: S) (v :: vs) (o :: os) (g :: gs) <;> rfl
      | succ k =>
        simp only [List.insertIdx_succ_cons, alongAxes]
        rw [ih vs os gs k n u i f j (by simpa using h1) (by simpa using h2) (by simpa using h3) (by simpa using hk) ht]
        cases τ m v o g <;> cases alongAxes τ S vs os gs <;> rfl

/-- Folding activations. -/
lemma fold_act (x : Arr ℝ) (B A n D : ℕ) (M ts : List ℕ) (hx : x.shape = actIdx B A n D M) (hl : M.length = ts.length)
    (hB : B < M.length + 2) (hA : A < M.length + 2) (hne : B ≠ A) :
    (samePadTranspose x (actIdx B A none none (ts.map some))).shape = actIdx B A n D ts ∧
    ∀ i c o, i < n → c < D → o.length = M.length →
      (samePadTranspose x (actIdx B A none none (ts.map some))).get (actIdx B A i c o) =
        ∑ h ∈ box (foldSizes M (ts.map some)), readTap (fun p => x.get (actIdx B A i c p)) (alongAxes foldPos M (ts.map some) o h) := by
  have hk := Inputs.newAxis_le hne.symm hA hB
  have lt : (ts.map some).length = M.length := by simp [hl]
  have lA : (actIdx B A none none (ts.map some)).length = M.length + 2 := by
    rw [actIdx_length _ _ _ _ _ hne (by omega) (by omega), lt]
  have lM : (actIdx B A n D M).length = M.length + 2 := actIdx_length _ _ _ _ _ hne hB hA
  have l1 : ∀ {β : Type} (l : List β) (c : β), l.length = M.length → (l.insertIdx (newAxis A B) c).length = M.length + 1 := by
    intro β l c hl
    rw [List.length_insertIdx, if_pos (by omega), hl]
  obtain ⟨s1, s2⟩ := samePadTranspose_ok x (actIdx B A none none (ts.map some)) (by rw [hx, lA, lM])
  have zz : ∀ {γ : Type} (f : ℕ → Option ℕ → γ), List.zipWith f (actIdx B A n D M) (actIdx B A none none (ts.map some)) =
      actIdx B A (f n none) (f D none) (List.zipWith f M (ts.map some)) := by
    intro γ f
    have lz : (List.zipWith f M (ts.map some)).length = M.length := by simp [hl]
    rw [actIdx_insert' B A n D M hne hB hA, actIdx_insert' B A none none (ts.map some) hne (by omega) (by omega),
      actIdx_insert' B A _ _ (List.zipWith f M (ts.map some)) hne (by omega) (by omega),
      C53.zipWith_insertIdx _ _ _ _ _ _ (by rw [l1 _ _ rfl, l1 _ _ lt]) (by rw [l1 _ _ rfl]; omega),
      C53.zipWith_insertIdx _ _ _ _ _ _ lt.symm hk]
  constructor
  · rw [s1, hx, zz]
    congr 1
    clear * - hl
    induction M generalizing ts with
    | nil => cases ts <;> simp_all
    | cons m M ih =>
      cases ts with
      | nil => simp at hl
      | cons t ts => simp [ih ts (by simpa using hl)]
  · intro i c o hi hc ho
    rw [s2 _ (by rw [hx, lM, actIdx_length _ _ _ _ _ hne (by omega) (by omega), ho])]
    have e1 : foldSizes x.shape (actIdx B A none none (ts.map some)) =
        ((foldSizes M (ts.map some)).insertIdx (newAxis A B) 1).insertIdx B 1 := by
      have lf : (foldSizes M (ts.map some)).length = M.length := foldSizes_length _ _ lt.symm
      rw [← actIdx_insert' B A 1 1 _ hne (by omega) (by omega)]
      unfold foldSizes
      rw [hx, zz]
      rfl
    have lf : (foldSizes M (ts.map some)).length = M.length := foldSizes_length _ _ lt.symm
    rw [e1, box_sum_insert_one _ _ _ (by rw [l1 _ _ lf]; omega), box_sum_insert_one _ _ _ (by omega)]
    refine Finset.sum_congr rfl fun h hh => ?_
    rw [mem_box] at hh
    have lh : h.length = M.length := by rw [hh.length, lf]
    rw [hx, actIdx_insert' B A n D M hne hB hA, actIdx_insert' B A none none (ts.map some) hne (by omega) (by omega),
      actIdx_insert' B A i c o hne (by omega) (by omega),
      alongAxes_insert foldPos _ _ _ _ B n none i 0 i (by rw [l1 _ _ rfl, l1 _ _ lt]) (by rw [l1 _ _ rfl, l1 _ _ ho])
        (by rw [l1 _ _ rfl, l1 _ _ lh]) (by rw [l1 _ _ rfl]; omega) (foldPos_none n i hi),
      alongAxes_insert foldPos _ _ _ _ (newAxis A B) D none c 0 c lt.symm ho.symm lh.symm hk (foldPos_none D c hc)]
    cases e : alongAxes foldPos M (ts.map some) o h with
    | none => rfl
    | some p =>
      have lp := alongAxes_length _ _ _ _ _ _ e
      simp only [Option.map_some, readTap]
      rw [actIdx_insert' B A i c p hne (by omega) (by omega)]

end NT
