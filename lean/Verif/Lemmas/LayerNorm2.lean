import Verif.Lemmas.LayerNorm
import Verif.Spec.LayerNorm
import Verif.Lemmas.Act
import Mathlib.Algebra.BigOperators.Field

/-!
# Means over axes
-/

namespace NT
open Arr Spec

lemma agrees_append {f f' : List Bool} {i i' j j' : List ℕ} (h1 : f.length = i.length) (h2 : f.length = j.length) :
    agrees (f ++ f') (i ++ i') (j ++ j') = (agrees f i j && agrees f' i' j') := by
  induction f generalizing i j with
  | nil =>
    obtain rfl := List.length_eq_zero_iff.1 h1.symm
    obtain rfl := List.length_eq_zero_iff.1 h2.symm
    simp [agrees]
  | cons a f ih =>
    match i, j with
    | b :: i, c :: j =>
      simp only [List.cons_append, agrees, ih (by simpa using h1) (by simpa using h2), Bool.and_assoc]
    | [], _ => simp at h1
    | _, [] => simp at h2

lemma agrees_reverse {f : List Bool} {i j : List ℕ} (h1 : f.length = i.length) (h2 : f.length = j.length) :
    agrees f.reverse i.reverse j.reverse = agrees f i j := by
  induction f generalizing i j with
  | nil =>
    obtain rfl := List.length_eq_zero_iff.1 h1.symm
    obtain rfl := List.length_eq_zero_iff.1 h2.symm
    simp [agrees]
  | cons a f ih =>
    match i, j with
    | b :: i, c :: j =>
      rw [List.reverse_cons, List.reverse_cons, List.reverse_cons, agrees_append (by simpa using h1) (by simpa using h2),
        ih (by simpa using h1) (by simpa using h2)]
      simp [agrees, Bool.and_comm]
    | [], _ => simp at h1
    | _, [] => simp at h2

lemma agrees_iff {f : List Bool} {i j : List ℕ} (h1 : f.length = i.length) (h2 : f.length = j.length) :
    agrees f i j = true ↔ ∀ a, a < f.length → f.getD a false = false → j.getD a 0 = i.getD a 0 := by
  induction f generalizing i j with
  | nil => simp [agrees]
  | cons b f ih =>
    match i, j with
    | c :: i, d :: j =>
      simp only [agrees, Bool.and_eq_true, Bool.or_eq_true, beq_iff_eq, ih (i := i) (j := j) (by simpa using h1) (by simpa using h2)]
      constructor
      · rintro ⟨h3, h4⟩ a ha hf
        cases a with
        | zero =>
          simp only [List.getD_cons_zero] at hf ⊢
          rcases h3 with h3 | h3
          · rw [h3] at hf; cases hf
          · exact h3.symm
        | succ a => exact h4 a (by simpa using ha) hf
      · intro h
        refine ⟨?_, fun a ha hf => h (a + 1) (by simpa using ha) hf⟩
        cases b
        · right; exact (h 0 (by simp) rfl).symm
        · left; rfl
    | [], _ => simp at h1
    | _, [] => simp at h2

lemma groupSum_get {M : Type} [AddCommMonoid M] (fl : List Bool) (x : Arr M) (i : List ℕ) :
    (groupSum fl x).get i = ∑ j ∈ box x.shape, if agrees fl i j then x.get j else 0 := by
  show (((indices x.shape).filter (agrees fl i)).map x.get).sum = _
  rw [← sumOver_eq_box, sumOver]
  induction indices x.shape with
  | nil => rfl
  | cons j l ih =>
    by_cases h : agrees fl i j = true
    · rw [List.filter_cons_of_pos h, List.map_cons, List.sum_cons, ih, List.map_cons, List.sum_cons, if_pos h]
    · rw [List.filter_cons_of_neg h, ih, List.map_cons, List.sum_cons, if_neg h, zero_add]

lemma agrees_count (fl : List Bool) (s i : List ℕ) (hl : fl.length = s.length) (hi : InRange i s) :
    (∑ j ∈ box s, if agrees fl i j then (1 : ℕ) else 0) = flagSize fl s := by
  induction fl generalizing s i with
  | nil =>
    obtain rfl := List.length_eq_zero_iff.1 hl.symm
    simp [agrees, flagSize, box_nil]
  | cons f fl ih =>
    match s, i, hi with
    | n :: s, a :: i, .cons ha hi =>
      rw [box_sum_cons]
      have e : ∀ t, (∑ q ∈ box s, if agrees (f :: fl) (a :: i) (t :: q) = true then (1 : ℕ) else 0) =
          if (f || a == t) = true then flagSize fl s else 0 := by
        intro t
        rw [← ih s i (by simpa using hl) hi]
        split_ifs with h <;> simp [agrees, h]
      simp only [e]
      cases f
      · simp only [Bool.false_or, beq_iff_eq]
        rw [Finset.sum_ite_eq]
        simp [flagSize, ha]
      · simp [flagSize]
    | [], [], _ => simp at hl

lemma keep_widens (fl : List Bool) (s : List ℕ) (hl : fl.length = s.length) : Widens (keepShape fl s) s := by
  induction fl generalizing s with
  | nil =>
    obtain rfl := List.length_eq_zero_iff.1 hl.symm
    exact List.Forall₂.nil
  | cons f fl ih =>
    match s with
    | n :: s =>
      refine List.Forall₂.cons ?_ (ih s (by simpa using hl))
      cases f <;> simp
    | [] => simp at hl

lemma agrees_keep (fl : List Bool) (s i j : List ℕ) (hl : fl.length = s.length) (hi : InRange i s) (hj : InRange j s) :
    agrees fl (bcastIdx (keepShape fl s) i) j = agrees fl i j := by
  induction fl generalizing s i j with
  | nil => simp [agrees]
  | cons f fl ih =>
    match s, i, hi, j, hj with
    | n :: s, a :: i, .cons ha hi, b :: j, .cons hb hj =>
      have := ih s i j (by simpa using hl) hi hj
      simp only [keepShape, bcastIdx, List.zipWith_cons_cons, agrees] at this ⊢
      rw [this]
      cases f
      · by_cases hn : n = 1
        · subst hn
          obtain rfl : a = 0 := by omega
          simp
        · simp [hn]
      · simp
    | [], [], _, [], _ => simp at hl

/-- The mean over the flagged axes, without mask. -/
lemma meanKeep_bc (x : Arr ℝ) (A : Finset ℕ) (hA : ∀ a ∈ A, a < x.ndim) :
    ∃ y, meanKeep x A none = .ok y ∧ y.shape = keepShape (flagsOf A x.ndim) x.shape ∧
      Bc y x.shape fun i => (∑ j ∈ box x.shape, if agrees (flagsOf A x.ndim) i j then x.get j else 0) /
        ((∑ j ∈ box x.shape, if agrees (flagsOf A x.ndim) i j then (1 : ℕ) else 0 : ℕ) : ℝ) := by
  have hl : (flagsOf A x.ndim).length = x.shape.length := by simp [flagsOf, ndim]
  refine ⟨⟨keepShape (flagsOf A x.ndim) x.shape, fun i => (groupSum (flagsOf A x.ndim) x).get i /
    (flagSize (flagsOf A x.ndim) x.shape : ℝ)⟩, ?_, rfl, keep_widens _ _ hl, ?_⟩
  · unfold meanKeep
    rw [if_pos hA]
    rfl
  · intro i hi
    dsimp only
    rw [groupSum_get, agrees_count _ _ _ hl hi]
    congr 1
    refine Finset.sum_congr rfl fun j hj => ?_
    rw [agrees_keep _ _ _ _ hl hi (mem_box.1 hj)]

lemma rv_bool (rev : Bool) (F : List Bool) (p q : List ℕ) (h1 : F.length = p.length) (h2 : F.length = q.length) :
    agrees (if rev then F.reverse else F) (rv rev p) (rv rev q) = agrees F p q := by
  cases rev
  · rfl
  · exact agrees_reverse h1 h2

/-- The sum over the flagged axes is the sum over a group. -/
lemma agrees_group {M : Type} [AddCommMonoid M] (n : ℕ) (S : List ℕ) (batch rev : Bool) (F : List Bool) (hF : F.length = S.length)
    (f : List ℕ → M) (i : ℕ) (p : List ℕ) (hp : InRange p S) :
    (∑ j ∈ box (n :: rv rev S), if agrees (batch :: if rev then F.reverse else F) (i :: rv rev p) j then f j else 0) =
      ∑ x ∈ group n S batch (fun a => F.getD a false = true) i p, f (x.1 :: rv rev x.2) := by
  classical
  rw [box_sum_cons, group, Finset.sum_filter, Finset.sum_product]
  refine Finset.sum_congr rfl fun t _ => ?_
  rw [box_sum_rv]
  refine Finset.sum_congr rfl fun q hq => ?_
  have hql := (mem_box.1 hq).length
  have hpl := hp.length
  have e : (agrees (batch :: if rev then F.reverse else F) (i :: rv rev p) (t :: rv rev q) = true) ↔
      ((batch = false → t = i) ∧ ∀ j, j < S.length → ¬ F.getD j false = true → q.getD j 0 = p.getD j 0) := by
    simp only [agrees, Bool.and_eq_true, rv_bool rev F p q (by omega) (by omega), agrees_iff (show F.length = p.length by omega)
      (show F.length = q.length by omega), Bool.or_eq_true, beq_iff_eq, hF, Bool.not_eq_true]
    refine and_congr ?_ Iff.rfl
    cases batch <;> simp [eq_comm]
  by_cases h : agrees (batch :: if rev then F.reverse else F) (i :: rv rev p) (t :: rv rev q) = true
  · rw [if_pos h, if_pos (e.1 h)]
  · rw [if_neg h, if_neg (fun h' => h (e.2 h'))]

/-- The axes averaged, as flags. -/
lemma flags_layerNormAxes (ax : Finset ℕ) (ndim ba ca : ℕ) (rev : Bool)
    (hax : ∀ a ∈ ax, a < ndim) (d : ℕ) (hd : d = (spatialAxes ndim ba ca).length) :
    flagsOf (layerNormAxes ax ndim ba ca ba rev) (1 + d) =
      decide (ba ∈ ax) :: (if rev then ((spatialAxes ndim ba ca).map fun a => decide (a ∈ ax)).reverse
        else (spatialAxes ndim ba ca).map fun a => decide (a ∈ ax)) ∧
    ∀ a ∈ layerNormAxes ax ndim ba ca ba rev, a < 1 + d := by
  have hsp : ((List.range ndim).filter fun i : ℕ => !(i == ca || (i : Int) == (ba : Int))) = spatialAxes ndim ba ca := by
    unfold spatialAxes
    refine List.filter_congr fun a _ => ?_
    by_cases h : a = ba <;> by_cases h' : a = ca <;> simp [h, h']
  have hnd : (spatialAxes ndim ba ca).Nodup := (List.nodup_range).filter _
  have hmem : ∀ a, a ∈ spatialAxes ndim ba ca ↔ a < ndim ∧ a ≠ ba ∧ a ≠ ca := by intro a; simp [spatialAxes]
  unfold layerNormAxes
  rw [hsp]
  generalize spatialAxes ndim ba ca = sp at *
  have key : ∀ l : List ℕ, l.Nodup → (∀ a, a ∈ l ↔ a < ndim ∧ a ≠ ba ∧ a ≠ ca) → l.length = d →
      flagsOf ((if ba ∈ ax then {0} else ∅) ∪ ((ax.erase ca).erase ba).image fun i => 1 + l.idxOf i) (1 + d) =
        decide (ba ∈ ax) :: l.map (fun a => decide (a ∈ ax)) ∧
      ∀ a ∈ (if ba ∈ ax then {0} else ∅) ∪ ((ax.erase ca).erase ba).image fun i => 1 + l.idxOf i, a < 1 + d := by
    intro l hn hm hl
    constructor
    · refine List.ext_getElem (by simp [flagsOf, hl]; omega) fun j h1 h2 => ?_
      simp only [flagsOf, List.getElem_map, List.getElem_range]
      cases j with
      | zero =>
        simp only [List.getElem_cons_zero]
        by_cases h : ba ∈ ax <;> simp [h]
      | succ j =>
        have hj : j < l.length := by simpa using h2
        simp only [List.getElem_cons_succ, List.getElem_map, decide_eq_decide]
        have hmj := (hm l[j]).1 (List.getElem_mem hj)
        constructor
        · intro h
          rcases Finset.mem_union.1 h with h | h
          · split_ifs at h <;> simp at h
          · obtain ⟨a, ha, hja⟩ := Finset.mem_image.1 h
            have : l.idxOf a = j := by omega
            have hal : a ∈ l := (hm a).2 ⟨hax a (Finset.mem_of_mem_erase (Finset.mem_of_mem_erase ha)),
              Finset.ne_of_mem_erase ha, Finset.ne_of_mem_erase (Finset.mem_of_mem_erase ha)⟩
            have : l[j] = a := by
              subst this
              exact List.getElem_idxOf _
            rw [this]
            exact Finset.mem_of_mem_erase (Finset.mem_of_mem_erase ha)
        · intro h
          refine Finset.mem_union_right _ (Finset.mem_image.2 ⟨l[j], ?_, ?_⟩)
          · exact Finset.mem_erase.2 ⟨hmj.2.1, Finset.mem_erase.2 ⟨hmj.2.2, h⟩⟩
          · rw [hn.idxOf_getElem]; omega
    · intro a ha
      rcases Finset.mem_union.1 ha with h | h
      · split_ifs at h
        · simp at h; omega
        · simp at h
      · obtain ⟨b, hb, rfl⟩ := Finset.mem_image.1 h
        have : l.idxOf b < l.length := List.idxOf_lt_length_of_mem ((hm b).2 ⟨hax b (Finset.mem_of_mem_erase (Finset.mem_of_mem_erase hb)),
              Finset.ne_of_mem_erase hb, Finset.ne_of_mem_erase (Finset.mem_of_mem_erase hb)⟩)
        omega
  cases rev
  · exact key sp hnd hmem hd.symm
  · have := key sp.reverse (by simpa using hnd) (by simpa using hmem) (by simpa using hd.symm)
    simpa using this

end NT
