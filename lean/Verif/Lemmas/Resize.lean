import Verif.Model.Resize
import Verif.Lemmas.Box
import Verif.Lemmas.Linear

/-!
Resized arrays.
-/

namespace NT
open Arr Spec

variable {w : ℕ → ℕ → ℕ → ℕ → ℝ}

lemma axesWeight_append : ∀ {N M I J : List ℕ} (N' M' I' J' : List ℕ), M.length = N.length → I.length = N.length → J.length = N.length →
    axesWeight w (N ++ N') (M ++ M') (I ++ I') (J ++ J') = axesWeight w N M I J * axesWeight w N' M' I' J' := by
  intro N
  induction N with
  | nil =>
    intro M I J N' M' I' J' h1 h2 h3
    simp only [List.length_nil, List.length_eq_zero_iff] at h1 h2 h3
    subst h1 h2 h3
    simp [axesWeight]
  | cons n N ih =>
    intro M I J N' M' I' J' h1 h2 h3
    obtain ⟨m, M, rfl⟩ := List.exists_cons_of_length_eq_add_one h1
    obtain ⟨i, I, rfl⟩ := List.exists_cons_of_length_eq_add_one h2
    obtain ⟨j, J, rfl⟩ := List.exists_cons_of_length_eq_add_one h3
    simp only [List.length_cons, Nat.add_right_cancel_iff] at h1 h2 h3
    simp only [List.cons_append, axesWeight, ih _ _ _ _ h1 h2 h3, mul_assoc]

lemma axesWeight_reverse : ∀ {N M I J : List ℕ}, M.length = N.length → I.length = N.length → J.length = N.length →
    axesWeight w N.reverse M.reverse I.reverse J.reverse = axesWeight w N M I J := by
  intro N
  induction N with
  | nil =>
    intro M I J h1 h2 h3
    simp only [List.length_nil, List.length_eq_zero_iff] at h1 h2 h3
    subst h1 h2 h3
    rfl
  | cons n N ih =>
    intro M I J h1 h2 h3
    obtain ⟨m, M, rfl⟩ := List.exists_cons_of_length_eq_add_one h1
    obtain ⟨i, I, rfl⟩ := List.exists_cons_of_length_eq_add_one h2
    obtain ⟨j, J, rfl⟩ := List.exists_cons_of_length_eq_add_one h3
    simp only [List.length_cons, Nat.add_right_cancel_iff] at h1 h2 h3
    simp only [List.reverse_cons]
    rw [axesWeight_append _ _ _ _ (by simpa) (by simpa) (by simpa), ih h1 h2 h3]
    simp only [axesWeight, mul_one]
    ring

lemma axesWeight_rv (rev : Bool) {N M I J : List ℕ} (h1 : M.length = N.length) (h2 : I.length = N.length) (h3 : J.length = N.length) :
    axesWeight w (rv rev N) (rv rev M) (rv rev I) (rv rev J) = axesWeight w N M I J := by
  cases rev
  · rfl
  · exact axesWeight_reverse h1 h2 h3

lemma axesWeight_interleave : ∀ {N M I J N' M' I' J' : List ℕ}, M.length = N.length → I.length = N.length → J.length = N.length →
    N'.length = N.length → M'.length = N.length → I'.length = N.length → J'.length = N.length →
    axesWeight w (interleave N N') (interleave M M') (interleave I I') (interleave J J') = axesWeight w N M I J * axesWeight w N' M' I' J' := by
  intro N
  induction N with
  | nil =>
    intro M I J N' M' I' J' h1 h2 h3 h4 h5 h6 h7
    simp only [List.length_nil, List.length_eq_zero_iff] at h1 h2 h3 h4 h5 h6 h7
    subst h1 h2 h3 h4 h5 h6 h7
    simp [axesWeight, interleave]
  | cons n N ih =>
    intro M I J N' M' I' J' h1 h2 h3 h4 h5 h6 h7
    obtain ⟨m, M, rfl⟩ := List.exists_cons_of_length_eq_add_one h1
    obtain ⟨i, I, rfl⟩ := List.exists_cons_of_length_eq_add_one h2
    obtain ⟨j, J, rfl⟩ := List.exists_cons_of_length_eq_add_one h3
    obtain ⟨n', N', rfl⟩ := List.exists_cons_of_length_eq_add_one h4
    obtain ⟨m', M', rfl⟩ := List.exists_cons_of_length_eq_add_one h5
    obtain ⟨i', I', rfl⟩ := List.exists_cons_of_length_eq_add_one h6
    obtain ⟨j', J', rfl⟩ := List.exists_cons_of_length_eq_add_one h7
    simp only [List.length_cons, Nat.add_right_cancel_iff] at *
    simp only [interleave, axesWeight, ih h1 h2 h3 h4 h5 h6 h7]
    ring

lemma axesWeight_self : ∀ {N I J : List ℕ}, I.length = N.length → J.length = N.length → axesWeight w N N I J = if I = J then 1 else 0 := by
  intro N
  induction N with
  | nil =>
    intro I J h1 h2
    simp only [List.length_nil, List.length_eq_zero_iff] at h1 h2
    subst h1 h2
    rfl
  | cons n N ih =>
    intro I J h1 h2
    obtain ⟨i, I, rfl⟩ := List.exists_cons_of_length_eq_add_one h1
    obtain ⟨j, J, rfl⟩ := List.exists_cons_of_length_eq_add_one h2
    simp only [List.length_cons, Nat.add_right_cancel_iff] at *
    simp only [axesWeight, axisWeight, if_true, ih h1 h2, List.cons.injEq]
    by_cases a : i = j <;> by_cases b : I = J <;> simp [a, b]

lemma axesWeight_insertIdx : ∀ (k : ℕ) {N M I J : List ℕ} (n m i j : ℕ), M.length = N.length → I.length = N.length → J.length = N.length → k ≤ N.length →
    axesWeight w (N.insertIdx k n) (M.insertIdx k m) (I.insertIdx k i) (J.insertIdx k j) = axisWeight w n m i j * axesWeight w N M I J := by
  intro k
  induction k with
  | zero => intro N M I J n m i j _ _ _ _; simp [axesWeight]
  | succ k ih =>
    intro N M I J n m i j h1 h2 h3 h4
    obtain ⟨n0, N, rfl⟩ := List.exists_cons_of_length_pos (l := N) (by omega)
    obtain ⟨m0, M, rfl⟩ := List.exists_cons_of_length_eq_add_one h1
    obtain ⟨i0, I, rfl⟩ := List.exists_cons_of_length_eq_add_one h2
    obtain ⟨j0, J, rfl⟩ := List.exists_cons_of_length_eq_add_one h3
    simp only [List.length_cons, Nat.add_right_cancel_iff, Nat.add_le_add_iff_right] at h1 h2 h3 h4
    simp only [List.insertIdx_succ_cons, axesWeight, ih n m i j h1 h2 h3 h4]
    ring

lemma axesWeight_actIdx (B A : ℕ) {N M I J : List ℕ} {n m i j n' m' i' j' : ℕ} (hne : B ≠ A) (h1 : M.length = N.length) (h2 : I.length = N.length)
    (h3 : J.length = N.length) (hB : B < N.length + 2) (hA : A < N.length + 2) :
    axesWeight w (actIdx B A n n' N) (actIdx B A m m' M) (actIdx B A i i' I) (actIdx B A j j' J) =
      axisWeight w n' m' i' j' * (axisWeight w n m i j * axesWeight w N M I J) := by
  unfold actIdx
  split_ifs with h
  · rw [axesWeight_insertIdx A _ _ _ _ _ _ _ _, axesWeight_insertIdx B _ _ _ _ h1 h2 h3 (by omega)]
    all_goals simp only [List.length_insertIdx]
    all_goals split_ifs <;> omega
  · rw [axesWeight_insertIdx B _ _ _ _ _ _ _ _, axesWeight_insertIdx A _ _ _ _ h1 h2 h3 (by omega)]
    · ring
    all_goals simp only [List.length_insertIdx]
    all_goals split_ifs <;> omega

lemma box_sum_actIdx (B A n C : ℕ) (S : List ℕ) (hne : B ≠ A) (hB : B < S.length + 2) (hA : A < S.length + 2) (f : List ℕ → ℝ) :
    ∑ i ∈ box (actIdx B A n C S), f i = ∑ j ∈ Finset.range n, ∑ c ∈ Finset.range C, ∑ p ∈ box S, f (actIdx B A j c p) := by
  unfold actIdx
  split_ifs with h
  · rw [box_sum_insertIdx _ _ _ (by rw [List.length_insertIdx]; split_ifs <;> omega)]
    rw [Finset.sum_comm (s := Finset.range n)]
    refine Finset.sum_congr rfl fun c _ => ?_
    rw [box_sum_insertIdx _ _ _ (by omega)]
  · rw [box_sum_insertIdx _ _ _ (by rw [List.length_insertIdx]; split_ifs <;> omega)]
    refine Finset.sum_congr rfl fun j _ => ?_
    rw [box_sum_insertIdx _ _ _ (by omega)]

/-- The sum over an axis that is left alone. -/
lemma sum_axesWeight_self (S J : List ℕ) (hJ : InRange J S) (f : List ℕ → ℝ) : ∑ i ∈ box S, axesWeight w S S i J * f i = f J := by
  rw [Finset.sum_eq_single_of_mem J (mem_box.2 hJ) fun i hi hne => by
    rw [axesWeight_self (mem_box.1 hi).length hJ.length, if_neg hne, zero_mul]]
  rw [axesWeight_self hJ.length hJ.length, if_pos rfl, one_mul]

lemma imageResize_ok {x : Arr ℝ} {shape : List ℕ} (h : shape.length = x.ndim) :
    imageResize w x shape = .ok ⟨shape, fun o => ∑ i ∈ box x.shape, axesWeight w x.shape shape i o * x.get i⟩ := by
  unfold imageResize
  rw [if_pos h]
  simp only [sumOver_eq_box]

/-- Covariances of resized arrays. -/
noncomputable def resizedF (w : ℕ → ℕ → ℕ → ℕ → ℝ) (B B' S S' T T' : List ℕ) (F : List ℕ → List ℕ → List ℕ → ℝ) (b' p' q' : List ℕ) : ℝ :=
  ∑ b ∈ box B, ∑ p ∈ box S, ∑ q ∈ box T, axesWeight w B B' b b' * axesWeight w S S' p p' * axesWeight w T T' q q' * F b p q

lemma resize_holds {a : Arr ℝ} {B S T : List ℕ} {diag rev : Bool} {F : List ℕ → List ℕ → List ℕ → ℝ} (h : Holds a B S T diag rev F)
    {B' S' T' : List ℕ} (hB : B'.length = B.length) (hS : S'.length = S.length) (hT : T'.length = T.length)
    (hd : diag = true → S' = S ∧ T' = T) :
    ∃ a', imageResize w a (B' ++ pos diag rev S' T') = .ok a' ∧ Holds a' B' S' T' diag rev (resizedF w B B' S S' T T' F) := by
  have hrk := h.rank
  have hr' : S'.length = T'.length := by omega
  refine ⟨_, imageResize_ok ?_, ?_⟩
  · unfold ndim
    rw [h.shape, List.length_append, List.length_append, pos_length _ _ hr', pos_length _ _ hrk, hB, hS]
  · refine ⟨hr', fun e => by rw [(hd e).1, (hd e).2]; exact h.square e, rfl, ?_⟩
    intro b p q hb hp hq he
    dsimp only
    rw [h.shape, box_sum_append]
    unfold resizedF
    refine Finset.sum_congr rfl fun b0 hb0 => ?_
    have hb0' := mem_box.1 hb0
    cases diag
    · rw [pos_full, box_sum_interleave _ _ (by simpa using hrk)]
      rw [box_sum_rv rev S]
      refine Finset.sum_congr rfl fun p0 hp0 => ?_
      rw [box_sum_rv rev T]
      refine Finset.sum_congr rfl fun q0 hq0 => ?_
      have hp0' := mem_box.1 hp0
      have hq0' := mem_box.1 hq0
      have l1 := hb0'.length
      have l2 := hb.length
      have l3 := hp0'.length
      have l4 := hq0'.length
      have l5 := hp.length
      have l6 := hq.length
      rw [axesWeight_append _ _ _ _ hB l1 (by omega), pos_full, pos_full,
        axesWeight_interleave (by simpa) (by simpa) (by simp; omega) (by simp; omega) (by simp; omega) (by simp; omega) (by simp; omega),
        axesWeight_rv rev hS l3 (by omega), axesWeight_rv rev hT l4 (by omega), ← pos_full, h.get b0 p0 q0 hb0' hp0' hq0' (by simp)]
      ring
    · obtain ⟨rfl, rfl⟩ := hd rfl
      obtain rfl := h.square rfl
      obtain rfl := he rfl
      have l1 := hb0'.length
      have l2 := hb.length
      rw [pos_diag, box_sum_rv rev S']
      have e1 : ∀ p0 ∈ box S', axesWeight w (B ++ rv rev S') (B' ++ rv rev S') (b0 ++ rv rev p0) (b ++ pos true rev p p) *
          a.get (b0 ++ rv rev p0) = axesWeight w S' S' p0 p * (axesWeight w B B' b0 b * F b0 p0 p0) := by
        intro p0 hp0
        have hp0' := mem_box.1 hp0
        rw [axesWeight_append _ _ _ _ hB l1 (by omega), pos_diag, axesWeight_rv rev rfl hp0'.length hp.length, ← pos_diag rev p0 p0,
          h.get b0 p0 p0 hb0' hp0' hp0' (fun _ => rfl)]
        ring
      have e2 : ∀ p0 ∈ box S', ∑ q ∈ box S', axesWeight w B B' b0 b * axesWeight w S' S' p0 p * axesWeight w S' S' q p * F b0 p0 q =
          axesWeight w S' S' p0 p * (axesWeight w B B' b0 b * F b0 p0 p) := by
        intro p0 _
        rw [← sum_axesWeight_self (w := w) S' p hp (fun q => F b0 p0 q), Finset.mul_sum, Finset.mul_sum]
        exact Finset.sum_congr rfl fun q _ => by ring
      rw [pos_diag] at *
      rw [Finset.sum_congr rfl e1, Finset.sum_congr rfl e2, sum_axesWeight_self S' p hp, sum_axesWeight_self S' p hp]

namespace ImageResize

/-- The sizes after resizing. -/
def sizes (o : List (Option ℕ)) (S : List ℕ) : List ℕ := List.zipWith (fun o n => o.getD n) o S

lemma resolve_eq : ∀ {o : List (Option ℕ)} {S : List ℕ}, o.length = S.length → resolve o S = .ok (sizes o S) := by
  intro o
  induction o with
  | nil => intro S _; cases S <;> rfl
  | cons a o ih =>
    intro S h
    obtain ⟨n, S, rfl⟩ := List.exists_cons_of_length_eq_add_one h.symm
    cases a <;> simp only [resolve, List.tail_cons, ih (by simpa using h)] <;> rfl

lemma zipWith_insertIdx {α β γ : Type} (f : α → β → γ) : ∀ (l : List α) (m : List β) (k : ℕ) (a : α) (b : β), l.length = m.length →
    List.zipWith f (l.insertIdx k a) (m.insertIdx k b) = (List.zipWith f l m).insertIdx k (f a b) := by
  intro l
  induction l with
  | nil =>
    intro m k a b h
    obtain rfl := List.length_eq_zero_iff.1 h.symm
    cases k <;> simp
  | cons x l ih =>
    intro m k a b h
    obtain ⟨y, m, rfl⟩ := List.exists_cons_of_length_eq_add_one h.symm
    cases k with
    | zero => simp
    | succ k => simp [ih m k a b (by simpa using h)]

lemma sizes_actIdx (B A : ℕ) (ob oc : Option ℕ) (o : List (Option ℕ)) (n C : ℕ) (S : List ℕ) (h : o.length = S.length) :
    sizes (actIdx B A ob oc o) (actIdx B A n C S) = actIdx B A (ob.getD n) (oc.getD C) (sizes o S) := by
  have hl : ∀ (k : ℕ) (a : Option ℕ) (b : ℕ), (o.insertIdx k a).length = (S.insertIdx k b).length := by
    intro k a b
    rw [List.length_insertIdx, List.length_insertIdx, h]
  unfold sizes actIdx
  split_ifs
  · rw [zipWith_insertIdx _ _ _ _ _ _ (hl _ _ _), zipWith_insertIdx _ _ _ _ _ _ h]
  · rw [zipWith_insertIdx _ _ _ _ _ _ (hl _ _ _), zipWith_insertIdx _ _ _ _ _ _ h]

lemma sizes_length {o : List (Option ℕ)} {S : List ℕ} (h : o.length = S.length) : (sizes o S).length = S.length := by simp [sizes, h]

lemma flatMap_pair (l : List ℕ) (f g : ℕ → ℕ) : l.flatMap (fun i => [f i, g i]) = interleave (l.map f) (l.map g) := by
  induction l with
  | nil => rfl
  | cons a l ih => simp [interleave, ih]

/-- The shape of a resized array, if the spatial axes are not reversed. -/
lemma kShape_eq (d : ImageResize) (db ds : Bool) (n1 n2 C1 C2 : ℕ) (S1 S2 : List ℕ) (hS : S2.length = S1.length) (hne : d.ba ≠ d.ca)
    (hb : d.ba < S1.length + 2) (hc : d.ca < S1.length + 2) :
    d.kShape ds (actIdx d.ba d.ca n1 C1 S1) (actIdx d.ba d.ca n2 C2 S2) db = (n1 :: if db then [] else [n2]) ++ pos ds false S1 S2 := by
  obtain ⟨g1, g2, g3⟩ := gather_act d.ba d.ca n1 C1 S1 hne hb hc
  obtain ⟨g1', g2', g3'⟩ := gather_act d.ba d.ca n2 C2 S2 hne (by omega) (by omega)
  unfold kShape
  rw [g2, g2', actIdx_length _ _ _ _ _ hne hb hc, actIdx_length _ _ _ _ _ hne (by omega) (by omega), hS, min_self]
  have e : ((List.range (S1.length + 2)).filter fun i => !([d.ba, d.ca].contains i)) = restAxes (S1.length + 2) d.ba d.ca := rfl
  rw [e]
  congr 1
  unfold gather at g1 g1'
  rw [hS] at g1'
  cases ds
  · simp only [Bool.false_eq_true, if_false]
    rw [flatMap_pair, g1, g1', pos_full]
    rfl
  · simp only [if_true]
    rw [pos_diag]
    refine Eq.trans ?_ g1
    exact (List.map_eq_flatMap ..).symm

end ImageResize
end NT
