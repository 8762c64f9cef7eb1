import Verif.Lemmas.Act
import Verif.Props.C21

/-!
Lemmas about NumPy basic indexing (`npIndex`).
-/

namespace NT
open Arr Kernel Utils Spec

variable {α : Type}

lemma npIndexShape_length : ∀ {s : List Nat} {e : List Entry} {o : List Nat},
    npIndexShape s e = .ok o → s.length = e.length ∧ o.length + e.countP isIntEntry = e.length
  | [], [], o, h => by
    simp only [npIndexShape, Except.ok.injEq] at h
    subst h
    simp
  | [], _ :: _, o, h => by simp [npIndexShape] at h
  | _ :: _, [], o, h => by simp [npIndexShape] at h
  | n :: s, .int i :: e, o, h => by
    simp only [npIndexShape, bind, Except.bind] at h
    cases h1 : arangeAt n i with
    | error x => rw [h1] at h; simp at h
    | ok d =>
      rw [h1] at h
      obtain ⟨a, b⟩ := npIndexShape_length h
      simp [a, isIntEntry, List.countP_cons]
      omega
  | n :: s, .slice a b c :: e, o, h => by
    simp only [npIndexShape, bind, Except.bind, pure, Except.pure] at h
    cases h1 : sliceLen n a b c with
    | error x => rw [h1] at h; simp at h
    | ok m =>
      rw [h1] at h
      simp only at h
      cases h2 : npIndexShape s e with
      | error x => rw [h2] at h; simp at h
      | ok r =>
        rw [h2] at h
        simp only [Except.ok.injEq] at h
        subst h
        obtain ⟨x, y⟩ := npIndexShape_length h2
        simp [x, isIntEntry]
        omega
  | _ :: _, .ellipsis :: _, o, h => by simp [npIndexShape] at h

lemma npIndexShape_append : ∀ {s s' : List Nat} {e e' : List Entry} {o : List Nat},
    s.length = e.length → (npIndexShape (s ++ s') (e ++ e') = .ok o ↔
      ∃ a b, npIndexShape s e = .ok a ∧ npIndexShape s' e' = .ok b ∧ o = a ++ b)
  | [], s', [], e', o, _ => by simp [npIndexShape]
  | [], _, _ :: _, _, _, h => by simp at h
  | _ :: _, _, [], _, _, h => by simp at h
  | n :: s, s', .int i :: e, e', o, h => by
    simp only [List.cons_append, npIndexShape, bind, Except.bind]
    cases h1 : arangeAt n i with
    | error x => simp
    | ok d => exact npIndexShape_append (by simpa using h)
  | n :: s, s', .slice a b c :: e, e', o, h => by
    have ih := @npIndexShape_append s s' e e'
    simp only [List.cons_append, npIndexShape, bind, Except.bind, pure, Except.pure]
    cases h1 : sliceLen n a b c with
    | error x => simp
    | ok m =>
      simp only
      constructor
      · intro hh
        cases h2 : npIndexShape (s ++ s') (e ++ e') with
        | error x => rw [h2] at hh; simp at hh
        | ok r =>
          rw [h2] at hh
          simp only [Except.ok.injEq] at hh
          subst hh
          obtain ⟨x, y, hx, hy, rfl⟩ := (ih (by simpa using h)).1 h2
          exact ⟨m :: x, y, by rw [hx], hy, rfl⟩
      · rintro ⟨x, y, hx, hy, rfl⟩
        cases h2 : npIndexShape s e with
        | error z => rw [h2] at hx; simp at hx
        | ok r =>
          rw [h2] at hx
          simp only [Except.ok.injEq] at hx
          subst hx
          rw [(ih (by simpa using h)).2 ⟨r, y, h2, hy, rfl⟩]
          rfl
  | _ :: _, _, .ellipsis :: _, _, o, _ => by simp [npIndexShape]

lemma sourceIdx_append : ∀ {s s' : List Nat} {e e' : List Entry} {a o o' : List Nat},
    npIndexShape s e = .ok a → o.length = a.length →
      sourceIdx (s ++ s') (e ++ e') (o ++ o') = sourceIdx s e o ++ sourceIdx s' e' o'
  | [], s', [], e', a, o, o', h, ho => by
    simp only [npIndexShape, Except.ok.injEq] at h
    subst h
    have : o = [] := by simpa using ho
    subst this
    simp [sourceIdx]
  | [], _, _ :: _, _, a, o, o', h, _ => by simp [npIndexShape] at h
  | _ :: _, _, [], _, a, o, o', h, _ => by simp [npIndexShape] at h
  | n :: s, s', .int i :: e, e', a, o, o', h, ho => by
    simp only [npIndexShape, bind, Except.bind] at h
    cases h1 : arangeAt n i with
    | error x => rw [h1] at h; simp at h
    | ok d =>
      rw [h1] at h
      simp only [List.cons_append, sourceIdx]
      rw [sourceIdx_append h ho]
  | n :: s, s', .slice x y z :: e, e', a, o, o', h, ho => by
    simp only [npIndexShape, bind, Except.bind, pure, Except.pure] at h
    cases h1 : sliceLen n x y z with
    | error x => rw [h1] at h; simp at h
    | ok m =>
      rw [h1] at h
      simp only at h
      cases h2 : npIndexShape s e with
      | error x => rw [h2] at h; simp at h
      | ok r =>
        rw [h2] at h
        simp only [Except.ok.injEq] at h
        subst h
        cases o with
        | nil => simp at ho
        | cons k o =>
          simp only [List.cons_append, sourceIdx]
          rw [sourceIdx_append h2 (by simpa using ho)]
  | _ :: _, _, .ellipsis :: _, _, a, o, o', h, _ => by simp [npIndexShape] at h

lemma sliceAt_lt (n : Nat) (a b c : Option Int) (m k : Nat) (h : sliceLen n a b c = .ok m) (hk : k < m) :
    sliceAt n a b c k < n := by
  cases h1 : sliceIndices n a b c with
  | error e => simp [sliceLen, h1, bind, Except.bind] at h
  | ok r =>
    obtain ⟨x, y, z⟩ := r
    obtain ⟨m', e, hm⟩ := C21.sliceLen_counts n a b c x y z h1
    rw [h] at e
    cases e
    have := (hm k).2 hk
    simp only [sliceAt, h1]
    omega

lemma arangeAt_lt (n : Nat) (i : Int) (d : Nat) (h : arangeAt n i = .ok d) : d < n := by
  unfold arangeAt at h
  split_ifs at h <;> simp at h <;> omega

lemma sourceIdx_inRange : ∀ {s : List Nat} {e : List Entry} {a o : List Nat},
    npIndexShape s e = .ok a → InRange o a → InRange (sourceIdx s e o) s
  | [], [], a, o, h, ho => by simp [sourceIdx]
  | [], _ :: _, a, o, h, _ => by simp [npIndexShape] at h
  | _ :: _, [], a, o, h, _ => by simp [npIndexShape] at h
  | n :: s, .int i :: e, a, o, h, ho => by
    simp only [npIndexShape, bind, Except.bind] at h
    cases h1 : arangeAt n i with
    | error x => rw [h1] at h; simp at h
    | ok d =>
      rw [h1] at h
      simp only [sourceIdx, h1, inRange_cons]
      exact ⟨arangeAt_lt n i d h1, sourceIdx_inRange h ho⟩
  | n :: s, .slice x y z :: e, a, o, h, ho => by
    simp only [npIndexShape, bind, Except.bind, pure, Except.pure] at h
    cases h1 : sliceLen n x y z with
    | error x => rw [h1] at h; simp at h
    | ok m =>
      rw [h1] at h
      simp only at h
      cases h2 : npIndexShape s e with
      | error x => rw [h2] at h; simp at h
      | ok r =>
        rw [h2] at h
        simp only [Except.ok.injEq] at h
        subst h
        obtain ⟨k, o', rfl, hk, ho'⟩ := inRange_cons_right.1 ho
        simp only [sourceIdx, inRange_cons]
        exact ⟨sliceAt_lt n x y z m k h1 hk, sourceIdx_inRange h2 ho'⟩
  | _ :: _, .ellipsis :: _, a, o, h, _ => by simp [npIndexShape] at h

/-- Indexing the axes in reverse order. -/
lemma npIndexShape_reverse : ∀ {s : List Nat} {e : List Entry} {a : List Nat},
    npIndexShape s e = .ok a → npIndexShape s.reverse e.reverse = .ok a.reverse ∧
      ∀ o, o.length = a.length → sourceIdx s.reverse e.reverse o.reverse = (sourceIdx s e o).reverse
  | [], [], a, h => by
    simp only [npIndexShape, Except.ok.injEq] at h
    subst h
    refine ⟨rfl, fun o ho => ?_⟩
    have : o = [] := by simpa using ho
    subst this
    rfl
  | [], _ :: _, a, h => by simp [npIndexShape] at h
  | _ :: _, [], a, h => by simp [npIndexShape] at h
  | n :: s, x :: e, a, h => by
    have hl := (npIndexShape_length h).1
    have h' : npIndexShape ([n] ++ s) ([x] ++ e) = .ok a := h
    obtain ⟨u, v, hu, hv, rfl⟩ := (npIndexShape_append (by simp)).1 h'
    obtain ⟨ih1, ih2⟩ := npIndexShape_reverse hv
    have ur : npIndexShape [n] [x] = .ok u.reverse := by
      rw [hu]
      congr 1
      have := (npIndexShape_length hu).2
      have hul : u.length ≤ 1 := by
        simp at this
        omega
      match u, hul with
      | [], _ => rfl
      | [_], _ => rfl
    constructor
    · rw [List.reverse_cons, List.reverse_cons, List.reverse_append]
      exact (npIndexShape_append (by simpa using hl)).2 ⟨_, _, ih1, ur, rfl⟩
    · intro o ho
      have hul : u.length ≤ 1 := by
        have := (npIndexShape_length hu).2
        simp at this
        omega
      obtain ⟨o1, o2, rfl, ho1, ho2⟩ : ∃ o1 o2, o = o1 ++ o2 ∧ o1.length = u.length ∧ o2.length = v.length :=
        ⟨o.take u.length, o.drop u.length, by simp, by simp at ho ⊢; omega, by simp at ho ⊢; omega⟩
      have o1r : o1.reverse = o1 := by
        match o1, ho1.trans_le hul with
        | [], _ => rfl
        | [_], _ => rfl
      rw [List.reverse_cons, List.reverse_cons, List.reverse_append,
        sourceIdx_append ih1 (by simpa using ho2), ih2 o2 ho2, o1r]
      have e1 : sourceIdx (n :: s) (x :: e) (o1 ++ o2) = sourceIdx [n] [x] o1 ++ sourceIdx s e o2 := by
        have := sourceIdx_append (s' := s) (e' := e) (o' := o2) hu ho1
        simpa using this
      rw [e1, List.reverse_append]
      congr 1
      have hlen : (sourceIdx [n] [x] o1).length ≤ 1 := by
        cases x with
        | int i => simp [sourceIdx]
        | slice p q r =>
          cases o1 with
          | nil => simp [sourceIdx]
          | cons _ _ => simp [sourceIdx]
        | ellipsis => simp [sourceIdx]
      match hh : sourceIdx [n] [x] o1, hlen with
      | [], _ => rfl
      | [_], _ => rfl

/-- Indexing pairs of axes with the same entry. -/
lemma npIndexShape_double : ∀ {s t : List Nat} {e : List Entry} {a b : List Nat},
    npIndexShape s e = .ok a → npIndexShape t e = .ok b →
      npIndexShape (interleave s t) (doubleTuple e) = .ok (interleave a b) ∧
      ∀ p q, p.length = a.length → q.length = b.length →
        sourceIdx (interleave s t) (doubleTuple e) (interleave p q) =
          interleave (sourceIdx s e p) (sourceIdx t e q)
  | [], t, [], a, b, h, h' => by
    cases t with
    | cons _ _ => simp [npIndexShape] at h'
    | nil =>
      simp only [npIndexShape, Except.ok.injEq] at h h'
      subst h h'
      refine ⟨rfl, fun p q hp hq => ?_⟩
      simp [sourceIdx, interleave]
  | [], _, _ :: _, a, b, h, _ => by simp [npIndexShape] at h
  | _ :: _, _, [], a, b, h, _ => by simp [npIndexShape] at h
  | n :: s, [], _ :: _, a, b, _, h' => by simp [npIndexShape] at h'
  | n :: s, m :: t, .int i :: e, a, b, h, h' => by
    simp only [npIndexShape, bind, Except.bind] at h h'
    cases h1 : arangeAt n i with
    | error x => rw [h1] at h; simp at h
    | ok d =>
      cases h2 : arangeAt m i with
      | error x => rw [h2] at h'; simp at h'
      | ok d' =>
        rw [h1] at h
        rw [h2] at h'
        obtain ⟨ih1, ih2⟩ := npIndexShape_double h h'
        have hd : doubleTuple (Entry.int i :: e) = .int i :: .int i :: doubleTuple e := rfl
        rw [hd]
        refine ⟨?_, fun p q hp hq => ?_⟩
        · simp only [interleave, npIndexShape, bind, Except.bind, h1, h2, ih1]
        · simp only [interleave, sourceIdx, h1, h2, ih2 p q hp hq]
  | n :: s, m :: t, .slice x y z :: e, a, b, h, h' => by
    simp only [npIndexShape, bind, Except.bind, pure, Except.pure] at h h'
    cases h1 : sliceLen n x y z with
    | error x => rw [h1] at h; simp at h
    | ok u =>
      cases h2 : sliceLen m x y z with
      | error x => rw [h2] at h'; simp at h'
      | ok v =>
        rw [h1] at h
        rw [h2] at h'
        simp only at h h'
        cases h3 : npIndexShape s e with
        | error x => rw [h3] at h; simp at h
        | ok r =>
          cases h4 : npIndexShape t e with
          | error x => rw [h4] at h'; simp at h'
          | ok r' =>
            rw [h3] at h
            rw [h4] at h'
            simp only [Except.ok.injEq] at h h'
            subst h h'
            obtain ⟨ih1, ih2⟩ := npIndexShape_double h3 h4
            have hd : doubleTuple (Entry.slice x y z :: e) = .slice x y z :: .slice x y z :: doubleTuple e := rfl
            rw [hd]
            refine ⟨?_, fun p q hp hq => ?_⟩
            · simp only [interleave, npIndexShape, bind, Except.bind, pure, Except.pure, h1, h2, ih1]
            · cases p with
              | nil => simp at hp
              | cons k p =>
                cases q with
                | nil => simp at hq
                | cons k' q =>
                  simp only [interleave, sourceIdx, ih2 p q (by simpa using hp) (by simpa using hq)]
  | _ :: _, _ :: _, .ellipsis :: _, a, b, h, _ => by simp [npIndexShape] at h

/-- A list of entries in storage order. -/
def rvE (rev : Bool) (e : List Entry) : List Entry := if rev then e.reverse else e

lemma npIndexShape_rv {rev : Bool} {s : List Nat} {e : List Entry} {a : List Nat}
    (h : npIndexShape s e = .ok a) : npIndexShape (rv rev s) (rvE rev e) = .ok (rv rev a) ∧
      ∀ o, o.length = a.length → sourceIdx (rv rev s) (rvE rev e) (rv rev o) = rv rev (sourceIdx s e o) := by
  cases rev
  · exact ⟨h, fun _ _ => rfl⟩
  · exact npIndexShape_reverse h

/-- Indexing an array of covariances. -/
lemma npIndex_holds {a : Arr α} {B S T : List Nat} {diag rev : Bool}
    {F : List Nat → List Nat → List Nat → α} (ha : Holds a B S T diag rev F) (eb sp : List Entry)
    {B' S' T' : List Nat} (hB : npIndexShape B eb = .ok B') (hS : npIndexShape S sp = .ok S')
    (hT : npIndexShape T sp = .ok T') :
    ∃ z, npIndex a (eb ++ if diag then rvE rev sp else doubleTuple (rvE rev sp)) = .ok z ∧
      Holds z B' S' T' diag rev
        (fun b p q => F (sourceIdx B eb b) (sourceIdx S sp p) (sourceIdx T sp q)) := by
  obtain ⟨s1, s2⟩ := npIndexShape_rv (rev := rev) hS
  obtain ⟨t1, t2⟩ := npIndexShape_rv (rev := rev) hT
  have hBl := (npIndexShape_length hB).1
  have hr : S'.length = T'.length := by
    have h1 := (npIndexShape_length hS).2
    have h2 := (npIndexShape_length hT).2
    omega
  have key : npIndexShape (pos diag rev S T) (if diag then rvE rev sp else doubleTuple (rvE rev sp)) =
        .ok (pos diag rev S' T') ∧
      ∀ p q, p.length = S'.length → q.length = T'.length → (diag = true → p = q) →
        sourceIdx (pos diag rev S T) (if diag then rvE rev sp else doubleTuple (rvE rev sp))
          (pos diag rev p q) = pos diag rev (sourceIdx S sp p) (sourceIdx T sp q) := by
    cases diag
    · simp only [pos_full, Bool.false_eq_true, if_false]
      obtain ⟨d1, d2⟩ := npIndexShape_double s1 t1
      refine ⟨d1, fun p q hp hq _ => ?_⟩
      rw [d2 _ _ (by simpa using hp) (by simpa using hq), s2 p hp, t2 q hq]
    · simp only [pos_diag, if_true]
      exact ⟨s1, fun p q hp hq _ => s2 p hp⟩
  have hsh : npIndexShape a.shape (eb ++ if diag then rvE rev sp else doubleTuple (rvE rev sp)) =
      .ok (B' ++ pos diag rev S' T') := by
    rw [ha.shape]
    exact (npIndexShape_append hBl).2 ⟨_, _, hB, key.1, rfl⟩
  refine ⟨⟨B' ++ pos diag rev S' T', fun o => a.get (sourceIdx a.shape
    (eb ++ if diag then rvE rev sp else doubleTuple (rvE rev sp)) o)⟩, ?_, hr, ?_, rfl, ?_⟩
  · unfold npIndex
    simp only [hsh, bind, Except.bind, pure, Except.pure]
  · intro hd
    have := ha.square hd
    subst this
    rw [hS] at hT
    exact Except.ok.inj hT
  · intro b p q hb hp hq hpq
    simp only
    rw [ha.shape, sourceIdx_append hB hb.length, key.2 p q hp.length hq.length hpq]
    refine ha.get _ _ _ (sourceIdx_inRange hB hb) (sourceIdx_inRange hS hp) (sourceIdx_inRange hT hq) ?_
    intro hd
    rw [hpq hd, ha.square hd]

/-- Axis numbers after integer indexing: minus the integers before. -/
lemma shiftAxis_eq (idx : List Entry) (axis : Nat) :
    shiftAxis idx axis = axis - (idx.take axis).countP isIntEntry := by
  unfold shiftAxis
  have main : ∀ (l : List Entry) (ax : Nat),
      l.zipIdx.reverse.foldl (fun ax p => if isIntEntry p.1 ∧ p.2 < ax then ax - 1 else ax) ax =
        ax - (l.take ax).countP isIntEntry := by
    intro l
    induction l using List.reverseRecOn with
    | nil => intro ax; simp
    | append_singleton l x ih =>
      intro ax
      rw [List.zipIdx_append, List.reverse_append]
      simp only [Nat.zero_add, List.zipIdx_singleton, List.reverse_cons, List.reverse_nil, List.nil_append,
        List.singleton_append, List.foldl_cons]
      rw [ih]
      by_cases hx : isIntEntry x = true ∧ l.length < ax
      · rw [if_pos hx]
        have e1 : (l ++ [x]).take ax = l ++ [x] := List.take_of_length_le (by simp; omega)
        have e2 : l.take (ax - 1) = l := List.take_of_length_le (by omega)
        rw [e1, e2, List.countP_append]
        simp [hx.1]
        omega
      · rw [if_neg hx]
        by_cases hl : l.length < ax
        · have hx' : isIntEntry x = false := by
            cases h : isIntEntry x
            · rfl
            · exact absurd ⟨h, hl⟩ hx
          have e1 : (l ++ [x]).take ax = l ++ [x] := List.take_of_length_le (by simp; omega)
          have e2 : l.take ax = l := List.take_of_length_le (by omega)
          rw [e1, e2, List.countP_append]
          simp [hx']
        · rw [List.take_append_of_le_length (by omega)]
  exact main idx axis

end NT
