import Mathlib.Data.Finset.Card
import Mathlib.Order.Interval.Finset.Nat
import Verif.Model.Utils
import Verif.Tac

/-!
# C21: index canonicalisation and slice shapes
-/

namespace NT.C21
open NT Utils

/-! ## Specification -/

/-- NumPy's reading of an index: the tuple `pre` alone leaves the remaining axes whole; in
`pre, ..., post` the Ellipsis stands for the axes in between. -/
inductive Means (ndim : ℕ) : Idx → List Entry → Prop
  | one (e : Entry) (he : e ≠ .ellipsis) (h : 1 ≤ ndim) :
      Means ndim (.one e) (e :: List.replicate (ndim - 1) full)
  | oneEllipsis : Means ndim (.one .ellipsis) (List.replicate ndim full)
  | plain (pre : List Entry) (h : Entry.ellipsis ∉ pre) (hl : pre.length ≤ ndim) :
      Means ndim (.tuple pre) (pre ++ List.replicate (ndim - pre.length) full)
  | ellipsis (pre post : List Entry) (h : Entry.ellipsis ∉ pre) (h' : Entry.ellipsis ∉ post)
      (hl : pre.length + post.length ≤ ndim) :
      Means ndim (.tuple (pre ++ .ellipsis :: post))
        (pre ++ List.replicate (ndim - (pre.length + post.length)) full ++ post)

/-- What one entry of the index does to an axis: nothing left for an integer in range, the size of
the slice otherwise; a whole axis keeps its size even if it is unknown (negative). -/
def axisResult (s : ℤ) (e : Entry) : Except Err (Option ℤ) :=
  match e with
  | .int i => if -s ≤ i ∧ i < s then .ok none else .error .indexError
  | .slice a b c =>
    if s < 0 then (if Entry.slice a b c = full then .ok (some s) else .error .valueError)
    else Except.map (fun n : ℕ => some (n : ℤ)) (sliceLen s.toNat a b c)
  | .ellipsis => .error .indexError

/-- The shape of the indexed array. -/
def resultShape : List ℤ → List Entry → Except Err (List ℤ)
  | [], [] => .ok []
  | s :: sh, e :: es =>
    match axisResult s e with
    | .error x => .error x
    | .ok r =>
      match resultShape sh es with
      | .error x => .error x
      | .ok l => .ok (r.toList ++ l)
  | _, _ => .error .indexError

/-! ## Canonical indices -/

lemma fold_no_ellipsis (ndim : ℕ) (l : List Entry) (h : Entry.ellipsis ∉ l) (k : ℕ)
    (acc : List Entry) :
    (l.zipIdx k).foldl (fun (acc : List Entry) p =>
      if p.1 = .ellipsis then
        acc.take p.2 ++ List.replicate (ndim + 1 - acc.length) full ++ acc.drop (p.2 + 1)
      else acc) acc = acc := by
  induction l generalizing k with
  | nil => rfl
  | cons e l ih =>
    have he : e ≠ .ellipsis := fun h' => h (by simp [h'])
    rw [List.zipIdx_cons, List.foldl_cons]
    simp only [he, if_false]
    exact ih (fun h' => h (by simp [h'])) (k + 1)

lemma fold_ellipsis (ndim : ℕ) (pre post : List Entry) (h : Entry.ellipsis ∉ pre)
    (h' : Entry.ellipsis ∉ post) :
    ((pre ++ Entry.ellipsis :: post).zipIdx).foldl (fun (acc : List Entry) p =>
      if p.1 = .ellipsis then
        acc.take p.2 ++ List.replicate (ndim + 1 - acc.length) full ++ acc.drop (p.2 + 1)
      else acc) (pre ++ Entry.ellipsis :: post) =
    pre ++ List.replicate (ndim - (pre.length + post.length)) full ++ post := by
  rw [List.zipIdx_append, List.foldl_append, fold_no_ellipsis ndim pre h, List.zipIdx_cons,
    List.foldl_cons, fold_no_ellipsis ndim post h']
  simp only [if_true, Nat.zero_add, List.take_left', List.length_append, List.length_cons]
  have e : ndim + 1 - (pre.length + (post.length + 1)) = ndim - (pre.length + post.length) := by omega
  have d : (pre ++ Entry.ellipsis :: post).drop (pre.length + 1) = post := by
    rw [List.drop_append, List.drop_eq_nil_of_le (by omega)]
    simp
  rw [e, d]

lemma full_ne : full ≠ .ellipsis := by decide

/-- `canonicalize_idx` returns one entry per axis, meaning the same as the index given. -/
theorem canonicalizeIdx_means (ndim : ℕ) (idx : Idx) (l : List Entry) (h : Means ndim idx l) :
    canonicalizeIdx idx ndim = l ∧ l.length = ndim ∧ Entry.ellipsis ∉ l := by
  cases h with
  | one e he h =>
    refine ⟨?_, by simp; omega, by simp [he.symm, full_ne.symm]⟩
    unfold canonicalizeIdx
    simp only
    rw [fold_no_ellipsis ndim _ (by simp [he.symm, full_ne.symm])]
    simp
    omega
  | oneEllipsis =>
    refine ⟨?_, by simp, by simp [full_ne.symm]⟩
    unfold canonicalizeIdx
    have := fold_ellipsis ndim [] (List.replicate (ndim - 1) full) (by simp) (by simp [full_ne.symm])
    simp only [List.nil_append] at this ⊢
    rw [this]
    have e : List.replicate (ndim - (([] : List Entry).length +
        (List.replicate (ndim - 1) full).length)) full ++ List.replicate (ndim - 1) full =
        List.replicate ndim full := by
      rw [List.replicate_append_replicate]
      congr 1
      simp only [List.length_nil, List.length_replicate]
      omega
    rw [e]
    simp
  | plain pre h hl =>
    refine ⟨?_, by simp; omega, by simp [h, full_ne.symm]⟩
    unfold canonicalizeIdx
    simp only
    rw [fold_no_ellipsis ndim _ h]
  | ellipsis pre post h h' hl =>
    refine ⟨?_, by simp; omega, by simp [h, h', full_ne.symm]⟩
    unfold canonicalizeIdx
    simp only
    rw [fold_ellipsis ndim pre post h h']
    simp
    omega

/-! ## Slice lengths -/

/-- `n` is the number of steps `k ≥ 0` for which `a + k c` is still before the end `b`. -/
lemma sliceLen_spec (n : ℕ) (start stop step : Option ℤ) (a b c : ℤ)
    (h : sliceIndices n start stop step = .ok (a, b, c)) :
    ∃ m : ℕ, sliceLen n start stop step = .ok m ∧
      ∀ k : ℕ, k < m ↔ (if c < 0 then b < a + k * c else a + k * c < b) := by
  have hc : c ≠ 0 := by
    unfold sliceIndices at h
    simp only at h
    split_ifs at h with h0
    all_goals simp only [Except.ok.injEq, Prod.mk.injEq] at h; omega
  unfold sliceLen
  rw [h]
  by_cases hneg : c < 0
  · refine ⟨if b < a then ((a - b - 1) / (-c) + 1).toNat else 0, by
      simp [bind, Except.bind, hneg, pure, Except.pure], ?_⟩
    intro k
    simp only [hneg, if_true]
    split_ifs with hab
    · have hd : 0 ≤ (a - b - 1) / (-c) := Int.ediv_nonneg (by omega) (by omega)
      rw [show (k < ((a - b - 1) / -c + 1).toNat) ↔ (k : ℤ) ≤ (a - b - 1) / -c by omega,
        Int.le_ediv_iff_mul_le (by omega)]
      constructor <;> intro h' <;> nlinarith
    · constructor
      · intro h'; omega
      · intro h'; nlinarith [Int.natCast_nonneg k]
  · refine ⟨if a < b then ((b - a - 1) / c + 1).toNat else 0, by
      simp [bind, Except.bind, hneg, pure, Except.pure], ?_⟩
    intro k
    simp only [hneg, if_false]
    split_ifs with hab
    · have hd : 0 ≤ (b - a - 1) / c := Int.ediv_nonneg (by omega) (by omega)
      rw [show (k < ((b - a - 1) / c + 1).toNat) ↔ (k : ℤ) ≤ (b - a - 1) / c by omega,
        Int.le_ediv_iff_mul_le (by omega)]
      constructor <;> intro h' <;> nlinarith
    · constructor
      · intro h'; omega
      · intro h'
        have : 0 < c := by omega
        nlinarith [Int.natCast_nonneg k]

/-- The size of a slice is the number of positions Python's `range(start, stop, step)` (with the
canonical bounds) visits, and all of them lie on the axis. -/
theorem sliceLen_counts (n : ℕ) (start stop step : Option ℤ) (a b c : ℤ)
    (h : sliceIndices n start stop step = .ok (a, b, c)) :
    ∃ m : ℕ, sliceLen n start stop step = .ok m ∧
      ∀ k : ℕ, (k < m ↔ (if c < 0 then b < a + k * c else a + k * c < b)) ∧
        (k < m → 0 ≤ a + k * c ∧ a + k * c < n) := by
  obtain ⟨m, h1, h2⟩ := sliceLen_spec n start stop step a b c h
  refine ⟨m, h1, fun k => ⟨h2 k, fun hk => ?_⟩⟩
  have hk' := (h2 k).1 hk
  have hb : (0 ≤ c → 0 ≤ a ∧ b ≤ n) ∧ (c < 0 → -1 ≤ b ∧ a < n) := by
    unfold sliceIndices at h
    simp only at h
    split at h
    · simp at h
    · simp only [Except.ok.injEq, Prod.mk.injEq] at h
      obtain ⟨ha, hb, hc⟩ := h
      subst hc
      by_cases hs : step.getD 1 < 0
      · simp only [hs, if_true] at ha hb
        refine ⟨fun h => by omega, fun _ => ⟨?_, ?_⟩⟩
        · rw [← hb]; split
          · omega
          · split_ifs <;> omega
        · rw [← ha]; split
          · omega
          · split_ifs <;> omega
      · simp only [hs, if_false] at ha hb
        refine ⟨fun _ => ⟨?_, ?_⟩, fun h => by omega⟩
        · rw [← ha]; split
          · omega
          · split_ifs <;> omega
        · rw [← hb]; split
          · omega
          · split_ifs <;> omega
  by_cases hc : c < 0
  · simp only [hc, if_true] at hk'
    obtain ⟨h3, h4⟩ := hb.2 hc
    have : (k : ℤ) * c ≤ 0 := mul_nonpos_of_nonneg_of_nonpos (Int.natCast_nonneg k) hc.le
    constructor <;> omega
  · simp only [hc, if_false] at hk'
    obtain ⟨h3, h4⟩ := hb.1 (by omega)
    have : 0 ≤ (k : ℤ) * c := mul_nonneg (Int.natCast_nonneg k) (by omega)
    constructor <;> omega

/-- A whole axis keeps its size. -/
lemma sliceLen_full (n : ℕ) : sliceLen n none none none = .ok n := by
  unfold sliceLen sliceIndices
  simp only [Option.getD_none, bind, Except.bind, pure, Except.pure]
  rcases Nat.eq_zero_or_pos n with rfl | h
  · simp
  · simp; omega

/-! ## Slice shapes -/

/-- No axis of unknown size is indexed. -/
def KnownIndexed : List ℤ → List Entry → Prop
  | s :: sh, e :: es => (s < 0 → e = full) ∧ KnownIndexed sh es
  | _, _ => True

/-- The number of integers among the entries. -/
def isInt : Entry → Bool
  | .int _ => true
  | _ => false

lemma loop_spec : ∀ (sh : List ℤ) (es : List Entry) (a nInts : ℕ), nInts ≤ a →
    sh.length = es.length → Entry.ellipsis ∉ es → KnownIndexed sh es →
    ∃ np unk, sliceShapeLoop a nInts es sh = .ok (np, unk) ∧ (∀ p ∈ unk, a - nInts ≤ p.1) ∧
      match npIndexShape np es with
      | .error x => resultShape sh es = .error x
      | .ok out => ∀ pre : List ℤ, pre.length = a - nInts →
          ∃ l, resultShape sh es = .ok l ∧
            unk.foldl (fun (acc : List ℤ) p => acc.set p.1 p.2) (pre ++ out.map Int.ofNat) = pre ++ l
  | [], [], a, nInts, _, _, _, _ => ⟨[], [], rfl, by simp, by simp [npIndexShape, resultShape]⟩
  | s :: sh, e :: es, a, nInts, hle, hlen, hne, hk => by
    obtain ⟨hk1, hk2⟩ := hk
    have hne' : Entry.ellipsis ∉ es := fun h => hne (by simp [h])
    have hlen' : sh.length = es.length := by simpa using hlen
    cases e with
    | ellipsis => simp at hne
    | int i =>
      obtain ⟨np, unk, h1, h2, h3⟩ := loop_spec sh es (a + 1) (nInts + 1) (by omega) hlen' hne' hk2
      have hs : ¬ s < 0 := fun h => by have := hk1 h; simp [full] at this
      refine ⟨s.toNat :: np, unk, ?_, ?_, ?_⟩
      · simp [sliceShapeLoop, hs, h1, bind, Except.bind, pure, Except.pure]
      · intro p hp; have := h2 p hp; omega
      · simp only [npIndexShape, resultShape, axisResult, arangeAt]
        by_cases hr : -s ≤ i ∧ i < s
        · have : ∃ d, (if 0 ≤ i ∧ i < (s.toNat : ℤ) then Except.ok i.toNat
              else if -(s.toNat : ℤ) ≤ i ∧ i < 0 then .ok (i + (s.toNat : ℤ)).toNat
              else (.error .indexError : Except Err ℕ)) = .ok d := by
            split_ifs
            · exact ⟨_, rfl⟩
            · exact ⟨_, rfl⟩
            · omega
          obtain ⟨d, hd⟩ := this
          rw [hd]
          simp only [hr, and_self, if_true, bind, Except.bind]
          cases e : npIndexShape np es with
          | error x => simp only [e] at h3; simp [h3]
          | ok out =>
            simp only [e] at h3
            intro pre hpre
            obtain ⟨l, hl1, hl2⟩ := h3 pre (by omega)
            exact ⟨l, by simp [hl1], hl2⟩
        · have : (if 0 ≤ i ∧ i < (s.toNat : ℤ) then Except.ok i.toNat
              else if -(s.toNat : ℤ) ≤ i ∧ i < 0 then .ok (i + (s.toNat : ℤ)).toNat
              else (.error .indexError : Except Err ℕ)) = .error .indexError := by
            split_ifs
            · omega
            · omega
            · rfl
          rw [this]
          simp [hr, bind, Except.bind]
    | slice x y z =>
      obtain ⟨np, unk, h1, h2, h3⟩ := loop_spec sh es (a + 1) nInts (by omega) hlen' hne' hk2
      by_cases hs : s < 0
      · have hf := hk1 hs
        refine ⟨0 :: np, (a - nInts, s) :: unk, ?_, ?_, ?_⟩
        · simp [sliceShapeLoop, hs, hf, h1, bind, Except.bind, pure, Except.pure]
        · intro p hp
          rcases List.mem_cons.1 hp with rfl | hp
          · simp
          · have := h2 p hp; omega
        · rw [hf]
          simp only [full, npIndexShape, resultShape, axisResult, hs, if_true, sliceLen_full]
          cases e : npIndexShape np es with
          | error x => simp only [e] at h3; simp [h3, bind, Except.bind]
          | ok out =>
            simp only [e] at h3
            simp only [bind, Except.bind, pure, Except.pure]
            intro pre hpre
            obtain ⟨l, hl1, hl2⟩ := h3 (pre ++ [s]) (by simp; omega)
            refine ⟨s :: l, by simp [hl1], ?_⟩
            simp only [List.map_cons, List.foldl_cons]
            rw [List.set_append_right _ _ (by omega)]
            simp only [hpre, Nat.sub_self, List.set_cons_zero]
            simpa using hl2
      · refine ⟨s.toNat :: np, unk, ?_, ?_, ?_⟩
        · simp [sliceShapeLoop, hs, h1, bind, Except.bind, pure, Except.pure]
        · intro p hp; have := h2 p hp; omega
        · simp only [npIndexShape, resultShape, axisResult, hs, if_false]
          cases e2 : sliceLen s.toNat x y z with
          | error x => simp [bind, Except.bind, Except.map]
          | ok m =>
            simp only [bind, Except.bind, Except.map]
            cases e : npIndexShape np es with
            | error x => simp only [e] at h3; simp [h3]
            | ok out =>
              simp only [e] at h3
              simp only [pure, Except.pure]
              intro pre hpre
              obtain ⟨l, hl1, hl2⟩ := h3 (pre ++ [(m : ℤ)]) (by simp; omega)
              refine ⟨m :: l, by simp [hl1], ?_⟩
              simpa using hl2
  | [], _ :: _, _, _, _, h, _, _ => by simp at h
  | _ :: _, [], _, _, _, h, _, _ => by simp at h

/-- `slice_shape` returns the shape of the indexed array, with unknown sizes of axes that are not
indexed kept in place (and fails as NumPy does, e.g. for an integer out of range). -/
theorem sliceShape_correct (shape : List ℤ) (idx : Idx) (l : List Entry)
    (hm : Means shape.length idx l) (hk : KnownIndexed shape l) :
    sliceShape shape idx = resultShape shape l := by
  obtain ⟨h1, h2, h3⟩ := canonicalizeIdx_means _ _ _ hm
  obtain ⟨np, unk, g1, _, g3⟩ := loop_spec shape l 0 0 le_rfl h2.symm h3 hk
  unfold sliceShape
  simp only [h1, g1, bind, Except.bind, pure, Except.pure]
  cases e : npIndexShape np l with
  | error x => simp only [e] at g3; simp [g3]
  | ok out =>
    simp only [e] at g3
    obtain ⟨l', hl1, hl2⟩ := g3 [] rfl
    simp only [List.nil_append] at hl2
    simp only [hl2, hl1]

lemma loop_raises : ∀ (sh : List ℤ) (es : List Entry) (a nInts : ℕ), sh.length = es.length →
    ¬ KnownIndexed sh es → sliceShapeLoop a nInts es sh = .error .valueError
  | [], [], _, _, _, h => by simp [KnownIndexed] at h
  | [], _ :: _, _, _, h, _ => by simp at h
  | _ :: _, [], _, _, h, _ => by simp at h
  | s :: sh, e :: es, a, nInts, hlen, h => by
    simp only [KnownIndexed] at h
    by_cases hs : s < 0 ∧ e ≠ full
    · simp [sliceShapeLoop, hs]
    · have : ¬ KnownIndexed sh es := by
        intro h'
        exact h ⟨fun h0 => by by_contra h1; exact hs ⟨h0, h1⟩, h'⟩
      have hr := fun n => loop_raises sh es (a + 1) n (by simpa using hlen) this
      unfold sliceShapeLoop
      rw [if_neg hs]
      simp only [hr, bind, Except.bind]

/-- Indexing into an axis of unknown size raises a `ValueError`. -/
theorem sliceShape_unknown_raises (shape : List ℤ) (idx : Idx) (l : List Entry)
    (hm : Means shape.length idx l) (hk : ¬ KnownIndexed shape l) :
    sliceShape shape idx = .error .valueError := by
  obtain ⟨h1, h2, _⟩ := canonicalizeIdx_means _ _ _ hm
  unfold sliceShape
  simp only [h1, loop_raises shape l 0 0 h2.symm hk, bind, Except.bind]

section Examples
/-- `x[..., 2, 1:8:3]` of an array with an unknown first size. -/
def exIdx : Idx := .tuple ([] ++ .ellipsis :: [.int 2, .slice (some 1) (some 8) (some 3)])
example : sliceShape [-1, 5, 4, 10] exIdx = .ok [-1, 5, 3] := by decide +kernel
example : Means 4 exIdx ([] ++ List.replicate 2 full ++ [.int 2, .slice (some 1) (some 8) (some 3)]) :=
  Means.ellipsis [] [.int 2, .slice (some 1) (some 8) (some 3)] (by simp) (by decide) (by simp)
example : sliceShape [-1, 5] (.tuple [.int 0]) = .error .valueError := by decide +kernel
example : sliceShape [7, 5] (.tuple [.slice none none (some (-2)), .int (-1)]) = .ok [4] := by
  decide +kernel
end Examples

end NT.C21
