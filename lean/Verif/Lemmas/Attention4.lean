import Verif.Lemmas.Attention3

/-! Auxiliary lemmas for C59: covariances of positional embeddings. -/

namespace NT.Attn
open NT Spec Attention Kernel
open NT.Arr

lemma posIdentity_ok (S : List ℕ) : ∃ r, posIdentity S = .ok r ∧ r.shape = interleave S S ∧
    ∀ p q, InRange p S → InRange q S → r.get (interleave p q) = if p = q then 1 else 0 := by
  unfold posIdentity
  set x := (eye (α := ℝ) (sizeAt S)).reshape (S ++ S) with hx
  obtain ⟨r, e, rs, rg⟩ := zipAxes_ok x [] S S [] (by simp [hx, reshape]) rfl
  rw [zipAxes_none]
  have hn : x.ndim = S.length + S.length := by simp [hx, ndim, reshape]
  refine ⟨r, ?_, by simpa using rs, ?_⟩
  · rw [← e, hn]
    simp [two_mul]
  · intro p q hp hq
    have := rg [] p q [] rfl hp.length hq.length rfl
    simp only [List.nil_append, List.append_nil] at this
    rw [this, hx, reshape_get _ _ (j := [ravel S p, ravel S q]) (by simp [eye, ravel_lt hp, ravel_lt hq])]
    · simp only [eye, List.getD_cons_zero, List.getD_cons_succ]
      by_cases h : p = q
      · simp [h]
      · rw [if_neg h, if_neg fun e => h (ravel_inj hp hq e)]
    · rw [ravel_append hp.length]
      simp [eye, ravel]

lemma ravel_ones (n : ℕ) : ravel (List.replicate n 1) (List.replicate n 0) = 0 := by
  induction n with
  | zero => rfl
  | succ n ih => simp [List.replicate_succ, ravel, ih]

lemma bcastIdx_ones (n : ℕ) (l : List ℕ) (h : l.length = n) : bcastIdx (List.replicate n 1) l = List.replicate n 0 := by
  induction n generalizing l with
  | zero => simp [bcastIdx]
  | succ n ih =>
    cases l with
    | nil => simp at h
    | cons a l =>
      have := ih l (by simpa using h)
      simp only [bcastIdx] at this
      simp [bcastIdx, List.replicate_succ, this]

lemma bcastIdx_twice (s t j : List ℕ) (h : s.length = t.length) (h' : j.length = t.length) :
    bcastIdx s (bcastIdx (List.zipWith bcastDim s t) j) = bcastIdx s j ∧ bcastIdx t (bcastIdx (List.zipWith bcastDim s t) j) = bcastIdx t j := by
  induction s generalizing t j with
  | nil => cases t <;> simp_all [bcastIdx]
  | cons a s ih =>
    cases t with
    | nil => simp at h
    | cons b t =>
      cases j with
      | nil => simp at h'
      | cons c j =>
        have := ih t j (by simpa using h) (by simpa using h')
        simp only [bcastIdx] at this
        simp only [bcastIdx, bcastDim, List.zipWith_cons_cons, List.cons.injEq, this, and_true]
        constructor <;> split_ifs <;> simp_all

lemma interleave_cons_mid {β : Type} (p1 p2 q1 q2 : List β) (x y : β) (h : p1.length = q1.length) :
    interleave (p1 ++ x :: p2) (q1 ++ y :: q2) = interleave p1 q1 ++ [x, y] ++ interleave p2 q2 := by
  rw [interleave_append h]
  simp [interleave]

lemma posAxis_ok (pn : ℝ) (S1 S2 : List ℕ) (s : ℕ) :
    (posAxis pn (S1 ++ s :: S2) S1.length).shape = List.replicate (2 * S1.length) 1 ++ [s, s] ++ List.replicate (2 * S2.length) 1 ∧
    ∀ p1 p2 q1 q2 x y, p1.length = S1.length → q1.length = S1.length → p2.length = S2.length → q2.length = S2.length → x < s → y < s →
      (posAxis pn (S1 ++ s :: S2) S1.length).get (bcastIdx (posAxis pn (S1 ++ s :: S2) S1.length).shape
        (interleave (p1 ++ x :: p2) (q1 ++ y :: q2))) = |(x : ℝ) - y| ^ pn := by
  have hg : (S1 ++ s :: S2).getD S1.length 0 = s := by simp
  have hl : (S1 ++ s :: S2).length - S1.length - 1 = S2.length := by simp
  set d : Arr ℝ := ⟨[s], fun i => (i.getD 0 0 : ℝ)⟩ with hd
  obtain ⟨os, og⟩ := outerProd_ok (fun x y : ℝ => x - y) d d [] [s] [s] [] rfl rfl rfl
  simp only [List.length_nil, List.length_singleton, Nat.zero_add, List.nil_append, List.append_nil, interleave] at os og
  have hsh : (posAxis pn (S1 ++ s :: S2) S1.length).shape = List.replicate (2 * S1.length) 1 ++ [s, s] ++ List.replicate (2 * S2.length) 1 := by
    simp only [posAxis, hg, hl, Arr.map, reshape, ndim, List.length_singleton, ← hd, os]
  refine ⟨hsh, ?_⟩
  intro p1 p2 q1 q2 x y h1 h2 h3 h4 hx hy
  have e : bcastIdx (posAxis pn (S1 ++ s :: S2) S1.length).shape (interleave (p1 ++ x :: p2) (q1 ++ y :: q2)) =
      List.replicate (2 * S1.length) 0 ++ [x, y] ++ List.replicate (2 * S2.length) 0 := by
    rw [hsh, interleave_cons_mid _ _ _ _ _ _ (h1.trans h2.symm), bcastIdx_append, bcastIdx_append, bcastIdx_ones, bcastIdx_ones, bcastIdx_self]
    · simp [hx, hy]
    · rw [interleave_length (h3.trans h4.symm), h3]
    · rw [interleave_length (h1.trans h2.symm), h1]
    · simp [interleave_length (h1.trans h2.symm), h1]
    · simp [interleave_length (h1.trans h2.symm), h1]
  rw [e]
  simp only [posAxis, hg, hl, Arr.map, ndim, List.length_singleton, ← hd]
  have hr : ((outerProd d (some d) 0 1 fun x y : ℝ => x - y).reshape (List.replicate (2 * S1.length) 1 ++
      (outerProd d (some d) 0 1 fun x y : ℝ => x - y).shape ++ List.replicate (2 * S2.length) 1)).get
      (List.replicate (2 * S1.length) 0 ++ [x, y] ++ List.replicate (2 * S2.length) 0) = (x : ℝ) - y := by
    rw [reshape_get _ _ (j := [x, y])]
    · have := og [] [x] [y] [] (by simp) (by simp [hx]) (by simp [hy]) (by simp)
      simpa [interleave, hd] using this
    · rw [os]; simp [hx, hy]
    · rw [os, ravel_append (by simp), ravel_append (by simp), ravel_ones, ravel_ones]
      simp
  have hl1 : d.shape.length = 1 := rfl
  rw [hr]

lemma posFold_ok (pn : ℝ) (S : List ℕ) (a : ℕ) (ha : a ≤ S.length) :
    ((List.range a).foldl (fun r axis => bcast (fun x y => x + y) r (posAxis pn S axis))
      ⟨List.replicate (2 * S.length) 1, fun _ => (0 : ℝ)⟩).shape = interleave (S.take a) (S.take a) ++ List.replicate (2 * (S.length - a)) 1 ∧
    ∀ p q, InRange p S → InRange q S →
      ((List.range a).foldl (fun r axis => bcast (fun x y => x + y) r (posAxis pn S axis))
        ⟨List.replicate (2 * S.length) 1, fun _ => (0 : ℝ)⟩).get (bcastIdx ((List.range a).foldl (fun r axis => bcast (fun x y => x + y) r
          (posAxis pn S axis)) ⟨List.replicate (2 * S.length) 1, fun _ => (0 : ℝ)⟩).shape (interleave p q)) =
        (List.zipWith (fun x y : ℕ => |(x : ℝ) - y| ^ pn) (p.take a) (q.take a)).sum := by
  induction a with
  | zero => simp [interleave]
  | succ a ih =>
    obtain ⟨i1, i2⟩ := ih (by omega)
    rw [List.range_succ, List.foldl_append, List.foldl_cons, List.foldl_nil]
    set r := (List.range a).foldl (fun r axis => bcast (fun x y => x + y) r (posAxis pn S axis))
      ⟨List.replicate (2 * S.length) 1, fun _ => (0 : ℝ)⟩ with hr
    obtain ⟨S1, s, S2, rfl, rfl⟩ : ∃ S1 s S2, S = S1 ++ s :: S2 ∧ S1.length = a :=
      ⟨S.take a, S[a], S.drop (a + 1), by rw [List.cons_getElem_drop_succ, List.take_append_drop], by simp; omega⟩
    obtain ⟨g1, g2⟩ := posAxis_ok pn S1 S2 s
    have hl0 : (S1 ++ s :: S2).length - S1.length = S2.length + 1 := by simp only [List.length_append, List.length_cons]; omega
    have hl1 : (S1 ++ s :: S2).length - (S1.length + 1) = S2.length := by simp only [List.length_append, List.length_cons]; omega
    have ht : ∀ (l1 l2 : List ℕ) (x : ℕ), (l1 ++ x :: l2).take (l1.length + 1) = l1 ++ [x] := by
      intro l1 l2 x
      rw [show l1 ++ x :: l2 = (l1 ++ [x]) ++ l2 by simp, List.take_left' (by simp)]
    rw [List.take_left, hl0] at i1
    have hll : r.shape.length = (posAxis pn (S1 ++ s :: S2) S1.length).shape.length := by
      rw [i1, g1]; simp [interleave_length]; ring
    constructor
    · simp only [bcast]
      rw [i1, g1, ht, hl1, interleave_append rfl]
      have : List.replicate (2 * (S2.length + 1)) 1 = [1, 1] ++ List.replicate (2 * S2.length) 1 := by
        rw [show 2 * (S2.length + 1) = 2 * S2.length + 1 + 1 by ring]; simp [List.replicate_succ]
      rw [this, ← List.append_assoc, List.zipWith_append (by simp [interleave_length]), List.zipWith_append (by simp [interleave_length]),
        zipWith_bcastDim_self]
      congr 1
      congr 1
      · generalize hA : interleave S1 S1 = A
        have hlen : A.length = 2 * S1.length := by rw [← hA, interleave_length rfl]
        rw [← hlen]
        clear hA hlen
        induction A with
        | nil => rfl
        | cons x A ih =>
          simp only [List.length_cons, List.replicate_succ, List.zipWith_cons_cons, ih]
          simp only [bcastDim]
          split_ifs <;> simp_all
    · intro p q hp hq
      have hp0 := hp
      have hq0 := hq
      obtain ⟨p1, p2', rfl, hp1, hp2'⟩ := inRange_append_right hp
      obtain ⟨x, p2, rfl, hx, hp2⟩ := inRange_cons_right.1 hp2'
      obtain ⟨q1, q2', rfl, hq1, hq2'⟩ := inRange_append_right hq
      obtain ⟨y, q2, rfl, hy, hq2⟩ := inRange_cons_right.1 hq2'
      have j1 := i2 _ _ hp0 hq0
      have j2 := g2 p1 p2 q1 q2 x y hp1.length hq1.length hp2.length hq2.length hx hy
      simp only [bcast]
      obtain ⟨b1, b2⟩ := bcastIdx_twice r.shape (posAxis pn (S1 ++ s :: S2) S1.length).shape (interleave (p1 ++ x :: p2) (q1 ++ y :: q2)) hll
        (by rw [interleave_length (by simp [hp1.length, hq1.length, hp2.length, hq2.length]), g1]; simp [hp1.length, hp2.length]; ring)
      rw [b1, b2, j1, j2]
      have e1 : (p1 ++ x :: p2).take (S1.length + 1) = p1 ++ [x] := by rw [← hp1.length]; exact ht _ _ _
      have e2 : (q1 ++ y :: q2).take (S1.length + 1) = q1 ++ [y] := by rw [← hq1.length]; exact ht _ _ _
      have e3 : (p1 ++ x :: p2).take S1.length = p1 := by rw [← hp1.length, List.take_left]
      have e4 : (q1 ++ y :: q2).take S1.length = q1 := by rw [← hq1.length, List.take_left]
      rw [e1, e2, e3, e4, List.zipWith_append (by rw [hp1.length, hq1.length]), List.sum_append]
      simp

lemma posPdist_ok (l : Attention) (S : List ℕ) : ∃ r, l.posPdist S = .ok r ∧ r.shape = interleave S S ∧
    ∀ p q, InRange p S → InRange q S → r.get (interleave p q) = posCov l.pNorm l.decay p q := by
  unfold posPdist posCov
  cases hd : l.decay with
  | none => exact posIdentity_ok S
  | some f =>
    obtain ⟨h1, h2⟩ := posFold_ok l.pNorm S S.length le_rfl
    simp only [Nat.sub_self, Nat.mul_zero, List.replicate_zero, List.append_nil, List.take_length] at h1
    refine ⟨_, rfl, h1, ?_⟩
    intro p q hp hq
    have := h2 p q hp hq
    rw [h1, bcastIdx_self ((inRange_interleave hp.length hq.length rfl).2 ⟨hp, hq⟩), List.take_of_length_le hp.length.le,
      List.take_of_length_le hq.length.le] at this
    simp only [Arr.map]
    rw [this]

end NT.Attn
