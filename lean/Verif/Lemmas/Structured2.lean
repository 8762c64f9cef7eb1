import Verif.Lemmas.Structured
import Verif.Spec.Uses

/-!
# The contraction of two uses of a parameter
-/

namespace NT.Emp
open NT NT.Arr NT.Spec NT.Einsum NT.Rules
open scoped BigOperators

set_option linter.unusedSectionVars false

/-- What is assumed about two uses of a parameter of shape `inp`. -/
structure PairOk (n : ℕ) (T D S1 S2 out1 out2 inp : List ℕ) (s1 s2 : Structure) (i1 i2 : ℕ) : Prop where
  len1 : S1.length = n
  len2 : S2.length = n
  nodupT : T.Nodup
  ltT : ∀ a ∈ T, a < n
  ltD : ∀ a ∈ D, a < n
  disj : ∀ a ∈ T, a ∉ D
  sizeT : sizesAt T S1 = sizesAt T S2
  sizeD : sizesAt D S1 = sizesAt D S2
  fits1 : FitsShapes s1 i1 out1 inp
  fits2 : FitsShapes s2 i2 out2 inp
  trace : s1.inTrace = s2.inTrace
  diag : diagIns s1 i1 = diagIns s2 i2
  room : n + out1.length + n + out2.length + inp.length ≤ 10000

lemma diagPairs_zip {s : Structure} {i : ℕ} (h : (diagPairs s i).map (·.1) = s.outDiagonal) : diagPairs s i = s.outDiagonal.zip (diagIns s i) := by
  rw [← h, diagIns, List.zip_map']
  simp

lemma _root_.NT.Spec.FitsShapes.diagLen {s : Structure} {i : ℕ} {out inp : List ℕ} (h : FitsShapes s i out inp) : s.outDiagonal.length = (diagIns s i).length := by
  rw [← h.diagFst, diagIns, List.length_map, List.length_map]

/-- The layout of the labels. -/
def lay (n : ℕ) (out1 out2 inp : List ℕ) (s1 : Structure) (i1 : ℕ) : Lay where
  n := n
  y1 := out1.length
  y2 := out2.length
  w := inp.length
  q := 100000 - (n + out1.length : ℕ) - (n + out2.length : ℕ) - (out1.length + inp.length : ℕ) - (out2.length + inp.length : ℕ)
  tr := s1.inTrace
  dg := diagIns s1 i1

section
variable {n : ℕ} {T D S1 S2 out1 out2 inp : List ℕ} {s1 s2 : Structure} {i1 i2 : ℕ}

lemma length_le_of {l : List ℕ} {m : ℕ} (hn : l.Nodup) (h : ∀ a ∈ l, a < m) : l.length ≤ m := by
  have : l ⊆ List.range m := fun a ha => List.mem_range.2 (h a ha)
  simpa using (hn.subperm this).length_le

lemma PairOk.roomL (h : PairOk n T D S1 S2 out1 out2 inp s1 s2 i1 i2) : (lay n out1 out2 inp s1 i1).Room := by
  have h1 : (s1.inTrace ++ diagIns s1 i1).length ≤ inp.length := length_le_of h.fits1.inNodup h.fits1.inLt
  rw [List.length_append] at h1
  have := h.room
  unfold Lay.Room Lay.p lay
  dsimp only
  omega

/-! ### The lists of labels -/

/-- `df_dy_dims_1`. -/
def dims1 (L : Lay) (A G : List ℕ) : List ℤ := ((List.range L.n).map fun a : ℕ => (a : ℤ)) ++ (List.range L.y1).map (L.lab L.n A G)

/-- `df_dy_dims_2`. -/
def dims2 (L : Lay) (T D A G : List ℕ) : List ℤ :=
  ((List.range L.n).map fun a : ℕ => if a ∈ T ∨ a ∈ D then (a : ℤ) else ((L.n + L.y1 + a : ℕ) : ℤ)) ++ (List.range L.y2).map (L.lab (L.n + L.y1 + L.n) A G)

/-- `dy_dw_dims`. -/
def dimsw (L : Lay) (base y : ℕ) (A G B : List ℕ) : List ℤ :=
  (List.range y).map (L.labw base y A G B) ++ (List.range L.w).map fun b : ℕ => (b : ℤ) - L.w

/-- `out_dims`. -/
def dimsOut (L : Lay) (T D : List ℕ) : List ℤ :=
  (List.range L.n).flatMap fun a => if a ∈ T then [] else if a ∈ D then [(a : ℤ)] else [(a : ℤ), ((L.n + L.y1 + a : ℕ) : ℤ)]

lemma map_range_add {β : Type} (n m : ℕ) (f : ℕ → β) : (List.range (n + m)).map f = (List.range n).map f ++ (List.range m).map fun x : ℕ => f (n + x) := by
  rw [List.range_add, List.map_append, List.map_map]
  rfl

lemma contractPair_eq {α : Type} [Field α] (h : PairOk n T D S1 S2 out1 out2 inp s1 s2 i1 i2) {df1 df2 j1 j2 : Arr α}
    (h1 : df1.shape = S1 ++ out1) (h2 : df2.shape = S2 ++ out2)
    (g1 : j1.shape = trim (s1.outTrace ++ s1.outBroadcast) out1 ++ trim (s1.inTrace ++ diagIns s1 i1) inp)
    (g2 : j2.shape = trim (s2.outTrace ++ s2.outBroadcast) out2 ++ trim (s2.inTrace ++ diagIns s2 i2) inp) :
    let L := lay n out1 out2 inp s1 i1
    let d1 := dims1 L s1.outTrace s1.outDiagonal
    let w1 := dimsw L n out1.length s1.outTrace s1.outDiagonal s1.outBroadcast
    let w2 := dimsw L (n + out1.length + n) out2.length s2.outTrace s2.outDiagonal s2.outBroadcast
    let d2 := dims2 L T D s2.outTrace s2.outDiagonal
    contractPair n T D df1 df2 j1 j2 s1 s2 =
      if d1.Nodup ∧ w1.Nodup ∧ w2.Nodup ∧ d2.Nodup then einsum [(df1, d1), (j1, w1), (j2, w2), (df2, d2)] (dimsOut L T D) else .error .valueError := by
  intro L d1 w1 w2 d2
  have n1 : df1.ndim = n + out1.length := by rw [ndim, h1, List.length_append, h.len1]
  have n2 : df2.ndim = n + out2.length := by rw [ndim, h2, List.length_append, h.len2]
  have m1 : j1.ndim = out1.length + inp.length := by rw [ndim, g1, List.length_append, length_trim, length_trim]
  have m2 : j2.ndim = out2.length + inp.length := by rw [ndim, g2, List.length_append, length_trim, length_trim]
  have oT : ∀ {s : Structure} {i : ℕ} {out : List ℕ}, FitsShapes s i out inp → s.outTrace.Nodup ∧ s.outDiagonal.Nodup ∧ ∀ a ∈ s.outTrace, a ∉ s.outDiagonal := by
    intro s i out hf
    have := List.nodup_append.1 hf.outNodup
    exact ⟨this.1, this.2.1, fun a ha hb => this.2.2 a ha a hb rfl⟩
  obtain ⟨a1, a2, a3⟩ := oT h.fits1
  obtain ⟨b1, b2, b3⟩ := oT h.fits2
  have lT : s1.outTrace.length = s2.outTrace.length := by rw [h.fits1.traceLen, h.fits2.traceLen, h.trace]
  have lD : s1.outDiagonal.length = s2.outDiagonal.length := by rw [h.fits1.diagLen, h.fits2.diagLen, h.diag]
  have md : ∀ {s : Structure} {i : ℕ} {out : List ℕ}, FitsShapes s i out inp → s.outTrace.map (· % (n + out.length - n)) = s.outTrace := by
    intro s i out hf
    conv_rhs => rw [← List.map_id s.outTrace]
    refine List.map_congr_left fun a ha => ?_
    have := hf.outLt a (by simp [ha])
    rw [Nat.add_sub_cancel_left, Nat.mod_eq_of_lt this, id]
  have hd : getDims df1.shape df2.shape n T D = _ := getDims_ok (df1 := df1.shape) (df2 := df2.shape) (n := n) (T := T) (D := D)
    (by rw [h2, List.length_append, h.len2]; omega) fun a ha hTD => by
      rw [h1, h2, List.getD_append _ _ _ _ (by rw [h.len1]; exact ha), List.getD_append _ _ _ _ (by rw [h.len2]; exact ha)]
      rcases hTD with hx | hx
      · have := congrArg (fun l => l.getD (T.idxOf a) 0) h.sizeT
        have hk := List.idxOf_lt_length_iff.2 hx
        simp only [show ∀ S, sizesAt T S = gather T S from fun _ => rfl, gather_getD _ _ _ hk, List.getElem_idxOf] at this
        exact this
      · have := congrArg (fun l => l.getD (D.idxOf a) 0) h.sizeD
        have hk := List.idxOf_lt_length_iff.2 hx
        simp only [show ∀ S, sizesAt D S = gather D S from fun _ => rfl, gather_getD _ _ _ hk, List.getElem_idxOf] at this
        exact this
  have s1l : df1.shape.length = n + out1.length := n1
  have s2l : df2.shape.length = n + out2.length := n2
  unfold contractPair
  rw [hd]
  simp only [bind, Except.bind, s1l, s2l, n1, n2, m1, m2]
  rw [if_neg (not_not.2 lT), if_neg, if_neg (not_not.2 lD), if_neg]
  · rw [md h.fits1, md h.fits2]
    have e1 : relabel (relabel ((List.range (n + out1.length)).map fun x : ℕ => (x : ℤ)) n s1.outTrace fun i => ((n + out1.length + (n + out2.length) + i : ℕ) : ℤ)) n
        s1.outDiagonal (fun i => (100000 : ℤ) - (n + out1.length : ℕ) - (n + out2.length : ℕ) - (out1.length + inp.length : ℕ) - (out2.length + inp.length : ℕ) - i) =
        (List.range (n + out1.length)).map fun x : ℕ => if n ≤ x then L.lab n s1.outTrace s1.outDiagonal (x - n) else (x : ℤ) := by
      rw [relabel_ok _ _ _ _ _ a1, relabel_ok _ _ _ _ _ a2]
      refine List.map_congr_left fun x _ => ?_
      by_cases hx : n ≤ x
      · simp only [hx, true_and, if_true]
        unfold Lay.lab
        rw [show ((n + (x - n) : ℕ) : ℤ) = x by omega]
        rfl
      · simp only [hx, false_and, if_false]
    have e2 : relabel (relabel ((List.range (n + out2.length)).map fun x : ℕ => if x < n ∧ (x ∈ T ∨ x ∈ D) then (x : ℤ) else ((n + out1.length + x : ℕ) : ℤ)) n s2.outTrace
          fun i => ((n + out1.length + (n + out2.length) + i : ℕ) : ℤ)) n
        s2.outDiagonal (fun i => (100000 : ℤ) - (n + out1.length : ℕ) - (n + out2.length : ℕ) - (out1.length + inp.length : ℕ) - (out2.length + inp.length : ℕ) - i) =
        (List.range (n + out2.length)).map fun x : ℕ => if n ≤ x then L.lab (n + out1.length + n) s2.outTrace s2.outDiagonal (x - n)
          else if x ∈ T ∨ x ∈ D then (x : ℤ) else ((n + out1.length + x : ℕ) : ℤ) := by
      rw [relabel_ok _ _ _ _ _ b1, relabel_ok _ _ _ _ _ b2]
      refine List.map_congr_left fun x _ => ?_
      by_cases hx : n ≤ x
      · have hx' : ¬ x < n := by omega
        simp only [hx, hx', true_and, false_and, if_true, if_false]
        unfold Lay.lab
        rw [show ((n + out1.length + n + (x - n) : ℕ) : ℤ) = ((n + out1.length + x : ℕ) : ℤ) by omega]
        rfl
      · have hx' : x < n := by omega
        simp only [hx, hx', true_and, false_and, if_false]
    have ew : ∀ {s : Structure} {i : ℕ} {out : List ℕ} (base : ℕ) (f : ℕ → ℤ), FitsShapes s i out inp →
        (∀ x, x < out.length → x ∉ s.outTrace ++ s.outDiagonal ++ s.outBroadcast → f (n + x) = ((base + x : ℕ) : ℤ)) →
        shareFree n ((List.range (n + out.length)).map f) s (relabel ((List.range (out.length + inp.length)).map fun x : ℕ => (x : ℤ) - (out.length + inp.length : ℕ)) 0
          s.outDiagonal (fun i => (100000 : ℤ) - (n + out1.length : ℕ) - (n + out2.length : ℕ) - (out1.length + inp.length : ℕ) - (out2.length + inp.length : ℕ) - i)) =
        dimsw L base out.length s.outTrace s.outDiagonal s.outBroadcast := by
      intro s i out base f hf hfree
      have hn := (oT hf).2.1
      rw [relabel_ok _ _ _ _ _ hn, shareFree_ok, map_range_add]
      unfold dimsw
      congr 1
      · refine List.map_congr_left fun x hx => ?_
        have hx := List.mem_range.1 hx
        simp only [hx, true_and, Nat.zero_le, Nat.sub_zero]
        unfold Lay.labw
        by_cases h3 : x ∈ s.outDiagonal
        · rw [if_neg (by simp [h3]), if_pos h3, if_pos h3]
          rfl
        · rw [if_neg h3, if_neg h3]
          by_cases h4 : x ∈ s.outTrace ∨ x ∈ s.outBroadcast
          · rw [if_neg (by rcases h4 with h4 | h4 <;> simp [h4]), if_pos h4]
            rfl
          · have h5 : x ∉ s.outTrace ++ s.outDiagonal ++ s.outBroadcast := by
              simp only [List.mem_append]
              tauto
            rw [if_pos h5, if_neg h4, hfree x hx h5]
      · refine List.map_congr_left fun x hx => ?_
        have h3 : out.length + x ∉ s.outDiagonal := fun h4 => by
          have := hf.outLt _ (by simp [h4] : out.length + x ∈ s.outTrace ++ s.outDiagonal)
          omega
        rw [if_neg (by omega), if_neg (by simp [h3])]
        show ((out.length + x : ℕ) : ℤ) - (out.length + inp.length : ℕ) = (x : ℤ) - (inp.length : ℕ)
        omega
    have f1 := ew n (fun x => if n ≤ x then L.lab n s1.outTrace s1.outDiagonal (x - n) else (x : ℤ)) h.fits1 (fun x _ hx => by
      simp only [List.mem_append, not_or] at hx
      simp only [Nat.le_add_right, if_true, Nat.add_sub_cancel_left]
      unfold Lay.lab
      rw [if_neg hx.1.2, if_neg hx.1.1])
    have f2 := ew (n + out1.length + n) (fun x => if n ≤ x then L.lab (n + out1.length + n) s2.outTrace s2.outDiagonal (x - n)
          else if x ∈ T ∨ x ∈ D then (x : ℤ) else ((n + out1.length + x : ℕ) : ℤ)) h.fits2 (fun x _ hx => by
      simp only [List.mem_append, not_or] at hx
      simp only [Nat.le_add_right, if_true, Nat.add_sub_cancel_left]
      unfold Lay.lab
      rw [if_neg hx.1.2, if_neg hx.1.1])
    rw [e1, e2, f1, f2]
    have k1 : ((List.range (n + out1.length)).map fun x : ℕ => if n ≤ x then L.lab n s1.outTrace s1.outDiagonal (x - n) else (x : ℤ)) = d1 := by
      rw [map_range_add]
      show _ = ((List.range n).map fun a : ℕ => (a : ℤ)) ++ (List.range out1.length).map (L.lab n s1.outTrace s1.outDiagonal)
      congr 1
      · refine List.map_congr_left fun x hx => ?_
        have := List.mem_range.1 hx
        rw [if_neg (by omega)]
      · refine List.map_congr_left fun x hx => ?_
        rw [if_pos (by omega), Nat.add_sub_cancel_left]
    have k2 : ((List.range (n + out2.length)).map fun x : ℕ => if n ≤ x then L.lab (n + out1.length + n) s2.outTrace s2.outDiagonal (x - n)
          else if x ∈ T ∨ x ∈ D then (x : ℤ) else ((n + out1.length + x : ℕ) : ℤ)) = d2 := by
      rw [map_range_add]
      show _ = ((List.range n).map fun a : ℕ => if a ∈ T ∨ a ∈ D then (a : ℤ) else ((n + out1.length + a : ℕ) : ℤ)) ++
        (List.range out2.length).map (L.lab (n + out1.length + n) s2.outTrace s2.outDiagonal)
      congr 1
      · refine List.map_congr_left fun x hx => ?_
        have := List.mem_range.1 hx
        rw [if_neg (by omega)]
      · refine List.map_congr_left fun x hx => ?_
        rw [if_pos (by omega), Nat.add_sub_cancel_left]
    rw [k1, k2]
    rfl
  · rintro (⟨a, ha, hb⟩ | ⟨a, ha, hb⟩)
    · have := h.fits1.outLt a (by simp [ha])
      omega
    · have := h.fits2.outLt a (by simp [ha])
      omega
  · rintro (⟨ha, hb⟩ | ⟨ha, hb⟩)
    · obtain ⟨a, ha⟩ := List.exists_mem_of_ne_nil _ ha
      have := h.fits1.outLt a (by simp [ha])
      omega
    · obtain ⟨a, ha⟩ := List.exists_mem_of_ne_nil _ ha
      have := h.fits2.outLt a (by simp [ha])
      omega

end
end NT.Emp
