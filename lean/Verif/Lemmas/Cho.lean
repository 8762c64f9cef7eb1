import Verif.Lemmas.Predict3

/-!
# `_get_cho_solve` and the infinite time predictions
-/

namespace NT.Predict
open NT Arr Spec Matrix

variable {bk : Backend} {m : Mse} {T S R : List ℕ}

/-- The solution of the flattened system, with the axes of the right-hand side restored. -/
lemma choSolve_ok (hb : bk.Correct) (A : Arr ℝ) (S : List ℕ) (hA : A.shape = interleave S S) (reg : ℝ) (absolute : Bool)
    (hp : (regMat reg absolute (pairMat S S A)).PosDef) (b : Arr ℝ) (bAxes : List Int) (D R : List ℕ)
    (hD : axesOf bk bAxes b.ndim = .ok D) (hS : S = sizesAt (otherAxes b.ndim D) b.shape) (hR : R = sizesAt D b.shape)
    (hS0 : S.prod ≠ 0) :
    ∃ x, choSolve bk A reg absolute b bAxes = .ok x ∧ x.shape = S ++ R ∧
      ∀ (p : box S) (r : box R), x.get (p.1 ++ r.1) =
        ((regMat reg absolute (pairMat S S A))⁻¹ * viewAt [] b.ndim D S R b) p r := by
  obtain ⟨hn, hl, -⟩ := axesOf_ok hb hD
  obtain ⟨A2, h1, h2, h3⟩ := reg_ok A S hA reg absolute
  have hAn : A.ndim = 2 * S.length := by rw [ndim, hA, interleave_length rfl]
  have hodd : gather (pyRange 1 A.ndim 2) A.shape = S := by
    rw [hAn, odd_axes, hA]
    have := gather_odd [] S S [] rfl
    simpa using this
  have hm := moveaxis_toEnd b hn hl
  set y := b.moveaxis D (lastAxes b.ndim D.length) with hy
  have hys : y.shape = S ++ R := by rw [hy, hS, hR]; exact hm.1
  have hyp : y.shape.prod = S.prod * R.prod := by rw [hys, List.prod_append]
  set A3 := addDiagReg A2 reg absolute with hA3
  have hA3s : A3.shape = [S.prod, S.prod] := h2
  set c := y.reshape [S.prod, R.prod] with hc
  have hcs : c.shape = [S.prod, R.prod] := rfl
  have hxs := hb.solve_shape _ _ A3 c hA3s hcs
  have hpd : (mat S.prod S.prod A3).PosDef := by
    have : mat S.prod S.prod A3 = (regMat reg absolute (pairMat S S A)).submatrix (boxEquiv S).symm (boxEquiv S).symm := by
      rw [h3]
      ext i j
      simp
    rw [this]
    exact hp.submatrix (boxEquiv S).symm.injective
  have hsol := hb.solves _ _ A3 c hA3s hcs hpd
  refine ⟨(bk.choSolve A3 c).reshape (S ++ R), ?_, rfl, ?_⟩
  · unfold choSolve
    simp only [bind, Except.bind]
    rw [h1]
    simp only
    rw [hD]
    simp only
    rw [hodd, gather_eq_sizesAt, ← hR, ← hA3, hA3s]
    simp only [List.getD_cons_succ, List.getD_cons_zero]
    rw [if_neg hS0, ← hy, hyp, if_pos (Nat.mul_mod_right _ _), Nat.mul_div_cancel_left _ (Nat.pos_of_ne_zero hS0), ← hc]
    unfold reshapeE
    rw [if_pos]
    rw [hxs]
    simp
  · intro p r
    have hpr := mem_box.1 p.2
    have hrr := mem_box.1 r.2
    have hx : mat S.prod R.prod (bk.choSolve A3 c) = (mat S.prod S.prod A3)⁻¹ * mat S.prod R.prod c := by
      rw [← hsol, ← Matrix.mul_assoc, nonsing_inv_mul _ ((isUnit_iff_isUnit_det _).1 hpd.isUnit), Matrix.one_mul]
    rw [reshape_get (bk.choSolve A3 c) (S ++ R) (j := [ravel S p.1, ravel R r.1]) (by
      rw [hxs]
      exact List.Forall₂.cons (ravel_lt hpr) (List.Forall₂.cons (ravel_lt hrr) List.Forall₂.nil)) (by
      rw [hxs, ravel_append hpr.length]
      simp [ravel])]
    have e1 : (bk.choSolve A3 c).get [ravel S p.1, ravel R r.1] = mat S.prod R.prod (bk.choSolve A3 c) (boxEquiv S p) (boxEquiv R r) := rfl
    have e2 : (mat S.prod R.prod c).submatrix (boxEquiv S) (boxEquiv R) = viewAt [] b.ndim D S R b := by
      ext p r
      have l1 := (mem_box.1 p.2).length
      have l2 := (mem_box.1 r.2).length
      simp only [submatrix_apply, mat, boxEquiv, Equiv.coe_fn_mk]
      rw [hc, reshape_get y [S.prod, R.prod] (j := p.1 ++ r.1) (by
        rw [hys]
        exact (inRange_append l1).2 ⟨mem_box.1 p.2, mem_box.1 r.2⟩) (by
        rw [hys, ravel_append l1]
        simp [ravel])]
      refine hm.2 p.1 r.1 (l1.trans ?_) (l2.trans ?_)
      · rw [hS]; simp [sizesAt]
      · rw [hR]; simp [sizesAt]
    rw [e1, hx, h3, ← e2]
    have e3 := submatrix_mul_equiv (mat S.prod S.prod A3)⁻¹ (mat S.prod R.prod c) (boxEquiv S) (boxEquiv S) (boxEquiv R)
    rw [inv_submatrix_equiv, e3]
    rfl

/-- Counting axes from the end names the same axes. -/
lemma axesOf_neg (hb : bk.Correct) {axes : List Int} {n : ℕ} {T : List ℕ} (h : axesOf bk axes n = .ok T) :
    axesOf bk (T.map fun a : ℕ => (a : Int) - n) n = .ok T := by
  obtain ⟨-, h2, h3⟩ := axesOf_ok hb h
  obtain ⟨F, f1, f2⟩ := C16.canonicalizeAxis_denotes (T.map fun a : ℕ => (a : Int) - n) n (by
    intro i hi
    obtain ⟨a, ha, rfl⟩ := List.mem_map.1 hi
    exact ⟨a, h2 a ha, Or.inr rfl⟩)
  have hF : F = T.toFinset := by
    ext d
    rw [f2, List.mem_toFinset]
    constructor
    · rintro ⟨i, hi, hd⟩
      obtain ⟨a, ha, rfl⟩ := List.mem_map.1 hi
      have := h2 a ha
      obtain ⟨h4, h5⟩ := hd
      have : a = d := by omega
      exact this ▸ ha
    · intro hd
      exact ⟨_, List.mem_map.2 ⟨d, hd, rfl⟩, h2 d hd, Or.inr rfl⟩
  unfold axesOf
  rw [f1, hF]
  simp only [h3]

/-- The infinite time test predictions. -/
lemma inf_ok (hb : bk.Correct) (h : m.Fits bk T S R) (hK : (regMat m.diagReg m.absolute (pairMat S S m.kTrainTrain)).PosDef)
    (fx : Option (Arr ℝ)) (hf : FitsShape m.yTrain.shape fx) (f k : Arr ℝ) (s' S' : List ℕ) (ht : m.TestFits T S R f k s' S') :
    ∃ a, m.predict bk none fx (some f) (some k) = .ok (if fx.isSome then some m.yTrain else none, some a) ∧ a.shape = s' ∧
      viewAt [] m.yTrain.ndim T S' R a = initView m.yTrain.ndim T S' R (some f) + pairMat S' S k *
        ((regMat m.diagReg m.absolute (pairMat S S m.kTrainTrain))⁻¹ *
          (viewAt [] m.yTrain.ndim T S R m.yTrain - initView m.yTrain.ndim T S R fx)) := by
  obtain ⟨hn, hl, hSl, hRl, hST, hkn⟩ := h.lengths hb
  obtain ⟨r, r1, r2, r3⟩ := rhs_ok T fx hf
  have hrn : (r.map fun v => -v).ndim = m.yTrain.ndim := by rw [ndim, Arr.map, r2]; rfl
  have hSR : S.prod * R.prod = m.yTrain.shape.prod := by
    have hperm : (otherAxes m.yTrain.ndim T ++ T).Perm (List.range m.yTrain.ndim) := by
      rw [← freeAxes_eq]
      exact freeAxes_perm _ _ hn hl
    rw [h.rows, h.cols, ← List.prod_append, ← gather_eq_sizesAt, ← gather_eq_sizesAt, ← gather_append]
    have h1 : (gather (otherAxes m.yTrain.ndim T ++ T) m.yTrain.shape).Perm (gather (List.range m.yTrain.ndim) m.yTrain.shape) :=
      hperm.map _
    rw [h1.prod_eq, gather_range_self m.yTrain.shape m.yTrain.ndim rfl]
  obtain ⟨x, x1, x2, x3⟩ := choSolve_ok hb m.kTrainTrain S h.kernel m.diagReg m.absolute hK (r.map fun v => -v)
    (T.map fun a : ℕ => (a : Int) - m.yTrain.ndim) T R (by rw [hrn]; exact axesOf_neg hb h.axes)
    (by rw [hrn]; simp only [Arr.map, r2]; exact h.rows) (by simp only [Arr.map, r2]; exact h.cols)
    (fun e => h.nonempty (by rw [← hSR, e, zero_mul]))
  have hSS : S'.length = S.length := by rw [ht.rows, hSl]; simp [sizesAt]
  obtain ⟨e, e1, e2, e3⟩ := pairDot_ok k x S' S [] R ht.kernel hSS (by simpa using x2) 0 rfl
  have hen : e.ndim - m.yTrain.ndim = 0 := by
    simp only [ndim, e2, List.length_append] at hST ⊢
    simp only [List.length_nil]
    omega
  obtain ⟨b1, b2⟩ := moveaxis_back e [] s' T hn (by rw [ht.rank]; exact hl) (by rw [e2, ht.rank, ← ht.rows, ← ht.cols]; simp) _ hen
  set d := e.moveaxis (lastAxes e.ndim T.length) (T.map fun k => e.ndim - m.yTrain.ndim + k) with hd
  have hds : d.shape = s' := b1
  have hz : ∃ a, zipB (fun a b => a + b) f d = .ok a ∧ a.shape = s' ∧ ∀ i, i.length = s'.length → a.get i = initGet f i + d.get i := by
    unfold zipB initGet
    by_cases h1 : f.shape = s'
    · refine ⟨⟨f.shape, fun i => f.get i + d.get i⟩, by rw [if_pos (by rw [h1, hds])], h1, fun i hi => ?_⟩
      by_cases h2 : f.shape = []
      · have : i = [] := by rw [← List.length_eq_zero_iff, hi, ← h1, h2]; rfl
        simp [this]
      · simp [h2]
    · have h2 := ht.init.resolve_left h1
      refine ⟨⟨d.shape, fun i => f.get [] + d.get i⟩, by rw [if_neg (by rw [hds]; exact h1), if_pos h2], hds, fun i hi => by simp [h2]⟩
  obtain ⟨a, a1, a2, a3⟩ := hz
  refine ⟨a, ?_, a2, ?_⟩
  · unfold Mse.predict checkInputs
    simp only [bind, Except.bind, Option.isNone_some, Bool.and_false, Option.isSome_some, Bool.false_eq_true, if_false]
    unfold Mse.predictInf
    simp only [bind, Except.bind, h.axes, r1, x1, getAxes]
    rw [hkn, odd_axes]
    have hfirst : pyRange 0 (2 * S.length / 2) 1 = List.range' 0 S.length := by
      rw [Nat.mul_div_cancel_left _ (by norm_num)]
      exact pyRange_one 0 _
    rw [hfirst, e1]
    simp only
    rw [← hd, a1]
    rfl
  · ext p q
    have hp : p.1.length = S'.length := (mem_box.1 p.2).length
    have hq : q.1.length = R.length := (mem_box.1 q.2).length
    unfold viewAt
    rw [List.nil_append, a3 _ (by rw [join_length, ht.rank])]
    have h4 := b2 [] p.1 q.1 rfl (by rw [ht.rank, ← hSl, hp, hSS]) (by rw [hq, hRl])
    rw [ht.rank, List.nil_append, List.nil_append] at h4
    have h5 := e3 p.1 [] q.1 hp rfl hq
    rw [List.nil_append] at h5
    rw [h4, h5, Matrix.add_apply]
    congr 1
    rw [sum_box, mul_apply]
    refine Finset.sum_congr rfl fun q' _ => ?_
    have hv : viewAt [] m.yTrain.ndim T S R (r.map fun v => -v) =
        viewAt [] m.yTrain.ndim T S R m.yTrain - initView m.yTrain.ndim T S R fx := by
      ext p r
      simp only [viewAt, Arr.map, List.nil_append, r3, Matrix.sub_apply]
      cases fx with
      | none => simp [initView]
      | some f =>
        rw [initView_apply]
        exact neg_sub _ _
    rw [List.nil_append, x3 q' q, hrn, hv]
    rfl

end NT.Predict
