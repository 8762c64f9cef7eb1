import Verif.Lemmas.MoveAxis
import Verif.Lemmas.Box
import Verif.Lemmas.Spectral
import Verif.Props.C16

/-!
# Arrays in the predictors
-/

namespace NT.Predict
open NT Arr Spec Matrix

/-! ### Contracting paired axes -/

lemma free_odd (h : ℕ) : freeAxes (2 * h) (List.range' 1 h 2) = List.range' 0 h 2 := by
  unfold freeAxes
  rw [List.range_eq_range', range'_interleave]
  refine filter_interleave _ (by simp) ?_ ?_
  · intro a ha
    simp only [List.contains_eq_mem, Bool.not_eq_true', decide_eq_false_iff_not]
    intro hb
    obtain ⟨i, _, hi⟩ := List.mem_range'.1 ha
    obtain ⟨j, _, hj⟩ := List.mem_range'.1 hb
    omega
  · intro b hb
    simp only [List.contains_eq_mem, Bool.not_eq_false', decide_eq_true_eq]
    simpa using hb

lemma free_even (h : ℕ) : otherAxes (2 * h) (List.range' 0 h 2) = List.range' 1 h 2 := by
  have hn : (List.range' 0 h 2).Nodup := nodup_range'_two 0 h
  rw [← freeAxes_eq]
  unfold freeAxes
  rw [List.range_eq_range', range'_interleave]
  have hgen : ∀ (p : ℕ → Bool) (A B : List ℕ), A.length = B.length → (∀ a ∈ A, p a = false) → (∀ b ∈ B, p b = true) →
      (interleave A B).filter p = B := by
    intro p A
    induction A with
    | nil => intro B h _ _; cases B with
      | nil => simp [interleave]
      | cons => simp at h
    | cons a A ih => intro B h hA hB; cases B with
      | nil => simp at h
      | cons b B =>
        simp only [interleave]
        rw [List.filter_cons_of_neg (by simp [hA a (by simp)]), List.filter_cons_of_pos (hB b (by simp)),
          ih B (by simpa using h) (fun a ha => hA a (by simp [ha])) (fun b hb => hB b (by simp [hb]))]
  refine hgen _ _ _ (by simp) ?_ ?_
  · intro a ha
    simpa [List.contains_eq_mem] using ha
  · intro a ha
    simp only [List.contains_eq_mem, Bool.not_eq_true', decide_eq_false_iff_not]
    intro hb
    obtain ⟨i, _, hi⟩ := List.mem_range'.1 ha
    obtain ⟨j, _, hj⟩ := List.mem_range'.1 hb
    omega

lemma free_mid (a b c : ℕ) : freeAxes (a + b + c) (List.range' a b) = List.range a ++ List.range' (a + b) c := by
  unfold freeAxes
  rw [range_split, List.filter_append, List.filter_append, List.filter_eq_self.2, List.filter_eq_nil_iff.2, List.filter_eq_self.2,
    List.append_nil]
  · intro k hk
    have := List.mem_range'_1.1 hk
    simp [List.contains_eq_mem, List.mem_range'_1]
    omega
  · intro k hk
    have := List.mem_range'_1.1 hk
    simp [List.contains_eq_mem, List.mem_range'_1]
    omega
  · intro k hk
    have := List.mem_range.1 hk
    simp [List.contains_eq_mem, List.mem_range'_1]
    omega

lemma odd_axes (h : ℕ) : pyRange 1 (2 * h) 2 = List.range' 1 h 2 := by
  have := pyRange_two 0 h
  simpa using this

lemma even_axes (h : ℕ) : pyRange 0 (2 * h) 2 = List.range' 0 h 2 := by
  simp only [pyRange]
  congr 1
  omega

/-- `tensordot(k, x, (odd, middle axes))`. -/
lemma pairDot_ok (k x : Arr ℝ) (A B L R : List ℕ) (hk : k.shape = interleave A B) (hAB : A.length = B.length)
    (hx : x.shape = L ++ B ++ R) (l0 : ℕ) (hl0 : l0 = L.length) :
    ∃ z, dotGeneral k x (List.range' 1 B.length 2) (List.range' l0 B.length) [] [] = .ok z ∧ z.shape = A ++ (L ++ R) ∧
      ∀ p l r, p.length = A.length → l.length = L.length → r.length = R.length →
        z.get (p ++ (l ++ r)) = ∑ q ∈ box B, k.get (interleave p q) * x.get (l ++ q ++ r) := by
  subst hl0
  have hkn : k.ndim = 2 * B.length := by rw [ndim, hk, interleave_length hAB, hAB]
  have hxn : x.ndim = L.length + B.length + R.length := by simp [ndim, hx, Nat.add_assoc]
  have hg : gather (List.range' 1 B.length 2) k.shape = B := by
    have := gather_odd [] A B [] hAB
    rw [hk]
    rw [hAB] at this
    simpa using this
  obtain ⟨z, h1, h2, h3⟩ := dotGeneral_ok k x (List.range' 1 B.length 2) (List.range' L.length B.length) [] []
    ⟨by simpa using nodup_range'_two 1 B.length, by
      intro j hj
      obtain ⟨i, hi, e⟩ := List.mem_range'.1 (by simpa using hj)
      rw [hkn]
      omega⟩
    ⟨by simpa using List.nodup_range', by
      intro j hj
      have := List.mem_range'_1.1 (by simpa using hj)
      rw [hxn]
      omega⟩
    (by rw [hg, hx, gather_range'_append]) rfl
  have fA : freeAxes k.ndim ([] ++ List.range' 1 B.length 2) = List.range' 0 A.length 2 := by
    rw [hkn, List.nil_append, free_odd, hAB]
  have fB : freeAxes x.ndim ([] ++ List.range' L.length B.length) = List.range L.length ++ List.range' (L.length + B.length) R.length := by
    rw [hxn, List.nil_append, free_mid]
  have gB : ∀ l q r : List ℕ, l.length = L.length → q.length = B.length → r.length = R.length →
      gather (List.range L.length ++ List.range' (L.length + B.length) R.length) (l ++ q ++ r) = l ++ r := by
    intro l q r hl hq hr
    rw [gather_append]
    congr 1
    · exact gather_range l (q ++ r) _ (by simp) hl.symm
    · exact gather_range' (l ++ q) r [] _ _ (by simp) (by simp [hl, hq]) hr.symm
  refine ⟨z, h1, ?_, ?_⟩
  · rw [h2, fA, fB, hk, hx, gB L B R rfl rfl rfl]
    have := gather_even [] A B [] hAB
    simp only [List.nil_append, List.append_nil, List.length_nil] at this
    rw [this]
    simp [gather]
  · intro p l r hp hl hr
    have := h3 [] p (l ++ r) (fun q => interleave p q) (fun q => l ++ q ++ r) rfl (by rw [fA]; simpa using hp) (by
      intro c hc
      simp only [List.length_range'] at hc
      have hpc : p.length = c.length := by omega
      refine ⟨by rw [interleave_length hpc, hkn]; omega, rfl, ?_, ?_⟩
      · rw [fA, ← hp]
        have := gather_even [] p c [] hpc
        simpa using this
      · have := gather_odd [] p c [] hpc
        rw [← hc, ← hpc]
        simpa using this) (by
      intro c hc
      simp only [List.length_range'] at hc
      refine ⟨by simp [hxn, hl, hr, hc, Nat.add_assoc], rfl, ?_, ?_⟩
      · rw [fB, gB l c r hl hc hr]
      · exact gather_range' l c r _ _ rfl hl.symm hc.symm)
    rw [hg, sumOver_eq_box] at this
    simpa using this

/-! ### Shifting axes by leading ones -/

lemma other_shift (t n : ℕ) (T : List ℕ) :
    otherAxes (t + n) (T.map fun a => t + a) = List.range t ++ (otherAxes n T).map fun a => t + a := by
  unfold otherAxes
  rw [List.range_add, List.filter_append]
  congr 1
  · rw [List.filter_eq_self]
    intro k hk
    have := List.mem_range.1 hk
    simp
    intros
    omega
  · rw [List.filter_map]
    congr 1
    refine List.filter_congr fun k _ => ?_
    simp only [Function.comp, decide_eq_decide, List.mem_map, not_iff_not]
    exact ⟨fun h => by
      obtain ⟨a, ha, e⟩ := h
      obtain rfl : a = k := by omega
      exact ha, fun h => ⟨k, h, rfl⟩⟩

lemma other_shift2 (t n : ℕ) (T : List ℕ) :
    otherAxes (t + n) (List.range t ++ T.map fun a => t + a) = (otherAxes n T).map fun a => t + a := by
  unfold otherAxes
  rw [List.range_add, List.filter_append, List.filter_eq_nil_iff.2, List.nil_append]
  · rw [List.filter_map]
    congr 1
    refine List.filter_congr fun k _ => ?_
    simp only [Function.comp, decide_eq_decide, List.mem_append, List.mem_map, List.mem_range, not_iff_not]
    exact ⟨fun h => by
      rcases h with h | ⟨a, ha, e⟩
      · omega
      · obtain rfl : a = k := by omega
        exact ha, fun h => Or.inr ⟨k, h, rfl⟩⟩
  · intro k hk
    have := List.mem_range.1 hk
    simp [this]

lemma gather_shift (t : ℕ) (P l x : List ℕ) (hl : l.length = t) : gather (P.map fun a => t + a) (l ++ x) = gather P x := by
  unfold gather
  rw [List.map_map]
  refine List.map_congr_left fun k _ => ?_
  simp only [Function.comp, List.getD]
  rw [List.getElem?_append_right (by omega)]
  congr 2
  omega

lemma shift_nodup (t : ℕ) {T : List ℕ} (h : T.Nodup) : (T.map fun a => t + a).Nodup :=
  h.map fun a b e => by simpa using e

lemma shift_lt {t n : ℕ} {T : List ℕ} (h : ∀ k ∈ T, k < n) : ∀ k ∈ (T.map fun a => t + a), k < t + n := by
  intro k hk
  obtain ⟨a, ha, rfl⟩ := List.mem_map.1 hk
  have := h a ha
  omega

lemma shift2_nodup (t : ℕ) {T : List ℕ} (h : T.Nodup) : (List.range t ++ T.map fun a => t + a).Nodup := by
  rw [List.nodup_append]
  refine ⟨List.nodup_range, shift_nodup t h, ?_⟩
  intro a ha b hb hab
  have := List.mem_range.1 ha
  obtain ⟨c, _, rfl⟩ := List.mem_map.1 hb
  omega

lemma shift2_lt {t n : ℕ} {T : List ℕ} (h : ∀ k ∈ T, k < n) : ∀ k ∈ (List.range t ++ T.map fun a => t + a), k < t + n := by
  intro k hk
  rcases List.mem_append.1 hk with hk | hk
  · have := List.mem_range.1 hk
    omega
  · exact shift_lt h k hk

lemma join_shift {n : ℕ} {T : List ℕ} (hn : T.Nodup) (hl : ∀ k ∈ T, k < n) (tj p r : List ℕ) (hp : p.length = (otherAxes n T).length)
    (hr : r.length = T.length) :
    joinIdx (tj.length + n) (T.map fun a => tj.length + a) (tj ++ p) r = tj ++ joinIdx n T p r := by
  have h := join_gather (n := tj.length + n) (D := T.map fun a => tj.length + a) (j := tj ++ joinIdx n T p r)
    (by simp [join_length])
  rw [other_shift, gather_append, gather_shift _ _ _ _ rfl, gather_shift _ _ _ _ rfl, gather_join_other p r hp,
    gather_join hn hl p r hr, gather_range tj _ _ rfl rfl] at h
  exact h

lemma join_shift2 {n : ℕ} {T : List ℕ} (hn : T.Nodup) (hl : ∀ k ∈ T, k < n) (tj p r : List ℕ) (hp : p.length = (otherAxes n T).length)
    (hr : r.length = T.length) :
    joinIdx (tj.length + n) (List.range tj.length ++ T.map fun a => tj.length + a) p (tj ++ r) = tj ++ joinIdx n T p r := by
  have h := join_gather (n := tj.length + n) (D := List.range tj.length ++ T.map fun a => tj.length + a) (j := tj ++ joinIdx n T p r)
    (by simp [join_length])
  rw [other_shift2, gather_append, gather_shift _ _ _ _ rfl, gather_shift _ _ _ _ rfl, gather_join_other p r hp,
    gather_join hn hl p r hr, gather_range tj _ _ rfl rfl] at h
  exact h

/-- Moving the last axes back behind leading axes. -/
lemma moveaxis_back (a : Arr ℝ) (L s T : List ℕ) (hn : T.Nodup) (hl : ∀ k ∈ T, k < s.length)
    (ha : a.shape = L ++ sizesAt (otherAxes s.length T) s ++ sizesAt T s) (o : ℕ) (ho : o = L.length) :
    (a.moveaxis (lastAxes a.ndim T.length) (T.map fun k => o + k)).shape = L ++ s ∧
    ∀ l p r, l.length = L.length → p.length = (otherAxes s.length T).length → r.length = T.length →
      (a.moveaxis (lastAxes a.ndim T.length) (T.map fun k => o + k)).get (l ++ joinIdx s.length T p r) = a.get (l ++ p ++ r) := by
  subst ho
  have h := moveaxis_fromEnd (D := T.map fun k => L.length + k) a (L ++ s) (shift_nodup _ hn) (by
    simpa using shift_lt (t := L.length) hl) (by
      rw [List.length_append, other_shift]
      simp only [← gather_eq_sizesAt]
      rw [gather_append, gather_shift _ _ _ _ rfl, gather_shift _ _ _ _ rfl, gather_range L s _ rfl rfl]
      exact ha)
  simp only [List.length_map] at h
  refine ⟨h.1, fun l p r h1 h2 h3 => ?_⟩
  have := h.2 (l ++ p) r (by
    rw [List.length_append, List.length_append, other_shift]
    simp [h1, h2]) h3
  rw [List.length_append, ← h1, join_shift hn hl l p r h2 h3] at this
  rw [← h1]
  exact this

/-- Moving leading and last axes back. -/
lemma moveaxis_back2 (a : Arr ℝ) (L s T : List ℕ) (hn : T.Nodup) (hl : ∀ k ∈ T, k < s.length)
    (ha : a.shape = sizesAt (otherAxes s.length T) s ++ (L ++ sizesAt T s)) (m o t : ℕ) (hm : m = (otherAxes s.length T).length)
    (ho : o = L.length) (ht : t = L.length) :
    (a.moveaxis (List.range' m t ++ lastAxes a.ndim T.length) (List.range t ++ T.map fun k => o + k)).shape = L ++ s ∧
    ∀ l p r, l.length = L.length → p.length = (otherAxes s.length T).length → r.length = T.length →
      (a.moveaxis (List.range' m t ++ lastAxes a.ndim T.length) (List.range t ++ T.map fun k => o + k)).get
        (l ++ joinIdx s.length T p r) = a.get (p ++ (l ++ r)) := by
  subst ho ht hm
  have hlen := freeAxes_length hn hl
  rw [freeAxes_eq] at hlen
  have hnd : a.ndim = (otherAxes s.length T).length + (L.length + T.length) := by
    simp [ndim, ha, sizesAt]
  have hsrc : List.range' (otherAxes s.length T).length L.length ++ lastAxes a.ndim T.length =
      List.range' (a.ndim - (List.range L.length ++ T.map fun k => L.length + k).length)
        (List.range L.length ++ T.map fun k => L.length + k).length := by
    unfold lastAxes
    simp only [List.length_append, List.length_range, List.length_map]
    rw [hnd, ← List.range'_append_1]
    congr 2 <;> omega
  rw [hsrc]
  have h := moveaxis_fromEnd (D := List.range L.length ++ T.map fun k => L.length + k) a (L ++ s) (shift2_nodup _ hn) (by
    rw [List.length_append]
    exact shift2_lt hl) (by
      rw [List.length_append, other_shift2]
      simp only [← gather_eq_sizesAt]
      rw [gather_append, gather_shift _ _ _ _ rfl, gather_shift _ _ _ _ rfl, gather_range L s _ rfl rfl]
      exact ha)
  refine ⟨h.1, fun l p r h1 h2 h3 => ?_⟩
  have := h.2 p (l ++ r) (by
    rw [List.length_append, other_shift2]
    simp [h2]) (by simp [h1, h3])
  rw [List.length_append (as := L), ← h1, join_shift2 hn hl l p r h2 h3] at this
  rw [← h1]
  exact this

/-! ### Flattening -/

/-- `moveaxis(x, T, last).reshape((-1,) + R)`. -/
lemma flat_ok (x : Arr ℝ) (T : List ℕ) (hn : T.Nodup) (hl : ∀ k ∈ T, k < x.ndim) (hx : x.shape.prod ≠ 0) (S R : List ℕ)
    (hS : S = sizesAt (otherAxes x.ndim T) x.shape) (hR : R = sizesAt T x.shape) :
    ∃ z, reshapeHead (x.moveaxis T (lastAxes x.ndim T.length)) R = .ok z ∧ z.shape = S.prod :: R ∧
      ∀ p r, InRange p S → InRange r R → z.get (ravel S p :: r) = x.get (joinIdx x.ndim T p r) := by
  have h := moveaxis_toEnd x hn hl
  have hperm : (otherAxes x.ndim T ++ T).Perm (List.range x.ndim) := by
    rw [← freeAxes_eq]
    exact freeAxes_perm _ _ hn hl
  have hprod : S.prod * R.prod = x.shape.prod := by
    rw [hS, hR, ← List.prod_append, ← gather_eq_sizesAt, ← gather_eq_sizesAt, ← gather_append]
    have h1 : (gather (otherAxes x.ndim T ++ T) x.shape).Perm (gather (List.range x.ndim) x.shape) := hperm.map _
    rw [h1.prod_eq, gather_range_self x.shape x.ndim rfl]
  set y := x.moveaxis T (lastAxes x.ndim T.length) with hy
  have hys : y.shape = S ++ R := by rw [hy, hS, hR]; exact h.1
  have hR0 : R.prod ≠ 0 := fun e => hx (by rw [← hprod, e, mul_zero])
  have hyp : y.shape.prod = S.prod * R.prod := by rw [hys, List.prod_append]
  refine ⟨y.reshape (S.prod :: R), ?_, rfl, ?_⟩
  · unfold reshapeHead
    rw [if_neg hR0, if_pos (by rw [hyp]; exact Nat.mul_mod_left _ _), hyp, Nat.mul_div_cancel _ (Nat.pos_of_ne_zero hR0)]
  · intro p r hp hr
    rw [reshape_get y (S.prod :: R) (j := p ++ r) (by rw [hys]; exact (inRange_append hp.length).2 ⟨hp, hr⟩) (by
      rw [hys, ravel_append hp.length]
      rfl)]
    have l1 := hp.length
    have l2 := hr.length
    rw [hS] at l1
    rw [hR] at l2
    simp only [sizesAt, List.length_map] at l1 l2
    exact h.2 p r l1 l2

/-- The entries of `reshape(t.shape + S + R)` of an array of shape `[n_t, n] + R`. -/
lemma unflat_ok (w : Arr ℝ) (L S R : List ℕ) (hw : w.shape = L.prod :: S.prod :: R) :
    ∃ d, reshapeE w (L ++ S ++ R) = .ok d ∧ d.shape = L ++ S ++ R ∧
      ∀ l p r, InRange l L → InRange p S → InRange r R → d.get (l ++ p ++ r) = w.get (ravel L l :: ravel S p :: r) := by
  refine ⟨w.reshape (L ++ S ++ R), ?_, rfl, ?_⟩
  · unfold reshapeE
    rw [if_pos]
    rw [hw]
    simp
  · intro l p r hl hp hr
    refine reshape_get w _ (by
      rw [hw]
      exact List.Forall₂.cons (ravel_lt hl) (List.Forall₂.cons (ravel_lt hp) hr)) ?_
    rw [hw, List.append_assoc, List.append_assoc, ravel_append hl.length, ravel_append hp.length]
    simp only [ravel, List.prod_append, List.prod_cons]

/-! ### Matrices over positions -/

/-- Row-major numbering of positions. -/
def boxEquiv (S : List ℕ) : box S ≃ Fin S.prod where
  toFun p := ⟨ravel S p.1, ravel_lt (mem_box.1 p.2)⟩
  invFun k := ⟨unravel S k.1, mem_box.2 (inRange_unravel k.2)⟩
  left_inv p := Subtype.ext (unravel_ravel (mem_box.1 p.2))
  right_inv k := Fin.ext (ravel_unravel k.2)

lemma sum_box (S : List ℕ) (f : List ℕ → ℝ) : ∑ q ∈ box S, f q = ∑ q : box S, f q.1 := (Finset.sum_coe_sort (box S) f).symm

variable {bk : Backend}

/-- `_add_diagonal_regularizer(make_2d(K))`. -/
lemma reg_ok (K : Arr ℝ) (S : List ℕ) (hK : K.shape = interleave S S) (reg : ℝ) (absolute : Bool) :
    ∃ A, make2d K = .ok A ∧ A.shape = [S.prod, S.prod] ∧
      regMat reg absolute (pairMat S S K) = (mat S.prod S.prod (addDiagReg A reg absolute)).submatrix (boxEquiv S) (boxEquiv S) := by
  have hKn : K.ndim = 2 * S.length := by rw [ndim, hK, interleave_length rfl]
  obtain ⟨A, h1, h2, h3⟩ := make2d_ok K [] S S [] (by simpa using hK) rfl
  have e1 : make2d K = make2d K 0 (some (0 + 2 * S.length)) := by simp [make2d, hKn]
  refine ⟨A, e1.trans h1, by simpa using h2, ?_⟩
  have hA : ∀ p q : box S, A.get [ravel S p.1, ravel S q.1] = K.get (interleave p.1 q.1) := by
    intro p q
    have := h3 [] p.1 q.1 [] (by simp) (mem_box.1 p.2) (mem_box.1 q.2) (by simp)
    simpa using this
  have htr : ∑ k ∈ Finset.range S.prod, A.get [k, k] = (pairMat S S K).trace := by
    have h := box_sum_ravel S (fun p => A.get [ravel S p, ravel S p])
    have h' : ∑ k ∈ Finset.range S.prod, A.get [k, k] = ∑ k ∈ Finset.range S.prod, A.get [ravel S (unravel S k), ravel S (unravel S k)] :=
      Finset.sum_congr rfl fun k hk => by rw [ravel_unravel (Finset.mem_range.1 hk)]
    rw [h', h, sum_box]
    exact Finset.sum_congr rfl fun p _ => hA p p
  have hcard : (Fintype.card (box S) : ℝ) = S.prod := by
    rw [Fintype.card_coe, box_card]
  have hsh : A.shape = [S.prod, S.prod] := by simpa using h2
  ext p q
  simp only [regMat, mat, addDiagReg, submatrix_apply, Matrix.add_apply, Matrix.smul_apply, smul_eq_mul, boxEquiv, Equiv.coe_fn_mk, hsh,
    List.getD_cons_zero, List.getD_cons_succ]
  rw [hA, htr, hcard, Matrix.one_apply]
  have : (p = q) ↔ (ravel S p.1 = ravel S q.1) :=
    ⟨fun h => by rw [h], fun h => Subtype.ext (ravel_inj (mem_box.1 p.2) (mem_box.1 q.2) h)⟩
  simp only [this, pairMat]

/-- The eigenvalue decomposition. -/
lemma eigenspace_ok (hb : bk.Correct) (K : Arr ℝ) (S : List ℕ) (hK : K.shape = interleave S S) (reg : ℝ) (absolute : Bool)
    (hs : (regMat reg absolute (pairMat S S K)).IsSymm) :
    ∃ es V, ∃ lam : Fin S.prod → ℝ, eigenspace bk K reg absolute = .ok es ∧ es.2.shape = [S.prod, S.prod] ∧
      Spectral.Orth V ∧ regMat reg absolute (pairMat S S K) = Spectral.fc V lam ∧
      (∀ (p : box S) i, V p i = es.2.get [ravel S p.1, i.1]) ∧ ∀ i, lam i = es.1.get [i.1] := by
  obtain ⟨A, h1, h2, h3⟩ := reg_ok K S hK reg absolute
  set B := addDiagReg A reg absolute with hB
  have hBs : B.shape = [S.prod, S.prod] := h2
  have hsym : (mat S.prod S.prod B).IsSymm := by
    have : mat S.prod S.prod B = (regMat reg absolute (pairMat S S K)).submatrix (boxEquiv S).symm (boxEquiv S).symm := by
      rw [h3]
      ext i j
      simp
    rw [this]
    exact hs.submatrix _
  refine ⟨bk.eigh B, (mat S.prod S.prod (bk.eigh B).2).submatrix (boxEquiv S) id, fun i => (bk.eigh B).1.get [i.1], ?_,
    hb.evecs_shape _ _ hBs, ⟨?_, ?_⟩, ?_, fun p i => rfl, fun i => rfl⟩
  · unfold eigenspace
    rw [h1]
  · rw [transpose_submatrix, submatrix_mul_equiv, submatrix_id_id]
    exact hb.orthogonal _ _ hBs hsym
  · rw [transpose_submatrix]
    have h := submatrix_mul_equiv (mat S.prod S.prod (bk.eigh B).2) (mat S.prod S.prod (bk.eigh B).2)ᵀ (boxEquiv S) (Equiv.refl _)
      (boxEquiv S)
    rw [mul_eq_one_comm.1 (hb.orthogonal _ _ hBs hsym), submatrix_one_equiv] at h
    exact h
  · rw [h3]
    conv_lhs => rw [hb.diagonalises _ _ hBs hsym]
    unfold Spectral.fc
    rw [transpose_submatrix]
    have h := submatrix_mul_equiv (mat S.prod S.prod (bk.eigh B).2) (diagonal fun i : Fin S.prod => (bk.eigh B).1.get [i.1])
      (boxEquiv S) (Equiv.refl _) (Equiv.refl _)
    have h' := submatrix_mul_equiv (mat S.prod S.prod (bk.eigh B).2 * diagonal fun i : Fin S.prod => (bk.eigh B).1.get [i.1])
      (mat S.prod S.prod (bk.eigh B).2)ᵀ (boxEquiv S) (Equiv.refl _) (boxEquiv S)
    rw [← h', ← h]
    rfl

/-- `einsum` in the eigenbasis, as a matrix product. -/
lemma einsumEig_ok (S R : List ℕ) (es : Arr ℝ × Arr ℝ) (V : Matrix (box S) (Fin S.prod) ℝ) (lam : Fin S.prod → ℝ)
    (hes : es.2.shape = [S.prod, S.prod]) (hV : ∀ (p : box S) i, V p i = es.2.get [ravel S p.1, i.1])
    (hlam : ∀ i, lam i = es.1.get [i.1]) (fn : ℝ → ℝ → ℝ) (z t : Arr ℝ) (hz : z.shape = S.prod :: R)
    (W : Matrix (box S) (box R) ℝ) (hW : ∀ p r, z.get (ravel S p.1 :: r.1) = W p r) :
    ∃ w, einsumEig es.1 es.2 fn z t = .ok w ∧ w.shape = t.shape.getD 0 0 :: S.prod :: R ∧
      ∀ (k : ℕ) (p : box S) (r : box R),
        w.get (k :: ravel S p.1 :: r.1) = (Spectral.fc V (fun i => fn (lam i) (t.get [k])) * W) p r := by
  refine ⟨_, by
    unfold einsumEig
    simp only [hes, hz, List.getD_cons_zero, List.head?_cons, if_true]
    rfl, by simp, ?_⟩
  intro k p r
  simp only [List.getD_cons_zero, List.getD_cons_succ, List.drop_succ_cons, List.drop_zero]
  rw [mul_apply, Finset.sum_comm]
  have h1 : ∀ f : ℕ → ℝ, ∑ k' ∈ Finset.range S.prod, f k' = ∑ q : box S, f (ravel S q.1) := by
    intro f
    have h := box_sum_ravel S (fun q => f (ravel S q))
    have h' : ∑ k ∈ Finset.range S.prod, f k = ∑ k ∈ Finset.range S.prod, f (ravel S (unravel S k)) :=
      Finset.sum_congr rfl fun k hk => by rw [ravel_unravel (Finset.mem_range.1 hk)]
    rw [h', h, sum_box]
  rw [h1]
  refine Finset.sum_congr rfl fun q _ => ?_
  rw [Spectral.fc_apply, Finset.sum_mul, Finset.sum_range]
  refine Finset.sum_congr rfl fun i _ => ?_
  rw [hV, hV, hlam, ← hW]

lemma axesOf_ok (hb : bk.Correct) {axes : List Int} {n : ℕ} {T : List ℕ} (h : axesOf bk axes n = .ok T) :
    T.Nodup ∧ (∀ k ∈ T, k < n) ∧ bk.setIter T.toFinset = T := by
  unfold axesOf at h
  rcases hF : Utils.canonicalizeAxis axes n with e | F
  · rw [hF] at h
    simp at h
  · rw [hF] at h
    simp only [Except.ok.injEq] at h
    subst h
    refine ⟨hb.iter_nodup F, ?_, ?_⟩
    · intro k hk
      have hk := (hb.iter_mem F k).1 hk
      by_cases hall : ∀ i ∈ axes, ∃ d, C16.Denotes n i d
      · obtain ⟨F', h1, h2⟩ := C16.canonicalizeAxis_denotes axes n hall
        rw [hF] at h1
        cases h1
        obtain ⟨i, _, hi⟩ := (h2 k).1 hk
        exact hi.1
      · push Not at hall
        obtain ⟨i, hi, hd⟩ := hall
        exfalso
        have := C16.canonicalizeAxis_out_of_range axes n i hi (by
          by_contra hc
          push Not at hc
          by_cases h0 : 0 ≤ i
          · exact hd i.toNat ⟨by omega, by omega⟩
          · exact hd (i + n).toNat ⟨by omega, by omega⟩)
        rw [hF] at this
        cases this
    · have : (bk.setIter F).toFinset = F := by
        ext k
        rw [List.mem_toFinset, hb.iter_mem]
      rw [this]

end NT.Predict
