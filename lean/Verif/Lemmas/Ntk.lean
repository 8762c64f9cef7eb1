import Verif.Lemmas.TraceDiag

/-!
# Both NTK contractions compute the documented kernel
-/

namespace NT.Emp

open NT.Arr NT.Spec NT.Utils NT.Network

variable {α : Type}

lemma reducedMean_unique [Field α] {S1 S2 T D : List ℕ} {K : List ℕ → List ℕ → α} {x y : Arr α} (hx : ReducedMean S1 S2 T D K x)
    (hy : ReducedMean S1 S2 T D K y) (hS : S1.length = S2.length) (hD : sizesAt D S1 = sizesAt D S2) (hd : ∀ a ∈ D, a < S1.length) : x ≋ y := by
  refine ⟨by rw [hx.shape, hy.shape], fun k hk => ?_⟩
  rw [hx.shape] at hk
  obtain ⟨i, j, hi, hj, hij, rfl⟩ := pairIdx_all hS hD hd hk
  rw [hx.get i j hi hj hij, hy.get i j hi hj hij]

lemma sizeAtAxes_eq (s T : List ℕ) : sizeAtAxes s T = (sizesAt T s).prod := by
  unfold sizeAtAxes sizesAt
  rw [List.prod_eq_foldl]

lemma divBy_reduced [Field α] {S1 S2 T D : List ℕ} {K : List ℕ → List ℕ → α} {x : Arr α} (hx : Reduced S1 S2 T D K x) :
    ReducedMean S1 S2 T D K (divBy x ((sizesAt T S1).prod : ℕ)) :=
  ⟨hx.shape, fun i j hi hj hij => by
    show x.get _ / _ = _
    rw [hx.get i j hi hj hij]⟩

/-- `_trace_and_diagonal`. -/
lemma traceAndDiagonal_ok [Field α] {n : ℕ} {S1 S2 : List ℕ} {N : Arr α} {trace diagonal : List ℤ} {T D : List ℕ} (h1 : S1.length = n)
    (h2 : S2.length = n) (hN : N.shape = S1 ++ S2) (h : AxesOk n trace diagonal T D) (hT : sizesAt T S1 = sizesAt T S2)
    (hD : sizesAt D S1 = sizesAt D S2) :
    ∃ z, traceAndDiagonal N trace diagonal = .ok z ∧ ReducedMean S1 S2 T D (fun i j => N.get (i ++ j)) z := by
  have aT := axesList_axes h.trace
  have aD := axesList_axes h.diagonal
  have hdis := h.disjoint
  have hany : (T.any (D.contains ·)) = false := by
    rw [List.any_eq_false]
    intro a ha
    simpa using hdis a ha
  have hNn : N.ndim = n + n := by unfold ndim; rw [hN, List.length_append, h1, h2]
  have ht := traceLoop_ok h1 h2 hN T aT hT
  have hd := diagonalLoop_ok aT ht.shape D aD hdis hD
  set X := diagonalLoop n (traceLoop n N T) T D with hX
  set F := otherAxes n (D ++ T) with hF
  have hXn : X.ndim - D.length = 2 * F.length := by
    unfold ndim; rw [hd.shape, ← hF]; simp [gather]; omega
  obtain ⟨w, hw, hws, hwg⟩ := zipAxes_ok X [] (gather F S1) (gather F S2) (gather D S1) (by simpa using hd.shape) (by simp [gather])
  have hw' : zipAxes X 0 (some (X.ndim - D.length)) = .ok w := by
    rw [← hw, hXn]; simp [gather]
  have hwn : w.ndim = D.length + 2 * F.length := by
    unfold ndim; rw [hws]; simp [gather, interleave_length]; omega
  have hp := moveaxisPerm_res aT aD hdis (2 * F.length) 0 (Or.inr ⟨rfl, rfl⟩)
  rw [← hF, ← hwn] at hp
  have hwn' : w.ndim - D.length = 2 * F.length := by omega
  refine ⟨divBy (w.moveaxis (List.range' (2 * F.length) D.length) (resBatchDims T D)) ((sizesAt T S1).prod : ℕ), ?_, divBy_reduced ⟨?_, ?_⟩⟩
  · unfold traceAndDiagonal
    rw [if_neg (by omega)]
    have hhalf : N.ndim / 2 = n := by omega
    have htake : N.shape.take n = S1 := by rw [hN, ← h1, List.take_left]
    simp only [bind, Except.bind, pure, Except.pure, hhalf, h.trace, h.diagonal, hany, Bool.false_eq_true, if_false, ← hX, hw', hwn', htake,
      sizeAtAxes_eq]
  · unfold moveaxis
    rw [hp]
    show gather _ w.shape = _
    rw [hws, List.nil_append, hF, gather_last aD hdis, h1]
  · intro i j hi hj hij
    have hil : i.length = n := by rw [hi.1, h1]
    have hjl : j.length = n := by rw [hj.1, h2]
    unfold moveaxis
    rw [hp, h1, ← gather_last aD hdis i j]
    have hperm : (labels ((List.range n).map (kind T D)) (2 * F.length) 0).Perm (List.range w.ndim) := by
      rw [← hp]
      refine moveaxis_perm' w ?_ List.nodup_range' fun k hk => ?_
      · simp [resBatchDims]
      · have := List.mem_range'_1.1 hk; omega
    rw [transpose_get w hperm (by rw [hwn, List.length_append, interleave_length (by simp [gather])]; simp [gather, hF]; omega)]
    have := hwg [] (gather F i) (gather F j) (gather D i) rfl (by simp [gather]) (by simp [gather]) (by simp [gather])
    rw [List.nil_append, List.nil_append] at this
    rw [this, hd.get i j hil hjl hij, ht.get i j hil hjl]

lemma sizeAtRaw_ok {n : ℕ} {S : List ℕ} {raw : List ℤ} {T : List ℕ} (hS : S.length = n) (h : IsAxes n raw T)
    (hnd : DistinctAxes n raw) : sizeAtRaw S raw = .ok (sizesAt T S).prod := by
  obtain ⟨l, hl, hm⟩ := mapM_arange_ok raw h.inBounds
  have hl' : l.map (fun a : ℕ => (a : ℤ)) = raw.map fun r : ℤ => if 0 ≤ r then r else r + n := by
    have hb := h.inBounds
    clear h hm hnd
    induction raw generalizing l with
    | nil => cases hl; rfl
    | cons r raw ih =>
      rw [List.mapM_cons] at hl
      obtain ⟨k, hk, hl⟩ := bind_ok hl
      obtain ⟨ks, hks, hl⟩ := bind_ok hl
      cases hl
      rw [List.map_cons, List.map_cons, ih ks hks fun r hr => hb r (by simp [hr])]
      have := arangeAt_eq.1 hk
      congr 1
      split_ifs <;> omega
  have hnl : l.Nodup := by
    unfold DistinctAxes at hnd
    rw [← hl'] at hnd
    exact List.Nodup.of_map _ hnd
  have hperm : l.Perm T := by
    rw [List.perm_ext_iff_of_nodup hnl (h.increasing.imp fun h => h.ne)]
    intro a; rw [hm, h.mem]
  unfold sizeAtRaw
  rw [hS, hl]
  simp only [bind, Except.bind, pure, Except.pure, sizeAtAxes_eq]
  congr 1
  exact (hperm.map _).prod_eq

/-- `empirical_nngp_fn`. -/
lemma nngp_ok [Field α] (x y : Arr α) {n : ℕ} {trace diagonal : List ℤ} {T D : List ℕ} (hx : x.ndim = n) (hy : y.ndim = n)
    (h : ReducedAxes n trace diagonal T D) (hnd : DistinctAxes n trace)
    (hT : sizesAt T x.shape = sizesAt T y.shape) (hD : sizesAt D x.shape = sizesAt D y.shape) :
    ∃ z, nngp x y trace diagonal = .ok z ∧ ReducedMean x.shape y.shape T D (fun i j => x.get i * y.get j) z := by
  obtain ⟨z, hz, hr⟩ := dot_reduced x y hx hy (axesOk h) hT hD
  refine ⟨_, ?_, divBy_reduced hr⟩
  unfold nngp
  rw [hz, sizeAtRaw_ok hx h.trace hnd]
  rfl

end NT.Emp
