import Verif.Lemmas.Attention2
import Verif.Props.C25

/-! Auxiliary lemmas for C59: the attention weights. -/

namespace NT.Attn
open NT Spec Attention Kernel
open NT.Arr
variable {n : ℕ} {S : List ℕ} {rev : Bool}

lemma diag_front {a : Arr ℝ} {T : List ℕ} (ha : a.shape = n :: n :: T) :
    ((diagonalAdj a 0).moveaxis [a.ndim - 2] [0]).shape = n :: T ∧
    ∀ i t, t.length = T.length → ((diagonalAdj a 0).moveaxis [a.ndim - 2] [0]).get (i :: t) = a.get (i :: i :: t) := by
  set d := diagonalAdj a 0 with hd
  have hds : d.shape = T ++ [n] := by simp [hd, diagonalAdj, ha]
  have hdn : d.ndim = T.length + 1 := by simp [ndim, hds]
  have hn : a.ndim - 2 = T.length := by simp [ndim, ha]
  rw [hn]
  have hpm : moveaxisPerm d.ndim [T.length] [0] = [T.length] ++ List.range' 0 T.length := by
    have := moveaxisPerm_last 0 T.length
    rw [hdn]
    simpa using this
  have hperm : (moveaxisPerm d.ndim [T.length] [0]).Perm (List.range d.ndim) := by
    apply moveaxis_perm' d (by simp) (by simp)
    intro k hk; simp at hk; omega
  have hg : ∀ (t : List ℕ) (k : ℕ), t.length = T.length → gather (moveaxisPerm d.ndim [T.length] [0]) (t ++ [k]) = k :: t := by
    intro t k ht
    have e0 := gather_range' (x := t ++ [k]) [] t [k] 0 T.length (by simp) rfl ht.symm
    rw [hpm, gather_append, e0]
    simp only [gather, List.map_cons, List.map_nil]
    have : T.length = t.length + 0 := by simp [ht]
    rw [this, getD_append_len]
    simp
  constructor
  · show gather _ _ = _
    rw [hds]; exact hg T n rfl
  · intro i t ht
    have e0 : (d.moveaxis [T.length] [0]).get (gather (moveaxisPerm d.ndim [T.length] [0]) (t ++ [i])) = d.get (t ++ [i]) :=
      transpose_get d hperm (by simp [hdn, ht])
    rw [hg t i ht] at e0
    rw [e0]
    have := diagonalAdj_get a [] t i
    simpa using this

lemma allKeep_shape {m : Arr Bool} {ba ca : ℕ} (h : C25.MaskShape m ba ca n S) :
    C25.MaskShape (allKeep m ca) ba ca n S ∧ ∀ i p, p.length = S.length → C25.Masked (allKeep m ca) ba ca i p = C25.Masked m ba ca i p := by
  obtain ⟨h1, h2, h3, h4⟩ := h
  have g : ∀ (b : ℕ) (p : List ℕ), p.length = S.length → ∀ c, (actIdx ba ca b c p).set ca c = actIdx ba ca b c p := by
    intro b p hp c
    have := C25.getD_act ba ca b c p h1 (by omega) (by omega)
    obtain ⟨hl, e⟩ := List.getElem?_eq_some_iff.1 this
    have e' := List.set_getElem_self hl
    rwa [e] at e'
  refine ⟨⟨h1, h2, h3, ?_⟩, ?_⟩
  · simp only [allKeep, h4]
    exact g n S rfl 1
  · intro i p hp
    have e : m.shape.getD ca 0 = 1 := by
      rw [h4, List.getD_eq_getElem?_getD, C25.getD_act ba ca n 1 S h1 h2 h3]; rfl
    simp only [C25.Masked, allKeep, e]
    simp [g i p hp 0]

/-- Which positions the masks of the two inputs mask. -/
inductive MaskOf (k : Kernel ℝ) (n : ℕ) (S : List ℕ) : Option (Arr Bool) → (ℕ → List ℕ → Bool) → Prop
  | none : MaskOf k n S none fun _ _ => false
  | some (m : Arr Bool) (h : C25.MaskShape m k.batchAxis k.channelAxis n S) :
    MaskOf k n S (some m) (C25.Masked m k.batchAxis k.channelAxis)

/-- The score of a masked position. -/
noncomputable def maskedScore (mech : Mechanism) : ℝ := if mech = .softmax then -10 ^ 20 else 0

lemma scores_ok (l : Attention) (k : Kernel ℝ) {mat : Arr ℝ} {K : List ℕ → List ℕ → List ℕ → ℝ} {mask : Option (Arr Bool)}
    {M : ℕ → List ℕ → Bool} (h : Holds mat (batchShape k.diagonalBatch n) S S false k.isReversed fun b => K (dbl b))
    (hM : MaskOf k n S mask M) :
    ∃ y, l.scores k mat mask = .ok y ∧
      Holds y [n] S S false k.isReversed fun b p q => score (maskedScore l.mechanism) K M (b.getD 0 0) p q := by
  set mat' := (if k.diagonalBatch then mat else (diagonalAdj mat 0).moveaxis [mat.ndim - 2] [0]) with hmat'
  have h' : Holds mat' [n] S S false k.isReversed fun b p q => K [b.getD 0 0, b.getD 0 0] p q := by
    cases hb : k.diagonalBatch
    · rw [hb] at h
      have hs : mat.shape = n :: n :: pos false k.isReversed S S := h.shape
      obtain ⟨d1, d2⟩ := diag_front hs
      rw [hmat', hb]
      refine ⟨rfl, by simp, d1, ?_⟩
      intro b p q hb' hp hq _
      obtain ⟨i, b', rfl, hi, hb''⟩ := inRange_cons_right.1 hb'
      obtain rfl := inRange_nil_right.1 hb''
      have := h.get [i, i] p q (by simp [batchShape, hi]) hp hq (by simp)
      simp only [dbl] at this
      simp only [List.getD_cons_zero]
      rw [← this]
      exact d2 i _ (pos_inRange rfl hp hq).length
    · rw [hb] at h
      rw [hmat', hb]
      refine ⟨rfl, by simp, h.shape, ?_⟩
      intro b p q hb' hp hq _
      have := h.get b p q hb' hp hq (by simp)
      obtain ⟨i, b', rfl, hi, hb''⟩ := inRange_cons_right.1 hb'
      obtain rfl := inRange_nil_right.1 hb''
      simpa [dbl] using this
  unfold scores
  simp only [← hmat']
  cases hM with
  | none => exact ⟨mat', rfl, by simpa [score] using h'⟩
  | some m hm =>
    obtain ⟨a1, a2⟩ := allKeep_shape hm
    obtain ⟨z, ez, zs, zg⟩ := C25.maskReshape_ok k _ n S a1
    simp only [ez, bind, Except.bind]
    refine ⟨_, rfl, rfl, by simp, ?_, ?_⟩
    · have hnd : z.ndim = [n].length + (rv k.isReversed S).length := by simp [ndim, zs]; omega
      have := (interleaveOnes_get z [n] (rv k.isReversed S) [] (by simp [zs]) false).1
      rw [← hnd, show [n].length = 1 from rfl] at this
      simp only [bcast]
      rw [this, h'.shape, pos_full]
      simp only [Bool.false_eq_true, if_false, List.append_nil]
      rw [List.zipWith_append rfl, zipWith_bcastDim_self]
      congr 1
      generalize rv k.isReversed S = A
      induction A with
      | nil => rfl
      | cons a A ih => simp [List.replicate_succ, interleave, ih, bcastDim]
    · intro b p q hb hp hq _
      have hnd : z.ndim = [n].length + (rv k.isReversed S).length := by simp [ndim, zs]; omega
      obtain ⟨i1, i2⟩ := interleaveOnes_get z [n] (rv k.isReversed S) [] (by simp [zs]) false
      rw [← hnd] at i1 i2
      have hq' : InRange (rv k.isReversed q) (rv k.isReversed S) := inRange_rv.2 hq
      have hp' : InRange (rv k.isReversed p) (rv k.isReversed S) := inRange_rv.2 hp
      have g := i2 b (rv k.isReversed q) [] hb hq' (by simp)
      simp only [Bool.false_eq_true, if_false, List.append_nil] at g i1
      simp only [bcast]
      have e1 : bcastIdx (interleaveOnes z 1 z.ndim false).shape (b ++ pos false k.isReversed p q) =
          b ++ interleave (List.replicate (rv k.isReversed q).length 0) (rv k.isReversed q) := by
        have i1' : (interleaveOnes z 1 z.ndim false).shape = [n] ++ interleave (List.replicate (rv k.isReversed S).length 1) (rv k.isReversed S) := i1
        rw [i1', pos_full, bcastIdx_append (by simp [hb.length]), bcastIdx_self hb, bcastIdx_ones_right hq' hp'.length]
      have e2 : bcastIdx mat'.shape (b ++ pos false k.isReversed p q) = b ++ pos false k.isReversed p q := by
        rw [h'.shape, bcastIdx_self (by rw [inRange_append hb.length]; exact ⟨hb, pos_inRange rfl hp hq⟩)]
      rw [e1, e2, h'.get b p q hb hp hq (by simp)]
      obtain ⟨i, b', rfl, hi, hb''⟩ := inRange_cons_right.1 hb
      obtain rfl := inRange_nil_right.1 hb''
      have g' : (interleaveOnes z 1 z.ndim false).get ([i] ++ interleave (List.replicate (rv k.isReversed q).length 0) (rv k.isReversed q)) =
        z.get ([i] ++ rv k.isReversed q) := g
      have zz := zg i q hq.length
      rw [a2 i q hq.length] at zz
      rw [g', List.singleton_append, zz]
      simp [score, maskedScore, negInf]

lemma interleave_getD (p q : List ℕ) (h : p.length = q.length) (i : ℕ) :
    (interleave p q).getD (2 * i) 0 = p.getD i 0 ∧ (interleave p q).getD (2 * i + 1) 0 = q.getD i 0 := by
  induction p generalizing q i with
  | nil => cases q <;> simp_all [interleave]
  | cons a p ih =>
    cases q with
    | nil => simp at h
    | cons b q =>
      cases i with
      | zero => simp [interleave]
      | succ i =>
        have := ih q (by simpa using h) i
        rw [show 2 * (i + 1) = 2 * i + 1 + 1 by ring]
        simpa [interleave] using this

lemma idxOf_range'_two (s m i : ℕ) (hi : i < m) : (List.range' s m 2).idxOf (s + 2 * i) = i := by
  have hl : i < (List.range' s m 2).length := by simpa using hi
  have e : (List.range' s m 2)[i] = s + 2 * i := by simp
  rw [← e, (nodup_range'_two s m).idxOf_getElem]

lemma putAt_interleave (b p q c : List ℕ) (h : p.length = q.length) (hc : c.length = q.length) (hb : b.length = 1) :
    Arr.replaceAt (List.range' 2 q.length 2) c (b ++ interleave p q) = b ++ interleave p c := by
  obtain ⟨x, rfl⟩ := List.length_eq_one_iff.1 hb
  refine ext_getD (by simp [Arr.replaceAt, interleave_length h, interleave_length (h.trans hc.symm)]) ?_
  intro j hj
  have hj' : j < 1 + 2 * q.length := by
    simpa [Arr.replaceAt, interleave_length h, h, add_comm] using hj
  have e0 : ∀ (l : List ℕ) (j : ℕ), j < l.length → (Arr.replaceAt (List.range' 2 q.length 2) c l).getD j 0 =
      if j ∈ List.range' 2 q.length 2 then c.getD ((List.range' 2 q.length 2).idxOf j) 0 else l.getD j 0 := by
    intro l j hj
    simp only [Arr.replaceAt]
    rw [List.getD_eq_getElem?_getD, List.getElem?_mapIdx, List.getElem?_eq_getElem hj, List.getD_eq_getElem?_getD (l := l), List.getElem?_eq_getElem hj]
    rfl
  rw [e0 _ j (by simp [interleave_length h]; omega)]
  rcases Nat.eq_zero_or_pos j with rfl | hpos
  · rw [if_neg (by simp only [List.mem_range']; rintro ⟨a, ha, e⟩; omega)]
    rfl
  · obtain ⟨j, rfl⟩ : ∃ i, j = i + 1 := ⟨j - 1, by omega⟩
    rcases Nat.even_or_odd' j with ⟨i, rfl | rfl⟩
    · rw [if_neg (by simp only [List.mem_range']; rintro ⟨a, ha, e⟩; omega)]
      simp only [List.singleton_append, List.getD_cons_succ]
      rw [(interleave_getD p q h i).1, (interleave_getD p c (h.trans hc.symm) i).1]
    · rw [if_pos (by simp only [List.mem_range']; exact ⟨i, by omega, by ring⟩)]
      simp only [List.singleton_append, List.getD_cons_succ]
      rw [(interleave_getD p c (h.trans hc.symm) i).2, show 2 * i + 1 + 1 = 2 + 2 * i by ring, idxOf_range'_two _ _ _ (by omega)]

lemma softmax_ok {a : Arr ℝ} {F : List ℕ → List ℕ → List ℕ → ℝ} (h : Holds a [n] S S false rev F) :
    Holds (softmax a (pyRange 2 a.ndim 2)) [n] S S false rev fun b p q => Real.exp (F b p q) / ∑ v ∈ box S, Real.exp (F b p v) := by
  have hnd : a.ndim = 1 + 2 * S.length := by
    rw [ndim, h.shape, pos_full, List.length_append, interleave_length rfl]; simp
  have hr : pyRange 2 a.ndim 2 = List.range' 2 S.length 2 := by
    rw [hnd]
    have := pyRange_two 1 S.length
    simpa using this
  refine ⟨rfl, by simp, h.shape, ?_⟩
  intro b p q hb hp hq _
  have hgs : gather (List.range' 2 S.length 2) a.shape = rv rev S := by
    have := gather_odd [n] (rv rev S) (rv rev S) [] rfl
    rw [h.shape, pos_full]
    simpa using this
  simp only [softmax, hr, hgs]
  rw [sumOver_eq_box, box_sum_rv, h.get b p q hb hp hq (by simp)]
  congr 1
  refine Finset.sum_congr rfl fun v hv => ?_
  rw [mem_box] at hv
  have hl : S.length = (rv rev q).length := by simp [hq.length]
  rw [pos_full, hl, putAt_interleave _ _ _ _ (by simp [hp.length, hq.length]) (by simp [hv.length, hq.length]) hb.length, ← pos_full,
    h.get b p v hb hp hv (by simp)]

/-- The weights computed from covariances, as an array. -/
lemma weighting_ok (l : Attention) (k : Kernel ℝ) {mat : Arr ℝ} {K : List ℕ → List ℕ → List ℕ → ℝ} {mask : Option (Arr Bool)}
    {M : ℕ → List ℕ → Bool} (h : Holds mat (batchShape k.diagonalBatch n) S S false k.isReversed fun b => K (dbl b))
    (hM : MaskOf k n S mask M) :
    ∃ y, l.weighting k mat mask = .ok y ∧
      Holds y [n] S S false k.isReversed fun b p q => attnWeight l.mechanism l.qkStd S K M (b.getD 0 0) p q := by
  obtain ⟨y, e, hy⟩ := scores_ok l k h hM
  unfold weighting
  simp only [e, bind, Except.bind]
  have hy' : Holds (y.map fun v => l.qkStd * v) [n] S S false k.isReversed fun b p q =>
      l.qkStd * score (maskedScore l.mechanism) K M (b.getD 0 0) p q :=
    ⟨hy.rank, hy.square, hy.shape, fun b p q hb hp hq hd => by simp only [Arr.map]; rw [hy.get b p q hb hp hq hd]⟩
  refine ⟨_, rfl, ?_⟩
  split_ifs with hs
  · have := softmax_ok hy'
    rw [hs]
    simpa [attnWeight, maskedScore, hs] using this
  · refine ⟨hy'.rank, hy'.square, hy'.shape, fun b p q hb hp hq hd => ?_⟩
    show fn _ _ = _
    rw [hy'.get b p q hb hp hq hd]
    cases hmm : l.mechanism
    · exact absurd hmm hs
    all_goals simp [attnWeight, fn, maskedScore]

end NT.Attn
