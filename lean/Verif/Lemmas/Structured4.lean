import Verif.Lemmas.Structured3
import Verif.Lemmas.Ntk2

/-!
# The value of the contraction of two uses of a parameter
-/

namespace NT.Emp
open NT NT.Spec NT.Einsum NT.Rules
open NT.Arr
open scoped BigOperators

set_option linter.unusedSectionVars false

lemma inRange_map {N : List ℤ} {f sz : ℤ → ℕ} : InRange (N.map f) (N.map sz) ↔ ∀ l ∈ N, f l < sz l := by
  unfold InRange
  rw [List.forall₂_map_left_iff, List.forall₂_map_right_iff, List.forall₂_same]

lemma assign_lt {N : List ℤ} {c : List ℕ} {sz : ℤ → ℕ} (hn : N.Nodup) (hc : InRange c (N.map sz)) {l : ℤ} (hl : l ∈ N) : assign N c l < sz l := by
  have e := map_assign N c hn (by rw [hc.length, List.length_map])
  rw [← e] at hc
  exact inRange_map.1 hc l hl

section
variable {n : ℕ} {T D S1 S2 out1 out2 inp : List ℕ} {s1 s2 : Structure} {i1 i2 : ℕ}

/-- The indices agree at the traced and diagonal axes. -/
def Meets (s1 s2 : Structure) (i1 i2 : ℕ) (y1 y2 w : List ℕ) : Prop :=
  (Agree (tracePairs s1) y1 w ∧ Agree (diagPairs s1 i1) y1 w) ∧ Agree (tracePairs s2) y2 w ∧ Agree (diagPairs s2 i2) y2 w

lemma evals (h : PairOk n T D S1 S2 out1 out2 inp s1 s2 i1 i2) {o : ℕ} {W I Y1 J Y2 V Z1 Z2 : List ℕ} (m : Meets s1 s2 i1 i2 Y1 Y2 V)
    (hI : I.length = n) (hJ : J.length = n) (hY1 : Y1.length = out1.length) (hY2 : Y2.length = out2.length) (hW : W.length = inp.length)
    (hIJ : ∀ a, a < n → a ∈ T ∨ a ∈ D → J.getD a 0 = I.getD a 0) (hZ1 : Z1.length = out1.length) (hZ2 : Z2.length = out2.length)
    (gZ1 : ∀ a, a < out1.length → Z1.getD a 0 = if a ∈ s1.outTrace ++ s1.outBroadcast then o else Y1.getD a 0)
    (gZ2 : ∀ a, a < out2.length → Z2.getD a 0 = if a ∈ s2.outTrace ++ s2.outBroadcast then o else Y2.getD a 0) :
    let L := lay n out1 out2 inp s1 i1
    (dims1 L s1.outTrace s1.outDiagonal).map (L.rd o W I Y1 J Y2 V) = I ++ Y1 ∧
    (dimsw L n out1.length s1.outTrace s1.outDiagonal s1.outBroadcast).map (L.rd o W I Y1 J Y2 V) = Z1 ++ W ∧
    (dimsw L (n + out1.length + n) out2.length s2.outTrace s2.outDiagonal s2.outBroadcast).map (L.rd o W I Y1 J Y2 V) = Z2 ++ W ∧
    (dims2 L T D s2.outTrace s2.outDiagonal).map (L.rd o W I Y1 J Y2 V) = J ++ Y2 := by
  intro L
  have hL := h.roomL
  obtain ⟨⟨t1, d1⟩, t2, d2⟩ := m
  rw [diagPairs_zip h.fits1.diagFst] at d1
  rw [diagPairs_zip h.fits2.diagFst, ← h.diag] at d2
  have t2 : Agree (s2.outTrace.zip s1.inTrace) Y2 V := by rw [h.trace]; exact t2
  have lt2 : s2.outTrace.length = s1.inTrace.length := by rw [h.trace]; exact h.fits2.traceLen
  have ld2 : s2.outDiagonal.length = (diagIns s1 i1).length := by rw [h.diag]; exact h.fits2.diagLen
  have cond : ∀ {s : Structure} {i : ℕ} {out : List ℕ}, FitsShapes s i out inp → ∀ a,
      (a ∉ s.outDiagonal ∧ (a ∈ s.outTrace ∨ a ∈ s.outBroadcast)) ↔ a ∈ s.outTrace ++ s.outBroadcast := by
    intro s i out hf a
    rw [List.mem_append]
    refine ⟨fun k => k.2, fun k => ⟨fun hd => ?_, k⟩⟩
    rcases k with k | k
    · exact (List.nodup_append.1 hf.outNodup).2.2 a k a hd rfl
    · exact hf.off a hd k
  refine ⟨dims1_rd hL h.fits1.traceLen h.fits1.diagLen t1 d1 hI hY1, ?_, ?_, ?_⟩
  · refine dimsw_rd hL h.fits1.diagLen d1 (fun a ha => Lay.rd_y1 ha) hZ1 (fun a ha => ?_) hW
    rw [gZ1 a ha]
    exact if_congr (cond h.fits1 a).symm rfl rfl
  · refine dimsw_rd hL ld2 d2 (fun a ha => Lay.rd_y2 ha) hZ2 (fun a ha => ?_) hW
    rw [gZ2 a ha]
    exact if_congr (cond h.fits2 a).symm rfl rfl
  · refine dims2_rd hL lt2 ld2 t2 d2 hJ (fun a ha => ?_) hY2
    split_ifs with hx
    · exact hIJ a ha hx
    · rfl

/-- The index into the parameter given by the values of the labels. -/
def wOf (L : Lay) (g : ℤ → ℕ) : List ℕ := (List.range L.w).map fun b : ℕ =>
  if b ∈ L.tr then g ((L.p + L.tr.idxOf b : ℕ) : ℤ) else if b ∈ L.dg then g (L.q - L.dg.idxOf b) else g ((b : ℤ) - L.w)

lemma wOf_length (L : Lay) (g : ℤ → ℕ) : (wOf L g).length = L.w := by simp [wOf]

lemma wOf_getD (L : Lay) (g : ℤ → ℕ) {b : ℕ} (hb : b < L.w) : (wOf L g).getD b 0 =
    if b ∈ L.tr then g ((L.p + L.tr.idxOf b : ℕ) : ℤ) else if b ∈ L.dg then g (L.q - L.dg.idxOf b) else g ((b : ℤ) - L.w) :=
  getD_map_range _ _ _ hb

lemma zip_idx {A B : List ℕ} (hA : A.Nodup) (hB : B.Nodup) {p : ℕ × ℕ} (hp : p ∈ A.zip B) : p.1 ∈ A ∧ p.2 ∈ B ∧ A.idxOf p.1 = B.idxOf p.2 := by
  obtain ⟨k, hk, rfl⟩ := List.mem_iff_getElem.1 hp
  rw [List.length_zip] at hk
  rw [List.getElem_zip]
  refine ⟨List.getElem_mem _, List.getElem_mem _, ?_⟩
  rw [hA.idxOf_getElem, hB.idxOf_getElem]

/-- The indices read from values of the labels agree. -/
lemma read_agree {L : Lay} {base : ℕ} {A G out : List ℕ} {g : ℤ → ℕ} (hA : (A ++ G).Nodup) (hB : (L.tr ++ L.dg).Nodup) (ltA : ∀ a ∈ A ++ G, a < out.length)
    (ltB : ∀ a ∈ L.tr ++ L.dg, a < L.w) :
    Agree (A.zip L.tr) ((List.range out.length).map fun a => g (L.lab base A G a)) (wOf L g) ∧
    Agree (G.zip L.dg) ((List.range out.length).map fun a => g (L.lab base A G a)) (wOf L g) := by
  obtain ⟨nA, nG, dA⟩ := List.nodup_append.1 hA
  obtain ⟨nT, nD, dB⟩ := List.nodup_append.1 hB
  constructor
  · intro p hp
    obtain ⟨m1, m2, e⟩ := zip_idx nA nT hp
    rw [getD_map_range _ _ _ (ltA _ (by simp [m1])), wOf_getD _ _ (ltB _ (by simp [m2])), if_pos m2]
    unfold Lay.lab
    rw [if_neg fun hg => dA _ m1 _ hg rfl, if_pos m1, e]
  · intro p hp
    obtain ⟨m1, m2, e⟩ := zip_idx nG nD hp
    rw [getD_map_range _ _ _ (ltA _ (by simp [m1])), wOf_getD _ _ (ltB _ (by simp [m2])), if_neg fun hg => dB _ hg _ m2 rfl, if_pos m2]
    unfold Lay.lab
    rw [if_pos m1, e]

/-- A label in place of that of a traced or diagonal axis of the parameter. -/
lemma lab_tr {L : Lay} {base : ℕ} {A G : List ℕ} (hA : (A ++ G).Nodup) {k : ℕ} (hk : k < A.length) : ∃ a ∈ A, L.lab base A G a = ((L.p + k : ℕ) : ℤ) := by
  obtain ⟨nA, nG, dA⟩ := List.nodup_append.1 hA
  refine ⟨A[k], List.getElem_mem _, ?_⟩
  unfold Lay.lab
  rw [if_neg fun hg => dA _ (List.getElem_mem _) _ hg rfl, if_pos (List.getElem_mem _), nA.idxOf_getElem]

lemma lab_dg {L : Lay} {base : ℕ} {A G : List ℕ} (hA : (A ++ G).Nodup) {k : ℕ} (hk : k < G.length) : ∃ a ∈ G, L.lab base A G a = L.q - k := by
  obtain ⟨nA, nG, dA⟩ := List.nodup_append.1 hA
  refine ⟨G[k], List.getElem_mem _, ?_⟩
  unfold Lay.lab
  rw [if_pos (List.getElem_mem _), nG.idxOf_getElem]

lemma pairIdx_putAt {i j t u : List ℕ} (hi : i.length = n) (hj : j.length = n) : pairIdx n T D (putAt T t i) (putAt T u j) = pairIdx n T D i j := by
  unfold pairIdx
  refine List.flatMap_congr fun a ha => ?_
  have ha := List.mem_range.1 ha
  by_cases hT : a ∈ T
  · rw [if_pos hT, if_pos hT]
  · rw [putAt_getD (i := i) (by omega), putAt_getD (i := j) (by omega), if_neg hT, if_neg hT, if_neg hT, if_neg hT]

variable {α : Type} [Field α]

lemma contractPair_ok (h : PairOk n T D S1 S2 out1 out2 inp s1 s2 i1 i2) {df1 df2 j1 j2 : Arr α} {J1 J2 : List ℕ → List ℕ → α}
    (h1 : df1.shape = S1 ++ out1) (h2 : df2.shape = S2 ++ out2) (g1 : Expands s1 i1 out1 inp j1 J1) (g2 : Expands s2 i2 out2 inp j2 J2) :
    ∃ z, contractPair n T D df1 df2 j1 j2 s1 s2 = .ok z ∧ Reduced S1 S2 T D
      (fun i j => ∑ w ∈ box inp, (∑ y ∈ box out1, df1.get (i ++ y) * J1 y w) * ∑ y ∈ box out2, df2.get (j ++ y) * J2 y w) z := by
  classical
  have eq := contractPair_eq h h1 h2 g1.shape g2.shape
  set L := lay n out1 out2 inp s1 i1 with hLdef
  have hL : L.Room := h.roomL
  have hp : L.p = L.n + L.y1 + (L.n + L.y2) := rfl
  have eLn : L.n = n := rfl
  have eLy1 : L.y1 = out1.length := rfl
  have eLy2 : L.y2 = out2.length := rfl
  have eLw : L.w = inp.length := rfl
  have eLtr : L.tr = s1.inTrace := rfl
  have eLdg : L.dg = diagIns s1 i1 := rfl
  have lt2 : s2.outTrace.length = L.tr.length := by rw [eLtr, h.trace]; exact h.fits2.traceLen
  have ld2 : s2.outDiagonal.length = L.dg.length := by rw [eLdg, h.diag]; exact h.fits2.diagLen
  have lt1 : s1.outTrace.length = L.tr.length := h.fits1.traceLen
  have ld1 : s1.outDiagonal.length = L.dg.length := h.fits1.diagLen
  set B := s1.inTrace ++ diagIns s1 i1 with hB
  have hB2 : s2.inTrace ++ diagIns s2 i2 = B := by rw [hB, h.trace, h.diag]
  set d1 := dims1 L s1.outTrace s1.outDiagonal with hd1
  set w1 := dimsw L n out1.length s1.outTrace s1.outDiagonal s1.outBroadcast with hw1
  set w2 := dimsw L (n + out1.length + n) out2.length s2.outTrace s2.outDiagonal s2.outBroadcast with hw2
  set d2 := dims2 L T D s2.outTrace s2.outDiagonal with hd2
  set out := dimsOut L T D with hout
  have nd : d1.Nodup ∧ w1.Nodup ∧ w2.Nodup ∧ d2.Nodup :=
    ⟨nodup_dims1 hL lt1 ld1, nodup_dimsw hL ld1 (by omega), nodup_dimsw hL ld2 (by omega), nodup_dims2 hL lt2 ld2⟩
  simp only [] at eq
  rw [if_pos nd] at eq
  -- the sizes
  set sz := L.rd 1 (trim B inp) S1 out1 S2 out2 inp with hsz
  have msz : Meets s1 s2 i1 i2 out1 out2 inp := ⟨⟨h.fits1.traceSize, h.fits1.diagSize⟩, h.fits2.traceSize, h.fits2.diagSize⟩
  have sizeTD : ∀ a, a < n → a ∈ T ∨ a ∈ D → S2.getD a 0 = S1.getD a 0 := by
    intro a _ hTD
    have key : ∀ X : List ℕ, sizesAt X S1 = sizesAt X S2 → a ∈ X → S2.getD a 0 = S1.getD a 0 := by
      intro X e hx
      have := congrArg (fun l => l.getD (X.idxOf a) 0) e
      have hk := List.idxOf_lt_length_iff.2 hx
      simp only [show ∀ S, sizesAt X S = gather X S from fun _ => rfl, gather_getD _ _ _ hk, List.getElem_idxOf] at this
      exact this.symm
    exact hTD.elim (key T h.sizeT) (key D h.sizeD)
  obtain ⟨z1, z2, z3, z4⟩ := evals h (o := 1) (W := trim B inp) (Z1 := trim (s1.outTrace ++ s1.outBroadcast) out1) (Z2 := trim (s2.outTrace ++ s2.outBroadcast) out2) msz
    h.len1 h.len2 rfl rfl (length_trim _ _) sizeTD (length_trim _ _) (length_trim _ _) (fun a ha => getD_trim _ _ _ ha) (fun a ha => getD_trim _ _ _ ha)
  have z5 : out.map sz = pairIdx n T D S1 S2 := dimsOut_rd
  -- the labels
  set ops : List (Arr α × List ℤ) := [(df1, d1), (j1, w1), (j2, w2), (df2, d2)] with hops
  have mops : ∀ l, (l ∈ ops.flatMap fun o => o.2) ↔ l ∈ d1 ∨ l ∈ w1 ∨ l ∈ w2 ∨ l ∈ d2 := by
    intro l
    simp [hops]
  have shp : ∀ o ∈ ops, o.1.shape = o.2.map sz := by
    intro o ho
    simp only [hops, List.mem_cons, List.not_mem_nil, or_false] at ho
    rcases ho with rfl | rfl | rfl | rfl
    · exact h1.trans z1.symm
    · exact g1.shape.trans z2.symm
    · exact (g2.shape.trans (by rw [hB2])).trans z3.symm
    · exact h2.trans z4.symm
  have outMem : ∀ l ∈ out, l ∈ ops.flatMap fun o => o.2 := by
    intro l hl
    rw [mops]
    obtain ⟨a, ha, hT, e⟩ := mem_dimsOut.1 hl
    rcases e with rfl | ⟨hD, rfl⟩
    · left
      exact List.mem_append_left _ (List.mem_map.2 ⟨a, List.mem_range.2 ha, rfl⟩)
    · right; right; right
      exact List.mem_append_left _ (List.mem_map.2 ⟨a, List.mem_range.2 ha, if_neg (by tauto)⟩)
  set N := summed ops out with hN
  have Nn : N.Nodup := (List.nodup_dedup _).filter _
  have Nm : ∀ l, l ∈ N ↔ (l ∈ ops.flatMap fun o => o.2) ∧ l ∉ out := by
    intro l
    simp [hN, summed]
  obtain ⟨z, hz, zs, zg⟩ := einsum_ok ops out sz shp outMem nodup_dimsOut N Nn Nm
  refine ⟨z, eq.trans hz, ⟨by rw [zs, z5, h.len1], fun i j hi hj hij => ?_⟩⟩
  have li : i.length = n := hi.1.trans h.len1
  have lj : j.length = n := hj.1.trans h.len2
  have lp : (pairIdx n T D i j).length = out.length := by
    have e : out.map (L.rd 0 [] i [] j [] []) = pairIdx n T D i j := dimsOut_rd
    rw [← e, List.length_map]
  rw [h.len1, zg _ lp, sumOver_eq_box]
  simp only [Finset.sum_mul_sum]
  simp only [← Finset.sum_product']
  rw [← Finset.sum_filter_of_ne (p := fun x : List ℕ × List ℕ × List ℕ × List ℕ => Meets s1 s2 i1 i2 x.2.2.1 x.2.2.2 x.2.1)]
  swap
  · rintro ⟨t, w, y1, y2⟩ hx hne
    simp only [Finset.mem_product, mem_box] at hx
    obtain ⟨-, hw, hy1, hy2⟩ := hx
    refine ⟨?_, ?_⟩
    · by_contra hc
      exact hne (by simp only [g1.zero _ _ hy1 hw hc, mul_zero, zero_mul])
    · by_contra hc
      exact hne (by simp only [g2.zero _ _ hy2 hw hc, mul_zero])
  -- labels of the results are in `N`
  have inN1 : ∀ a, a < out1.length → L.lab n s1.outTrace s1.outDiagonal a ∈ N := fun a ha =>
    (Nm _).2 ⟨(mops _).2 (Or.inl (List.mem_append_right _ (List.mem_map.2 ⟨a, List.mem_range.2 ha, rfl⟩))), lab_not_out hL lt1 ld1 (Or.inl ⟨rfl, rfl⟩) ha⟩
  have inN2 : ∀ a, a < out2.length → L.lab (n + out1.length + n) s2.outTrace s2.outDiagonal a ∈ N := fun a ha =>
    (Nm _).2 ⟨(mops _).2 (Or.inr (Or.inr (Or.inr (List.mem_append_right _ (List.mem_map.2 ⟨a, List.mem_range.2 ha, rfl⟩))))),
      lab_not_out hL lt2 ld2 (Or.inr ⟨rfl, rfl⟩) ha⟩
  have inNw : ∀ b, b < inp.length → ((b : ℤ) - L.w) ∈ N := fun b hb =>
    (Nm _).2 ⟨(mops _).2 (Or.inr (Or.inl (List.mem_append_right _ (List.mem_map.2 ⟨b, List.mem_range.2 hb, rfl⟩)))), neg_not_out (by omega)⟩
  have inNT : ∀ a ∈ T, (a : ℤ) ∈ N := fun a ha =>
    (Nm _).2 ⟨(mops _).2 (Or.inl (List.mem_append_left _ (List.mem_map.2 ⟨a, List.mem_range.2 (h.ltT a ha), rfl⟩))), trace_not_out ha (h.ltT a ha)⟩
  have inNtr : ∀ b ∈ L.tr, ((L.p + L.tr.idxOf b : ℕ) : ℤ) ∈ N := fun b hb => by
    obtain ⟨a, ha, e⟩ := lab_tr (L := L) (base := n) h.fits1.outNodup (k := L.tr.idxOf b) (lt1 ▸ List.idxOf_lt_length_iff.2 hb)
    exact e ▸ inN1 a (h.fits1.outLt a (by simp [ha]))
  have inNdg : ∀ b ∈ L.dg, (L.q - L.dg.idxOf b) ∈ N := fun b hb => by
    obtain ⟨a, ha, e⟩ := lab_dg (L := L) (base := n) h.fits1.outNodup (k := L.dg.idxOf b) (ld1 ▸ List.idxOf_lt_length_iff.2 hb)
    exact e ▸ inN1 a (h.fits1.outLt a (by simp [ha]))
  have ltB : ∀ a ∈ L.tr ++ L.dg, a < L.w := h.fits1.inLt
  -- the values of the labels
  let val : List ℕ × List ℕ × List ℕ × List ℕ → ℤ → ℕ := fun x =>
    L.rd 0 (squash B x.2.1) (putAt T x.1 i) x.2.2.1 (putAt T x.1 j) x.2.2.2 x.2.1
  have evs : ∀ x : List ℕ × List ℕ × List ℕ × List ℕ, Meets s1 s2 i1 i2 x.2.2.1 x.2.2.2 x.2.1 → x.2.1.length = inp.length →
      x.2.2.1.length = out1.length → x.2.2.2.length = out2.length →
      d1.map (val x) = putAt T x.1 i ++ x.2.2.1 ∧ w1.map (val x) = squash (s1.outTrace ++ s1.outBroadcast) x.2.2.1 ++ squash B x.2.1 ∧
      w2.map (val x) = squash (s2.outTrace ++ s2.outBroadcast) x.2.2.2 ++ squash B x.2.1 ∧ d2.map (val x) = putAt T x.1 j ++ x.2.2.2 := by
    rintro ⟨t, w, y1, y2⟩ m lw l1 l2
    refine evals h m (by rw [putAt_length, li]) (by rw [putAt_length, lj]) l1 l2 (by rw [length_squash]; exact lw) (fun a ha hTD => ?_)
      (by rw [length_squash]; exact l1) (by rw [length_squash]; exact l2) (fun a ha => getD_squash _ _ _) (fun a ha => getD_squash _ _ _)
    rw [putAt_getD (i := i) (by omega), putAt_getD (i := j) (by omega)]
    by_cases hT : a ∈ T
    · rw [if_pos hT, if_pos hT]
    · rw [if_neg hT, if_neg hT]
      exact (hij a (hTD.resolve_left hT)).symm
  let back : (ℤ → ℕ) → List ℕ × List ℕ × List ℕ × List ℕ := fun g => (T.map fun a : ℕ => g (a : ℤ), wOf L g,
    (List.range out1.length).map fun a => g (L.lab n s1.outTrace s1.outDiagonal a),
    (List.range out2.length).map fun a => g (L.lab (n + out1.length + n) s2.outTrace s2.outDiagonal a))
  have backMeets : ∀ g, Meets s1 s2 i1 i2 (back g).2.2.1 (back g).2.2.2 (back g).2.1 := by
    intro g
    have r1 := read_agree (L := L) (base := n) (out := out1) (g := g) h.fits1.outNodup h.fits1.inNodup h.fits1.outLt ltB
    have r2 := read_agree (L := L) (base := n + out1.length + n) (out := out2) (g := g) h.fits2.outNodup h.fits1.inNodup h.fits2.outLt ltB
    refine ⟨⟨r1.1, ?_⟩, ?_, ?_⟩
    · rw [diagPairs_zip h.fits1.diagFst]
      exact r1.2
    · unfold tracePairs
      rw [← h.trace]
      exact r2.1
    · rw [diagPairs_zip h.fits2.diagFst, ← h.diag]
      exact r2.2
  symm
  refine Finset.sum_nbij' (fun x => N.map (val x)) (fun c => back (assign N c)) ?_ ?_ ?_ ?_ ?_
  · rintro ⟨t, w, y1, y2⟩ hx
    simp only [Finset.mem_filter, Finset.mem_product, mem_box] at hx
    obtain ⟨⟨ht, hw, hy1, hy2⟩, m⟩ := hx
    obtain ⟨v1, v2, v3, v4⟩ := evs ⟨t, w, y1, y2⟩ m hw.length hy1.length hy2.length
    rw [mem_box, inRange_map]
    intro l hl
    have pI : InRange (putAt T t i) S1 := putAt_inRange hi ht
    have pJ : InRange (putAt T t j) S2 := putAt_inRange hj (h.sizeT ▸ ht)
    have go : ∀ (d : List ℤ) (u v u' v' : List ℕ), d.map (val (t, w, y1, y2)) = u ++ v → d.map sz = u' ++ v' → InRange u u' → InRange v v' → l ∈ d → val (t, w, y1, y2) l < sz l := by
      intro d u v u' v' e1 e2 r1 r2 hd
      have : InRange (d.map (val (t, w, y1, y2))) (d.map sz) := by
        rw [e1, e2]
        exact (inRange_append r1.length).2 ⟨r1, r2⟩
      exact inRange_map.1 this l hd
    rcases (mops l).1 ((Nm l).1 hl).1 with hd | hd | hd | hd
    · exact go _ _ _ _ _ v1 z1 pI hy1 hd
    · exact go _ _ _ _ _ v2 z2 (inRange_squash hy1) (inRange_squash hw) hd
    · exact go _ _ _ _ _ v3 z3 (inRange_squash hy2) (inRange_squash hw) hd
    · exact go _ _ _ _ _ v4 z4 pJ hy2 hd
  · intro c hc
    rw [mem_box] at hc
    have glt : ∀ l ∈ N, assign N c l < sz l := fun l hl => assign_lt Nn hc hl
    rw [Finset.mem_filter]
    refine ⟨?_, backMeets _⟩
    simp only [Finset.mem_product, mem_box]
    have rng : ∀ (y : ℕ) (S : List ℕ) (f : ℕ → ℕ), S.length = y → (∀ a, a < y → f a < S.getD a 0) → InRange ((List.range y).map f) S := by
      intro y S f hy hf
      rw [inRange_iff]
      refine ⟨by simp [hy], fun a ha => ?_⟩
      rw [getD_map_range _ _ _ (hy ▸ ha)]
      exact hf a (hy ▸ ha)
    have aD1 : Agree (s1.outDiagonal.zip L.dg) out1 inp := by
      have := h.fits1.diagSize
      rwa [diagPairs_zip h.fits1.diagFst] at this
    have aD2 : Agree (s2.outDiagonal.zip L.dg) out2 inp := by
      have := h.fits2.diagSize
      rwa [diagPairs_zip h.fits2.diagFst, ← h.diag] at this
    have aT2 : Agree (s2.outTrace.zip L.tr) out2 inp := by
      rw [eLtr, h.trace]
      exact h.fits2.traceSize
    refine ⟨?_, ?_, ?_, ?_⟩
    · have : InRange (T.map fun a : ℕ => assign N c (a : ℤ)) (T.map fun a => S1.getD a 0) := by
        unfold InRange
        rw [List.forall₂_map_left_iff, List.forall₂_map_right_iff, List.forall₂_same]
        intro a ha
        have := glt _ (inNT a ha)
        rwa [hsz, Lay.rd_fx1 (h.ltT a ha)] at this
      exact this
    · refine rng _ _ _ rfl fun b hb => ?_
      split_ifs with k1 k2
      · have := glt _ (inNtr b k1)
        rw [hsz, Lay.rd_tr (List.idxOf_lt_length_iff.2 k1)] at this
        rwa [List.getD_eq_getElem _ _ (List.idxOf_lt_length_iff.2 k1), List.getElem_idxOf] at this
      · have := glt _ (inNdg b k2)
        rw [hsz, Lay.rd_dg hL (List.idxOf_lt_length_iff.2 k2)] at this
        rwa [List.getD_eq_getElem _ _ (List.idxOf_lt_length_iff.2 k2), List.getElem_idxOf] at this
      · have := glt _ (inNw b hb)
        rw [hsz, Lay.rd_w hb, getD_trim _ _ _ hb, if_neg] at this
        · exact this
        · rw [hB, List.mem_append]
          exact fun e => e.elim k1 k2
    · refine rng _ _ _ rfl fun a ha => ?_
      exact lt_of_lt_of_eq (glt _ (inN1 a ha)) (Lay.rd_lab hL lt1 ld1 h.fits1.traceSize aD1 (Lay.rd_y1 ha))
    · refine rng _ _ _ rfl fun a ha => ?_
      exact lt_of_lt_of_eq (glt _ (inN2 a ha)) (Lay.rd_lab hL lt2 ld2 aT2 aD2 (Lay.rd_y2 ha))
  · rintro ⟨t, w, y1, y2⟩ hx
    simp only [Finset.mem_filter, Finset.mem_product, mem_box] at hx
    obtain ⟨⟨ht, hw, hy1, hy2⟩, m⟩ := hx
    have ga : ∀ l ∈ N, assign N (N.map (val (t, w, y1, y2))) l = val (t, w, y1, y2) l := fun l hl => assign_map N _ hl
    obtain ⟨⟨t1, e1⟩, t2, e2⟩ := m
    rw [diagPairs_zip h.fits1.diagFst] at e1
    rw [diagPairs_zip h.fits2.diagFst, ← h.diag] at e2
    have t2 : Agree (s2.outTrace.zip L.tr) y2 w := by rw [eLtr, h.trace]; exact t2
    refine Prod.ext ?_ (Prod.ext ?_ (Prod.ext ?_ ?_))
    · have hlt : ∀ a ∈ T, a < i.length := fun a ha => li ▸ h.ltT a ha
      have e := gather_putAt h.nodupT hlt (t := t) (by rw [ht.length]; simp [sizesAt])
      refine Eq.trans (List.map_congr_left fun a ha => ?_) e
      rw [ga _ (inNT a ha)]
      exact Lay.rd_fx1 (h.ltT a ha)
    · refine map_range_eq hw.length fun b hb => ?_
      split_ifs with k1 k2
      · rw [ga _ (inNtr b k1)]
        refine (Lay.rd_tr (List.idxOf_lt_length_iff.2 k1)).trans ?_
        rw [List.getD_eq_getElem _ _ (List.idxOf_lt_length_iff.2 k1), List.getElem_idxOf]
      · rw [ga _ (inNdg b k2)]
        refine (Lay.rd_dg hL (List.idxOf_lt_length_iff.2 k2)).trans ?_
        rw [List.getD_eq_getElem _ _ (List.idxOf_lt_length_iff.2 k2), List.getElem_idxOf]
      · rw [ga _ (inNw b hb)]
        refine (Lay.rd_w hb).trans ?_
        rw [getD_squash, if_neg]
        rw [hB, List.mem_append]
        exact fun e => e.elim k1 k2
    · refine map_range_eq hy1.length fun a ha => ?_
      rw [ga _ (inN1 a ha)]
      exact Lay.rd_lab hL lt1 ld1 t1 e1 (Lay.rd_y1 ha)
    · refine map_range_eq hy2.length fun a ha => ?_
      rw [ga _ (inN2 a ha)]
      exact Lay.rd_lab hL lt2 ld2 t2 e2 (Lay.rd_y2 ha)
  · intro c hc
    rw [mem_box] at hc
    have glt : ∀ l ∈ N, assign N c l < sz l := fun l hl => assign_lt Nn hc hl
    set g := assign N c with hg
    refine Eq.trans (List.map_congr_left fun l hl => ?_) (map_assign N c Nn (by rw [hc.length, List.length_map]))
    rw [← hg]
    obtain ⟨⟨t1, e1⟩, t2, e2⟩ := backMeets g
    rw [diagPairs_zip h.fits1.diagFst] at e1
    rw [diagPairs_zip h.fits2.diagFst, ← h.diag] at e2
    have t2 : Agree (s2.outTrace.zip L.tr) (back g).2.2.2 (back g).2.1 := by rw [eLtr, h.trace]; exact t2
    obtain ⟨hm, ho⟩ := (Nm l).1 hl
    have cT : ∀ a, a < n → l = (a : ℤ) → val (back g) l = g l := by
      rintro a ha rfl
      have hT : a ∈ T := by
        by_contra hT
        exact ho (mem_dimsOut.2 ⟨a, ha, hT, Or.inl rfl⟩)
      refine (Lay.rd_fx1 ha).trans ?_
      have hk := List.idxOf_lt_length_iff.2 hT
      rw [putAt_getD (by omega), if_pos hT]
      show (T.map fun a : ℕ => g (a : ℤ)).getD (T.idxOf a) 0 = _
      rw [List.getD_eq_getElem _ _ (by simpa using hk), List.getElem_map, List.getElem_idxOf]
    have c1 : ∀ a, a < out1.length → l = L.lab n s1.outTrace s1.outDiagonal a → val (back g) l = g l := by
      rintro a ha rfl
      refine (Lay.rd_lab hL lt1 ld1 t1 e1 (Lay.rd_y1 ha)).trans ?_
      exact getD_map_range _ _ _ ha
    have c2 : ∀ a, a < out2.length → l = L.lab (n + out1.length + n) s2.outTrace s2.outDiagonal a → val (back g) l = g l := by
      rintro a ha rfl
      refine (Lay.rd_lab hL lt2 ld2 t2 e2 (Lay.rd_y2 ha)).trans ?_
      exact getD_map_range _ _ _ ha
    have c3 : l < -(L.w : ℤ) → val (back g) l = g l := by
      intro hlt
      have := glt l hl
      rw [hsz, Lay.rd_one hlt] at this
      exact (Lay.rd_one hlt).trans (by omega)
    have c4 : ∀ b, b < L.w → l = (b : ℤ) - L.w → val (back g) l = g l := by
      rintro b hb rfl
      refine (Lay.rd_w hb).trans ?_
      rw [getD_squash]
      have := glt _ hl
      rw [hsz, Lay.rd_w hb, getD_trim _ _ _ hb] at this
      split_ifs with hbB
      · rw [if_pos hbB] at this
        omega
      · rw [hB, List.mem_append, not_or] at hbB
        show (wOf L g).getD b 0 = _
        rw [wOf_getD _ _ hb, if_neg (show b ∉ L.tr from hbB.1), if_neg (show b ∉ L.dg from hbB.2)]
    rcases (mops l).1 hm with hd | hd | hd | hd
    · rcases mem_dims1 hd with ⟨a, ha, e⟩ | ⟨a, ha, e⟩
      · exact cT a ha e
      · exact c1 a ha e
    · rcases mem_dimsw hd with ⟨e, -⟩ | ⟨b, hb, e⟩ | ⟨a, ha, e⟩
      · exact c3 e
      · exact c4 b hb e
      · exact c1 a ha e
    · rcases mem_dimsw hd with ⟨e, -⟩ | ⟨b, hb, e⟩ | ⟨a, ha, e⟩
      · exact c3 e
      · exact c4 b hb e
      · exact c2 a ha e
    · rcases mem_dims2 hd with ⟨a, ha, -, e⟩ | ⟨a, ha, hT, hD, e⟩ | ⟨a, ha, e⟩
      · exact cT a ha e
      · exact absurd (mem_dimsOut.2 ⟨a, ha, hT, Or.inr ⟨hD, e⟩⟩) ho
      · exact c2 a ha e
  · rintro ⟨t, w, y1, y2⟩ hx
    simp only [Finset.mem_filter, Finset.mem_product, mem_box] at hx
    obtain ⟨⟨ht, hw, hy1, hy2⟩, m⟩ := hx
    obtain ⟨v1, v2, v3, v4⟩ := evs ⟨t, w, y1, y2⟩ m hw.length hy1.length hy2.length
    have ep : pairIdx n T D i j ++ N.map (val (t, w, y1, y2)) = (out ++ N).map (val (t, w, y1, y2)) := by
      rw [List.map_append]
      congr 1
      rw [← pairIdx_putAt (t := t) (u := t) li lj]
      exact (dimsOut_rd (L := L)).symm
    have ga : ∀ d : List ℤ, (∀ l ∈ d, l ∈ ops.flatMap fun o => o.2) →
        d.map (assign (out ++ N) (pairIdx n T D i j ++ N.map (val (t, w, y1, y2)))) = d.map (val (t, w, y1, y2)) := by
      intro d hd
      refine List.map_congr_left fun l hl => ?_
      rw [ep, assign_map]
      rw [List.mem_append]
      by_cases hl' : l ∈ out
      · exact Or.inl hl'
      · exact Or.inr ((Nm l).2 ⟨hd l hl, hl'⟩)
    simp only [hops, List.map_cons, List.map_nil, List.prod_cons, List.prod_nil, mul_one]
    rw [ga d1 fun l hl => (mops l).2 (by tauto), ga w1 fun l hl => (mops l).2 (by tauto), ga w2 fun l hl => (mops l).2 (by tauto),
      ga d2 fun l hl => (mops l).2 (by tauto), v1, v2, v3, v4, g1.get _ _ hy1 hw m.1.1 m.1.2, g2.get _ _ hy2 hw m.2.1 m.2.2, hB2]
    ring

end
end NT.Emp
