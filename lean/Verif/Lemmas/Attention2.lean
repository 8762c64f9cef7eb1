import Verif.Lemmas.Attention

/-! Auxiliary lemmas for C59: averaging covariances with attention weights. -/

namespace NT.Attn
open NT Arr Spec Einsum Attention

section Core
variable {mat G1 G2 : Arr ℝ} {B S T : List ℕ} {rev : Bool} {n1 n2 : ℕ} {W1 W2 F : List ℕ → List ℕ → List ℕ → ℝ}

/-- The `einsum` for batch labels `bl`, of which `l1` and `l2` are those of the two operands. -/
lemma einsum_mix (h1 : Holds G1 [n1] S S false rev W1) (h2 : Holds G2 [n2] T T false rev W2) (hm : BHolds mat B S T rev F)
    (bl : List ℤ) (hbn : bl.Nodup) (hneg : ∀ l ∈ bl, l ≤ 0) (hbl : bl.length = B.length) (l1 l2 : ℤ) (hl : ∀ l ∈ bl, l = l1 ∨ l = l2)
    (hz1 : (l1, n1) ∈ bl.zip B) (hz2 : (l2, n2) ∈ bl.zip B) (i1 i2 : List ℕ → ℕ)
    (hi1 : ∀ b, InRange b B → (l1, i1 b) ∈ bl.zip b) (hi2 : ∀ b, InRange b B → (l2, i2 b) ∈ bl.zip b) (m : ℕ) (hS : S.length = m) :
    let ops := [(G1, l1 :: labels 1 (2 * m)), (mat, bl ++ interleave (lab 2 m) (lab (2 + 2 * m) m)), (G2, l2 :: labels (1 + 2 * m) (2 * m))]
    ∃ y, einsum (ops.map (stretch ops)) (bl ++ interleave (lab 1 m) (lab (1 + 2 * m) m)) = .ok y ∧
      Holds y B S T false rev fun b p q => ∑ u ∈ box S, ∑ v ∈ box T, W1 [i1 b] p u * F b u v * W2 [i2 b] q v := by
  intro ops
  have hT : T.length = m := hm.rank ▸ hS
  have hS' : (rv rev S).length = m := by simpa using hS
  have hT' : (rv rev T).length = m := by simpa using hT
  set sz := assign (allLabels bl m) ((B ++ interleave (rv rev S) (rv rev T)) ++ interleave (rv rev S) (rv rev T)) with hsz
  obtain ⟨z1, z2, z3, z4, z5, z6⟩ := assign_all (m := m) hbn hneg B _ _ _ _ hbl hS' hT' hS' hT'
  rw [← hsz] at z1 z2 z3 z4 z5 z6
  have s1 : G1.shape = n1 :: interleave (rv rev S) (rv rev S) := by rw [h1.shape, pos_full]; rfl
  have s2 : G2.shape = n2 :: interleave (rv rev T) (rv rev T) := by rw [h2.shape, pos_full]; rfl
  have e1 : (l1 :: labels 1 (2 * m)).map sz = G1.shape := by
    rw [s1, labels_eq, List.map_cons, interleave_map, z2, z4, z6 _ hz1]
  have e2 : (l2 :: labels (1 + 2 * m) (2 * m)).map sz = G2.shape := by
    have : 1 + 2 * m + 1 = 2 + 2 * m := by ring
    rw [s2, labels_eq, List.map_cons, interleave_map, this, z3, z5, z6 _ hz2]
  have e3 : (bl ++ interleave (lab 2 m) (lab (2 + 2 * m) m)).map sz = B ++ interleave (rv rev S) (rv rev T) := by
    rw [List.map_append, interleave_map, z1, z4, z5]
  have zself : ∀ (ls : List ℤ) (s : List ℕ), s = ls.map sz → ∀ x ∈ ls.zip s, x.2 = sz x.1 := by
    intro ls s hs x hx
    subst hs
    rw [List.zip_map_right] at hx
    simp only [List.mem_map, Prod.exists] at hx
    obtain ⟨a, b, hab, rfl⟩ := hx
    have : a = b := by
      have := List.mem_iff_getElem.1 hab
      obtain ⟨i, hi, e⟩ := this
      simp only [List.getElem_zip, Prod.mk.injEq] at e
      rw [← e.1, ← e.2]
    simp [this]
  have zmem : ∀ (ls : List ℤ) (s : List ℕ), s = ls.map sz → ∀ l ∈ ls, (l, sz l) ∈ ls.zip s := by
    intro ls s hs l hl
    subst hs
    rw [List.zip_map_right, List.mem_map]
    refine ⟨(l, l), ?_, rfl⟩
    obtain ⟨i, hi, e⟩ := List.mem_iff_getElem.1 hl
    exact List.mem_iff_getElem.2 ⟨i, by simpa using hi, by simp [e]⟩
  have lb1 : ∀ l, l ∈ lab 1 m ∨ l ∈ lab 2 m → l ∈ l1 :: labels 1 (2 * m) := by
    intro l h
    rw [labels_eq, List.mem_cons, mem_interleave _ _ (by simp)]
    exact .inr h
  have lb2 : ∀ l, l ∈ lab (1 + 2 * m) m ∨ l ∈ lab (2 + 2 * m) m → l ∈ l2 :: labels (1 + 2 * m) (2 * m) := by
    intro l h
    have : 1 + 2 * m + 1 = 2 + 2 * m := by ring
    rw [labels_eq, List.mem_cons, mem_interleave _ _ (by simp), this]
    exact .inr h
  have hops : ∀ o ∈ ops, o = (G1, l1 :: labels 1 (2 * m)) ∨ o = (mat, bl ++ interleave (lab 2 m) (lab (2 + 2 * m) m)) ∨
      o = (G2, l2 :: labels (1 + 2 * m) (2 * m)) := by
    intro o ho
    simpa [ops] using ho
  have hc1 : ∀ o ∈ ops, ∀ x ∈ o.2.zip o.1.shape, x.2 = sz x.1 ∨ x.2 = 1 := by
    intro o ho
    rcases hops o ho with rfl | rfl | rfl
    · exact fun x hx => .inl (zself _ _ e1.symm x hx)
    · intro x hx
      rcases hm.shape with e | e
      · refine .inl (zself _ _ ?_ x hx)
        simp only
        rw [e, e3, pos_full]
      · simp only [e, pos_full] at hx
        rw [List.zip_append (by simp [hbl]), List.mem_append] at hx
        rcases hx with hx | hx
        · exact .inr (List.eq_of_mem_replicate (List.of_mem_zip hx).2)
        · exact .inl (zself _ _ (by rw [interleave_map, z4, z5]) x hx)
    · exact fun x hx => .inl (zself _ _ e2.symm x hx)
  have in1 : ((G1, l1 :: labels 1 (2 * m)) : Arr ℝ × List ℤ) ∈ ops := by simp [ops]
  have in2 : ((G2, l2 :: labels (1 + 2 * m) (2 * m)) : Arr ℝ × List ℤ) ∈ ops := by simp [ops]
  have hc2 : ∀ o ∈ ops, ∀ l ∈ o.2, ∃ o' ∈ ops, (l, sz l) ∈ o'.2.zip o'.1.shape := by
    intro o ho l hlo
    rcases hops o ho with rfl | rfl | rfl
    · exact ⟨_, in1, zmem _ _ e1.symm l hlo⟩
    · rw [List.mem_append, mem_interleave _ _ (by simp)] at hlo
      rcases hlo with h | h | h
      · rcases hl l h with rfl | rfl
        · exact ⟨_, in1, zmem _ _ e1.symm _ (by simp)⟩
        · exact ⟨_, in2, zmem _ _ e2.symm _ (by simp)⟩
      · exact ⟨_, in1, zmem _ _ e1.symm l (lb1 l (.inr h))⟩
      · exact ⟨_, in2, zmem _ _ e2.symm l (lb2 l (.inr h))⟩
    · exact ⟨_, in2, zmem _ _ e2.symm l hlo⟩
  have hlen : ∀ o ∈ ops, o.2.length = o.1.shape.length := by
    intro o ho
    rcases hops o ho with rfl | rfl | rfl
    · exact (by simpa using congrArg List.length e1)
    · simp only [hm.length, List.length_append, hbl]
      rw [interleave_length (by simp)]
      simp [hS]
    · exact (by simpa using congrArg List.length e2)
  have hsh : ∀ o ∈ ops.map (stretch ops), o.1.shape = o.2.map sz := by
    intro o ho
    obtain ⟨o', ho', rfl⟩ := List.mem_map.1 ho
    exact stretch_shape ops sz hc1 hc2 o' ho' (hlen o' ho')
  have hflat : ∀ l, (l ∈ (ops.map (stretch ops)).flatMap fun o => o.2) ↔ l ∈ l1 :: labels 1 (2 * m) ∨
      l ∈ bl ++ interleave (lab 2 m) (lab (2 + 2 * m) m) ∨ l ∈ l2 :: labels (1 + 2 * m) (2 * m) := by
    intro l
    simp [ops, stretch, or_assoc]
  have hnd := nodup_all bl m hbn hneg
  unfold allLabels at hnd
  obtain ⟨hnd1, hnd2, hnd3⟩ := List.nodup_append.1 hnd
  have l1b : l1 ∈ bl := (List.of_mem_zip hz1).1
  have l2b : l2 ∈ bl := (List.of_mem_zip hz2).1
  have hout : ∀ l ∈ bl ++ interleave (lab 1 m) (lab (1 + 2 * m) m), l ∈ (ops.map (stretch ops)).flatMap fun o => o.2 := by
    intro l h
    rw [hflat]
    rw [List.mem_append, mem_interleave _ _ (by simp)] at h
    rcases h with h | h | h
    · exact .inr (.inl (by simp [h]))
    · exact .inl (lb1 l (.inl h))
    · exact .inr (.inr (lb2 l (.inl h)))
  have hsum : ∀ l, l ∈ interleave (lab 2 m) (lab (2 + 2 * m) m) ↔ (l ∈ (ops.map (stretch ops)).flatMap fun o => o.2) ∧
      l ∉ bl ++ interleave (lab 1 m) (lab (1 + 2 * m) m) := by
    intro l
    rw [hflat]
    constructor
    · intro h
      refine ⟨.inr (.inl (by simp [h])), fun h' => hnd3 l h' l h rfl⟩
    · rintro ⟨h | h | h, hn⟩
      · rw [labels_eq, List.mem_cons, mem_interleave _ _ (by simp)] at h
        rw [List.mem_append, mem_interleave _ _ (by simp)] at hn
        rw [mem_interleave _ _ (by simp)]
        rcases h with rfl | h | h
        · exact absurd (.inl l1b) hn
        · exact absurd (.inr (.inl h)) hn
        · exact .inl h
      · rw [List.mem_append] at h hn
        exact h.resolve_left fun h => hn (.inl h)
      · have : 1 + 2 * m + 1 = 2 + 2 * m := by ring
        rw [labels_eq, List.mem_cons, mem_interleave _ _ (by simp), this] at h
        rw [List.mem_append, mem_interleave _ _ (by simp)] at hn
        rw [mem_interleave _ _ (by simp)]
        rcases h with rfl | h | h
        · exact absurd (.inl l2b) hn
        · exact absurd (.inr (.inr h)) hn
        · exact .inr h
  obtain ⟨y, hy, ys, yg⟩ := einsum_ok (ops.map (stretch ops)) (bl ++ interleave (lab 1 m) (lab (1 + 2 * m) m)) sz hsh hout
    hnd1 (interleave (lab 2 m) (lab (2 + 2 * m) m)) hnd2 hsum
  refine ⟨y, hy, hm.rank, by simp, ?_, ?_⟩
  · rw [ys, List.map_append, interleave_map, z1, z2, z3, pos_full]
  · intro b p q hb hp hq _
    have hp' : (rv rev p).length = m := by simpa [hp.length] using hS
    have hq' : (rv rev q).length = m := by simpa [hq.length] using hT
    have hbb : bl.length = b.length := by rw [hbl, hb.length]
    rw [yg _ (by rw [pos_full, List.length_append, List.length_append, interleave_length (by rw [hp', hq']), interleave_length (by simp), hbb]; simp [hp'])]
    rw [interleave_map, z4, z5, box_sum_interleave _ _ (by rw [hS', hT']), box_sum_rv]
    refine Finset.sum_congr rfl fun u hu => ?_
    rw [box_sum_rv]
    refine Finset.sum_congr rfl fun v hv => ?_
    rw [mem_box] at hu hv
    have hu' : (rv rev u).length = m := by simpa [hu.length] using hS
    have hv' : (rv rev v).length = m := by simpa [hv.length] using hT
    obtain ⟨w1, w2, w3, w4, w5, w6⟩ := assign_all (m := m) hbn hneg b _ _ _ _ hbb hp' hq' hu' hv'
    have f1 : (l1 :: labels 1 (2 * m)).map (assign (bl ++ interleave (lab 1 m) (lab (1 + 2 * m) m) ++ interleave (lab 2 m) (lab (2 + 2 * m) m))
        (b ++ pos false rev p q ++ interleave (rv rev u) (rv rev v))) = [i1 b] ++ pos false rev p u := by
      rw [pos_full, pos_full, labels_eq, List.map_cons, interleave_map]
      have := w6 _ (hi1 b hb)
      simp only [allLabels] at this w2 w4
      rw [w2, w4, this]
      rfl
    have f2 : (l2 :: labels (1 + 2 * m) (2 * m)).map (assign (bl ++ interleave (lab 1 m) (lab (1 + 2 * m) m) ++
        interleave (lab 2 m) (lab (2 + 2 * m) m)) (b ++ pos false rev p q ++ interleave (rv rev u) (rv rev v))) = [i2 b] ++ pos false rev q v := by
      have e : 1 + 2 * m + 1 = 2 + 2 * m := by ring
      rw [pos_full, pos_full, labels_eq, List.map_cons, interleave_map, e]
      have := w6 _ (hi2 b hb)
      simp only [allLabels] at this w3 w5
      rw [w3, w5, this]
      rfl
    have f3 : (bl ++ interleave (lab 2 m) (lab (2 + 2 * m) m)).map (assign (bl ++ interleave (lab 1 m) (lab (1 + 2 * m) m) ++
        interleave (lab 2 m) (lab (2 + 2 * m) m)) (b ++ pos false rev p q ++ interleave (rv rev u) (rv rev v))) = b ++ pos false rev u v := by
      rw [pos_full, pos_full, List.map_append, interleave_map]
      simp only [allLabels] at w1 w4 w5
      rw [w1, w4, w5]
    simp only [ops, List.map_cons, List.map_nil, List.prod_cons, List.prod_nil, stretch, mul_one]
    simp only [List.map_cons] at f1 f2
    rw [f1, f2, f3, hm.get b u v hb hu hv]
    have r1 : InRange [i1 b] [n1] := by
      have hx := List.mem_iff_getElem.1 (hi1 b hb)
      obtain ⟨i, hi, e⟩ := hx
      obtain ⟨j, hj, e'⟩ := List.mem_iff_getElem.1 hz1
      simp only [List.getElem_zip, Prod.mk.injEq] at e e'
      have : i = j := (List.nodup_iff_injective_getElem.1 hbn (a₁ := ⟨i, by simp at hi; omega⟩) (a₂ := ⟨j, by simp at hj; omega⟩)
        (by simp [e.1, e'.1]) |> fun h => by simpa using h)
      subst this
      have hlt := (inRange_iff.1 hb).2 i (by simp at hi; omega)
      rw [List.getD_eq_getElem?_getD, List.getD_eq_getElem?_getD, List.getElem?_eq_getElem (by simp at hi; omega),
        List.getElem?_eq_getElem (by simp at hj; omega)] at hlt
      simp only [Option.getD_some, e.2, e'.2] at hlt
      simpa using hlt
    have r2 : InRange [i2 b] [n2] := by
      have hx := List.mem_iff_getElem.1 (hi2 b hb)
      obtain ⟨i, hi, e⟩ := hx
      obtain ⟨j, hj, e'⟩ := List.mem_iff_getElem.1 hz2
      simp only [List.getElem_zip, Prod.mk.injEq] at e e'
      have : i = j := (List.nodup_iff_injective_getElem.1 hbn (a₁ := ⟨i, by simp at hi; omega⟩) (a₂ := ⟨j, by simp at hj; omega⟩)
        (by simp [e.1, e'.1]) |> fun h => by simpa using h)
      subst this
      have hlt := (inRange_iff.1 hb).2 i (by simp at hi; omega)
      rw [List.getD_eq_getElem?_getD, List.getD_eq_getElem?_getD, List.getElem?_eq_getElem (by simp at hi; omega),
        List.getElem?_eq_getElem (by simp at hj; omega)] at hlt
      simp only [Option.getD_some, e.2, e'.2] at hlt
      simpa using hlt
    rw [h1.shape, h2.shape, bcastIdx_self (by rw [inRange_append r1.length]; exact ⟨r1, pos_inRange rfl hp hu⟩),
      bcastIdx_self (by rw [inRange_append r2.length]; exact ⟨r2, pos_inRange rfl hq hv⟩),
      h1.get _ p u r1 hp hu (by simp), h2.get _ q v r2 hq hv (by simp)]
    ring

/-- A pair of examples from the batch index of `nngp` or of a batch-diagonal covariance. -/
def fst2 (b : List ℕ) : ℕ := (dbl b).getD 0 0
@[inherit_doc fst2]
def snd2 (b : List ℕ) : ℕ := (dbl b).getD 1 0

lemma mix_ok (h1 : Holds G1 [n1] S S false rev W1) (h2 : Holds G2 [n2] T T false rev W2) (hm : BHolds mat B S T rev F)
    (hB : B = [n1, n2] ∨ B = [n1] ∧ n1 = n2) :
    ∃ y, mix mat G1 G2 = .ok y ∧
      Holds y B S T false rev fun b p q => ∑ u ∈ box S, ∑ v ∈ box T, W1 [fst2 b] p u * F b u v * W2 [snd2 b] q v := by
  have d1 : G1.ndim = 1 + 2 * S.length := by
    rw [ndim, h1.shape, pos_full, List.length_append, interleave_length rfl]; simp
  have d2 : G2.ndim = 1 + 2 * S.length := by
    rw [ndim, h2.shape, pos_full, List.length_append, interleave_length rfl]; simp [hm.rank]
  have d3 : mat.ndim = B.length + 2 * S.length := hm.length
  have x1 : 1 + 2 * S.length - 1 = 2 * S.length := by omega
  have x2 : 1 + 2 * S.length + 1 = 2 + 2 * S.length := by omega
  have o1 : Attention.odds (labels 1 (2 * S.length)) = lab 2 S.length := by rw [labels_eq, odds_interleave' _ _ (by simp)]
  have v1 : Attention.evens (labels 1 (2 * S.length)) = lab 1 S.length := by rw [labels_eq, evens_interleave' _ _ (by simp)]
  have o2 : Attention.odds (labels (1 + 2 * S.length) (2 * S.length)) = lab (2 + 2 * S.length) S.length := by
    rw [labels_eq, odds_interleave' _ _ (by simp), x2]
  have v2 : Attention.evens (labels (1 + 2 * S.length) (2 * S.length)) = lab (1 + 2 * S.length) S.length := by
    rw [labels_eq, evens_interleave' _ _ (by simp)]
  unfold mix
  simp only [d1, d2, d3, x1, o1, o2, v1, v2, zipFlat_eq_interleave]
  rcases hB with rfl | ⟨rfl, rfl⟩
  · have hodd : ¬ ([n1, n2].length + 2 * S.length) % 2 = 1 := by simp
    simp only [if_neg hodd]
    refine einsum_mix h1 h2 hm [0, -1] (by decide) (by simp) rfl 0 (-1) (by simp) (by simp) (by simp) fst2 snd2 ?_ ?_ _ rfl
    · intro b hb
      obtain ⟨i, b', rfl, hi, hb'⟩ := inRange_cons_right.1 hb
      obtain ⟨j, b'', rfl, hj, hb''⟩ := inRange_cons_right.1 hb'
      obtain rfl := inRange_nil_right.1 hb''
      simp [fst2, dbl]
    · intro b hb
      obtain ⟨i, b', rfl, hi, hb'⟩ := inRange_cons_right.1 hb
      obtain ⟨j, b'', rfl, hj, hb''⟩ := inRange_cons_right.1 hb'
      obtain rfl := inRange_nil_right.1 hb''
      simp [snd2, dbl]
  · have hodd : ([n1].length + 2 * S.length) % 2 = 1 := by simp
    simp only [if_pos hodd]
    refine einsum_mix h1 h2 hm [0] (by decide) (by simp) rfl 0 0 (by simp) (by simp) (by simp) fst2 snd2 ?_ ?_ _ rfl
    · intro b hb
      obtain ⟨i, b', rfl, hi, hb'⟩ := inRange_cons_right.1 hb
      obtain rfl := inRange_nil_right.1 hb'
      simp [fst2, dbl]
    · intro b hb
      obtain ⟨i, b', rfl, hi, hb'⟩ := inRange_cons_right.1 hb
      obtain rfl := inRange_nil_right.1 hb'
      simp [snd2, dbl]

/-- The square of a bias standard deviation that may be absent. -/
def bsq (b : Option ℝ) : ℝ := (b.getD 0) ^ 2

lemma affine_eq (a : Arr ℝ) (w : ℝ) (b : Option ℝ) : affine a w b = a.map fun v => w ^ 2 * v + bsq b := by
  unfold affine bsq Arr.map
  cases b <;> simp [mul_comm]

lemma weigh_ok (l : Attention) (h1 : Holds G1 [n1] S S false rev W1) (h2 : Holds G2 [n2] T T false rev W2)
    (hm : BHolds mat B S T rev F) (hB : B = [n1, n2] ∨ B = [n1] ∧ n1 = n2) (g : Option (Arr ℝ)) (hg : g.getD G1 = G2) :
    ∃ y, l.weigh mat G1 g = .ok y ∧ Holds y B S T false rev fun b p q =>
      l.ovStd ^ 2 * (∑ u ∈ box S, ∑ v ∈ box T, W1 [fst2 b] p u * F b u v * W2 [snd2 b] q v) + bsq l.bStd := by
  obtain ⟨y, e, hy⟩ := mix_ok h1 h2 hm hB
  have hn : mat.ndim ≠ 0 := by
    have : mat.ndim = B.length + 2 * S.length := hm.length
    have hb : 0 < B.length := by rcases hB with rfl | ⟨rfl, -⟩ <;> simp
    omega
  refine ⟨affine y l.ovStd l.bStd, ?_, ?_⟩
  · unfold weigh
    simp only [if_pos hn, hg, e, bind, Except.bind]
  · rw [affine_eq]
    exact ⟨hy.rank, hy.square, hy.shape, fun b p q hb hp hq hd => by
      simp only [Arr.map]
      rw [hy.get b p q hb hp hq hd]⟩
end Core

end NT.Attn
