import Verif.Lemmas.Aggregate3
import Verif.Props.C28

/-!
# The contraction of the dense implementation
-/

namespace NT.Aggregate
open NT Spec NT.Emp NT.KernelDot
open NT.Arr
open scoped BigOperators

variable {n : ℕ} {agg : List ℕ} {ba ca : ℕ}

/-- The contraction of inputs of rank `n` with a dense pattern. -/
def aggC (n : ℕ) (agg : List ℕ) (ba ca : ℕ) : Contraction := ⟨n, ba, ca, 1 + agg.length + agg.length, agg, [ba], List.range' 1 agg.length, [0], false⟩

lemma aggC_ok (h : Axes n agg ba ca) : (aggC n agg ba ca).Ok := by
  refine ⟨h.hba, h.hca, h.ne, h.consNodup, h.consLt, ?_, h.nba, List.nodup_cons.2 ⟨by simp [aggC], List.nodup_range'⟩, ?_, rfl, by simp [aggC]⟩
  · simp only [aggC, List.singleton_append, List.mem_cons, not_or]
    exact ⟨h.ne.symm, h.nca⟩
  · intro a ha
    simp only [aggC, List.singleton_append, List.mem_cons, List.mem_range'_1] at ha ⊢
    omega

lemma idxOf_cons_range' (K : ℕ) {j : ℕ} (hj : j < 1 + K) : ([0] ++ List.range' 1 K).idxOf j = j := by
  have e : [0] ++ List.range' 1 K = List.range (1 + K) := by
    rw [List.range_eq_range', Nat.add_comm, List.range'_succ]; rfl
  rw [e]
  have := List.Nodup.idxOf_getElem (List.nodup_range (n := 1 + K)) j (by simpa using hj)
  simpa using this

lemma aggC_match {s t G : List ℕ} (hG : gather agg s = G) (ht : t = [s.getD ba 0] ++ G ++ G) : Match (aggC n agg ba ca) s t := by
  have hGl : G.length = agg.length := by rw [← hG]; simp
  refine ⟨by simp [aggC, ht, hGl]; omega, ?_⟩
  intro j hj
  simp only [aggC] at hj ⊢
  have hj' : j < 1 + agg.length := by
    simp only [List.singleton_append, List.mem_cons, List.mem_range'_1] at hj
    omega
  rw [idxOf_cons_range' _ hj', ht]
  rcases j with _ | j
  · rfl
  · rw [List.append_assoc, List.singleton_append, List.singleton_append, List.getD_cons_succ, List.getD_cons_succ, List.getD_append _ _ _ _ (by omega), ← hG]
    rw [gather_getD _ _ _ (by omega)]
    congr 1
    exact (List.getD_eq_getElem _ _ (by omega)).symm

/-- The coordinates along the axes of the result and of the contraction. -/
def coordOf (agg : List ℕ) (ba ca : ℕ) (P c : List ℕ) : ℕ ⊕ ℕ → ℕ :=
  Sum.elim (fun a => if a ∈ agg then c.getD (agg.idxOf a) 0 else P.getD (spIdx ba ca a) 0)
    (fun j => (gather (axPos ba ca agg) P).getD (j - (1 + agg.length)) 0)

lemma keepF_map (h : Axes n agg ba ca) :
    ((List.range n).filter fun a => a ∉ agg ∧ a ∉ [ba] ∧ a ≠ ba ∧ a ≠ ca).map (spIdx ba ca) = freeAxes (spatialAxes n ba ca).length (axPos ba ca agg) := by
  have e : (List.range n).filter (fun a => decide (a ∉ agg ∧ a ∉ [ba] ∧ a ≠ ba ∧ a ≠ ca)) = (spatialAxes n ba ca).filter fun a => a ∉ agg := by
    unfold spatialAxes
    rw [List.filter_filter]
    refine List.filter_congr fun a _ => ?_
    by_cases h1 : a ∈ agg <;> by_cases h2 : a = ba <;> by_cases h3 : a = ca <;> simp [h1, h2, h3]
  unfold freeAxes
  rw [e, ← map_spIdx h.ne, List.filter_map]
  congr 1
  refine List.filter_congr fun a ha => ?_
  simp only [Function.comp, List.contains_eq_mem]
  rw [← decide_not, decide_eq_decide]
  refine not_congr ?_
  rw [axPos_eq, List.mem_map]
  constructor
  · exact fun h' => ⟨a, h', rfl⟩
  · rintro ⟨b, hb, he⟩
    rw [← (spIdx_getD h.ne ha).2, ← he, (spIdx_getD h.ne (h.mem_spatial hb)).2]
    exact hb

lemma outAxes_aggC : (aggC n agg ba ca).outAxes =
    ((List.range n).filter fun a => a ∉ agg ∧ a ∉ [ba] ∧ a ≠ ba ∧ a ≠ ca).map Sum.inl ++ (List.range' (1 + agg.length) agg.length).map Sum.inr := by
  have e1 : keepB (aggC n agg ba ca) = [] := by simp [keepB, aggC]
  have e2 : freeO (aggC n agg ba ca) = List.range' (1 + agg.length) agg.length := by
    rw [← freeAxes_tail]
    unfold freeAxes freeO
    refine List.filter_congr fun a _ => ?_
    have e : (aggC n agg ba ca).ocs = List.range' 1 agg.length := rfl
    have e' : (aggC n agg ba ca).obs = [0] := rfl
    rw [e, e', List.contains_eq_mem, ← decide_not, decide_eq_decide]
    simp only [List.singleton_append, List.mem_cons, List.not_mem_nil, or_false]
    tauto
  have e3 : keepF (aggC n agg ba ca) = (List.range n).filter fun a => a ∉ agg ∧ a ∉ [ba] ∧ a ≠ ba ∧ a ≠ ca := rfl
  rw [outAxes_eq, if_neg (by simp [aggC]), e1, e2, e3]
  simp

lemma mem_keepF {a : ℕ} : a ∈ ((List.range n).filter fun a => a ∉ agg ∧ a ∉ [ba] ∧ a ≠ ba ∧ a ≠ ca) ↔ a ∈ spatialAxes n ba ca ∧ a ∉ agg := by
  rw [mem_spatialAxes]
  simp
  tauto

lemma coord_aggC (h : Axes n agg ba ca) {P c : List ℕ} (hc : c.length = agg.length)
    {x : ℕ ⊕ ℕ} (hx : x ∈ (aggC n agg ba ca).outAxes ++ agg.map Sum.inl) :
    (aggC n agg ba ca).coord (gather (order (spatialAxes n ba ca).length (axPos ba ca agg)) P) c x = coordOf agg ba ca P c x := by
  have e1 : (aggC n agg ba ca).outAxes.map (coordOf agg ba ca P c) = gather (order (spatialAxes n ba ca).length (axPos ba ca agg)) P := by
    rw [outAxes_aggC, List.map_append, List.map_map, List.map_map]
    unfold order
    rw [gather_append]
    congr 1
    · rw [← keepF_map h]
      unfold gather
      rw [List.map_map]
      refine List.map_congr_left fun a ha => ?_
      have := (mem_keepF.1 ha).2
      simp [coordOf, this]
    · have hl : (gather (axPos ba ca agg) P).length = agg.length := by simp [axPos]
      refine ext_getD (by simp [hl]) fun k hk => ?_
      simp only [List.length_map, List.length_range'] at hk
      rw [List.getD_eq_getElem _ _ (by simpa using hk)]
      simp [coordOf, hl, hk]
  have e2 : (agg.map Sum.inl).map (coordOf agg ba ca P c) = c := by
    rw [List.map_map]
    refine ext_getD (by simp [hc]) fun k hk => ?_
    simp only [List.length_map] at hk
    rw [List.getD_eq_getElem _ _ (by simpa using hk)]
    simp only [List.getElem_map, Function.comp, coordOf, Sum.elim_inl]
    rw [if_pos (List.getElem_mem hk), List.Nodup.idxOf_getElem h.nodup]
  unfold Contraction.coord
  have : (aggC n agg ba ca).cs = agg := rfl
  have e3 : gather (order (spatialAxes n ba ca).length (axPos ba ca agg)) P ++ c = ((aggC n agg ba ca).outAxes ++ agg.map Sum.inl).map (coordOf agg ba ca P c) := by
    rw [List.map_append, e1, e2]
  rw [this, e3]
  exact Einsum.assign_map _ _ hx

lemma idxOf_map_spIdx (h : Axes n agg ba ca) {a : ℕ} (ha : a ∈ agg) : (axPos ba ca agg).idxOf (spIdx ba ca a) = agg.idxOf a := by
  have h1 := List.idxOf_lt_length_iff.2 ha
  have e : (axPos ba ca agg)[agg.idxOf a]'(by simpa [axPos] using h1) = spIdx ba ca a := by
    simp only [axPos_eq, List.getElem_map, List.getElem_idxOf]
  rw [← e]
  exact List.Nodup.idxOf_getElem (axPos_nodup h) _ _

lemma inPos_aggC (h : Axes n agg ba ca) {P c : List ℕ} (hP : P.length = (spatialAxes n ba ca).length) (hc : c.length = agg.length) :
    (aggC n agg ba ca).inPos (gather (order (spatialAxes n ba ca).length (axPos ba ca agg)) P) c = putAt (axPos ba ca agg) c P := by
  unfold Contraction.inPos
  have e0 : spatialAxes (aggC n agg ba ca).n (aggC n agg ba ca).ba (aggC n agg ba ca).ca = spatialAxes n ba ca := rfl
  rw [e0]
  unfold putAt
  rw [hP, ← map_spIdx (n := n) h.ne, List.map_map]
  refine List.map_congr_left fun a ha => ?_
  have hmem : Sum.inl a ∈ (aggC n agg ba ca).outAxes ++ agg.map Sum.inl := by
    rw [outAxes_aggC]
    by_cases hg : a ∈ agg
    · simp [hg]
    · refine List.mem_append_left _ (List.mem_append_left _ (List.mem_map_of_mem (mem_keepF.2 ⟨ha, hg⟩)))
  rw [coord_aggC h hc hmem]
  simp only [coordOf, Sum.elim_inl, Function.comp]
  by_cases hg : a ∈ agg
  · rw [if_pos hg, if_pos (by rw [axPos_eq]; exact List.mem_map_of_mem hg), idxOf_map_spIdx h hg]
  · rw [if_neg hg, if_neg]
    rw [axPos_eq, List.mem_map]
    rintro ⟨b, hb, he⟩
    refine hg ?_
    rw [← (spIdx_getD h.ne ha).2, ← he, (spIdx_getD h.ne (h.mem_spatial hb)).2]
    exact hb

lemma otherIdx_aggC (h : Axes n agg ba ca) {P c : List ℕ} (hc : c.length = agg.length) (i : ℕ) :
    (aggC n agg ba ca).otherIdx i (gather (order (spatialAxes n ba ca).length (axPos ba ca agg)) P) c = i :: c ++ gather (axPos ba ca agg) P := by
  have hl : (gather (axPos ba ca agg) P).length = agg.length := by simp [axPos]
  unfold Contraction.otherIdx
  have en : (aggC n agg ba ca).no = 1 + agg.length + agg.length := rfl
  rw [en]
  refine ext_getD (by simp [hc, hl]; omega) fun j hj => ?_
  simp only [List.length_map, List.length_range] at hj
  rw [getD_map_range _ _ _ hj]
  have eo : (aggC n agg ba ca).obs ++ (aggC n agg ba ca).ocs = [0] ++ List.range' 1 agg.length := rfl
  have eb : (aggC n agg ba ca).bs ++ (aggC n agg ba ca).cs = [ba] ++ agg := rfl
  have eba : (aggC n agg ba ca).ba = ba := rfl
  rw [eo, eb, eba]
  by_cases hj1 : j < 1 + agg.length
  · rw [if_pos (by simp only [List.singleton_append, List.mem_cons, List.mem_range'_1]; omega)]
    simp only [idxOf_cons_range' _ hj1]
    rcases j with _ | j
    · simp
    · have hj2 : j < agg.length := by omega
      have e : ([ba] ++ agg).getD (j + 1) 0 = agg[j] := by
        rw [List.singleton_append, List.getD_cons_succ, List.getD_eq_getElem _ _ hj2]
      rw [e, if_neg (fun e' : agg[j] = ba => h.nba (by rw [← e']; exact List.getElem_mem hj2)), coord_aggC h hc (List.mem_append_right _ (List.mem_map_of_mem (List.getElem_mem hj2)))]
      simp only [coordOf, Sum.elim_inl]
      rw [if_pos (List.getElem_mem hj2), List.Nodup.idxOf_getElem h.nodup, List.cons_append, List.getD_cons_succ, List.getD_append _ _ _ _ (by omega)]
  · rw [if_neg (by simp only [List.singleton_append, List.mem_cons, List.mem_range'_1]; omega)]
    have hmem : Sum.inr j ∈ (aggC n agg ba ca).outAxes ++ agg.map Sum.inl := by
      rw [outAxes_aggC]
      refine List.mem_append_left _ (List.mem_append_right _ (List.mem_map_of_mem ?_))
      rw [List.mem_range'_1]
      omega
    rw [coord_aggC h hc hmem]
    simp only [coordOf, Sum.elim_inr]
    rw [List.getD_append_right _ _ _ _ (by simp [hc]; omega)]
    congr 1
    simp [hc]
    omega

lemma outShape_aggC (h : Axes n agg ba ca) {s t G : List ℕ} (hG : gather agg s = G) (ht : t = [s.getD ba 0] ++ G ++ G) :
    (aggC n agg ba ca).outShape s t = gather (order (spatialAxes n ba ca).length (axPos ba ca agg)) ((spatialAxes n ba ca).map (s.getD · 0)) := by
  have hGl : G.length = agg.length := by rw [← hG]; simp
  unfold Contraction.outShape order
  rw [outAxes_aggC, List.map_append, List.map_map, List.map_map, gather_append, gather_axPos h]
  congr 1
  · rw [← keepF_map h]
    unfold gather
    rw [List.map_map]
    refine List.map_congr_left fun a ha => ?_
    obtain ⟨h1, h2⟩ := spIdx_getD h.ne (mem_keepF.1 ha).1
    simp only [Function.comp, Sum.elim_inl]
    conv_rhs => rw [List.getD_eq_getElem _ _ (by simpa using h1), List.getElem_map]
    rw [List.getD_eq_getElem _ _ h1] at h2
    rw [h2]
  · have := gather_range' ([s.getD ba 0] ++ G) G [] (1 + agg.length) agg.length (x := t) (by rw [ht]; simp) (by simp [hGl]; omega) hGl.symm
    unfold gather at this hG
    rw [hG]
    exact this

end NT.Aggregate
