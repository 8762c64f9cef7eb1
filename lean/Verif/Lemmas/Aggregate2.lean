import Verif.Lemmas.Aggregate

/-!
# Edge lists
-/

namespace NT.Aggregate
open NT Arr Spec NT.Emp
open scoped BigOperators

/-- The row-major numbers of vertices, `-1` for none. -/
def idsOf (G : List ℕ) (v : ℕ → Option (List ℕ)) (E : ℕ) : List ℤ :=
  (List.range E).map fun e => (v e).elim (-1) fun c => ((ravel G c : ℕ) : ℤ)

/-- `pattern` lists edges of graphs with `K` axes, for `B` examples. -/
def IsEdgeList (pattern : Arr ℤ) (B K : ℕ) : Prop := ∃ E, pattern.shape = [B, E, K, 2] ∨ (K = 1 ∧ pattern.shape = [B, E, 2])

/-- The vertex at one end of an edge. -/
def vtx (G : List ℕ) (pattern : Arr ℤ) (side b e : ℕ) : Option (List ℕ) := vertex G (endpoint pattern G.length b e side)

lemma elim_vertex (G : List ℕ) (v : List ℤ) :
    (vertex G v).elim (-1 : ℤ) (fun c => ((ravel G c : ℕ) : ℤ)) =
      if ∀ x ∈ v, 0 ≤ x then ((ravel G (List.zipWith (fun x (d : ℕ) => (x % (d : ℤ)).toNat) v G) : ℕ) : ℤ) else -1 := by
  unfold vertex
  split_ifs <;> rfl

lemma senders_ok {pattern : Arr ℤ} {B K : ℕ} (h : IsEdgeList pattern B K) :
    ∃ s r, sendersReceivers pattern B K = .ok (s, r) ∧ ∀ G : List ℕ, G.length = K → ∀ b,
      makeIndices s G b = idsOf G (vtx G pattern 0 b) (pattern.shape.getD 1 0) ∧
      makeIndices r G b = idsOf G (vtx G pattern 1 b) (pattern.shape.getD 1 0) := by
  obtain ⟨E, h | ⟨rfl, h⟩⟩ := h
  · refine ⟨⟨[B, E, K], fun i => pattern.get (i ++ [0])⟩, ⟨[B, E, K], fun i => pattern.get (i ++ [1])⟩, ?_, ?_⟩
    · simp [sendersReceivers, h, ndim]
    · intro G hG b
      simp [makeIndices, idsOf, vtx, elim_vertex, endpoint, h, hG]
  · refine ⟨⟨[B, E, 1], fun i => pattern.get (i.dropLast ++ [0])⟩, ⟨[B, E, 1], fun i => pattern.get (i.dropLast ++ [1])⟩, ?_, ?_⟩
    · simp [sendersReceivers, h, ndim]
    · intro G hG b
      simp [makeIndices, idsOf, vtx, elim_vertex, endpoint, h]

lemma vertex_inRange {G c : List ℕ} {v : List ℤ} (hG : ∀ d ∈ G, 0 < d) (hl : v.length = G.length) (h : vertex G v = some c) : InRange c G := by
  unfold vertex at h
  split_ifs at h
  rw [Option.some.injEq] at h
  subst h
  rw [inRange_iff]
  refine ⟨by simp [hl], fun k hk => ?_⟩
  rw [List.getD_eq_getElem _ _ (by simp [hl, hk]), List.getD_eq_getElem _ _ (by omega)]
  simp only [List.getElem_zipWith]
  have h1 : 0 < G[k] := hG _ (List.getElem_mem _)
  have h2 := Int.emod_lt_of_pos v[k] (b := (G[k] : ℤ)) (by exact_mod_cast h1)
  have h3 := Int.emod_nonneg v[k] (b := (G[k] : ℤ)) (by positivity)
  omega

lemma pos_of_inRange {q G : List ℕ} (h : InRange q G) : ∀ d ∈ G, 0 < d := by
  intro d hd
  obtain ⟨k, hk, rfl⟩ := List.mem_iff_getElem.1 hd
  rw [inRange_iff] at h
  have := h.2 k (by omega)
  rw [List.getD_eq_getElem _ _ hk] at this
  omega

lemma endpoint_length {pattern : Arr ℤ} {B K : ℕ} (h : IsEdgeList pattern B K) (b e side : ℕ) : (endpoint pattern K b e side).length = K := by
  obtain ⟨E, h | ⟨rfl, h⟩⟩ := h <;> simp [endpoint, h]

lemma vtx_inRange {pattern : Arr ℤ} {B : ℕ} {G c q : List ℕ} (h : IsEdgeList pattern B G.length) (hq : InRange q G) {side b e : ℕ}
    (hv : vtx G pattern side b e = some c) : InRange c G :=
  vertex_inRange (pos_of_inRange hq) (endpoint_length h b e side) hv

/-- A sum over the edges that end in `q`. -/
lemma segment_sum {G q : List ℕ} {v : ℕ → Option (List ℕ)} {E : ℕ} (hq : InRange q G) (hv : ∀ e c, v e = some c → InRange c G) (f : ℕ → ℝ) :
    ((List.range (idsOf G v E).length).map fun e => if (idsOf G v E).getD e (-1) = ((ravel G q : ℕ) : ℤ) then f e else 0).sum =
      ∑ e ∈ Finset.range E, if v e = some q then f e else 0 := by
  have hl : (idsOf G v E).length = E := by simp [idsOf]
  rw [hl, ← List.sum_toFinset _ List.nodup_range, List.toFinset_range]
  refine Finset.sum_congr rfl fun e he => ?_
  rw [Finset.mem_range] at he
  have hg : (idsOf G v E).getD e (-1) = (v e).elim (-1) fun c => ((ravel G c : ℕ) : ℤ) := by
    unfold idsOf
    rw [List.getD_eq_getElem _ _ (by simpa using he)]
    simp
  have hiff : (idsOf G v E).getD e (-1) = ((ravel G q : ℕ) : ℤ) ↔ v e = some q := by
    rw [hg]
    cases hve : v e with
    | none => simp
    | some c =>
      simp only [Option.elim_some, Option.some.injEq]
      exact ⟨fun hr => ravel_inj (hv e c hve) hq (by exact_mod_cast hr), fun hc => by rw [hc]⟩
  by_cases hc : v e = some q
  · rw [if_pos hc, if_pos (hiff.2 hc)]
  · rw [if_neg hc, if_neg (fun h => hc (hiff.1 h))]

/-- The sum over the edges that end in `q` is the sum over the vertices, weighted by the numbers of edges. -/
lemma edge_sum {G q : List ℕ} {pattern : Arr ℤ} {b E : ℕ} (hE : E = pattern.shape.getD 1 0)
    (hs : ∀ e < E, vtx G pattern 1 b e = some q → ∃ c, InRange c G ∧ vtx G pattern 0 b e = some c) (f : List ℕ → ℝ) :
    (∑ e ∈ Finset.range E, if vtx G pattern 1 b e = some q then f ((vtx G pattern 0 b e).getD []) else 0) =
      ∑ c ∈ box G, edgeWeight G pattern b c q * f c := by
  have hw : ∀ c, edgeWeight G pattern b c q = ∑ e ∈ Finset.range E, if vtx G pattern 0 b e = some c ∧ vtx G pattern 1 b e = some q then (1 : ℝ) else 0 := by
    intro c
    unfold edgeWeight
    rw [← hE, List.countP_eq_length_filter, Finset.sum_ite, Finset.sum_const, Finset.sum_const_zero, add_zero, nsmul_eq_mul, mul_one,
      ← List.toFinset_card_of_nodup (List.nodup_range.filter _)]
    congr 2
    ext e
    rw [Finset.mem_filter]
    simp [vtx]
  simp only [hw, Finset.sum_mul]
  rw [Finset.sum_comm]
  refine Finset.sum_congr rfl fun e he => ?_
  rw [Finset.mem_range] at he
  by_cases hr : vtx G pattern 1 b e = some q
  · obtain ⟨c, hc, hsc⟩ := hs e he hr
    rw [if_pos hr, hsc]
    rw [Finset.sum_eq_single c]
    · simp [hr]
    · intro c' _ hne
      rw [if_neg, zero_mul]
      rintro ⟨h, _⟩
      exact hne (Option.some.inj h).symm
    · intro h
      exact absurd (mem_box.2 hc) h
  · rw [if_neg hr]
    symm
    refine Finset.sum_eq_zero fun c _ => ?_
    rw [if_neg (fun h => hr h.2), zero_mul]

/-- Reading the row of a sender. -/
lemma takeRows_get {G c : List ℕ} {v : ℕ → Option (List ℕ)} {E e : ℕ} (he : e < E) (hv : v e = some c) (x : Arr ℝ) (i : List ℕ) :
    (takeRows x (idsOf G v E)).get (e :: i) = x.get (ravel G c :: i) := by
  have hg : (idsOf G v E).getD e 0 = ((ravel G c : ℕ) : ℤ) := by
    unfold idsOf
    rw [List.getD_eq_getElem _ _ (by simpa using he)]
    simp [hv]
  unfold takeRows
  simp only [List.headD_cons, List.tail_cons, hg]
  rw [if_neg (by omega)]
  simp

/-- Every edge that is not padding at its receiver has a sender. -/
def Senders (G : List ℕ) (pattern : Arr ℤ) : Prop :=
  ∀ b e, e < pattern.shape.getD 1 0 → vtx G pattern 1 b e ≠ none → vtx G pattern 0 b e ≠ none

lemma Senders.some {G q : List ℕ} {pattern : Arr ℤ} {B b e : ℕ} (hs : Senders G pattern) (h : IsEdgeList pattern B G.length) (hq : InRange q G)
    (he : e < pattern.shape.getD 1 0) (hv : vtx G pattern 1 b e = some q) : ∃ c, InRange c G ∧ vtx G pattern 0 b e = .some c := by
  obtain ⟨c, hc⟩ := Option.ne_none_iff_exists'.1 (hs b e he (by rw [hv]; simp))
  exact ⟨c, vtx_inRange h hq hc, hc⟩

/-- `segment_sum(x[s], r)` at a vertex. -/
lemma message_sum {G q : List ℕ} {pattern : Arr ℤ} {B b : ℕ} (hs : Senders G pattern) (h : IsEdgeList pattern B G.length) (hq : InRange q G)
    (x : Arr ℝ) (num : ℕ) (i : List ℕ) :
    (segmentSum (takeRows x (idsOf G (vtx G pattern 0 b) (pattern.shape.getD 1 0))) (idsOf G (vtx G pattern 1 b) (pattern.shape.getD 1 0)) num).get (ravel G q :: i) =
      ∑ c ∈ box G, edgeWeight G pattern b c q * x.get (ravel G c :: i) := by
  have e1 := segment_sum (v := vtx G pattern 1 b) (E := pattern.shape.getD 1 0) hq (fun e c hc => vtx_inRange h hq hc)
    (fun e => (takeRows x (idsOf G (vtx G pattern 0 b) (pattern.shape.getD 1 0))).get (e :: i))
  refine Eq.trans e1 ?_
  rw [← edge_sum rfl (fun e he hr => hs.some h hq he hr)]
  refine Finset.sum_congr rfl fun e he => ?_
  rw [Finset.mem_range] at he
  by_cases hr : vtx G pattern 1 b e = some q
  · obtain ⟨c, hc, hsc⟩ := hs.some h hq he hr
    rw [if_pos hr, if_pos hr, takeRows_get he hsc, hsc]
    rfl
  · rw [if_neg hr, if_neg hr]

/-- Merging the axes in the middle. -/
lemma ravel_mid {B G R b c i : List ℕ} (hb : b.length = B.length) (hc : c.length = G.length) :
    ravel (B ++ [G.prod] ++ R) (b ++ [ravel G c] ++ i) = ravel (B ++ G ++ R) (b ++ c ++ i) := by
  have e1 : (b ++ c).length = (B ++ G).length := by simp [hb, hc]
  have e2 : (b ++ [ravel G c]).length = (B ++ [G.prod]).length := by simp [hb]
  rw [ravel_append e1, ravel_append e2, ravel_append hb, ravel_append hb]
  simp [ravel]

/-! ## The sparse implementation on activations -/

variable {n : ℕ} {agg : List ℕ} {ba ca : ℕ}

/-- The axes in the order (batch, aggregated, others, channel). -/
def sparsePerm (n : ℕ) (agg : List ℕ) (ba ca : ℕ) : List ℕ := ([ba] ++ agg) ++ freeAxes n ([ba] ++ agg ++ [ca]) ++ [ca]

lemma Axes.allNodup (h : Axes n agg ba ca) : ([ba] ++ agg ++ [ca]).Nodup := by
  rw [List.nodup_append]
  refine ⟨h.consNodup, by simp, ?_⟩
  rintro a ha b hb rfl
  rw [List.mem_singleton] at hb
  subst hb
  rcases List.mem_cons.1 (by simpa using ha) with e | e
  · exact h.ne e.symm
  · exact h.nca e

lemma Axes.allLt (h : Axes n agg ba ca) : ∀ k ∈ [ba] ++ agg ++ [ca], k < n := by
  intro k hk
  rcases List.mem_append.1 hk with hk | hk
  · exact h.consLt k (by simpa using hk)
  · rw [List.mem_singleton] at hk
    exact hk ▸ h.hca

lemma sparse_moves (h : Axes n agg ba ca) :
    Moves n (sparsePerm n agg ba ca) ([ba] ++ agg ++ [ca]) ([0] ++ List.range' 1 agg.length ++ [n - 1]) := by
  have hp : (sparsePerm n agg ba ca).Perm (List.range n) := freeAxes_perm' n ([ba] ++ agg) [ca] h.allNodup h.allLt
  have hlen := hp.length_eq
  simp only [sparsePerm, List.length_append, List.length_range, List.length_singleton] at hlen
  refine Moves.of_sorted hp ?_ ?_ ?_ ?_
  · rw [List.nodup_append]
    refine ⟨List.nodup_cons.2 ⟨by simp, List.nodup_range'⟩, by simp, ?_⟩
    rintro a ha b hb rfl
    simp only [List.singleton_append, List.mem_cons, List.mem_range'_1, List.not_mem_nil, or_false] at ha hb
    omega
  · intro k hk
    simp only [List.mem_append, List.mem_cons, List.mem_range'_1, List.not_mem_nil, or_false] at hk
    omega
  · rw [gather_append]
    congr 1
    · have e : [0] ++ List.range' 1 agg.length = List.range' 0 (1 + agg.length) := by
        rw [Nat.add_comm, List.range'_succ]; rfl
      rw [e]
      exact gather_range' [] ([ba] ++ agg) (freeAxes n ([ba] ++ agg ++ [ca]) ++ [ca]) _ _ (by simp [sparsePerm]) rfl (by simp; omega)
    · have := gather_range' (([ba] ++ agg) ++ freeAxes n ([ba] ++ agg ++ [ca])) [ca] [] (n - 1) 1 (x := sparsePerm n agg ba ca) (by simp [sparsePerm])
        (by simp only [List.length_append, List.length_singleton]; omega) rfl
      simpa using this
  · unfold sparsePerm
    refine middle_sorted (freeAxes_sorted _ _) (by simp only [List.length_append, List.length_singleton]; omega) ?_ ?_
    · intro k hk
      simp only [List.length_append, List.length_singleton, List.mem_append, List.mem_cons, List.not_mem_nil, or_false, List.mem_range'_1] at hk ⊢
      omega
    · intro k hk
      simp only [List.length_append, List.length_singleton, List.mem_append, List.mem_cons, List.not_mem_nil, or_false, List.mem_range'_1] at hk ⊢
      omega

lemma gather_sparsePerm (x : List ℕ) : gather (sparsePerm n agg ba ca) x =
    [x.getD ba 0] ++ gather agg x ++ (gather (freeAxes n ([ba] ++ agg ++ [ca])) x ++ [x.getD ca 0]) := by
  unfold sparsePerm
  rw [gather_append, gather_append, gather_append, List.append_assoc]
  rfl

/-- The sparse implementation. -/
lemma applySparse_ok (l : Layer) (x : Arr ℝ) (pattern : Arr ℤ) (hl : l.aggAxes x.ndim = .ok (agg, ba, ca)) (h : Axes x.ndim agg ba ca)
    (hp : IsEdgeList pattern (x.shape.getD ba 0) agg.length) (hs : Senders (gather agg x.shape) pattern) :
    ∃ y, l.applySparse x pattern = .ok y ∧ y.shape = x.shape ∧
      ∀ i, InRange i x.shape → y.get i = aggregate (gather agg x.shape) agg ba (edgeWeight (gather agg x.shape) pattern) x.get i := by
  have hm := sparse_moves h
  set G := gather agg x.shape with hG
  have hGl : G.length = agg.length := by simp [hG]
  obtain ⟨s, r, hsr, hids⟩ := senders_ok hp
  obtain ⟨f1, f2⟩ := hm.forth x rfl
  set m := x.moveaxis ([ba] ++ agg ++ [ca]) ([0] ++ List.range' 1 agg.length ++ [x.ndim - 1]) with hmdef
  set R := gather (freeAxes x.ndim ([ba] ++ agg ++ [ca])) x.shape ++ [x.shape.getD ca 0] with hR
  set B := x.shape.getD ba 0 with hB
  have hms : m.shape = [B] ++ G ++ R := by rw [f1, gather_sparsePerm]
  have d1 : (m.shape.drop 1).take agg.length = G := by
    rw [hms, List.append_assoc, List.singleton_append, List.drop_succ_cons, List.drop_zero, ← hGl, List.take_left]
  have d2 : m.shape.drop (agg.length + 1) = R := by
    rw [hms, List.append_assoc, List.singleton_append, List.drop_succ_cons, ← hGl, List.drop_left]
  have d3 : m.shape.getD 0 0 = B := by rw [hms]; rfl
  have hprod : ([B, G.prod] ++ R).prod = m.shape.prod := by rw [hms]; simp
  set m2 := m.reshape ([B, G.prod] ++ R) with hm2
  have m2get : ∀ b c i, InRange b [B] → InRange c G → InRange i R → m2.get (b ++ [ravel G c] ++ i) = m.get (b ++ c ++ i) := by
    intro b c i hb hc hi
    refine reshape_get m _ (by rw [hms]; exact (inRange_append (by rw [List.length_append, List.length_append, hb.length, hc.length])).2 ⟨(inRange_append hb.length).2 ⟨hb, hc⟩, hi⟩) ?_
    rw [hms]
    exact ravel_mid (B := [B]) hb.length hc.length
  set o := vmap0 B fun b => segmentSum (takeRows (row m2 b) (makeIndices s G b)) (makeIndices r G b) G.prod with ho
  have hos : o.shape = [B, G.prod] ++ R := rfl
  have hsz : o.shape.prod = m.shape.prod := by rw [hos, hprod]
  have oget : ∀ b q i, InRange q G → InRange i R → b < B → o.get (b :: ravel G q :: i) = ∑ c ∈ box G, edgeWeight G pattern b c q * m.get ([b] ++ c ++ i) := by
    intro b q i hq hi hb
    rw [ho]
    unfold vmap0
    simp only [List.headD_cons, List.tail_cons]
    obtain ⟨e1, e2⟩ := hids G hGl b
    rw [e1, e2, message_sum hs (hGl ▸ hp) hq]
    refine Finset.sum_congr rfl fun c hc => ?_
    rw [← m2get [b] c i (by simpa [InRange] using hb) (mem_box.1 hc) hi]
    rfl
  have hon : (o.reshape m.shape).ndim = x.ndim := by
    show m.shape.length = _
    rw [f1, gather_length, hm.lengthP]
  obtain ⟨b1, b2⟩ := hm.back (o.reshape m.shape) hon
  refine ⟨(o.reshape m.shape).moveaxis ([0] ++ List.range' 1 agg.length ++ [x.ndim - 1]) ([ba] ++ agg ++ [ca]), ?_, b1 x.shape rfl f1, ?_⟩
  · unfold Layer.applySparse
    simp only [hl, bind, Except.bind]
    rw [← hB, hsr]
    simp only [← hmdef]
    rw [d1, d2, d3]
    unfold reshapeE
    rw [if_pos hprod]
    simp only [← hm2]
    have e1 : m2.shape.getD 0 0 = B := rfl
    have e2 : ∀ b, (row m2 b).shape.headD 0 = G.prod := fun _ => rfl
    simp only [e1, e2, ← ho]
    rw [if_pos hsz.symm]
    rfl
  · intro i hi
    refine (b2 i hi.length).trans ?_
    rw [gather_sparsePerm]
    have hba : i.getD ba 0 < B := (inRange_iff.1 hi).2 ba h.hba
    have hq : InRange (gather agg i) G := gather_inRange hi h.lt
    have hi' : InRange (gather (freeAxes x.ndim ([ba] ++ agg ++ [ca])) i ++ [i.getD ca 0]) R := by
      refine (inRange_append (by simp)).2 ⟨gather_inRange hi fun k hk => (mem_freeAxes.1 hk).1, ?_⟩
      have := (inRange_iff.1 hi).2 ca h.hca
      simpa [InRange] using this
    have hb' : InRange [i.getD ba 0] [B] := by simpa [InRange] using hba
    set i' := gather (freeAxes x.ndim ([ba] ++ agg ++ [ca])) i ++ [i.getD ca 0] with hi'def
    have : (o.reshape m.shape).get ([i.getD ba 0] ++ gather agg i ++ i') = o.get (i.getD ba 0 :: ravel G (gather agg i) :: i') := by
      refine reshape_get o _ ?_ ?_
      · rw [hos]
        show InRange ([i.getD ba 0] ++ ([ravel G (gather agg i)] ++ i')) ([B] ++ ([G.prod] ++ R))
        refine (inRange_append hb'.length).2 ⟨hb', (inRange_append (by rfl)).2 ⟨?_, hi'⟩⟩
        simpa [InRange] using ravel_lt hq
      · rw [hms, hos]
        exact (ravel_mid (B := [B]) (b := [i.getD ba 0]) rfl hq.length).symm
    rw [this, oget _ _ _ hq hi' hba]
    unfold aggregate
    refine Finset.sum_congr rfl fun c hc => ?_
    have hcl : c.length = agg.length := by rw [(mem_box.1 hc).length, hGl]
    have hl' : i.length = x.ndim := hi.length
    have e := f2 (putAt agg c i) (by rw [putAt_length, hl'])
    rw [gather_sparsePerm, gather_putAt h.nodup (fun a ha => hl' ▸ h.lt a ha) hcl,
      gather_putAt_off (fun a ha hn => (mem_freeAxes.1 ha).2 (by simp [hn])) (fun a ha => hl' ▸ (mem_freeAxes.1 ha).1),
      putAt_getD (hl' ▸ h.hba), putAt_getD (hl' ▸ h.hca), if_neg h.nba, if_neg h.nca] at e
    rw [← e]
    rfl

end NT.Aggregate
