import Verif.Lemmas.RulesConv2

/-!
# The blocks of the Jacobian of `conv_general_dilated`
-/

namespace NT.Rules
open NT Arr Spec ConvParams
variable {α : Type}

lemma ConvOk.outShape_set_one {p : ConvParams} {lhs inp : List ℕ} {n : ℕ} (h : ConvOk p lhs inp n) (b f f' : ℕ) (ks : List ℕ) :
    (p.outShape b f lhs ks).set (p.outSpec.getD 1 0) f' = p.outShape b f' lhs ks := by
  obtain ⟨h1, h2, h3, h4⟩ := h.outShape b f ks
  obtain ⟨g1, g2, g3, g4⟩ := h.outShape b f' ks
  refine h.O.ext (by simp [h1]) g1 ?_ ?_ ?_
  · rw [getD_set_ne h.O.ne, h2, g2]
  · rw [getD_set_self (by rw [h1]; exact h.O.one), g3]
  · rw [g4, ← h4]
    exact Emp.gather_set_off h.O.one_notMem

lemma ConvOk.outShape_set_zero {p : ConvParams} {lhs inp : List ℕ} {n : ℕ} (h : ConvOk p lhs inp n) (b b' f : ℕ) (ks : List ℕ) :
    (p.outShape b f lhs ks).set (p.outSpec.getD 0 0) b' = p.outShape b' f lhs ks := by
  obtain ⟨h1, h2, h3, h4⟩ := h.outShape b f ks
  obtain ⟨g1, g2, g3, g4⟩ := h.outShape b' f ks
  refine h.O.ext (by simp [h1]) g1 ?_ ?_ ?_
  · rw [getD_set_self (by rw [h1]; exact h.O.zero), g2]
  · rw [getD_set_ne h.O.ne.symm, h3, g3]
  · rw [g4, ← h4]
    exact Emp.gather_set_off h.O.zero_notMem

lemma gather_shiftL (P o i : List ℕ) {m : ℕ} (ho : o.length = m) : gather (P.map (m + ·)) (o ++ i) = gather P i := by
  rw [← gather_shift' P o i ho]
  congr 1
  exact List.map_congr_left fun a _ => Nat.add_comm ..

/-- The spatial axes of the filter, increasing. -/
def fAxes (p : ConvParams) (n : ℕ) : List ℕ := freeAxes n [p.rhsSpec.getD 0 0, p.rhsSpec.getD 1 0]

lemma fAxes_mem {p : ConvParams} {n x : ℕ} : x ∈ fAxes p n ↔ x < n ∧ x ≠ p.rhsSpec.getD 0 0 ∧ x ≠ p.rhsSpec.getD 1 0 := by
  unfold fAxes
  rw [mem_freeAxes]
  simp only [List.mem_cons, List.not_mem_nil, or_false, not_or]

lemma ConvOk.fAxes_length {p : ConvParams} {lhs inp : List ℕ} {n : ℕ} (h : ConvOk p lhs inp n) : (fAxes p n).length + 2 = n := by
  have := freeAxes_length (n := n) (D := [p.rhsSpec.getD 0 0, p.rhsSpec.getD 1 0]) (by simpa using h.R.ne) (by
    have := h.R.zero
    have := h.R.one
    intro k hk
    simp only [List.mem_cons, List.not_mem_nil, or_false] at hk
    rcases hk with rfl | rfl <;> assumption)
  exact this

/-- The patches, read with the axes of the filter. -/
lemma ConvOk.patches [Zero α] {p : ConvParams} {lhs : Arr α} {inp : List ℕ} {n : ℕ} (h : ConvOk p lhs.shape inp n) :
    (p.patches lhs (gather (fAxes p n) inp)).shape =
      p.outShape (lhs.shape.getD (p.lhsSpec.getD 0 0) 0) (lhs.shape.getD (p.lhsSpec.getD 1 0) 0 * (gather (fAxes p n) inp).prod) lhs.shape (spatial p.rhsSpec inp) ∧
    ∀ k c i, InRange (gather (fAxes p n) i) (gather (fAxes p n) inp) →
      k.getD (p.outSpec.getD 1 0) 0 = c * (gather (fAxes p n) inp).prod + ravel (gather (fAxes p n) inp) (gather (fAxes p n) i) →
      (p.patches lhs (gather (fAxes p n) inp)).get k = p.read lhs (k.getD (p.outSpec.getD 0 0) 0) c (spatial p.outSpec k) (spatial p.rhsSpec i) := by
  constructor
  · unfold ConvParams.patches
    dsimp only
    unfold fAxes
    rw [h.byDim]
  · intro k c i hi hk
    have hlt := ravel_lt hi
    unfold ConvParams.patches
    dsimp only
    rw [hk, Nat.mul_comm c, Nat.mul_add_div (by omega), Nat.mul_add_mod, Nat.div_eq_of_lt hlt, Nat.mod_eq_of_lt hlt, Nat.add_zero, unravel_ravel hi]
    unfold fAxes
    rw [h.byDim]

/-- One feature in each group of features. -/
lemma convBlocks_feature [Zero α] {p : ConvParams} (lhs : Arr α) {inp : List ℕ} {n : ℕ} (h : ConvOk p lhs.shape inp n) (hb : p.batchGroups = 1) :
    ∃ j, convBlocks p inp lhs n = .ok j ∧
      j.shape = (convOut p lhs.shape inp).set (p.outSpec.getD 1 0) p.featureGroups ++ inp.set (p.rhsSpec.getD 0 0) p.featureGroups ∧
      ∀ o i, InRange o ((convOut p lhs.shape inp).set (p.outSpec.getD 1 0) p.featureGroups) → InRange i (inp.set (p.rhsSpec.getD 0 0) p.featureGroups) →
        j.get (o ++ i) = if o.getD (p.outSpec.getD 1 0) 0 = i.getD (p.rhsSpec.getD 0 0) 0 then
          p.read lhs (o.getD (p.outSpec.getD 0 0) 0) (o.getD (p.outSpec.getD 1 0) 0 * inp.getD (p.rhsSpec.getD 1 0) 0 + i.getD (p.rhsSpec.getD 1 0) 0)
            (spatial p.outSpec o) (spatial p.rhsSpec i) else 0 := by
  have hn2 := h.R.two
  have hcg : lhs.shape.getD (p.lhsSpec.getD 1 0) 0 / p.featureGroups = inp.getD (p.rhsSpec.getD 1 0) 0 := by
    rw [h.channels, Nat.mul_div_cancel_left _ h.groups.1.1]
  have hch := h.channels
  obtain ⟨P1, P2⟩ := h.patches
  have ef : ((List.range n).filter fun i => i ∈ p.rhsSpec.drop 2).map (fun i => inp.getD i 0) = gather (fAxes p n) inp := by rw [h.filter.1]; rfl
  have hfl := h.fAxes_length
  have hfn : (fAxes p n).Nodup := (freeAxes_sorted _ _).imp fun h => ne_of_lt h
  have hSo : (convOut p lhs.shape inp).set (p.outSpec.getD 1 0) p.featureGroups =
      p.outShape (lhs.shape.getD (p.lhsSpec.getD 0 0) 0) p.featureGroups lhs.shape (spatial p.rhsSpec inp) := by
    unfold convOut
    rw [hb, Nat.div_one, h.outShape_set_one]
  obtain ⟨O1, O2, O3, O4⟩ := h.outShape (lhs.shape.getD (p.lhsSpec.getD 0 0) 0) p.featureGroups (spatial p.rhsSpec inp)
  rw [hSo]
  generalize hSe : p.outShape (lhs.shape.getD (p.lhsSpec.getD 0 0) 0) p.featureGroups lhs.shape (spatial p.rhsSpec inp) = So at *
  have hPs : (p.patches lhs (gather (fAxes p n) inp)).shape = So.set (p.outSpec.getD 1 0) (lhs.shape.getD (p.lhsSpec.getD 1 0) 0 * (gather (fAxes p n) inp).prod) := by
    rw [P1, ← hSe, h.outShape_set_one]
  have hPn : (p.patches lhs (gather (fAxes p n) inp)).ndim = n := by
    show List.length _ = n
    rw [hPs, List.length_set, O1]
  have hPr : gather (freeAxes n [p.outSpec.getD 1 0]) (p.patches lhs (gather (fAxes p n) inp)).shape = gather (freeAxes n [p.outSpec.getD 1 0]) So := by
    rw [hPs, Emp.gather_set_off]
    rw [mem_freeAxes]
    simp
  obtain ⟨m1, m2⟩ := moveaxis_last _ hPn h.O.one
  have hrl : (freeAxes n [p.outSpec.getD 1 0]).length = n - 1 := by
    have := freeAxes_length (n := n) (D := [p.outSpec.getD 1 0]) (by simp) (by simpa using h.O.one)
    simp only [List.length_singleton] at this
    omega
  rw [hPr, hPs, getD_set_self (by rw [O1]; exact h.O.one)] at m1
  have hrk : ∀ k, (gather (freeAxes n [p.outSpec.getD 1 0]) k).length = n - 1 := fun k => (List.length_map ..).trans hrl
  have hfk : ∀ k, (gather (fAxes p n) k).length = (fAxes p n).length := fun k => List.length_map ..
  have hr1l := hrk So
  unfold convBlocks
  dsimp only
  rw [if_neg (by omega), ef, h.filter.2.1]
  rw [show freeAxes n [p.rhsSpec.getD 0 0, p.rhsSpec.getD 1 0] = fAxes p n from rfl]
  generalize hj1 : (p.patches lhs (gather (fAxes p n) inp)).moveaxis [p.outSpec.getD 1 0] [n - 1] = j1 at *
  rw [m1, List.take_left' hr1l, hcg]
  have hprod : ([p.featureGroups, inp.getD (p.rhsSpec.getD 1 0) 0] ++ gather (fAxes p n) inp).prod =
      lhs.shape.getD (p.lhsSpec.getD 1 0) 0 * (gather (fAxes p n) inp).prod := by
    rw [hch]
    simp [Nat.mul_assoc]
  unfold Arr.reshapeE
  rw [if_pos (by rw [m1, List.prod_append (l₂ := _ ++ _), hprod, List.prod_append, List.prod_singleton])]
  show ∃ j, Except.ok (Arr.moveaxis _ _ _) = _ ∧ _
  have r1 := fun (u t : List ℕ) hu ht => reshape_split j1 (u := u) (t := t) m1 hprod hu ht
  have r2 : (j1.reshape (gather (freeAxes n [p.outSpec.getD 1 0]) So ++ ([p.featureGroups, inp.getD (p.rhsSpec.getD 1 0) 0] ++ gather (fAxes p n) inp))).shape =
    gather (freeAxes n [p.outSpec.getD 1 0]) So ++ ([p.featureGroups, inp.getD (p.rhsSpec.getD 1 0) 0] ++ gather (fAxes p n) inp) := rfl
  generalize j1.reshape _ = j2 at *
  have hj2n : j2.ndim = 2 * n - 1 := by
    show j2.shape.length = _
    rw [r2]
    simp only [List.length_append, hrk, hfk, List.length_cons, List.length_nil]
    omega
  obtain ⟨s1, s2⟩ := moveaxis_pair j2 rfl r2 hr1l
  have en : n - 1 + 1 = n := by omega
  rw [en] at s1 s2
  generalize j2.moveaxis _ _ = j3 at *
  have hj3n : j3.ndim = 2 * n - 1 := by
    show j3.shape.length = _
    rw [s1]
    simp only [List.length_append, hrk, hfk, List.length_cons, List.length_nil]
    omega
  have d1 : (diagLast j3).shape = gather (freeAxes n [p.outSpec.getD 1 0]) So ++ gather (fAxes p n) inp ++ [inp.getD (p.rhsSpec.getD 1 0) 0, p.featureGroups, p.featureGroups] := by
    show j3.shape ++ [j3.shape.getLastD 0] = _
    rw [s1]
    simp
  have d2 : ∀ u x y, u.length + 1 = j3.ndim → (diagLast j3).get (u ++ [x, y]) = if x = y then j3.get (u ++ [x]) else 0 := fun u x y hu => diagLast_get j3 hu
  generalize diagLast j3 = j4 at *
  have hj4n : j4.ndim = 2 * n := by
    show j4.shape.length = _
    rw [d1]
    simp only [List.length_append, hrk, hfk, List.length_cons, List.length_nil]
    omega
  have hr0 := h.R.zero
  have hr1 := h.R.one
  have ho1 := h.O.one
  have hne := h.R.ne
  have hD : ((fAxes p n).map (n + ·) ++ [n + p.rhsSpec.getD 1 0, p.outSpec.getD 1 0, n + p.rhsSpec.getD 0 0]).Nodup := by
    rw [List.nodup_append]
    refine ⟨hfn.map fun a b h => by simpa using h, by
      simp only [List.nodup_cons, List.mem_cons, List.not_mem_nil, or_false, not_or, not_false_iff, List.nodup_nil, and_true]
      omega, fun a ha b hb => ?_⟩
    obtain ⟨c, hc, rfl⟩ := List.mem_map.1 ha
    have := fAxes_mem.1 hc
    simp only [List.mem_cons, List.not_mem_nil, or_false] at hb
    omega
  have hDl : ∀ k ∈ ((fAxes p n).map (n + ·) ++ [n + p.rhsSpec.getD 1 0, p.outSpec.getD 1 0, n + p.rhsSpec.getD 0 0]), k < j4.ndim := by
    intro k hk
    rw [hj4n]
    rcases List.mem_append.1 hk with hk | hk
    · obtain ⟨c, hc, rfl⟩ := List.mem_map.1 hk
      have := fAxes_mem.1 hc
      omega
    · simp only [List.mem_cons, List.not_mem_nil, or_false] at hk
      omega
  obtain ⟨t1, t2⟩ := moveaxis_tail j4 (m := n - 1) (dst := (fAxes p n).map (n + ·) ++ [n + p.rhsSpec.getD 1 0, p.outSpec.getD 1 0, n + p.rhsSpec.getD 0 0])
    (by omega) (by simp; omega) hD hDl
  have hfree : freeAxes j4.ndim ((fAxes p n).map (n + ·) ++ [n + p.rhsSpec.getD 1 0, p.outSpec.getD 1 0, n + p.rhsSpec.getD 0 0]) = freeAxes n [p.outSpec.getD 1 0] := by
    refine freeAxes_of (freeAxes_sorted _ _) fun x => ?_
    rw [mem_freeAxes, hj4n]
    simp only [List.mem_append, List.mem_map, fAxes_mem, List.mem_cons, List.not_mem_nil, or_false, not_or, not_exists, not_and]
    constructor
    · rintro ⟨h1, h2⟩
      exact ⟨by omega, fun y _ => by omega, by omega, h2, by omega⟩
    · rintro ⟨h1, h2, h3, h4, h5⟩
      refine ⟨?_, h4⟩
      by_contra hx
      have := h2 (x - n)
      omega
  have hg : ∀ o i : List ℕ, o.length = n → gather (freeAxes n [p.outSpec.getD 1 0]) (o ++ i) = gather (freeAxes n [p.outSpec.getD 1 0]) o ∧
      gather ((fAxes p n).map (n + ·) ++ [n + p.rhsSpec.getD 1 0, p.outSpec.getD 1 0, n + p.rhsSpec.getD 0 0]) (o ++ i) =
        gather (fAxes p n) i ++ [i.getD (p.rhsSpec.getD 1 0) 0, o.getD (p.outSpec.getD 1 0) 0, i.getD (p.rhsSpec.getD 0 0) 0] := fun o i ho => by
    refine ⟨gather_left _ _ _ fun k hk => by have := (mem_freeAxes.1 hk).1; omega, ?_⟩
    rw [gather_append, gather_shiftL _ _ _ ho]
    congr 1
    show [(o ++ i).getD _ 0, (o ++ i).getD _ 0, (o ++ i).getD _ 0] = _
    rw [List.getD_append_right _ _ _ _ (by omega), List.getD_append _ _ _ _ (by omega), List.getD_append_right _ _ _ _ (by omega), ho, Nat.add_sub_cancel_left,
      Nat.add_sub_cancel_left]
  rw [hfree] at t1 t2
  refine ⟨_, rfl, t1 _ (by rw [List.length_append, List.length_set, O1, h.lenI, hj4n]; omega) ?_, fun o i ho hi => ?_⟩
  · rw [(hg _ _ O1).1, (hg _ _ O1).2, d1, List.append_assoc, Emp.gather_set_off (by rw [fAxes_mem]; tauto), getD_set_ne h.R.ne.symm, O3, getD_set_self (by rw [h.lenI]; exact hr0)]
  · have hol : o.length = n := ho.length.trans O1
    have hil : i.length = n := hi.length.trans (by simp [h.lenI])
    have hof : o.getD (p.outSpec.getD 1 0) 0 < p.featureGroups := by
      have := (inRange_iff.1 ho).2 _ (by rw [O1]; exact ho1)
      rwa [O3] at this
    have hi1 : i.getD (p.rhsSpec.getD 1 0) 0 < inp.getD (p.rhsSpec.getD 1 0) 0 := by
      have := (inRange_iff.1 hi).2 (p.rhsSpec.getD 1 0) (by simp [h.lenI]; exact hr1)
      rwa [getD_set_ne h.R.ne.symm] at this
    have hq : InRange (gather (fAxes p n) i) (gather (fAxes p n) inp) := by
      have := gather_inRange (P := fAxes p n) hi fun k hk => by
        have := fAxes_mem.1 hk
        simp [h.lenI]
        omega
      rwa [Emp.gather_set_off (by rw [fAxes_mem]; tauto)] at this
    have hu : InRange (gather (freeAxes n [p.outSpec.getD 1 0]) o) (gather (freeAxes n [p.outSpec.getD 1 0]) So) :=
      gather_inRange ho fun k hk => by have := (mem_freeAxes.1 hk).1; omega
    rw [t2 _ (by rw [List.length_append, hol, hil, hj4n]; omega), (hg _ _ hol).1, (hg _ _ hol).2]
    have e1 : gather (freeAxes n [p.outSpec.getD 1 0]) o ++ (gather (fAxes p n) i ++ [i.getD (p.rhsSpec.getD 1 0) 0, o.getD (p.outSpec.getD 1 0) 0, i.getD (p.rhsSpec.getD 0 0) 0]) =
        (gather (freeAxes n [p.outSpec.getD 1 0]) o ++ gather (fAxes p n) i ++ [i.getD (p.rhsSpec.getD 1 0) 0]) ++ [o.getD (p.outSpec.getD 1 0) 0, i.getD (p.rhsSpec.getD 0 0) 0] := by
      simp
    rw [e1, d2 _ _ _ (by rw [hj3n]; simp only [List.length_append, hrk, hfk, List.length_cons, List.length_nil]; omega)]
    congr 1
    have e2 : gather (freeAxes n [p.outSpec.getD 1 0]) o ++ gather (fAxes p n) i ++ [i.getD (p.rhsSpec.getD 1 0) 0] ++ [o.getD (p.outSpec.getD 1 0) 0] =
        gather (freeAxes n [p.outSpec.getD 1 0]) o ++ gather (fAxes p n) i ++ [i.getD (p.rhsSpec.getD 1 0) 0, o.getD (p.outSpec.getD 1 0) 0] := by
      simp
    rw [e2, s2 _ _ _ _ (hrk _) ((hfk _).trans (hfk _).symm), r1 _ ([o.getD (p.outSpec.getD 1 0) 0, i.getD (p.rhsSpec.getD 1 0) 0] ++ gather (fAxes p n) i) hu (inRange_cons.2 ⟨hof, inRange_cons.2 ⟨hi1, hq⟩⟩), m2 _ _ hol]
    have e3 := P2 (o.set (p.outSpec.getD 1 0) (ravel ([p.featureGroups, inp.getD (p.rhsSpec.getD 1 0) 0] ++ gather (fAxes p n) inp)
      ([o.getD (p.outSpec.getD 1 0) 0, i.getD (p.rhsSpec.getD 1 0) 0] ++ gather (fAxes p n) i)))
      (o.getD (p.outSpec.getD 1 0) 0 * inp.getD (p.rhsSpec.getD 1 0) 0 + i.getD (p.rhsSpec.getD 1 0) 0) i hq (by
        rw [getD_set_self (by rw [hol]; exact ho1)]
        simp only [List.cons_append, List.nil_append, ravel, List.prod_cons]
        ring)
    rw [e3, getD_set_ne h.O.ne]
    congr 1
    exact Emp.gather_set_off h.O.one_notMem

/-- One feature in each group of the batch. -/
lemma convBlocks_batch [Zero α] {p : ConvParams} (lhs : Arr α) {inp : List ℕ} {n : ℕ} (h : ConvOk p lhs.shape inp n) (hb : 1 < p.batchGroups) :
    ∃ j, convBlocks p inp lhs n = .ok j ∧
      j.shape = (convOut p lhs.shape inp).set (p.outSpec.getD 1 0) p.batchGroups ++ inp.set (p.rhsSpec.getD 0 0) p.batchGroups ∧
      ∀ o i, InRange o ((convOut p lhs.shape inp).set (p.outSpec.getD 1 0) p.batchGroups) → InRange i (inp.set (p.rhsSpec.getD 0 0) p.batchGroups) →
        j.get (o ++ i) = if o.getD (p.outSpec.getD 1 0) 0 = i.getD (p.rhsSpec.getD 0 0) 0 then
          p.read lhs (o.getD (p.outSpec.getD 1 0) 0 * (lhs.shape.getD (p.lhsSpec.getD 0 0) 0 / p.batchGroups) + o.getD (p.outSpec.getD 0 0) 0)
            (i.getD (p.rhsSpec.getD 1 0) 0) (spatial p.outSpec o) (spatial p.rhsSpec i) else 0 := by
  have hn2 := h.R.two
  have hf1 : p.featureGroups = 1 := by
    have := h.groups.2
    omega
  have hch : lhs.shape.getD (p.lhsSpec.getD 1 0) 0 = inp.getD (p.rhsSpec.getD 1 0) 0 := by rw [h.channels, hf1, Nat.one_mul]
  have hbd := Nat.mul_div_cancel' h.ndvd
  obtain ⟨P1, P2⟩ := h.patches
  have ef : ((List.range n).filter fun i => i ∈ p.rhsSpec.drop 2).map (fun i => inp.getD i 0) = gather (fAxes p n) inp := by rw [h.filter.1]; rfl
  have hfl := h.fAxes_length
  have hfn : (fAxes p n).Nodup := (freeAxes_sorted _ _).imp fun h => ne_of_lt h
  have hSo : (convOut p lhs.shape inp).set (p.outSpec.getD 1 0) p.batchGroups =
      p.outShape (lhs.shape.getD (p.lhsSpec.getD 0 0) 0 / p.batchGroups) p.batchGroups lhs.shape (spatial p.rhsSpec inp) := by
    unfold convOut
    rw [h.outShape_set_one]
  obtain ⟨O1, O2, O3, O4⟩ := h.outShape (lhs.shape.getD (p.lhsSpec.getD 0 0) 0 / p.batchGroups) p.batchGroups (spatial p.rhsSpec inp)
  have hPs : (p.patches lhs (gather (fAxes p n) inp)).shape =
      ((p.outShape (lhs.shape.getD (p.lhsSpec.getD 0 0) 0 / p.batchGroups) p.batchGroups lhs.shape (spatial p.rhsSpec inp)).set (p.outSpec.getD 1 0)
        (lhs.shape.getD (p.lhsSpec.getD 1 0) 0 * (gather (fAxes p n) inp).prod)).set (p.outSpec.getD 0 0) (lhs.shape.getD (p.lhsSpec.getD 0 0) 0) := by
    rw [P1, h.outShape_set_one, h.outShape_set_zero]
  rw [hSo]
  generalize hSe : p.outShape (lhs.shape.getD (p.lhsSpec.getD 0 0) 0 / p.batchGroups) p.batchGroups lhs.shape (spatial p.rhsSpec inp) = So at *
  generalize hNg : lhs.shape.getD (p.lhsSpec.getD 0 0) 0 / p.batchGroups = Ng at *
  have hr0 := h.R.zero
  have hr1 := h.R.one
  have ho1 := h.O.one
  have ho0 := h.O.zero
  have hne := h.R.ne
  have hoe := h.O.ne
  have hPn : (p.patches lhs (gather (fAxes p n) inp)).ndim = n := by
    show List.length _ = n
    rw [hPs, List.length_set, List.length_set, O1]
  have hPr : gather (freeAxes n [p.outSpec.getD 0 0, p.outSpec.getD 1 0]) (p.patches lhs (gather (fAxes p n) inp)).shape =
      gather (freeAxes n [p.outSpec.getD 0 0, p.outSpec.getD 1 0]) So := by
    rw [hPs, Emp.gather_set_off, Emp.gather_set_off]
    · rw [mem_freeAxes]
      simp
    · rw [mem_freeAxes]
      simp
  obtain ⟨m1, m2⟩ := moveaxis_last2 _ hPn ho0 ho1 hoe
  have hrl : (freeAxes n [p.outSpec.getD 0 0, p.outSpec.getD 1 0]).length = n - 2 := by
    have := freeAxes_length (n := n) (D := [p.outSpec.getD 0 0, p.outSpec.getD 1 0]) (by simpa using hoe) (by
      intro k hk
      simp only [List.mem_cons, List.not_mem_nil, or_false] at hk
      omega)
    simp only [List.length_cons, List.length_nil] at this
    omega
  rw [hPr, hPs, getD_set_ne hoe.symm, getD_set_self (by rw [O1]; exact ho1), getD_set_self (by rw [List.length_set, O1]; exact ho0)] at m1
  have hrk : ∀ k, (gather (freeAxes n [p.outSpec.getD 0 0, p.outSpec.getD 1 0]) k).length = n - 2 := fun k => (List.length_map ..).trans hrl
  have hfk : ∀ k, (gather (fAxes p n) k).length = (fAxes p n).length := fun k => List.length_map ..
  have hr1l := hrk So
  unfold convBlocks
  dsimp only
  rw [if_pos hb, ef, h.filter.2.1]
  rw [show freeAxes n [p.rhsSpec.getD 0 0, p.rhsSpec.getD 1 0] = fAxes p n from rfl]
  generalize hj1 : (p.patches lhs (gather (fAxes p n) inp)).moveaxis [p.outSpec.getD 0 0, p.outSpec.getD 1 0] [n - 1, n - 2] = j1 at *
  rw [m1, List.take_left' hr1l, hNg]
  have hprod : (lhs.shape.getD (p.lhsSpec.getD 1 0) 0 :: gather (fAxes p n) inp).prod =
      lhs.shape.getD (p.lhsSpec.getD 1 0) 0 * (gather (fAxes p n) inp).prod := List.prod_cons ..
  have hprod2 : [p.batchGroups, Ng].prod = lhs.shape.getD (p.lhsSpec.getD 0 0) 0 := by
    rw [← hbd]
    simp
  unfold Arr.reshapeE
  rw [if_pos (by
    rw [m1, List.prod_append (l₁ := _ ++ _), hprod2, List.prod_append, hprod, List.prod_append]
    simp [Nat.mul_assoc])]
  show ∃ j, Except.ok (Arr.moveaxis _ _ _) = _ ∧ _
  have r1 := fun (u t v : List ℕ) hu ht hv => reshape_split2 j1 (u := u) (t := t) (v := v) m1 hprod hprod2 hu ht hv
  have r2 : (j1.reshape (gather (freeAxes n [p.outSpec.getD 0 0, p.outSpec.getD 1 0]) So ++ (lhs.shape.getD (p.lhsSpec.getD 1 0) 0 :: gather (fAxes p n) inp) ++
      [p.batchGroups, Ng])).shape = gather (freeAxes n [p.outSpec.getD 0 0, p.outSpec.getD 1 0]) So ++ (lhs.shape.getD (p.lhsSpec.getD 1 0) 0 :: gather (fAxes p n) inp) ++
      [p.batchGroups, Ng] := rfl
  generalize j1.reshape _ = j2 at *
  have hj2n : j2.ndim = 2 * n - 1 := by
    show j2.shape.length = _
    rw [r2]
    simp only [List.length_append, hrk, hfk, List.length_cons, List.length_nil]
    omega
  obtain ⟨s1, s2⟩ := moveaxis_swap j2 rfl r2
  generalize j2.moveaxis _ _ = j3 at *
  have hj3n : j3.ndim = 2 * n - 1 := by
    show j3.shape.length = _
    rw [s1]
    simp only [List.length_append, hrk, hfk, List.length_cons, List.length_nil]
    omega
  have d1 : (diagLast j3).shape = gather (freeAxes n [p.outSpec.getD 0 0, p.outSpec.getD 1 0]) So ++ (lhs.shape.getD (p.lhsSpec.getD 1 0) 0 :: gather (fAxes p n) inp) ++
      [Ng, p.batchGroups, p.batchGroups] := by
    show j3.shape ++ [j3.shape.getLastD 0] = _
    rw [s1]
    generalize gather _ So ++ (_ :: _) = u
    simp
  have d2 : ∀ u x y, u.length + 1 = j3.ndim → (diagLast j3).get (u ++ [x, y]) = if x = y then j3.get (u ++ [x]) else 0 := fun u x y hu => diagLast_get j3 hu
  generalize diagLast j3 = j4 at *
  have hj4n : j4.ndim = 2 * n := by
    show j4.shape.length = _
    rw [d1]
    simp only [List.length_append, hrk, hfk, List.length_cons, List.length_nil]
    omega
  have hD : ((n + p.rhsSpec.getD 1 0) :: (fAxes p n).map (n + ·) ++ [p.outSpec.getD 0 0, p.outSpec.getD 1 0, n + p.rhsSpec.getD 0 0]).Nodup := by
    rw [List.cons_append, List.nodup_cons, List.nodup_append]
    refine ⟨fun hm => ?_, hfn.map fun a b h => by simpa using h, by
      simp only [List.nodup_cons, List.mem_cons, List.not_mem_nil, or_false, not_or, not_false_iff, List.nodup_nil, and_true]
      omega, fun a ha b hb => ?_⟩
    · rcases List.mem_append.1 hm with hm | hm
      · obtain ⟨c, hc, e⟩ := List.mem_map.1 hm
        have := fAxes_mem.1 hc
        omega
      · simp only [List.mem_cons, List.not_mem_nil, or_false] at hm
        omega
    · obtain ⟨c, hc, rfl⟩ := List.mem_map.1 ha
      have := fAxes_mem.1 hc
      simp only [List.mem_cons, List.not_mem_nil, or_false] at hb
      omega
  have hDl : ∀ k ∈ ((n + p.rhsSpec.getD 1 0) :: (fAxes p n).map (n + ·) ++ [p.outSpec.getD 0 0, p.outSpec.getD 1 0, n + p.rhsSpec.getD 0 0]), k < j4.ndim := by
    intro k hk
    rw [hj4n]
    rw [List.cons_append, List.mem_cons] at hk
    rcases hk with rfl | hk
    · omega
    rcases List.mem_append.1 hk with hk | hk
    · obtain ⟨c, hc, rfl⟩ := List.mem_map.1 hk
      have := fAxes_mem.1 hc
      omega
    · simp only [List.mem_cons, List.not_mem_nil, or_false] at hk
      omega
  obtain ⟨t1, t2⟩ := moveaxis_tail j4 (m := n - 2)
    (dst := (n + p.rhsSpec.getD 1 0) :: (fAxes p n).map (n + ·) ++ [p.outSpec.getD 0 0, p.outSpec.getD 1 0, n + p.rhsSpec.getD 0 0])
    (by omega) (by simp; omega) hD hDl
  have hfree : freeAxes j4.ndim ((n + p.rhsSpec.getD 1 0) :: (fAxes p n).map (n + ·) ++ [p.outSpec.getD 0 0, p.outSpec.getD 1 0, n + p.rhsSpec.getD 0 0]) =
      freeAxes n [p.outSpec.getD 0 0, p.outSpec.getD 1 0] := by
    refine freeAxes_of (freeAxes_sorted _ _) fun x => ?_
    rw [mem_freeAxes, hj4n]
    simp only [List.cons_append, List.mem_append, List.mem_map, fAxes_mem, List.mem_cons, List.not_mem_nil, or_false, not_or, not_exists, not_and]
    constructor
    · rintro ⟨h1, h2⟩
      exact ⟨by omega, by omega, fun y _ => by omega, h2.1, h2.2, by omega⟩
    · rintro ⟨h1, h3, h2, h4, h5, h6⟩
      refine ⟨?_, h4, h5⟩
      by_contra hx
      have := h2 (x - n)
      omega
  have hg : ∀ o i : List ℕ, o.length = n → gather (freeAxes n [p.outSpec.getD 0 0, p.outSpec.getD 1 0]) (o ++ i) = gather (freeAxes n [p.outSpec.getD 0 0, p.outSpec.getD 1 0]) o ∧
      gather ((n + p.rhsSpec.getD 1 0) :: (fAxes p n).map (n + ·) ++ [p.outSpec.getD 0 0, p.outSpec.getD 1 0, n + p.rhsSpec.getD 0 0]) (o ++ i) =
        (i.getD (p.rhsSpec.getD 1 0) 0 :: gather (fAxes p n) i) ++ [o.getD (p.outSpec.getD 0 0) 0, o.getD (p.outSpec.getD 1 0) 0, i.getD (p.rhsSpec.getD 0 0) 0] :=
    fun o i ho => by
    refine ⟨gather_left _ _ _ fun k hk => by have := (mem_freeAxes.1 hk).1; omega, ?_⟩
    rw [gather_append]
    have e1 : gather ((n + p.rhsSpec.getD 1 0) :: (fAxes p n).map (n + ·)) (o ++ i) = i.getD (p.rhsSpec.getD 1 0) 0 :: gather (fAxes p n) i := by
      rw [← gather_shiftL (fAxes p n) o i ho]
      show (o ++ i).getD _ 0 :: _ = _
      rw [List.getD_append_right _ _ _ _ (by omega), ho, Nat.add_sub_cancel_left]
      rfl
    rw [e1]
    congr 1
    show [(o ++ i).getD _ 0, (o ++ i).getD _ 0, (o ++ i).getD _ 0] = _
    rw [List.getD_append _ _ _ _ (by omega), List.getD_append _ _ _ _ (by omega), List.getD_append_right _ _ _ _ (by omega), ho, Nat.add_sub_cancel_left]
  rw [hfree] at t1 t2
  refine ⟨_, rfl, t1 _ (by rw [List.length_append, List.length_set, O1, h.lenI, hj4n]; omega) ?_, fun o i ho hi => ?_⟩
  · rw [(hg _ _ O1).1, (hg _ _ O1).2, d1, List.append_assoc, Emp.gather_set_off (by rw [fAxes_mem]; tauto), getD_set_ne hne.symm, O2, O3,
      getD_set_self (by rw [h.lenI]; exact hr0), hch]
  · have hol : o.length = n := ho.length.trans O1
    have hil : i.length = n := hi.length.trans (by simp [h.lenI])
    have hof : o.getD (p.outSpec.getD 1 0) 0 < p.batchGroups := by
      have := (inRange_iff.1 ho).2 _ (by rw [O1]; exact ho1)
      rwa [O3] at this
    have hob : o.getD (p.outSpec.getD 0 0) 0 < Ng := by
      have := (inRange_iff.1 ho).2 _ (by rw [O1]; exact ho0)
      rwa [O2] at this
    have hi1 : i.getD (p.rhsSpec.getD 1 0) 0 < lhs.shape.getD (p.lhsSpec.getD 1 0) 0 := by
      have := (inRange_iff.1 hi).2 (p.rhsSpec.getD 1 0) (by simp [h.lenI]; exact hr1)
      rwa [getD_set_ne hne.symm, ← hch] at this
    have hq : InRange (gather (fAxes p n) i) (gather (fAxes p n) inp) := by
      have := gather_inRange (P := fAxes p n) hi fun k hk => by
        have := fAxes_mem.1 hk
        simp [h.lenI]
        omega
      rwa [Emp.gather_set_off (by rw [fAxes_mem]; tauto)] at this
    have hu : InRange (gather (freeAxes n [p.outSpec.getD 0 0, p.outSpec.getD 1 0]) o) (gather (freeAxes n [p.outSpec.getD 0 0, p.outSpec.getD 1 0]) So) :=
      gather_inRange ho fun k hk => by have := (mem_freeAxes.1 hk).1; omega
    rw [t2 _ (by rw [List.length_append, hol, hil, hj4n]; omega), (hg _ _ hol).1, (hg _ _ hol).2]
    have e1 : gather (freeAxes n [p.outSpec.getD 0 0, p.outSpec.getD 1 0]) o ++ (i.getD (p.rhsSpec.getD 1 0) 0 :: gather (fAxes p n) i ++
          [o.getD (p.outSpec.getD 0 0) 0, o.getD (p.outSpec.getD 1 0) 0, i.getD (p.rhsSpec.getD 0 0) 0]) =
        (gather (freeAxes n [p.outSpec.getD 0 0, p.outSpec.getD 1 0]) o ++ (i.getD (p.rhsSpec.getD 1 0) 0 :: gather (fAxes p n) i) ++ [o.getD (p.outSpec.getD 0 0) 0]) ++
          [o.getD (p.outSpec.getD 1 0) 0, i.getD (p.rhsSpec.getD 0 0) 0] := by
      simp
    rw [e1, d2 _ _ _ (by rw [hj3n]; simp only [List.length_append, hrk, hfk, List.length_cons, List.length_nil]; omega)]
    congr 1
    have e2 : gather (freeAxes n [p.outSpec.getD 0 0, p.outSpec.getD 1 0]) o ++ (i.getD (p.rhsSpec.getD 1 0) 0 :: gather (fAxes p n) i) ++ [o.getD (p.outSpec.getD 0 0) 0] ++
          [o.getD (p.outSpec.getD 1 0) 0] =
        gather (freeAxes n [p.outSpec.getD 0 0, p.outSpec.getD 1 0]) o ++ (i.getD (p.rhsSpec.getD 1 0) 0 :: gather (fAxes p n) i) ++
          [o.getD (p.outSpec.getD 0 0) 0, o.getD (p.outSpec.getD 1 0) 0] := by
      simp
    rw [e2, s2 _ _ _ (by simp only [List.length_append, hrk, hfk, List.length_cons]),
      r1 _ _ [o.getD (p.outSpec.getD 1 0) 0, o.getD (p.outSpec.getD 0 0) 0] hu (inRange_cons.2 ⟨hi1, hq⟩) (inRange_cons.2 ⟨hof, inRange_cons.2 ⟨hob, List.Forall₂.nil⟩⟩),
      m2 _ _ _ hol]
    have hrv : ravel [p.batchGroups, Ng] [o.getD (p.outSpec.getD 1 0) 0, o.getD (p.outSpec.getD 0 0) 0] = o.getD (p.outSpec.getD 1 0) 0 * Ng + o.getD (p.outSpec.getD 0 0) 0 := by
      simp only [ravel, List.prod_cons, List.prod_nil]
      ring
    rw [hrv]
    rw [P2 _ (i.getD (p.rhsSpec.getD 1 0) 0) i hq (by
        rw [getD_set_ne hoe.symm, getD_set_self (by rw [hol]; exact ho1)]
        rfl), getD_set_self (by rw [List.length_set, hol]; exact ho0)]
    congr 1
    exact (Emp.gather_set_off h.O.zero_notMem).trans (Emp.gather_set_off h.O.one_notMem)

end NT.Rules
