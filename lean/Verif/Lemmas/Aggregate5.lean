import Verif.Lemmas.Aggregate4

/-!
# The kernels of the dense and sparse implementations
-/

namespace NT.Aggregate
open NT Spec NT.Emp NT.KernelDot
open NT.Arr
open scoped BigOperators

variable {n : ℕ} {agg : List ℕ} {ba ca : ℕ}

lemma holds_congr {a : Arr ℝ} {B S T : List ℕ} {ds rev : Bool} {F G : List ℕ → List ℕ → List ℕ → ℝ} (h : Holds a B S T ds rev F)
    (e : ∀ b p q, InRange b B → InRange p S → InRange q T → F b p q = G b p q) : Holds a B S T ds rev G :=
  ⟨h.rank, h.square, h.shape, fun b p q hb hp hq hpq => by rw [h.get b p q hb hp hq hpq, e b p q hb hp hq]⟩

lemma covar_aggC (h : Axes n agg ba ca) {s1 s2 P Q : List ℕ} (hP : P.length = (spatialAxes n ba ca).length) (hQ : Q.length = (spatialAxes n ba ca).length)
    (p1 p2 : Arr ℝ) (F : List ℕ → List ℕ → List ℕ → ℝ) (b : List ℕ) :
    (aggC n agg ba ca).covar s1 s2 p1.get p2.get F b (gather (order (spatialAxes n ba ca).length (axPos ba ca agg)) P)
        (gather (order (spatialAxes n ba ca).length (axPos ba ca agg)) Q) =
      aggregateCov (gather agg s1) (gather agg s2) (axPos ba ca agg) (denseWeight p1) (denseWeight p2) F b P Q := by
  unfold Contraction.covar aggregateCov
  refine Finset.sum_congr rfl fun c hc => Finset.sum_congr rfl fun c' hc' => ?_
  have hc : c.length = agg.length := by simpa [aggC] using (mem_box.1 hc).length
  have hc' : c'.length = agg.length := by simpa [aggC] using (mem_box.1 hc').length
  rw [otherIdx_aggC h hc, otherIdx_aggC h hc', inPos_aggC h hP hc, inPos_aggC h hQ hc']
  rfl

lemma ofArgs_aggC (h : Axes n agg ba ca) (k : Kernel ℝ) (hn : k.shape1.length = n) (hba : k.batchAxis = ba) (hca : k.channelAxis = ca) {no : ℕ}
    (hno : no = 1 + agg.length + agg.length) :
    C28.ofArgs k no false (agg.map fun (a : ℕ) => (a : ℤ)) ((List.range' 1 agg.length).map fun (a : ℕ) => (a : ℤ)) [(ba : ℤ)] [0] = aggC n agg ba ca := by
  subst hn hba hca
  have key : ∀ (l : List ℕ) (m : ℕ), (∀ a ∈ l, a < m) → (l.map fun (a : ℕ) => (a : ℤ)).map (fun a => (a % (m : ℤ)).toNat) = l := by
    intro l m hl
    rw [List.map_map]
    refine (List.map_congr_left fun a ha => ?_).trans (List.map_id l)
    have := hl a ha
    simp only [Function.comp, id]
    rw [← Int.natCast_mod, Int.toNat_natCast, Nat.mod_eq_of_lt this]
  have e1 := key agg k.shape1.length h.lt
  have e2 := key (List.range' 1 agg.length) no (fun a ha => by rw [List.mem_range'_1] at ha; omega)
  have e3 := key [k.batchAxis] k.shape1.length (by simpa using h.hba)
  have e4 := key [0] no (by simp; omega)
  unfold C28.ofArgs aggC
  rw [e1, e2, ← hno]
  congr 1

/-- The dense implementation of the kernel. -/
lemma kernelDense_ok (l : Layer) (k : Kernel ℝ) (L : Logical ℝ) (hk : k.Stores L) (hs : C28.Shapes k L) (p1 p2 : Arr ℝ)
    (hl : l.aggAxes k.shape1.length = .ok (agg, ba, ca)) (h : Axes k.shape1.length agg ba ca) (hba : k.batchAxis = ba) (hca : k.channelAxis = ca)
    (hp1 : p1.shape = [k.shape1.getD ba 0] ++ gather agg k.shape1 ++ gather agg k.shape1)
    (hp2 : p2.shape = [k.shape2.getD ba 0] ++ gather agg k.shape2 ++ gather agg k.shape2)
    (hds : k.diagonalSpatial = false) (hsc : ∀ a, k.ntk = some a → a.shape = [] → a.get [] = 0) :
    ∃ k', l.kernelDense k p1 p2 = .ok k' ∧
      k'.Stores (aggregateLogical (gather agg k.shape1) (gather agg k.shape2) (axPos ba ca agg) (denseWeight p1) (denseWeight p2) L) ∧
      k'.static = { k with isReversed := false }.static ∧ (k'.mask1, k'.mask2, k'.x1IsX2) = (k.mask1, k.mask2, k.x1IsX2) ∧
      ∀ a, k'.ntk = some a → a.shape = [] → k.ntk = some a := by
  have hn1 : p1.ndim = 1 + agg.length + agg.length := by unfold ndim; rw [hp1]; simp; omega
  have hn2 : p2.ndim = 1 + agg.length + agg.length := by unfold ndim; rw [hp2]; simp; omega
  have hC := ofArgs_aggC h k rfl hba hca hn1
  obtain ⟨k1, g1, g2, g3, -, -, g4, g5, g6⟩ := C28.covariance_of_contraction_partial k L hk hs p1 p2 (hn1.trans hn2.symm) false
    (agg.map fun (a : ℕ) => (a : ℤ)) ((List.range' 1 agg.length).map fun (a : ℕ) => (a : ℤ)) [(ba : ℤ)] [0]
    (by
      rw [hC]
      exact ⟨aggC_ok h, aggC_match rfl hp1, aggC_match rfl hp2, fun e => by simp [hds] at e, fun e => by simp [hds] at e, fun _ => hds, hsc⟩)
  rw [hC] at g2
  subst hba hca
  set m := (spatialAxes k.shape1.length k.batchAxis k.channelAxis).length with hm
  have hL1 : L.S1.length = m := by rw [hs.S1]; simp [hm]
  have hL2 : L.S2.length = m := by rw [hs.S2]; simp [hm]
  have o1 : (aggC k.shape1.length agg k.batchAxis k.channelAxis).outShape k.shape1 p1.shape = gather (order m (axPos k.batchAxis k.channelAxis agg)) L.S1 := by
    rw [hs.S1]; exact outShape_aggC h rfl hp1
  have o2 : (aggC k.shape1.length agg k.batchAxis k.channelAxis).outShape k.shape2 p2.shape = gather (order m (axPos k.batchAxis k.channelAxis agg)) L.S2 := by
    rw [hs.S2]; exact outShape_aggC h rfl hp2
  have hds1 : k1.diagonalSpatial = false := by
    have := congrArg (fun s => s.diagonalSpatial) g4
    exact this.trans hds
  have hdb1 : k1.diagonalBatch = k.diagonalBatch := congrArg (fun s => s.diagonalBatch) g4
  obtain ⟨q1, q2, q3, q4⟩ := g2
  simp only [Contraction.logical, o1, o2, hds1, g3] at q1 q2 q3 q4
  have hBs : ∀ (db : Bool) i, (batchShape db i).length = if db then 1 else 2 := by intro db i; cases db <;> rfl
  have full : ∀ {a : Arr ℝ} {F : List ℕ → List ℕ → List ℕ → ℝ}, Holds a [L.n1, L.n2] (gather (order m (axPos k.batchAxis k.channelAxis agg)) L.S1)
      (gather (order m (axPos k.batchAxis k.channelAxis agg)) L.S2) false false
        ((aggC k.shape1.length agg k.batchAxis k.channelAxis).covar k.shape1 k.shape2 p1.get p2.get F) →
      ∃ z, restore agg k.batchAxis k.channelAxis a false = .ok z ∧ Holds z [L.n1, L.n2] L.S1 L.S2 false false
        (aggregateCov (gather agg k.shape1) (gather agg k.shape2) (axPos k.batchAxis k.channelAxis agg) (denseWeight p1) (denseWeight p2) F) := by
    intro a F ha
    obtain ⟨z, z1, z2⟩ := restore_holds h hm hL1 hL2 (db := false) rfl ha
    exact ⟨z, z1, holds_congr z2 fun b p q _ hp hq => covar_aggC h (hp.length.trans hL1) (hq.length.trans hL2) _ _ _ _⟩
  obtain ⟨zn, zn1, zn2⟩ := full q1
  obtain ⟨z1, z11, z12⟩ := restore_holds h hm hL1 hL1 (hBs k1.diagonalBatch L.n1) q2
  have hcov2 : ∃ c2, opt (restore agg k.batchAxis k.channelAxis · k1.diagonalBatch) k1.cov2 = .ok c2 ∧
      OptRel (fun c F => Holds c (batchShape k1.diagonalBatch L.n2) L.S2 L.S2 false false (fun b => F (dbl b))) c2
        (L.k22.map (aggregateCov (gather agg k.shape2) (gather agg k.shape2) (axPos k.batchAxis k.channelAxis agg) (denseWeight p2) (denseWeight p2))) := by
    cases hc : k1.cov2 with
    | none =>
      cases hL : L.k22 with
      | none => exact ⟨none, rfl, trivial⟩
      | some F => rw [hc, hL] at q3; exact q3.elim
    | some c =>
      cases hL : L.k22 with
      | none => rw [hc, hL] at q3; exact q3.elim
      | some F =>
        rw [hc, hL] at q3
        obtain ⟨z, z1, z2⟩ := restore_holds h hm hL2 hL2 (hBs k1.diagonalBatch L.n2) q3
        refine ⟨some z, by simp [opt, z1, Except.map], ?_⟩
        exact holds_congr z2 fun b p q _ hp hq => covar_aggC h (hp.length.trans hL2) (hq.length.trans hL2) _ _ _ _
  obtain ⟨c2, c21, c22⟩ := hcov2
  have hntk : ∃ t, opt (restore agg k.batchAxis k.channelAxis · false) k1.ntk = .ok t ∧
      OptRel (fun a F => (a.shape = [] ∧ ∀ b p q, F b p q = a.get []) ∨ Holds a [L.n1, L.n2] L.S1 L.S2 false false F) t
        (L.ntk.map (aggregateCov (gather agg k.shape1) (gather agg k.shape2) (axPos k.batchAxis k.channelAxis agg) (denseWeight p1) (denseWeight p2))) ∧
      ∀ a, t = some a → a.shape = [] → k.ntk = some a := by
    cases hc : k1.ntk with
    | none =>
      cases hL : L.ntk with
      | none => exact ⟨none, rfl, trivial, fun a e => by simp at e⟩
      | some F => rw [hc, hL] at q4; exact q4.elim
    | some a =>
      cases hL : L.ntk with
      | none => rw [hc, hL] at q4; exact q4.elim
      | some F =>
        rw [hc, hL] at q4
        rcases q4 with ⟨e1, e2⟩ | q4
        · have ek := g6 a hc e1
          have hz := hsc a ek e1
          have hF : ∀ b p q, F b p q = a.get [] := by
            have := hk.ntk
            rw [ek, hL] at this
            rcases this with ⟨-, t⟩ | t
            · exact t
            · exact absurd e1 (by rw [t.shape]; simp)
          refine ⟨some a, by simp [opt, restore, ndim, e1, Except.map], .inl ⟨e1, ?_⟩, fun a' e _ => by rw [← e]; exact ek⟩
          intro b p q
          rw [hz]
          unfold aggregateCov
          refine Finset.sum_eq_zero fun c _ => Finset.sum_eq_zero fun c' _ => ?_
          rw [hF, hz]
          ring
        · obtain ⟨z, z1, z2⟩ := full q4
          refine ⟨some z, by simp [opt, z1, Except.map], .inr z2, fun a' e e' => ?_⟩
          obtain rfl : z = a' := by simpa using e
          exact absurd e' (by rw [z2.shape]; simp)
  obtain ⟨t, t1, t2, t3⟩ := hntk
  refine ⟨{ k1 with cov1 := z1, cov2 := c2, nngp := zn, ntk := t, batchAxis := k.batchAxis, channelAxis := k.channelAxis }, ?_, ⟨?_, ?_, ?_, ?_⟩, ?_, g5, t3⟩
  · unfold Layer.kernelDense
    simp only [hl, bind, Except.bind, g1, z11, c21, zn1, t1]
    rfl
  · simp only [aggregateLogical, hds1, g3]
    exact zn2
  · simp only [aggregateLogical, hds1, g3]
    exact holds_congr z12 fun b p q _ hp hq => covar_aggC h (hp.length.trans hL1) (hq.length.trans hL1) _ _ _ _
  · simp only [aggregateLogical, hds1, g3]
    exact c22
  · simp only [aggregateLogical, hds1, g3]
    exact t2
  · have : k1.static = _ := g4
    unfold Kernel.static at this ⊢
    simp_all

/-- The sparse implementation of the kernel. -/
lemma kernelSparse_ok (l : Layer) (k : Kernel ℝ) (L : Logical ℝ) (hk : k.Stores L) (hs : C28.Shapes k L) (p1 p2 : Arr ℤ)
    (hl : l.aggAxes k.shape1.length = .ok (agg, ba, ca)) (h : Axes k.shape1.length agg ba ca) (hba : k.batchAxis = ba) (hca : k.channelAxis = ca)
    {G : List ℕ} (hG1 : gather agg k.shape1 = G) (hG2 : gather agg k.shape2 = G)
    (hp1 : IsEdgeList p1 (k.shape1.getD ba 0) agg.length) (hp2 : IsEdgeList p2 (k.shape2.getD ba 0) agg.length) (hs1 : Senders G p1) (hs2 : Senders G p2)
    (hds : k.diagonalSpatial = false) (hrev : k.isReversed = false) (hsc : ∀ a, k.ntk = some a → a.shape = [] → a.get [] = 0) :
    ∃ k', l.kernelSparse k p1 p2 = .ok k' ∧
      k'.Stores (aggregateLogical G G (axPos ba ca agg) (edgeWeight G p1) (edgeWeight G p2) L) ∧
      k'.static = k.static ∧ (k'.mask1, k'.mask2, k'.x1IsX2) = (k.mask1, k.mask2, k.x1IsX2) ∧
      ∀ a, k'.ntk = some a → a.shape = [] → k.ntk = some a := by
  subst hba hca
  have hGl : G.length = agg.length := by rw [← hG1]; simp
  obtain ⟨s1, r1, hsr1, hi1⟩ := senders_ok hp1
  obtain ⟨s2, r2, hsr2, hi2⟩ := senders_ok hp2
  rw [← hGl] at hp1 hp2
  have e1 := fun b => hi1 G hGl b
  have e2 := fun b => hi2 G hGl b
  have hL1 : L.S1.length = (spatialAxes k.shape1.length k.batchAxis k.channelAxis).length := by rw [hs.S1]; simp
  have hL2 : L.S2.length = (spatialAxes k.shape1.length k.batchAxis k.channelAxis).length := by rw [hs.S2]; simp
  have g1 : gather (axPos k.batchAxis k.channelAxis agg) L.S1 = G := by rw [hs.S1, gather_axPos h, ← hG1]; rfl
  have g2 : gather (axPos k.batchAxis k.channelAxis agg) L.S2 = G := by rw [hs.S2, gather_axPos h, ← hG2]; rfl
  obtain ⟨q1, q2, q3, q4⟩ := hk
  rw [hds, hrev] at q1 q2
  simp only [hds, hrev] at q3 q4
  have hBs : ∀ (db : Bool) i, (batchShape db i).length = if db then 1 else 2 := by intro db i; cases db <;> rfl
  have hG1' : agg.map (k.shape1.getD · 0) = G := hG1
  have full : ∀ {a : Arr ℝ} {F : List ℕ → List ℕ → List ℕ → ℝ}, Holds a [L.n1, L.n2] L.S1 L.S2 false false F →
      ∃ z, aggArray agg k.batchAxis k.channelAxis G.prod a false (makeIndices s1 G) (makeIndices r1 G) (makeIndices s2 G) (makeIndices r2 G) = .ok z ∧
        Holds z [L.n1, L.n2] L.S1 L.S2 false false (aggregateCov G G (axPos k.batchAxis k.channelAxis agg) (edgeWeight G p1) (edgeWeight G p2) F) := by
    intro a F ha
    obtain ⟨z, z1, z2⟩ := aggArray_holds h hL1 hL2 (db := false) rfl g1 g2 (F := F) (C28.Holds.weaken ha fun b hb => by rw [C28.dbl_two b hb])
      hs1 hs2 hp1 hp2 (fun b => (e1 b).1) (fun b => (e1 b).2) (fun b => (e2 b).1) (fun b => (e2 b).2)
    exact ⟨z, z1, C28.Holds.weaken z2 fun b hb => by rw [C28.dbl_two b hb]⟩
  obtain ⟨zn, zn1, zn2⟩ := full q1
  obtain ⟨z1, z11, z12⟩ := aggArray_holds h hL1 hL1 (hBs k.diagonalBatch L.n1) g1 g1 q2
      hs1 hs1 hp1 hp1 (fun b => (e1 b).1) (fun b => (e1 b).2) (fun b => (e1 b).1) (fun b => (e1 b).2)
  have hcov2 : ∃ c2, opt (aggArray agg k.batchAxis k.channelAxis G.prod · k.diagonalBatch (makeIndices s2 G) (makeIndices r2 G) (makeIndices s2 G)
      (makeIndices r2 G)) k.cov2 = .ok c2 ∧
      OptRel (fun c F => Holds c (batchShape k.diagonalBatch L.n2) L.S2 L.S2 false false (fun b => F (dbl b))) c2
        (L.k22.map (aggregateCov G G (axPos k.batchAxis k.channelAxis agg) (edgeWeight G p2) (edgeWeight G p2))) := by
    cases hc : k.cov2 with
    | none =>
      cases hL : L.k22 with
      | none => exact ⟨none, rfl, trivial⟩
      | some F => rw [hc, hL] at q3; exact q3.elim
    | some c =>
      cases hL : L.k22 with
      | none => rw [hc, hL] at q3; exact q3.elim
      | some F =>
        rw [hc, hL] at q3
        obtain ⟨z, z1, z2⟩ := aggArray_holds h hL2 hL2 (hBs k.diagonalBatch L.n2) g2 g2 q3
          hs2 hs2 hp2 hp2 (fun b => (e2 b).1) (fun b => (e2 b).2) (fun b => (e2 b).1) (fun b => (e2 b).2)
        exact ⟨some z, by simp [opt, z1, Except.map], z2⟩
  obtain ⟨c2, c21, c22⟩ := hcov2
  have hntk : ∃ t, opt (aggArray agg k.batchAxis k.channelAxis G.prod · false (makeIndices s1 G) (makeIndices r1 G) (makeIndices s2 G) (makeIndices r2 G)) k.ntk = .ok t ∧
      OptRel (fun a F => (a.shape = [] ∧ ∀ b p q, F b p q = a.get []) ∨ Holds a [L.n1, L.n2] L.S1 L.S2 false false F) t
        (L.ntk.map (aggregateCov G G (axPos k.batchAxis k.channelAxis agg) (edgeWeight G p1) (edgeWeight G p2))) ∧
      ∀ a, t = some a → a.shape = [] → k.ntk = some a := by
    cases hc : k.ntk with
    | none =>
      cases hL : L.ntk with
      | none => exact ⟨none, rfl, trivial, fun a e => by simp at e⟩
      | some F => rw [hc, hL] at q4; exact q4.elim
    | some a =>
      cases hL : L.ntk with
      | none => rw [hc, hL] at q4; exact q4.elim
      | some F =>
        rw [hc, hL] at q4
        rcases q4 with ⟨e1, hF⟩ | q4
        · have hz := hsc a hc e1
          refine ⟨some a, by simp [opt, aggArray, ndim, e1, Except.map], .inl ⟨e1, ?_⟩, fun a' e _ => e⟩
          intro b p q
          rw [hz]
          unfold aggregateCov
          refine Finset.sum_eq_zero fun c _ => Finset.sum_eq_zero fun c' _ => ?_
          rw [hF, hz]
          ring
        · obtain ⟨z, z1, z2⟩ := full q4
          refine ⟨some z, by simp [opt, z1, Except.map], .inr z2, fun a' e e' => ?_⟩
          obtain rfl : z = a' := by simpa using e
          exact absurd e' (by rw [z2.shape]; simp)
  obtain ⟨t, t1, t2, t3⟩ := hntk
  refine ⟨{ k with nngp := zn, ntk := t, cov1 := z1, cov2 := c2 }, ?_, ⟨?_, ?_, ?_, ?_⟩, rfl, rfl, t3⟩
  · unfold Layer.kernelSparse
    simp only [hl, bind, Except.bind, hsr1, hsr2, hG1', zn1, t1, z11, c21]
    rfl
  · simp only [aggregateLogical, hds, hrev]
    exact zn2
  · simp only [aggregateLogical, hds, hrev]
    exact z12
  · simp only [aggregateLogical, hds, hrev]
    exact c22
  · simp only [aggregateLogical, hds, hrev]
    exact t2

end NT.Aggregate
