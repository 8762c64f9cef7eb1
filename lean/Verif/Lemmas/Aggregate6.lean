import Verif.Lemmas.Aggregate5
import Verif.Props.C57
import Verif.Lemmas.Channels

/-!
# Aggregation of one channel, and of random activations
-/

namespace NT.Aggregate
open NT Spec NT.Emp NT.KernelDot MeasureTheory
open NT.Arr
open scoped BigOperators

variable {n : ℕ} {agg : List ℕ} {ba ca : ℕ}

lemma getD_act (h : Axes n agg ba ca) {P : List ℕ} (hP : P.length + 2 = n) (i ch : ℕ) {a : ℕ} (ha : a ∈ spatialAxes n ba ca) :
    (actIdx ba ca i ch P).getD a 0 = P.getD (spIdx ba ca a) 0 := by
  subst hP
  obtain ⟨h1, h2⟩ := spIdx_getD h.ne ha
  have g := (gather_act ba ca i ch P h.ne h.hba h.hca).1
  rw [← C57.spatialAxes_eq] at g
  conv_rhs => rw [← g]
  rw [gather_getD _ _ _ h1]
  rw [List.getD_eq_getElem _ _ h1] at h2
  rw [h2]

lemma putAt_act (h : Axes n agg ba ca) {P : List ℕ} (hP : P.length + 2 = n) (i ch : ℕ) (c : List ℕ) :
    putAt agg c (actIdx ba ca i ch P) = actIdx ba ca i ch (putAt (axPos ba ca agg) c P) := by
  have hb : ba < P.length + 2 := by rw [hP]; exact h.hba
  have hc : ca < P.length + 2 := by rw [hP]; exact h.hca
  have hQ : (putAt (axPos ba ca agg) c P).length = P.length := putAt_length _ _ _
  have hlen := actIdx_length ba ca i ch P h.ne hb hc
  have hlen' := actIdx_length ba ca i ch (putAt (axPos ba ca agg) c P) h.ne (by rw [hQ]; exact hb) (by rw [hQ]; exact hc)
  refine ext_getD (by rw [putAt_length, hlen, hlen', hQ]) fun k hk => ?_
  rw [putAt_length] at hk
  rw [putAt_getD hk]
  obtain ⟨-, g2, g3⟩ := gather_act ba ca i ch P h.ne hb hc
  obtain ⟨-, g2', g3'⟩ := gather_act ba ca i ch (putAt (axPos ba ca agg) c P) h.ne (by rw [hQ]; exact hb) (by rw [hQ]; exact hc)
  by_cases e1 : k = ba
  · subst e1; rw [if_neg h.nba, g2, g2']
  by_cases e2 : k = ca
  · subst e2; rw [if_neg h.nca, g3, g3']
  have hs : k ∈ spatialAxes n ba ca := mem_spatialAxes.2 ⟨by omega, e1, e2⟩
  have hkl : spIdx ba ca k < P.length := by
    have := (spIdx_getD h.ne hs).1
    rw [C57.spatialAxes_length h.ne h.hba h.hca] at this
    omega
  rw [getD_act h hP i ch hs, getD_act h (by rw [hQ]; exact hP) i ch hs, putAt_getD hkl]
  by_cases hg : k ∈ agg
  · rw [if_pos hg, if_pos (by rw [axPos_eq]; exact List.mem_map_of_mem hg), idxOf_map_spIdx h hg]
  · rw [if_neg hg, if_neg]
    rw [axPos_eq, List.mem_map]
    rintro ⟨b, hb, he⟩
    refine hg ?_
    rw [← (spIdx_getD h.ne hs).2, ← he, (spIdx_getD h.ne (h.mem_spatial hb)).2]
    exact hb

/-- Aggregation acts on every channel separately. -/
lemma aggregate_act (h : Axes n agg ba ca) {P : List ℕ} (hP : P.length + 2 = n) (i ch : ℕ) (G : List ℕ) (w : ℕ → List ℕ → List ℕ → ℝ) (x : List ℕ → ℝ) :
    aggregate G agg ba w x (actIdx ba ca i ch P) = aggregateAt G (axPos ba ca agg) (w i) (fun p => x (actIdx ba ca i ch p)) P := by
  unfold aggregate aggregateAt
  refine Finset.sum_congr rfl fun c _ => ?_
  rw [putAt_act h hP, (gather_act ba ca i ch P h.ne (by rw [hP]; exact h.hba) (by rw [hP]; exact h.hca)).2.1]
  have : agg.map ((actIdx ba ca i ch P).getD · 0) = (axPos ba ca agg).map (P.getD · 0) := by
    rw [axPos_eq, List.map_map]
    exact List.map_congr_left fun a ha => getD_act h hP i ch (h.mem_spatial ha)
  rw [this]

section random
variable {E : Type} [NormedAddCommGroup E] [InnerProductSpace ℝ E] [CompleteSpace E] [MeasurableSpace E]

omit [NormedAddCommGroup E] [InnerProductSpace ℝ E] [CompleteSpace E] [MeasurableSpace E] in
lemma aggregateAt_tap (G ax : List ℕ) (w : List ℕ → List ℕ → ℝ) (f : List ℕ → E → ℝ) (P : List ℕ) :
    (fun θ => aggregateAt G ax w (fun p => f p θ) P) = tapSum (box G) (fun c => w c (ax.map (P.getD · 0))) (fun c => some (putAt ax c P)) f := by
  funext θ
  unfold aggregateAt tapSum
  exact Finset.sum_congr rfl fun c _ => by simp [readTap]

/-- The covariances of aggregated random activations. -/
lemma kernel_exact (μ : Measure E) (N : ℕ) (G1 G2 ax : List ℕ) (w1 w2 : ℕ → List ℕ → List ℕ → ℝ)
    (f1 f2 : ℕ → ℕ → List ℕ → E → ℝ) (L : Logical ℝ) (h1 : gather ax L.S1 = G1) (h2 : gather ax L.S2 = G2)
    (hR : Regular μ N L.n1 L.n2 L.S1 L.S2 f1 f2) (hL : ChannelKernelOf μ N f1 f2 L) :
    ChannelKernelOf μ N (fun i ch P θ => aggregateAt G1 ax (w1 i) (fun p => f1 i ch p θ) P)
      (fun i ch P θ => aggregateAt G2 ax (w2 i) (fun p => f2 i ch p θ) P) (aggregateLogical G1 G2 ax w1 w2 L) := by
  have avg : ∀ (G G' : List ℕ) (w w' : ℕ → List ℕ → List ℕ → ℝ) (i j : ℕ) (P Q : List ℕ) (F : List ℕ → List ℕ → List ℕ → ℝ)
      (κ : ℕ → List ℕ → List ℕ → ℝ) (S S' : List ℕ), gather ax S = G → gather ax S' = G' → InRange P S → InRange Q S' →
      (∀ p q, InRange p S → InRange q S' → F [i, j] p q = (∑ ch ∈ Finset.range N, κ ch p q) / N) →
      aggregateCov G G' ax w w' F [i, j] P Q = (∑ ch ∈ Finset.range N, ∑ c ∈ box G, ∑ c' ∈ box G',
        w i c (ax.map (P.getD · 0)) * w' j c' (ax.map (Q.getD · 0)) * read2 (κ ch) (some (putAt ax c P)) (some (putAt ax c' Q))) / N := by
    intro G G' w w' i j P Q F κ S S' hG hG' hP hQ hF
    unfold aggregateCov
    rw [Finset.sum_comm (s := Finset.range N), Finset.sum_div]
    refine Finset.sum_congr rfl fun c hc => ?_
    rw [Finset.sum_comm (s := Finset.range N), Finset.sum_div]
    refine Finset.sum_congr rfl fun c' hc' => ?_
    rw [← Finset.mul_sum, mul_div_assoc]
    have := hF _ _ (putAt_inRange' hP (by rw [hG]; exact mem_box.1 hc)) (putAt_inRange' hQ (by rw [hG']; exact mem_box.1 hc'))
    simp only [read2]
    rw [← this]
    simp only [List.getD_cons_zero, List.getD_cons_succ]
    ring
  have r1 : ∀ {P c : List ℕ}, InRange P L.S1 → c ∈ box G1 → InRange (putAt ax c P) L.S1 := fun hP hc =>
    putAt_inRange' hP (by rw [h1]; exact mem_box.1 hc)
  have r2 : ∀ {P c : List ℕ}, InRange P L.S2 → c ∈ box G2 → InRange (putAt ax c P) L.S2 := fun hP hc =>
    putAt_inRange' hP (by rw [h2]; exact mem_box.1 hc)
  refine ⟨?_, ?_, ?_, ?_⟩
  · intro i j P Q hi hj hP hQ
    refine (avg G1 G2 w1 w2 i j P Q L.k12 _ L.S1 L.S2 h1 h2 hP hQ fun p q hp hq => hL.k12 i j p q hi hj hp hq).trans ?_
    congr 1
    refine Finset.sum_congr rfl fun ch hch => ?_
    rw [Finset.mem_range] at hch
    simp only [aggregateAt_tap G1 ax (w1 i) (f1 i ch), aggregateAt_tap G2 ax (w2 j) (f2 j ch)]
    refine ((tapSum_kernel μ _ _ _ _ _ _ (f1 i ch) (f2 j ch)).1 ?_ ?_).symm
    · rintro c hc p ⟨⟩; exact hR.sq1 i hi ch hch _ (r1 hP hc)
    · rintro c hc p ⟨⟩; exact hR.sq2 j hj ch hch _ (r2 hQ hc)
  · intro i j P Q hi hj hP hQ
    refine (avg G1 G1 w1 w1 i j P Q L.k11 _ L.S1 L.S1 h1 h1 hP hQ fun p q hp hq => hL.k11 i j p q hi hj hp hq).trans ?_
    congr 1
    refine Finset.sum_congr rfl fun ch hch => ?_
    rw [Finset.mem_range] at hch
    simp only [aggregateAt_tap G1 ax (w1 i) (f1 i ch), aggregateAt_tap G1 ax (w1 j) (f1 j ch)]
    refine ((tapSum_kernel μ _ _ _ _ _ _ (f1 i ch) (f1 j ch)).1 ?_ ?_).symm
    · rintro c hc p ⟨⟩; exact hR.sq1 i hi ch hch _ (r1 hP hc)
    · rintro c hc p ⟨⟩; exact hR.sq1 j hj ch hch _ (r1 hQ hc)
  · intro F hF i j P Q hi hj hP hQ
    obtain ⟨K, hK, rfl⟩ := Option.map_eq_some_iff.1 hF
    refine (avg G2 G2 w2 w2 i j P Q K _ L.S2 L.S2 h2 h2 hP hQ fun p q hp hq => hL.k22 K hK i j p q hi hj hp hq).trans ?_
    congr 1
    refine Finset.sum_congr rfl fun ch hch => ?_
    rw [Finset.mem_range] at hch
    simp only [aggregateAt_tap G2 ax (w2 i) (f2 i ch), aggregateAt_tap G2 ax (w2 j) (f2 j ch)]
    refine ((tapSum_kernel μ _ _ _ _ _ _ (f2 i ch) (f2 j ch)).1 ?_ ?_).symm
    · rintro c hc p ⟨⟩; exact hR.sq2 i hi ch hch _ (r2 hP hc)
    · rintro c hc p ⟨⟩; exact hR.sq2 j hj ch hch _ (r2 hQ hc)
  · intro F hF i j P Q hi hj hP hQ
    obtain ⟨K, hK, rfl⟩ := Option.map_eq_some_iff.1 hF
    refine (avg G1 G2 w1 w2 i j P Q K _ L.S1 L.S2 h1 h2 hP hQ fun p q hp hq => hL.ntk K hK i j p q hi hj hp hq).trans ?_
    congr 1
    refine Finset.sum_congr rfl fun ch hch => ?_
    rw [Finset.mem_range] at hch
    simp only [aggregateAt_tap G1 ax (w1 i) (f1 i ch), aggregateAt_tap G2 ax (w2 j) (f2 j ch)]
    refine ((tapSum_kernel μ _ _ _ _ _ _ (f1 i ch) (f2 j ch)).2 ?_ ?_ ?_).symm
    · rintro c hc p ⟨⟩; exact hR.diff1 i hi ch hch _ (r1 hP hc)
    · rintro c hc p ⟨⟩; exact hR.diff2 j hj ch hch _ (r2 hQ hc)
    · rintro c hc c' hc' p q ⟨⟩ ⟨⟩; exact hR.grad i hi j hj ch hch ch hch _ _ (r1 hP hc) (r2 hQ hc')

end random

end NT.Aggregate
