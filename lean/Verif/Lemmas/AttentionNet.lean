import Verif.Lemmas.Attention6
import Verif.Lemmas.Gram
import Verif.Spec.Swap
import Verif.Spec.Pick
import Verif.Spec.Explicit
import Verif.Tac

/-!
The kernel after an attention layer: exchanged inputs, selected examples, positive semidefinite kernels.
-/

namespace NT.Attn
open NT Spec Kernel
open NT.Arr

/-! ### Exchanged inputs -/

lemma posCov_symm (r : ℝ) (d : Option (ℝ → ℝ)) (p q : List ℕ) : posCov r d p q = posCov r d q p := by
  unfold posCov
  cases d with
  | none => simp only [eq_comm]
  | some f =>
    simp only
    congr 2
    rw [List.zipWith_comm]
    congr 1
    funext x y
    rw [abs_sub_comm]

lemma embedL_swap (kw pw : ℝ) {R : List ℕ → List ℕ → ℝ} (hR : ∀ p q, R p q = R q p) (M1 M2 : ℕ → List ℕ → Bool) (L : Logical ℝ) (hM : L.k22 = none → M1 = M2) :
    embedL kw pw R M2 M1 L.swap = (embedL kw pw R M1 M2 L).swap := by
  have key : ∀ (M M' : ℕ → List ℕ → Bool) (F : List ℕ → List ℕ → List ℕ → ℝ),
      (fun b p q => kw * swap2 F b p q + pw * (if M' (b.getD 0 0) p || M (b.getD 1 0) q then 0 else R p q)) =
      swap2 fun b p q => kw * F b p q + pw * (if M (b.getD 0 0) p || M' (b.getD 1 0) q then 0 else R p q) := by
    intro M M' F
    funext b p q
    simp only [swap2, List.getD_cons_zero, List.getD_cons_succ]
    rw [hR q p, Bool.or_comm]
  simp only [embedL, Logical.swap]
  refine Logical.mk.injEq .. |>.mpr ⟨rfl, rfl, rfl, rfl, key M1 M2 _, ?_, ?_, ?_⟩
  · cases h : L.k22 with
    | none => simp [Logical.second, h, hM h]
    | some F => simp [Logical.second, h]
  · cases h : L.k22 <;> simp
  · cases h : L.ntk with
    | none => simp
    | some F => exact congrArg some (key M1 M2 F)

lemma attended_swap {S T : List ℕ} {w1 w2 : ℕ → List ℕ → List ℕ → ℝ} {F : List ℕ → List ℕ → List ℕ → ℝ} (b p q : List ℕ) :
    attended T S w2 w1 (swap2 F) b p q = attended S T w1 w2 F [b.getD 1 0, b.getD 0 0] q p := by
  unfold attended swap2
  rw [Finset.sum_comm]
  refine Finset.sum_congr rfl fun u _ => Finset.sum_congr rfl fun v _ => ?_
  simp only [List.getD_cons_zero, List.getD_cons_succ]
  ring

lemma attention_swap (l : Attention) (c : ℕ) (M1 M2 : ℕ → List ℕ → Bool) (L : Logical ℝ) (hself : L.k22 = none → L.S2 = L.S1 ∧ M1 = M2) :
    attention l c M2 M1 L.swap = (attention l c M1 M2 L).swap := by
  have hE : embedded l c M2 M1 L.swap = (embedded l c M1 M2 L).swap := by
    unfold embedded withEmbedding
    split_ifs
    · rfl
    · exact embedL_swap _ _ (posCov_symm _ _) M1 M2 L fun h => (hself h).2
  have hV : attnValues l c M2 M1 L.swap = (attnValues l c M1 M2 L).swap := by
    unfold attnValues
    split_ifs
    · exact hE
    · rfl
  obtain ⟨-, -, -, -, s5⟩ := embedded_shapes l c M1 M2 L
  have w1 : weight1 l c M2 M1 L.swap = weight2 l c M1 M2 L := by
    unfold weight2 weight1
    rw [hE]
    cases h : (embedded l c M1 M2 L).k22 with
    | none =>
      obtain ⟨e1, e2⟩ := hself (s5.1 h)
      subst e2
      simp [Logical.swap, Logical.second, h, otherWeight, e1]
    | some F => simp [Logical.swap, Logical.second, h, otherWeight]
  have w2 : weight2 l c M2 M1 L.swap = weight1 l c M1 M2 L := by
    have e : weight2 l c M2 M1 L.swap = otherWeight (weight2 l c M1 M2 L) (fun F => attnWeight l.mechanism l.qkStd L.S1 F M1)
        ((embedded l c M1 M2 L).k22.map fun _ => (embedded l c M1 M2 L).k11) := by
      rw [← w1]; unfold weight2; rw [hE]; rfl
    rw [e]
    cases h : (embedded l c M1 M2 L).k22 with
    | none => simp [otherWeight, weight2, h]
    | some F => rfl
  have hw : L.k22 = none → weight2 l c M1 M2 L = weight1 l c M1 M2 L := fun h => by
    unfold weight2; rw [s5.2 h]; rfl
  obtain ⟨-, -, v3, v4, v5⟩ := values_shapes l c M1 M2 L
  unfold attention
  rw [hV, w1, w2]
  generalize attnValues l c M1 M2 L = V at *
  simp only [attendL, Logical.swap]
  refine Logical.mk.injEq .. |>.mpr ⟨rfl, rfl, rfl, rfl, ?_, ?_, ?_, ?_⟩
  · funext b p q
    simp only [attended_swap]; rfl
  · cases h : V.k22 with
    | none =>
      have hL := v5.1 h
      simp [Logical.second, h, hw hL, v3, v4, (hself hL).1]
    | some F => simp [Logical.second, h]
  · cases h : V.k22 <;> simp
  · cases h : V.ntk with
    | none => simp
    | some F =>
      simp only [Option.map_some, Option.some.injEq]
      funext b p q
      simp only [attended_swap]; rfl

/-! ### Positive semidefinite kernels -/

lemma attended_psd {ov bsq : ℝ} (hb : 0 ≤ bsq) {w : ℕ → List ℕ → List ℕ → ℝ} {V : Logical ℝ} (h : PsdKernel V) : PsdKernel (attendL ov bsq w w V) := by
  have eS := h.shape
  have en := h.batch
  -- averages of positive semidefinite covariances
  have key : ∀ F, PsdOn V.n1 V.S1 F → PsdOn V.n1 V.S1 (attended V.S1 V.S1 w w F) := by
    intro F hF
    refine ⟨fun i j p q hi hj hp hq => ?_, fun a => ?_⟩
    · unfold attended
      rw [Finset.sum_comm]
      refine Finset.sum_congr rfl fun u hu => Finset.sum_congr rfl fun v hv => ?_
      simp only [List.getD_cons_zero, List.getD_cons_succ]
      rw [hF.symm i j v u hi hj (mem_box.1 hv) (mem_box.1 hu)]
      ring
    · refine (hF.nonneg fun i u => ∑ p ∈ box V.S1, a i p * w i p u).trans (le_of_eq ?_)
      refine Finset.sum_congr rfl fun i _ => ?_
      simp only [attended, List.getD_cons_zero, List.getD_cons_succ]
      have e : ∀ j, ∑ u ∈ box V.S1, ∑ v ∈ box V.S1, (∑ p ∈ box V.S1, a i p * w i p u) * (∑ q ∈ box V.S1, a j q * w j q v) * F [i, j] u v =
          ∑ p ∈ box V.S1, ∑ q ∈ box V.S1, a i p * a j q * ∑ u ∈ box V.S1, ∑ v ∈ box V.S1, w i p u * F [i, j] u v * w j q v := by
        intro j
        simp only [Finset.sum_mul, Finset.mul_sum]
        conv_rhs => rw [Finset.sum_comm]
        rw [Finset.sum_congr rfl fun u _ => Finset.sum_comm]
        rw [Finset.sum_comm]
        refine Finset.sum_congr rfl fun p _ => ?_
        rw [Finset.sum_congr rfl fun u _ => Finset.sum_comm]
        rw [Finset.sum_comm]
        refine Finset.sum_congr rfl fun q _ => Finset.sum_congr rfl fun u _ => Finset.sum_congr rfl fun v _ => ?_
        ring
      rw [Finset.sum_comm, Finset.sum_congr rfl fun j _ => e j, Finset.sum_comm]
  have lin : ∀ (x y z : ℝ) F G, 0 ≤ x → 0 ≤ y → 0 ≤ z → PsdOn V.n1 V.S1 F → PsdOn V.n1 V.S1 G →
      PsdOn V.n1 V.S1 fun b p q => x * F b p q + y * G b p q + z := by
    intro x y z F G hx hy hz hF hG
    exact psd_gram.2 ((((psd_gram.1 hF).smul hx).add ((psd_gram.1 hG).smul hy)).add (.const hz))
  have e0 : ∀ F, PsdOn V.n1 V.S1 F → PsdOn V.n1 V.S1 fun b p q => ov ^ 2 * F b p q + bsq := fun F hF => by
    have := lin (ov ^ 2) 0 bsq F F (by positivity) le_rfl hb hF hF
    simpa using this
  refine ⟨by simp [attendL, h.one], en, eS, ?_, ?_, ?_⟩
  · intro i j p q hi hj hp hq
    simp only [attendL, eS]
    congr 2
    refine Finset.sum_congr rfl fun u hu => Finset.sum_congr rfl fun v hv => ?_
    rw [h.cov1 i j u v hi hj (mem_box.1 hu) (mem_box.1 hv)]
  · simp only [attendL, eS]
    exact e0 _ (key _ h.nngp)
  · intro F hF
    obtain ⟨G, hG, rfl⟩ := Option.map_eq_some_iff.1 hF
    simp only [attendL, eS]
    have := lin (ov ^ 2) (2 * ov ^ 2) bsq _ _ (by positivity) (by positivity) hb (key _ (h.ntk G hG)) (key _ h.nngp)
    refine ⟨fun i j p q hi hj hp hq => ?_, fun a => ?_⟩
    · have := this.symm i j p q hi hj hp hq
      linarith
    · refine (this.nonneg a).trans (le_of_eq ?_)
      refine Finset.sum_congr rfl fun i _ => Finset.sum_congr rfl fun p _ => Finset.sum_congr rfl fun j _ => Finset.sum_congr rfl fun q _ => ?_
      ring


/-- Covariances of positions that do not depend on the examples. -/
lemma psdOn_const {n : ℕ} {S : List ℕ} {R : List ℕ → List ℕ → ℝ} (hs : ∀ p q, R p q = R q p)
    (h : ∀ a : List ℕ → ℝ, 0 ≤ ∑ p ∈ box S, ∑ q ∈ box S, a p * a q * R p q) : PsdOn n S fun _ p q => R p q := by
  refine ⟨fun _ _ p q _ _ _ _ => hs p q, fun c => (h fun p => ∑ i ∈ Finset.range n, c i p).trans (le_of_eq ?_)⟩
  symm
  rw [Finset.sum_comm]
  refine Finset.sum_congr rfl fun p _ => ?_
  rw [Finset.sum_congr rfl fun i _ => Finset.sum_comm, Finset.sum_comm]
  refine Finset.sum_congr rfl fun q _ => ?_
  rw [Finset.sum_mul_sum, Finset.sum_mul]
  exact Finset.sum_congr rfl fun i _ => (Finset.sum_mul ..).symm

lemma posCov_none_psd (r : ℝ) (S : List ℕ) (a : List ℕ → ℝ) : 0 ≤ ∑ p ∈ box S, ∑ q ∈ box S, a p * a q * posCov r none p q := by
  refine Finset.sum_nonneg fun p hp => ?_
  simp only [posCov, mul_ite, mul_one, mul_zero]
  rw [Finset.sum_ite_eq, if_pos hp]
  exact mul_self_nonneg _

lemma embedWeights_nonneg (emb : PosEmb) (std : ℝ) (c e : ℕ) : 0 ≤ (embedWeights emb std c e).1 ∧ 0 ≤ (embedWeights emb std c e).2 := by
  cases emb <;> simp only [embedWeights] <;> constructor <;> positivity

variable {l : Attention} {c : ℕ} {L : Logical ℝ}

lemma embedded_psd (h : PsdKernel L) (hR : l.posEmb ≠ .none → ∀ a : List ℕ → ℝ, 0 ≤ ∑ p ∈ box L.S1, ∑ q ∈ box L.S1, a p * a q * posCov l.pNorm l.decay p q) :
    PsdKernel (embedded l c (fun _ _ => false) (fun _ _ => false) L) := by
  unfold embedded withEmbedding
  split_ifs with he
  · exact h
  · obtain ⟨w1, w2⟩ := embedWeights_nonneg l.posEmb l.posStd c (l.posChan.getD c)
    have hP := psd_gram.1 (psdOn_const (n := L.n1) (posCov_symm l.pNorm l.decay) (hR he))
    have key : ∀ F, PsdOn L.n1 L.S1 F → PsdOn L.n1 L.S1 fun b p q => (embedWeights l.posEmb l.posStd c (l.posChan.getD c)).1 * F b p q +
        (embedWeights l.posEmb l.posStd c (l.posChan.getD c)).2 * posCov l.pNorm l.decay p q :=
      fun F hF => psd_gram.2 (((psd_gram.1 hF).smul w1).add (hP.smul w2))
    refine ⟨by simp [embedL, h.one], h.batch, h.shape, fun i j p q hi hj hp hq => ?_, ?_, fun F hF => ?_⟩
    · simp only [embedL, Bool.or_self, Bool.false_eq_true, if_false]
      rw [h.cov1 i j p q hi hj hp hq]
    · simpa only [embedL, Bool.or_self, Bool.false_eq_true, if_false] using key _ h.nngp
    · simp only [embedL, Option.map_eq_some_iff] at hF
      obtain ⟨G, hG, rfl⟩ := hF
      simp only [Bool.or_self, Bool.false_eq_true, if_false]
      exact key _ (h.ntk G hG)

lemma attention_psd (h : PsdKernel L) (hR : l.posEmb ≠ .none → ∀ a : List ℕ → ℝ, 0 ≤ ∑ p ∈ box L.S1, ∑ q ∈ box L.S1, a p * a q * posCov l.pNorm l.decay p q) :
    PsdKernel (attention l c (fun _ _ => false) (fun _ _ => false) L) := by
  have hw : weight2 l c (fun _ _ => false) (fun _ _ => false) L = weight1 l c (fun _ _ => false) (fun _ _ => false) L := by
    unfold weight2
    rw [(embedded_shapes l c _ _ L).2.2.2.2.2 h.one]
    rfl
  unfold attention
  rw [hw]
  refine attended_psd (sq_nonneg _) ?_
  unfold attnValues
  split_ifs
  · exact embedded_psd h hR
  · exact h

/-! ### Selected examples -/

lemma attention_none {M1 M2 : ℕ → List ℕ → Bool} : (attention l c M1 M2 L).k22 = none ↔ L.k22 = none := by
  have := (values_shapes l c M1 M2 L).2.2.2.2
  unfold attention
  rw [← this]
  simp [attendL]

lemma embedded_pick (σ : Pick) : embedded l c (fun _ _ => false) (fun _ _ => false) (L.pick σ) = (embedded l c (fun _ _ => false) (fun _ _ => false) L).pick σ := by
  unfold embedded withEmbedding
  split_ifs
  · rfl
  · simp only [embedL, Logical.pick, Bool.or_self, Bool.false_eq_true, if_false]
    refine Logical.mk.injEq .. |>.mpr ⟨rfl, rfl, rfl, rfl, rfl, rfl, ?_, ?_⟩
    · cases h : L.k22 <;> simp; rfl
    · cases h : L.ntk <;> simp; rfl

lemma attention_pick (σ : Pick) (hσ : L.k22 = none → σ.f = σ.g) :
    attention l c (fun _ _ => false) (fun _ _ => false) (L.pick σ) = (attention l c (fun _ _ => false) (fun _ _ => false) L).pick σ := by
  have hV : attnValues l c (fun _ _ => false) (fun _ _ => false) (L.pick σ) = (attnValues l c (fun _ _ => false) (fun _ _ => false) L).pick σ := by
    unfold attnValues
    split_ifs
    · exact embedded_pick σ
    · rfl
  have w1 : ∀ i, weight1 l c (fun _ _ => false) (fun _ _ => false) (L.pick σ) i = weight1 l c (fun _ _ => false) (fun _ _ => false) L (σ.f i) := by
    intro i
    unfold weight1
    rw [embedded_pick]
    funext p u
    unfold attnWeight score
    cases l.mechanism <;> simp [Logical.pick, pick2]
  have w2 : ∀ i, weight2 l c (fun _ _ => false) (fun _ _ => false) (L.pick σ) i = weight2 l c (fun _ _ => false) (fun _ _ => false) L (σ.g i) := by
    intro i
    have s5 := (embedded_shapes l c (fun _ _ => false) (fun _ _ => false) L).2.2.2.2
    unfold weight2
    rw [embedded_pick]
    cases h : (embedded l c (fun _ _ => false) (fun _ _ => false) L).k22 with
    | none =>
      rw [← hσ (s5.1 h)]
      have h' : ((embedded l c (fun _ _ => false) (fun _ _ => false) L).pick σ).k22 = none := by simp [Logical.pick, h]
      rw [h']
      exact w1 i
    | some F =>
      simp only [Logical.pick, h, Option.map_some, otherWeight]
      funext p u
      unfold attnWeight score
      cases l.mechanism <;> simp [pick2]
  have key : ∀ (S T : List ℕ) (v1 v2 v1' v2' : ℕ → List ℕ → List ℕ → ℝ) (f g : ℕ → ℕ) (F : List ℕ → List ℕ → List ℕ → ℝ),
      (∀ i, v1' i = v1 (f i)) → (∀ i, v2' i = v2 (g i)) → attended S T v1' v2' (pick2 f g F) = pick2 f g (attended S T v1 v2 F) := by
    intro S T v1 v2 v1' v2' f g F h1 h2
    funext b p q
    simp only [attended, pick2, h1, h2, List.getD_cons_zero, List.getD_cons_succ]
  unfold attention
  rw [hV]
  generalize attnValues l c (fun _ _ => false) (fun _ _ => false) L = V
  generalize weight1 l c (fun _ _ => false) (fun _ _ => false) L = v1 at *
  generalize weight2 l c (fun _ _ => false) (fun _ _ => false) L = v2 at *
  generalize weight1 l c (fun _ _ => false) (fun _ _ => false) (L.pick σ) = v1' at *
  generalize weight2 l c (fun _ _ => false) (fun _ _ => false) (L.pick σ) = v2' at *
  simp only [attendL, Logical.pick]
  rw [key _ _ _ _ _ _ _ _ _ w1 w2, key _ _ _ _ _ _ _ _ _ w1 w1]
  refine Logical.mk.injEq .. |>.mpr ⟨rfl, rfl, rfl, rfl, rfl, rfl, ?_, ?_⟩
  · cases h : V.k22 with
    | none => rfl
    | some F =>
      simp only [Option.map_some, Option.some.injEq]
      rw [key _ _ _ _ _ _ _ _ _ w2 w2]
      rfl
  · cases h : V.ntk with
    | none => rfl
    | some F =>
      simp only [Option.map_some, Option.some.injEq]
      rw [key _ _ _ _ _ _ _ _ _ w1 w2]
      rfl

/-! ### Inputs given twice -/

lemma embedded_explicit : embedded l c (fun _ _ => false) (fun _ _ => false) L.explicit = (embedded l c (fun _ _ => false) (fun _ _ => false) L).explicit := by
  unfold embedded withEmbedding
  split_ifs
  · rfl
  · cases h : L.k22 <;> simp [embedL, Logical.explicit, Logical.second, h]

lemma attention_explicit (hc : L.k22 = none → L.S2 = L.S1) :
    attention l c (fun _ _ => false) (fun _ _ => false) L.explicit = (attention l c (fun _ _ => false) (fun _ _ => false) L).explicit := by
  have hV : attnValues l c (fun _ _ => false) (fun _ _ => false) L.explicit = (attnValues l c (fun _ _ => false) (fun _ _ => false) L).explicit := by
    unfold attnValues
    split_ifs
    · exact embedded_explicit
    · rfl
  have w1 : weight1 l c (fun _ _ => false) (fun _ _ => false) L.explicit = weight1 l c (fun _ _ => false) (fun _ _ => false) L := by
    unfold weight1
    rw [embedded_explicit]
    rfl
  obtain ⟨-, -, -, -, s5⟩ := embedded_shapes l c (fun _ _ => false) (fun _ _ => false) L
  have w2 : weight2 l c (fun _ _ => false) (fun _ _ => false) L.explicit = weight2 l c (fun _ _ => false) (fun _ _ => false) L := by
    unfold weight2
    rw [embedded_explicit]
    cases h : (embedded l c (fun _ _ => false) (fun _ _ => false) L).k22 with
    | none => simp [Logical.explicit, Logical.second, h, otherWeight, weight1, hc (s5.1 h)]
    | some F => simp [Logical.explicit, Logical.second, h, otherWeight]
  have hw : L.k22 = none → weight2 l c (fun _ _ => false) (fun _ _ => false) L = weight1 l c (fun _ _ => false) (fun _ _ => false) L := fun h => by
    unfold weight2; rw [s5.2 h]; rfl
  obtain ⟨-, -, v3, v4, v5⟩ := values_shapes l c (fun _ _ => false) (fun _ _ => false) L
  unfold attention
  rw [hV, w1, w2]
  generalize attnValues l c (fun _ _ => false) (fun _ _ => false) L = V at *
  cases h : V.k22 with
  | none =>
    have hL := v5.1 h
    simp [attendL, Logical.explicit, Logical.second, h, hw hL, v3, v4, hc hL]
  | some F => simp [attendL, Logical.explicit, Logical.second, h]

end NT.Attn
