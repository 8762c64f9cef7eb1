import Verif.Lemmas.AttentionNet
import Verif.Lemmas.Attention8
import Verif.Tac

/-!
The kernel after an attention layer with square root scaling: exchanged inputs, selected examples, positive semidefinite kernels.
-/

namespace NT.Attn
open NT Spec Kernel
open NT.Arr

variable {std bsq : ℝ} {E V : Logical ℝ}

/-- Which parts are there. -/
structure Alike (E V : Logical ℝ) : Prop where
  k22 : V.k22 = none ↔ E.k22 = none
  ntk : V.ntk = none ↔ E.ntk = none

lemma alike_values (l : Attention) (c : ℕ) (M1 M2 : ℕ → List ℕ → Bool) (L : Logical ℝ) : Alike (embedded l c M1 M2 L) (attnValues l c M1 M2 L) := by
  unfold attnValues embedded withEmbedding
  split_ifs
  · exact ⟨.rfl, .rfl⟩
  · exact ⟨.rfl, .rfl⟩
  · exact ⟨.rfl, .rfl⟩
  · exact ⟨by simp [embedL], by simp [embedL]⟩

lemma pairing_swap {S T : List ℕ} {F G : List ℕ → List ℕ → List ℕ → ℝ} (b : List ℕ) : pairing T S (swap2 F) (swap2 G) b = pairing S T F G [b.getD 1 0, b.getD 0 0] := by
  unfold pairing swap2
  rw [Finset.sum_comm]

lemma sqrtL_swap (h : Alike E V) (hself : E.k22 = none → E.S2 = E.S1) : sqrtL std bsq E.swap V.swap = (sqrtL std bsq E V).swap := by
  simp only [sqrtL, Logical.swap]
  refine Logical.mk.injEq .. |>.mpr ⟨rfl, rfl, rfl, rfl, ?_, ?_, ?_, ?_⟩
  · funext b p q
    simp only [pairing_swap]; rfl
  · cases e : E.k22 with
    | none => simp [Logical.second, e, h.k22.2 e, hself e]
    | some F =>
      obtain ⟨G, e'⟩ := Option.ne_none_iff_exists'.1 fun e' => by rw [h.k22.1 e'] at e; cases e
      simp [Logical.second, e, e']
  · cases e : E.k22 with
    | none => simp
    | some F =>
      obtain ⟨G, e'⟩ := Option.ne_none_iff_exists'.1 fun e' => by rw [h.k22.1 e'] at e; cases e
      simp [e']
  · cases e : E.ntk with
    | none => simp
    | some F =>
      obtain ⟨G, e'⟩ := Option.ne_none_iff_exists'.1 fun e' => by rw [h.ntk.1 e'] at e; cases e
      simp only [Option.map_some, Option.some.injEq, e', Option.getD_some]
      funext b p q
      simp only [pairing_swap]; rfl

lemma embedded_swap (l : Attention) (c : ℕ) (M1 M2 : ℕ → List ℕ → Bool) (L : Logical ℝ) (hself : L.k22 = none → M1 = M2) :
    embedded l c M2 M1 L.swap = (embedded l c M1 M2 L).swap := by
  unfold embedded withEmbedding
  split_ifs
  · rfl
  · exact embedL_swap _ _ (posCov_symm _ _) M1 M2 L hself

lemma values_swap (l : Attention) (c : ℕ) (M1 M2 : ℕ → List ℕ → Bool) (L : Logical ℝ) (hself : L.k22 = none → M1 = M2) :
    attnValues l c M2 M1 L.swap = (attnValues l c M1 M2 L).swap := by
  unfold attnValues
  split_ifs
  · exact embedded_swap l c M1 M2 L hself
  · rfl

lemma sqrt_swap (l : Attention) (c : ℕ) (M1 M2 : ℕ → List ℕ → Bool) (L : Logical ℝ) (hself : L.k22 = none → L.S2 = L.S1 ∧ M1 = M2) :
    sqrtAttention l c M2 M1 L.swap = (sqrtAttention l c M1 M2 L).swap := by
  unfold sqrtAttention
  rw [embedded_swap l c M1 M2 L fun h => (hself h).2, values_swap l c M1 M2 L fun h => (hself h).2]
  obtain ⟨-, -, s3, s4, s5⟩ := embedded_shapes l c M1 M2 L
  exact sqrtL_swap (alike_values l c M1 M2 L) fun h => by rw [s3, s4]; exact (hself (s5.1 h)).1

/-! ### Positive semidefinite kernels -/

lemma gram_pairing {n : ℕ} {S T : List ℕ} {F G : List ℕ → List ℕ → List ℕ → ℝ} (hF : GramOn n T F) (hG : GramOn n T G) : GramOn n S fun b _ _ => pairing T T F G b := by
  have := (hF.mul hG).pull (n' := n) (S' := S) (box T) (fun _ _ _ => 1) (fun i _ _ => i) (fun _ _ u => u) (fun i p u hi hp hu _ => ⟨hi, mem_box.1 hu⟩)
  refine this.congr fun i j p q hi hj hp hq => ?_
  simp [pairing]

lemma sqrtL_psd (hb : 0 ≤ bsq) (hE : PsdKernel E) (hV : PsdKernel V) (h : Alike E V) (hn : V.n1 = E.n1) (hS : V.S1 = E.S1) : PsdKernel (sqrtL std bsq E V) := by
  have gE := psd_gram.1 hE.nngp
  have gV := psd_gram.1 hV.nngp
  rw [hn, hS] at gV
  have P := gram_pairing (S := E.S1) gE gV
  refine ⟨by simp [sqrtL, hE.one], hE.batch, hE.shape, fun i j p q hi hj hp hq => ?_, ?_, fun F hF => ?_⟩
  · simp only [sqrtL, hE.shape]
    rw [hE.cov1 i j p q hi hj hp hq]
    congr 3
    refine Finset.sum_congr rfl fun u hu => Finset.sum_congr rfl fun v hv => ?_
    rw [hE.cov1 i j u v hi hj (mem_box.1 hu) (mem_box.1 hv), hV.cov1 i j u v (by rw [hn]; exact hi) (by rw [hn]; exact hj) (by rw [hS]; exact mem_box.1 hu) (by rw [hS]; exact mem_box.1 hv)]
  · simp only [sqrtL, hE.shape]
    exact (((gE.mul P).smul (sq_nonneg _)).add (.const hb)).psd
  · simp only [sqrtL, Option.map_eq_some_iff, hE.shape] at hF
    obtain ⟨T, hT, rfl⟩ := hF
    obtain ⟨T', hT'⟩ := Option.ne_none_iff_exists'.1 fun e' => by rw [h.ntk.1 e'] at hT; cases hT
    have gT := psd_gram.1 (hE.ntk T hT)
    have gT' := psd_gram.1 (hV.ntk T' hT')
    rw [hn, hS] at gT'
    simp only [hT', Option.getD_some]
    exact ((((((gE.mul (gram_pairing gT gV)).add (gE.mul (gram_pairing gE gT'))).add (gT.mul P)).add ((gE.mul P).smul (by norm_num))).smul (sq_nonneg _)).add (.const hb)).psd

variable {l : Attention} {c : ℕ} {L : Logical ℝ}

lemma sqrt_psd (h : PsdKernel L) (hR : l.posEmb ≠ .none → ∀ a : List ℕ → ℝ, 0 ≤ ∑ p ∈ box L.S1, ∑ q ∈ box L.S1, a p * a q * posCov l.pNorm l.decay p q) :
    PsdKernel (sqrtAttention l c (fun _ _ => false) (fun _ _ => false) L) := by
  obtain ⟨s1, -, s3, -, -⟩ := embedded_shapes l c (fun _ _ => false) (fun _ _ => false) L
  obtain ⟨v1, -, v3, -, -⟩ := values_shapes l c (fun _ _ => false) (fun _ _ => false) L
  refine sqrtL_psd (sq_nonneg _) (embedded_psd h hR) ?_ (alike_values _ _ _ _ _) (v1.trans s1.symm) (v3.trans s3.symm)
  unfold attnValues
  split_ifs
  · exact embedded_psd h hR
  · exact h

/-! ### Selected examples -/

lemma sqrt_none {M1 M2 : ℕ → List ℕ → Bool} : (sqrtAttention l c M1 M2 L).k22 = none ↔ L.k22 = none := by
  have := (embedded_shapes l c M1 M2 L).2.2.2.2
  unfold sqrtAttention
  rw [← this]
  simp [sqrtL]

lemma sqrt_pick (σ : Pick) :
    sqrtAttention l c (fun _ _ => false) (fun _ _ => false) (L.pick σ) = (sqrtAttention l c (fun _ _ => false) (fun _ _ => false) L).pick σ := by
  have hV : attnValues l c (fun _ _ => false) (fun _ _ => false) (L.pick σ) = (attnValues l c (fun _ _ => false) (fun _ _ => false) L).pick σ := by
    unfold attnValues
    split_ifs
    · exact embedded_pick σ
    · rfl
  have h := alike_values l c (fun _ _ => false) (fun _ _ => false) L
  unfold sqrtAttention
  rw [embedded_pick, hV]
  generalize attnValues l c (fun _ _ => false) (fun _ _ => false) L = V at *
  generalize embedded l c (fun _ _ => false) (fun _ _ => false) L = E at *
  have key : ∀ (S T : List ℕ) (f g : ℕ → ℕ) (F G : List ℕ → List ℕ → List ℕ → ℝ) (b : List ℕ),
      pairing S T (pick2 f g F) (pick2 f g G) b = pairing S T F G [f (b.getD 0 0), g (b.getD 1 0)] := fun _ _ _ _ _ _ _ => rfl
  simp only [sqrtL, Logical.pick]
  refine Logical.mk.injEq .. |>.mpr ⟨rfl, rfl, rfl, rfl, rfl, rfl, ?_, ?_⟩
  · cases e : E.k22 with
    | none => rfl
    | some F =>
      obtain ⟨G, e'⟩ := Option.ne_none_iff_exists'.1 fun e' => by rw [h.k22.1 e'] at e; cases e
      simp only [e', Option.map_some, Option.getD_some]
      rfl
  · cases e : E.ntk with
    | none => rfl
    | some F =>
      obtain ⟨G, e'⟩ := Option.ne_none_iff_exists'.1 fun e' => by rw [h.ntk.1 e'] at e; cases e
      simp only [e', Option.map_some, Option.getD_some]
      rfl

/-! ### Inputs given twice -/

lemma sqrt_explicit (hc : L.k22 = none → L.S2 = L.S1) :
    sqrtAttention l c (fun _ _ => false) (fun _ _ => false) L.explicit = (sqrtAttention l c (fun _ _ => false) (fun _ _ => false) L).explicit := by
  have hV : attnValues l c (fun _ _ => false) (fun _ _ => false) L.explicit = (attnValues l c (fun _ _ => false) (fun _ _ => false) L).explicit := by
    unfold attnValues
    split_ifs
    · exact embedded_explicit
    · rfl
  have h := alike_values l c (fun _ _ => false) (fun _ _ => false) L
  obtain ⟨-, -, s3, s4, s5⟩ := embedded_shapes l c (fun _ _ => false) (fun _ _ => false) L
  have hs : (embedded l c (fun _ _ => false) (fun _ _ => false) L).k22 = none → (embedded l c (fun _ _ => false) (fun _ _ => false) L).S2 =
      (embedded l c (fun _ _ => false) (fun _ _ => false) L).S1 := fun e => by rw [s3, s4]; exact hc (s5.1 e)
  unfold sqrtAttention
  rw [embedded_explicit, hV]
  generalize attnValues l c (fun _ _ => false) (fun _ _ => false) L = V at *
  generalize embedded l c (fun _ _ => false) (fun _ _ => false) L = E at *
  cases e : E.k22 with
  | none => simp [sqrtL, Logical.explicit, Logical.second, e, h.k22.2 e, hs e]
  | some F =>
    obtain ⟨G, e'⟩ := Option.ne_none_iff_exists'.1 fun e' => by rw [h.k22.1 e'] at e; cases e
    simp [sqrtL, Logical.explicit, Logical.second, e, e']

/-! ### Either scaling -/

lemma layer_shapes (l : Attention) (c : ℕ) (M1 M2 : ℕ → List ℕ → Bool) (L : Logical ℝ) : (attentionLayer l c M1 M2 L).n1 = L.n1 ∧ (attentionLayer l c M1 M2 L).n2 = L.n2 ∧
    (attentionLayer l c M1 M2 L).S1 = L.S1 ∧ (attentionLayer l c M1 M2 L).S2 = L.S2 := by
  unfold attentionLayer
  split_ifs
  · obtain ⟨v1, v2, v3, v4, -⟩ := values_shapes l c M1 M2 L
    exact ⟨v1, v2, v3, v4⟩
  · obtain ⟨v1, v2, v3, v4, -⟩ := embedded_shapes l c M1 M2 L
    exact ⟨v1, v2, v3, v4⟩

lemma layer_none {M1 M2 : ℕ → List ℕ → Bool} : (attentionLayer l c M1 M2 L).k22 = none ↔ L.k22 = none := by
  unfold attentionLayer
  split_ifs
  exacts [attention_none, sqrt_none]

lemma layer_swap (l : Attention) (c : ℕ) (M1 M2 : ℕ → List ℕ → Bool) (L : Logical ℝ) (hself : L.k22 = none → L.S2 = L.S1 ∧ M1 = M2) :
    attentionLayer l c M2 M1 L.swap = (attentionLayer l c M1 M2 L).swap := by
  unfold attentionLayer
  split_ifs
  exacts [attention_swap l c M1 M2 L hself, sqrt_swap l c M1 M2 L hself]

lemma layer_psd (h : PsdKernel L) (hR : l.posEmb ≠ .none → ∀ a : List ℕ → ℝ, 0 ≤ ∑ p ∈ box L.S1, ∑ q ∈ box L.S1, a p * a q * posCov l.pNorm l.decay p q) :
    PsdKernel (attentionLayer l c (fun _ _ => false) (fun _ _ => false) L) := by
  unfold attentionLayer
  split_ifs
  exacts [attention_psd h hR, sqrt_psd h hR]

lemma layer_pick (σ : Pick) (hσ : L.k22 = none → σ.f = σ.g) :
    attentionLayer l c (fun _ _ => false) (fun _ _ => false) (L.pick σ) = (attentionLayer l c (fun _ _ => false) (fun _ _ => false) L).pick σ := by
  unfold attentionLayer
  split_ifs
  exacts [attention_pick σ hσ, sqrt_pick σ]

lemma layer_explicit (hc : L.k22 = none → L.S2 = L.S1) :
    attentionLayer l c (fun _ _ => false) (fun _ _ => false) L.explicit = (attentionLayer l c (fun _ _ => false) (fun _ _ => false) L).explicit := by
  unfold attentionLayer
  split_ifs
  exacts [attention_explicit hc, sqrt_explicit hc]

end NT.Attn
