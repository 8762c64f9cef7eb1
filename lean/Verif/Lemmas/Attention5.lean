import Verif.Lemmas.Attention4

/-! Auxiliary lemmas for C59: covariances of inputs with positional embeddings. -/

namespace NT.Attn
open NT Spec Attention Kernel
open NT.Arr

variable {B S T : List ℕ} {rev : Bool} {F G : List ℕ → List ℕ → List ℕ → ℝ}

lemma expandLead_b {r : Arr ℝ} {R : List ℕ → List ℕ → ℝ} (hs : r.shape = pos false rev S S)
    (hg : ∀ p q, InRange p S → InRange q S → r.get (pos false rev p q) = R p q) :
    (expandLead r B.length).shape = List.replicate B.length 1 ++ pos false rev S S ∧
      BHolds (expandLead r B.length) B S S rev fun _ p q => R p q := by
  refine ⟨by simp [expandLead, hs], rfl, .inr (by simp [expandLead, hs]), ?_⟩
  intro b p q hb hp hq
  simp only [expandLead, hs]
  rw [bcastIdx_append (by simp [hb.length]), bcastIdx_ones _ _ hb.length, bcastIdx_self (pos_inRange rfl hp hq), List.drop_left' (by simp),
    hg p q hp hq]

/-- An optional mask holds `P`; no mask masks nothing. -/
def OMask (z : Option (Arr Bool)) (B S T : List ℕ) (rev : Bool) (P : List ℕ → List ℕ → List ℕ → Bool) : Prop :=
  match z with
  | none => ∀ b p q, InRange b B → InRange p S → InRange q T → P b p q = false
  | some z => Holds z B S T false rev P

lemma bcastDim_ones (B P : List ℕ) : List.zipWith bcastDim (B ++ P) (List.replicate B.length 1 ++ P) = B ++ P := by
  rw [List.zipWith_append (by simp), zipWith_bcastDim_self]
  congr 1
  induction B with
  | nil => rfl
  | cons a B ih =>
    simp only [List.length_cons, List.replicate_succ, List.zipWith_cons_cons, ih]
    simp only [bcastDim]
    split_ifs with h
    · rw [h]
    · rfl

/-- A broadcasting operation with an array whose batch axes may have size 1. -/
lemma bcast_b {α γ : Type} {x : Arr α} {X : List ℕ → List ℕ → List ℕ → α} {y : Arr ℝ} (op : α → ℝ → γ) (hx : Holds x B S T false rev X)
    (hy : BHolds y B S T rev G) : Holds (bcast op x y) B S T false rev fun b p q => op (X b p q) (G b p q) := by
  refine ⟨hx.rank, hx.square, ?_, ?_⟩
  · simp only [bcast, hx.shape]
    rcases hy.shape with e | e <;> rw [e]
    · rw [zipWith_bcastDim_self]
    · exact bcastDim_ones _ _
  · intro b p q hb hp hq hd
    simp only [bcast]
    rw [hy.get b p q hb hp hq, hx.shape, bcastIdx_self (by rw [inRange_append hb.length]; exact ⟨hb, pos_inRange hx.rank hp hq⟩),
      hx.get b p q hb hp hq hd]

lemma maskArr_b {r : Arr ℝ} {z : Option (Arr Bool)} {P : List ℕ → List ℕ → List ℕ → Bool} (hr : BHolds r B S T rev F)
    (hB : B ≠ []) (hz : OMask z B S T rev P) : BHolds (maskArr r z) B S T rev fun b p q => if P b p q then 0 else F b p q := by
  have hn : r.ndim ≠ 0 := by
    have := hr.length
    have := List.length_pos_iff.2 hB
    simp only [ndim]; omega
  cases z with
  | none => exact ⟨hr.rank, hr.shape, fun b p q hb hp hq => by rw [hz b p q hb hp hq]; exact hr.get b p q hb hp hq⟩
  | some m =>
    have e : maskArr r (some m) = bcast (fun b v => if b then 0 else v) m r := by simp [maskArr, hn]
    rw [e]
    exact Holds.b (bcast_b _ hz hr)

lemma weighted_holds {x y : Arr ℝ} (c : ℝ × ℝ) (hB : B ≠ []) (hx : Holds x B S T false rev F) (hy : BHolds y B S T rev G) :
    ∃ z, weightedSum c (some x) (some y) = some z ∧ Holds z B S T false rev fun b p q => c.1 * F b p q + c.2 * G b p q := by
  have hn : x.ndim ≠ 0 := by
    have := (Holds.b hx).length
    have := List.length_pos_iff.2 hB
    simp only [ndim]; omega
  refine ⟨_, rfl, ?_⟩
  unfold bcastS
  rw [if_neg hn]
  exact bcast_b _ hx hy

lemma weighted_scalar {x y : Arr ℝ} (c : ℝ × ℝ) (hx : x.shape = []) (hF : ∀ b p q, F b p q = x.get []) (hy : BHolds y B S T rev G) :
    ∃ z, weightedSum c (some x) (some y) = some z ∧ BHolds z B S T rev fun b p q => c.1 * F b p q + c.2 * G b p q := by
  refine ⟨_, rfl, ?_⟩
  unfold bcastS
  rw [if_pos (by simp [ndim, hx])]
  exact ⟨hy.rank, hy.shape, fun b p q hb hp hq => by simp only [Arr.map]; rw [hy.get b p q hb hp hq, hF]⟩

/-- The masks of a kernel: none, one for each input, or one for the only input; `M1`, `M2` tell which positions they mask. -/
inductive MasksOf (k : Kernel ℝ) (L : Logical ℝ) : (ℕ → List ℕ → Bool) → (ℕ → List ℕ → Bool) → Prop
  | none (h1 : k.mask1 = none) (h2 : k.mask2 = none) : MasksOf k L (fun _ _ => false) fun _ _ => false
  | both (m1 m2 : Arr Bool) (h1 : k.mask1 = some m1) (h2 : k.mask2 = some m2)
      (s1 : C25.MaskShape m1 k.batchAxis k.channelAxis L.n1 L.S1) (s2 : C25.MaskShape m2 k.batchAxis k.channelAxis L.n2 L.S2) :
      MasksOf k L (C25.Masked m1 k.batchAxis k.channelAxis) (C25.Masked m2 k.batchAxis k.channelAxis)
  | one (m : Arr Bool) (h1 : k.mask1 = some m) (h2 : k.mask2 = none) (hk : L.k22 = none)
      (s1 : C25.MaskShape m k.batchAxis k.channelAxis L.n1 L.S1) (s2 : C25.MaskShape m k.batchAxis k.channelAxis L.n2 L.S2) :
      MasksOf k L (C25.Masked m k.batchAxis k.channelAxis) (C25.Masked m k.batchAxis k.channelAxis)

lemma maskProds_ok (k : Kernel ℝ) (L : Logical ℝ) {M1 M2 : ℕ → List ℕ → Bool} (hd : k.diagonalSpatial = false) (hS : L.S1.length = L.S2.length)
    (h : MasksOf k L M1 M2) :
    ∃ z11 z12 z22, maskProds k k.mask1 k.mask2 = .ok (z11, z12, z22) ∧
      OMask z11 (batchShape k.diagonalBatch L.n1) L.S1 L.S1 k.isReversed (fun b p q => M1 ((dbl b).getD 0 0) p || M1 ((dbl b).getD 1 0) q) ∧
      OMask z12 [L.n1, L.n2] L.S1 L.S2 k.isReversed (fun b p q => M1 (b.getD 0 0) p || M2 (b.getD 1 0) q) ∧
      (L.k22.isSome → OMask z22 (batchShape k.diagonalBatch L.n2) L.S2 L.S2 k.isReversed
        fun b p q => M2 ((dbl b).getD 0 0) p || M2 ((dbl b).getD 1 0) q) := by
  cases h with
  | none h1 h2 =>
    refine ⟨none, none, none, ?_, ?_, ?_, ?_⟩
    · rw [h1, h2]; simp [maskProds, maskProd, bind, Except.bind, pure, Except.pure]
    all_goals simp [OMask]
  | both m1 m2 h1 h2 s1 s2 =>
    obtain ⟨z11, e11, g11⟩ := C25.maskProd_self k m1 _ _ s1
    obtain ⟨z22, e22, g22⟩ := C25.maskProd_self k m2 _ _ s2
    obtain ⟨z12, e12, g12⟩ := C25.maskProd_ok k m1 m2 _ _ _ _ s1 s2 hS (by simp [hd])
    rw [hd] at g11 g22 g12
    refine ⟨some z11, some z12, some z22, ?_, g11, g12, fun _ => g22⟩
    rw [h1, h2]
    simp only [maskProds, e11, e22, e12, bind, Except.bind, pure, Except.pure]
  | one m h1 h2 hk s1 s2 =>
    obtain ⟨z11, e11, g11⟩ := C25.maskProd_self k m _ _ s1
    obtain ⟨z12, e12, g12⟩ := C25.maskProd_ok k m m _ _ _ _ s1 s2 hS (by simp [hd])
    rw [hd] at g11 g12
    have hp : maskProd k (some m) none 2 = maskProd k (some m) (some m) 2 := by
      unfold maskProd
      simp only [bind, Except.bind, pure, Except.pure]
      cases maskReshape k m <;> rfl
    refine ⟨some z11, some z12, some z11, ?_, g11, g12, by simp [hk]⟩
    rw [h1, h2]
    simp only [maskProds, e11, hp, e12, bind, Except.bind, pure, Except.pure]

lemma batchShape_length (d : Bool) (n : ℕ) : (batchShape d n).length = if d then 1 else 2 := by cases d <;> rfl

/-- What the kernel must satisfy for positional embeddings: the two inputs have the same spatial shape. -/
structure EmbedOk (l : Attention) (k : Kernel ℝ) (L : Logical ℝ) (c : ℕ) : Prop where
  hne : k.batchAxis ≠ k.channelAxis
  hba : k.batchAxis < L.S1.length + 2
  hca : k.channelAxis < L.S1.length + 2
  shape1 : k.shape1 = actIdx k.batchAxis k.channelAxis L.n1 c L.S1
  same : l.posEmb ≠ .none → L.S2 = L.S1

/-- The embedded arrays of the code hold the embedded covariances. -/
structure Interp (l : Attention) (k : Kernel ℝ) (L E : Logical ℝ) (r1 r12 r2 : Option (Arr ℝ)) : Prop where
  cov1 : ∃ z, weightedSum (l.coefficients k) (some k.cov1) r1 = some z ∧
    Holds z (batchShape k.diagonalBatch L.n1) L.S1 L.S1 false k.isReversed fun b => E.k11 (dbl b)
  nngp : ∃ z, weightedSum (l.coefficients k) (some k.nngp) r12 = some z ∧ Holds z [L.n1, L.n2] L.S1 L.S2 false k.isReversed E.k12
  cov2 : OptRel (fun c F => Holds c (batchShape k.diagonalBatch L.n2) L.S2 L.S2 false k.isReversed fun b => F (dbl b))
    (weightedSum (l.coefficients k) k.cov2 r2) E.k22
  ntk : OptRel (fun a F => (a.shape = [] ∧ ∀ b p q, F b p q = a.get []) ∨ BHolds a [L.n1, L.n2] L.S1 L.S2 k.isReversed F)
    (weightedSum (l.coefficients k) k.ntk r12) E.ntk

lemma coefficients_eq (l : Attention) (k : Kernel ℝ) (L : Logical ℝ) (c : ℕ) (h : EmbedOk l k L c) :
    l.coefficients k = embedWeights l.posEmb l.posStd c (l.posChan.getD c) := by
  have hc : k.shape1.getD k.channelAxis 0 = c := by
    rw [h.shape1]; exact (gather_act _ _ _ _ _ h.hne h.hba h.hca).2.2
  unfold coefficients embedWeights
  cases l.posEmb <;> simp only [hc, Nat.cast_add, one_mul]

lemma interp_ok (l : Attention) (k : Kernel ℝ) (L : Logical ℝ) (c : ℕ) {M1 M2 : ℕ → List ℕ → Bool} (hk : k.Stores L)
    (hd : k.diagonalSpatial = false) (he : EmbedOk l k L c) (hM : MasksOf k L M1 M2) :
    ∃ r1 r12 r2, l.allPosEmb k = .ok (r1, r12, r2) ∧
      Interp l k L (withEmbedding l.posEmb l.posStd c (l.posChan.getD c) (posCov l.pNorm l.decay) M1 M2 L) r1 r12 r2 := by
  obtain ⟨hn, h1, h2, h3⟩ := hk
  rw [hd] at hn h1 h2 h3
  by_cases hp : l.posEmb = .none
  · refine ⟨none, none, none, by simp [allPosEmb, hp], ?_⟩
    simp only [withEmbedding, if_pos hp]
    refine ⟨⟨_, rfl, h1⟩, ⟨_, rfl, hn⟩, ?_, ?_⟩
    · cases e : k.cov2 <;> rw [e] at h2 <;> exact h2
    · cases e : k.ntk <;> cases e' : L.ntk <;> rw [e, e'] at h3
      · exact h3
      · exact h3
      · exact h3
      · rcases h3 with h3 | h3
        · exact .inl h3
        · exact .inr (Holds.b h3)
  · have hSS := he.same hp
    have hsp : spatialSizes k.shape1 [k.batchAxis, k.channelAxis] = L.S1 := by
      have := (gather_act k.batchAxis k.channelAxis L.n1 c L.S1 he.hne he.hba he.hca).1
      rw [spatialSizes, he.shape1, actIdx_length _ _ _ _ _ he.hne he.hba he.hca]
      exact this
    obtain ⟨r, er, rs, rg⟩ := posPdist_ok l L.S1
    have hr : ∃ r', (if k.isReversed then reverseZipped r 0 else .ok r) = .ok r' ∧ r'.shape = pos false k.isReversed L.S1 L.S1 ∧
        ∀ p q, InRange p L.S1 → InRange q L.S1 → r'.get (pos false k.isReversed p q) = posCov l.pNorm l.decay p q := by
      cases hrev : k.isReversed
      · exact ⟨r, by simp, by rw [pos_full]; exact rs, fun p q hp hq => by rw [pos_full]; exact rg p q hp hq⟩
      · obtain ⟨z, ez, zs, zg⟩ := reverseZipped_ok r [] L.S1 L.S1 rs rfl
        refine ⟨z, by simpa using ez, by rw [pos_full]; exact zs, fun p q hp hq => ?_⟩
        rw [← rg p q hp hq, pos_full]
        exact zg [] p q rfl hp.length hq.length
    obtain ⟨r', er', rs', rg'⟩ := hr
    obtain ⟨z11, z12, z22, ez, g11, g12, g22⟩ := maskProds_ok k L hd (by rw [hSS]) hM
    have hbn : ∀ n, k.batchNdim = (batchShape k.diagonalBatch n).length := by
      intro n; rw [batchShape_length]; rfl
    have b1 := (expandLead_b (B := batchShape k.diagonalBatch L.n1) rs' rg').2
    have b12 : BHolds (expandLead r' 2) [L.n1, L.n2] L.S1 L.S1 k.isReversed _ := (expandLead_b (B := [L.n1, L.n2]) rs' rg').2
    have b2 := (expandLead_b (B := batchShape k.diagonalBatch L.n2) rs' rg').2
    rw [← hbn] at b1 b2
    have m1 := maskArr_b b1 (C25.batchShape_ne _ _) g11
    rw [hSS] at g12 g22
    have m12 := maskArr_b b12 (by simp) g12
    refine ⟨some (maskArr (expandLead r' k.batchNdim) z11), some (maskArr (expandLead r' 2) z12),
      k.cov2.map fun _ => maskArr (expandLead r' k.batchNdim) z22, ?_, ?_⟩
    · unfold allPosEmb
      by_cases hrv : k.isReversed = true
      · rw [if_pos hrv] at er'
        cases hpe : l.posEmb
        · exact absurd hpe hp
        · simp only [hsp, er, ez, bind, Except.bind, pure, Except.pure, if_pos hrv, er']
        · simp only [hsp, er, ez, bind, Except.bind, pure, Except.pure, if_pos hrv, er']
      · rw [if_neg hrv] at er'
        cases er'
        cases hpe : l.posEmb
        · exact absurd hpe hp
        · simp only [hsp, er, ez, bind, Except.bind, pure, Except.pure, if_neg hrv]
        · simp only [hsp, er, ez, bind, Except.bind, pure, Except.pure, if_neg hrv]
    · have hc := coefficients_eq l k L c he
      simp only [withEmbedding, if_neg hp, ← hc]
      refine ⟨?_, ?_, ?_, ?_⟩
      · exact weighted_holds _ (C25.batchShape_ne _ _) h1 m1
      · rw [hSS] at hn ⊢
        exact weighted_holds _ (by simp) hn m12
      · cases e : k.cov2 <;> cases e' : L.k22 <;> rw [e, e'] at h2 <;> simp only [OptRel] at h2
        · simp only [embedL, e', OptRel, weightedSum, Option.map_none]
        · have m2 := maskArr_b b2 (C25.batchShape_ne _ _) (g22 (by simp [e']))
          rw [hSS] at h2
          obtain ⟨z, hz, hz'⟩ := weighted_holds (l.coefficients k) (C25.batchShape_ne _ _) h2 m2
          simp only [embedL, e', Option.map_some]
          rw [hz, hSS]
          exact hz'
      · cases e : k.ntk <;> cases e' : L.ntk <;> rw [e, e'] at h3 <;> simp only [OptRel] at h3
        · simp only [embedL, e', OptRel, weightedSum, Option.map_none]
        · rw [hSS] at h3 ⊢
          simp only [embedL, e', Option.map_some]
          rcases h3 with ⟨s1, s2⟩ | h3
          · obtain ⟨z, hz, hz'⟩ := weighted_scalar (l.coefficients k) s1 s2 m12
            rw [hz]
            exact .inr hz'
          · obtain ⟨z, hz, hz'⟩ := weighted_holds (l.coefficients k) (by simp) h3 m12
            rw [hz]
            exact .inr (Holds.b hz')

end NT.Attn
