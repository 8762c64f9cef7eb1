import Verif.Lemmas.Attention5

/-! Auxiliary lemmas for C59: the kernel with linear scaling. -/

namespace NT.Attn
open NT Spec Attention Kernel
open NT.Arr

lemma MasksOf.fst {k : Kernel ℝ} {L : Logical ℝ} {M1 M2 : ℕ → List ℕ → Bool} (h : MasksOf k L M1 M2) : MaskOf k L.n1 L.S1 k.mask1 M1 := by
  cases h with
  | none h1 h2 => rw [h1]; exact .none
  | both m1 m2 h1 h2 s1 s2 => rw [h1]; exact .some m1 s1
  | one m h1 h2 hk s1 s2 => rw [h1]; exact .some m s1

lemma MasksOf.snd {k : Kernel ℝ} {L : Logical ℝ} {M1 M2 : ℕ → List ℕ → Bool} (h : MasksOf k L M1 M2) (hk : L.k22 ≠ Option.none) :
    MaskOf k L.n2 L.S2 k.mask2 M2 := by
  cases h with
  | none h1 h2 => rw [h2]; exact .none
  | both m1 m2 h1 h2 s1 s2 => rw [h2]; exact .some m2 s2
  | one m h1 h2 hk' s1 s2 => exact absurd hk' hk

/-- Shapes are not changed by embeddings. -/
lemma embedded_shapes (l : Attention) (c : ℕ) (M1 M2 : ℕ → List ℕ → Bool) (L : Logical ℝ) :
    (embedded l c M1 M2 L).n1 = L.n1 ∧ (embedded l c M1 M2 L).n2 = L.n2 ∧ (embedded l c M1 M2 L).S1 = L.S1 ∧ (embedded l c M1 M2 L).S2 = L.S2 ∧
      ((embedded l c M1 M2 L).k22 = none ↔ L.k22 = none) := by
  unfold embedded withEmbedding
  split_ifs <;> simp [embedL]

lemma values_shapes (l : Attention) (c : ℕ) (M1 M2 : ℕ → List ℕ → Bool) (L : Logical ℝ) :
    (attnValues l c M1 M2 L).n1 = L.n1 ∧ (attnValues l c M1 M2 L).n2 = L.n2 ∧ (attnValues l c M1 M2 L).S1 = L.S1 ∧ (attnValues l c M1 M2 L).S2 = L.S2 ∧
      ((attnValues l c M1 M2 L).k22 = none ↔ L.k22 = none) := by
  have := embedded_shapes l c M1 M2 L
  unfold attnValues
  split_ifs
  · exact this
  · simp

lemma holds_pair {a : Arr ℝ} {n1 n2 : ℕ} {S T : List ℕ} {d rev : Bool} {F G : List ℕ → List ℕ → List ℕ → ℝ}
    (h : Holds a [n1, n2] S T d rev F) (e : ∀ i j p q, F [i, j] p q = G [i, j] p q) : Holds a [n1, n2] S T d rev G := by
  refine ⟨h.rank, h.square, h.shape, fun b p q hb hp hq hd => ?_⟩
  rw [h.get b p q hb hp hq hd]
  obtain ⟨i, b', rfl, hi, hb'⟩ := inRange_cons_right.1 hb
  obtain ⟨j, b'', rfl, hj, hb''⟩ := inRange_cons_right.1 hb'
  obtain rfl := inRange_nil_right.1 hb''
  exact e i j p q

lemma batchShape_cases (d : Bool) (n : ℕ) : batchShape d n = [n, n] ∨ batchShape d n = [n] ∧ n = n := by
  cases d <;> simp [batchShape]

lemma kernelLinear_ok (l : Attention) (k : Kernel ℝ) (L : Logical ℝ) (c : ℕ) {M1 M2 : ℕ → List ℕ → Bool} (hk : k.Stores L)
    (hd : k.diagonalSpatial = false) (he : EmbedOk l k L c) (hM : MasksOf k L M1 M2)
    (hself : L.k22 = none → L.n2 = L.n1 ∧ L.S2 = L.S1) (hz : ∀ a, k.ntk = some a → a.shape = [] → a.get [] = 0) :
    ∃ k', l.kernelLinear k = .ok k' ∧
      k'.Stores (attention l c M1 M2 L) ∧
      k' = { k with cov1 := k'.cov1, nngp := k'.nngp, cov2 := k'.cov2, ntk := k'.ntk, isGaussian := true } ∧
      ∀ a, k'.ntk = some a → a.shape ≠ [] := by
  unfold attention
  rw [← bsq]
  obtain ⟨r1, r12, r2, er, hi⟩ := interp_ok l k L c hk hd he hM
  set E := embedded l c M1 M2 L with hE
  have hi : Interp l k L E r1 r12 r2 := hi
  obtain ⟨s1, s2, s3, s4, s5⟩ := embedded_shapes l c M1 M2 L
  rw [← hE] at s1 s2 s3 s4 s5
  obtain ⟨v1, v2, v3, v4, v5⟩ := values_shapes l c M1 M2 L
  obtain ⟨c1, ec1, hc1⟩ := hi.cov1
  obtain ⟨nn, enn, hnn⟩ := hi.nngp
  obtain ⟨kn, kc1, kc2, kt⟩ := hk
  rw [hd] at kn kc1 kc2 kt
  obtain ⟨G1, eG1, hG1⟩ := weighting_ok l k hc1 hM.fst
  -- the weights of the second inputs
  have hG2 : ∃ G2, onOpt' (fun a => l.weighting k a k.mask2) (weightedSum (l.coefficients k) k.cov2 r2) = .ok G2 ∧
      Holds (G2.getD G1) [L.n2] L.S2 L.S2 false k.isReversed (fun b p q => weight2 l c M1 M2 L (b.getD 0 0) p q) ∧
      (L.k22 ≠ none → ∃ a, G2 = some a) := by
    have h2 := hi.cov2
    cases e1 : weightedSum (l.coefficients k) k.cov2 r2 with
    | none =>
      cases e2 : E.k22 with
      | none =>
        have hn := s5.1 e2
        obtain ⟨q1, q2⟩ := hself hn
        refine ⟨none, rfl, ?_, fun h => absurd hn h⟩
        rw [q1, q2]
        simp only [weight2, ← hE, e2, otherWeight]
        exact hG1
      | some F => rw [e1, e2] at h2; exact h2.elim
    | some a =>
      cases e2 : E.k22 with
      | none => rw [e1, e2] at h2; exact h2.elim
      | some F =>
        rw [e1, e2] at h2
        have hn : L.k22 ≠ none := fun h => by rw [s5.2 h] at e2; cases e2
        obtain ⟨G2, e3, h3⟩ := weighting_ok l k h2 (hM.snd hn)
        refine ⟨some G2, by simp [onOpt', e3, Except.map], ?_, fun _ => ⟨_, rfl⟩⟩
        simp only [weight2, ← hE, e2, otherWeight]
        exact h3
  obtain ⟨G2, eG2, hG2', hG2s⟩ := hG2
  -- the averages
  have hV1 : ∃ a, (if l.valPosEmb then (weightedSum (l.coefficients k) (some k.cov1) r1).getD k.cov1 else k.cov1) = a ∧
      Holds a (batchShape k.diagonalBatch L.n1) L.S1 L.S1 false k.isReversed fun b => (attnValues l c M1 M2 L).k11 (dbl b) := by
    unfold attnValues
    split_ifs
    · exact ⟨c1, by simp [ec1], hc1⟩
    · exact ⟨k.cov1, rfl, kc1⟩
  have hV12 : ∃ a, (if l.valPosEmb then (weightedSum (l.coefficients k) (some k.nngp) r12).getD k.nngp else k.nngp) = a ∧
      Holds a [L.n1, L.n2] L.S1 L.S2 false k.isReversed (attnValues l c M1 M2 L).k12 := by
    unfold attnValues
    split_ifs
    · exact ⟨nn, by simp [enn], hnn⟩
    · exact ⟨k.nngp, rfl, kn⟩
  have hV2 : OptRel (fun c F => Holds c (batchShape k.diagonalBatch L.n2) L.S2 L.S2 false k.isReversed fun b => F (dbl b))
      (if l.valPosEmb then weightedSum (l.coefficients k) k.cov2 r2 else k.cov2) (attnValues l c M1 M2 L).k22 := by
    unfold attnValues
    split_ifs
    · exact hi.cov2
    · exact kc2
  have hVt : OptRel (fun a F => (a.shape = [] ∧ (∀ b p q, F b p q = 0) ∧ a.get [] = 0) ∨ BHolds a [L.n1, L.n2] L.S1 L.S2 k.isReversed F)
      (if l.valPosEmb then weightedSum (l.coefficients k) k.ntk r12 else k.ntk) (attnValues l c M1 M2 L).ntk := by
    unfold attnValues
    split_ifs
    · have ht := hi.ntk
      cases e1 : k.ntk with
      | none => rw [e1] at ht; cases e2 : E.ntk <;> rw [e2] at ht <;> exact ht
      | some a =>
        rw [e1] at ht
        cases e2 : E.ntk with
        | none => rw [e2] at ht; cases r12 <;> exact ht.elim
        | some F =>
          rw [e2] at ht
          cases e3 : r12 with
          | none =>
            rw [e3] at ht
            simp only [weightedSum, OptRel] at ht ⊢
            rcases ht with ⟨t1, t2⟩ | ht
            · have := hz a e1 t1
              exact .inl ⟨t1, fun b p q => by rw [t2, this], this⟩
            · exact .inr ht
          | some r =>
            rw [e3] at ht enn
            simp only [weightedSum, OptRel] at ht enn ⊢
            rcases ht with ⟨t1, t2⟩ | ht
            · exfalso
              -- a broadcast of an array of the rank of `nngp` is not a scalar
              have hr : r.shape ≠ [] := by
                intro hr
                have e4 : nn = bcastS (fun u v => (l.coefficients k).1 * u + (l.coefficients k).2 * v) k.nngp r := by
                  simpa using enn.symm
                have hnd : k.nngp.ndim ≠ 0 := by
                  have := (Holds.b kn).length
                  simp only [ndim]
                  simp at this
                  omega
                have hs := hnn.shape
                rw [e4, bcastS, if_neg hnd] at hs
                simp [bcast, hr] at hs
              unfold bcastS at t1
              split_ifs at t1 with h0
              · exact hr t1
              · simp only [bcast] at t1
                have := congrArg List.length t1
                simp only [List.length_zipWith, List.length_nil] at this
                have h1 : r.shape.length ≠ 0 := fun h => hr (List.length_eq_zero_iff.1 h)
                simp only [ndim] at h0
                omega
            · exact .inr ht
    · cases e1 : k.ntk <;> cases e2 : L.ntk <;> rw [e1, e2] at kt
      · exact kt
      · exact kt
      · exact kt
      · rcases kt with ⟨t1, t2⟩ | kt
        · have := hz _ e1 t1
          exact .inl ⟨t1, fun b p q => by rw [t2, this], this⟩
        · exact .inr (Holds.b kt)
  obtain ⟨a1, ea1, ha1⟩ := hV1
  obtain ⟨a12, ea12, ha12⟩ := hV12
  obtain ⟨y1, ey1, hy1⟩ := weigh_ok l hG1 hG1 (Holds.b ha1) (batchShape_cases _ _) none rfl
  obtain ⟨y12, ey12, hy12⟩ := weigh_ok l hG1 hG2' (Holds.b ha12) (.inl rfl) G2 rfl
  have hy2 : ∃ y2, (match if l.valPosEmb then weightedSum (l.coefficients k) k.cov2 r2 else k.cov2, G2 with
      | some a, some G => (l.weigh a G none).map some
      | some a, none => .ok (some (affine a l.ovStd l.bStd))
      | none, _ => .ok none : Except Err (Option (Arr ℝ))) = .ok y2 ∧
      OptRel (fun c F => Holds c (batchShape k.diagonalBatch L.n2) L.S2 L.S2 false k.isReversed fun b => F (dbl b)) y2
        (attendL l.ovStd (bsq l.bStd) (weight1 l c M1 M2 L) (weight2 l c M1 M2 L) (attnValues l c M1 M2 L)).k22 := by
    cases e1 : (if l.valPosEmb then weightedSum (l.coefficients k) k.cov2 r2 else k.cov2) with
    | none =>
      rw [e1] at hV2
      cases e2 : (attnValues l c M1 M2 L).k22 with
      | none => exact ⟨none, rfl, by simp [attendL, e2, OptRel]⟩
      | some F => rw [e2] at hV2; exact hV2.elim
    | some a =>
      rw [e1] at hV2
      cases e2 : (attnValues l c M1 M2 L).k22 with
      | none => rw [e2] at hV2; exact hV2.elim
      | some F =>
        rw [e2] at hV2
        have hn : L.k22 ≠ none := fun h => by rw [v5.2 h] at e2; cases e2
        obtain ⟨G, rfl⟩ := hG2s hn
        simp only [Option.getD_some] at hG2'
        obtain ⟨y2, ey2, hy2⟩ := weigh_ok l hG2' hG2' (Holds.b hV2) (batchShape_cases _ _) none rfl
        refine ⟨some y2, by simp [ey2, Except.map], ?_⟩
        simp only [attendL, e2, Option.map_some, OptRel, v3, v4]
        exact hy2
  obtain ⟨y2, ey2, hy2⟩ := hy2
  have hb12 : (match l.bStd with | none => y12 | some b => y12.map fun v => v - b ^ 2) = y12.map fun v => v - bsq l.bStd := by
    cases l.bStd with
    | none => simp [bsq, Arr.map]
    | some b => simp [bsq]
  have hm12 : Holds (y12.map fun v => v - bsq l.bStd) [L.n1, L.n2] L.S1 L.S2 false k.isReversed fun b p q =>
      l.ovStd ^ 2 * attended L.S1 L.S2 (weight1 l c M1 M2 L) (weight2 l c M1 M2 L) (attnValues l c M1 M2 L).k12 b p q := by
    refine holds_pair ⟨hy12.rank, hy12.square, hy12.shape, fun b p q hb hp hq hdd => ?_⟩ (F := fun b p q => l.ovStd ^ 2 * (∑ u ∈ box L.S1,
      ∑ v ∈ box L.S2, weight1 l c M1 M2 L (fst2 b) p u * (attnValues l c M1 M2 L).k12 b u v * weight2 l c M1 M2 L (snd2 b) q v)) ?_
    · simp only [Arr.map]
      rw [hy12.get b p q hb hp hq hdd]
      simp only [List.getD_cons_zero, ← hE, weight1]
      ring
    · intro i j p q
      simp [attended, fst2, snd2, dbl]
  have hyt : ∃ yt, onOpt' (fun a => do
      let a ← l.weigh a G1 G2
      Except.ok (bcastS (fun u v => u + 2 * v) a (match l.bStd with | none => y12 | some b => y12.map fun v => v - b ^ 2)))
      (if l.valPosEmb then weightedSum (l.coefficients k) k.ntk r12 else k.ntk) = .ok yt ∧
      OptRel (fun a F => Holds a [L.n1, L.n2] L.S1 L.S2 false k.isReversed F) yt
        (attendL l.ovStd (bsq l.bStd) (weight1 l c M1 M2 L) (weight2 l c M1 M2 L) (attnValues l c M1 M2 L)).ntk := by
    rw [hb12]
    cases e1 : (if l.valPosEmb then weightedSum (l.coefficients k) k.ntk r12 else k.ntk) with
    | none =>
      rw [e1] at hVt
      cases e2 : (attnValues l c M1 M2 L).ntk with
      | none => exact ⟨none, rfl, by simp [attendL, e2, OptRel]⟩
      | some F => rw [e2] at hVt; exact hVt.elim
    | some a =>
      rw [e1] at hVt
      cases e2 : (attnValues l c M1 M2 L).ntk with
      | none => rw [e2] at hVt; exact hVt.elim
      | some F =>
        rw [e2] at hVt
        rcases hVt with ⟨t1, t2, t3⟩ | ht
        · have hn0 : a.ndim = 0 := by simp [ndim, t1]
          refine ⟨some (bcastS (fun u v => u + 2 * v) (affine a l.ovStd l.bStd) (y12.map fun v => v - bsq l.bStd)), ?_, ?_⟩
          · simp [onOpt', weigh, hn0, bind, Except.bind, Except.map]
          · have ha0 : (affine a l.ovStd l.bStd).ndim = 0 := by rw [affine_eq]; exact hn0
            simp only [attendL, e2, Option.map_some, OptRel, v3, v4]
            unfold bcastS
            rw [if_pos ha0]
            refine ⟨hm12.rank, hm12.square, hm12.shape, fun b p q hb hp hq hdd => ?_⟩
            have := hm12.get b p q hb hp hq hdd
            simp only [Arr.map] at this ⊢
            rw [this, affine_eq]
            simp only [Arr.map, t3, mul_zero, zero_add]
            congr 1
            simp [attended, t2]
        · obtain ⟨yt, eyt, hyt⟩ := weigh_ok l hG1 hG2' ht (.inl rfl) G2 rfl
          refine ⟨some (bcastS (fun u v => u + 2 * v) yt (y12.map fun v => v - bsq l.bStd)), ?_, ?_⟩
          · simp [onOpt', eyt, bind, Except.bind, Except.map]
          · simp only [attendL, e2, Option.map_some, OptRel, v3, v4]
            have hn : yt.ndim ≠ 0 := by
              have := (Holds.b hyt).length
              simp only [ndim]
              simp at this
              omega
            unfold bcastS
            rw [if_neg hn]
            refine holds_pair (bcast_b _ hyt (Holds.b hm12)) ?_
            intro i j p q
            simp [attended, fst2, snd2, dbl, ← hE, weight1]
  obtain ⟨yt, eyt, hyt⟩ := hyt
  refine ⟨{ k with cov1 := y1, nngp := y12, cov2 := y2, ntk := yt, isGaussian := true }, ?_, ⟨?_, ?_, ?_, ?_⟩, rfl, ?_⟩
  · obtain ⟨o2, hV2'⟩ : ∃ o2, (if l.valPosEmb then weightedSum (l.coefficients k) k.cov2 r2 else k.cov2) = o2 := ⟨_, rfl⟩
    unfold kernelLinear
    simp only [er, bind, Except.bind]
    simp only [bind, Except.bind] at eyt
    rw [ec1] at ea1 ⊢
    rw [enn] at ea12 ⊢
    simp only [Option.getD_some] at ea1 ea12 ⊢
    simp only [eG1, eG2, ea1, ea12, ey1, ey12]
    simp only [hV2'] at ey2 ⊢
    have eyt' := eyt
    cases hb : l.bStd <;> simp only [hb] at eyt' ⊢
    all_goals
      cases o2 with
      | none =>
        simp only [Except.ok.injEq] at ey2
        subst ey2
        simp only [eyt']
      | some a =>
        cases G2 with
        | none =>
          simp only [Except.ok.injEq] at ey2
          subst ey2
          simp only [affine, hb, eyt']
        | some G =>
          simp only at ey2
          simp only [ey2, eyt']
  · simp only [attendL, v1, v2, v3, v4, hd]
    refine holds_pair hy12 ?_
    intro i j p q
    simp [attended, fst2, snd2, dbl, ← hE, weight1]
  · simp only [attendL, v1, v2, v3, v4, hd]
    exact hy1
  · have e : (attendL l.ovStd (bsq l.bStd) (weight1 l c M1 M2 L) (weight2 l c M1 M2 L) (attnValues l c M1 M2 L)).n2 = L.n2 := v2
    have e' : (attendL l.ovStd (bsq l.bStd) (weight1 l c M1 M2 L) (weight2 l c M1 M2 L) (attnValues l c M1 M2 L)).S2 = L.S2 := v4
    simp only [e, e', hd]
    exact hy2
  · simp only [hd]
    have e1 : (attendL l.ovStd (bsq l.bStd) (weight1 l c M1 M2 L) (weight2 l c M1 M2 L) (attnValues l c M1 M2 L)).n1 = L.n1 := v1
    have e2 : (attendL l.ovStd (bsq l.bStd) (weight1 l c M1 M2 L) (weight2 l c M1 M2 L) (attnValues l c M1 M2 L)).n2 = L.n2 := v2
    have e3 : (attendL l.ovStd (bsq l.bStd) (weight1 l c M1 M2 L) (weight2 l c M1 M2 L) (attnValues l c M1 M2 L)).S1 = L.S1 := v3
    have e4 : (attendL l.ovStd (bsq l.bStd) (weight1 l c M1 M2 L) (weight2 l c M1 M2 L) (attnValues l c M1 M2 L)).S2 = L.S2 := v4
    rw [e1, e2, e3, e4]
    generalize (attendL l.ovStd (bsq l.bStd) (weight1 l c M1 M2 L) (weight2 l c M1 M2 L) (attnValues l c M1 M2 L)).ntk = F at hyt
    cases yt <;> cases F
    · trivial
    · exact hyt.elim
    · exact hyt.elim
    · exact .inr hyt
  · intro a ha
    obtain rfl : yt = some a := ha
    generalize (attendL l.ovStd (bsq l.bStd) (weight1 l c M1 M2 L) (weight2 l c M1 M2 L) (attnValues l c M1 M2 L)).ntk = F at hyt
    cases F
    · exact hyt.elim
    · intro h
      have := Holds.shape hyt
      rw [h] at this
      simp at this

end NT.Attn
