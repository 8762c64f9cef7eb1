import Verif.Lemmas.Attention6
import Verif.Lemmas.Rules7
import Verif.Lemmas.Rules11
import Verif.Tac

/-! Self-attention with square root scaling. -/

namespace NT.Attn
open NT Spec Kernel Attention
open NT.Arr

variable {B S T : List ℕ} {rev : Bool} {F G : List ℕ → List ℕ → List ℕ → ℝ}

/-- A number, or an array that may have to be broadcast over the batch. -/
def Rhs (r : Arr ℝ) (B S T : List ℕ) (rev : Bool) (G : List ℕ → List ℕ → List ℕ → ℝ) : Prop :=
  (r.shape = [] ∧ ∀ b p q, G b p q = r.get []) ∨ BHolds r B S T rev G

lemma rhs_broadcast {r : Arr ℝ} (hST : S.length = T.length) (h : Rhs r B S T rev G) :
    ∃ y, r.broadcastTo (B ++ pos false rev S T) = .ok y ∧ Holds y B S T false rev G := by
  have key : r.shape = [] ∨ Rules.Compat r.shape (B ++ pos false rev S T) ∧
      ∀ x < r.shape.length, r.shape.getD x 0 = 1 ∨ r.shape.getD x 0 = (B ++ pos false rev S T).getD x 0 := by
    rcases h with h | h
    · exact .inl h.1
    · right
      have : r.shape.length = (B ++ pos false rev S T).length ∧ ∀ x < r.shape.length, r.shape.getD x 0 = 1 ∨ r.shape.getD x 0 = (B ++ pos false rev S T).getD x 0 := by
        rcases h.shape with e | e
        · rw [e]; exact ⟨rfl, fun _ _ => .inr rfl⟩
        · rw [e]
          refine ⟨by simp, fun x hx => ?_⟩
          by_cases hx' : x < B.length
          · left
            rw [List.getD_append _ _ _ _ (by simpa using hx'), List.getD_replicate _ hx']
          · right
            rw [List.getD_append_right _ _ _ _ (by simpa using hx'), List.getD_append_right _ _ _ _ (by omega), List.length_replicate]
      refine ⟨⟨this.1.symm, fun x hx => ?_⟩, this.2⟩
      rcases this.2 x hx with e | e
      · exact .inr (.inr e)
      · exact .inl e.symm
  obtain ⟨y, e1, e2, e3⟩ := Rules.broadcastTo_ok r key
  refine ⟨y, e1, hST, by simp, e2, fun b p q hb hp hq _ => ?_⟩
  rw [e3 _ (by rw [inRange_append hb.length]; exact ⟨hb, pos_inRange hST hp hq⟩)]
  rcases h with ⟨h1, h2⟩ | h
  · rw [h1, Rules.bcastIdx_nil, h2]
  · exact h.get b p q hb hp hq

lemma sum_pos_box (hST : S.length = T.length) (f : List ℕ → ℝ) :
    ∑ c ∈ box (pos false rev S T), f c = ∑ u ∈ box S, ∑ v ∈ box T, f (pos false rev u v) := by
  rw [pos_full, box_sum_interleave _ _ (by simpa using hST), box_sum_rv]
  refine Finset.sum_congr rfl fun u _ => ?_
  rw [box_sum_rv]
  refine Finset.sum_congr rfl fun v _ => ?_
  rw [pos_full]

/-- A number for each entry of the batch, with axes of size 1 for the positions. -/
structure Total (y : Arr ℝ) (B : List ℕ) (m : ℕ) (f : List ℕ → ℝ) : Prop where
  shape : y.shape = B ++ List.replicate m 1
  get : ∀ b, InRange b B → y.get (b ++ List.replicate m 0) = f b

lemma dot_ok (d : Bool) {x : Arr ℝ} (hx : Holds x B S T false rev F) (hB : B.length = if d then 1 else 2) (r : Option (Arr ℝ))
    (hr : match r with | none => G = F | some r => Rhs r B S T rev G) :
    ∃ y, dot d x r = .ok y ∧ Total y B (2 * S.length) (pairing S T F G) := by
  have hP : (pos false rev S T).length = 2 * S.length := by rw [pos_full, interleave_length (by simpa using hx.rank)]; simp
  have hn : x.ndim = B.length + 2 * S.length := by rw [ndim, hx.shape, List.length_append, hP]
  have hax : List.range' (if d then 1 else 2) (x.ndim - if d then 1 else 2) = List.range' B.length (2 * S.length) := by
    rw [← hB, hn, Nat.add_sub_cancel_left]
  cases r with
  | none =>
    subst hr
    refine ⟨_, rfl, ?_, fun b hb => ?_⟩
    · simp only [hax, sumKeep, Arr.map]
      rw [hx.shape]
      refine ext_getD (by simp [hP]) fun i hi => ?_
      have hi : i < (B ++ pos false rev S T).length := by simpa using hi
      rw [Rules.getD_mapIdx _ _ _ hi]
      simp only [List.length_append, hP] at hi
      by_cases h : i < B.length
      · rw [if_neg (by simp; omega), List.getD_append _ _ _ _ h, List.getD_append _ _ _ _ h]
      · rw [if_pos (by simp; omega), List.getD_append_right _ _ _ _ (by omega), List.getD_replicate _ (by omega)]
    · simp only [hax, sumKeep, Arr.map]
      rw [hx.shape]
      have e := Rules.gather_range'_append (u := B) (v := pos false rev S T) (w := []) rfl hP
      rw [List.append_nil] at e
      rw [e, sumOver_eq_box, sum_pos_box hx.rank]
      refine Finset.sum_congr rfl fun u hu => Finset.sum_congr rfl fun v hv => ?_
      rw [mem_box] at hu hv
      have hl : (pos false rev u v).length = 2 * S.length := by
        rw [pos_full, interleave_length (by simp [hu.length, hv.length, hx.rank])]; simp [hu.length]
      have e2 : replaceAt (List.range' B.length (2 * S.length)) (pos false rev u v) (b ++ List.replicate (2 * S.length) 0) = b ++ pos false rev u v := by
        have : List.range' B.length (2 * S.length) = (List.range (2 * S.length)).map (· + b.length) := by
          rw [hb.length, List.range'_eq_map_range]
          refine List.map_congr_left fun a _ => by omega
        rw [this, Rules.replaceAt_shift]
        congr 1
        refine ext_getD (by simp [replaceAt, hl]) fun i hi => ?_
        have hi : i < 2 * S.length := by simpa [replaceAt] using hi
        rw [Rules.getD_replaceAt _ _ _ _ (by simpa using hi), if_pos (by simpa using hi)]
        congr 1
        have hi' : i < (List.range (2 * S.length)).length := by simpa using hi
        have := List.nodup_range.idxOf_getElem i hi'
        rwa [List.getElem_range] at this
      rw [e2, hx.get b u v hb hu hv (by simp), sq]
  | some r =>
    obtain ⟨r', e1, hr'⟩ := rhs_broadcast hx.rank hr
    have hgc : gather (List.range' B.length (2 * S.length)) (B ++ pos false rev S T) = pos false rev S T := by
      have e := Rules.gather_range'_append (u := B) (v := pos false rev S T) (w := []) rfl hP
      rwa [List.append_nil] at e
    have hnd : (List.range B.length ++ List.range' B.length (2 * S.length)).Nodup ∧ ∀ k ∈ List.range B.length ++ List.range' B.length (2 * S.length), k < B.length + 2 * S.length := by
      refine ⟨?_, fun k hk => ?_⟩
      · rw [List.nodup_append]
        refine ⟨List.nodup_range, List.nodup_range', fun a ha b hb h => ?_⟩
        simp at ha hb
        omega
      · simp at hk
        omega
    have hfree : freeAxes (B.length + 2 * S.length) (List.range B.length ++ List.range' B.length (2 * S.length)) = [] := by
      unfold freeAxes
      rw [List.filter_eq_nil_iff]
      intro a ha
      simp at ha ⊢
      omega
    have hn' : r'.ndim = B.length + 2 * S.length := by rw [ndim, hr'.shape, List.length_append, hP]
    obtain ⟨z, z1, z2, z3⟩ := dotGeneral_ok x r' (List.range' B.length (2 * S.length)) (List.range' B.length (2 * S.length)) (List.range B.length) (List.range B.length)
      (by rw [hn]; exact hnd) (by rw [hn']; exact hnd) (by rw [hx.shape, hr'.shape]) (by rw [hx.shape, hr'.shape])
    rw [hn, hn', hfree, hx.shape, Rules.gather_range_append rfl] at z2
    simp only [gather, List.map_nil, List.append_nil] at z2
    refine ⟨z.reshape (z.shape ++ List.replicate (2 * S.length) 1), ?_, by simp [reshape, z2], fun b hb => ?_⟩
    · unfold dot
      simp only [hx.shape, e1, hax, bind, Except.bind]
      simp only [← hB]
      rw [z1]
      simp
    · rw [reshape_get z _ (i := b ++ List.replicate (2 * S.length) 0) (j := b)]
      · have := z3 b [] [] (fun c => b ++ c) (fun c => b ++ c) (by simpa using hb.length) (by rw [hn, hfree]) (fun c hc => ?_) (fun c hc => ?_)
        · simp only [List.append_nil] at this
          rw [this, hx.shape, hgc, sumOver_eq_box, sum_pos_box hx.rank]
          refine Finset.sum_congr rfl fun u hu => Finset.sum_congr rfl fun v hv => ?_
          rw [mem_box] at hu hv
          rw [hx.get b u v hb hu hv (by simp), hr'.get b u v hb hu hv (by simp)]
        all_goals
          have hc : c.length = 2 * S.length := by simpa using hc
          have e := Rules.gather_range'_append (u := b) (v := c) (w := []) hb.length hc
          rw [List.append_nil] at e
          simp only [hn, hn', hfree]
          exact ⟨by simp [hb.length, hc], Rules.gather_range_append hb.length, rfl, e⟩
      · rw [z2]; exact hb
      · rw [ravel_append (by rw [z2]; exact hb.length), ravel_ones]
        simp

lemma bcast_total {x y : Arr ℝ} (op : ℝ → ℝ → ℝ) {f : List ℕ → ℝ} (hx : Total x B (2 * S.length) f) (hy : Holds y B S T false rev F) :
    Holds (bcast op x y) B S T false rev fun b p q => op (f b) (F b p q) := by
  have hP : ∀ {u v : List ℕ}, InRange u S → InRange v T → (pos false rev u v).length = 2 * S.length := fun {u v} hu hv => by
    rw [pos_full, interleave_length (by simp [hu.length, hv.length, hy.rank])]; simp [hu.length]
  have hP' : (pos false rev S T).length = 2 * S.length := by rw [pos_full, interleave_length (by simpa using hy.rank)]; simp
  refine ⟨hy.rank, hy.square, ?_, fun b p q hb hp hq hd => ?_⟩
  · simp only [bcast, hx.shape, hy.shape]
    rw [List.zipWith_append rfl, zipWith_bcastDim_self]
    congr 1
    rw [← hP']
    refine ext_getD (by simp) fun i hi => ?_
    have hi : i < (pos false rev S T).length := by simpa using hi
    simp [List.getD_eq_getElem?_getD, hi, bcastDim]
  · have hin : InRange (b ++ pos false rev p q) (B ++ pos false rev S T) := by rw [inRange_append hb.length]; exact ⟨hb, pos_inRange hy.rank hp hq⟩
    simp only [bcast]
    rw [hx.shape, hy.shape, bcastIdx_self hin, hy.get b p q hb hp hq hd]
    congr 1
    have : bcastIdx (B ++ List.replicate (2 * S.length) 1) (b ++ pos false rev p q) = b ++ List.replicate (2 * S.length) 0 := by
      unfold bcastIdx
      rw [List.zipWith_append hb.length.symm]
      congr 1
      · exact bcastIdx_self hb
      · exact bcastIdx_ones _ _ (hP hp hq)
    rw [this, hx.get b hb]

lemma total_add {x y : Arr ℝ} {m : ℕ} {f g : List ℕ → ℝ} (hx : Total x B m f) (hy : Total y B m g) :
    Total (bcast (fun u v => u + v) x y) B m fun b => f b + g b := by
  refine ⟨by simp only [bcast, hx.shape, hy.shape]; rw [zipWith_bcastDim_self], fun b hb => ?_⟩
  have : bcastIdx (B ++ List.replicate m 1) (b ++ List.replicate m 0) = b ++ List.replicate m 0 := by
    unfold bcastIdx
    rw [List.zipWith_append hb.length.symm]
    congr 1
    · exact bcastIdx_self hb
    · exact bcastIdx_ones _ _ (by simp)
  simp only [bcast, hx.shape, hy.shape]
  rw [this, hx.get b hb, hy.get b hb]

lemma bcastS_rhs {x y : Arr ℝ} (op : ℝ → ℝ → ℝ) (hB : B ≠ []) (hx : Rhs x B S T rev G) (hy : Holds y B S T false rev F) :
    Holds (bcastS op x y) B S T false rev fun b p q => op (G b p q) (F b p q) := by
  rcases hx with ⟨h1, h2⟩ | hx
  · rw [bcastS, if_pos (by simp [ndim, h1])]
    refine ⟨hy.rank, hy.square, hy.shape, fun b p q hb hp hq hd => ?_⟩
    simp only [Arr.map]
    rw [hy.get b p q hb hp hq hd, h2]
  · have hn : x.ndim ≠ 0 := by
      have := hx.length
      have := List.length_pos_iff.2 hB
      simp only [ndim]; omega
    rw [bcastS, if_neg hn]
    refine ⟨hy.rank, hy.square, ?_, fun b p q hb hp hq hd => ?_⟩
    · simp only [bcast, hy.shape]
      rcases hx.shape with e | e <;> rw [e]
      · rw [zipWith_bcastDim_self]
      · rw [List.zipWith_append (by simp), zipWith_bcastDim_self]
        congr 1
        refine ext_getD (by simp) fun i hi => ?_
        have hi : i < B.length := by simpa using hi
        simp [List.getD_eq_getElem?_getD, hi, bcastDim]
    · have hin : InRange (b ++ pos false rev p q) (B ++ pos false rev S T) := by rw [inRange_append hb.length]; exact ⟨hb, pos_inRange hy.rank hp hq⟩
      simp only [bcast]
      rw [hx.get b p q hb hp hq, hy.shape, bcastIdx_self hin, hy.get b p q hb hp hq hd]

lemma bcast_holds {x y : Arr ℝ} (op : ℝ → ℝ → ℝ) (hx : Holds x B S T false rev F) (hy : Holds y B S T false rev G) :
    Holds (bcast op x y) B S T false rev fun b p q => op (F b p q) (G b p q) := bcast_b op hx (Holds.b hy)

lemma affine_holds {x : Arr ℝ} (w : ℝ) (b : Option ℝ) (hx : Holds x B S T false rev F) :
    Holds (affine x w b) B S T false rev fun i p q => w ^ 2 * F i p q + bsq b := by
  rw [affine_eq]
  exact ⟨hx.rank, hx.square, hx.shape, fun b p q hb hp hq hd => by simp only [Arr.map]; rw [hx.get b p q hb hp hq hd]⟩

lemma pairing_comm (S T : List ℕ) (F G : List ℕ → List ℕ → List ℕ → ℝ) (b : List ℕ) : pairing S T F G b = pairing S T G F b := by
  unfold pairing
  refine Finset.sum_congr rfl fun u _ => Finset.sum_congr rfl fun v _ => mul_comm _ _

lemma kernelSqrt_ok (l : Attention) (k : Kernel ℝ) (L : Logical ℝ) (c : ℕ) {M1 M2 : ℕ → List ℕ → Bool} (hk : k.Stores L)
    (hd : k.diagonalSpatial = false) (he : EmbedOk l k L c) (hM : MasksOf k L M1 M2) :
    ∃ k', l.kernelSqrt k = .ok k' ∧
      k'.Stores (sqrtAttention l c M1 M2 L) ∧
      k' = { k with cov1 := k'.cov1, nngp := k'.nngp, cov2 := k'.cov2, ntk := k'.ntk, isGaussian := true } ∧
      ∀ a, k'.ntk = some a → a.shape ≠ [] := by
  unfold sqrtAttention
  rw [← bsq]
  obtain ⟨r1, r12, r2, er, hi⟩ := interp_ok l k L c hk hd he hM
  have hnone : l.posEmb = .none → embedded l c M1 M2 L = L := fun h => by simp [embedded, withEmbedding, h]
  set E := embedded l c M1 M2 L with hE
  have hi : Interp l k L E r1 r12 r2 := hi
  obtain ⟨s1, s2, s3, s4, s5⟩ := embedded_shapes l c M1 M2 L
  rw [← hE] at s1 s2 s3 s4 s5
  obtain ⟨c1, ec1, hc1⟩ := hi.cov1
  obtain ⟨nn, enn, hnn⟩ := hi.nngp
  have hV : attnValues l c M1 M2 L = if l.valPosEmb then E else L := rfl
  obtain ⟨kn, kc1, kc2, kt⟩ := hk
  rw [hd] at kn kc1 kc2 kt
  have hb2 : ∀ n, (batchShape k.diagonalBatch n).length = if k.diagonalBatch then 1 else 2 := fun n => batchShape_length _ _
  obtain ⟨d11, e11, h11⟩ := dot_ok k.diagonalBatch hc1 (hb2 _) (G := fun b => (attnValues l c M1 M2 L).k11 (dbl b)) (if l.valPosEmb then none else some k.cov1) (by
    rw [hV]
    cases l.valPosEmb
    · exact .inr (Holds.b kc1)
    · rfl)
  obtain ⟨d12, e12, h12⟩ := dot_ok false hnn rfl (G := (attnValues l c M1 M2 L).k12) (if l.valPosEmb then none else some k.nngp) (by
    rw [hV]
    cases l.valPosEmb
    · exact .inr (Holds.b kn)
    · rfl)
  have h1 := affine_holds (l.qkStd * l.ovStd) l.bStd (bcast_total (fun u v => u * v) h11 hc1)
  have hn := affine_holds (l.qkStd * l.ovStd) l.bStd (bcast_total (fun u v => u * v) h12 hnn)
  -- the second inputs
  have h2 : ∃ d22, onOpt' (fun a => dot k.diagonalBatch a (if l.valPosEmb then none else k.cov2)) (weightedSum (l.coefficients k) k.cov2 r2) = .ok d22 ∧
      OptRel (fun c F => Holds c (batchShape k.diagonalBatch L.n2) L.S2 L.S2 false k.isReversed fun b => F (dbl b))
        (l.sqrtCov2 d22 (weightedSum (l.coefficients k) k.cov2 r2)) (sqrtL (l.qkStd * l.ovStd) (bsq l.bStd) E (attnValues l c M1 M2 L)).k22 := by
    have h2 := hi.cov2
    cases e1 : weightedSum (l.coefficients k) k.cov2 r2 with
    | none =>
      cases e2 : E.k22 with
      | none => exact ⟨none, rfl, by simp [sqrtL, e2, OptRel, sqrtCov2]⟩
      | some F => rw [e1, e2] at h2; exact h2.elim
    | some a =>
      cases e2 : E.k22 with
      | none => rw [e1, e2] at h2; exact h2.elim
      | some F =>
        rw [e1, e2] at h2
        have h2 : Holds a (batchShape k.diagonalBatch L.n2) L.S2 L.S2 false k.isReversed fun b => F (dbl b) := h2
        obtain ⟨d22, e22, h22⟩ := dot_ok k.diagonalBatch h2 (hb2 _) (G := fun b => ((attnValues l c M1 M2 L).k22.getD F) (dbl b))
          (if l.valPosEmb then none else k.cov2) (by
            rw [hV]
            cases l.valPosEmb
            · cases e3 : k.cov2 with
              | none => rw [e3] at e1; cases e1
              | some z =>
                cases e4 : L.k22 with
                | none => rw [e3, e4] at kc2; exact kc2.elim
                | some F' =>
                  rw [e3, e4] at kc2
                  simp only [Bool.false_eq_true, if_false, e4, Option.getD_some]
                  exact .inr (Holds.b kc2)
            · simp [e2])
        refine ⟨some d22, by simp [onOpt', e22, Except.map], ?_⟩
        simp only [sqrtCov2, sqrtL, e2, Option.map_some, OptRel, s4]
        refine (affine_holds (l.qkStd * l.ovStd) l.bStd (bcast_total (fun u v => u * v) h22 h2)).congr fun b p q _ _ _ => ?_
        simp only [pairing]
        ring
  obtain ⟨d22, e22, h22⟩ := h2
  -- the tangent kernel
  have hB2 : ([L.n1, L.n2] : List ℕ) ≠ [] := by simp
  have ht : ∃ yt, onOpt' (l.sqrtNtk k nn d12) (weightedSum (l.coefficients k) k.ntk r12) = .ok yt ∧
      OptRel (fun a F => Holds a [L.n1, L.n2] L.S1 L.S2 false k.isReversed F) yt
        (sqrtL (l.qkStd * l.ovStd) (bsq l.bStd) E (attnValues l c M1 M2 L)).ntk := by
    have ht := hi.ntk
    cases e1 : weightedSum (l.coefficients k) k.ntk r12 with
    | none =>
      cases e2 : E.ntk with
      | none => exact ⟨none, rfl, by simp [sqrtL, e2, OptRel]⟩
      | some F => rw [e1, e2] at ht; exact ht.elim
    | some t =>
      cases e2 : E.ntk with
      | none => rw [e1, e2] at ht; exact ht.elim
      | some T =>
        rw [e1, e2] at ht
        have ht : Rhs t [L.n1, L.n2] L.S1 L.S2 k.isReversed T := ht
        have fin : ∀ y, Total y [L.n1, L.n2] (2 * L.S1.length) (fun b => pairing L.S1 L.S2 T (attnValues l c M1 M2 L).k12 b +
              pairing L.S1 L.S2 E.k12 ((attnValues l c M1 M2 L).ntk.getD T) b) →
            OptRel (fun a F => Holds a [L.n1, L.n2] L.S1 L.S2 false k.isReversed F)
              (some (affine (bcast (fun u v => u + v) (bcast (fun u v => u * v) y nn)
                (bcast (fun u v => u * v) d12 (bcastS (fun u v => u + 4 * v) t nn))) (l.qkStd * l.ovStd) l.bStd))
              (sqrtL (l.qkStd * l.ovStd) (bsq l.bStd) E (attnValues l c M1 M2 L)).ntk := fun y hy => by
          simp only [sqrtL, e2, Option.map_some, OptRel, s3, s4]
          refine (affine_holds (l.qkStd * l.ovStd) l.bStd (bcast_holds (fun u v => u + v) (bcast_total (fun u v => u * v) hy hnn)
            (bcast_total (fun u v => u * v) h12 (bcastS_rhs (fun u v => u + 4 * v) hB2 ht hnn)))).congr fun b p q _ _ _ => ?_
          ring
        by_cases hc : l.valPosEmb ∨ l.posEmb = .none
        · have hVE : attnValues l c M1 M2 L = E := by
            rw [hV]
            rcases hc with h | h
            · rw [if_pos h]
            · rw [hnone h, ite_self]
          obtain ⟨y, ey, hy⟩ := dot_ok false hnn rfl (some t) ht
          refine ⟨some _, by simp only [onOpt', sqrtNtk, if_pos hc]; rw [ey]; rfl, fin (y.map fun v => 2 * v) ⟨hy.shape, fun b hb => ?_⟩⟩
          simp only [Arr.map, hVE, e2, Option.getD_some]
          rw [hy.get b hb, pairing_comm _ _ T]
          ring
        · have hVL : attnValues l c M1 M2 L = L := by rw [hV, if_neg fun h => hc (.inl h)]
          cases e3 : k.ntk with
          | none => rw [e3] at e1; cases e1
          | some z =>
            cases e4 : L.ntk with
            | none => rw [e3, e4] at kt; exact kt.elim
            | some T' =>
              rw [e3, e4] at kt
              have kt : Rhs z [L.n1, L.n2] L.S1 L.S2 k.isReversed T' := by
                rcases kt with h | h
                · exact .inl h
                · exact .inr (Holds.b h)
              obtain ⟨y1, ey1, hy1⟩ := dot_ok false hnn rfl (some z) kt
              obtain ⟨y2, ey2, hy2⟩ := dot_ok false kn rfl (some t) ht
              have := total_add hy1 hy2
              refine ⟨some _, by simp only [onOpt', sqrtNtk, if_neg hc]; rw [e3, ey1]; simp only [bind, Except.bind]; rw [ey2]; rfl,
                fin _ ⟨this.shape, fun b hb => ?_⟩⟩
              rw [this.get b hb, hVL, e4, Option.getD_some, pairing_comm _ _ T, add_comm]
  obtain ⟨yt, eyt, hyt⟩ := ht
  refine ⟨{ k with
      cov1 := affine (bcast (fun u v => u * v) d11 c1) (l.qkStd * l.ovStd) l.bStd
      nngp := affine (bcast (fun u v => u * v) d12 nn) (l.qkStd * l.ovStd) l.bStd
      cov2 := l.sqrtCov2 d22 (weightedSum (l.coefficients k) k.cov2 r2)
      ntk := yt
      isGaussian := true }, ?_, ?_, rfl, ?_⟩
  · unfold kernelSqrt
    simp only [bind, Except.bind] at eyt ⊢
    simp only [er, ec1, enn, Option.getD_some, e11, e12, e22, eyt]
  · constructor
    all_goals dsimp only
    all_goals rw [hd]
    all_goals simp only [show (sqrtL (l.qkStd * l.ovStd) (bsq l.bStd) E (attnValues l c M1 M2 L)).n1 = L.n1 from s1,
      show (sqrtL (l.qkStd * l.ovStd) (bsq l.bStd) E (attnValues l c M1 M2 L)).n2 = L.n2 from s2,
      show (sqrtL (l.qkStd * l.ovStd) (bsq l.bStd) E (attnValues l c M1 M2 L)).S1 = L.S1 from s3,
      show (sqrtL (l.qkStd * l.ovStd) (bsq l.bStd) E (attnValues l c M1 M2 L)).S2 = L.S2 from s4]
    · refine hn.congr fun b p q _ _ _ => ?_
      simp only [sqrtL, s3, s4]
      ring
    · refine h1.congr fun b p q _ _ _ => ?_
      simp only [sqrtL, s3, s4, pairing]
      ring
    · exact h22
    · revert hyt
      cases yt <;> cases (sqrtL (l.qkStd * l.ovStd) (bsq l.bStd) E (attnValues l c M1 M2 L)).ntk <;> intro hyt
      · exact hyt
      · exact hyt
      · exact hyt
      · exact .inr hyt
  · intro a ha hs
    dsimp only at ha
    subst ha
    revert hyt
    cases (sqrtL (l.qkStd * l.ovStd) (bsq l.bStd) E (attnValues l c M1 M2 L)).ntk with
    | none => exact fun h => h.elim
    | some F =>
      intro h
      have := Holds.shape h
      rw [hs] at this
      simp at this

end NT.Attn
