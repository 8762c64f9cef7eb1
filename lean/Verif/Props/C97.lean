import Verif.Lemmas.Upsample5

/-!
# C97: the kernel of a transposed convolution
-/

set_option linter.unusedSectionVars false

namespace NT.C97
open C53 (bVar gradW gradB toDense wArr initVar linOut_coef prod_fan toDense_width initVar_eq gradW_eq)
open NT Arr Kernel Spec MeasureTheory

/-- The average over the filter entries `f` of the covariance of the positions that meet `f` at the outputs `o`, `o'`,
0 if there is none. -/
noncomputable def avg (d : ConvTranspose) (S T : List ℕ) (F : List ℕ → List ℕ → ℝ) (o o' : List ℕ) : ℝ :=
  (∑ f ∈ offsets d.conv.filter, read2 F (upIdx d.conv.padding S d.conv.filter o f) (upIdx d.conv.padding T d.conv.filter o' f)) /
    ((d.conv.filter.map Prod.fst).prod : ℕ)

/-- The kernel after the layer. -/
noncomputable def after (d : ConvTranspose) (C : ℕ) (L : Logical ℝ) : Logical ℝ where
  n1 := L.n1
  n2 := L.n2
  S1 := upDims d.conv.padding L.S1 d.conv.filter
  S2 := upDims d.conv.padding L.S2 d.conv.filter
  k12 := fun b o o' => d.conv.wStd ^ 2 * avg d L.S1 L.S2 (L.k12 b) o o' + bVar d.conv
  k11 := fun b o o' => d.conv.wStd ^ 2 * avg d L.S1 L.S1 (L.k11 b) o o' + bVar d.conv
  k22 := L.k22.map fun F b o o' => d.conv.wStd ^ 2 * avg d L.S2 L.S2 (F b) o o' + bVar d.conv
  ntk := L.ntk.map fun F b o o' => gradW d.conv C * avg d L.S1 L.S2 (L.k12 b) o o' + gradB d.conv +
    d.conv.wStd ^ 2 * avg d L.S1 L.S2 (F b) o o'

/-- The order of the spatial axes of the result. -/
def newRev (k : Kernel ℝ) : Bool := if k.diagonalSpatial then k.isReversed else !k.isReversed

/-- The layouts that the layer handles: there are positions along each axis, and the diagonal layout is never reversed. -/
structure Layout (d : ConvTranspose) (k : Kernel ℝ) (L : Logical ℝ) : Prop where
  pos : ∀ v ∈ d.conv.filter, 0 < v.1 ∧ 0 < v.2
  rank : L.S1.length = d.conv.filter.length
  dims1 : ∀ n ∈ L.S1, 0 < n
  dims2 : ∀ n ∈ L.S2, 0 < n
  diag : k.diagonalSpatial = true → k.isReversed = false
  scalar : ∀ a, k.ntk = some a → a.shape = [] → a.get [] = 0

variable {d : ConvTranspose} {k : Kernel ℝ}

lemma convUnscaled_holds {a : Arr ℝ} {B S T : List ℕ} {F : List ℕ → List ℕ → List ℕ → ℝ}
    (h : Holds a B S T k.diagonalSpatial k.isReversed F) (hB : B ≠ []) (bn : ℕ) (hbn : bn = B.length)
    (hw : PosWin d.conv.filter) (hl : S.length = d.conv.filter.length) (hS : PosDims S) (hT : PosDims T)
    (hd : k.diagonalSpatial = true → k.isReversed = false) :
    Holds (d.convUnscaled k a bn) B (upDims d.conv.padding S d.conv.filter) (upDims d.conv.padding T d.conv.filter)
      k.diagonalSpatial (newRev k) (fun b o o' => avg d S T (F b) o o') := by
  subst hbn
  unfold ConvTranspose.convUnscaled newRev
  cases e : k.diagonalSpatial
  · rw [e] at h
    exact convUpFull_holds d.conv.padding h hB d.conv.filter hw hS hT hl
  · have hr := hd e
    rw [e, hr] at h
    obtain rfl := h.square rfl
    rw [hr]
    exact convUpDiagonal_holds d.conv.padding h hB d.conv.filter hw hS hl

lemma affine_holds {a : Arr ℝ} {B S T : List ℕ} {rev : Bool} {F : List ℕ → List ℕ → List ℕ → ℝ}
    (h : Holds a B S T k.diagonalSpatial rev F) (bn : ℕ) (hbn : bn = B.length)
    (c : ℝ) (t : Option ℝ) :
    Holds (d.conv.affine k a c t bn) B S T k.diagonalSpatial rev (fun b o o' => c * F b o o' + t.getD 0) := by
  have hg : ∀ o o' v, C53.gate d.conv o o' v = v := fun o o' v => by simp [C53.gate, d.shared]
  refine (C53.affine_holds (d := d.conv) (F := F) (h.congr fun b o o' _ _ _ => (hg _ _ _).symm) bn hbn c t).congr
    fun b o o' _ _ _ => hg _ _ _

lemma conv_holds {a : Arr ℝ} {B S T : List ℕ} {F : List ℕ → List ℕ → List ℕ → ℝ}
    (h : Holds a B S T k.diagonalSpatial k.isReversed F) (hB : B ≠ []) (bn : ℕ) (hbn : bn = B.length)
    (hw : PosWin d.conv.filter) (hl : S.length = d.conv.filter.length) (hS : PosDims S) (hT : PosDims T)
    (hd : k.diagonalSpatial = true → k.isReversed = false) :
    Holds (d.convScaled k a bn) B (upDims d.conv.padding S d.conv.filter) (upDims d.conv.padding T d.conv.filter)
      k.diagonalSpatial (newRev k) (fun b o o' => d.conv.wStd ^ 2 * avg d S T (F b) o o' + bVar d.conv) := by
  refine (affine_holds (convUnscaled_holds h hB bn hbn hw hl hS hT hd) bn hbn (d.conv.wStd ^ 2) (d.conv.bStd.map (· ^ 2))).congr
    fun b o o' _ _ _ => ?_
  unfold bVar
  cases d.conv.bStd <;> simp

/-- `conv_unscaled` of the tangent kernel, which may be a scalar 0. -/
lemma ntk_unscaled {a : Arr ℝ} {B S T : List ℕ} {F : List ℕ → List ℕ → List ℕ → ℝ}
    (h : HoldsS a B S T k.diagonalSpatial k.isReversed F) (hB : B ≠ []) (bn : ℕ) (hbn : bn = B.length)
    (hw : PosWin d.conv.filter) (hl : S.length = d.conv.filter.length) (hS : PosDims S) (hT : PosDims T)
    (hd : k.diagonalSpatial = true → k.isReversed = false) (h0 : a.shape = [] → a.get [] = 0) :
    HoldsS (d.convUnscaled k a bn) B (upDims d.conv.padding S d.conv.filter) (upDims d.conv.padding T d.conv.filter)
      k.diagonalSpatial (newRev k) (fun b o o' => avg d S T (F b) o o') := by
  rcases h with ⟨h1, h2⟩ | h
  · have e0 : d.convUnscaled k a bn = a := by
      have : a.ndim = 0 := by unfold ndim; rw [h1]; rfl
      unfold ConvTranspose.convUnscaled convUpDiagonal convUpFull
      simp [this]
    rw [e0]
    refine .inl ⟨h1, ?_⟩
    intro b o o'
    have hF : ∀ p q, F b p q = 0 := fun p q => (h2 b p q).trans (h0 h1)
    have : avg d S T (F b) o o' = 0 := by
      unfold avg
      rw [Finset.sum_eq_zero, zero_div]
      intro f _
      unfold read2
      split
      · exact hF _ _
      · rfl
    beta_reduce
    rw [this, h0 h1]
  · exact .inr (convUnscaled_holds h hB bn hbn hw hl hS hT hd)

/-- **The kernel of `ConvTranspose`.**  In every layout `kernel_fn` returns, for outputs `o`, `o'`, `W_std ^ 2` times the
average over filter entries `f` of the input kernel at the positions that meet `f` there, plus `b_std ^ 2`.  The full
layout and the diagonal layout store the same function. -/
theorem kernel_formula (d : ConvTranspose) (hp : d.conv.param ≠ .other) (k : Kernel ℝ) (L : Logical ℝ) (hk : k.Stores L)
    (hL : Layout d k L) :
    ∃ k', d.kernelFn k = .ok k' ∧ k'.Stores (after d (k.shape1.getD d.conv.channelAxis 0) L) ∧
      k'.static = { k.static with
        isGaussian := true, isInput := false, isReversed := newRev k,
        batchAxis := d.conv.batchAxis, channelAxis := d.conv.channelAxis } ∧
      (k'.mask1, k'.mask2, k'.x1IsX2) = (k.mask1, k.mask2, k.x1IsX2) := by
  have hr : L.S1.length = L.S2.length := hk.nngp.rank
  have hl2 : L.S2.length = d.conv.filter.length := by rw [← hr]; exact hL.rank
  have hc1' := conv_holds (d := d) hk.cov1 (by cases k.diagonalBatch <;> simp [batchShape])
    (if k.diagonalBatch then 1 else 2) (by cases k.diagonalBatch <;> rfl) hL.pos hL.rank hL.dims1 hL.dims1 hL.diag
  have hn1' := conv_holds (d := d) hk.nngp (by simp) 2 rfl hL.pos hL.rank hL.dims1 hL.dims2 hL.diag
  set c1 := d.convScaled k k.cov1 (if k.diagonalBatch then 1 else 2) with hc1
  set n1 := d.convScaled k k.nngp 2 with hn1
  set c2 := k.cov2.map fun a => d.convScaled k a (if k.diagonalBatch then 1 else 2) with hc2
  have hc2' : OptRel (fun (a : Arr ℝ) (F : List ℕ → List ℕ → List ℕ → ℝ) =>
        Holds a (batchShape k.diagonalBatch L.n2) (upDims d.conv.padding L.S2 d.conv.filter) (upDims d.conv.padding L.S2 d.conv.filter)
          k.diagonalSpatial (newRev k) (fun b => F (dbl b))) c2
        (L.k22.map fun F b o o' => d.conv.wStd ^ 2 * avg d L.S2 L.S2 (F b) o o' + bVar d.conv) := by
    have h2 := hk.cov2
    rw [hc2]
    cases e1 : k.cov2 <;> cases e2 : L.k22 <;> rw [e1, e2] at h2 <;>
      simp only [OptRel, Option.map_some, Option.map_none] at h2 ⊢
    exact conv_holds h2 (by cases k.diagonalBatch <;> simp [batchShape])
        (if k.diagonalBatch then 1 else 2) (by cases k.diagonalBatch <;> rfl) hL.pos hl2 hL.dims2 hL.dims2 hL.diag
  set C := k.shape1.getD d.conv.channelAxis 0 with hC
  have hrev : (if !k.diagonalSpatial && d.conv.sharedWeights then !k.isReversed else k.isReversed) = newRev k := by
    rw [d.shared]
    unfold newRev
    cases k.diagonalSpatial <;> rfl
  have hfin : ∀ nngp ntk, d.conv.finish k c1 nngp c2 ntk =
      { k with cov1 := c1, nngp := nngp, cov2 := c2, ntk := ntk, isGaussian := true, isReversed := newRev k,
               batchAxis := d.conv.batchAxis, channelAxis := d.conv.channelAxis, isInput := false } := by
    intro nngp ntk
    unfold Conv.finish
    rw [hrev]
  have main : ∀ ntk nngp, Holds nngp [L.n1, L.n2] (upDims d.conv.padding L.S1 d.conv.filter) (upDims d.conv.padding L.S2 d.conv.filter)
        k.diagonalSpatial (newRev k) (after d C L).k12 →
      OptRel (fun (a : Arr ℝ) (F : List ℕ → List ℕ → List ℕ → ℝ) =>
        HoldsS a [L.n1, L.n2] (upDims d.conv.padding L.S1 d.conv.filter) (upDims d.conv.padding L.S2 d.conv.filter)
          k.diagonalSpatial (newRev k) F) ntk (after d C L).ntk →
      (d.conv.finish k c1 nngp c2 ntk).Stores (after d C L) := by
    intro ntk nngp h1 h2
    rw [hfin]
    exact ⟨h1, hc1', hc2', h2⟩
  have hn := hk.ntk
  rcases e : d.conv.param with _ | _ | _
  · have key : ∃ ntk, d.ntkNtk k n1 = .ok ntk ∧ OptRel (fun (a : Arr ℝ) (F : List ℕ → List ℕ → List ℕ → ℝ) =>
        HoldsS a [L.n1, L.n2] (upDims d.conv.padding L.S1 d.conv.filter) (upDims d.conv.padding L.S2 d.conv.filter)
          k.diagonalSpatial (newRev k) F) ntk (after d C L).ntk := by
      unfold ConvTranspose.ntkNtk after
      cases e1 : k.ntk <;> cases e2 : L.ntk <;> rw [e1, e2] at hn <;>
        simp only [OptRel, Option.map_some, Option.map_none] at hn ⊢
      · exact ⟨none, rfl, trivial⟩
      · rename_i a F
        have hz' := ntk_unscaled (d := d) hn (by simp) 2 rfl hL.pos hL.rank hL.dims1 hL.dims2 hL.diag (fun h => hL.scalar a e1 h)
        obtain ⟨r, hr, -, hr'⟩ := zipB_holdsS (op := (· + ·)) (by simp) (hz'.map fun v => d.conv.wStd ^ 2 * v) (.inr hn1')
        refine ⟨some r, by simp only [hr, bind, Except.bind, pure, Except.pure], .inr ?_⟩
        refine (hr' (.inr hn1')).congr fun b o o' _ _ _ => ?_
        simp only [gradW, gradB, bVar, e, reduceCtorEq, if_false]
        ring
    obtain ⟨ntk, h1, h2⟩ := key
    refine ⟨d.conv.finish k c1 n1 c2 ntk, ?_, main ntk n1 hn1' h2, by rw [hfin]; rfl, rfl⟩
    unfold ConvTranspose.kernelFn
    simp only [e, ← hn1, h1, bind, Except.bind, pure, Except.pure]
    rfl
  · set u := d.convUnscaled k k.nngp 2 with hu
    have hu' := convUnscaled_holds (d := d) hk.nngp (by simp) 2 rfl hL.pos hL.rank hL.dims1 hL.dims2 hL.diag
    rw [← hu] at hu'
    have key : ∃ ntk, d.ntkStandard k C u = .ok ntk ∧ OptRel (fun (a : Arr ℝ) (F : List ℕ → List ℕ → List ℕ → ℝ) =>
        HoldsS a [L.n1, L.n2] (upDims d.conv.padding L.S1 d.conv.filter) (upDims d.conv.padding L.S2 d.conv.filter)
          k.diagonalSpatial (newRev k) F) ntk (after d C L).ntk := by
      unfold ConvTranspose.ntkStandard after
      cases e1 : k.ntk <;> cases e2 : L.ntk <;> rw [e1, e2] at hn <;>
        simp only [OptRel, Option.map_some, Option.map_none] at hn ⊢
      · exact ⟨none, rfl, trivial⟩
      · rename_i a F
        have hz' := ntk_unscaled (d := d) hn (by simp) 2 rfl hL.pos hL.rank hL.dims1 hL.dims2 hL.diag (fun h => hL.scalar a e1 h)
        have hN := hu'.map fun v => (d.conv.fanIn C : ℝ) / d.conv.s.1 * v
        obtain ⟨r, hr, -, hr'⟩ := zipB_holdsS (op := (· + ·)) (by simp) (.inr hN) (hz'.map fun v => d.conv.wStd ^ 2 * v)
        have hr2 : Holds r [L.n1, L.n2] (upDims d.conv.padding L.S1 d.conv.filter) (upDims d.conv.padding L.S2 d.conv.filter)
            k.diagonalSpatial (newRev k) (fun b o o' => gradW d.conv C * avg d L.S1 L.S2 (L.k12 b) o o' +
              d.conv.wStd ^ 2 * avg d L.S1 L.S2 (F b) o o') := by
          refine (hr' (.inl hN)).congr fun b o o' _ _ _ => ?_
          simp only [gradW, e, if_true, Conv.fanIn, Conv.filterSize]
        simp only [hr, bind, Except.bind, pure, Except.pure]
        rcases hb : d.conv.bStd with _ | bb
        · refine ⟨some r, by simp, .inr (hr2.congr fun b o o' _ _ _ => ?_)⟩
          simp [gradB, e, hb]
        · refine ⟨some (d.conv.affine k r 1 (some 1) 2), by simp, .inr ((affine_holds hr2 2 rfl 1 (some 1)).congr
            fun b o o' _ _ _ => ?_)⟩
          simp only [gradB, e, hb]
          simp; ring
    obtain ⟨ntk, h1, h2⟩ := key
    refine ⟨d.conv.finish k c1 (d.conv.affine k u (d.conv.wStd ^ 2) (d.conv.bStd.map (· ^ 2)) 2) c2 ntk, ?_,
      main ntk _ ?_ h2, by rw [hfin]; rfl, rfl⟩
    · unfold ConvTranspose.kernelFn
      simp only [e, ← hu, ← hC, h1, bind, Except.bind, pure, Except.pure]
      rfl
    · refine (affine_holds hu' 2 rfl (d.conv.wStd ^ 2) (d.conv.bStd.map (· ^ 2))).congr fun b o o' _ _ _ => ?_
      simp only [after, bVar]
      cases d.conv.bStd <;> simp
  · exact absurd e hp

/-! ### The activations -/

/-- Entries of `lax.conv_transpose`. -/
lemma laxConv_ok (p : Padding) (hp : p ≠ .circular) (ws : List (ℕ × ℕ)) (hw : PosWin ws) (W x : Arr ℝ) (B A n C D : ℕ) (S : List ℕ)
    (hS : PosDims S) (hl : S.length = ws.length) (hB : B < S.length + 2) (hA : A < S.length + 2) (hne : B ≠ A)
    (hW : W.shape = ws.map Prod.fst ++ [C, D]) (hx : x.shape = actIdx B A n C S) :
    (ConvTranspose.laxConv x W ws p B A).shape = actIdx B A n D (upDims p S ws) ∧
    ∀ i o q, q.length = S.length → (ConvTranspose.laxConv x W ws p B A).get (actIdx B A i o q) =
      ∑ g ∈ box (ws.map Prod.fst ++ [C]), W.get (g ++ [o]) *
        readTap (fun p => x.get (actIdx B A i (g.getD ws.length 0) p)) (alongAxes (upTap p) S ws q (g.take ws.length)) := by
  have hnd : x.ndim = S.length + 2 := by
    unfold ndim; rw [hx, actIdx_length _ _ _ _ _ hne hB hA]
  obtain ⟨g1, g2, g3⟩ := gather_act B A n C S hne hB hA
  have hD : W.shape.getD (ws.length + 1) 0 = D := by
    rw [hW, show ws.map Prod.fst ++ [C, D] = (ws.map Prod.fst ++ [C]) ++ [D] by simp]
    simp
  have hrest : ((List.range x.ndim).filter fun i => !([B, A].contains i)) = restAxes (S.length + 2) B A := by
    rw [hnd]; rfl
  constructor
  · unfold ConvTranspose.laxConv
    simp only [hrest, hx, g1, g2, hD]
    rw [upShape_dims p hp _ _ hS hw]
  · intro i o q lq
    obtain ⟨f1, f2, f3⟩ := gather_act B A i o q hne (by omega) (by omega)
    rw [lq] at f1
    unfold ConvTranspose.laxConv
    simp only [hrest, hx, g1, g3, f1, f2, f3]
    rw [sumOver_eq_box]

/-- Entries of the result before the bias is added. -/
lemma applyConv_ok (d : ConvTranspose) (c : ℝ) (hw : PosWin d.conv.filter) (W x : Arr ℝ) (n C D : ℕ) (S : List ℕ)
    (hS : PosDims S) (hl : S.length = d.conv.filter.length) (hB : d.conv.batchAxis < S.length + 2)
    (hA : d.conv.channelAxis < S.length + 2) (hne : d.conv.batchAxis ≠ d.conv.channelAxis)
    (hW : W.shape = d.conv.filter.map Prod.fst ++ [C, D]) (hx : x.shape = actIdx d.conv.batchAxis d.conv.channelAxis n C S) :
    (d.applyConv c W x).shape = actIdx d.conv.batchAxis d.conv.channelAxis n D (upDims d.conv.padding S d.conv.filter) ∧
    ∀ i o q, i < n → o < D → InRange q (upDims d.conv.padding S d.conv.filter) →
      (d.applyConv c W x).get (actIdx d.conv.batchAxis d.conv.channelAxis i o q) =
        c * ∑ g ∈ box (d.conv.filter.map Prod.fst ++ [C]), W.get (g ++ [o]) *
          readTap (fun p => x.get (actIdx d.conv.batchAxis d.conv.channelAxis i (g.getD d.conv.filter.length 0) p))
            (upIdx d.conv.padding S d.conv.filter q (g.take d.conv.filter.length)) := by
  set B := d.conv.batchAxis with hBd
  set A := d.conv.channelAxis with hAd
  set ws := d.conv.filter with hws
  unfold ConvTranspose.applyConv
  simp only [← hBd, ← hAd, ← hws]
  by_cases hp : d.conv.padding = .circular
  · simp only [hp, if_true]
    obtain ⟨v1, v2⟩ := laxConv_ok .valid (by simp) ws hw W x B A n C D S hS hl hB hA hne hW hx
    obtain ⟨s1, -⟩ := laxConv_ok .same (by simp) ws hw W x B A n C D S hS hl hB hA hne hW hx
    have lu : ∀ p, (upDims p S ws).length = S.length := fun p => upDims_length _ _ _ hl
    have hnd : x.ndim = (upDims .same S ws).length + 2 := by
      unfold ndim; rw [hx, actIdx_length _ _ _ _ _ hne hB hA, lu]
    have hrest : gather ((List.range x.ndim).filter fun i => !([B, A].contains i)) (ConvTranspose.laxConv x W ws .same B A).shape =
        upDims .same S ws := by
      rw [hnd, s1]
      exact (gather_act B A n D (upDims .same S ws) hne (by rw [lu]; exact hB) (by rw [lu]; exact hA)).1
    rw [hrest]
    obtain ⟨f1, f2⟩ := fold_act ((ConvTranspose.laxConv x W ws .valid B A).map fun v => c * v) B A n D (upDims .valid S ws) (upDims .same S ws) v1
      (by rw [lu, lu]) (by rw [lu]; exact hB) (by rw [lu]; exact hA) hne
    refine ⟨f1, ?_⟩
    intro i o q hi ho hq
    have lq := hq.length
    rw [lu] at lq
    rw [f2 i o q hi ho (by rw [lu, lq])]
    have e : ∀ h, readTap (fun p => ((ConvTranspose.laxConv x W ws .valid B A).map fun v => c * v).get (actIdx B A i o p))
        (alongAxes foldPos (upDims .valid S ws) ((upDims .same S ws).map some) q h) =
        ∑ g ∈ box (ws.map Prod.fst ++ [C]), c * (W.get (g ++ [o]) *
          readTap (fun p => x.get (actIdx B A i (g.getD ws.length 0) p))
            ((alongAxes foldPos (upDims .valid S ws) ((upDims .same S ws).map some) q h).bind
              fun p => alongAxes (upTap .valid) S ws p (g.take ws.length))) := by
      intro h
      cases e : alongAxes foldPos (upDims .valid S ws) ((upDims .same S ws).map some) q h with
      | none => simp [readTap]
      | some p =>
        have lp := alongAxes_length _ _ _ _ _ _ e
        rw [lu] at lp
        simp only [readTap, Option.bind_some]
        show c * _ = _
        rw [v2 i o p lp, Finset.mul_sum]
        rfl
    rw [Finset.sum_congr rfl fun h _ => e h, Finset.sum_comm, Finset.mul_sum]
    refine Finset.sum_congr rfl fun g hg => ?_
    rw [mem_box] at hg
    obtain ⟨gf, gc, rfl, hgf, hgc⟩ := inRange_append_right hg
    have lg : gf.length = ws.length := by rw [hgf.length]; simp
    have t1 : (gf ++ gc).take ws.length = gf := by rw [← lg]; simp
    rw [← Finset.mul_sum, ← Finset.mul_sum, t1, fold_axes S ws q gf _ hS hw hl hq hgf]
  · simp only [if_neg hp]
    obtain ⟨v1, v2⟩ := laxConv_ok d.conv.padding hp ws hw W x B A n C D S hS hl hB hA hne hW hx
    refine ⟨v1, ?_⟩
    intro i o q _ _ hq
    have lq := hq.length
    rw [upDims_length _ _ _ hl] at lq
    show c * _ = _
    rw [v2 i o q lq]
    congr 1
    refine Finset.sum_congr rfl fun g _ => ?_
    rw [upTap_idx d.conv.padding hp _ _ _ _ hS hw]

/-- Entries of the output of `apply_fn`. -/
lemma apply_ok (d : ConvTranspose) (hd : d.conv.param ≠ .other) (hw : PosWin d.conv.filter)
    (W x : Arr ℝ) (b : Option (Arr ℝ)) (n C D : ℕ) (S : List ℕ) (hS : PosDims S)
    (hl : S.length = d.conv.filter.length) (hB : d.conv.batchAxis < S.length + 2) (hA : d.conv.channelAxis < S.length + 2)
    (hne : d.conv.batchAxis ≠ d.conv.channelAxis)
    (hW : W.shape = d.conv.filter.map Prod.fst ++ [C, D]) (hx : x.shape = actIdx d.conv.batchAxis d.conv.channelAxis n C S)
    (hb : ∀ b', b = some b' → b'.shape = (List.replicate (S.length + 1) 1).insertIdx d.conv.channelAxis D) :
    ∃ z, d.apply W b x = .ok z ∧ z.shape = actIdx d.conv.batchAxis d.conv.channelAxis n D (upDims d.conv.padding S d.conv.filter) ∧
      ∀ i o q, i < n → o < D → InRange q (upDims d.conv.padding S d.conv.filter) →
        z.get (actIdx d.conv.batchAxis d.conv.channelAxis i o q) =
          (toDense d.conv).gain (d.conv.fanIn C) * (∑ g ∈ box (d.conv.filter.map Prod.fst ++ [C]), W.get (g ++ [o]) *
            readTap (fun p => x.get (actIdx d.conv.batchAxis d.conv.channelAxis i (g.getD d.conv.filter.length 0) p))
              (upIdx d.conv.padding S d.conv.filter q (g.take d.conv.filter.length))) +
          (toDense d.conv).biasTerm b ((List.replicate (S.length + 1) 0).insertIdx d.conv.channelAxis o) := by
  set B := d.conv.batchAxis with hBd
  set A := d.conv.channelAxis with hAd
  set O := upDims d.conv.padding S d.conv.filter with hO
  have lO : O.length = S.length := upDims_length _ _ _ hl
  obtain ⟨-, -, c2⟩ := gather_act B A n C S hne (by omega) (by omega)
  set gn := (toDense d.conv).gain (d.conv.fanIn C) with hgn
  set bg := (toDense d.conv).biasGain with hbg
  obtain ⟨hys, hyg⟩ := applyConv_ok d gn hw W x n C D S hS hl hB hA hne hW hx
  rw [← hBd, ← hAd, ← hO] at hys
  rw [← hBd, ← hAd, ← hO] at hyg
  set y := d.applyConv gn W x with hy
  have hrun : d.apply W b x = .ok (match b with
      | none => y
      | some b => bcast (fun v u => v + bg * u) y b) := by
    unfold ConvTranspose.apply
    simp only [← hAd, hx, c2, hy]
    rcases hp : d.conv.param with _ | _ | _
    · simp only [hgn, hbg, Dense.gain, Dense.biasGain, toDense, hp, reduceCtorEq, if_false]
      cases b <;> rfl
    · simp only [hgn, hbg, Dense.gain, Dense.biasGain, toDense, hp, if_true]
      cases b <;> rfl
    · exact absurd hp hd
  refine ⟨_, hrun, ?_⟩
  cases b with
  | none =>
    refine ⟨hys, ?_⟩
    intro i o q hi ho hq
    simp only [Dense.biasTerm, add_zero]
    rw [hyg i o q hi ho hq]
  | some b =>
    have hbs := hb b rfl
    have hk := Inputs.newAxis_le hne hB hA
    have lR : (O.insertIdx (newAxis B A) n).length = S.length + 1 := by
      rw [List.length_insertIdx, if_pos (by omega), lO]
    have e1 := actIdx_insert B A n D O hne (by omega) (by omega)
    have hAle : A ≤ S.length + 1 := by omega
    refine ⟨?_, ?_⟩
    · show List.zipWith bcastDim y.shape b.shape = _
      rw [hys, hbs, e1, ← lR]
      exact bias_shape _ _ _ (by omega)
    · intro i o q hi ho hq
      have lq := hq.length
      have lr : (q.insertIdx (newAxis B A) i).length = (O.insertIdx (newAxis B A) n).length := by
        rw [List.length_insertIdx, if_pos (by omega), lR]; omega
      show y.get (bcastIdx y.shape _) + bg * b.get (bcastIdx b.shape _) = _
      have hin : InRange (actIdx B A i o q) y.shape := by
        rw [hys, e1, actIdx_insert B A i o q hne (by omega) (by omega)]
        exact inRange_insert (inRange_insert hq (by omega) hi) (by omega) ho
      rw [bcastIdx_self hin, hyg i o q hi ho hq, hbs, actIdx_insert B A i o q hne (by omega) (by omega), ← lR,
        bias_idx _ _ _ _ _ lr (by omega) ho]
      rfl

/-! ### The layer is exact -/

variable {E : Type} [NormedAddCommGroup E] [InnerProductSpace ℝ E] [CompleteSpace E] [MeasurableSpace E]
variable (μ : Measure E) [IsProbabilityMeasure μ]

open C52 in
/-- The network `X` followed by the layer: the array returned by `apply_fn` (a dummy if it fails). -/
noncomputable def layerOut (d : ConvTranspose) (C : ℕ) {D B : ℕ} (n : ℕ) (X : E → Arr ℝ)
    (x : Ext E (Idx (d.conv.fanIn C) D B)) : Arr ℝ :=
  match d.apply (C53.wArr d.conv C x.snd) (bArr (toDense d.conv) n d.conv.channelAxis x.snd) (X x.fst) with
  | .ok z => z
  | .error _ => ⟨[], fun _ => 0⟩

/-- The inputs that the output at `q` reads. -/
noncomputable def patch (d : ConvTranspose) (C : ℕ) (X : E → Arr ℝ) (i : ℕ) (S q : List ℕ) (k : ℕ) (θ : E) : ℝ :=
  readTap (fun p => chan X d.conv.batchAxis d.conv.channelAxis i ((unravel (d.conv.filter.map Prod.fst ++ [C]) k).getD d.conv.filter.length 0) p θ)
    (upIdx d.conv.padding S d.conv.filter q ((unravel (d.conv.filter.map Prod.fst ++ [C]) k).take d.conv.filter.length))

lemma layerOut_eq (d : ConvTranspose) (hd : d.conv.param ≠ .other) (hw : PosWin d.conv.filter)
    (X : E → Arr ℝ) (n C : ℕ) (S : List ℕ) (hS : PosDims S) (hl : S.length = d.conv.filter.length) (hB : d.conv.batchAxis < S.length + 2)
    (hA : d.conv.channelAxis < S.length + 2) (hne : d.conv.batchAxis ≠ d.conv.channelAxis)
    (hX : ∀ θ, (X θ).shape = actIdx d.conv.batchAxis d.conv.channelAxis n C S)
    (x : Ext E (C52.Idx (d.conv.fanIn C) (toDense d.conv).width (C52.nBias (toDense d.conv)))) :
    (layerOut d C (S.length + 2) X x).shape = actIdx d.conv.batchAxis d.conv.channelAxis n d.conv.width (upDims d.conv.padding S d.conv.filter) ∧
    ∀ i o q, i < n → o < d.conv.width → InRange q (upDims d.conv.padding S d.conv.filter) →
      chan (layerOut d C (S.length + 2) X) d.conv.batchAxis d.conv.channelAxis i o q x =
        linOut (C52.coef (toDense d.conv) o (patch d C X i S q)) x := by
  have hW := toDense_width d.conv d.shared
  obtain ⟨z, hz, hzs, hzg⟩ := apply_ok d hd hw (C53.wArr d.conv C x.snd) (X x.fst)
    (C52.bArr (toDense d.conv) (S.length + 2) d.conv.channelAxis x.snd) n C (toDense d.conv).width S hS hl hB hA hne rfl (hX _) (by
      intro b' hb'
      simp only [C52.bArr, Option.map_eq_some_iff] at hb'
      obtain ⟨_, -, rfl⟩ := hb'
      exact C52.insert_set _ _ _ _ (by omega))
  have hout : layerOut d C (S.length + 2) X x = z := by
    unfold layerOut
    rw [hz]
  rw [hout]
  rw [hW] at hzs
  refine ⟨hzs, ?_⟩
  intro i o q hi ho hq
  rw [← hW] at ho
  unfold chan
  rw [hout, hzg i o q hi ho hq, linOut_coef (toDense d.conv) (S.length + 1) d.conv.channelAxis (by omega) o ho]
  congr 2
  rw [← box_sum_ravel, prod_fan, Finset.sum_range]
  refine Finset.sum_congr rfl fun k _ => ?_
  have hk : (k : ℕ) < (d.conv.filter.map Prod.fst ++ [C]).prod := by rw [prod_fan]; exact k.2
  have hu := inRange_unravel hk
  have lu : (unravel (d.conv.filter.map Prod.fst ++ [C]) k).length = d.conv.filter.length + 1 := by
    rw [hu.length]; simp
  have e1 : (unravel (d.conv.filter.map Prod.fst ++ [C]) k ++ [o]).take (d.conv.filter.length + 1) =
      unravel (d.conv.filter.map Prod.fst ++ [C]) k := by rw [← lu]; simp
  have e2 : (unravel (d.conv.filter.map Prod.fst ++ [C]) k ++ [o]).getD (d.conv.filter.length + 1) 0 = o := by
    rw [← lu]; exact getD_append_len _ [o] 0 0
  have e3 : (C53.wArr d.conv C x.snd).get (unravel (d.conv.filter.map Prod.fst ++ [C]) k ++ [o]) = x.snd (.inl (k, ⟨o, ho⟩)) := by
    simp only [wArr, e1, e2, ravel_unravel hk]
    rw [dif_pos ⟨k.2, ho⟩]
  rw [e3]
  rfl

/-- Facts about entries of a network that pass to patches. -/
lemma patch_split (d : ConvTranspose) (C : ℕ) (S q : List ℕ) (k : ℕ)
    (hk : k < d.conv.fanIn C) :
    ∃ c < C, ∃ f, InRange f (d.conv.filter.map Prod.fst) ∧
      (unravel (d.conv.filter.map Prod.fst ++ [C]) k).getD d.conv.filter.length 0 = c ∧
      (unravel (d.conv.filter.map Prod.fst ++ [C]) k).take d.conv.filter.length = f ∧
      (upIdx d.conv.padding S d.conv.filter q f = none ∨ ∃ p, upIdx d.conv.padding S d.conv.filter q f = some p ∧ InRange p S) := by
  have hu := inRange_unravel (s := d.conv.filter.map Prod.fst ++ [C]) (k := k) (by rw [prod_fan]; exact hk)
  obtain ⟨gf, gc, e, hgf, hgc⟩ := inRange_append_right hu
  obtain ⟨c, rfl⟩ := List.length_eq_one_iff.1 hgc.length
  have lg : gf.length = d.conv.filter.length := by rw [hgf.length]; simp
  rw [inRange_cons] at hgc
  refine ⟨c, hgc.1, gf, hgf, ?_, ?_, ?_⟩
  · rw [e, ← lg]; exact getD_append_len gf [c] 0 0
  · rw [e, ← lg]; simp
  · cases h : upIdx d.conv.padding S d.conv.filter q gf with
    | none => exact .inl rfl
    | some p => exact .inr ⟨p, rfl, upIdx_inRange d.conv.padding S d.conv.filter q gf p h⟩

lemma avg_patch (d : ConvTranspose) (C : ℕ) (hC : 0 < C) (X1 X2 : E → Arr ℝ) (S1 S2 : List ℕ)
    (M : (E → ℝ) → (E → ℝ) → ℝ) (m1 : ∀ g, M (fun _ => 0) g = 0) (m2 : ∀ g, M g (fun _ => 0) = 0)
    (i j : ℕ) (F : List ℕ → List ℕ → ℝ)
    (hF : ∀ p q, InRange p S1 → InRange q S2 → F p q = (∑ c ∈ Finset.range C,
      M (chan X1 d.conv.batchAxis d.conv.channelAxis i c p) (chan X2 d.conv.batchAxis d.conv.channelAxis j c q)) / C)
    (q q' : List ℕ) :
    (∑ k ∈ Finset.range (d.conv.fanIn C), M (patch d C X1 i S1 q k) (patch d C X2 j S2 q' k)) / (d.conv.fanIn C : ℕ) =
      avg d S1 S2 F q q' := by
  have hC' : (C : ℝ) ≠ 0 := by positivity
  set G := fun g : List ℕ => M
    (fun θ => readTap (fun p => chan X1 d.conv.batchAxis d.conv.channelAxis i (g.getD d.conv.filter.length 0) p θ)
      (upIdx d.conv.padding S1 d.conv.filter q (g.take d.conv.filter.length)))
    (fun θ => readTap (fun p => chan X2 d.conv.batchAxis d.conv.channelAxis j (g.getD d.conv.filter.length 0) p θ)
      (upIdx d.conv.padding S2 d.conv.filter q' (g.take d.conv.filter.length))) with hG
  have e1 : ∑ k ∈ Finset.range (d.conv.fanIn C), M (patch d C X1 i S1 q k) (patch d C X2 j S2 q' k) =
      ∑ g ∈ box (d.conv.filter.map Prod.fst ++ [C]), G g := by
    rw [← box_sum_ravel, prod_fan]
    rfl
  rw [e1, box_sum_append]
  have e2 : ∀ f ∈ box (d.conv.filter.map Prod.fst), ∑ c ∈ box [C], G (f ++ c) =
      C * read2 F (upIdx d.conv.padding S1 d.conv.filter q f) (upIdx d.conv.padding S2 d.conv.filter q' f) := by
    intro f hf
    rw [mem_box] at hf
    have lf : f.length = d.conv.filter.length := by rw [hf.length]; simp
    rw [box_sum_singleton]
    have e3 : ∀ c, G (f ++ [c]) = M
        (fun θ => readTap (fun p => chan X1 d.conv.batchAxis d.conv.channelAxis i c p θ) (upIdx d.conv.padding S1 d.conv.filter q f))
        (fun θ => readTap (fun p => chan X2 d.conv.batchAxis d.conv.channelAxis j c p θ) (upIdx d.conv.padding S2 d.conv.filter q' f)) := by
      intro c
      have t1 : (f ++ [c]).take d.conv.filter.length = f := by rw [← lf]; simp
      have t2 : (f ++ [c]).getD d.conv.filter.length 0 = c := by rw [← lf]; exact getD_append_len f [c] 0 0
      simp only [hG, t1, t2]
    simp only [e3]
    cases h1 : upIdx d.conv.padding S1 d.conv.filter q f with
    | none => simp [readTap, m1, read2]
    | some p =>
      cases h2 : upIdx d.conv.padding S2 d.conv.filter q' f with
      | none => simp [readTap, m2, read2]
      | some p' =>
        simp only [readTap, read2]
        rw [hF p p' (upIdx_inRange d.conv.padding S1 d.conv.filter q f p h1)
          (upIdx_inRange d.conv.padding S2 d.conv.filter q' f p' h2)]
        field_simp
  rw [Finset.sum_congr rfl e2, ← Finset.mul_sum]
  unfold avg offsets
  have : ((d.conv.fanIn C : ℕ) : ℝ) = C * ((d.conv.filter.map Prod.fst).prod : ℕ) := by
    unfold Conv.fanIn Conv.filterSize; push_cast; rfl
  rw [this, mul_div_mul_left _ _ hC']

/-- **`ConvTranspose` is exact.**. The parameters of the layer are independent of those of the network,
have mean zero and the variances of `init_fn`. If the given kernel is that of the network `X` (averages over
channels of the covariances and of the products of gradients) then the returned one is that of each output
channel of `X` followed by the layer's `apply_fn`. -/
theorem kernel_exact (d : ConvTranspose) (hd : d.conv.param ≠ .other) (hs : d.conv.param = .standard → 0 < d.conv.s.1)
    (X1 X2 : E → Arr ℝ) (C : ℕ) (hC : 0 < C) (k : Kernel ℝ) (L : Logical ℝ)
    (hk : k.Stores L) (hL : Layout d k L) (hB : d.conv.batchAxis < L.S1.length + 2) (hA : d.conv.channelAxis < L.S1.length + 2)
    (hne : d.conv.batchAxis ≠ d.conv.channelAxis)
    (h1 : ∀ θ, (X1 θ).shape = actIdx d.conv.batchAxis d.conv.channelAxis L.n1 C L.S1)
    (h2 : ∀ θ, (X2 θ).shape = actIdx d.conv.batchAxis d.conv.channelAxis L.n2 C L.S2)
    (hshape : k.shape1.getD d.conv.channelAxis 0 = C)
    (hreg : Regular μ C L.n1 L.n2 L.S1 L.S2 (chan X1 d.conv.batchAxis d.conv.channelAxis) (chan X2 d.conv.batchAxis d.conv.channelAxis))
    (hX : ChannelKernelOf μ C (chan X1 d.conv.batchAxis d.conv.channelAxis) (chan X2 d.conv.batchAxis d.conv.channelAxis) L)
    (ν : Measure (EuclideanSpace ℝ (C52.Idx (d.conv.fanIn C) (toDense d.conv).width (C52.nBias (toDense d.conv)))))
    (hν : Uncorrelated ν (initVar d.conv C)) :
    ∃ k' L', d.kernelFn k = .ok k' ∧ k'.Stores L' ∧
      (L'.n1, L'.n2, L'.S1, L'.S2, L'.k22.isSome, L'.ntk.isSome) =
        (L.n1, L.n2, upDims d.conv.padding L.S1 d.conv.filter, upDims d.conv.padding L.S2 d.conv.filter, L.k22.isSome, L.ntk.isSome) ∧
      (∀ x : Ext E (C52.Idx (d.conv.fanIn C) (toDense d.conv).width (C52.nBias (toDense d.conv))),
        (layerOut d C (L.S1.length + 2) X1 x).shape = actIdx d.conv.batchAxis d.conv.channelAxis L.n1 d.conv.width L'.S1 ∧
        (layerOut d C (L.S1.length + 2) X2 x).shape = actIdx d.conv.batchAxis d.conv.channelAxis L.n2 d.conv.width L'.S2) ∧
      ∀ o < d.conv.width, KernelOf (extMeasure μ ν)
        (fun i p => chan (layerOut d C (L.S1.length + 2) X1) d.conv.batchAxis d.conv.channelAxis i o p)
        (fun i p => chan (layerOut d C (L.S1.length + 2) X2) d.conv.batchAxis d.conv.channelAxis i o p) L' := by
  obtain ⟨k', hk', hst, -, -⟩ := kernel_formula d hd k L hk hL
  rw [hshape] at hst
  have hr : L.S1.length = L.S2.length := hk.nngp.rank
  have hl1 := hL.rank
  have hl2 : L.S2.length = d.conv.filter.length := by rw [← hr]; exact hL.rank
  have hw : PosWin d.conv.filter := hL.pos
  have e1 := fun x => layerOut_eq d hd hw X1 L.n1 C L.S1 hL.dims1 hl1 hB hA hne h1 x
  have e2 := fun x => layerOut_eq d hd hw X2 L.n2 C L.S2 hL.dims2 hl2 (by omega) (by omega) hne h2 x
  rw [← hr] at e2
  refine ⟨k', after d C L, hk', hst, ?_, fun x => ⟨(e1 x).1, (e2 x).1⟩, ?_⟩
  · simp [after]
  intro o ho
  have hdd : (toDense d.conv).param ≠ .other := hd
  have hss : (toDense d.conv).param = .standard → 0 < (toDense d.conv).s.1 := hs
  have ho' : o < (toDense d.conv).width := by rw [toDense_width d.conv d.shared]; exact ho
  rw [initVar_eq] at hν
  have hfan : 0 < d.conv.fanIn C := by
    unfold Conv.fanIn Conv.filterSize
    refine Nat.mul_pos hC ?_
    apply Nat.pos_of_ne_zero
    intro h0
    rw [List.prod_eq_zero_iff] at h0
    obtain ⟨v, hv, hv0⟩ := List.mem_map.1 h0
    have := (hw v hv).1
    omega
  have f1 : ∀ i p, i < L.n1 → InRange p (upDims d.conv.padding L.S1 d.conv.filter) →
      chan (layerOut d C (L.S1.length + 2) X1) d.conv.batchAxis d.conv.channelAxis i o p =
      linOut (C52.coef (toDense d.conv) o (patch d C X1 i L.S1 p)) := fun i p hi hp => funext fun x => (e1 x).2 i o p hi ho hp
  have f2 : ∀ i p, i < L.n2 → InRange p (upDims d.conv.padding L.S2 d.conv.filter) →
      chan (layerOut d C (L.S1.length + 2) X2) d.conv.batchAxis d.conv.channelAxis i o p =
      linOut (C52.coef (toDense d.conv) o (patch d C X2 i L.S2 p)) := fun i p hi hp => funext fun x => (e2 x).2 i o p hi ho hp
  -- patches inherit regularity
  have pat : ∀ (X : E → Arr ℝ) (S : List ℕ) i q m, m < d.conv.fanIn C →
      patch d C X i S q m = (fun _ => 0) ∨
        ∃ c < C, ∃ p, InRange p S ∧ patch d C X i S q m = chan X d.conv.batchAxis d.conv.channelAxis i c p := by
    intro X S i q m hm
    obtain ⟨c, hc, f, -, t1, t2, t3⟩ := patch_split d C S q m hm
    rcases t3 with t3 | ⟨p, t3, hp⟩
    · left
      funext θ
      unfold patch
      rw [t2, t3]
      rfl
    · right
      refine ⟨c, hc, p, hp, ?_⟩
      funext θ
      unfold patch
      rw [t1, t2, t3]
      rfl
  have sq1 : ∀ i < L.n1, ∀ q, InRange q (upDims d.conv.padding L.S1 d.conv.filter) → ∀ m < d.conv.fanIn C,
      MemLp (patch d C X1 i L.S1 q m) 2 μ := by
    intro i hi q hq m hm
    rcases pat X1 L.S1 i q m hm with h | ⟨c, hc, p, hp, h⟩ <;> rw [h]
    · exact memLp_const 0
    · exact hreg.sq1 i hi c hc p hp
  have sq2 : ∀ i < L.n2, ∀ q, InRange q (upDims d.conv.padding L.S2 d.conv.filter) → ∀ m < d.conv.fanIn C,
      MemLp (patch d C X2 i L.S2 q m) 2 μ := by
    intro i hi q hq m hm
    rcases pat X2 L.S2 i q m hm with h | ⟨c, hc, p, hp, h⟩ <;> rw [h]
    · exact memLp_const 0
    · exact hreg.sq2 i hi c hc p hp
  have df1 : ∀ i < L.n1, ∀ q, InRange q (upDims d.conv.padding L.S1 d.conv.filter) → ∀ m < d.conv.fanIn C,
      ∀ᵐ θ ∂μ, DifferentiableAt ℝ (patch d C X1 i L.S1 q m) θ := by
    intro i hi q hq m hm
    rcases pat X1 L.S1 i q m hm with h | ⟨c, hc, p, hp, h⟩ <;> rw [h]
    · exact Filter.Eventually.of_forall fun θ => differentiableAt_const 0
    · exact hreg.diff1 i hi c hc p hp
  have df2 : ∀ i < L.n2, ∀ q, InRange q (upDims d.conv.padding L.S2 d.conv.filter) → ∀ m < d.conv.fanIn C,
      ∀ᵐ θ ∂μ, DifferentiableAt ℝ (patch d C X2 i L.S2 q m) θ := by
    intro i hi q hq m hm
    rcases pat X2 L.S2 i q m hm with h | ⟨c, hc, p, hp, h⟩ <;> rw [h]
    · exact Filter.Eventually.of_forall fun θ => differentiableAt_const 0
    · exact hreg.diff2 i hi c hc p hp
  have gr : ∀ i < L.n1, ∀ j < L.n2, ∀ q q', InRange q (upDims d.conv.padding L.S1 d.conv.filter) →
      InRange q' (upDims d.conv.padding L.S2 d.conv.filter) → ∀ m < d.conv.fanIn C, ∀ m' < d.conv.fanIn C,
      Integrable (fun θ => inner ℝ (gradient (patch d C X1 i L.S1 q m) θ) (gradient (patch d C X2 j L.S2 q' m') θ)) μ := by
    intro i hi j hj q q' hq hq' m hm m' hm'
    rcases pat X1 L.S1 i q m hm with h | ⟨c, hc, p, hp, h⟩
    · simp [h, gradient_zero']
    · rcases pat X2 L.S2 j q' m' hm' with h' | ⟨c', hc', p', hp', h'⟩
      · simp [h', gradient_zero']
      · rw [h, h']
        exact hreg.grad i hi j hj c hc c' hc' p p' hp hp'
  have z1 : ∀ g : E → ℝ, secondMoment μ (fun _ => 0) g = 0 := fun g => by simp [secondMoment]
  have z2 : ∀ g : E → ℝ, secondMoment μ g (fun _ => 0) = 0 := fun g => by simp [secondMoment]
  have z3 : ∀ g : E → ℝ, tangent μ (fun _ => 0) g = 0 := fun g => by simp [tangent, gradient_zero']
  have z4 : ∀ g : E → ℝ, tangent μ g (fun _ => 0) = 0 := fun g => by simp [tangent, gradient_zero']
  refine ⟨?_, ?_, ?_, ?_⟩
  · intro i j p q hi hj hp hq
    beta_reduce
    rw [f1 i p hi hp, f2 j q hj hq, C52.secondMoment_out μ hdd _ hfan hss ν hν o ho' _ _ (sq1 i hi p hp) (sq2 j hj q hq),
      avg_patch d C hC X1 X2 _ _ (secondMoment μ) z1 z2 i j (L.k12 [i, j])
        (fun a b ha hb => hX.k12 i j a b hi hj ha hb) p q]
    rfl
  · intro i j p q hi hj hp hq
    beta_reduce
    rw [f1 i p hi hp, f1 j q hj hq, C52.secondMoment_out μ hdd _ hfan hss ν hν o ho' _ _ (sq1 i hi p hp) (sq1 j hj q hq),
      avg_patch d C hC X1 X1 _ _ (secondMoment μ) z1 z2 i j (L.k11 [i, j])
        (fun a b ha hb => hX.k11 i j a b hi hj ha hb) p q]
    rfl
  · intro F hF i j p q hi hj hp hq
    simp only [after, Option.map_eq_some_iff] at hF
    obtain ⟨G, hG, rfl⟩ := hF
    beta_reduce
    rw [f2 i p hi hp, f2 j q hj hq, C52.secondMoment_out μ hdd _ hfan hss ν hν o ho' _ _ (sq2 i hi p hp) (sq2 j hj q hq),
      avg_patch d C hC X2 X2 _ _ (secondMoment μ) z1 z2 i j (G [i, j])
        (fun a b ha hb => hX.k22 G hG i j a b hi hj ha hb) p q]
    rfl
  · intro F hF i j p q hi hj hp hq
    simp only [after, Option.map_eq_some_iff] at hF
    obtain ⟨G, hG, rfl⟩ := hF
    beta_reduce
    rw [f1 i p hi hp, f2 j q hj hq, C52.tangent_out μ hdd _ hfan hss ν hν o ho' _ _ (sq1 i hi p hp) (sq2 j hj q hq)
      (df1 i hi p hp) (df2 j hj q hq) (gr i hi j hj p q hp hq),
      avg_patch d C hC X1 X2 _ _ (secondMoment μ) z1 z2 i j (L.k12 [i, j])
        (fun a b ha hb => hX.k12 i j a b hi hj ha hb) p q,
      avg_patch d C hC X1 X2 _ _ (tangent μ) z3 z4 i j (G [i, j])
        (fun a b ha hb => hX.ntk G hG i j a b hi hj ha hb) p q]
    rfl

/-- The diagonal layout agrees with the diagonal of the full one: from kernels that hold the same covariances
in the two layouts the layer makes kernels that hold the same covariances, again in the two layouts. -/
theorem diagonal_agrees (d : ConvTranspose) (hp : d.conv.param ≠ .other) (kf kd : Kernel ℝ) (L : Logical ℝ) (hf : kf.Stores L)
    (hd : kd.Stores L) (hLf : Layout d kf L) (hLd : Layout d kd L) (hsh : kf.shape1 = kd.shape1)
    (ef : kf.diagonalSpatial = false) (ed : kd.diagonalSpatial = true) :
    ∃ kf' kd' L', d.kernelFn kf = .ok kf' ∧ d.kernelFn kd = .ok kd' ∧ kf'.Stores L' ∧ kd'.Stores L' ∧
      kf'.diagonalSpatial = false ∧ kd'.diagonalSpatial = true := by
  obtain ⟨a, ha, ha', hs, -⟩ := kernel_formula d hp kf L hf hLf
  obtain ⟨b, hb, hb', ht, -⟩ := kernel_formula d hp kd L hd hLd
  rw [hsh] at ha'
  refine ⟨a, b, _, ha, hb, ha', hb', ?_, ?_⟩
  · rw [← ef]; exact congrArg Static.diagonalSpatial hs
  · rw [← ed]; exact congrArg Static.diagonalSpatial ht

/-- An unsupported parameterization is rejected. -/
theorem param_rejected (d : ConvTranspose) (h : d.conv.param = .other) (W x : Arr ℝ) (b : Option (Arr ℝ)) (k : Kernel ℝ) :
    d.kernelFn k = .error .valueError ∧ d.apply W b x = .error .notImplemented := by
  constructor
  · simp [ConvTranspose.kernelFn, h]
  · unfold ConvTranspose.apply; simp only [h]

section Example

/-- `ConvTranspose(1, (3, 2), strides=(2, 1), W_std=2, b_std=3)` in the standard parameterization. -/
noncomputable def exD (pad : Padding) : ConvTranspose := ⟨C53.exD pad, rfl⟩

/-- Positions `[5, 3]`, two channels, any padding, any layout of the batch axes, and axes reversed or not. -/
example (a b : ℕ → ℕ → List ℕ → ℝ) (pad : Padding) (db rev : Bool) :
    ∃ ν : Measure (EuclideanSpace ℝ (C52.Idx ((exD pad).conv.fanIn 2) (toDense (exD pad).conv).width (C52.nBias (toDense (exD pad).conv)))),
    ∃ k' L', (exD pad).kernelFn { (lin1L 2 a b 2 2 [5, 3] [5, 3]).encode db false rev with shape1 := [2, 5, 3, 2] } = .ok k' ∧
      k'.Stores L' ∧ KernelOf (extMeasure (ProbabilityTheory.gaussianReal 0 1) ν)
        (fun i p => chan (layerOut (exD pad) 2 4 (C54.exX a)) 0 3 i 0 p)
        (fun i p => chan (layerOut (exD pad) 2 4 (C54.exX b)) 0 3 i 0 p) L' := by
  have hst := Logical.encode_stores (lin1L 2 a b 2 2 [5, 3] [5, 3]) db false rev (by simp) rfl
  obtain ⟨ν, hν⟩ := exists_uncorrelated (C52.Idx ((exD pad).conv.fanIn 2) (toDense (exD pad).conv).width (C52.nBias (toDense (exD pad).conv)))
    (initVar (exD pad).conv 2) (by intro k; rcases k with k | k <;> exact sq_nonneg _)
  obtain ⟨k', L', h1, h2, -, -, h3⟩ := kernel_exact (ProbabilityTheory.gaussianReal 0 1) (exD pad) (by simp [exD, C53.exD])
    (by simp [exD, C53.exD]) (C54.exX a) (C54.exX b) 2 (by decide)
    { (lin1L 2 a b 2 2 [5, 3] [5, 3]).encode db false rev with shape1 := [2, 5, 3, 2] } _
    ⟨hst.nngp, hst.cov1, hst.cov2, hst.ntk⟩
    ⟨by simp [exD, C53.exD], rfl, by simp [lin1L], by simp [lin1L], by simp [Logical.encode], by
      intro x hx hs
      simp only [Logical.encode, lin1L, Option.map_some, Option.some.injEq] at hx
      rw [← hx] at hs
      simp [holdArr] at hs⟩
    (by simp [lin1L, exD, C53.exD]) (by simp [lin1L, exD, C53.exD]) (by simp [exD, C53.exD]) (fun θ => rfl) (fun θ => rfl) rfl
    (C54.exX_regular a b) (C54.exX_kernel a b) ν hν
  exact ⟨ν, k', L', h1, h2, h3 0 (by simp [exD, C53.exD, Conv.width])⟩

/-- Both layouts. -/
example (pad : Padding) (ds : Bool) : ∃ k', (exD pad).kernelFn { (C53.constL [5, 3]).encode true ds false with shape1 := [1, 5, 3, 2] } = .ok k' ∧
    k'.Stores (after (exD pad) 2 (C53.constL [5, 3])) := by
  have hst := Logical.encode_stores (C53.constL [5, 3]) true ds false (fun _ => rfl) rfl
  obtain ⟨k', h1, h2, -⟩ := kernel_formula (exD pad)
    (by simp [exD, C53.exD]) { (C53.constL [5, 3]).encode true ds false with shape1 := [1, 5, 3, 2] } (C53.constL [5, 3])
    ⟨hst.nngp, hst.cov1, hst.cov2, hst.ntk⟩
    ⟨by simp [exD, C53.exD], rfl, by simp [C53.constL], by simp [C53.constL], by simp [Logical.encode], by simp [Logical.encode, C53.constL]⟩
  exact ⟨k', h1, h2⟩

end Example

end NT.C97
