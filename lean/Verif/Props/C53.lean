import Verif.Lemmas.Conv2
import Verif.Props.C52
import Verif.Props.C54
import Verif.Props.C56

/-!
# C53: the kernel of a convolution
-/

set_option linter.unusedSectionVars false

namespace NT.C53
open NT Arr Kernel Spec MeasureTheory

/-- The bias variance; absent bias counts as 0. -/
noncomputable def bVar (d : Conv) : ℝ := (d.bStd.getD 0) ^ 2

/-- Squared gradients with respect to the filters, per unit of the average second moment of the inputs. -/
noncomputable def gradW (d : Conv) (C : ℕ) : ℝ :=
  if d.param = .standard then (C * (d.filter.map Prod.fst).prod : ℕ) / d.s.1 else d.wStd ^ 2

/-- Squared gradients with respect to the bias. -/
noncomputable def gradB (d : Conv) : ℝ :=
  if d.param = .standard then (if d.bStd.isSome then 1 else 0) else (d.bStd.getD 0) ^ 2

/-- The average over the filter offsets `f` of the covariance of the positions that the outputs `o`, `o'`
read at offset `f`, 0 if one of them is outside. -/
noncomputable def avg (d : Conv) (S T : List ℕ) (F : List ℕ → List ℕ → ℝ) (o o' : List ℕ) : ℝ :=
  (∑ f ∈ offsets d.filter, read2 F (readIdx d.padding S d.filter o f) (readIdx d.padding T d.filter o' f)) /
    ((d.filter.map Prod.fst).prod : ℕ)

/-- Different positions have independent filters unless the weights are shared. -/
noncomputable def gate (d : Conv) (o o' : List ℕ) (v : ℝ) : ℝ := if d.sharedWeights = true ∨ o = o' then v else 0

/-- The kernel after the layer. -/
noncomputable def after (d : Conv) (C : ℕ) (L : Logical ℝ) : Logical ℝ where
  n1 := L.n1
  n2 := L.n2
  S1 := outDims d.padding L.S1 d.filter
  S2 := outDims d.padding L.S2 d.filter
  k12 := fun b o o' => gate d o o' (d.wStd ^ 2 * avg d L.S1 L.S2 (L.k12 b) o o' + bVar d)
  k11 := fun b o o' => gate d o o' (d.wStd ^ 2 * avg d L.S1 L.S1 (L.k11 b) o o' + bVar d)
  k22 := L.k22.map fun F b o o' => gate d o o' (d.wStd ^ 2 * avg d L.S2 L.S2 (F b) o o' + bVar d)
  ntk := L.ntk.map fun F b o o' => gate d o o' (gradW d C * avg d L.S1 L.S2 (L.k12 b) o o' + gradB d +
    d.wStd ^ 2 * avg d L.S1 L.S2 (F b) o o')

/-- The order of the spatial axes of the result. -/
def newRev (d : Conv) (k : Kernel ℝ) : Bool :=
  if !k.diagonalSpatial && d.sharedWeights then !k.isReversed else k.isReversed

/-- The layouts that the layer handles: the diagonal layout is never reversed; with unshared weights in the
full layout the inputs have equal shapes and the filter is symmetric or the axes are not reversed. -/
structure Layout (d : Conv) (k : Kernel ℝ) (L : Logical ℝ) : Prop where
  pos : ∀ v ∈ d.filter, 0 < v.1 ∧ 0 < v.2
  rank : L.S1.length = d.filter.length
  diag : k.diagonalSpatial = true → k.isReversed = false
  unshared : d.sharedWeights = false → k.diagonalSpatial = false →
    L.S1 = L.S2 ∧ (k.isReversed = true → d.filter.reverse = d.filter)
  scalar : ∀ a, k.ntk = some a → a.shape = [] → a.get [] = 0

variable {d : Conv} {k : Kernel ℝ}

lemma convUnscaled_holds {a : Arr ℝ} {B S T : List ℕ} {F : List ℕ → List ℕ → List ℕ → ℝ}
    (h : Holds a B S T k.diagonalSpatial k.isReversed F) (hB : B ≠ []) (bn : ℕ) (hbn : bn = B.length)
    (hw : PosWin d.filter) (hl : S.length = d.filter.length)
    (hd : k.diagonalSpatial = true → k.isReversed = false)
    (hu : d.sharedWeights = false → k.diagonalSpatial = false → S = T ∧ (k.isReversed = true → d.filter.reverse = d.filter)) :
    ∃ z, d.convUnscaled k a bn = .ok z ∧
      Holds z B (outDims d.padding S d.filter) (outDims d.padding T d.filter) k.diagonalSpatial (newRev d k)
        (fun b o o' => gate d o o' (avg d S T (F b) o o')) := by
  subst hbn
  unfold Conv.convUnscaled newRev
  cases e : k.diagonalSpatial
  · cases es : d.sharedWeights
    · obtain ⟨rfl, hr⟩ := hu es e
      rw [e] at h
      obtain ⟨z, hz, hz'⟩ := convUnshared_holds d.padding h hB d.filter hw hl (by
        unfold rvW
        cases er : k.isReversed
        · rfl
        · simpa using hr er)
      refine ⟨z, by simpa using hz, ?_⟩
      simp only [Bool.not_false, Bool.and_false, Bool.false_eq_true, if_false]
      refine hz'.congr fun b o o' _ _ _ => ?_
      simp only [gate, es, Bool.false_eq_true, false_or]
      rfl
    · rw [e] at h
      have := convShared_holds d.padding h hB d.filter hw hl
      refine ⟨_, rfl, ?_⟩
      simp only [Bool.not_false, Bool.and_true, if_true]
      refine Holds.congr (F := convLogical d.padding d.filter S T F) ?_ fun b o o' _ _ _ => ?_
      · exact this
      · simp only [gate, es, true_or, if_true]
        rfl
  · have hr := hd e
    rw [e, hr] at h
    obtain rfl := h.square rfl
    have := convDiagonal_holds d.padding h hB d.filter hw hl
    refine ⟨_, rfl, ?_⟩
    simp only [Bool.not_true, Bool.false_and, Bool.false_eq_true, if_false, hr]
    refine ⟨this.rank, this.square, this.shape, fun b o o' hb ho ho' e => ?_⟩
    rw [this.get b o o' hb ho ho' e]
    simp only [gate, e rfl, or_true, if_true]
    rfl

lemma affine_holds {a : Arr ℝ} {B S T : List ℕ} {rev : Bool} {F : List ℕ → List ℕ → List ℕ → ℝ}
    (h : Holds a B S T k.diagonalSpatial rev (fun b o o' => gate d o o' (F b o o'))) (bn : ℕ) (hbn : bn = B.length)
    (c : ℝ) (t : Option ℝ) :
    Holds (d.affine k a c t bn) B S T k.diagonalSpatial rev
      (fun b o o' => gate d o o' (c * F b o o' + t.getD 0)) := by
  subst hbn
  have h1 := h.map fun v => v * c
  unfold Conv.affine
  cases t with
  | none =>
    refine h1.congr fun b o o' _ _ _ => ?_
    unfold gate
    split <;> simp [mul_comm]
  | some t =>
    by_cases hc : k.diagonalSpatial = true ∨ d.sharedWeights = true
    · simp only [if_pos hc]
      have h2 := h1.map fun v => v + t
      refine ⟨h2.rank, h2.square, h2.shape, fun b o o' hb ho ho' e => ?_⟩
      rw [h2.get b o o' hb ho ho' e]
      have : d.sharedWeights = true ∨ o = o' := by
        rcases hc with hc | hc
        · exact .inr (e hc)
        · exact .inl hc
      simp [gate, this, mul_comm]
    · simp only [if_neg hc]
      refine ⟨h1.rank, h1.square, h1.shape, fun b o o' hb ho ho' e => ?_⟩
      have h2 := h1.get b o o' hb ho ho' e
      push Not at hc
      have e1 : k.diagonalSpatial = false := by simpa using hc.1
      dsimp only
      have hb' := hb.length
      have e2 : (b ++ pos k.diagonalSpatial rev o o').drop B.length = interleave (rv rev o) (rv rev o') := by
        rw [← hb', List.drop_left', e1, pos_full]; rfl
      have lo : o.length = o'.length := by rw [ho.length, ho'.length, h.rank]
      have e3 := C56.pairsEqual_interleave (rv rev o) (rv rev o') (by simpa using lo)
      rw [C56.rv_inj] at e3
      rw [e2, h2]
      have e4 : d.sharedWeights = false := by simpa using hc.2
      by_cases hoo : o = o'
      · rw [if_pos (e3.2 hoo)]
        simp [gate, hoo, mul_comm]
      · rw [if_neg (fun h => hoo (e3.1 h))]
        simp [gate, hoo, e4]

lemma conv_holds {a : Arr ℝ} {B S T : List ℕ} {F : List ℕ → List ℕ → List ℕ → ℝ}
    (h : Holds a B S T k.diagonalSpatial k.isReversed F) (hB : B ≠ []) (bn : ℕ) (hbn : bn = B.length)
    (hw : PosWin d.filter) (hl : S.length = d.filter.length)
    (hd : k.diagonalSpatial = true → k.isReversed = false)
    (hu : d.sharedWeights = false → k.diagonalSpatial = false → S = T ∧ (k.isReversed = true → d.filter.reverse = d.filter)) :
    ∃ z, d.conv k a bn = .ok z ∧
      Holds z B (outDims d.padding S d.filter) (outDims d.padding T d.filter) k.diagonalSpatial (newRev d k)
        (fun b o o' => gate d o o' (d.wStd ^ 2 * avg d S T (F b) o o' + bVar d)) := by
  obtain ⟨z, hz, hz'⟩ := convUnscaled_holds h hB bn hbn hw hl hd hu
  refine ⟨_, by unfold Conv.conv; rw [hz]; rfl, ?_⟩
  refine (affine_holds hz' bn hbn (d.wStd ^ 2) (d.bStd.map (· ^ 2))).congr fun b o o' _ _ _ => ?_
  unfold bVar
  cases d.bStd <;> simp

/-- `conv_unscaled` of the tangent kernel, which may be a scalar 0. -/
lemma ntk_unscaled {a : Arr ℝ} {B S T : List ℕ} {F : List ℕ → List ℕ → List ℕ → ℝ}
    (h : HoldsS a B S T k.diagonalSpatial k.isReversed F) (hB : B ≠ []) (bn : ℕ) (hbn : bn = B.length)
    (hw : PosWin d.filter) (hl : S.length = d.filter.length)
    (hd : k.diagonalSpatial = true → k.isReversed = false)
    (hu : d.sharedWeights = false → k.diagonalSpatial = false → S = T ∧ (k.isReversed = true → d.filter.reverse = d.filter))
    (h0 : a.shape = [] → a.get [] = 0) :
    ∃ z, d.convUnscaled k a bn = .ok z ∧
      HoldsS z B (outDims d.padding S d.filter) (outDims d.padding T d.filter) k.diagonalSpatial (newRev d k)
        (fun b o o' => gate d o o' (avg d S T (F b) o o')) := by
  rcases h with ⟨h1, h2⟩ | h
  · refine ⟨a, ?_, .inl ⟨h1, ?_⟩⟩
    · have : a.ndim = 0 := by unfold ndim; rw [h1]; rfl
      unfold Conv.convUnscaled convDiagonal convShared convUnshared
      simp [this]
    · intro b o o'
      have hF : ∀ p q, F b p q = 0 := fun p q => (h2 b p q).trans (h0 h1)
      have : avg d S T (F b) o o' = 0 := by
        unfold avg
        rw [Finset.sum_eq_zero, zero_div]
        intro f _
        unfold read2
        split
        · exact hF _ _
        · rfl
      beta_reduce
      rw [this, h0 h1]
      unfold gate
      split <;> rfl
  · obtain ⟨z, hz, hz'⟩ := convUnscaled_holds h hB bn hbn hw hl hd hu
    exact ⟨z, hz, .inr hz'⟩

/-- **The kernel of `Conv` and `ConvLocal`.**  In every layout `kernel_fn` returns, for outputs `o`, `o'`,
`W_std ^ 2` times the average over filter offsets `f` of the input kernel at the positions read, plus
`b_std ^ 2`; for `ConvLocal` different positions are uncorrelated.  The full layout and the diagonal layout
store the same function, so that the latter is the diagonal of the former. -/
theorem kernel_formula (d : Conv) (hp : d.param ≠ .other) (k : Kernel ℝ) (L : Logical ℝ) (hk : k.Stores L)
    (hL : Layout d k L) :
    ∃ k', d.kernelFn k = .ok k' ∧ k'.Stores (after d (k.shape1.getD d.channelAxis 0) L) ∧
      k'.static = { k.static with
        isGaussian := true, isInput := false, isReversed := newRev d k,
        batchAxis := d.batchAxis, channelAxis := d.channelAxis } ∧
      (k'.mask1, k'.mask2, k'.x1IsX2) = (k.mask1, k.mask2, k.x1IsX2) := by
  have hr : L.S1.length = L.S2.length := hk.nngp.rank
  have hl2 : L.S2.length = d.filter.length := by rw [← hr]; exact hL.rank
  have hu1 : d.sharedWeights = false → k.diagonalSpatial = false → L.S1 = L.S1 ∧ (k.isReversed = true → d.filter.reverse = d.filter) :=
    fun a b => ⟨rfl, (hL.unshared a b).2⟩
  have hu2 : d.sharedWeights = false → k.diagonalSpatial = false → L.S2 = L.S2 ∧ (k.isReversed = true → d.filter.reverse = d.filter) :=
    fun a b => ⟨rfl, (hL.unshared a b).2⟩
  obtain ⟨c1, hc1, hc1'⟩ := conv_holds hk.cov1 (by cases k.diagonalBatch <;> simp [batchShape])
    (if k.diagonalBatch then 1 else 2) (by cases k.diagonalBatch <;> rfl) hL.pos hL.rank hL.diag hu1
  obtain ⟨n1, hn1, hn1'⟩ := conv_holds hk.nngp (by simp) 2 rfl hL.pos hL.rank hL.diag hL.unshared
  have hc2 : ∃ c2, d.convO k (if k.diagonalBatch then 1 else 2) k.cov2 = .ok c2 ∧
      OptRel (fun (a : Arr ℝ) (F : List ℕ → List ℕ → List ℕ → ℝ) =>
        Holds a (batchShape k.diagonalBatch L.n2) (outDims d.padding L.S2 d.filter) (outDims d.padding L.S2 d.filter)
          k.diagonalSpatial (newRev d k) (fun b => F (dbl b))) c2
        (L.k22.map fun F b o o' => gate d o o' (d.wStd ^ 2 * avg d L.S2 L.S2 (F b) o o' + bVar d)) := by
    have h2 := hk.cov2
    cases e1 : k.cov2 <;> cases e2 : L.k22 <;> rw [e1, e2] at h2 <;>
      simp only [OptRel, Option.map_some, Option.map_none] at h2 ⊢
    · exact ⟨none, rfl, trivial⟩
    · obtain ⟨c2, hc2, hc2'⟩ := conv_holds h2 (by cases k.diagonalBatch <;> simp [batchShape])
        (if k.diagonalBatch then 1 else 2) (by cases k.diagonalBatch <;> rfl) hL.pos hl2 hL.diag hu2
      exact ⟨some c2, by simp only [Conv.convO, hc2, Except.map], hc2'⟩
  obtain ⟨c2, hc2, hc2'⟩ := hc2
  set C := k.shape1.getD d.channelAxis 0 with hC
  have main : ∀ ntk nngp, Holds nngp [L.n1, L.n2] (outDims d.padding L.S1 d.filter) (outDims d.padding L.S2 d.filter)
        k.diagonalSpatial (newRev d k) (after d C L).k12 →
      OptRel (fun (a : Arr ℝ) (F : List ℕ → List ℕ → List ℕ → ℝ) =>
        HoldsS a [L.n1, L.n2] (outDims d.padding L.S1 d.filter) (outDims d.padding L.S2 d.filter)
          k.diagonalSpatial (newRev d k) F) ntk (after d C L).ntk →
      (d.finish k c1 nngp c2 ntk).Stores (after d C L) := by
    intro ntk nngp h1 h2
    exact ⟨h1, hc1', hc2', h2⟩
  have hn := hk.ntk
  rcases e : d.param with _ | _ | _
  · have key : ∃ ntk, d.ntkNtk k n1 = .ok ntk ∧ OptRel (fun (a : Arr ℝ) (F : List ℕ → List ℕ → List ℕ → ℝ) =>
        HoldsS a [L.n1, L.n2] (outDims d.padding L.S1 d.filter) (outDims d.padding L.S2 d.filter)
          k.diagonalSpatial (newRev d k) F) ntk (after d C L).ntk := by
      unfold Conv.ntkNtk after
      cases e1 : k.ntk <;> cases e2 : L.ntk <;> rw [e1, e2] at hn <;>
        simp only [OptRel, Option.map_some, Option.map_none] at hn ⊢
      · exact ⟨none, rfl, trivial⟩
      · rename_i a F
        obtain ⟨z, hz, hz'⟩ := ntk_unscaled hn (by simp) 2 rfl hL.pos hL.rank hL.diag hL.unshared
          (fun h => hL.scalar a e1 h)
        obtain ⟨r, hr, -, hr'⟩ := zipB_holdsS (op := (· + ·)) (by simp) (hz'.map fun v => d.wStd ^ 2 * v) (.inr hn1')
        refine ⟨some r, by simp only [hz, hr, bind, Except.bind, pure, Except.pure], .inr ?_⟩
        refine (hr' (.inr hn1')).congr fun b o o' _ _ _ => ?_
        simp only [gate, gradW, gradB, bVar, e, reduceCtorEq, if_false]
        split
        · ring
        · simp
    obtain ⟨ntk, h1, h2⟩ := key
    refine ⟨_, ?_, main ntk n1 hn1' h2, rfl, rfl⟩
    unfold Conv.kernelFn
    simp only [e, hc1, hc2, hn1, h1, bind, Except.bind, pure, Except.pure]
  · obtain ⟨u, hu, hu'⟩ := convUnscaled_holds hk.nngp (by simp) 2 rfl hL.pos hL.rank hL.diag hL.unshared
    have key : ∃ ntk, d.ntkStandard k C u = .ok ntk ∧ OptRel (fun (a : Arr ℝ) (F : List ℕ → List ℕ → List ℕ → ℝ) =>
        HoldsS a [L.n1, L.n2] (outDims d.padding L.S1 d.filter) (outDims d.padding L.S2 d.filter)
          k.diagonalSpatial (newRev d k) F) ntk (after d C L).ntk := by
      unfold Conv.ntkStandard after
      cases e1 : k.ntk <;> cases e2 : L.ntk <;> rw [e1, e2] at hn <;>
        simp only [OptRel, Option.map_some, Option.map_none] at hn ⊢
      · exact ⟨none, rfl, trivial⟩
      · rename_i a F
        obtain ⟨z, hz, hz'⟩ := ntk_unscaled hn (by simp) 2 rfl hL.pos hL.rank hL.diag hL.unshared
          (fun h => hL.scalar a e1 h)
        have hN := hu'.map fun v => (d.fanIn C : ℝ) / d.s.1 * v
        obtain ⟨r, hr, -, hr'⟩ := zipB_holdsS (op := (· + ·)) (by simp) (.inr hN) (hz'.map fun v => d.wStd ^ 2 * v)
        have hr2 : Holds r [L.n1, L.n2] (outDims d.padding L.S1 d.filter) (outDims d.padding L.S2 d.filter)
            k.diagonalSpatial (newRev d k) (fun b o o' => gate d o o' (gradW d C * avg d L.S1 L.S2 (L.k12 b) o o' +
              d.wStd ^ 2 * avg d L.S1 L.S2 (F b) o o')) := by
          refine (hr' (.inl hN)).congr fun b o o' _ _ _ => ?_
          simp only [gate, gradW, e, if_true, Conv.fanIn, Conv.filterSize]
          split <;> simp
        simp only [hz, hr, bind, Except.bind, pure, Except.pure]
        rcases hb : d.bStd with _ | bb
        · refine ⟨some r, by simp, .inr (hr2.congr fun b o o' _ _ _ => ?_)⟩
          simp [gradB, e, hb]
        · refine ⟨some (d.affine k r 1 (some 1) 2), by simp, .inr ((affine_holds hr2 2 rfl 1 (some 1)).congr
            fun b o o' _ _ _ => ?_)⟩
          simp only [gate, gradB, e, hb]
          split
          · simp; ring
          · rfl
    obtain ⟨ntk, h1, h2⟩ := key
    refine ⟨_, ?_, main ntk (d.affine k u (d.wStd ^ 2) (d.bStd.map (· ^ 2)) 2) ?_ h2, rfl, rfl⟩
    · unfold Conv.kernelFn
      simp only [e, hc1, hc2, hu, ← hC, h1, bind, Except.bind, pure, Except.pure]
    · refine (affine_holds hu' 2 rfl (d.wStd ^ 2) (d.bStd.map (· ^ 2))).congr fun b o o' _ _ _ => ?_
      simp only [after, bVar]
      cases d.bStd <;> simp
  · exact absurd e hp


/-! ### The activations -/

lemma zipWith_insertIdx {α β γ : Type} (f : α → β → γ) : ∀ (l : List α) (m : List β) (n : ℕ) (a : α) (b : β),
    l.length = m.length → n ≤ l.length →
    List.zipWith f (l.insertIdx n a) (m.insertIdx n b) = (List.zipWith f l m).insertIdx n (f a b) := by
  intro l
  induction l with
  | nil =>
    intro m n a b h hn
    obtain rfl := List.length_eq_zero_iff.1 h.symm
    obtain rfl : n = 0 := by simpa using hn
    rfl
  | cons x l ih =>
    intro m n a b h hn
    cases m with
    | nil => simp at h
    | cons y m =>
      cases n with
      | zero => rfl
      | succ n =>
        simp only [List.insertIdx_succ_cons, List.zipWith_cons_cons]
        rw [ih m n a b (by simpa using h) (by simpa using hn)]

lemma padShape_act (B A n C : ℕ) (S : List ℕ) (ws : List (ℕ × ℕ)) (hl : S.length = ws.length)
    (hB : B < S.length + 2) (hA : A < S.length + 2) (hne : B ≠ A) :
    padShape (actIdx B A n C S) (actIdx B A (1, 1) (1, 1) ws) = actIdx B A n C (padShape S ws) := by
  have hk := Inputs.newAxis_le hne.symm hA hB
  have lS : (S.insertIdx (newAxis A B) C).length = S.length + 1 := by rw [List.length_insertIdx, if_pos hk]
  have lw : (ws.insertIdx (newAxis A B) (1, 1)).length = ws.length + 1 := by
    rw [List.length_insertIdx, if_pos (by omega)]
  have lp := padShape_length S ws hl
  rw [actIdx_insert' B A n C S hne hB hA, actIdx_insert' B A (1, 1) (1, 1) ws hne (by omega) (by omega),
    actIdx_insert' B A n C (padShape S ws) hne (by omega) (by omega)]
  unfold padShape
  rw [zipWith_insertIdx _ _ _ _ _ _ (by omega) (by omega), zipWith_insertIdx _ _ _ _ _ _ hl hk]
  simp only [samePads_one, Nat.zero_add, Nat.add_zero]

lemma wrapIdx_act (B A n C : ℕ) (S : List ℕ) (ws : List (ℕ × ℕ)) (hl : S.length = ws.length)
    (hB : B < S.length + 2) (hA : A < S.length + 2) (hne : B ≠ A) (i c : ℕ) (hi : i < n) (hc : c < C)
    (p : List ℕ) (hp : p.length = S.length) :
    wrapIdx (actIdx B A n C S) (actIdx B A (1, 1) (1, 1) ws) (actIdx B A i c p) = actIdx B A i c (wrapIdx S ws p) := by
  have hk := Inputs.newAxis_le hne.symm hA hB
  have lS : (S.insertIdx (newAxis A B) C).length = S.length + 1 := by rw [List.length_insertIdx, if_pos hk]
  have lw : (ws.insertIdx (newAxis A B) (1, 1)).length = ws.length + 1 := by
    rw [List.length_insertIdx, if_pos (by omega)]
  have lp : (p.insertIdx (newAxis A B) c).length = p.length + 1 := by rw [List.length_insertIdx, if_pos (by omega)]
  have lz : (S.zip ws).length = S.length := by rw [List.length_zip]; omega
  have lW : (wrapIdx S ws p).length = S.length := by unfold wrapIdx; rw [List.length_zipWith, lz]; omega
  rw [actIdx_insert' B A n C S hne hB hA, actIdx_insert' B A (1, 1) (1, 1) ws hne (by omega) (by omega),
    actIdx_insert' B A i c p hne (by omega) (by omega), actIdx_insert' B A i c (wrapIdx S ws p) hne (by omega) (by omega)]
  unfold wrapIdx
  have z1 : (S.insertIdx (newAxis A B) C).zip (ws.insertIdx (newAxis A B) (1, 1)) =
      (S.zip ws).insertIdx (newAxis A B) (C, (1, 1)) := by
    rw [List.zip, zipWith_insertIdx _ _ _ _ _ _ hl hk]
  have z2 : ((S.insertIdx (newAxis A B) C).insertIdx B n).zip ((ws.insertIdx (newAxis A B) (1, 1)).insertIdx B (1, 1)) =
      ((S.zip ws).insertIdx (newAxis A B) (C, (1, 1))).insertIdx B (n, (1, 1)) := by
    rw [← z1, List.zip, zipWith_insertIdx _ _ _ _ _ _ (by omega) (by omega)]
  have l1 : ((S.zip ws).insertIdx (newAxis A B) (C, (1, 1))).length = S.length + 1 := by
    rw [List.length_insertIdx, if_pos (by omega), lz]
  rw [z2, zipWith_insertIdx _ _ _ _ _ _ (by omega) (by omega), zipWith_insertIdx _ _ _ _ _ _ (by omega) (by omega)]
  simp only [samePads_one, wrap1_self _ _ hi, wrap1_self _ _ hc]

/-- Reading the padded activations. -/
lemma read_act (pad : Padding) (x : Arr ℝ) (B A n C : ℕ) (S : List ℕ) (ws : List (ℕ × ℕ)) (hw : PosWin ws)
    (hl : S.length = ws.length) (hB : B < S.length + 2) (hA : A < S.length + 2) (hne : B ≠ A)
    (hx : x.shape = actIdx B A n C S) :
    (padded pad x (actIdx B A (1, 1) (1, 1) ws)).shape = actIdx B A n C (paddedShape pad S ws) ∧
    ∀ i c q g, i < n → c < C → InRange q (outDims pad S ws) → InRange g (ws.map Prod.fst) →
      readTap (fun p => (padded pad x (actIdx B A (1, 1) (1, 1) ws)).get (actIdx B A i c p))
        (tapIdx (rest pad) (paddedShape pad S ws) ws q g) =
      readTap (fun p => x.get (actIdx B A i c p)) (readIdx pad S ws q g) := by
  unfold padded paddedShape rest
  by_cases h : pad = .circular
  · subst h
    simp only [if_true]
    refine ⟨?_, ?_⟩
    · show padShape x.shape _ = _
      rw [hx, padShape_act B A n C S ws hl hB hA hne]
    · intro i c q g hi hc hq hg
      obtain ⟨z, h1, h2⟩ := tapIdx_wrap S ws q g hw hl hq hg
      have l1 := tapIdx_length _ _ _ _ _ _ h1
      rw [padShape_length _ _ hl] at l1
      rw [h1, h2]
      show x.get (wrapIdx x.shape _ _) = _
      rw [hx, wrapIdx_act B A n C S ws hl hB hA hne i c hi hc z l1]
      rfl
  · simp only [if_neg h]
    refine ⟨hx, ?_⟩
    intro i c q g _ _ _ _
    rw [tapIdx_readIdx pad h _ _ _ _ hw]

/-- A dense layer with the same scales; the convolution applies it to each patch. -/
def toDense (d : Conv) : Dense := ⟨d.outChan, d.wStd, d.bStd, d.channelAxis, d.param, d.s⟩

/-- Entries of the output of `apply_fn`. -/
lemma apply_ok (d : Conv) (hd : d.param ≠ .other) (hsh : d.sharedWeights = true) (hw : PosWin d.filter)
    (W x : Arr ℝ) (b : Option (Arr ℝ)) (n C D : ℕ) (S : List ℕ)
    (hl : S.length = d.filter.length) (hB : d.batchAxis < S.length + 2) (hA : d.channelAxis < S.length + 2)
    (hne : d.batchAxis ≠ d.channelAxis)
    (hW : W.shape = d.filter.map Prod.fst ++ [C, D]) (hx : x.shape = actIdx d.batchAxis d.channelAxis n C S)
    (hb : ∀ b', b = some b' → b'.shape = (List.replicate (S.length + 1) 1).insertIdx d.channelAxis D) :
    ∃ z, d.apply W b x = .ok z ∧ z.shape = actIdx d.batchAxis d.channelAxis n D (outDims d.padding S d.filter) ∧
      ∀ i o q, i < n → o < D → InRange q (outDims d.padding S d.filter) →
        z.get (actIdx d.batchAxis d.channelAxis i o q) =
          (toDense d).gain (d.fanIn C) * (∑ g ∈ box (d.filter.map Prod.fst ++ [C]), W.get (g ++ [o]) *
            readTap (fun p => x.get (actIdx d.batchAxis d.channelAxis i (g.getD d.filter.length 0) p))
              (readIdx d.padding S d.filter q (g.take d.filter.length))) +
          (toDense d).biasTerm b ((List.replicate (S.length + 1) 0).insertIdx d.channelAxis o) := by
  set B := d.batchAxis with hBd
  set A := d.channelAxis with hAd
  obtain ⟨r1, r2⟩ := read_act d.padding x B A n C S d.filter hw hl hB hA hne hx
  set x' := padded d.padding x (actIdx B A (1, 1) (1, 1) d.filter) with hx'
  set S' := paddedShape d.padding S d.filter with hS'
  have lS' : S'.length = S.length := paddedShape_length _ _ _ hl
  set O := outDims d.padding S d.filter with hO
  have lO : O.length = S.length := outDims_length _ _ _ hl
  have hnd : x'.ndim = S.length + 2 := by
    unfold ndim; rw [r1, actIdx_length _ _ _ _ _ hne (by omega) (by omega), lS']
  obtain ⟨g1, g2, g3⟩ := gather_act B A n C S' hne (by omega) (by omega)
  obtain ⟨-, -, c2⟩ := gather_act B A n C S hne (by omega) (by omega)
  have hD : W.shape.getD (d.filter.length + 1) 0 = D := by
    rw [hW, show d.filter.map Prod.fst ++ [C, D] = (d.filter.map Prod.fst ++ [C]) ++ [D] by simp]
    simp
  set y := Conv.laxConv x' W d.filter (rest d.padding) B A with hy
  have hrest : ((List.range x'.ndim).filter fun i => !([B, A].contains i)) = restAxes (S'.length + 2) B A := by
    rw [hnd, lS']; rfl
  have hys : y.shape = actIdx B A n D O := by
    rw [hy]
    unfold Conv.laxConv
    simp only [hrest, r1, g1, g2, hD]
    rw [windowShape_padded _ _ _ hw]
  have hyg : ∀ i o q, i < n → o < D → InRange q O → y.get (actIdx B A i o q) =
      ∑ g ∈ box (d.filter.map Prod.fst ++ [C]), W.get (g ++ [o]) *
            readTap (fun p => x.get (actIdx B A i (g.getD d.filter.length 0) p))
              (readIdx d.padding S d.filter q (g.take d.filter.length)) := by
    intro i o q hi ho hq
    have lq := hq.length
    obtain ⟨f1, f2, f3⟩ := gather_act B A i o q hne (by omega) (by omega)
    rw [lq, lO, ← lS'] at f1
    rw [hy]
    unfold Conv.laxConv
    simp only [hrest, r1, g1, g3, f1, f2, f3]
    rw [sumOver_eq_box]
    refine Finset.sum_congr rfl fun g hg => ?_
    rw [mem_box] at hg
    obtain ⟨gf, gc, rfl, hgf, hgc⟩ := inRange_append_right hg
    obtain ⟨c, rfl⟩ := List.length_eq_one_iff.1 hgc.length
    have lg : gf.length = d.filter.length := by rw [hgf.length]; simp
    have t1 : (gf ++ [c]).take d.filter.length = gf := by rw [← lg]; simp
    have t2 : (gf ++ [c]).getD d.filter.length 0 = c := by
      rw [← lg]; exact getD_append_len gf [c] 0 0
    rw [inRange_cons] at hgc
    rw [t1, t2, r2 i c q gf hi hgc.1 hq hgf]
  set gn := (toDense d).gain (d.fanIn C) with hgn
  set bg := (toDense d).biasGain with hbg
  have hrun : d.apply W b x = .ok (match b with
      | none => y.map fun v => gn * v
      | some b => bcast (fun v u => v + bg * u) (y.map fun v => gn * v) b) := by
    unfold Conv.apply
    simp only [hsh, if_true, ← hAd, ← hBd, hx, c2]
    rcases hp : d.param with _ | _ | _
    · simp only [hgn, hbg, Dense.gain, Dense.biasGain, toDense, hp, reduceCtorEq, if_false]
      cases b <;> rfl
    · simp only [hgn, hbg, Dense.gain, Dense.biasGain, toDense, hp, if_true]
      cases b <;> rfl
    · exact absurd hp hd
  refine ⟨_, hrun, ?_⟩
  cases b with
  | none =>
    refine ⟨hys, ?_⟩
    intro i o q hi ho hq
    simp only [Arr.map, Dense.biasTerm, add_zero]
    rw [hyg i o q hi ho hq]
  | some b =>
    have hbs := hb b rfl
    have hk := Inputs.newAxis_le hne hB hA
    have lR : (O.insertIdx (newAxis B A) n).length = S.length + 1 := by
      rw [List.length_insertIdx, if_pos (by omega), lO]
    have e1 := actIdx_insert B A n D O hne (by omega) (by omega)
    have hAle : A ≤ S.length + 1 := by omega
    refine ⟨?_, ?_⟩
    · show List.zipWith bcastDim y.shape b.shape = _
      rw [hys, hbs, e1, ← lR]
      exact bias_shape _ _ _ (by omega)
    · intro i o q hi ho hq
      have lq := hq.length
      have lr : (q.insertIdx (newAxis B A) i).length = (O.insertIdx (newAxis B A) n).length := by
        rw [List.length_insertIdx, if_pos (by omega), lR]; omega
      show gn * y.get (bcastIdx y.shape _) + bg * b.get (bcastIdx b.shape _) = _
      have hin : InRange (actIdx B A i o q) y.shape := by
        rw [hys, e1, actIdx_insert B A i o q hne (by omega) (by omega)]
        exact inRange_insert (inRange_insert hq (by omega) hi) (by omega) ho
      rw [bcastIdx_self hin, hyg i o q hi ho hq, hbs, actIdx_insert B A i o q hne (by omega) (by omega), ← lR,
        bias_idx _ _ _ _ _ lr (by omega) ho]
      rfl

/-! ### The layer is exact -/

variable {E : Type} [NormedAddCommGroup E] [InnerProductSpace ℝ E] [CompleteSpace E] [MeasurableSpace E]
variable (μ : Measure E) [IsProbabilityMeasure μ]

open C52 in
/-- The array `W` of the parameter vector `w`, of shape `filter ++ [C, D]`. -/
noncomputable def wArr (d : Conv) (C : ℕ) {D B : ℕ} (w : EuclideanSpace ℝ (Idx (d.fanIn C) D B)) : Arr ℝ :=
  ⟨d.filter.map Prod.fst ++ [C, D], fun i =>
    if h : ravel (d.filter.map Prod.fst ++ [C]) (i.take (d.filter.length + 1)) < d.fanIn C ∧
        i.getD (d.filter.length + 1) 0 < D then
      w (.inl (⟨_, h.1⟩, ⟨_, h.2⟩)) else 0⟩

open C52 in
/-- The network `X` followed by the layer: the array returned by `apply_fn` (a dummy if it fails). -/
noncomputable def layerOut (d : Conv) (C : ℕ) {D B : ℕ} (n : ℕ) (X : E → Arr ℝ)
    (x : Ext E (Idx (d.fanIn C) D B)) : Arr ℝ :=
  match d.apply (wArr d C x.snd) (bArr (toDense d) n d.channelAxis x.snd) (X x.fst) with
  | .ok z => z
  | .error _ => ⟨[], fun _ => 0⟩

open C52 in
/-- Variances of the parameters as drawn by `init_fn`. -/
noncomputable def initVar (d : Conv) (C : ℕ) {D B : ℕ} : Idx (d.fanIn C) D B → ℝ
  | .inl _ => (d.scaleW C) ^ 2
  | .inr _ => d.scaleB ^ 2

/-- The inputs that the output at `q` reads. -/
noncomputable def patch (d : Conv) (C : ℕ) (X : E → Arr ℝ) (i : ℕ) (S q : List ℕ) (k : ℕ) (θ : E) : ℝ :=
  readTap (fun p => chan X d.batchAxis d.channelAxis i ((unravel (d.filter.map Prod.fst ++ [C]) k).getD d.filter.length 0) p θ)
    (readIdx d.padding S d.filter q ((unravel (d.filter.map Prod.fst ++ [C]) k).take d.filter.length))

lemma prod_fan (d : Conv) (C : ℕ) : (d.filter.map Prod.fst ++ [C]).prod = d.fanIn C := by
  unfold Conv.fanIn Conv.filterSize; rw [List.prod_append, List.prod_singleton, mul_comm]

lemma toDense_width (d : Conv) (hsh : d.sharedWeights = true) : (toDense d).width = d.width := by
  unfold Dense.width Conv.width toDense; simp [hsh]

lemma linOut_coef (d : Dense) {C : ℕ} (n ca : ℕ) (hn : ca ≤ n) (o : ℕ) (ho : o < d.width) (f : ℕ → E → ℝ)
    (x : Ext E (C52.Idx C d.width (C52.nBias d))) :
    linOut (C52.coef d o f) x = d.gain C * (∑ k : Fin C, x.snd (.inl (k, ⟨o, ho⟩)) * f k x.fst) +
      d.biasTerm (C52.bArr d (n + 1) ca x.snd) ((List.replicate n 0).insertIdx ca o) := by
  unfold linOut
  rw [Fintype.sum_sum_type, Fintype.sum_prod_type]
  congr 1
  · rw [Finset.mul_sum]
    refine Finset.sum_congr rfl fun c _ => ?_
    rw [Finset.sum_congr rfl (g := fun o' : Fin d.width => if (o' : ℕ) = o then
        x.snd (.inl (c, o')) * (d.gain C * f c x.fst) else 0)]
    · rw [C52.sum_ite_fin o ho]; ring
    · intro o' _
      simp only [C52.coef, mul_ite, mul_zero]
  · rw [Finset.sum_congr rfl (g := fun o' : Fin (C52.nBias d) => if (o' : ℕ) = o then
        x.snd (.inr o') * d.biasGain else 0)]
    · rcases hb : d.bStd with _ | b
      · have : C52.nBias d = 0 := by simp [C52.nBias, hb]
        simp only [C52.bArr, hb, Option.map_none, Dense.biasTerm]
        apply Finset.sum_eq_zero
        intro o' _
        exact absurd o'.2 (by omega)
      · have hw : C52.nBias d = d.width := by simp [C52.nBias, hb]
        have ho' : o < C52.nBias d := by omega
        rw [C52.sum_ite_fin o ho']
        simp only [C52.bArr, hb, Option.map_some, Dense.biasTerm]
        have : ((List.replicate n 0).insertIdx ca o).getD ca 0 = o := by
          rw [List.getD_eq_getElem?_getD, List.getElem?_insertIdx_self, if_pos (by simp; omega)]; rfl
        simp only [this, ho', dif_pos]
        ring
    · intro o' _
      simp only [C52.coef, mul_ite, mul_zero]

lemma layerOut_eq (d : Conv) (hd : d.param ≠ .other) (hsh : d.sharedWeights = true) (hw : PosWin d.filter)
    (X : E → Arr ℝ) (n C : ℕ) (S : List ℕ) (hl : S.length = d.filter.length) (hB : d.batchAxis < S.length + 2)
    (hA : d.channelAxis < S.length + 2) (hne : d.batchAxis ≠ d.channelAxis)
    (hX : ∀ θ, (X θ).shape = actIdx d.batchAxis d.channelAxis n C S)
    (x : Ext E (C52.Idx (d.fanIn C) (toDense d).width (C52.nBias (toDense d)))) :
    (layerOut d C (S.length + 2) X x).shape = actIdx d.batchAxis d.channelAxis n d.width (outDims d.padding S d.filter) ∧
    ∀ i o q, i < n → o < d.width → InRange q (outDims d.padding S d.filter) →
      chan (layerOut d C (S.length + 2) X) d.batchAxis d.channelAxis i o q x =
        linOut (C52.coef (toDense d) o (patch d C X i S q)) x := by
  have hW := toDense_width d hsh
  obtain ⟨z, hz, hzs, hzg⟩ := apply_ok d hd hsh hw (wArr d C x.snd) (X x.fst)
    (C52.bArr (toDense d) (S.length + 2) d.channelAxis x.snd) n C (toDense d).width S hl hB hA hne rfl (hX _) (by
      intro b' hb'
      simp only [C52.bArr, Option.map_eq_some_iff] at hb'
      obtain ⟨_, -, rfl⟩ := hb'
      exact C52.insert_set _ _ _ _ (by omega))
  have hout : layerOut d C (S.length + 2) X x = z := by
    unfold layerOut
    rw [hz]
  rw [hout]
  rw [hW] at hzs
  refine ⟨hzs, ?_⟩
  intro i o q hi ho hq
  rw [← hW] at ho
  unfold chan
  rw [hout, hzg i o q hi ho hq, linOut_coef (toDense d) (S.length + 1) d.channelAxis (by omega) o ho]
  congr 2
  rw [← box_sum_ravel, prod_fan, Finset.sum_range]
  refine Finset.sum_congr rfl fun k _ => ?_
  have hk : (k : ℕ) < (d.filter.map Prod.fst ++ [C]).prod := by rw [prod_fan]; exact k.2
  have hu := inRange_unravel hk
  have lu : (unravel (d.filter.map Prod.fst ++ [C]) k).length = d.filter.length + 1 := by
    rw [hu.length]; simp
  have e1 : (unravel (d.filter.map Prod.fst ++ [C]) k ++ [o]).take (d.filter.length + 1) =
      unravel (d.filter.map Prod.fst ++ [C]) k := by rw [← lu]; simp
  have e2 : (unravel (d.filter.map Prod.fst ++ [C]) k ++ [o]).getD (d.filter.length + 1) 0 = o := by
    rw [← lu]; exact getD_append_len _ [o] 0 0
  have e3 : (wArr d C x.snd).get (unravel (d.filter.map Prod.fst ++ [C]) k ++ [o]) = x.snd (.inl (k, ⟨o, ho⟩)) := by
    simp only [wArr, e1, e2, ravel_unravel hk]
    rw [dif_pos ⟨k.2, ho⟩]
  rw [e3]
  rfl

lemma initVar_eq (d : Conv) (C : ℕ) {D B : ℕ} :
    (initVar d C : C52.Idx (d.fanIn C) D B → ℝ) = C52.initVar (toDense d) := by
  funext k
  rcases k with k | k
  · rfl
  · rfl

/-- Facts about entries of a network that pass to patches. -/
lemma patch_split (d : Conv) (C : ℕ) (S q : List ℕ) (k : ℕ) (hl : S.length = d.filter.length)
    (hw : PosWin d.filter) (hq : InRange q (outDims d.padding S d.filter)) (hk : k < d.fanIn C) :
    ∃ c < C, ∃ f, InRange f (d.filter.map Prod.fst) ∧
      (unravel (d.filter.map Prod.fst ++ [C]) k).getD d.filter.length 0 = c ∧
      (unravel (d.filter.map Prod.fst ++ [C]) k).take d.filter.length = f ∧
      (readIdx d.padding S d.filter q f = none ∨ ∃ p, readIdx d.padding S d.filter q f = some p ∧ InRange p S) := by
  have hu := inRange_unravel (s := d.filter.map Prod.fst ++ [C]) (k := k) (by rw [prod_fan]; exact hk)
  obtain ⟨gf, gc, e, hgf, hgc⟩ := inRange_append_right hu
  obtain ⟨c, rfl⟩ := List.length_eq_one_iff.1 hgc.length
  have lg : gf.length = d.filter.length := by rw [hgf.length]; simp
  rw [inRange_cons] at hgc
  refine ⟨c, hgc.1, gf, hgf, ?_, ?_, ?_⟩
  · rw [e, ← lg]; exact getD_append_len gf [c] 0 0
  · rw [e, ← lg]; simp
  · cases h : readIdx d.padding S d.filter q gf with
    | none => exact .inl rfl
    | some p => exact .inr ⟨p, rfl, readIdx_inRange d.padding S d.filter q gf p hw hl hq h⟩

lemma avg_patch (d : Conv) (C : ℕ) (hC : 0 < C) (hw : PosWin d.filter) (X1 X2 : E → Arr ℝ) (S1 S2 : List ℕ)
    (hl1 : S1.length = d.filter.length) (hl2 : S2.length = d.filter.length)
    (M : (E → ℝ) → (E → ℝ) → ℝ) (m1 : ∀ g, M (fun _ => 0) g = 0) (m2 : ∀ g, M g (fun _ => 0) = 0)
    (i j : ℕ) (F : List ℕ → List ℕ → ℝ)
    (hF : ∀ p q, InRange p S1 → InRange q S2 → F p q = (∑ c ∈ Finset.range C,
      M (chan X1 d.batchAxis d.channelAxis i c p) (chan X2 d.batchAxis d.channelAxis j c q)) / C)
    (q q' : List ℕ) (hq : InRange q (outDims d.padding S1 d.filter)) (hq' : InRange q' (outDims d.padding S2 d.filter)) :
    (∑ k ∈ Finset.range (d.fanIn C), M (patch d C X1 i S1 q k) (patch d C X2 j S2 q' k)) / (d.fanIn C : ℕ) =
      avg d S1 S2 F q q' := by
  have hC' : (C : ℝ) ≠ 0 := by positivity
  set G := fun g : List ℕ => M
    (fun θ => readTap (fun p => chan X1 d.batchAxis d.channelAxis i (g.getD d.filter.length 0) p θ)
      (readIdx d.padding S1 d.filter q (g.take d.filter.length)))
    (fun θ => readTap (fun p => chan X2 d.batchAxis d.channelAxis j (g.getD d.filter.length 0) p θ)
      (readIdx d.padding S2 d.filter q' (g.take d.filter.length))) with hG
  have e1 : ∑ k ∈ Finset.range (d.fanIn C), M (patch d C X1 i S1 q k) (patch d C X2 j S2 q' k) =
      ∑ g ∈ box (d.filter.map Prod.fst ++ [C]), G g := by
    rw [← box_sum_ravel, prod_fan]
    rfl
  rw [e1, box_sum_append]
  have e2 : ∀ f ∈ box (d.filter.map Prod.fst), ∑ c ∈ box [C], G (f ++ c) =
      C * read2 F (readIdx d.padding S1 d.filter q f) (readIdx d.padding S2 d.filter q' f) := by
    intro f hf
    rw [mem_box] at hf
    have lf : f.length = d.filter.length := by rw [hf.length]; simp
    rw [box_sum_singleton]
    have e3 : ∀ c, G (f ++ [c]) = M
        (fun θ => readTap (fun p => chan X1 d.batchAxis d.channelAxis i c p θ) (readIdx d.padding S1 d.filter q f))
        (fun θ => readTap (fun p => chan X2 d.batchAxis d.channelAxis j c p θ) (readIdx d.padding S2 d.filter q' f)) := by
      intro c
      have t1 : (f ++ [c]).take d.filter.length = f := by rw [← lf]; simp
      have t2 : (f ++ [c]).getD d.filter.length 0 = c := by rw [← lf]; exact getD_append_len f [c] 0 0
      simp only [hG, t1, t2]
    simp only [e3]
    cases h1 : readIdx d.padding S1 d.filter q f with
    | none => simp [readTap, m1, read2]
    | some p =>
      cases h2 : readIdx d.padding S2 d.filter q' f with
      | none => simp [readTap, m2, read2]
      | some p' =>
        simp only [readTap, read2]
        rw [hF p p' (readIdx_inRange d.padding S1 d.filter q f p hw hl1 hq h1)
          (readIdx_inRange d.padding S2 d.filter q' f p' hw hl2 hq' h2)]
        field_simp
  rw [Finset.sum_congr rfl e2, ← Finset.mul_sum]
  unfold avg offsets
  have : ((d.fanIn C : ℕ) : ℝ) = C * ((d.filter.map Prod.fst).prod : ℕ) := by
    unfold Conv.fanIn Conv.filterSize; push_cast; rfl
  rw [this, mul_div_mul_left _ _ hC']

lemma gradW_eq (d : Conv) (C : ℕ) : C52.gradW (toDense d) (d.fanIn C) = gradW d C := rfl

/-- Conv with shared weights is exact. The parameters of the layer are independent of those of the network,
have mean zero and the variances of `init_fn`. If the given kernel is that of the network `X` (averages over
channels of the covariances and of the products of gradients) then the returned one is that of each output
channel of `X` followed by the layer's `apply_fn`. -/
theorem kernel_exact (d : Conv) (hd : d.param ≠ .other) (hs : d.param = .standard → 0 < d.s.1)
    (hsh : d.sharedWeights = true) (X1 X2 : E → Arr ℝ) (C : ℕ) (hC : 0 < C) (k : Kernel ℝ) (L : Logical ℝ)
    (hk : k.Stores L) (hL : Layout d k L) (hB : d.batchAxis < L.S1.length + 2) (hA : d.channelAxis < L.S1.length + 2)
    (hne : d.batchAxis ≠ d.channelAxis)
    (h1 : ∀ θ, (X1 θ).shape = actIdx d.batchAxis d.channelAxis L.n1 C L.S1)
    (h2 : ∀ θ, (X2 θ).shape = actIdx d.batchAxis d.channelAxis L.n2 C L.S2)
    (hshape : k.shape1.getD d.channelAxis 0 = C)
    (hreg : Regular μ C L.n1 L.n2 L.S1 L.S2 (chan X1 d.batchAxis d.channelAxis) (chan X2 d.batchAxis d.channelAxis))
    (hX : ChannelKernelOf μ C (chan X1 d.batchAxis d.channelAxis) (chan X2 d.batchAxis d.channelAxis) L)
    (ν : Measure (EuclideanSpace ℝ (C52.Idx (d.fanIn C) (toDense d).width (C52.nBias (toDense d)))))
    (hν : Uncorrelated ν (initVar d C)) :
    ∃ k' L', d.kernelFn k = .ok k' ∧ k'.Stores L' ∧
      (L'.n1, L'.n2, L'.S1, L'.S2, L'.k22.isSome, L'.ntk.isSome) =
        (L.n1, L.n2, outDims d.padding L.S1 d.filter, outDims d.padding L.S2 d.filter, L.k22.isSome, L.ntk.isSome) ∧
      (∀ x : Ext E (C52.Idx (d.fanIn C) (toDense d).width (C52.nBias (toDense d))),
        (layerOut d C (L.S1.length + 2) X1 x).shape = actIdx d.batchAxis d.channelAxis L.n1 d.width L'.S1 ∧
        (layerOut d C (L.S1.length + 2) X2 x).shape = actIdx d.batchAxis d.channelAxis L.n2 d.width L'.S2) ∧
      ∀ o < d.width, KernelOf (extMeasure μ ν)
        (fun i p => chan (layerOut d C (L.S1.length + 2) X1) d.batchAxis d.channelAxis i o p)
        (fun i p => chan (layerOut d C (L.S1.length + 2) X2) d.batchAxis d.channelAxis i o p) L' := by
  obtain ⟨k', hk', hst, -, -⟩ := kernel_formula d hd k L hk hL
  rw [hshape] at hst
  have hr : L.S1.length = L.S2.length := hk.nngp.rank
  have hl1 := hL.rank
  have hl2 : L.S2.length = d.filter.length := by rw [← hr]; exact hL.rank
  have hw : PosWin d.filter := hL.pos
  have e1 := fun x => layerOut_eq d hd hsh hw X1 L.n1 C L.S1 hl1 hB hA hne h1 x
  have e2 := fun x => layerOut_eq d hd hsh hw X2 L.n2 C L.S2 hl2 (by omega) (by omega) hne h2 x
  rw [← hr] at e2
  refine ⟨k', after d C L, hk', hst, ?_, fun x => ⟨(e1 x).1, (e2 x).1⟩, ?_⟩
  · simp [after]
  intro o ho
  have hdd : (toDense d).param ≠ .other := hd
  have hss : (toDense d).param = .standard → 0 < (toDense d).s.1 := hs
  have ho' : o < (toDense d).width := by rw [toDense_width d hsh]; exact ho
  rw [initVar_eq] at hν
  have hfan : 0 < d.fanIn C := by
    unfold Conv.fanIn Conv.filterSize
    refine Nat.mul_pos hC ?_
    apply Nat.pos_of_ne_zero
    intro h0
    rw [List.prod_eq_zero_iff] at h0
    obtain ⟨v, hv, hv0⟩ := List.mem_map.1 h0
    have := (hw v hv).1
    omega
  have hg : ∀ o o' v, gate d o o' v = v := fun o o' v => by simp [gate, hsh]
  have f1 : ∀ i p, i < L.n1 → InRange p (outDims d.padding L.S1 d.filter) →
      chan (layerOut d C (L.S1.length + 2) X1) d.batchAxis d.channelAxis i o p =
      linOut (C52.coef (toDense d) o (patch d C X1 i L.S1 p)) := fun i p hi hp => funext fun x => (e1 x).2 i o p hi ho hp
  have f2 : ∀ i p, i < L.n2 → InRange p (outDims d.padding L.S2 d.filter) →
      chan (layerOut d C (L.S1.length + 2) X2) d.batchAxis d.channelAxis i o p =
      linOut (C52.coef (toDense d) o (patch d C X2 i L.S2 p)) := fun i p hi hp => funext fun x => (e2 x).2 i o p hi ho hp
  -- patches inherit regularity
  have pat : ∀ (X : E → Arr ℝ) (S : List ℕ), S.length = d.filter.length → ∀ i q m,
      InRange q (outDims d.padding S d.filter) → m < d.fanIn C →
      patch d C X i S q m = (fun _ => 0) ∨
        ∃ c < C, ∃ p, InRange p S ∧ patch d C X i S q m = chan X d.batchAxis d.channelAxis i c p := by
    intro X S hlS i q m hq hm
    obtain ⟨c, hc, f, -, t1, t2, t3⟩ := patch_split d C S q m hlS hw hq hm
    rcases t3 with t3 | ⟨p, t3, hp⟩
    · left
      funext θ
      unfold patch
      rw [t2, t3]
      rfl
    · right
      refine ⟨c, hc, p, hp, ?_⟩
      funext θ
      unfold patch
      rw [t1, t2, t3]
      rfl
  have sq1 : ∀ i < L.n1, ∀ q, InRange q (outDims d.padding L.S1 d.filter) → ∀ m < d.fanIn C,
      MemLp (patch d C X1 i L.S1 q m) 2 μ := by
    intro i hi q hq m hm
    rcases pat X1 L.S1 hl1 i q m hq hm with h | ⟨c, hc, p, hp, h⟩ <;> rw [h]
    · exact memLp_const 0
    · exact hreg.sq1 i hi c hc p hp
  have sq2 : ∀ i < L.n2, ∀ q, InRange q (outDims d.padding L.S2 d.filter) → ∀ m < d.fanIn C,
      MemLp (patch d C X2 i L.S2 q m) 2 μ := by
    intro i hi q hq m hm
    rcases pat X2 L.S2 hl2 i q m hq hm with h | ⟨c, hc, p, hp, h⟩ <;> rw [h]
    · exact memLp_const 0
    · exact hreg.sq2 i hi c hc p hp
  have df1 : ∀ i < L.n1, ∀ q, InRange q (outDims d.padding L.S1 d.filter) → ∀ m < d.fanIn C,
      ∀ᵐ θ ∂μ, DifferentiableAt ℝ (patch d C X1 i L.S1 q m) θ := by
    intro i hi q hq m hm
    rcases pat X1 L.S1 hl1 i q m hq hm with h | ⟨c, hc, p, hp, h⟩ <;> rw [h]
    · exact Filter.Eventually.of_forall fun θ => differentiableAt_const 0
    · exact hreg.diff1 i hi c hc p hp
  have df2 : ∀ i < L.n2, ∀ q, InRange q (outDims d.padding L.S2 d.filter) → ∀ m < d.fanIn C,
      ∀ᵐ θ ∂μ, DifferentiableAt ℝ (patch d C X2 i L.S2 q m) θ := by
    intro i hi q hq m hm
    rcases pat X2 L.S2 hl2 i q m hq hm with h | ⟨c, hc, p, hp, h⟩ <;> rw [h]
    · exact Filter.Eventually.of_forall fun θ => differentiableAt_const 0
    · exact hreg.diff2 i hi c hc p hp
  have gr : ∀ i < L.n1, ∀ j < L.n2, ∀ q q', InRange q (outDims d.padding L.S1 d.filter) →
      InRange q' (outDims d.padding L.S2 d.filter) → ∀ m < d.fanIn C, ∀ m' < d.fanIn C,
      Integrable (fun θ => inner ℝ (gradient (patch d C X1 i L.S1 q m) θ) (gradient (patch d C X2 j L.S2 q' m') θ)) μ := by
    intro i hi j hj q q' hq hq' m hm m' hm'
    rcases pat X1 L.S1 hl1 i q m hq hm with h | ⟨c, hc, p, hp, h⟩
    · simp [h, gradient_zero']
    · rcases pat X2 L.S2 hl2 j q' m' hq' hm' with h' | ⟨c', hc', p', hp', h'⟩
      · simp [h', gradient_zero']
      · rw [h, h']
        exact hreg.grad i hi j hj c hc c' hc' p p' hp hp'
  have z1 : ∀ g : E → ℝ, secondMoment μ (fun _ => 0) g = 0 := fun g => by simp [secondMoment]
  have z2 : ∀ g : E → ℝ, secondMoment μ g (fun _ => 0) = 0 := fun g => by simp [secondMoment]
  have z3 : ∀ g : E → ℝ, tangent μ (fun _ => 0) g = 0 := fun g => by simp [tangent, gradient_zero']
  have z4 : ∀ g : E → ℝ, tangent μ g (fun _ => 0) = 0 := fun g => by simp [tangent, gradient_zero']
  refine ⟨?_, ?_, ?_, ?_⟩
  · intro i j p q hi hj hp hq
    beta_reduce
    rw [f1 i p hi hp, f2 j q hj hq, C52.secondMoment_out μ hdd _ hfan hss ν hν o ho' _ _ (sq1 i hi p hp) (sq2 j hj q hq),
      avg_patch d C hC hw X1 X2 _ _ hl1 hl2 (secondMoment μ) z1 z2 i j (L.k12 [i, j])
        (fun a b ha hb => hX.k12 i j a b hi hj ha hb) p q hp hq]
    simp only [after, hg]
    rfl
  · intro i j p q hi hj hp hq
    beta_reduce
    rw [f1 i p hi hp, f1 j q hj hq, C52.secondMoment_out μ hdd _ hfan hss ν hν o ho' _ _ (sq1 i hi p hp) (sq1 j hj q hq),
      avg_patch d C hC hw X1 X1 _ _ hl1 hl1 (secondMoment μ) z1 z2 i j (L.k11 [i, j])
        (fun a b ha hb => hX.k11 i j a b hi hj ha hb) p q hp hq]
    simp only [after, hg]
    rfl
  · intro F hF i j p q hi hj hp hq
    simp only [after, Option.map_eq_some_iff] at hF
    obtain ⟨G, hG, rfl⟩ := hF
    beta_reduce
    rw [f2 i p hi hp, f2 j q hj hq, C52.secondMoment_out μ hdd _ hfan hss ν hν o ho' _ _ (sq2 i hi p hp) (sq2 j hj q hq),
      avg_patch d C hC hw X2 X2 _ _ hl2 hl2 (secondMoment μ) z1 z2 i j (G [i, j])
        (fun a b ha hb => hX.k22 G hG i j a b hi hj ha hb) p q hp hq]
    simp only [hg]
    rfl
  · intro F hF i j p q hi hj hp hq
    simp only [after, Option.map_eq_some_iff] at hF
    obtain ⟨G, hG, rfl⟩ := hF
    beta_reduce
    rw [f1 i p hi hp, f2 j q hj hq, C52.tangent_out μ hdd _ hfan hss ν hν o ho' _ _ (sq1 i hi p hp) (sq2 j hj q hq)
      (df1 i hi p hp) (df2 j hj q hq) (gr i hi j hj p q hp hq),
      avg_patch d C hC hw X1 X2 _ _ hl1 hl2 (secondMoment μ) z1 z2 i j (L.k12 [i, j])
        (fun a b ha hb => hX.k12 i j a b hi hj ha hb) p q hp hq,
      avg_patch d C hC hw X1 X2 _ _ hl1 hl2 (tangent μ) z3 z4 i j (G [i, j])
        (fun a b ha hb => hX.ntk G hG i j a b hi hj ha hb) p q hp hq]
    simp only [hg]
    rfl

/-- The diagonal layout agrees with the diagonal of the full one: from kernels that hold the same covariances
in the two layouts the layer makes kernels that hold the same covariances, again in the two layouts. -/
theorem diagonal_agrees (d : Conv) (hp : d.param ≠ .other) (kf kd : Kernel ℝ) (L : Logical ℝ) (hf : kf.Stores L)
    (hd : kd.Stores L) (hLf : Layout d kf L) (hLd : Layout d kd L) (hsh : kf.shape1 = kd.shape1)
    (ef : kf.diagonalSpatial = false) (ed : kd.diagonalSpatial = true) :
    ∃ kf' kd' L', d.kernelFn kf = .ok kf' ∧ d.kernelFn kd = .ok kd' ∧ kf'.Stores L' ∧ kd'.Stores L' ∧
      kf'.diagonalSpatial = false ∧ kd'.diagonalSpatial = true := by
  obtain ⟨a, ha, ha', hs, -⟩ := kernel_formula d hp kf L hf hLf
  obtain ⟨b, hb, hb', ht, -⟩ := kernel_formula d hp kd L hd hLd
  rw [hsh] at ha'
  refine ⟨a, b, _, ha, hb, ha', hb', ?_, ?_⟩
  · rw [← ef]; exact congrArg Static.diagonalSpatial hs
  · rw [← ed]; exact congrArg Static.diagonalSpatial ht

/-- An unsupported parameterization is rejected. -/
theorem param_rejected (d : Conv) (h : d.param = .other) (W x : Arr ℝ) (b : Option (Arr ℝ)) (k : Kernel ℝ) :
    d.kernelFn k = .error .valueError ∧ d.apply W b x = .error .notImplemented := by
  constructor
  · simp [Conv.kernelFn, h]
  · unfold Conv.apply; simp only [h]

/-! ### Unshared weights and reversed axes -/

lemma conv_unreversed (d : Conv) (hsh : d.sharedWeights = false) (k : Kernel ℝ) (r : Bool) (a : Arr ℝ) (bn : ℕ) :
    d.conv { k with isReversed := r } a bn = d.conv k a bn := by
  unfold Conv.conv Conv.convUnscaled Conv.affine
  simp only [hsh]
  rfl

/-- The constant covariances of 2 × 3 positions, and of 3 × 2 positions. -/
noncomputable def constL (S : List ℕ) : Logical ℝ := ⟨1, 1, S, S, fun _ _ _ => 1, fun _ _ _ => 1, none, none⟩

/-- With unshared weights and reversed axes the filter is applied to the wrong axes (linear.py:1346-1352 reverse
it only for shared weights): for positions `[2, 3]` and filter `[1, 2]` the result does not even have the
shape of the output positions `[2, 2]`. -/
theorem local_reversed_wrong : ∃ (d : Conv) (k : Kernel ℝ) (L : Logical ℝ) (k' : Kernel ℝ),
    d.param ≠ .other ∧ d.sharedWeights = false ∧ (∀ v ∈ d.filter, 0 < v.1 ∧ 0 < v.2) ∧ L.S1.length = d.filter.length ∧
    k.Stores L ∧ d.kernelFn k = .ok k' ∧ ∀ L', L'.S1 = outDims d.padding L.S1 d.filter → ¬ k'.Stores L' := by
  set d : Conv := ⟨1, [(1, 1), (2, 1)], .valid, 1, none, .ntk, (1, 1), false, 0, 3⟩ with hd
  set k0 : Kernel ℝ := (constL [3, 2]).encode true false false with hk0
  have hs0 : k0.Stores (constL [3, 2]) := Logical.encode_stores _ true false false (by simp) rfl
  have hE : ((constL [2, 3]).encode true false true).Stores (constL [2, 3]) := Logical.encode_stores _ true false true (by simp) rfl
  obtain ⟨k1, h1, h2, h3, -⟩ := kernel_formula d (by simp [hd]) k0 _ hs0 ⟨by simp [hd], rfl, by simp [hk0, Logical.encode],
    fun _ _ => ⟨rfl, by simp [hk0, Logical.encode]⟩, by simp [hk0, Logical.encode, constL]⟩
  have hrun : d.kernelFn { k0 with isReversed := true } = (d.kernelFn k0).map fun z => { z with isReversed := true } := by
    unfold Conv.kernelFn
    simp only [hd]
    rw [← hd]
    simp only [conv_unreversed d rfl]
    cases e1 : d.conv k0 k0.cov1 (if k0.diagonalBatch = true then 1 else 2) with
    | error e => simp [bind, Except.bind, Except.map]
    | ok c =>
      cases e2 : d.conv k0 k0.nngp 2 with
      | error e => simp [bind, Except.bind, Except.map, Conv.convO, hk0, Logical.encode, constL]
      | ok n => rfl
  refine ⟨d, { k0 with isReversed := true }, constL [2, 3], { k1 with isReversed := true }, by simp [hd], rfl,
    by simp [hd], rfl, ⟨hE.nngp, hE.cov1, hE.cov2, hE.ntk⟩, ?_, ?_⟩
  · rw [hrun, h1]; rfl
  · intro L' hL' hst
    have e1 := h2.nngp.shape
    have e2 := hst.nngp.shape
    have e3 := e1.symm.trans e2
    have d1 : k1.diagonalSpatial = false := (congrArg Static.diagonalSpatial h3).trans rfl
    have d2 : k1.isReversed = false := (congrArg Static.isReversed h3).trans rfl
    have e5 : L'.S2.length = 2 := by rw [← hst.nngp.rank, hL']; rfl
    obtain ⟨x, y, e6⟩ := List.length_eq_two.1 e5
    rw [hL', e6] at e3
    simp only [d1, d2] at e3
    have e4 := congrArg (fun l : List ℕ => l.getD 2 0) e3
    simp [pos, after, constL, hd, outDims, outDim, interleave] at e4

section Example

/-- `Conv(1, (3, 2), strides=(2, 1), W_std=2, b_std=3)` in the standard parameterization. -/
noncomputable def exD (pad : Padding) : Conv := ⟨1, [(3, 2), (2, 1)], pad, 2, some 3, .standard, (1, 1), true, 0, 3⟩

/-- Positions `[5, 3]`, two channels, any padding, any layout of the batch axes, and axes reversed or not. -/
example (a b : ℕ → ℕ → List ℕ → ℝ) (pad : Padding) (db rev : Bool) :
    ∃ ν : Measure (EuclideanSpace ℝ (C52.Idx ((exD pad).fanIn 2) (toDense (exD pad)).width (C52.nBias (toDense (exD pad))))),
    ∃ k' L', (exD pad).kernelFn { (lin1L 2 a b 2 2 [5, 3] [5, 3]).encode db false rev with shape1 := [2, 5, 3, 2] } = .ok k' ∧
      k'.Stores L' ∧ KernelOf (extMeasure (ProbabilityTheory.gaussianReal 0 1) ν)
        (fun i p => chan (layerOut (exD pad) 2 4 (C54.exX a)) 0 3 i 0 p)
        (fun i p => chan (layerOut (exD pad) 2 4 (C54.exX b)) 0 3 i 0 p) L' := by
  have hst := Logical.encode_stores (lin1L 2 a b 2 2 [5, 3] [5, 3]) db false rev (by simp) rfl
  obtain ⟨ν, hν⟩ := exists_uncorrelated (C52.Idx ((exD pad).fanIn 2) (toDense (exD pad)).width (C52.nBias (toDense (exD pad))))
    (initVar (exD pad) 2) (by intro k; rcases k with k | k <;> exact sq_nonneg _)
  obtain ⟨k', L', h1, h2, -, -, h3⟩ := kernel_exact (ProbabilityTheory.gaussianReal 0 1) (exD pad) (by simp [exD])
    (by simp [exD]) rfl (C54.exX a) (C54.exX b) 2 (by decide)
    { (lin1L 2 a b 2 2 [5, 3] [5, 3]).encode db false rev with shape1 := [2, 5, 3, 2] } _
    ⟨hst.nngp, hst.cov1, hst.cov2, hst.ntk⟩
    ⟨by simp [exD], rfl, by simp [Logical.encode], by simp [exD], by
      intro x hx hs
      simp only [Logical.encode, lin1L, Option.map_some, Option.some.injEq] at hx
      rw [← hx] at hs
      simp [holdArr] at hs⟩
    (by simp [lin1L, exD]) (by simp [lin1L, exD]) (by simp [exD]) (fun θ => rfl) (fun θ => rfl) rfl
    (C54.exX_regular a b) (C54.exX_kernel a b) ν hν
  exact ⟨ν, k', L', h1, h2, h3 0 (by simp [exD, Conv.width])⟩

/-- Unshared weights, both layouts. -/
example (ds : Bool) : ∃ k', (⟨1, [(3, 2), (2, 1)], .same, 2, some 3, .standard, (1, 1), false, 0, 3⟩ : Conv).kernelFn
      { (constL [5, 3]).encode true ds false with shape1 := [1, 5, 3, 2] } = .ok k' ∧
    k'.Stores (after ⟨1, [(3, 2), (2, 1)], .same, 2, some 3, .standard, (1, 1), false, 0, 3⟩ 2 (constL [5, 3])) := by
  have hst := Logical.encode_stores (constL [5, 3]) true ds false (fun _ => rfl) rfl
  obtain ⟨k', h1, h2, -⟩ := kernel_formula (⟨1, [(3, 2), (2, 1)], .same, 2, some 3, .standard, (1, 1), false, 0, 3⟩ : Conv)
    (by simp) { (constL [5, 3]).encode true ds false with shape1 := [1, 5, 3, 2] } (constL [5, 3])
    ⟨hst.nngp, hst.cov1, hst.cov2, hst.ntk⟩
    ⟨by simp, rfl, by simp [Logical.encode], fun _ _ => ⟨rfl, by simp [Logical.encode]⟩, by simp [Logical.encode, constL]⟩
  exact ⟨k', h1, h2⟩

end Example

end NT.C53
