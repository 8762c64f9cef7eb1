import Verif.Lemmas.Pool
import Verif.Lemmas.Linear

/-!
# C54: the kernels of pooling layers are the covariances of the pooled activations
-/

set_option linter.unusedSectionVars false

namespace NT.C54
open NT Arr Kernel Spec MeasureTheory

variable {E : Type} [NormedAddCommGroup E] [InnerProductSpace ℝ E] [CompleteSpace E] [MeasurableSpace E]

/-! ### Windowed pooling -/

/-- What the sum over the window at `o` is divided by: for averages the size of the window, or with
`normalize_edges` and `'SAME'` padding the number of its positions inside the input. -/
noncomputable def denom (d : Pool) (S o : List ℕ) : ℝ :=
  if d.type = .avg then
    if d.padding = .same ∧ d.normalizeEdges = true then
      ((offsets d.window).filter fun f => (readIdx .same S d.window o f).isSome).card
    else (d.window.map Prod.fst).prod
  else 1

lemma denom_eq (d : Pool) (S o : List ℕ) : d.size S o = denom d S o := by
  unfold denom Pool.size avgSize covered
  cases d.type
  · simp only [if_true]
    split_ifs
    · rw [Finset.card_filter]
      push_cast
      refine Finset.sum_congr rfl fun f _ => ?_
      generalize readIdx Padding.same S d.window o f = a
      cases a <;> simp [readTap]
    · rfl
  · simp

/-- The kernel of pooled activations: every output position is `1 / denom` times the sum of the window. -/
noncomputable def pooled (d : Pool) (L : Logical ℝ) : Logical ℝ :=
  linLogical (fun _ => offsets d.window) (fun S o _ => (denom d S o)⁻¹) (fun S o f => readIdx d.padding S d.window o f)
    (fun S => outDims d.padding S d.window) L

/-- Distinct positions are uncorrelated: what the diagonal layout stands for when a layer that mixes
positions receives it. -/
structure OffDiagZero (L : Logical ℝ) : Prop where
  k12 : ∀ b p q, p ≠ q → L.k12 b p q = 0
  k11 : ∀ b p q, p ≠ q → L.k11 b p q = 0
  k22 : ∀ F, L.k22 = some F → ∀ b p q, p ≠ q → F b p q = 0
  ntk : ∀ F, L.ntk = some F → ∀ b p q, p ≠ q → F b p q = 0

lemma readPos_inj (pad : Padding) (n w s o f f' p : ℕ) (hc : pad = .circular → w ≤ n) (hf : f < w) (hf' : f' < w)
    (h : readPos pad n w s o f = some p) (h' : readPos pad n w s o f' = some p) : f = f' := by
  unfold readPos at h h'
  cases pad
  · simp only [Option.some.injEq] at h h'
    have hn := hc rfl
    generalize leftPad Padding.circular n w s = l at *
    have hn0 : (n : ℤ) ≠ 0 := by omega
    have e : ((o : ℤ) * s + f - l) % n = ((o : ℤ) * s + f' - l) % n := by
      have a1 := Int.emod_nonneg ((o : ℤ) * s + f - l) hn0
      have a2 := Int.emod_nonneg ((o : ℤ) * s + f' - l) hn0
      omega
    have e2 := Int.emod_emod_of_dvd ((o : ℤ) * s + f - l) (dvd_refl (n : ℤ))
    have e3 : ((n : ℤ) ∣ ((o : ℤ) * s + f - l) - ((o : ℤ) * s + f' - l)) := Int.ModEq.dvd (Int.ModEq.symm e)
    have e4 : ((o : ℤ) * s + f - l) - ((o : ℤ) * s + f' - l) = (f : ℤ) - f' := by ring
    rw [e4] at e3
    have := Int.eq_zero_of_abs_lt_dvd e3 (by rw [abs_lt]; omega)
    omega
  all_goals
    dsimp only at h h'
    split_ifs at h with h1
    split_ifs at h' with h2
    simp only [Option.some.injEq] at h h'
    omega

lemma readIdx_inj (pad : Padding) : ∀ (S : List ℕ) (ws : List (ℕ × ℕ)) (o f f' p : List ℕ),
    (pad = .circular → List.Forall₂ (fun w n => w ≤ n) (ws.map Prod.fst) S) →
    InRange f (ws.map Prod.fst) → InRange f' (ws.map Prod.fst) →
    readIdx pad S ws o f = some p → readIdx pad S ws o f' = some p → f = f' := by
  intro S
  induction S with
  | nil =>
    intro ws o f f' p _ hf hf' h h'
    cases ws <;> cases o <;> cases f <;> cases f' <;> simp_all [readIdx]
  | cons n S ih =>
    intro ws o f f' p hc hf hf' h h'
    cases ws with
    | nil => simp [readIdx] at h
    | cons v ws =>
    obtain ⟨w, s⟩ := v
    cases o with
    | nil => simp [readIdx] at h
    | cons o os =>
    cases f with
    | nil => simp [readIdx] at h
    | cons f fs =>
    cases f' with
    | nil => simp [readIdx] at h'
    | cons f' fs' =>
      simp only [List.map_cons, inRange_cons] at hf hf'
      simp only [List.map_cons, List.forall₂_cons] at hc
      simp only [readIdx] at h h'
      cases h1 : readPos pad n w s o f with
      | none => simp [h1] at h
      | some a =>
      cases h2 : readIdx pad S ws os fs with
      | none => simp [h1, h2] at h
      | some b =>
      cases h3 : readPos pad n w s o f' with
      | none => simp [h3] at h'
      | some a' =>
      cases h4 : readIdx pad S ws os fs' with
      | none => simp [h3, h4] at h'
      | some b' =>
        simp only [h1, h2, h3, h4, Option.some.injEq] at h h'
        rw [← h] at h'
        simp only [List.cons.injEq] at h'
        obtain ⟨rfl, rfl⟩ := h'
        rw [readPos_inj pad n w s o f f' a' (fun e => (hc e).1) hf.1 hf'.1 h1 h3,
          ih ws os fs fs' b' (fun e => (hc e).2) hf.2 hf'.2 h2 h4]

lemma sum_tr (W : Finset (List ℕ)) (x y : ℝ) (F : List ℕ → List ℕ → ℝ) (t t' : List ℕ → Option (List ℕ)) :
    (∑ f ∈ W, ∑ f' ∈ W, read2 F (t f) (t' f')) / (x * y) =
      ∑ f ∈ W, ∑ f' ∈ W, x⁻¹ * y⁻¹ * read2 F (t f) (t' f') := by
  rw [div_eq_inv_mul, mul_inv, Finset.mul_sum]
  refine Finset.sum_congr rfl fun f _ => ?_
  rw [Finset.mul_sum]

lemma sum_diag (W : Finset (List ℕ)) (F : List ℕ → List ℕ → ℝ) (t : List ℕ → Option (List ℕ))
    (h0 : ∀ p q, p ≠ q → F p q = 0) (hinj : ∀ f ∈ W, ∀ f' ∈ W, ∀ p, t f = some p → t f' = some p → f = f') :
    ∑ f ∈ W, ∑ f' ∈ W, read2 F (t f) (t f') = ∑ f ∈ W, read2 F (t f) (t f) := by
  refine Finset.sum_congr rfl fun f hf => ?_
  refine Finset.sum_eq_single_of_mem f hf fun f' hf' hne => ?_
  cases e1 : t f with
  | none => rfl
  | some p =>
    cases e2 : t f' with
    | none => rfl
    | some q =>
      refine h0 p q fun h => hne ?_
      subst h
      exact (hinj f hf f' hf' p e1 e2).symm

lemma pool_array (d : Pool) (k : Kernel ℝ) (hw : PosWin d.window) {a : Arr ℝ} {B S T : List ℕ} (bn : ℕ)
    {F : List ℕ → List ℕ → List ℕ → ℝ} (hbn : bn = B.length) (h : Holds a B S T k.diagonalSpatial k.isReversed F) (hB : B ≠ [])
    (hl : S.length = d.window.length)
    (hd : k.diagonalSpatial = true → k.isReversed = false ∧ (∀ b p q, p ≠ q → F b p q = 0) ∧
      (d.padding = .circular → List.Forall₂ (fun w n => w ≤ n) (d.window.map Prod.fst) S)) :
    Holds (d.pool k bn a) B (outDims d.padding S d.window) (outDims d.padding T d.window) k.diagonalSpatial
      k.isReversed (fun b o o' => ∑ f ∈ offsets d.window, ∑ f' ∈ offsets d.window,
        (denom d S o)⁻¹ * (denom d T o')⁻¹ *
          read2 (F b) (readIdx d.padding S d.window o f) (readIdx d.padding T d.window o' f')) := by
  subst hbn
  have hnd : a.ndim ≠ 0 := by
    unfold ndim
    rw [h.shape, List.length_append]
    have := List.length_pos_iff.2 hB
    omega
  unfold Pool.pool Pool.kernelWindow
  rw [if_neg hnd]
  cases hds : k.diagonalSpatial
  · rw [hds] at h
    have := poolKernel_full h d hw hl
    simp only [Bool.false_eq_true, if_false, false_and]
    refine this.congr fun b o o' _ _ _ => ?_
    rw [← denom_eq, ← denom_eq, sum_tr]
  · obtain ⟨hr, h0, hc⟩ := hd hds
    rw [hds, hr] at h
    obtain rfl := h.square rfl
    have := poolKernel_diag h d hw hl
    simp only [if_true, true_and, hr]
    refine ⟨this.rank, this.square, this.shape, fun b o o' hb ho ho' e => ?_⟩
    rw [this.get b o o' hb ho ho' e]
    obtain rfl := e rfl
    rw [← denom_eq, ← sum_tr, sum_diag _ _ _ (h0 b)]
    exact fun f hf f' hf' p e1 e2 => readIdx_inj _ _ _ _ _ _ _ hc (mem_box.1 hf) (mem_box.1 hf') e1 e2

/-- In every layout the output kernel holds the covariances of window sums (averages).  In the diagonal
layout this presumes that distinct positions of the input are uncorrelated, and that circular windows are
not larger than the input. -/
theorem pool_kernel_formula (d : Pool) (hw : ∀ v ∈ d.window, 0 < v.1 ∧ 0 < v.2) (k : Kernel ℝ) (L : Logical ℝ)
    (hk : k.Stores L) (hl : L.S1.length = d.window.length)
    (hd : k.diagonalSpatial = true → k.isReversed = false ∧ OffDiagZero L ∧
      (d.padding = .circular → List.Forall₂ (fun w n => w ≤ n) (d.window.map Prod.fst) L.S1))
    (hn : ∀ a, k.ntk = some a → a.shape = [] → a.get [] = 0) :
    (d.kernelFn k).Stores (pooled d L) ∧ (d.kernelFn k).static = k.static ∧
      (d.kernelFn k).mask1 = k.mask1 ∧ (d.kernelFn k).mask2 = k.mask2 := by
  have hl2 : L.S2.length = d.window.length := by rw [← hk.nngp.rank]; exact hl
  have hsq : k.diagonalSpatial = true → L.S1 = L.S2 := hk.nngp.square
  refine ⟨⟨?_, ?_, ?_, ?_⟩, rfl, rfl, rfl⟩
  · exact pool_array d k hw 2 rfl hk.nngp (by simp) hl fun h => ⟨(hd h).1, (hd h).2.1.k12, (hd h).2.2⟩
  · have := pool_array d k hw _ (batchShape_length _ _).symm hk.cov1 (by unfold batchShape; split_ifs <;> simp) hl fun h =>
      ⟨(hd h).1, fun b => (hd h).2.1.k11 _, (hd h).2.2⟩
    exact this
  · have := hk.cov2
    unfold Pool.kernelFn pooled linLogical
    dsimp only
    cases h1 : k.cov2 <;> cases h2 : L.k22 <;> simp only [h1, h2, OptRel, Option.map] at this ⊢
    have := pool_array d k hw _ (batchShape_length _ _).symm this (by unfold batchShape; split_ifs <;> simp) hl2 fun h =>
      ⟨(hd h).1, fun b => (hd h).2.1.k22 _ h2 _, by rw [← hsq h]; exact (hd h).2.2⟩
    exact this
  · have := hk.ntk
    unfold Pool.kernelFn pooled linLogical
    dsimp only
    cases h1 : k.ntk <;> cases h2 : L.ntk <;> simp only [h1, h2, OptRel, Option.map] at this ⊢
    rcases this with ⟨t1, t2⟩ | t
    · left
      have e : ∀ a : Arr ℝ, a.shape = [] → d.pool k 2 a = a := by
        intro a ha
        unfold Pool.pool
        rw [if_pos (by unfold ndim; rw [ha]; rfl)]
      rw [e _ t1]
      refine ⟨t1, fun b p q => ?_⟩
      rw [hn _ h1 t1]
      refine Finset.sum_eq_zero fun f _ => Finset.sum_eq_zero fun f' _ => ?_
      generalize readIdx d.padding L.S1 d.window p f = a
      generalize readIdx d.padding L.S2 d.window q f' = a'
      cases a <;> cases a' <;> simp [read2, t2, hn _ h1 t1]
    · right
      exact pool_array d k hw 2 rfl t (by simp) hl fun h => ⟨(hd h).1, (hd h).2.1.ntk _ h2, (hd h).2.2⟩

/-- `apply_fn` returns for each example and channel the sum of the window divided by `denom`. -/
theorem pool_apply_entries (d : Pool) (x : Arr ℝ) (hw : ∀ v ∈ d.window, 0 < v.1 ∧ 0 < v.2) (S : List ℕ) (n C A : ℕ)
    (hl : S.length = d.window.length) (hB : d.batchAxis < S.length + 2)
    (hA : (A : ℤ) = d.channelAxis % (S.length + 2)) (hne : d.batchAxis ≠ A)
    (hx : x.shape = actIdx d.batchAxis A n C S) :
    (d.apply x).shape = actIdx d.batchAxis A n C (outDims d.padding S d.window) ∧
      ∀ i < n, ∀ c < C, ∀ o, InRange o (outDims d.padding S d.window) →
        (d.apply x).get (actIdx d.batchAxis A i c o) =
          (∑ f ∈ offsets d.window, match readIdx d.padding S d.window o f with
            | some p => x.get (actIdx d.batchAxis A i c p)
            | none => 0) / denom d S o := by
  obtain rfl : d.ca = A := by unfold Pool.ca; rw [← hl, ← hA]; simp
  obtain ⟨h1, h2⟩ := pool_apply d x hw S n C hl hB hne hx
  refine ⟨h1, fun i hi c hc o ho => ?_⟩
  rw [h2 i hi c hc o ho, denom_eq]
  congr 1

/-- If the input kernel holds the channel averages of the second moments and tangent kernels of random
activations, the output kernel holds those of the pooled activations returned by `apply_fn`. -/
theorem pool_kernel_exact (μ : Measure E) (d : Pool) (hw : ∀ v ∈ d.window, 0 < v.1 ∧ 0 < v.2) (X1 X2 : E → Arr ℝ) (C A : ℕ)
    (k : Kernel ℝ) (L : Logical ℝ) (hk : k.Stores L) (hl : L.S1.length = d.window.length)
    (hd : k.diagonalSpatial = true → k.isReversed = false ∧ OffDiagZero L ∧
      (d.padding = .circular → List.Forall₂ (fun w n => w ≤ n) (d.window.map Prod.fst) L.S1))
    (hn : ∀ a, k.ntk = some a → a.shape = [] → a.get [] = 0)
    (hB : d.batchAxis < L.S1.length + 2) (hA : (A : ℤ) = d.channelAxis % (L.S1.length + 2)) (hne : d.batchAxis ≠ A)
    (h1 : ∀ θ, (X1 θ).shape = actIdx d.batchAxis A L.n1 C L.S1)
    (h2 : ∀ θ, (X2 θ).shape = actIdx d.batchAxis A L.n2 C L.S2)
    (hR : Regular μ C L.n1 L.n2 L.S1 L.S2 (chan X1 d.batchAxis A) (chan X2 d.batchAxis A))
    (hL : ChannelKernelOf μ C (chan X1 d.batchAxis A) (chan X2 d.batchAxis A) L) :
    ∃ L', (d.kernelFn k).Stores L' ∧ (d.kernelFn k).static = k.static ∧
      (L'.n1, L'.n2, L'.S1, L'.S2, L'.k22.isSome, L'.ntk.isSome) =
        (L.n1, L.n2, outDims d.padding L.S1 d.window, outDims d.padding L.S2 d.window, L.k22.isSome, L.ntk.isSome) ∧
      (∀ θ, (d.apply (X1 θ)).shape = actIdx d.batchAxis A L'.n1 C L'.S1) ∧
      (∀ θ, (d.apply (X2 θ)).shape = actIdx d.batchAxis A L'.n2 C L'.S2) ∧
      ChannelKernelOf μ C (chan (fun θ => d.apply (X1 θ)) d.batchAxis A)
        (chan (fun θ => d.apply (X2 θ)) d.batchAxis A) L' ∧
      Regular μ C L'.n1 L'.n2 L'.S1 L'.S2 (chan (fun θ => d.apply (X1 θ)) d.batchAxis A)
        (chan (fun θ => d.apply (X2 θ)) d.batchAxis A) := by
  have hl2 : L.S2.length = d.window.length := by rw [← hk.nngp.rank]; exact hl
  obtain rfl : d.ca = A := by unfold Pool.ca; rw [← hl, ← hA]; simp
  obtain ⟨hst, hs, -, -⟩ := pool_kernel_formula d hw k L hk hl hd hn
  have a1 := fun θ => pool_apply d (X1 θ) hw L.S1 L.n1 C hl hB hne (h1 θ)
  have a2 := fun θ => pool_apply d (X2 θ) hw L.S2 L.n2 C hl2 (by omega) hne (h2 θ)
  have key : ∀ (S : List ℕ) (X : E → Arr ℝ) (n : ℕ), (∀ θ, ∀ i < n, ∀ c < C, ∀ o, InRange o (outDims d.padding S d.window) →
        (d.apply (X θ)).get (actIdx d.batchAxis d.ca i c o) =
          (∑ f ∈ offsets d.window, readTap (fun p => (X θ).get (actIdx d.batchAxis d.ca i c p))
            (readIdx d.padding S d.window o f)) / d.size S o) →
      ∀ i < n, ∀ c < C, ∀ o, InRange o (outDims d.padding S d.window) →
        chan (fun θ => d.apply (X θ)) d.batchAxis d.ca i c o = tapSum (offsets d.window) (fun _ => (denom d S o)⁻¹)
          (fun f => readIdx d.padding S d.window o f) (chan X d.batchAxis d.ca i c) := by
    intro S X n h i hi c hc o ho
    funext θ
    unfold chan tapSum
    rw [h θ i hi c hc o ho, ← Finset.mul_sum, denom_eq, div_eq_inv_mul]
  obtain ⟨e1, e2⟩ := linLogical_exact μ C (fun _ => offsets d.window) (fun S o _ => (denom d S o)⁻¹)
    (fun S o f => readIdx d.padding S d.window o f) (fun S => outDims d.padding S d.window) _ _ _ _ L hL hR
    (fun o ho f _ p e => readIdx_inRange _ _ _ _ _ _ hw hl ho e)
    (fun o ho f _ p e => readIdx_inRange _ _ _ _ _ _ hw hl2 ho e)
    (key L.S1 X1 L.n1 fun θ => (a1 θ).2) (key L.S2 X2 L.n2 fun θ => (a2 θ).2)
  exact ⟨pooled d L, hst, hs, by simp [pooled, linLogical], fun θ => (a1 θ).1, fun θ => (a2 θ).1, e1, e2⟩

/-! ### Global pooling -/

/-- Every position has weight 1 (sum) or 1 over the number of positions (average). -/
noncomputable def weight (type : Pooling) (S : List ℕ) : ℝ := if type = .avg then (S.prod : ℝ)⁻¹ else 1

/-- The kernel of globally pooled activations. -/
noncomputable def globalPooled (type : Pooling) (L : Logical ℝ) : Logical ℝ :=
  linLogical (fun S => box S) (fun S _ _ => weight type S) (fun _ _ p => some p) (fun _ => []) L

lemma poolTail_get (type : Pooling) (B A : List ℕ) (x : Arr ℝ) (hx : x.shape = B ++ A) :
    (GlobalPool.poolTail type B.length x).shape = B ∧
      ∀ b, (GlobalPool.poolTail type B.length x).get b = weight type A * ∑ p ∈ box A, x.get (b ++ p) := by
  cases type
  · obtain ⟨h1, h2⟩ := meanTail_get B A x hx
    refine ⟨h1, fun b => ?_⟩
    refine (h2 b).trans ?_
    simp [weight, div_eq_inv_mul]
  · have h1 : x.shape.take B.length = B := by rw [hx]; simp
    have h2 : x.shape.drop B.length = A := by rw [hx]; simp
    refine ⟨h1, fun b => ?_⟩
    simp [GlobalPool.poolTail, h2, sumOver_eq_box, weight]

lemma prod_interleave' (A B : List ℕ) (h : A.length = B.length) : (interleave A B).prod = A.prod * B.prod := by
  induction A generalizing B with
  | nil => cases B <;> simp_all [interleave]
  | cons a A ih =>
    cases B with
    | nil => simp at h
    | cons b B => simp [interleave, ih B (by simpa using h)]; ring

lemma globalPool_array (d : GlobalPool) (k : Kernel ℝ) {a : Arr ℝ} {B S T : List ℕ} (bn : ℕ)
    {F : List ℕ → List ℕ → List ℕ → ℝ} (hbn : bn = B.length) (h : Holds a B S T k.diagonalSpatial k.isReversed F)
    (hd : k.diagonalSpatial = true → ∀ b p q, p ≠ q → F b p q = 0) :
    Holds (d.pool k bn a) B [] [] k.diagonalSpatial false (fun b _ _ => ∑ p ∈ box S, ∑ q ∈ box T,
        weight d.type S * weight d.type T * read2 (F b) (some p) (some q)) := by
  subst hbn
  have key : (d.pool k B.length a).shape = B ∧ ∀ b, InRange b B →
      (d.pool k B.length a).get b = ∑ p ∈ box S, ∑ q ∈ box T, weight d.type S * weight d.type T * F b p q := by
    unfold GlobalPool.pool
    have hs := h.shape
    cases hds : k.diagonalSpatial
    · rw [hds] at h hs
      rw [pos_full] at hs
      obtain ⟨h1, h2⟩ := poolTail_get d.type B _ a hs
      simp only [Bool.false_eq_true, false_and, if_false]
      refine ⟨h1, fun b hb => ?_⟩
      have hrk := h.rank
      rw [h2, box_sum_interleave _ _ (by simpa using hrk)]
      have hwt : weight d.type (interleave (rv k.isReversed S) (rv k.isReversed T)) = weight d.type S * weight d.type T := by
        unfold weight
        split_ifs
        · rw [prod_interleave' _ _ (by simpa using hrk), prod_rv, prod_rv]
          push_cast
          rw [mul_inv]
        · simp
      rw [hwt, box_sum_rv k.isReversed S (fun p => ∑ q ∈ box (rv k.isReversed T), a.get (b ++ interleave p q)), Finset.mul_sum]
      refine Finset.sum_congr rfl fun p hp => ?_
      rw [box_sum_rv k.isReversed T (fun q => a.get (b ++ interleave (rv k.isReversed p) q)), Finset.mul_sum]
      refine Finset.sum_congr rfl fun q hq => ?_
      rw [← pos_full, h.get b p q hb (mem_box.1 hp) (mem_box.1 hq) (by simp)]
    · rw [hds] at h hs
      obtain rfl := h.square rfl
      rw [pos_diag] at hs
      obtain ⟨h1, h2⟩ := poolTail_get d.type B _ a hs
      have hdr : a.shape.drop B.length = rv k.isReversed S := by rw [hs]; simp
      have hout : ∀ b, InRange b B → ∑ p ∈ box S, ∑ q ∈ box S, weight d.type S * weight d.type S * F b p q =
          weight d.type S * (weight d.type S * ∑ p ∈ box (rv k.isReversed S), a.get (b ++ p)) := by
        intro b hb
        rw [box_sum_rv, Finset.mul_sum, Finset.mul_sum]
        refine Finset.sum_congr rfl fun p hp => ?_
        rw [Finset.sum_eq_single_of_mem p hp fun q _ hne => by rw [hd hds b p q (Ne.symm hne), mul_zero]]
        rw [← pos_diag k.isReversed p p, h.get b p p hb (mem_box.1 hp) (mem_box.1 hp) (by simp)]
        ring
      have hwt : weight d.type (rv k.isReversed S) = weight d.type S := by unfold weight; rw [prod_rv]
      cases ht : d.type
      · simp only [and_self, if_true]
        rw [ht] at h1 h2 hout hwt
        refine ⟨h1, fun b hb => ?_⟩
        simp only [Arr.map, h2, hdr, hout b hb, prod_rv, hwt]
        simp only [weight, if_true]
        rw [div_eq_inv_mul]
      · rw [ht] at h1 h2 hout hwt
        simp only [true_and, reduceCtorEq, if_false]
        refine ⟨h1, fun b hb => ?_⟩
        rw [h2, hout b hb, hwt]
        simp [weight]
  refine ⟨rfl, by simp, ?_, ?_⟩
  · rw [key.1]; cases k.diagonalSpatial <;> simp [pos, interleave]
  · intro b p q hb hp hq _
    rw [inRange_nil_right] at hp hq
    subst hp hq
    rw [show b ++ pos k.diagonalSpatial false [] [] = b by cases k.diagonalSpatial <;> simp [pos, interleave]]
    exact key.2 b hb

/-- In every layout the output kernel (of a kernel without masks) holds the covariances of the sums (averages)
over all positions; in the diagonal layout this presumes that distinct positions are uncorrelated. -/
theorem global_kernel_formula (d : GlobalPool) (k : Kernel ℝ) (L : Logical ℝ) (hk : k.Stores L)
    (hd : k.diagonalSpatial = true → OffDiagZero L) (hn : ∀ a, k.ntk = some a → a.shape = [] → a.get [] = 0) :
    (d.kernelFn k).Stores (globalPooled d.type L) ∧ (d.kernelFn k).isReversed = false ∧
      (d.kernelFn k).isGaussian = k.isGaussian ∧
      ((d.kernelFn k).batchAxis, (d.kernelFn k).channelAxis) =
        if d.batchAxis % (k.shape1.length : ℤ) < d.channelAxis % (k.shape1.length : ℤ) then (0, 1) else (1, 0) := by
  refine ⟨⟨?_, ?_, ?_, ?_⟩, rfl, rfl, ?_⟩
  · exact globalPool_array d k 2 rfl hk.nngp fun h => (hd h).k12
  · exact globalPool_array d k _ (batchShape_length _ _).symm hk.cov1 fun h b => (hd h).k11 _
  · have := hk.cov2
    unfold GlobalPool.kernelFn globalPooled linLogical
    dsimp only
    cases h1 : k.cov2 <;> cases h2 : L.k22 <;> simp only [h1, h2, OptRel, Option.map] at this ⊢
    exact globalPool_array d k _ (batchShape_length _ _).symm this fun h b => (hd h).k22 _ h2 _
  · have := hk.ntk
    unfold GlobalPool.kernelFn globalPooled linLogical
    dsimp only
    cases h1 : k.ntk <;> cases h2 : L.ntk <;> simp only [h1, h2, OptRel, Option.map] at this ⊢
    rcases this with ⟨t1, t2⟩ | t
    · left
      have e : ∀ a : Arr ℝ, a.shape = [] → a.get [] = 0 → (d.pool k 2 a).shape = [] ∧ (d.pool k 2 a).get [] = 0 := by
        intro a ha h0
        unfold GlobalPool.pool GlobalPool.poolTail meanTail
        cases d.type <;> by_cases h : k.diagonalSpatial = true <;> simp [h, ha, h0, sumOver_eq_box, Arr.map]
      obtain ⟨e1, e2⟩ := e _ t1 (hn _ h1 t1)
      refine ⟨e1, fun b p q => ?_⟩
      rw [e2]
      refine Finset.sum_eq_zero fun f _ => Finset.sum_eq_zero fun f' _ => ?_
      simp [read2, t2, hn _ h1 t1]
    · right
      exact globalPool_array d k 2 rfl t fun h => (hd h).ntk _ h2
  · unfold GlobalPool.kernelFn
    by_cases h : d.batchAxis % (k.shape1.length : ℤ) < d.channelAxis % (k.shape1.length : ℤ) <;> simp [h]

/-- `apply_fn` returns the sums (averages) over all positions. -/
theorem global_apply_entries (d : GlobalPool) (x : Arr ℝ) (S : List ℕ) (B A n C : ℕ) (hB : B < S.length + 2)
    (hA : A < S.length + 2) (hne : B ≠ A) (hB' : (B : ℤ) = d.batchAxis % (S.length + 2))
    (hA' : (A : ℤ) = d.channelAxis % (S.length + 2)) (hx : x.shape = actIdx B A n C S) :
    (d.apply x).shape = (if B < A then [n, C] else [C, n]) ∧ ∀ i c,
      (d.apply x).get (if B < A then [i, c] else [c, i]) = weight d.type S * ∑ p ∈ box S, x.get (actIdx B A i c p) := by
  have hnd : x.ndim = S.length + 2 := by unfold ndim; rw [hx, actIdx_length B A n C S hne hB hA]
  have e1 : (d.batchAxis % (x.ndim : ℤ)).toNat = B := by rw [hnd]; push_cast; rw [← hB']; simp
  have e2 : (d.channelAxis % (x.ndim : ℤ)).toNat = A := by rw [hnd]; push_cast; rw [← hA']; simp
  obtain ⟨g1, g2, g3⟩ := gather_act B A n C S hne hB hA
  have e3 : gather ((List.range x.ndim).filter fun i => !([B, A].contains i)) x.shape = S := by
    rw [hnd, hx]; exact g1
  unfold GlobalPool.apply
  simp only [e1, e2, e3]
  refine ⟨?_, fun i c => ?_⟩
  · rw [hx, g2, g3]
    by_cases h : B < A <;> simp [h]
  · by_cases h : B < A <;> cases d.type <;> simp [h, sumOver_eq_box, weight, div_eq_inv_mul]

/-- If the input kernel holds the channel averages of the second moments and tangent kernels of random
activations, the output kernel holds those of the globally pooled activations returned by `apply_fn`. -/
theorem global_kernel_exact (μ : Measure E) (d : GlobalPool) (X1 X2 : E → Arr ℝ) (C B A : ℕ) (k : Kernel ℝ) (L : Logical ℝ)
    (hk : k.Stores L) (hd : k.diagonalSpatial = true → OffDiagZero L)
    (hn : ∀ a, k.ntk = some a → a.shape = [] → a.get [] = 0) (hB : B < L.S1.length + 2)
    (hA : A < L.S1.length + 2) (hne : B ≠ A) (hB' : (B : ℤ) = d.batchAxis % (L.S1.length + 2))
    (hA' : (A : ℤ) = d.channelAxis % (L.S1.length + 2)) (hsh : k.shape1.length = L.S1.length + 2)
    (h1 : ∀ θ, (X1 θ).shape = actIdx B A L.n1 C L.S1) (h2 : ∀ θ, (X2 θ).shape = actIdx B A L.n2 C L.S2)
    (hR : Regular μ C L.n1 L.n2 L.S1 L.S2 (chan X1 B A) (chan X2 B A))
    (hL : ChannelKernelOf μ C (chan X1 B A) (chan X2 B A) L) :
    ∃ L' bo co, (d.kernelFn k).Stores L' ∧
      (L'.n1, L'.n2, L'.S1, L'.S2, L'.k22.isSome, L'.ntk.isSome) =
        (L.n1, L.n2, [], [], L.k22.isSome, L.ntk.isSome) ∧
      (d.kernelFn k).batchAxis = bo ∧ (d.kernelFn k).channelAxis = co ∧
      (∀ θ, (d.apply (X1 θ)).shape = actIdx bo co L.n1 C []) ∧ (∀ θ, (d.apply (X2 θ)).shape = actIdx bo co L.n2 C []) ∧
      ChannelKernelOf μ C (chan (fun θ => d.apply (X1 θ)) bo co) (chan (fun θ => d.apply (X2 θ)) bo co) L' ∧
      Regular μ C L'.n1 L'.n2 L'.S1 L'.S2 (chan (fun θ => d.apply (X1 θ)) bo co) (chan (fun θ => d.apply (X2 θ)) bo co) := by
  have hlen := hk.nngp.rank
  obtain ⟨hst, -, -, hax⟩ := global_kernel_formula d k L hk hd hn
  have a1 := fun θ => global_apply_entries d (X1 θ) L.S1 B A L.n1 C hB hA hne hB' hA' (h1 θ)
  have a2 := fun θ => global_apply_entries d (X2 θ) L.S2 B A L.n2 C (by omega) (by omega) hne (by rw [← hlen]; exact hB')
    (by rw [← hlen]; exact hA') (h2 θ)
  have hidx : ∀ i c : ℕ, (if B < A then [i, c] else [c, i]) = actIdx (if B < A then 0 else 1) (if B < A then 1 else 0) i c [] := by
    intro i c
    split_ifs <;> simp [actIdx]
  have hax' : ((d.kernelFn k).batchAxis, (d.kernelFn k).channelAxis) = if B < A then (0, 1) else (1, 0) := by
    rw [hax, hsh]
    push_cast
    rw [← hB', ← hA']
    by_cases h : B < A <;> simp [h]
  obtain ⟨e1, e2⟩ := linLogical_exact μ C (fun S => box S) (fun S _ _ => weight d.type S) (fun _ _ p => some p) (fun _ => [])
    (chan X1 B A) (chan X2 B A) (chan (fun θ => d.apply (X1 θ)) (if B < A then 0 else 1) (if B < A then 1 else 0))
    (chan (fun θ => d.apply (X2 θ)) (if B < A then 0 else 1) (if B < A then 1 else 0)) L hL hR
    (fun o _ u hu p e => by simp only [Option.some.injEq] at e; subst e; exact mem_box.1 hu)
    (fun o _ u hu p e => by simp only [Option.some.injEq] at e; subst e; exact mem_box.1 hu)
    (fun i _ c _ o ho => by
      rw [inRange_nil_right] at ho
      subst ho
      funext θ
      unfold chan tapSum
      rw [← hidx, (a1 θ).2, Finset.mul_sum]
      rfl)
    (fun i _ c _ o ho => by
      rw [inRange_nil_right] at ho
      subst ho
      funext θ
      unfold chan tapSum
      rw [← hidx, (a2 θ).2, Finset.mul_sum]
      rfl)
  refine ⟨globalPooled d.type L, _, _, hst, by simp [globalPooled, linLogical], ?_, ?_, fun θ => ?_, fun θ => ?_, e1, e2⟩
  · have := congrArg Prod.fst hax'; simp only at this; rw [this]; split_ifs <;> rfl
  · have := congrArg Prod.snd hax'; simp only at this; rw [this]; split_ifs <;> rfl
  · rw [(a1 θ).1, hidx]
  · rw [(a2 θ).1, hidx]

/-! ### A wrong case: circular windows larger than the input in the diagonal layout -/

/-- With circular padding a window larger than the input reads a position several times.  The diagonal
layout then misses the covariance of the position with itself: the average over a window of 3 copies of one
position with variance 1 has variance 1, the output is 1/3. -/
theorem diag_circular_wrong : ∃ (d : Pool) (k : Kernel ℝ) (L : Logical ℝ), k.Stores L ∧ OffDiagZero L ∧
    k.diagonalSpatial = true ∧ d.padding = .circular ∧ (∀ v ∈ d.window, 0 < v.1 ∧ 0 < v.2) ∧
    (pooled d L).k12 [0, 0] [0] [0] = 1 ∧ (d.kernelFn k).nngp.get [0, 0, 0] = 1 / 3 := by
  let L : Logical ℝ := ⟨1, 1, [1], [1], fun _ p q => if p = q then 1 else 0, fun _ p q => if p = q then 1 else 0, none, none⟩
  let d : Pool := ⟨.avg, [(3, 1)], .circular, false, 0, -1⟩
  have hst := Logical.encode_stores L true true false (fun _ => rfl) rfl
  have hw : ∀ v ∈ d.window, 0 < v.1 ∧ 0 < v.2 := by
    intro v hv
    have e : v = (3, 1) := by simpa [d] using hv
    rw [e]; decide
  have hread : ∀ f, InRange f [3] → readIdx .circular [1] [(3, 1)] [0] f = some [0] := by
    intro f hf
    obtain ⟨p, hp⟩ := readIdx_isSome .circular (by decide) [1] [(3, 1)] [0] f hw rfl (by decide) hf
    have := readIdx_inRange .circular [1] [(3, 1)] [0] f p hw rfl (by decide) hp
    rw [hp]
    obtain ⟨a, rfl⟩ := List.length_eq_one_iff.1 this.length
    rw [inRange_cons] at this
    have : a = 0 := by omega
    rw [this]
  have hoff : ∀ g : List ℕ → ℝ, (∀ f, InRange f [3] → g f = 1) → ∑ f ∈ offsets [(3, 1)], g f = 3 := by
    intro g hg
    refine (Finset.sum_congr rfl fun f hf => hg f (mem_box.1 hf)).trans ?_
    rw [Finset.sum_const, box_card]
    norm_num
  have hden : ∀ S o, denom d S o = 3 := by
    intro S o
    simp [denom, d]
  refine ⟨d, L.encode true true false, L, hst, ⟨?_, ?_, ?_, ?_⟩, rfl, rfl, hw, ?_, ?_⟩
  · intro b p q h; simp [L, h]
  · intro b p q h; simp [L, h]
  · intro F hF; simp [L] at hF
  · intro F hF; simp [L] at hF
  · simp only [pooled, linLogical, hden]
    have : ∀ f, InRange f [3] → ∑ f' ∈ offsets [(3, 1)], (3 : ℝ)⁻¹ * 3⁻¹ * read2 (L.k12 [0, 0])
        (readIdx .circular [1] [(3, 1)] [0] f) (readIdx .circular [1] [(3, 1)] [0] f') = 1 / 3 := by
      intro f hf
      rw [← Finset.mul_sum, hoff _ fun f' hf' => by rw [hread f hf, hread f' hf']; simp [read2, L]]
      norm_num
    refine (Finset.sum_congr rfl fun f hf => this f (mem_box.1 hf)).trans ?_
    rw [Finset.sum_const, box_card]
    norm_num
  · have h := poolKernel_diag (d := d) (a := (L.encode true true false).nngp) hst.nngp hw rfl
    have := h.get [0, 0] [0] [0] (by decide) (by decide) (by decide) (by simp)
    refine Eq.trans ?_ (this.trans ?_)
    · rfl
    · rw [denom_eq, hden, hoff _ fun f hf => by rw [hread f hf]; simp [read2, L]]
      norm_num

/-! ### Concrete networks -/

/-- Two examples, two channels, positions `[5, 3]`, batch axis 0, channel axis -1. -/
noncomputable def exX (a : ℕ → ℕ → List ℕ → ℝ) (θ : ℝ) : Arr ℝ :=
  ⟨[2, 5, 3, 2], fun i => a (i.getD 0 0) (i.getD 3 0) [i.getD 1 0, i.getD 2 0] * θ⟩

lemma exX_chan (a : ℕ → ℕ → List ℕ → ℝ) (i c : ℕ) (p : List ℕ) (hp : InRange p [5, 3]) : chan (exX a) 0 3 i c p = lin1 a i c p := by
  obtain ⟨u, v, rfl, -, -⟩ := Inputs.inRange_two hp
  funext θ
  simp [chan, exX, lin1, actIdx]

lemma exX_kernel (a b : ℕ → ℕ → List ℕ → ℝ) : ChannelKernelOf (ProbabilityTheory.gaussianReal 0 1) 2 (chan (exX a) 0 3)
    (chan (exX b) 0 3) (lin1L 2 a b 2 2 [5, 3] [5, 3]) :=
  (lin1_kernel 2 a b 2 2 [5, 3] [5, 3]).congr (fun i _ c _ p hp => (exX_chan a i c p hp).symm)
    (fun i _ c _ p hp => (exX_chan b i c p hp).symm)

lemma exX_regular (a b : ℕ → ℕ → List ℕ → ℝ) : Regular (ProbabilityTheory.gaussianReal 0 1) 2 2 2 [5, 3] [5, 3]
    (chan (exX a) 0 3) (chan (exX b) 0 3) := by
  have h := lin1_regular 2 2 2 [5, 3] [5, 3] a b
  refine ⟨?_, ?_, ?_, ?_, ?_⟩
  · intro i hi c hc p hp; rw [exX_chan a i c p hp]; exact h.sq1 i hi c hc p hp
  · intro i hi c hc p hp; rw [exX_chan b i c p hp]; exact h.sq2 i hi c hc p hp
  · intro i hi c hc p hp; rw [exX_chan a i c p hp]; exact h.diff1 i hi c hc p hp
  · intro i hi c hc p hp; rw [exX_chan b i c p hp]; exact h.diff2 i hi c hc p hp
  · intro i hi j hj c hc c' hc' p q hp hq
    rw [exX_chan a i c p hp, exX_chan b j c' q hq]
    exact h.grad i hi j hj c hc c' hc' p q hp hq

/-- Average pooling with windows `[3, 2]`, strides `[2, 1]`, any padding, on positions `[5, 3]`. -/
example (a b : ℕ → ℕ → List ℕ → ℝ) (type : Pooling) (pad : Padding) (edges db rev : Bool) : ∃ L',
    ((⟨type, [(3, 2), (2, 1)], pad, edges, 0, -1⟩ : Pool).kernelFn
      ((lin1L 2 a b 2 2 [5, 3] [5, 3]).encode db false rev)).Stores L' ∧
      ChannelKernelOf (ProbabilityTheory.gaussianReal 0 1) 2
        (chan (fun θ => (⟨type, [(3, 2), (2, 1)], pad, edges, 0, -1⟩ : Pool).apply (exX a θ)) 0 3)
        (chan (fun θ => (⟨type, [(3, 2), (2, 1)], pad, edges, 0, -1⟩ : Pool).apply (exX b θ)) 0 3) L' := by
  obtain ⟨L', h1, -, -, -, -, h2, -⟩ := pool_kernel_exact (ProbabilityTheory.gaussianReal 0 1)
    (⟨type, [(3, 2), (2, 1)], pad, edges, 0, -1⟩ : Pool) (by simp) (exX a) (exX b) 2 3
    ((lin1L 2 a b 2 2 [5, 3] [5, 3]).encode db false rev) _ (Logical.encode_stores _ db false rev (by simp) rfl) rfl
    (by intro h; cases h) (by
      intro x hx hs
      simp only [Logical.encode, lin1L, Option.map_some, Option.some.injEq] at hx
      rw [← hx] at hs
      simp [holdArr] at hs) (by simp [lin1L]) (by simp [lin1L]) (by simp) (fun θ => rfl) (fun θ => rfl) (exX_regular a b) (exX_kernel a b)
  exact ⟨L', h1, h2⟩

/-- The uncorrelated kernel on positions `[5]` satisfies the assumptions of the diagonal layout. -/
example (type : Pooling) (pad : Padding) (edges db : Bool) (v : ℕ → ℝ) :
    let L : Logical ℝ := ⟨2, 2, [5], [5], fun b p q => if p = q then v (b.getD 0 0) else 0,
      fun b p q => if p = q then v (b.getD 0 0) else 0, none, none⟩
    ((⟨type, [(3, 2)], pad, edges, 0, -1⟩ : Pool).kernelFn (L.encode db true false)).Stores
      (pooled ⟨type, [(3, 2)], pad, edges, 0, -1⟩ L) := by
  intro L
  refine (pool_kernel_formula _ (by simp) _ L (Logical.encode_stores L db true false (fun _ => rfl) rfl) rfl
    (fun _ => ⟨rfl, ⟨?_, ?_, ?_, ?_⟩, fun _ => by simp [L]⟩) (by intro x hx; simp [Logical.encode, L] at hx)).1
  · intro b p q h; simp [L, h]
  · intro b p q h; simp [L, h]
  · intro F hF; simp [L] at hF
  · intro F hF; simp [L] at hF

example (a b : ℕ → ℕ → List ℕ → ℝ) (type : Pooling) (db rev : Bool) : ∃ L',
    ((⟨type, 0, -1⟩ : GlobalPool).kernelFn
      { (lin1L 2 a b 2 2 [5, 3] [5, 3]).encode db false rev with shape1 := [2, 5, 3, 2] }).Stores L' ∧
      ChannelKernelOf (ProbabilityTheory.gaussianReal 0 1) 2 (chan (fun θ => (⟨type, 0, -1⟩ : GlobalPool).apply (exX a θ)) 0 1)
        (chan (fun θ => (⟨type, 0, -1⟩ : GlobalPool).apply (exX b θ)) 0 1) L' := by
  have hst := Logical.encode_stores (lin1L 2 a b 2 2 [5, 3] [5, 3]) db false rev (by simp) rfl
  obtain ⟨L', bo, co, h1, -, h2, h3, -, -, h4, -⟩ := global_kernel_exact (ProbabilityTheory.gaussianReal 0 1)
    (⟨type, 0, -1⟩ : GlobalPool) (exX a) (exX b) 2 0 3
    { (lin1L 2 a b 2 2 [5, 3] [5, 3]).encode db false rev with shape1 := [2, 5, 3, 2] } _
    ⟨hst.nngp, hst.cov1, hst.cov2, hst.ntk⟩
    (by intro h; cases h) (by
      intro x hx hs
      simp only [Logical.encode, lin1L, Option.map_some, Option.some.injEq] at hx
      rw [← hx] at hs
      simp [holdArr] at hs) (by simp [lin1L]) (by simp [lin1L]) (by decide) (by simp [lin1L]) (by simp [lin1L])
    (by simp [lin1L]) (fun θ => rfl) (fun θ => rfl) (exX_regular a b) (exX_kernel a b)
  have e1 : bo = 0 := by rw [← h2]; rfl
  have e2 : co = 1 := by rw [← h3]; rfl
  subst e1 e2
  exact ⟨L', h1, h4⟩

end NT.C54
