import Verif.Lemmas.Contract
import Verif.Model.KernelDot
import Verif.Lemmas.Channels

/-!
# C28: `Kernel.dot_general`

`Spec.Contraction.logical` lists the covariances of contracted activations, `Spec.Contraction.contract`.
-/

namespace NT.C28
open NT Arr Spec KernelDot MeasureTheory
open scoped BigOperators

/-- The contraction that the arguments describe: axes are counted modulo the rank. -/
def ofArgs (k : Kernel ℝ) (no : ℕ) (isLhs : Bool) (inputC otherC inputB otherB : List ℤ) : Contraction where
  n := k.shape1.length
  ba := k.batchAxis
  ca := k.channelAxis
  no := no
  cs := inputC.map fun a => (a % (k.shape1.length : ℤ)).toNat
  bs := inputB.map fun a => (a % (k.shape1.length : ℤ)).toNat
  ocs := otherC.map fun a => (a % (no : ℤ)).toNat
  obs := otherB.map fun a => (a % (no : ℤ)).toNat
  isLhs := isLhs

/-- The kernel belongs to inputs of the shapes it records. -/
structure Shapes (k : Kernel ℝ) (L : Logical ℝ) : Prop where
  rank : k.shape2.length = k.shape1.length
  n1 : L.n1 = k.shape1.getD k.batchAxis 0
  n2 : L.n2 = k.shape2.getD k.batchAxis 0
  S1 : L.S1 = (spatialAxes k.shape1.length k.batchAxis k.channelAxis).map (k.shape1.getD · 0)
  S2 : L.S2 = (spatialAxes k.shape1.length k.batchAxis k.channelAxis).map (k.shape2.getD · 0)

/-- The requirements of `dot_general` on its input: a spatially diagonal kernel is not contracted along spatial axes (and remains square),
and is not reversed. -/
structure Fits (k : Kernel ℝ) (C : Contraction) (o1 o2 : Arr ℝ) : Prop where
  axes : C.Ok
  match1 : Match C k.shape1 o1.shape
  match2 : Match C k.shape2 o2.shape
  contracted : k.diagonalSpatial = true → C.cs = []
  square : k.diagonalSpatial = true → C.outShape k.shape1 o1.shape = C.outShape k.shape2 o2.shape
  reversed : k.isReversed = true → k.diagonalSpatial = false
  /-- A tangent kernel that is a single number is zero (as it is before any layer with parameters). -/
  scalar : ∀ a, k.ntk = some a → a.shape = [] → a.get [] = 0

lemma batchVals_two (i j : ℕ) : batchVals 2 i j = [i, j] := rfl

lemma batchVals_shape (db : Bool) (n : ℕ) : batchVals (if db then 1 else 2) n n = batchShape db n := by cases db <;> rfl

lemma Holds.weaken {a : Arr ℝ} {B S T : List ℕ} {ds rev : Bool} {F G : List ℕ → List ℕ → List ℕ → ℝ} (h : Holds a B S T ds rev F)
    (e : ∀ b, b.length = B.length → F b = G b) : Holds a B S T ds rev G :=
  ⟨h.rank, h.square, h.shape, fun b p q hb hp hq hpq => by rw [h.get b p q hb hp hq hpq, e b hb.length_eq]⟩

lemma dbl_two (b : List ℕ) (h : b.length = 2) : dbl b = b := by
  match b, h with
  | [i, j], _ => rfl

/-- `Kernel.dot_general` holds the covariances of the contracted activations, in every layout (batch-diagonal or not, spatially diagonal
or not, spatial axes in either order), for all axes
except that the batch axis is not contracted (then no batch axis is left and the result is no longer a kernel of examples); the result is never reversed, and the batch and channel axes are where
`lax.dot_general` puts them (see `activations`). -/
theorem covariance_of_contraction_partial (k : Kernel ℝ) (L : Logical ℝ) (hk : k.Stores L) (hs : Shapes k L) (o1 o2 : Arr ℝ) (hno : o1.ndim = o2.ndim)
    (isLhs : Bool) (inputC otherC inputB otherB : List ℤ) (hf : Fits k (ofArgs k o1.ndim isLhs inputC otherC inputB otherB) o1 o2) :
    ∃ k', dotGeneral k (some o1) (some o2) isLhs inputC otherC inputB otherB = .ok k' ∧
      k'.Stores ((ofArgs k o1.ndim isLhs inputC otherC inputB otherB).logical k.shape1 k.shape2 o1.shape o2.shape o1.get o2.get L) ∧
      k'.isReversed = false ∧
      k'.batchAxis = after (ofArgs k o1.ndim isLhs inputC otherC inputB otherB) k.batchAxis ∧
      k'.channelAxis = after (ofArgs k o1.ndim isLhs inputC otherC inputB otherB) k.channelAxis ∧
      k'.static = { k with isReversed := false, batchAxis := k'.batchAxis, channelAxis := k'.channelAxis }.static ∧
      (k'.mask1, k'.mask2, k'.x1IsX2) = (k.mask1, k.mask2, k.x1IsX2) ∧ (∀ a, k'.ntk = some a → a.shape = [] → k.ntk = some a) := by
  generalize hCdef : ofArgs k o1.ndim isLhs inputC otherC inputB otherB = C at hf ⊢
  have hn : C.n = k.shape1.length := by rw [← hCdef]; rfl
  have hba : C.ba = k.batchAxis := by rw [← hCdef]; rfl
  have hca : C.ca = k.channelAxis := by rw [← hCdef]; rfl
  have hD : Dims.of C k.diagonalSpatial = { n := k.shape1.length, ba := k.batchAxis, ca := k.channelAxis, ds := k.diagonalSpatial, no := o1.ndim, inputC := inputC.map fun a => (a % (k.shape1.length : ℤ)).toNat, inputB := inputB.map fun a => (a % (k.shape1.length : ℤ)).toNat, otherC := otherC.map fun a => (a % (o1.ndim : ℤ)).toNat, otherB := otherB.map fun a => (a % (o1.ndim : ℤ)).toNat, isLhs := isLhs } := by
    rw [← hCdef]; rfl
  have bn2 : ∀ db : Bool, (if db then 1 else 2) = 1 ∨ (if db then 1 else 2) = 2 := by intro db; cases db <;> simp
  have hS1 : L.S1 = (spatialAxes C.n C.ba C.ca).map (k.shape1.getD · 0) := by rw [hn, hba, hca]; exact hs.S1
  have hS2 : L.S2 = (spatialAxes C.n C.ba C.ca).map (k.shape2.getD · 0) := by rw [hn, hba, hca]; exact hs.S2
  have hn1 : L.n1 = k.shape1.getD C.ba 0 := by rw [hba]; exact hs.n1
  have hn2 : L.n2 = k.shape2.getD C.ba 0 := by rw [hba]; exact hs.n2
  -- the four arrays
  obtain ⟨c1, hc1, hc1h⟩ := dot_holds (C := C) (bn := if k.diagonalBatch then 1 else 2) (ds := k.diagonalSpatial) (rev := k.isReversed)
    (s := k.shape1) (s' := k.shape1) (mat := k.cov1) (F := L.k11) hf.axes (bn2 _) hf.contracted hf.reversed rfl rfl hf.match1 hf.match1
    (fun _ => rfl) (fun _ => rfl) (by
      have := hk.cov1
      rw [hS1] at this
      rw [batchVals_shape, ← hn1]
      exact this)
  have h12 : ∀ (a : Arr ℝ) (F : List ℕ → List ℕ → List ℕ → ℝ), Holds a [L.n1, L.n2] L.S1 L.S2 k.diagonalSpatial k.isReversed F →
      ∃ y, (Dims.of C k.diagonalSpatial).dot k.isReversed 2 a (some o1) (some o2) = .ok y ∧
        Holds y [L.n1, L.n2] (C.outShape k.shape1 o1.shape) (C.outShape k.shape2 o2.shape) k.diagonalSpatial false
          (C.covar k.shape1 k.shape2 o1.get o2.get F) := by
    intro a F ha
    obtain ⟨y, h1, h2⟩ := dot_holds (C := C) (bn := 2) (ds := k.diagonalSpatial) (rev := k.isReversed)
      (s := k.shape1) (s' := k.shape2) (mat := a) (F := F) hf.axes (.inr rfl) hf.contracted hf.reversed rfl rfl hf.match1 hf.match2
      (fun h => by simp at h) hf.square (by
        rw [batchVals_two, ← hn1, ← hn2, ← hS1, ← hS2]
        exact Holds.weaken ha fun b hb => by rw [dbl_two b hb])
    refine ⟨y, h1, ?_⟩
    rw [batchVals_two, ← hn1, ← hn2] at h2
    exact Holds.weaken h2 fun b hb => by rw [dbl_two b hb]
  obtain ⟨c12, hc12, hc12h⟩ := h12 k.nngp L.k12 hk.nngp
  have hcov2 : ∃ c2, (Dims.of C k.diagonalSpatial).dot? k.isReversed (if k.diagonalBatch then 1 else 2) k.cov2 (some o2) (some o2) = .ok c2 ∧
      OptRel (fun c F => Holds c (batchShape k.diagonalBatch L.n2) (C.outShape k.shape2 o2.shape) (C.outShape k.shape2 o2.shape)
        k.diagonalSpatial false (fun b => F (dbl b))) c2 (L.k22.map (C.covar k.shape2 k.shape2 o2.get o2.get)) := by
    have h := hk.cov2
    cases hc : k.cov2 with
    | none =>
      cases hl : L.k22 with
      | none => exact ⟨none, rfl, by simp [OptRel]⟩
      | some F => rw [hc, hl] at h; exact h.elim
    | some c =>
      cases hl : L.k22 with
      | none => rw [hc, hl] at h; exact h.elim
      | some F =>
        rw [hc, hl] at h
        obtain ⟨y, h1, h2⟩ := dot_holds (C := C) (bn := if k.diagonalBatch then 1 else 2) (ds := k.diagonalSpatial) (rev := k.isReversed)
          (s := k.shape2) (s' := k.shape2) (mat := c) (F := F) hf.axes (bn2 _) hf.contracted hf.reversed rfl rfl
          hf.match2 hf.match2 (fun _ => rfl) (fun _ => rfl) (by
            rw [batchVals_shape, ← hn2, ← hS2]
            exact h)
        rw [batchVals_shape, ← hn2] at h2
        exact ⟨some y, by simp [Dims.dot?, h1, Except.map], h2⟩
  have hntk : ∃ c, (Dims.of C k.diagonalSpatial).dot? k.isReversed 2 k.ntk (some o1) (some o2) = .ok c ∧
      OptRel (fun a F => (a.shape = [] ∧ ∀ b p q, F b p q = a.get []) ∨
        Holds a [L.n1, L.n2] (C.outShape k.shape1 o1.shape) (C.outShape k.shape2 o2.shape) k.diagonalSpatial false F) c
        (L.ntk.map (C.covar k.shape1 k.shape2 o1.get o2.get)) ∧ ∀ a, c = some a → a.shape = [] → k.ntk = some a := by
    have h := hk.ntk
    cases hc : k.ntk with
    | none =>
      cases hl : L.ntk with
      | none => exact ⟨none, rfl, by simp [OptRel], fun a h => by simp at h⟩
      | some F => rw [hc, hl] at h; exact h.elim
    | some a =>
      cases hl : L.ntk with
      | none => rw [hc, hl] at h; exact h.elim
      | some F =>
        rw [hc, hl] at h
        rcases h with ⟨h1, h2⟩ | h
        · have hz := hf.scalar a hc h1
          refine ⟨some a, ?_, .inl ⟨h1, ?_⟩, fun a' e _ => e⟩
          · simp [Dims.dot?, Dims.dot, Arr.ndim, h1, Except.map]
          · intro b p q
            rw [hz]
            unfold Contraction.covar
            refine Finset.sum_eq_zero fun c _ => Finset.sum_eq_zero fun c' _ => ?_
            rw [h2, hz]
            ring
        · obtain ⟨y, h1, h2⟩ := h12 a F h
          refine ⟨some y, by simp [Dims.dot?, h1, Except.map], .inr h2, fun a' e hs => ?_⟩
          obtain rfl : y = a' := by simpa using e
          exact absurd hs (by rw [h2.shape]; simp)
  obtain ⟨c2, hc2, hc2h⟩ := hcov2
  obtain ⟨cn, hcn, hcnh, hcns⟩ := hntk
  have hchan : k.channelAxis ∉ (Dims.of C k.diagonalSpatial).inputDims := by
    have := hf.axes.chan
    rw [hca] at this
    exact this
  refine ⟨{ k with cov1 := c1, nngp := c12, cov2 := c2, ntk := cn, isReversed := false, batchAxis := after C k.batchAxis, channelAxis := after C k.channelAxis }, ?_, ⟨hc12h, ?_, hc2h, hcnh⟩, rfl, rfl, rfl, rfl, rfl, hcns⟩
  · unfold KernelDot.dotGeneral
    simp only [hno, ne_eq, not_true_eq_false, if_false]
    rw [← hno]
    simp only [← hD]
    rw [if_neg hchan]
    simp only [hc1, hc2, hc12, hcn, bind, Except.bind, pure, Except.pure]
    rw [← hCdef]
    rfl
  · rw [batchVals_shape, ← hn1] at hc1h
    exact hc1h

/-- `lax.dot_general` of inputs with the array is the contraction: with the batch and channel axes that the kernel records, entry
`(i, ch, P)` of the result is `Contraction.contract` of the channel. -/
theorem activations (C : Contraction) (hC : C.Ok) (x o : Arr ℝ) (hx : x.ndim = C.n) (hm : Match C x.shape o.shape) :
    ∃ y, (if C.isLhs then Arr.dotGeneral o x C.ocs C.cs C.obs C.bs else Arr.dotGeneral x o C.cs C.ocs C.bs C.obs) = .ok y ∧
      y.shape = actIdx (after C C.ba) (after C C.ca) (x.shape.getD C.ba 0) (x.shape.getD C.ca 0) (C.outShape x.shape o.shape) ∧
      ∀ i ch P, InRange P (C.outShape x.shape o.shape) → y.get (actIdx (after C C.ba) (after C C.ca) i ch P) =
        C.contract x.shape o.get (fun i p => x.get (actIdx C.ba C.ca i ch p)) i P := by
  obtain ⟨y, h1, h2, h3⟩ := dot_act hC x o rfl hx rfl hm
  exact ⟨y, h1, h2, fun i ch P hP => h3 i ch P (by simpa [Contraction.outShape] using hP.length_eq)⟩

section random
variable {E : Type} [NormedAddCommGroup E] [InnerProductSpace ℝ E] [CompleteSpace E] [MeasurableSpace E]

omit [NormedAddCommGroup E] [InnerProductSpace ℝ E] [CompleteSpace E] [MeasurableSpace E] in
lemma contract_tap (C : Contraction) (s : List ℕ) (o : List ℕ → ℝ) (f : ℕ → List ℕ → E → ℝ) (i : ℕ) (P : List ℕ) :
    (fun θ => C.contract s o (fun i p => f i p θ) i P) = tapSum (box (C.cs.map (s.getD · 0))) (fun c => o (C.otherIdx i P c))
      (fun c => some (C.inPos P c)) (f i) := by
  funext θ
  unfold Contraction.contract tapSum
  exact Finset.sum_congr rfl fun c _ => by simp [readTap, mul_comm]

/-- The covariances computed are the second moments (and expected gradient products) of the contractions of random activations, averaged
over the channels as before. -/
theorem kernel_exact (C : Contraction) (hC : C.Ok) (μ : Measure E) (N : ℕ) (s1 s2 t1 t2 : List ℕ) (o1 o2 : List ℕ → ℝ)
    (f1 f2 : ℕ → ℕ → List ℕ → E → ℝ) (L : Logical ℝ)
    (hS1 : L.S1 = (spatialAxes C.n C.ba C.ca).map (s1.getD · 0)) (hS2 : L.S2 = (spatialAxes C.n C.ba C.ca).map (s2.getD · 0))
    (hR : Regular μ N L.n1 L.n2 L.S1 L.S2 f1 f2) (hL : ChannelKernelOf μ N f1 f2 L) :
    ChannelKernelOf μ N (fun i ch P θ => C.contract s1 o1 (fun i p => f1 i ch p θ) i P)
      (fun i ch P θ => C.contract s2 o2 (fun i p => f2 i ch p θ) i P) (C.logical s1 s2 t1 t2 o1 o2 L) := by
  have avg : ∀ (s s' t t' : List ℕ) (o o' : List ℕ → ℝ) (i j : ℕ) (P Q : List ℕ) (F : List ℕ → List ℕ → List ℕ → ℝ)
      (κ : ℕ → List ℕ → List ℕ → ℝ) (S S' : List ℕ), S = (spatialAxes C.n C.ba C.ca).map (s.getD · 0) →
      S' = (spatialAxes C.n C.ba C.ca).map (s'.getD · 0) → InRange P (C.outShape s t) → InRange Q (C.outShape s' t') →
      (∀ p q, InRange p S → InRange q S' → F [i, j] p q = (∑ ch ∈ Finset.range N, κ ch p q) / N) →
      C.covar s s' o o' F [i, j] P Q = (∑ ch ∈ Finset.range N, ∑ c ∈ box (C.cs.map (s.getD · 0)), ∑ c' ∈ box (C.cs.map (s'.getD · 0)),
        o (C.otherIdx i P c) * o' (C.otherIdx j Q c') * read2 (κ ch) (some (C.inPos P c)) (some (C.inPos Q c'))) / N := by
    intro s s' t t' o o' i j P Q F κ S S' hS hS' hP hQ hF
    subst hS hS'
    unfold Contraction.covar
    rw [Finset.sum_comm (s := Finset.range N), Finset.sum_div]
    refine Finset.sum_congr rfl fun c hc => ?_
    rw [Finset.sum_comm (s := Finset.range N), Finset.sum_div]
    refine Finset.sum_congr rfl fun c' hc' => ?_
    rw [← Finset.mul_sum, mul_div_assoc]
    have := hF _ _ (inPos_inRange hC hP (mem_box.1 hc)) (inPos_inRange hC hQ (mem_box.1 hc'))
    simp only [read2]
    rw [← this]
    simp only [List.getD_cons_zero, List.getD_cons_succ]
    ring
  have r1 : ∀ {P c : List ℕ}, InRange P (C.outShape s1 t1) → c ∈ box (C.cs.map (s1.getD · 0)) → InRange (C.inPos P c) L.S1 := by
    intro P c hP hc; rw [hS1]; exact inPos_inRange hC hP (mem_box.1 hc)
  have r2 : ∀ {P c : List ℕ}, InRange P (C.outShape s2 t2) → c ∈ box (C.cs.map (s2.getD · 0)) → InRange (C.inPos P c) L.S2 := by
    intro P c hP hc; rw [hS2]; exact inPos_inRange hC hP (mem_box.1 hc)
  refine ⟨?_, ?_, ?_, ?_⟩
  · intro i j P Q hi hj hP hQ
    refine (avg s1 s2 t1 t2 o1 o2 i j P Q L.k12 _ L.S1 L.S2 hS1 hS2 hP hQ fun p q hp hq => hL.k12 i j p q hi hj hp hq).trans ?_
    congr 1
    refine Finset.sum_congr rfl fun ch hch => ?_
    rw [Finset.mem_range] at hch
    simp only [contract_tap C s1 o1 (fun i p θ => f1 i ch p θ), contract_tap C s2 o2 (fun i p θ => f2 i ch p θ)]
    refine ((tapSum_kernel μ _ _ _ _ _ _ (f1 i ch) (f2 j ch)).1 ?_ ?_).symm
    · rintro c hc p ⟨⟩; exact hR.sq1 i hi ch hch _ (r1 hP hc)
    · rintro c hc p ⟨⟩; exact hR.sq2 j hj ch hch _ (r2 hQ hc)
  · intro i j P Q hi hj hP hQ
    refine (avg s1 s1 t1 t1 o1 o1 i j P Q L.k11 _ L.S1 L.S1 hS1 hS1 hP hQ fun p q hp hq => hL.k11 i j p q hi hj hp hq).trans ?_
    congr 1
    refine Finset.sum_congr rfl fun ch hch => ?_
    rw [Finset.mem_range] at hch
    simp only [contract_tap C s1 o1 (fun i p θ => f1 i ch p θ)]
    refine ((tapSum_kernel μ _ _ _ _ _ _ (f1 i ch) (f1 j ch)).1 ?_ ?_).symm
    · rintro c hc p ⟨⟩; exact hR.sq1 i hi ch hch _ (r1 hP hc)
    · rintro c hc p ⟨⟩; exact hR.sq1 j hj ch hch _ (r1 hQ hc)
  · intro F hF i j P Q hi hj hP hQ
    obtain ⟨G, hG, rfl⟩ := Option.map_eq_some_iff.1 hF
    refine (avg s2 s2 t2 t2 o2 o2 i j P Q G _ L.S2 L.S2 hS2 hS2 hP hQ fun p q hp hq => hL.k22 G hG i j p q hi hj hp hq).trans ?_
    congr 1
    refine Finset.sum_congr rfl fun ch hch => ?_
    rw [Finset.mem_range] at hch
    simp only [contract_tap C s2 o2 (fun i p θ => f2 i ch p θ)]
    refine ((tapSum_kernel μ _ _ _ _ _ _ (f2 i ch) (f2 j ch)).1 ?_ ?_).symm
    · rintro c hc p ⟨⟩; exact hR.sq2 i hi ch hch _ (r2 hP hc)
    · rintro c hc p ⟨⟩; exact hR.sq2 j hj ch hch _ (r2 hQ hc)
  · intro F hF i j P Q hi hj hP hQ
    obtain ⟨G, hG, rfl⟩ := Option.map_eq_some_iff.1 hF
    refine (avg s1 s2 t1 t2 o1 o2 i j P Q G _ L.S1 L.S2 hS1 hS2 hP hQ fun p q hp hq => hL.ntk G hG i j p q hi hj hp hq).trans ?_
    congr 1
    refine Finset.sum_congr rfl fun ch hch => ?_
    rw [Finset.mem_range] at hch
    simp only [contract_tap C s1 o1 (fun i p θ => f1 i ch p θ), contract_tap C s2 o2 (fun i p θ => f2 i ch p θ)]
    refine ((tapSum_kernel μ _ _ _ _ _ _ (f1 i ch) (f2 j ch)).2 ?_ ?_ ?_).symm
    · rintro c hc p ⟨⟩; exact hR.diff1 i hi ch hch _ (r1 hP hc)
    · rintro c hc p ⟨⟩; exact hR.diff2 j hj ch hch _ (r2 hQ hc)
    · rintro c hc c' hc' p q ⟨⟩ ⟨⟩; exact hR.grad i hi j hj ch hch ch hch _ _ (r1 hP hc) (r2 hQ hc')

end random

/-- Without arrays the kernel is unchanged; arrays of different ranks and contraction of the channel axis are refused. -/
theorem other_calls (k : Kernel ℝ) (o1 o2 : Arr ℝ) (isLhs : Bool) (inputC otherC inputB otherB : List ℤ) :
    dotGeneral k none none isLhs inputC otherC inputB otherB = .ok k ∧
      (o1.ndim ≠ o2.ndim → dotGeneral k (some o1) (some o2) isLhs inputC otherC inputB otherB = .error .notImplemented) ∧
      (o1.ndim = o2.ndim → (∃ a ∈ inputB ++ inputC, a % (k.shape1.length : ℤ) = k.channelAxis) →
        dotGeneral k (some o1) (some o2) isLhs inputC otherC inputB otherB = .error .valueError) := by
  refine ⟨rfl, fun h => by simp [KernelDot.dotGeneral, h], fun h ha => ?_⟩
  unfold KernelDot.dotGeneral
  simp only [h, ne_eq, not_true_eq_false, if_false]
  rw [if_pos]
  obtain ⟨a, ha, e⟩ := ha
  unfold Dims.inputDims
  simp only [List.mem_append, List.mem_map] at ha ⊢
  rcases ha with h | h
  · exact .inl ⟨a, h, by rw [e]; simp⟩
  · exact .inr ⟨a, h, by rw [e]; simp⟩

/-! Concrete cases: contraction of the last spatial axis of inputs `(N, 2, 3, C)` with one axis of a `(3, 5)` array, in either order of the
spatial axes and on either side; and matching of the batch axis and a spatial axis of a spatially diagonal kernel. -/

/-- An array of the given shape with distinct entries. -/
def exO (sh : List ℕ) : Arr ℝ := ⟨sh, fun i => (Arr.ravel sh i : ℝ) + 1⟩

lemma exMatch {C : Contraction} {s t : List ℕ} (h1 : t.length = C.no)
    (h2 : ∀ j ∈ C.obs ++ C.ocs, t.getD j 0 = s.getD ((C.bs ++ C.cs).getD ((C.obs ++ C.ocs).idxOf j) 0) 0) : Match C s t := ⟨h1, h2⟩

example (a b : ℕ → ℕ → List ℕ → ℝ) (db rev isLhs : Bool) :
    ∃ k', KernelDot.dotGeneral ((lin1L 2 a b 2 1 [2, 3] [2, 3]).encode db false rev) (some (exO [3, 5])) (some (exO [3, 5])) isLhs [-2] [0] [] [] =
      .ok k' ∧ k'.nngp.shape = (if isLhs then [2, 1, 5, 5, 2, 2] else [2, 1, 2, 2, 5, 5]) ∧ k'.isReversed = false ∧
      k'.channelAxis = (if isLhs then 3 else 2) := by
  have hst := Logical.encode_stores (lin1L 2 a b 2 1 [2, 3] [2, 3]) db false rev (by simp) rfl
  obtain ⟨k', h1, h2, h3, h4, h5, h6, -⟩ := covariance_of_contraction_partial _ _ hst ⟨rfl, rfl, rfl, rfl, rfl⟩ (exO [3, 5]) (exO [3, 5]) rfl isLhs [-2] [0] [] []
    ⟨⟨by simp [ofArgs, Logical.encode, lin1L], by simp [ofArgs, Logical.encode, lin1L], by simp [ofArgs, Logical.encode, lin1L],
      by simp [ofArgs], by simp [ofArgs, Logical.encode, lin1L], by simp [ofArgs, Logical.encode, lin1L], by simp [ofArgs, Logical.encode, lin1L],
      by simp [ofArgs], by simp [ofArgs, exO, Arr.ndim], rfl, rfl⟩,
      exMatch rfl (by simp [ofArgs, Logical.encode, lin1L, exO]), exMatch rfl (by simp [ofArgs, Logical.encode, lin1L, exO]),
      by simp [Logical.encode], by simp [Logical.encode], fun _ => rfl, by
        intro x hx hsh
        simp only [Logical.encode, lin1L, Option.map_some, Option.some.injEq] at hx
        subst hx
        cases rev <;> simp [holdArr, pos, interleave] at hsh⟩
  refine ⟨k', h1, ?_, h3, ?_⟩
  · rw [h2.nngp.shape, h3]
    have e : k'.diagonalSpatial = false := congrArg (fun s => s.diagonalSpatial) h6
    rw [e]
    cases isLhs <;> rfl
  · rw [h5]
    cases isLhs <;> rfl

/-- Matching the batch axis and the first spatial axis of a spatially diagonal kernel with a `(2, 2)` array. -/
def exC (isLhs : Bool) : Contraction := ⟨4, 0, 3, 3, [], [0, 1], [], [1, 0], isLhs⟩

lemma exC_ok (isLhs : Bool) : (exC isLhs).Ok :=
  ⟨by simp [exC], by simp [exC], by simp [exC], by simp [exC], by simp [exC], by simp [exC], by simp [exC], by simp [exC], by simp [exC], rfl, rfl⟩

example (a : ℕ → ℕ → List ℕ → ℝ) (db : Bool) :
    ∃ k', KernelDot.dotGeneral ((lin1L 2 a a 2 2 [4, 3] [4, 3]).encode db true false) (some (exO [4, 2, 5])) (some (exO [4, 2, 5])) true
      [] [] [0, 1] [1, 0] = .ok k' ∧ k'.nngp.shape = [2, 2, 4, 5, 3] ∧ k'.batchAxis = 0 ∧ k'.channelAxis = 4 := by
  have hst := Logical.encode_stores (lin1L 2 a a 2 2 [4, 3] [4, 3]) db true false (by simp [lin1L]) rfl
  obtain ⟨k', h1, h2, h3, h4, h5, h6, -⟩ := covariance_of_contraction_partial _ _ hst ⟨rfl, rfl, rfl, rfl, rfl⟩ (exO [4, 2, 5]) (exO [4, 2, 5]) rfl true
    [] [] [0, 1] [1, 0]
    ⟨exC_ok true, exMatch rfl (by simp [ofArgs, Logical.encode, lin1L, exO, Arr.ndim]),
      exMatch rfl (by simp [ofArgs, Logical.encode, lin1L, exO, Arr.ndim]),
      by simp [ofArgs], fun _ => rfl, by simp [Logical.encode], by
        intro x hx hsh
        simp only [Logical.encode, lin1L, Option.map_some, Option.some.injEq] at hx
        subst hx
        simp [holdArr, pos] at hsh⟩
  refine ⟨k', h1, ?_, by rw [h4]; rfl, by rw [h5]; rfl⟩
  rw [h2.nngp.shape, h3]
  have e : k'.diagonalSpatial = true := congrArg (fun s => s.diagonalSpatial) h6
  rw [e]
  rfl

example (isLhs : Bool) : ∃ y, (if isLhs then Arr.dotGeneral (exO [4, 2, 5]) (exO [2, 4, 3, 7]) [] [] [1, 0] [0, 1]
      else Arr.dotGeneral (exO [2, 4, 3, 7]) (exO [4, 2, 5]) [] [] [0, 1] [1, 0]) = .ok y ∧
      y.shape = (if isLhs then [2, 4, 5, 3, 7] else [2, 4, 3, 7, 5]) := by
  obtain ⟨y, h1, h2, -⟩ := activations (exC isLhs) (exC_ok isLhs) (exO [2, 4, 3, 7]) (exO [4, 2, 5]) rfl (exMatch rfl (by simp [exC, exO]))
  refine ⟨y, h1, ?_⟩
  rw [h2]
  cases isLhs <;> rfl

example (a b : ℕ → ℕ → List ℕ → ℝ) (isLhs : Bool) : ∃ f1 f2 : ℕ → ℕ → List ℕ → ℝ → ℝ,
    ChannelKernelOf (ProbabilityTheory.gaussianReal 0 1) 7 f1 f2 ((exC isLhs).logical [2, 4, 3, 7] [2, 4, 3, 7] [4, 2, 5] [4, 2, 5]
      (exO [4, 2, 5]).get (exO [4, 2, 5]).get (lin1L 7 a b 2 2 [4, 3] [4, 3])) :=
  ⟨_, _, kernel_exact (exC isLhs) (exC_ok isLhs) _ 7 _ _ _ _ _ _ (lin1 a) (lin1 b) _ rfl rfl (lin1_regular 7 2 2 _ _ a b)
    (lin1_kernel 7 a b 2 2 [4, 3] [4, 3])⟩

example : KernelDot.dotGeneral ((lin1L 1 (fun _ _ _ => 0) (fun _ _ _ => 0) 1 1 [3] [3]).encode true true false) (some (exO [1])) (some (exO [1])) true
    [-1] [0] [] [] = .error .valueError :=
  (other_calls _ (exO [1]) (exO [1]) true [-1] [0] [] []).2.2 rfl ⟨-1, by simp, rfl⟩

end NT.C28
