import Verif.Lemmas.FanIn
import Verif.Spec.RandomFn
import Mathlib.Probability.Distributions.Gaussian.Real

/-!
# C38: `FanInSum` adds the covariances of its branches
-/

set_option linter.unusedSectionVars false

namespace NT.C38
open NT Arr Kernel Spec MeasureTheory

section content
variable {α : Type} [AddCommMonoid α] {m : ℕ}

/-- Entrywise sum of the contents of the branches (`hasCov2` / `hasNtk` say whether the branches have a
second covariance / a tangent kernel). -/
def sumL (hasCov2 hasNtk : Bool) (L : Fin (m + 1) → Logical α) : Logical α where
  n1 := (L 0).n1
  n2 := (L 0).n2
  S1 := (L 0).S1
  S2 := (L 0).S2
  k12 := fun b p q => ∑ r, (L r).k12 b p q
  k11 := fun b p q => ∑ r, (L r).k11 b p q
  k22 := if hasCov2 then some fun b p q => ∑ r, ((L r).k22.getD 0) b p q else none
  ntk := if hasNtk then some fun b p q => ∑ r, ((L r).ntk.getD 0) b p q else none

lemma matsSum_some {B S T : List ℕ} {diag rev : Bool} (hB : B ≠ []) (a : Fin (m + 1) → Arr α)
    (F : Fin (m + 1) → List ℕ → List ℕ → List ℕ → α)
    (h : ∀ r, HoldsS (a r) B S T diag rev (F r)) :
    ∃ c, matsSum (List.ofFn fun r => some (a r)) = .ok (some c) ∧
      HoldsS c B S T diag rev (fun b p q => ∑ r, F r b p q) ∧
      ((∀ r, Holds (a r) B S T diag rev (F r)) → Holds c B S T diag rev (fun b p q => ∑ r, F r b p q)) := by
  obtain ⟨c, h1, h2, h3⟩ := foldB_holdsS (op := (· + ·)) hB (List.ofFn fun r => (a r, F r)) (scalar 0)
    (fun _ _ _ => 0) (.inl ⟨rfl, fun _ _ _ => rfl⟩) (by
      intro x hx
      obtain ⟨r, rfl⟩ := List.mem_ofFn.1 hx
      exact h r)
  have e : (fun b p q => ((List.ofFn fun r => (a r, F r)).map fun x => x.2 b p q).foldl (· + ·) (0 : α)) =
      fun b p q => ∑ r, F r b p q := by
    funext b p q
    rw [List.map_ofFn]
    exact foldl_add_ofFn _
  rw [e] at h2 h3
  refine ⟨c, ?_, h2, fun h' => h3 (.inr ⟨(a 0, F 0), List.mem_ofFn.2 ⟨0, rfl⟩, h' 0⟩)⟩
  have e2 : (List.ofFn fun r => some (a r)) = (List.ofFn a).map some := by
    rw [List.map_ofFn]; rfl
  have e3 : ((List.ofFn fun r => (a r, F r)).map (·.1)) = List.ofFn a := by
    rw [List.map_ofFn]; rfl
  rw [e3] at h1
  have e4 : matsSum ((List.ofFn a).map some) =
      (foldB (· + ·) (scalar 0) (List.ofFn a)).map some := by
    have : List.ofFn a = a 0 :: List.ofFn (fun r : Fin m => a r.succ) := List.ofFn_succ
    rw [this]
    simp only [List.map_cons, matsSum]
    rw [← List.map_cons (f := some), allSome_map_some]
  rw [e2, e4, h1]
  rfl

lemma matsSum_none (o : Fin (m + 1) → Option (Arr α)) (h : ∀ r, o r = none) :
    matsSum (List.ofFn o) = .ok none := by
  rw [List.ofFn_succ, h 0]
  rfl

/-- `FanInSum` of any number of branches with the same layout and shapes, whatever the order of their
spatial axes, returns a kernel whose content is the entrywise sum of the contents of the branches. -/
theorem sum_content (k : Fin (m + 1) → Kernel α) (L : Fin (m + 1) → Logical α) (h : Combinable k L)
    (hasCov2 hasNtk : Bool) (h2 : ∀ r, (L r).k22.isSome = hasCov2) (hn : ∀ r, (L r).ntk.isSome = hasNtk)
    (hs : ∀ r, (k r).shape1 = (k 0).shape1 ∧ (k r).shape2 = (k 0).shape2)
    (hg : (∀ r, (k r).isGaussian = true) ∨ m = 0) :
    ∃ k', fanInSum (List.ofFn k) = .ok k' ∧ k'.Stores (sumL hasCov2 hasNtk L) ∧
      k'.diagonalBatch = (k 0).diagonalBatch ∧ k'.diagonalSpatial = (k 0).diagonalSpatial ∧
      k'.batchAxis = (k 0).batchAxis ∧ k'.channelAxis = (k 0).channelAxis ∧
      k'.shape1 = (k 0).shape1 ∧ k'.shape2 = (k 0).shape2 ∧
      (k'.isGaussian = true ↔ ∀ r, (k r).isGaussian = true) := by
  obtain ⟨k', rev, hp, hk'⟩ := preprocess_ok h
  have hds : ∀ r, (k' r).diagonalSpatial = (k 0).diagonalSpatial := fun r => by
    rw [(hk' r).2.2.2.1, h.diagonalSpatial]
  have hdb : ∀ r, (k' r).diagonalBatch = (k 0).diagonalBatch := fun r => by
    rw [(hk' r).2.2.1, h.diagonalBatch]
  have hB : ∀ n : ℕ, batchShape (k 0).diagonalBatch n ≠ [] := by
    intro n
    unfold batchShape
    split <;> simp
  -- covariances
  have s1 : ∀ r, Holds (k' r).nngp [(L 0).n1, (L 0).n2] (L 0).S1 (L 0).S2 (k 0).diagonalSpatial rev
      (L r).k12 := fun r => by
    have := (hk' r).1.nngp
    rwa [(h.sizes r).1, (h.sizes r).2.1, (h.sizes r).2.2.1, (h.sizes r).2.2.2, hds, (hk' r).2.1] at this
  have s2 : ∀ r, Holds (k' r).cov1 (batchShape (k 0).diagonalBatch (L 0).n1) (L 0).S1 (L 0).S1
      (k 0).diagonalSpatial rev (fun b => (L r).k11 (dbl b)) := fun r => by
    have := (hk' r).1.cov1
    rwa [(h.sizes r).1, (h.sizes r).2.2.1, hds, hdb, (hk' r).2.1] at this
  obtain ⟨c1, e1, -, t1⟩ := matsSum_some (hB _) _ _ (fun r => .inr (s2 r))
  obtain ⟨c2, e2, -, t2⟩ := matsSum_some (by simp) _ _ (fun r => .inr (s1 r))
  have e3 : ∃ o, matsSum (List.ofFn fun r => (k' r).cov2) = .ok o ∧
      OptRel (fun c F => Holds c (batchShape (k 0).diagonalBatch (L 0).n2) (L 0).S2 (L 0).S2
        (k 0).diagonalSpatial rev (fun b => F (dbl b))) o (sumL hasCov2 hasNtk L).k22 := by
    cases hasCov2 with
    | false =>
      refine ⟨none, matsSum_none _ fun r => ?_, by simp [sumL, OptRel]⟩
      have := (hk' r).1.cov2
      rw [Option.isSome_eq_false_iff.1 (h2 r) |> Option.isNone_iff_eq_none.1] at this
      exact optRel_none this
    | true =>
      choose F hF using fun r => Option.isSome_iff_exists.1 (h2 r)
      have hc : ∀ r, ∃ c, (k' r).cov2 = some c ∧ Holds c (batchShape (k 0).diagonalBatch (L 0).n2)
          (L 0).S2 (L 0).S2 (k 0).diagonalSpatial rev (fun b => F r (dbl b)) := by
        intro r
        have := (hk' r).1.cov2
        rw [hF r] at this
        obtain ⟨c, hc1, hc2⟩ := optRel_some this
        refine ⟨c, hc1, ?_⟩
        rwa [(h.sizes r).2.1, (h.sizes r).2.2.2, hds, hdb, (hk' r).2.1] at hc2
      choose c hc1 hc2 using hc
      obtain ⟨c3, e3, -, t3⟩ := matsSum_some (hB _) c _ (fun r => .inr (hc2 r))
      refine ⟨some c3, ?_, ?_⟩
      · simp only [hc1]
        exact e3
      · have := t3 hc2
        simpa [sumL, OptRel, hF] using this
  have e4 : ∃ o, matsSum (List.ofFn fun r => (k' r).ntk) = .ok o ∧
      OptRel (fun a F => (a.shape = [] ∧ ∀ b p q, F b p q = a.get []) ∨
        Holds a [(L 0).n1, (L 0).n2] (L 0).S1 (L 0).S2 (k 0).diagonalSpatial rev F) o
        (sumL hasCov2 hasNtk L).ntk := by
    cases hasNtk with
    | false =>
      refine ⟨none, matsSum_none _ fun r => ?_, by simp [sumL, OptRel]⟩
      have := (hk' r).1.ntk
      rw [Option.isSome_eq_false_iff.1 (hn r) |> Option.isNone_iff_eq_none.1] at this
      exact optRel_none this
    | true =>
      choose F hF using fun r => Option.isSome_iff_exists.1 (hn r)
      have hc : ∀ r, ∃ c, (k' r).ntk = some c ∧ HoldsS c [(L 0).n1, (L 0).n2] (L 0).S1 (L 0).S2
          (k 0).diagonalSpatial rev (F r) := by
        intro r
        have := (hk' r).1.ntk
        rw [hF r] at this
        obtain ⟨c, hc1, hc2⟩ := optRel_some this
        refine ⟨c, hc1, ?_⟩
        rwa [(h.sizes r).1, (h.sizes r).2.1, (h.sizes r).2.2.1, (h.sizes r).2.2.2, hds, (hk' r).2.1] at hc2
      choose c hc1 hc2 using hc
      obtain ⟨c3, e3, t3, -⟩ := matsSum_some (by simp) c F hc2
      refine ⟨some c3, ?_, ?_⟩
      · simp only [hc1]
        exact e3
      · have : (sumL hasCov2 true L).ntk = some fun b p q => ∑ r, F r b p q := by
          simp [sumL, hF]
        rw [this]
        exact t3
  obtain ⟨o3, e3, t3⟩ := e3
  obtain ⟨o4, e4, t4⟩ := e4
  have hgauss : (List.ofFn k').all (·.isGaussian) = true ↔ ∀ r, (k r).isGaussian = true := by
    rw [List.all_eq_true]
    constructor
    · intro hx r
      have := hx (k' r) (List.mem_ofFn.2 ⟨r, rfl⟩)
      rwa [(hk' r).2.2.2.2.2.2.2.2.1] at this
    · intro hx x hx'
      obtain ⟨r, rfl⟩ := List.mem_ofFn.1 hx'
      rw [(hk' r).2.2.2.2.2.2.2.2.1]
      exact hx r
  refine ⟨fanInResult (k 0) rev ((List.ofFn k').all (·.isGaussian)) c2 c1 o3 o4, ?_, ?_, rfl, rfl, rfl,
    rfl, rfl, rfl, hgauss⟩
  · rw [List.ofFn_succ]
    unfold fanInSum
    simp only [hp]
    rw [if_neg, if_neg]
    · simp only [List.map_ofFn, Function.comp_def, e1, e2, e3, e4]
    · simp only [List.length_ofFn, Bool.and_eq_true, Bool.not_eq_true', bne_iff_ne, ne_eq, not_and,
        not_not]
      intro hx
      rcases hg with hg | hg
      · rw [hgauss.2 hg] at hx
        cases hx
      · omega
    · rw [not_not]
      intro x hx
      obtain ⟨r, rfl⟩ := List.mem_ofFn.1 hx
      exact hs _
  · exact ⟨t2 s1, t1 s2, t3, t4⟩

/-- The order of the branches does not matter: both results store the same content. -/
theorem sum_perm (σ : Equiv.Perm (Fin (m + 1))) (k : Fin (m + 1) → Kernel α)
    (L : Fin (m + 1) → Logical α) (h : Combinable k L)
    (hasCov2 hasNtk : Bool) (h2 : ∀ r, (L r).k22.isSome = hasCov2) (hn : ∀ r, (L r).ntk.isSome = hasNtk)
    (hs : ∀ r, (k r).shape1 = (k 0).shape1 ∧ (k r).shape2 = (k 0).shape2)
    (hg : (∀ r, (k r).isGaussian = true) ∨ m = 0) :
    ∃ k' k'', fanInSum (List.ofFn k) = .ok k' ∧ fanInSum (List.ofFn (k ∘ σ)) = .ok k'' ∧
      k'.Stores (sumL hasCov2 hasNtk L) ∧ k''.Stores (sumL hasCov2 hasNtk L) := by
  obtain ⟨k', e1, e2, -⟩ := sum_content k L h hasCov2 hasNtk h2 hn hs hg
  have h' : Combinable (k ∘ σ) (L ∘ σ) := by
    refine ⟨fun r => h.stores _, fun r => ?_, fun r => ?_, fun r => ?_, fun r => ?_, fun hd r => ?_,
      fun r => ?_⟩
    · exact (h.diagonalBatch _).trans (h.diagonalBatch _).symm
    · exact (h.diagonalSpatial _).trans (h.diagonalSpatial _).symm
    · exact (h.batchAxis _).trans (h.batchAxis _).symm
    · exact (h.channelAxis _).trans (h.channelAxis _).symm
    · refine h.notReversed ?_ _
      rw [← h.diagonalSpatial (σ 0)]
      exact hd
    · obtain ⟨a1, a2, a3, a4⟩ := h.sizes (σ r)
      obtain ⟨b1, b2, b3, b4⟩ := h.sizes (σ 0)
      exact ⟨a1.trans b1.symm, a2.trans b2.symm, a3.trans b3.symm, a4.trans b4.symm⟩
  obtain ⟨k'', g1, g2, -⟩ := sum_content (k ∘ σ) (L ∘ σ) h' hasCov2 hasNtk (fun r => h2 _)
    (fun r => hn _) (fun r => ⟨(hs _).1.trans (hs _).1.symm, (hs _).2.trans (hs _).2.symm⟩)
    (hg.imp (fun hx r => hx _) id)
  refine ⟨k', k'', e1, g1, e2, ?_⟩
  have : sumL hasCov2 hasNtk (L ∘ σ) = sumL hasCov2 hasNtk L := by
    obtain ⟨b1, b2, b3, b4⟩ := h.sizes (σ 0)
    simp only [sumL, Function.comp, b1, b2, b3, b4]
    congr 1
    · funext b p q
      exact Equiv.sum_comp σ fun r => (L r).k12 b p q
    · funext b p q
      exact Equiv.sum_comp σ fun r => (L r).k11 b p q
    · congr 1
      congr 1
      funext b p q
      exact Equiv.sum_comp σ fun r => ((L r).k22.getD 0) b p q
    · congr 1
      congr 1
      funext b p q
      exact Equiv.sum_comp σ fun r => ((L r).ntk.getD 0) b p q
  rw [← this]
  exact g2

/-- Branches in different layouts or with different batch or channel axes are rejected. -/
theorem layout_rejected (k0 : Kernel α) (ks : List (Kernel α)) (k : Kernel α) (hk : k ∈ ks)
    (h : k.diagonalBatch ≠ k0.diagonalBatch ∨ k.diagonalSpatial ≠ k0.diagonalSpatial ∨
      k.batchAxis ≠ k0.batchAxis ∨ k.channelAxis ≠ k0.channelAxis) :
    fanInSum (k0 :: ks) = .error .notImplemented := by
  have : ¬ ∀ k ∈ ks, k.diagonalBatch = k0.diagonalBatch ∧ k.diagonalSpatial = k0.diagonalSpatial ∧
      k.batchAxis = k0.batchAxis ∧ k.channelAxis = k0.channelAxis := by
    intro hx
    obtain ⟨h1, h2, h3, h4⟩ := hx k hk
    rcases h with h | h | h | h
    · exact h h1
    · exact h h2
    · exact h h3
    · exact h h4
  simp only [fanInSum, preprocessFanIn, if_neg this]

/-- Branches of different shapes are rejected. -/
theorem shapes_rejected (k : Fin (m + 1) → Kernel α) (L : Fin (m + 1) → Logical α) (h : Combinable k L)
    (r : Fin (m + 1)) (hr : (k r).shape1 ≠ (k 0).shape1 ∨ (k r).shape2 ≠ (k 0).shape2) :
    fanInSum (List.ofFn k) = .error .valueError := by
  obtain ⟨k', rev, hp, -⟩ := preprocess_ok h
  rw [List.ofFn_succ]
  unfold fanInSum
  simp only [hp]
  rw [if_pos]
  intro hx
  rcases Fin.eq_zero_or_eq_succ r with rfl | ⟨s, rfl⟩
  · simp at hr
  · obtain ⟨h1, h2⟩ := hx (k s.succ) (List.mem_ofFn.2 ⟨s, rfl⟩)
    rcases hr with hr | hr
    · exact hr h1
    · exact hr h2

/-- Two or more branches of which one is not Gaussian are rejected: the covariances of the branches would
not determine that of the sum. -/
theorem not_gaussian_rejected (k : Fin (m + 1) → Kernel α) (L : Fin (m + 1) → Logical α)
    (h : Combinable k L) (hs : ∀ r, (k r).shape1 = (k 0).shape1 ∧ (k r).shape2 = (k 0).shape2)
    (hm : m ≠ 0) (r : Fin (m + 1)) (hr : (k r).isGaussian = false) :
    fanInSum (List.ofFn k) = .error .notImplemented := by
  obtain ⟨k', rev, hp, hk'⟩ := preprocess_ok h
  rw [List.ofFn_succ]
  unfold fanInSum
  simp only [hp]
  rw [if_neg, if_pos]
  · have : (List.ofFn k').all (·.isGaussian) = false := by
      rw [List.all_eq_false]
      refine ⟨k' r, List.mem_ofFn.2 ⟨r, rfl⟩, ?_⟩
      rw [(hk' r).2.2.2.2.2.2.2.2.1, hr]
      simp
    rw [this]
    simpa using hm
  · rw [not_not]
    intro x hx
    obtain ⟨r, rfl⟩ := List.mem_ofFn.1 hx
    exact hs _

end content

/-! ## The random function -/

variable {E : Type} [NormedAddCommGroup E] [InnerProductSpace ℝ E] [CompleteSpace E]
  [MeasurableSpace E] {m : ℕ}

lemma secondMoment_sum (μ : Measure E) (f g : Fin m → E → ℝ)
    (hi : ∀ r s, Integrable (fun θ => f r θ * g s θ) μ)
    (hc : ∀ r s, r ≠ s → secondMoment μ (f r) (g s) = 0) :
    secondMoment μ (fun θ => ∑ r, f r θ) (fun θ => ∑ r, g r θ) = ∑ r, secondMoment μ (f r) (g r) := by
  unfold secondMoment
  simp only [Finset.sum_mul_sum]
  rw [integral_finsetSum _ fun r _ => integrable_finsetSum _ fun s _ => hi r s]
  refine Finset.sum_congr rfl fun r _ => ?_
  rw [integral_finsetSum _ fun s _ => hi r s]
  rw [Finset.sum_eq_single r]
  · intro s _ hs
    exact hc r s hs.symm
  · simp

lemma gradient_sum (f : Fin m → E → ℝ) (hf : ∀ r, Differentiable ℝ (f r)) (θ : E) :
    gradient (fun x => ∑ r, f r x) θ = ∑ r, gradient (f r) θ := by
  unfold gradient
  rw [fderiv_fun_sum fun r _ => hf r θ, map_sum]

lemma tangent_sum (μ : Measure E) (f g : Fin m → E → ℝ) (hf : ∀ r, Differentiable ℝ (f r))
    (hg : ∀ r, Differentiable ℝ (g r))
    (hi : ∀ r s, Integrable (fun θ => inner ℝ (gradient (f r) θ) (gradient (g s) θ)) μ)
    (hc : ∀ r s, r ≠ s → tangent μ (f r) (g s) = 0) :
    tangent μ (fun θ => ∑ r, f r θ) (fun θ => ∑ r, g r θ) = ∑ r, tangent μ (f r) (g r) := by
  unfold tangent
  simp only [gradient_sum f hf, gradient_sum g hg, sum_inner, inner_sum]
  rw [integral_finsetSum _ fun r _ => integrable_finsetSum _ fun s _ => hi s r]
  refine Finset.sum_congr rfl fun r _ => ?_
  rw [integral_finsetSum _ fun s _ => hi s r]
  rw [Finset.sum_eq_single r]
  · intro s _ hs
    exact hc s r hs
  · simp

/-- The functions computed by the branches are square integrable with their gradients, and different
branches are uncorrelated: so are their values and their gradients (this is the case for branches with
independent parameters and zero mean). -/
structure Uncorrelated (μ : Measure E) (f g : Fin m → E → ℝ) : Prop where
  diff1 : ∀ r, Differentiable ℝ (f r)
  diff2 : ∀ r, Differentiable ℝ (g r)
  int : ∀ r s, Integrable (fun θ => f r θ * g s θ) μ
  intG : ∀ r s, Integrable (fun θ => inner ℝ (gradient (f r) θ) (gradient (g s) θ)) μ
  values : ∀ r s, r ≠ s → secondMoment μ (f r) (g s) = 0
  gradients : ∀ r s, r ≠ s → tangent μ (f r) (g s) = 0

/-- `FanInSum` of the kernels of uncorrelated branches is the kernel of the sum of the branches. -/
theorem sum_of_functions (μ : Measure E) (k : Fin (m + 1) → Kernel ℝ) (L : Fin (m + 1) → Logical ℝ)
    (h : Combinable k L)
    (hasCov2 hasNtk : Bool) (h2 : ∀ r, (L r).k22.isSome = hasCov2) (hn : ∀ r, (L r).ntk.isSome = hasNtk)
    (hs : ∀ r, (k r).shape1 = (k 0).shape1 ∧ (k r).shape2 = (k 0).shape2)
    (hg : (∀ r, (k r).isGaussian = true) ∨ m = 0)
    (f1 f2 : Fin (m + 1) → ℕ → List ℕ → E → ℝ) (hf : ∀ r, KernelOf μ (f1 r) (f2 r) (L r))
    (h12 : ∀ i j p q, Uncorrelated μ (fun r => f1 r i p) (fun r => f2 r j q))
    (h11 : ∀ i j p q, Uncorrelated μ (fun r => f1 r i p) (fun r => f1 r j q))
    (h22 : ∀ i j p q, Uncorrelated μ (fun r => f2 r i p) (fun r => f2 r j q)) :
    ∃ k' L', fanInSum (List.ofFn k) = .ok k' ∧ k'.Stores L' ∧
      KernelOf μ (fun i p θ => ∑ r, f1 r i p θ) (fun i p θ => ∑ r, f2 r i p θ) L' ∧
      (L'.n1, L'.n2, L'.S1, L'.S2) = ((L 0).n1, (L 0).n2, (L 0).S1, (L 0).S2) ∧
      L'.k22.isSome = hasCov2 ∧ L'.ntk.isSome = hasNtk := by
  obtain ⟨k', e1, e2, -⟩ := sum_content k L h hasCov2 hasNtk h2 hn hs hg
  refine ⟨k', _, e1, e2, ⟨?_, ?_, ?_, ?_⟩, rfl, ?_, ?_⟩
  · intro i j p q hi hj hp hq
    have hu := h12 i j p q
    change ∑ r, (L r).k12 [i, j] p q = _
    rw [secondMoment_sum μ _ _ hu.int hu.values]
    refine Finset.sum_congr rfl fun r _ => ?_
    obtain ⟨z1, z2, z3, z4⟩ := h.sizes r
    exact (hf r).k12 i j p q (by rw [z1]; exact hi) (by rw [z2]; exact hj) (by rw [z3]; exact hp)
      (by rw [z4]; exact hq)
  · intro i j p q hi hj hp hq
    have hu := h11 i j p q
    change ∑ r, (L r).k11 [i, j] p q = _
    rw [secondMoment_sum μ _ _ hu.int hu.values]
    refine Finset.sum_congr rfl fun r _ => ?_
    obtain ⟨z1, z2, z3, z4⟩ := h.sizes r
    exact (hf r).k11 i j p q (by rw [z1]; exact hi) (by rw [z1]; exact hj) (by rw [z3]; exact hp)
      (by rw [z3]; exact hq)
  · intro F hF i j p q hi hj hp hq
    cases hasCov2 with
    | false => simp [sumL] at hF
    | true =>
      simp only [sumL, if_true, Option.some.injEq] at hF
      subst hF
      have hu := h22 i j p q
      rw [secondMoment_sum μ _ _ hu.int hu.values]
      refine Finset.sum_congr rfl fun r _ => ?_
      obtain ⟨z1, z2, z3, z4⟩ := h.sizes r
      obtain ⟨G, hG⟩ := Option.isSome_iff_exists.1 (h2 r)
      rw [hG]
      exact (hf r).k22 G hG i j p q (by rw [z2]; exact hi) (by rw [z2]; exact hj) (by rw [z4]; exact hp)
        (by rw [z4]; exact hq)
  · intro F hF i j p q hi hj hp hq
    cases hasNtk with
    | false => simp [sumL] at hF
    | true =>
      simp only [sumL, if_true, Option.some.injEq] at hF
      subst hF
      have hu := h12 i j p q
      rw [tangent_sum μ _ _ hu.diff1 hu.diff2 hu.intG hu.gradients]
      refine Finset.sum_congr rfl fun r _ => ?_
      obtain ⟨z1, z2, z3, z4⟩ := h.sizes r
      obtain ⟨G, hG⟩ := Option.isSome_iff_exists.1 (hn r)
      rw [hG]
      exact (hf r).ntk G hG i j p q (by rw [z1]; exact hi) (by rw [z2]; exact hj) (by rw [z3]; exact hp)
        (by rw [z4]; exact hq)
  · cases hasCov2 <;> simp [sumL]
  · cases hasNtk <;> simp [sumL]

/-! ## Examples -/

section Examples
open ProbabilityTheory

/-- Two kernels over positions in a 2 x 3 grid, one with its spatial axes in reversed order. -/
def exK : Fin 2 → Kernel ℤ := fun r =>
  { (Logical.encode ⟨1, 1, [2, 3], [2, 3], fun _ p q => (r : ℤ) + (p.getD 0 0) + 10 * q.getD 1 0,
      fun _ _ _ => 1, none, none⟩ true false (r = 1)) with isGaussian := true }

/-- The first branch stores the grid in the order of the axes, the second in reversed order. -/
example : ∃ k' L', fanInSum [exK 0, exK 1] = .ok k' ∧ k'.Stores L' ∧ (exK 0).isReversed = false ∧
    (exK 1).isReversed = true ∧ L'.k12 [0, 0] [1, 0] [0, 2] = 43 := by
  obtain ⟨k', h1, h2, -⟩ := sum_content exK (fun r => ⟨1, 1, [2, 3], [2, 3],
      fun _ p q => (r : ℤ) + (p.getD 0 0) + 10 * q.getD 1 0, fun _ _ _ => 1, none, none⟩)
    ⟨fun r => ⟨(Logical.encode_stores _ true _ _ (by simp) rfl).nngp,
        (Logical.encode_stores _ true _ _ (by simp) rfl).cov1, trivial, trivial⟩,
      fun r => rfl, fun r => rfl, fun r => rfl, fun r => rfl, by simp [exK, Logical.encode],
      fun r => ⟨rfl, rfl, rfl, rfl⟩⟩
    false false (fun _ => rfl) (fun _ => rfl) (fun _ => ⟨rfl, rfl⟩) (.inl fun _ => rfl)
  exact ⟨k', _, h1, h2, rfl, rfl, by simp [sumL, Fin.sum_univ_succ]⟩

/-- The branches `θ x` with `θ` standard normal and `1`. -/
noncomputable def exF : Fin 2 → ℕ → List ℕ → ℝ → ℝ := fun r i _ θ => if r = 0 then (i + 1) * θ else 1

lemma exF_zero (i : ℕ) (p : List ℕ) : exF 0 i p = fun θ => ((i : ℝ) + 1) * θ := by
  ext; simp [exF]

lemma exF_one (i : ℕ) (p : List ℕ) : exF 1 i p = fun _ => (1 : ℝ) := by
  ext; simp [exF]

lemma exF_gradient (r : Fin 2) (i : ℕ) (p : List ℕ) (θ : ℝ) :
    gradient (exF r i p) θ = if r = 0 then (i : ℝ) + 1 else 0 := by
  fin_cases r
  · have : HasDerivAt (fun θ : ℝ => ((i : ℝ) + 1) * θ) ((i : ℝ) + 1) θ := by
      simpa using (hasDerivAt_id' θ).const_mul ((i : ℝ) + 1)
    change gradient (exF 0 i p) θ = _
    rw [exF_zero]
    exact this.hasGradientAt'.gradient
  · have : HasDerivAt (fun _ : ℝ => (1 : ℝ)) 0 θ := hasDerivAt_const _ _
    change gradient (exF 1 i p) θ = _
    rw [exF_one]
    exact this.hasGradientAt'.gradient

lemma exF_diff (r : Fin 2) (i : ℕ) (p : List ℕ) : Differentiable ℝ (exF r i p) := by
  fin_cases r
  · change Differentiable ℝ (exF 0 i p)
    rw [exF_zero]
    fun_prop
  · change Differentiable ℝ (exF 1 i p)
    rw [exF_one]
    fun_prop

lemma exF_memLp (r : Fin 2) (i : ℕ) (p : List ℕ) : MemLp (exF r i p) 2 (gaussianReal 0 1) := by
  fin_cases r
  · change MemLp (exF 0 i p) 2 _
    rw [exF_zero]
    exact (memLp_id_gaussianReal 2).const_mul ((i : ℝ) + 1)
  · change MemLp (exF 1 i p) 2 _
    rw [exF_one]
    exact memLp_const (1 : ℝ)

lemma exF_uncorrelated (i j : ℕ) (p q : List ℕ) :
    Uncorrelated (gaussianReal 0 1) (fun r => exF r i p) (fun r => exF r j q) := by
  have h0 : ∀ i : ℕ, ∫ θ : ℝ, ((i : ℝ) + 1) * θ ∂(gaussianReal 0 1) = 0 := by
    intro i
    rw [integral_const_mul]
    simp
  refine ⟨fun r => exF_diff r i p, fun r => exF_diff r j q,
    fun r s => (exF_memLp r i p).integrable_mul (exF_memLp s j q), fun r s => ?_, ?_, ?_⟩
  · simp only [exF_gradient]
    exact integrable_const _
  · intro r s hrs
    fin_cases r <;> fin_cases s <;> simp at hrs <;>
      simp [secondMoment, exF_zero, exF_one, h0]
  · intro r s hrs
    fin_cases r <;> fin_cases s <;> simp at hrs <;>
      simp [tangent, exF_gradient]

/-- The hypotheses of `sum_of_functions` are met by these branches. -/
example : ∀ i j p q, Uncorrelated (gaussianReal 0 1) (fun r => exF r i p) (fun r => exF r j q) :=
  exF_uncorrelated

end Examples

end NT.C38
