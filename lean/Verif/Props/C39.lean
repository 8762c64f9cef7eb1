import Verif.Lemmas.FanIn
import Verif.Spec.RandomFn
import Mathlib.Probability.Independence.Integration
import Mathlib.Analysis.Calculus.FDeriv.Mul
import Mathlib.Probability.Distributions.Gaussian.Real
import Mathlib.Analysis.InnerProductSpace.PiL2

/-!
# C39: `FanInProd` multiplies covariances and obeys the product rule
-/

set_option linter.unusedSectionVars false

namespace NT.C39
open NT Arr Kernel Spec MeasureTheory ProbabilityTheory

section content
variable {α : Type} [CommSemiring α] {m : ℕ}

/-- The content of a product of branches: covariances multiply, and the tangent kernel is the sum over the
branches of the tangent kernel of that branch times the covariances of all others. -/
def prodL (hasCov2 hasNtk : Bool) (L : Fin (m + 1) → Logical α) : Logical α where
  n1 := (L 0).n1
  n2 := (L 0).n2
  S1 := (L 0).S1
  S2 := (L 0).S2
  k12 := fun b p q => ∏ r, (L r).k12 b p q
  k11 := fun b p q => ∏ r, (L r).k11 b p q
  k22 := if hasCov2 then some fun b p q => ∏ r, ((L r).k22.getD 0) b p q else none
  ntk := if hasNtk then
    some fun b p q => ∑ r, ((L r).ntk.getD 0) b p q * ∏ s ∈ Finset.univ.erase r, (L s).k12 b p q
    else none

lemma prod_erase (K : Fin m → α) (r : Fin m) :
    ∏ s ∈ Finset.univ.erase r, K s = ∏ s, if s = r then 1 else K s := by
  rw [← Finset.prod_erase Finset.univ (f := fun s => if s = r then 1 else K s) (a := r) (by simp)]
  refine Finset.prod_congr rfl fun s hs => ?_
  rw [if_neg (Finset.ne_of_mem_erase hs)]

lemma leibniz_succ (K N : Fin (m + 1) → α) :
    ∑ r, N r * ∏ s ∈ Finset.univ.erase r, K s =
      N 0 * (∏ s : Fin m, K s.succ) +
        K 0 * ∑ r : Fin m, N r.succ * ∏ s ∈ Finset.univ.erase r, K s.succ := by
  simp only [prod_erase]
  rw [Fin.sum_univ_succ, Fin.prod_univ_succ, Finset.mul_sum]
  congr 1
  · simp [Fin.succ_ne_zero]
  · refine Finset.sum_congr rfl fun r _ => ?_
    rw [Fin.prod_univ_succ]
    simp only [Fin.succ_inj, if_neg (Fin.succ_ne_zero r).symm]
    ring

lemma loop_holdsS {B S T : List ℕ} {diag rev : Bool} (hB : B ≠ [])
    (k n : Fin m → Arr α) (K N : Fin m → List ℕ → List ℕ → List ℕ → α)
    (hk : ∀ r, Holds (k r) B S T diag rev (K r)) (hn : ∀ r, HoldsS (n r) B S T diag rev (N r))
    (c d : Arr α) (C D : List ℕ → List ℕ → List ℕ → α) (hc : HoldsS c B S T diag rev C)
    (hd : HoldsS d B S T diag rev D) :
    ∃ c' d', matsProdLoop ((List.ofFn k).zip (List.ofFn n)) (c, d) = .ok (c', d') ∧
      HoldsS c' B S T diag rev (fun b p q => C b p q * ∏ r, K r b p q) ∧
      (m ≠ 0 ∨ Holds c B S T diag rev C →
        Holds c' B S T diag rev (fun b p q => C b p q * ∏ r, K r b p q)) ∧
      HoldsS d' B S T diag rev (fun b p q => D b p q * (∏ r, K r b p q) +
        C b p q * ∑ r, N r b p q * ∏ s ∈ Finset.univ.erase r, K s b p q) := by
  induction m generalizing c d C D with
  | zero =>
    refine ⟨c, d, by simp [matsProdLoop], ?_, ?_, ?_⟩
    · simpa using hc
    · intro h
      rcases h with h | h
      · exact absurd rfl h
      · simpa using h
    · simpa using hd
  | succ m ih =>
    obtain ⟨a, a1, a2, -⟩ := zipB_holdsS (op := (· * ·)) hB hd (.inr (hk 0))
    obtain ⟨b, b1, b2, -⟩ := zipB_holdsS (op := (· * ·)) hB hc (hn 0)
    obtain ⟨e, e1, e2, e3⟩ := zipB_holdsS (op := (· * ·)) hB hc (.inr (hk 0))
    obtain ⟨f, f1, f2, -⟩ := zipB_holdsS (op := (· + ·)) hB a2 b2
    obtain ⟨c', d', h1, h2, h3, h4⟩ := ih (fun r => k r.succ) (fun r => n r.succ) (fun r => K r.succ)
      (fun r => N r.succ) (fun r => hk _) (fun r => hn _) e f _ _ e2 f2
    refine ⟨c', d', ?_, ?_, ?_, ?_⟩
    · rw [List.ofFn_succ, List.ofFn_succ]
      simp only [List.zip_cons_cons, matsProdLoop, a1, b1, e1, f1, h1]
    · refine Eq.mp (congrArg _ ?_) h2
      funext b p q
      rw [Fin.prod_univ_succ, mul_assoc]
    · intro _
      refine Eq.mp (congrArg _ ?_) (h3 (.inr (e3 (.inr (hk 0)))))
      funext b p q
      rw [Fin.prod_univ_succ, mul_assoc]
    · refine Eq.mp (congrArg _ ?_) h4
      funext b p q
      rw [leibniz_succ (fun r => K r b p q) (fun r => N r b p q), Fin.prod_univ_succ]
      ring

lemma reduceMul_holds {B S T : List ℕ} {diag rev : Bool} (hB : B ≠ []) (a : Fin (m + 1) → Arr α)
    (F : Fin (m + 1) → List ℕ → List ℕ → List ℕ → α) (h : ∀ r, Holds (a r) B S T diag rev (F r)) :
    ∃ c, reduceMul (List.ofFn a) = .ok c ∧ Holds c B S T diag rev (fun b p q => ∏ r, F r b p q) := by
  obtain ⟨c, h1, -, h3⟩ := foldB_holdsS (op := (· * ·)) hB
    (List.ofFn fun r : Fin m => (a r.succ, F r.succ)) (a 0) (F 0) (.inr (h 0)) (by
      intro x hx
      obtain ⟨r, rfl⟩ := List.mem_ofFn.1 hx
      exact .inr (h _))
  refine ⟨c, ?_, ?_⟩
  · rw [List.ofFn_succ]
    simp only [reduceMul]
    rw [List.map_ofFn] at h1
    exact h1
  · refine Eq.mp (congrArg _ ?_) (h3 (.inl (h 0)))
    funext b p q
    rw [Fin.prod_univ_succ, List.map_ofFn, ← List.prod_ofFn, ← List.prod_cons, List.prod_eq_foldl]
    simp [Function.comp_def]

lemma allSome_none_of {A : Type} (o : Fin (m + 1) → Option A) (h : o 0 = none) :
    allSome (List.ofFn o) = none := by
  rw [List.ofFn_succ, h]
  rfl

lemma allSome_ofFn {A : Type} (a : Fin m → A) : allSome (List.ofFn fun r => some (a r)) = some (List.ofFn a) := by
  have : (List.ofFn fun r => some (a r)) = (List.ofFn a).map some := by rw [List.map_ofFn]; rfl
  rw [this, allSome_map_some]

/-- `FanInProd` of any number of branches with the same layout and shapes, whatever the order of their
spatial axes: covariances multiply, and the tangent kernel follows the product rule. -/
theorem prod_content (k : Fin (m + 1) → Kernel α) (L : Fin (m + 1) → Logical α) (h : Combinable k L)
    (hasCov2 hasNtk : Bool) (h2 : ∀ r, (L r).k22.isSome = hasCov2) (hn : ∀ r, (L r).ntk.isSome = hasNtk)
    (hs : ∀ r, (k r).shape1 = (k 0).shape1 ∧ (k r).shape2 = (k 0).shape2) :
    ∃ k', fanInProd (List.ofFn k) = .ok k' ∧ k'.Stores (prodL hasCov2 hasNtk L) ∧
      k'.diagonalBatch = (k 0).diagonalBatch ∧ k'.diagonalSpatial = (k 0).diagonalSpatial ∧
      k'.batchAxis = (k 0).batchAxis ∧ k'.channelAxis = (k 0).channelAxis ∧
      (k'.isGaussian = true ↔ m = 0 ∧ (k 0).isGaussian = true) := by
  obtain ⟨k', rev, hp, hk'⟩ := preprocess_ok h
  have hds : ∀ r, (k' r).diagonalSpatial = (k 0).diagonalSpatial := fun r => by
    rw [(hk' r).2.2.2.1, h.diagonalSpatial]
  have hdb : ∀ r, (k' r).diagonalBatch = (k 0).diagonalBatch := fun r => by
    rw [(hk' r).2.2.1, h.diagonalBatch]
  have hB : ∀ n : ℕ, batchShape (k 0).diagonalBatch n ≠ [] := by
    intro n
    unfold batchShape
    split <;> simp
  have s1 : ∀ r, Holds (k' r).nngp [(L 0).n1, (L 0).n2] (L 0).S1 (L 0).S2 (k 0).diagonalSpatial rev
      (L r).k12 := fun r => by
    have := (hk' r).1.nngp
    rwa [(h.sizes r).1, (h.sizes r).2.1, (h.sizes r).2.2.1, (h.sizes r).2.2.2, hds, (hk' r).2.1] at this
  have s2 : ∀ r, Holds (k' r).cov1 (batchShape (k 0).diagonalBatch (L 0).n1) (L 0).S1 (L 0).S1
      (k 0).diagonalSpatial rev (fun b => (L r).k11 (dbl b)) := fun r => by
    have := (hk' r).1.cov1
    rwa [(h.sizes r).1, (h.sizes r).2.2.1, hds, hdb, (hk' r).2.1] at this
  obtain ⟨c1, e1, t1⟩ := reduceMul_holds (hB _) _ _ s2
  have e3 : ∃ o, optProd (List.ofFn fun r => (k' r).cov2) = .ok o ∧
      OptRel (fun c F => Holds c (batchShape (k 0).diagonalBatch (L 0).n2) (L 0).S2 (L 0).S2
        (k 0).diagonalSpatial rev (fun b => F (dbl b))) o (prodL hasCov2 hasNtk L).k22 := by
    cases hasCov2 with
    | false =>
      refine ⟨none, ?_, by simp [prodL, OptRel]⟩
      have := (hk' 0).1.cov2
      rw [Option.isSome_eq_false_iff.1 (h2 0) |> Option.isNone_iff_eq_none.1] at this
      simp only [optProd, allSome_none_of (fun r => (k' r).cov2) (optRel_none this)]
    | true =>
      choose F hF using fun r => Option.isSome_iff_exists.1 (h2 r)
      have hc : ∀ r, ∃ c, (k' r).cov2 = some c ∧ Holds c (batchShape (k 0).diagonalBatch (L 0).n2)
          (L 0).S2 (L 0).S2 (k 0).diagonalSpatial rev (fun b => F r (dbl b)) := by
        intro r
        have := (hk' r).1.cov2
        rw [hF r] at this
        obtain ⟨c, hc1, hc2⟩ := optRel_some this
        refine ⟨c, hc1, ?_⟩
        rwa [(h.sizes r).2.1, (h.sizes r).2.2.2, hds, hdb, (hk' r).2.1] at hc2
      choose c hc1 hc2 using hc
      obtain ⟨c3, e3, t3⟩ := reduceMul_holds (hB _) c _ hc2
      refine ⟨some c3, ?_, ?_⟩
      · simp only [hc1, optProd, allSome_ofFn, e3]
        rfl
      · simpa [prodL, OptRel, hF] using t3
  have e4 : ∃ c2 o, matsProd (List.ofFn fun r => (k' r).nngp) (List.ofFn fun r => (k' r).ntk) = .ok (c2, o) ∧
      Holds c2 [(L 0).n1, (L 0).n2] (L 0).S1 (L 0).S2 (k 0).diagonalSpatial rev
        (prodL hasCov2 hasNtk L).k12 ∧
      OptRel (fun a F => (a.shape = [] ∧ ∀ b p q, F b p q = a.get []) ∨
        Holds a [(L 0).n1, (L 0).n2] (L 0).S1 (L 0).S2 (k 0).diagonalSpatial rev F) o
        (prodL hasCov2 hasNtk L).ntk := by
    cases hasNtk with
    | false =>
      have := (hk' 0).1.ntk
      rw [Option.isSome_eq_false_iff.1 (hn 0) |> Option.isNone_iff_eq_none.1] at this
      obtain ⟨c2, e2, t2⟩ := reduceMul_holds (by simp) _ _ s1
      refine ⟨c2, none, ?_, t2, by simp [prodL, OptRel]⟩
      simp only [matsProd, allSome_none_of (fun r => (k' r).ntk) (optRel_none this), e2]
      rfl
    | true =>
      choose F hF using fun r => Option.isSome_iff_exists.1 (hn r)
      have hc : ∀ r, ∃ c, (k' r).ntk = some c ∧ HoldsS c [(L 0).n1, (L 0).n2] (L 0).S1 (L 0).S2
          (k 0).diagonalSpatial rev (F r) := by
        intro r
        have := (hk' r).1.ntk
        rw [hF r] at this
        obtain ⟨c, hc1, hc2⟩ := optRel_some this
        refine ⟨c, hc1, ?_⟩
        rwa [(h.sizes r).1, (h.sizes r).2.1, (h.sizes r).2.2.1, (h.sizes r).2.2.2, hds, (hk' r).2.1] at hc2
      choose c hc1 hc2 using hc
      obtain ⟨c', d', g1, -, g3, g4⟩ := loop_holdsS (by simp) (fun r => (k' r).nngp) c _ F s1 hc2
        (scalar 1) (scalar 0) (fun _ _ _ => 1) (fun _ _ _ => 0) (.inl ⟨rfl, fun _ _ _ => rfl⟩)
        (.inl ⟨rfl, fun _ _ _ => rfl⟩)
      refine ⟨c', some d', ?_, ?_, ?_⟩
      · simp only [hc1, matsProd, allSome_ofFn, g1]
        rfl
      · refine Eq.mp (congrArg _ ?_) (g3 (.inl (Nat.succ_ne_zero m)))
        funext b p q
        simp [prodL]
      · have : (prodL hasCov2 true L).ntk = some fun b p q =>
            ∑ r, F r b p q * ∏ s ∈ Finset.univ.erase r, (L s).k12 b p q := by
          simp [prodL, hF]
        rw [this]
        have e : (fun b p q => (0 : α) * (∏ r, (L r).k12 b p q) +
            1 * ∑ r, F r b p q * ∏ s ∈ Finset.univ.erase r, (L s).k12 b p q) =
            fun b p q => ∑ r, F r b p q * ∏ s ∈ Finset.univ.erase r, (L s).k12 b p q := by
          funext b p q
          rw [zero_mul, zero_add, one_mul]
        rw [e] at g4
        exact g4
  obtain ⟨o3, e3, t3⟩ := e3
  obtain ⟨c2, o4, e4, t2, t4⟩ := e4
  refine ⟨fanInResult (k 0) rev ((List.ofFn k').length == 1 && (k 0).isGaussian) c2 c1 o3 o4, ?_, ?_,
    rfl, rfl, rfl, rfl, ?_⟩
  · rw [List.ofFn_succ]
    unfold fanInProd
    simp only [hp]
    rw [if_neg]
    · simp only [List.map_ofFn, Function.comp_def, e1, e3, e4]
    · rw [not_not]
      intro x hx
      obtain ⟨r, rfl⟩ := List.mem_ofFn.1 hx
      exact hs _
  · exact ⟨t2, t1, t3, t4⟩
  · simp [fanInResult]

/-- Branches of different shapes are rejected. -/
theorem shapes_rejected (k : Fin (m + 1) → Kernel α) (L : Fin (m + 1) → Logical α) (h : Combinable k L)
    (r : Fin (m + 1)) (hr : (k r).shape1 ≠ (k 0).shape1 ∨ (k r).shape2 ≠ (k 0).shape2) :
    fanInProd (List.ofFn k) = .error .valueError := by
  obtain ⟨k', rev, hp, -⟩ := preprocess_ok h
  rw [List.ofFn_succ]
  unfold fanInProd
  simp only [hp]
  rw [if_pos]
  intro hx
  rcases Fin.eq_zero_or_eq_succ r with rfl | ⟨s, rfl⟩
  · simp at hr
  · obtain ⟨h1, h2⟩ := hx (k s.succ) (List.mem_ofFn.2 ⟨s, rfl⟩)
    rcases hr with hr | hr
    · exact hr h1
    · exact hr h2

end content

/-! ## The random function -/

variable {E : Type} [NormedAddCommGroup E] [InnerProductSpace ℝ E] [CompleteSpace E]
  [MeasurableSpace E] {m : ℕ}

/-- Branches with independent parameters: the products of values and of gradients of one branch are
independent of those of the others, and no parameter is shared. -/
structure Independent (μ : Measure E) (f g : Fin m → E → ℝ) : Prop where
  diff1 : ∀ r, Differentiable ℝ (f r)
  diff2 : ∀ r, Differentiable ℝ (g r)
  meas : ∀ r, AEMeasurable (fun θ => f r θ * g r θ) μ
  measG : ∀ r, AEMeasurable (fun θ => (inner ℝ (gradient (f r) θ) (gradient (g r) θ) : ℝ)) μ
  indep : iIndepFun (fun r θ =>
    (f r θ * g r θ, (inner ℝ (gradient (f r) θ) (gradient (g r) θ) : ℝ))) μ
  disjoint : ∀ r s, r ≠ s → ∀ θ, (inner ℝ (gradient (f r) θ) (gradient (g s) θ) : ℝ) = 0
  int : ∀ r, Integrable (fun θ => (inner ℝ (gradient (f r) θ) (gradient (g r) θ) : ℝ) *
    ∏ s ∈ Finset.univ.erase r, (f s θ * g s θ)) μ

lemma secondMoment_prod {μ : Measure E} {f g : Fin m → E → ℝ} (h : Independent μ f g) :
    secondMoment μ (fun θ => ∏ r, f r θ) (fun θ => ∏ r, g r θ) = ∏ r, secondMoment μ (f r) (g r) := by
  unfold secondMoment
  simp only [← Finset.prod_mul_distrib]
  exact h.indep.integral_fun_prod_comp (f := fun _ x => x.1)
    (fun r => (h.meas r).prodMk (h.measG r)) fun r => measurable_fst.aestronglyMeasurable

lemma gradient_prod (f : Fin m → E → ℝ) (hf : ∀ r, Differentiable ℝ (f r)) (θ : E) :
    gradient (fun x => ∏ r, f r x) θ = ∑ r, (∏ s ∈ Finset.univ.erase r, f s θ) • gradient (f r) θ := by
  unfold gradient
  rw [(HasFDerivAt.finsetProd fun r _ => (hf r θ).hasFDerivAt).fderiv, map_sum]
  simp

lemma tangent_prod {μ : Measure E} {f g : Fin m → E → ℝ} (h : Independent μ f g) :
    tangent μ (fun θ => ∏ r, f r θ) (fun θ => ∏ r, g r θ) =
      ∑ r, tangent μ (f r) (g r) * ∏ s ∈ Finset.univ.erase r, secondMoment μ (f s) (g s) := by
  have e : ∀ θ, (inner ℝ (gradient (fun x => ∏ r, f r x) θ) (gradient (fun x => ∏ r, g r x) θ) : ℝ) =
      ∑ r, (inner ℝ (gradient (f r) θ) (gradient (g r) θ) : ℝ) *
        ∏ s ∈ Finset.univ.erase r, (f s θ * g s θ) := by
    intro θ
    rw [gradient_prod f h.diff1, gradient_prod g h.diff2]
    simp only [sum_inner, inner_sum, real_inner_smul_left, real_inner_smul_right]
    refine Finset.sum_congr rfl fun r _ => ?_
    rw [Finset.sum_eq_single r]
    · rw [Finset.prod_mul_distrib]
      ring
    · intro s _ hs
      rw [h.disjoint _ _ hs θ]
      simp
    · simp
  unfold tangent
  simp only [e]
  rw [integral_finsetSum _ fun r _ => h.int r]
  refine Finset.sum_congr rfl fun r _ => ?_
  have := h.indep.integral_fun_prod_comp (f := fun s x => if s = r then x.2 else x.1)
    (fun r => (h.meas r).prodMk (h.measG r)) (fun s => by
      split
      · exact measurable_snd.aestronglyMeasurable
      · exact measurable_fst.aestronglyMeasurable)
  rw [← Finset.mul_prod_erase Finset.univ _ (Finset.mem_univ r)] at this
  simp only [if_true] at this
  have e1 : ∀ θ, ∏ s, (if s = r then (inner ℝ (gradient (f s) θ) (gradient (g s) θ) : ℝ)
      else f s θ * g s θ) = (inner ℝ (gradient (f r) θ) (gradient (g r) θ) : ℝ) *
        ∏ s ∈ Finset.univ.erase r, (f s θ * g s θ) := by
    intro θ
    rw [← Finset.mul_prod_erase Finset.univ _ (Finset.mem_univ r)]
    simp only [if_true]
    congr 1
    refine Finset.prod_congr rfl fun s hs => ?_
    rw [if_neg (Finset.ne_of_mem_erase hs)]
  simp only [e1] at this
  rw [this]
  congr 1
  refine Finset.prod_congr rfl fun s hs => ?_
  simp only [if_neg (Finset.ne_of_mem_erase hs)]
  rfl

/-- `FanInProd` of the kernels of branches with independent parameters is the kernel of the product of the
branches. -/
theorem prod_of_functions (μ : Measure E) (k : Fin (m + 1) → Kernel ℝ) (L : Fin (m + 1) → Logical ℝ)
    (h : Combinable k L)
    (hasCov2 hasNtk : Bool) (h2 : ∀ r, (L r).k22.isSome = hasCov2) (hn : ∀ r, (L r).ntk.isSome = hasNtk)
    (hs : ∀ r, (k r).shape1 = (k 0).shape1 ∧ (k r).shape2 = (k 0).shape2)
    (f1 f2 : Fin (m + 1) → ℕ → List ℕ → E → ℝ) (hf : ∀ r, KernelOf μ (f1 r) (f2 r) (L r))
    (h12 : ∀ i j p q, Independent μ (fun r => f1 r i p) (fun r => f2 r j q))
    (h11 : ∀ i j p q, Independent μ (fun r => f1 r i p) (fun r => f1 r j q))
    (h22 : ∀ i j p q, Independent μ (fun r => f2 r i p) (fun r => f2 r j q)) :
    ∃ k' L', fanInProd (List.ofFn k) = .ok k' ∧ k'.Stores L' ∧
      KernelOf μ (fun i p θ => ∏ r, f1 r i p θ) (fun i p θ => ∏ r, f2 r i p θ) L' ∧
      (L'.n1, L'.n2, L'.S1, L'.S2) = ((L 0).n1, (L 0).n2, (L 0).S1, (L 0).S2) ∧
      L'.k22.isSome = hasCov2 ∧ L'.ntk.isSome = hasNtk := by
  obtain ⟨k', e1, e2, -⟩ := prod_content k L h hasCov2 hasNtk h2 hn hs
  have hk12 : ∀ i j p q, i < (L 0).n1 → j < (L 0).n2 → InRange p (L 0).S1 → InRange q (L 0).S2 →
      ∀ r, (L r).k12 [i, j] p q = secondMoment μ (f1 r i p) (f2 r j q) := by
    intro i j p q hi hj hp hq r
    obtain ⟨z1, z2, z3, z4⟩ := h.sizes r
    exact (hf r).k12 i j p q (by rw [z1]; exact hi) (by rw [z2]; exact hj) (by rw [z3]; exact hp)
      (by rw [z4]; exact hq)
  refine ⟨k', _, e1, e2, ⟨?_, ?_, ?_, ?_⟩, rfl, ?_, ?_⟩
  · intro i j p q hi hj hp hq
    change ∏ r, (L r).k12 [i, j] p q = _
    rw [secondMoment_prod (h12 i j p q)]
    exact Finset.prod_congr rfl fun r _ => hk12 i j p q hi hj hp hq r
  · intro i j p q hi hj hp hq
    change ∏ r, (L r).k11 [i, j] p q = _
    rw [secondMoment_prod (h11 i j p q)]
    refine Finset.prod_congr rfl fun r _ => ?_
    obtain ⟨z1, z2, z3, z4⟩ := h.sizes r
    exact (hf r).k11 i j p q (by rw [z1]; exact hi) (by rw [z1]; exact hj) (by rw [z3]; exact hp)
      (by rw [z3]; exact hq)
  · intro F hF i j p q hi hj hp hq
    cases hasCov2 with
    | false => simp [prodL] at hF
    | true =>
      simp only [prodL, if_true, Option.some.injEq] at hF
      subst hF
      rw [secondMoment_prod (h22 i j p q)]
      refine Finset.prod_congr rfl fun r _ => ?_
      obtain ⟨z1, z2, z3, z4⟩ := h.sizes r
      obtain ⟨G, hG⟩ := Option.isSome_iff_exists.1 (h2 r)
      rw [hG]
      exact (hf r).k22 G hG i j p q (by rw [z2]; exact hi) (by rw [z2]; exact hj) (by rw [z4]; exact hp)
        (by rw [z4]; exact hq)
  · intro F hF i j p q hi hj hp hq
    cases hasNtk with
    | false => simp [prodL] at hF
    | true =>
      simp only [prodL, if_true, Option.some.injEq] at hF
      subst hF
      rw [tangent_prod (h12 i j p q)]
      refine Finset.sum_congr rfl fun r _ => ?_
      obtain ⟨z1, z2, z3, z4⟩ := h.sizes r
      obtain ⟨G, hG⟩ := Option.isSome_iff_exists.1 (hn r)
      rw [hG]
      congr 1
      · exact (hf r).ntk G hG i j p q (by rw [z1]; exact hi) (by rw [z2]; exact hj) (by rw [z3]; exact hp)
          (by rw [z4]; exact hq)
      · exact Finset.prod_congr rfl fun s _ => hk12 i j p q hi hj hp hq s
  · cases hasCov2 <;> simp [prodL]
  · cases hasNtk <;> simp [prodL]

/-! ## Examples -/

section Examples

/-- Two independent standard normal parameters. -/
noncomputable def exμ : Measure (EuclideanSpace ℝ (Fin 2)) :=
  (Measure.pi fun _ : Fin 2 => gaussianReal 0 1).map (WithLp.toLp 2)

/-- The branch `r` is `θ r * x` with `x` equal to 1, 2, ... for the inputs 0, 1, ... -/
noncomputable def exF : Fin 2 → ℕ → List ℕ → EuclideanSpace ℝ (Fin 2) → ℝ :=
  fun r i _ θ => ((i : ℝ) + 1) * θ r

lemma exF_gradient (r : Fin 2) (i : ℕ) (p : List ℕ) (θ : EuclideanSpace ℝ (Fin 2)) :
    gradient (exF r i p) θ = ((i : ℝ) + 1) • EuclideanSpace.single r 1 := by
  refine HasGradientAt.gradient ?_
  rw [hasGradientAt_iff_hasFDerivAt]
  have h : HasFDerivAt (fun θ : EuclideanSpace ℝ (Fin 2) => ((i : ℝ) + 1) * θ r)
      (((i : ℝ) + 1) • (EuclideanSpace.proj r : EuclideanSpace ℝ (Fin 2) →L[ℝ] ℝ)) θ :=
    (EuclideanSpace.proj r : EuclideanSpace ℝ (Fin 2) →L[ℝ] ℝ).hasFDerivAt.const_mul _
  refine h.congr_fderiv ?_
  ext v
  have := EuclideanSpace.inner_single_left (𝕜 := ℝ) r 1 v
  simp [this]

lemma exF_indep (i j : ℕ) (p q : List ℕ) :
    Independent exμ (fun r => exF r i p) (fun r => exF r j q) := by
  have hm : Measurable (WithLp.toLp 2 : (Fin 2 → ℝ) → EuclideanSpace ℝ (Fin 2)) := by
    fun_prop
  have hp : IsProbabilityMeasure exμ := Measure.isProbabilityMeasure_map hm.aemeasurable
  have hmem : ∀ r : Fin 2, MemLp (fun θ : EuclideanSpace ℝ (Fin 2) => θ r) 2 exμ := by
    intro r
    have h1 : MemLp (fun x : Fin 2 → ℝ => x r) 2 (Measure.pi fun _ : Fin 2 => gaussianReal 0 1) :=
      (memLp_id_gaussianReal 2).comp_measurePreserving
        (measurePreserving_eval (fun _ : Fin 2 => gaussianReal 0 1) r)
    have h2 : Measurable (fun θ : EuclideanSpace ℝ (Fin 2) => θ r) := by fun_prop
    exact (memLp_map_measure_iff h2.aestronglyMeasurable hm.aemeasurable).2 h1
  refine ⟨fun r => ?_, fun r => ?_, fun r => ?_, fun r => ?_, ?_, ?_, ?_⟩
  · unfold exF; fun_prop
  · unfold exF; fun_prop
  · unfold exF; fun_prop
  · simp only [exF_gradient]
    exact measurable_const.aemeasurable
  · simp only [exF_gradient]
    have h1 : iIndepFun (fun (r : Fin 2) (x : Fin 2 → ℝ) =>
        (((i : ℝ) + 1) * x r * (((j : ℝ) + 1) * x r),
          (inner ℝ (((i : ℝ) + 1) • EuclideanSpace.single r (1 : ℝ))
            (((j : ℝ) + 1) • EuclideanSpace.single r (1 : ℝ)) : ℝ)))
        (Measure.pi fun _ : Fin 2 => gaussianReal 0 1) :=
      iIndepFun_pi (X := fun (r : Fin 2) (x : ℝ) =>
        (((i : ℝ) + 1) * x * (((j : ℝ) + 1) * x),
          (inner ℝ (((i : ℝ) + 1) • EuclideanSpace.single r (1 : ℝ))
            (((j : ℝ) + 1) • EuclideanSpace.single r (1 : ℝ)) : ℝ)))
        fun r => by fun_prop
    have hX : ∀ r : Fin 2, Measurable fun θ : EuclideanSpace ℝ (Fin 2) =>
        (((i : ℝ) + 1) * θ r * (((j : ℝ) + 1) * θ r),
          (inner ℝ (((i : ℝ) + 1) • EuclideanSpace.single r (1 : ℝ))
            (((j : ℝ) + 1) • EuclideanSpace.single r (1 : ℝ)) : ℝ)) := fun r => by fun_prop
    have h1 := (iIndepFun_iff_map_fun_eq_pi_map fun r => ((hX r).comp hm).aemeasurable).1 h1
    refine (iIndepFun_iff_map_fun_eq_pi_map fun r => (hX r).aemeasurable).2 ?_
    unfold exμ
    rw [Measure.map_map (measurable_pi_lambda _ hX) hm]
    have e : ∀ r, Measure.map (fun θ : EuclideanSpace ℝ (Fin 2) =>
        (((i : ℝ) + 1) * θ r * (((j : ℝ) + 1) * θ r),
        (inner ℝ (((i : ℝ) + 1) • EuclideanSpace.single r (1 : ℝ))
            (((j : ℝ) + 1) • EuclideanSpace.single r (1 : ℝ)) : ℝ)))
        ((Measure.pi fun _ : Fin 2 => gaussianReal 0 1).map (WithLp.toLp 2)) = _ :=
      fun r => Measure.map_map (hX r) hm
    simp only [e]
    exact h1
  · intro r s hrs θ
    have := EuclideanSpace.inner_single_left (𝕜 := ℝ) r 1 (EuclideanSpace.single s 1)
    simp [exF_gradient, real_inner_smul_left, real_inner_smul_right, this, hrs]
  · intro r
    simp only [exF_gradient]
    refine Integrable.const_mul ?_ _
    have h1 : (Finset.univ.erase r) = {1 - r} := by
      fin_cases r <;> rfl
    rw [h1]
    simp only [Finset.prod_singleton]
    exact ((hmem _).const_mul _).integrable_mul ((hmem _).const_mul _)

/-- The hypotheses of `prod_of_functions` are met by these branches. -/
example : ∀ i j p q, Independent exμ (fun r => exF r i p) (fun r => exF r j q) := exF_indep

/-- Two kernels over positions in a 2 x 3 grid, one with its spatial axes in reversed order. -/
def exK : Fin 2 → Kernel ℤ := fun r =>
  Logical.encode ⟨1, 1, [2, 3], [2, 3], fun _ p q => (r : ℤ) + (p.getD 0 0) + 10 * q.getD 1 0,
      fun _ _ _ => 1, none, some fun _ p _ => (r : ℤ) + p.getD 0 0⟩ true false (r = 1)

/-- `21 * 22 = 462` and `1 * 22 + 2 * 21 = 64`. -/
example : ∃ k' L' F, fanInProd [exK 0, exK 1] = .ok k' ∧ k'.Stores L' ∧ (exK 0).isReversed = false ∧
    (exK 1).isReversed = true ∧ L'.k12 [0, 0] [1, 0] [0, 2] = 462 ∧
    L'.ntk = some F ∧ F [0, 0] [1, 0] [0, 2] = 64 := by
  obtain ⟨k', h1, h2, -⟩ := prod_content exK (fun r => ⟨1, 1, [2, 3], [2, 3],
      fun _ p q => (r : ℤ) + (p.getD 0 0) + 10 * q.getD 1 0, fun _ _ _ => 1, none,
      some fun _ p _ => (r : ℤ) + p.getD 0 0⟩)
    ⟨fun r => Logical.encode_stores _ true _ _ (by simp) rfl,
      fun r => rfl, fun r => rfl, fun r => rfl, fun r => rfl, by simp [exK, Logical.encode],
      fun r => ⟨rfl, rfl, rfl, rfl⟩⟩
    false true (fun _ => rfl) (fun _ => rfl) (fun _ => ⟨rfl, rfl⟩)
  refine ⟨k', _, _, h1, h2, rfl, rfl, by simp [prodL, Fin.prod_univ_succ], rfl, ?_⟩
  decide

end Examples

end NT.C39
