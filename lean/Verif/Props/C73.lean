import Verif.Props.C72

/-!
# C73: empirical kernels are symmetric positive semidefinite Gram matrices
-/

namespace NT.C73

open NT.Arr NT.Spec NT.Emp

/-- `K'` is `K` with the two arguments swapped: then the reduced kernels are transposes of each other. -/
lemma mean_swap {S1 S2 T D : List ℕ} {K K' : List ℕ → List ℕ → ℝ} {x y : Arr ℝ} (hx : ReducedMean S1 S2 T D K x)
    (hy : ReducedMean S2 S1 T D K' y) (hS : S1.length = S2.length) (hT : sizesAt T S1 = sizesAt T S2) (hK : ∀ i j, K i j = K' j i)
    (i j : List ℕ) (hi : InRangeOff T i S1) (hj : InRangeOff T j S2) (hij : ∀ a ∈ D, i.getD a 0 = j.getD a 0) :
    x.get (pairIdx S1.length T D i j) = y.get (pairIdx S1.length T D j i) := by
  rw [hx.get i j hi hj hij, hS, hy.get j i hj hi fun a ha => (hij a ha).symm, hT]
  simp only [hK]

/-- A kernel of inner products is positive semidefinite. -/
lemma mean_psd {E : Type} [NormedAddCommGroup E] [InnerProductSpace ℝ E] {S T D : List ℕ} (φ : List ℕ → E) {x : Arr ℝ}
    (hx : ReducedMean S S T D (fun i j => inner ℝ (φ i) (φ j)) x) {k : ℕ} (i : Fin k → List ℕ) (hi : ∀ a, InRangeOff T (i a) S)
    (hD : ∀ a b, ∀ d ∈ D, (i a).getD d 0 = (i b).getD d 0) (c : Fin k → ℝ) :
    0 ≤ ∑ a, ∑ b, c a * c b * x.get (pairIdx S.length T D (i a) (i b)) := by
  have h : ∑ a, ∑ b, c a * c b * x.get (pairIdx S.length T D (i a) (i b)) =
      (∑ t ∈ box (sizesAt T S), inner ℝ (∑ a, c a • φ (putAt T t (i a))) (∑ b, c b • φ (putAt T t (i b)))) / ((sizesAt T S).prod : ℕ) := by
    simp only [sum_inner, inner_sum, real_inner_smul_left, real_inner_smul_right]
    conv_rhs => rw [Finset.sum_comm, Finset.sum_div]
    refine Finset.sum_congr rfl fun a _ => ?_
    conv_rhs => rw [Finset.sum_comm, Finset.sum_div]
    refine Finset.sum_congr rfl fun b _ => ?_
    rw [hx.get (i a) (i b) (hi a) (hi b) (hD a b), sumOver_eq_box, mul_div_assoc', Finset.mul_sum]
    congr 1
    refine Finset.sum_congr rfl fun t _ => ?_
    rw [real_inner_comm]
    ring
  rw [h]
  exact div_nonneg (Finset.sum_nonneg fun t _ => real_inner_self_nonneg) (Nat.cast_nonneg _)

section ntk

variable {m : ℕ} {P : Fin (m + 1) → List ℕ} (f1 f2 : Params P → Arr ℝ) (θ : Params P)

/-- Swapping the two inputs transposes the empirical NTK: the paired coordinates change places. -/
theorem ntk_swap (trace diagonal : List ℤ) (T D : List ℕ) (hn : (f1 θ).ndim = (f2 θ).ndim)
    (h : ReducedAxes (f1 θ).ndim trace diagonal T D) (hd : DistinctAxes (f1 θ).ndim trace)
    (hT : sizesAt T (f1 θ).shape = sizesAt T (f2 θ).shape) (hD : sizesAt D (f1 θ).shape = sizesAt D (f2 θ).shape) :
    ∃ z z', ntkJacobian f1 f2 θ trace diagonal = .ok z ∧ ntkJacobian f2 f1 θ trace diagonal = .ok z' ∧
      ∀ i j, InRangeOff T i (f1 θ).shape → InRangeOff T j (f2 θ).shape → (∀ a ∈ D, i.getD a 0 = j.getD a 0) →
        z.get (pairIdx (f1 θ).ndim T D i j) = z'.get (pairIdx (f1 θ).ndim T D j i) := by
  obtain ⟨z, hz, hr⟩ := C72.jacobian_contraction f1 f2 θ trace diagonal T D hn h hd hT hD
  obtain ⟨z', hz', hr'⟩ := C72.jacobian_contraction f2 f1 θ trace diagonal T D hn.symm (hn ▸ h) (hn ▸ hd) hT.symm hD.symm
  exact ⟨z, z', hz, hz', mean_swap hr hr' hn hT fun i j => real_inner_comm _ _⟩

/-- For equal inputs the NTK is symmetric. -/
theorem ntk_symmetric (f : Params P → Arr ℝ) (trace diagonal : List ℤ) (T D : List ℕ)
    (h : ReducedAxes (f θ).ndim trace diagonal T D) (hd : DistinctAxes (f θ).ndim trace) :
    ∃ z, ntkJacobian f f θ trace diagonal = .ok z ∧
      ∀ i j, InRangeOff T i (f θ).shape → InRangeOff T j (f θ).shape → (∀ a ∈ D, i.getD a 0 = j.getD a 0) →
        z.get (pairIdx (f θ).ndim T D i j) = z.get (pairIdx (f θ).ndim T D j i) := by
  obtain ⟨z, z', hz, hz', hg⟩ := ntk_swap f f θ trace diagonal T D rfl h hd rfl rfl
  rw [hz] at hz'
  cases hz'
  exact ⟨z, hz, hg⟩

/-- For equal inputs the NTK is positive semidefinite: for any positions with equal coordinates along the diagonal axes
and any weights the quadratic form is nonnegative. -/
theorem ntk_psd (f : Params P → Arr ℝ) (trace diagonal : List ℤ) (T D : List ℕ)
    (h : ReducedAxes (f θ).ndim trace diagonal T D) (hd : DistinctAxes (f θ).ndim trace) :
    ∃ z, ntkJacobian f f θ trace diagonal = .ok z ∧ ∀ (k : ℕ) (i : Fin k → List ℕ) (c : Fin k → ℝ),
      (∀ a, InRangeOff T (i a) (f θ).shape) → (∀ a b, ∀ d ∈ D, (i a).getD d 0 = (i b).getD d 0) →
      0 ≤ ∑ a, ∑ b, c a * c b * z.get (pairIdx (f θ).ndim T D (i a) (i b)) := by
  obtain ⟨z, hz, hr⟩ := C72.jacobian_contraction f f θ trace diagonal T D rfl h hd rfl rfl
  exact ⟨z, hz, fun k i c hi hD => mean_psd (fun i => gradient (fun θ => (f θ).get i) θ) hr i hi hD c⟩

/-- The same three facts for NTK-vector products. -/
theorem vector_products_gram (f1 f2 : Params P → Arr ℝ) (trace diagonal : List ℤ) (T D : List ℕ) (hn : (f1 θ).ndim = (f2 θ).ndim)
    (h : ReducedAxes (f1 θ).ndim trace diagonal T D)
    (hT : sizesAt T (f1 θ).shape = sizesAt T (f2 θ).shape) (hD : sizesAt D (f1 θ).shape = sizesAt D (f2 θ).shape) :
    ∃ z z' w, ntkVectorProducts f1 f2 θ trace diagonal = .ok z ∧ ntkVectorProducts f2 f1 θ trace diagonal = .ok z' ∧
      ntkVectorProducts f1 f1 θ trace diagonal = .ok w ∧
      (∀ i j, InRangeOff T i (f1 θ).shape → InRangeOff T j (f2 θ).shape → (∀ a ∈ D, i.getD a 0 = j.getD a 0) →
        z.get (pairIdx (f1 θ).ndim T D i j) = z'.get (pairIdx (f1 θ).ndim T D j i)) ∧
      (∀ i j, InRangeOff T i (f1 θ).shape → InRangeOff T j (f1 θ).shape → (∀ a ∈ D, i.getD a 0 = j.getD a 0) →
        w.get (pairIdx (f1 θ).ndim T D i j) = w.get (pairIdx (f1 θ).ndim T D j i)) ∧
      ∀ (k : ℕ) (i : Fin k → List ℕ) (c : Fin k → ℝ),
        (∀ a, InRangeOff T (i a) (f1 θ).shape) → (∀ a b, ∀ d ∈ D, (i a).getD d 0 = (i b).getD d 0) →
        0 ≤ ∑ a, ∑ b, c a * c b * w.get (pairIdx (f1 θ).ndim T D (i a) (i b)) := by
  obtain ⟨z, hz, hr⟩ := C72.vector_products f1 f2 θ trace diagonal T D hn h hT hD
  obtain ⟨z', hz', hr'⟩ := C72.vector_products f2 f1 θ trace diagonal T D hn.symm (hn ▸ h) hT.symm hD.symm
  obtain ⟨w, hw, hwr⟩ := C72.vector_products f1 f1 θ trace diagonal T D rfl h rfl rfl
  exact ⟨z, z', w, hz, hz', hw, mean_swap hr hr' hn hT fun i j => real_inner_comm _ _,
    mean_swap hwr hwr rfl rfl fun i j => real_inner_comm _ _,
    fun k i c hi hD => mean_psd (fun i => gradient (fun θ => (f1 θ).get i) θ) hwr i hi hD c⟩

end ntk

/-- Empirical NNGP: the outer product of the outputs averaged over the traced axes; swapping the inputs transposes it, and
for equal inputs it is symmetric and positive semidefinite. -/
theorem nngp_gram (x y : Arr ℝ) (trace diagonal : List ℤ) (T D : List ℕ) (hn : x.ndim = y.ndim)
    (h : ReducedAxes x.ndim trace diagonal T D) (hd : DistinctAxes x.ndim trace)
    (hT : sizesAt T x.shape = sizesAt T y.shape) (hD : sizesAt D x.shape = sizesAt D y.shape) :
    ∃ z z' w, nngp x y trace diagonal = .ok z ∧ nngp y x trace diagonal = .ok z' ∧ nngp x x trace diagonal = .ok w ∧
      ReducedMean x.shape y.shape T D (fun i j => x.get i * y.get j) z ∧
      (∀ i j, InRangeOff T i x.shape → InRangeOff T j y.shape → (∀ a ∈ D, i.getD a 0 = j.getD a 0) →
        z.get (pairIdx x.ndim T D i j) = z'.get (pairIdx x.ndim T D j i)) ∧
      (∀ i j, InRangeOff T i x.shape → InRangeOff T j x.shape → (∀ a ∈ D, i.getD a 0 = j.getD a 0) →
        w.get (pairIdx x.ndim T D i j) = w.get (pairIdx x.ndim T D j i)) ∧
      ∀ (k : ℕ) (i : Fin k → List ℕ) (c : Fin k → ℝ),
        (∀ a, InRangeOff T (i a) x.shape) → (∀ a b, ∀ d ∈ D, (i a).getD d 0 = (i b).getD d 0) →
        0 ≤ ∑ a, ∑ b, c a * c b * w.get (pairIdx x.ndim T D (i a) (i b)) := by
  obtain ⟨z, hz, hr⟩ := nngp_ok x y rfl hn.symm h hd hT hD
  obtain ⟨z', hz', hr'⟩ := nngp_ok y x rfl hn (hn ▸ h) (hn ▸ hd) hT.symm hD.symm
  obtain ⟨w, hw, hwr⟩ := nngp_ok x x rfl rfl h hd rfl rfl
  refine ⟨z, z', w, hz, hz', hw, hr, mean_swap hr hr' hn hT fun i j => mul_comm _ _,
    mean_swap hwr hwr rfl rfl fun i j => mul_comm _ _, fun k i c hi hD => ?_⟩
  refine mean_psd (E := ℝ) (fun i => x.get i) ?_ i hi hD c
  refine ⟨hwr.shape, fun i j hi hj hij => ?_⟩
  rw [hwr.get i j hi hj hij]
  congr 2
  funext t
  simp [mul_comm]

/-- Non-vacuity: the positions `(0, 0)` and `(1, 0)` of an output of shape `(2, 3)` with axis 1 diagonal. -/
example : ReducedAxes 2 [] [-1] [] [1] ∧ DistinctAxes 2 [] ∧ (∀ a : Fin 2, InRangeOff [] (![[0, 0], [1, 0]] a) [2, 3]) ∧
    ∀ a b : Fin 2, ∀ d ∈ [1], ((![[0, 0], [1, 0]] : Fin 2 → List ℕ) a).getD d 0 = ((![[0, 0], [1, 0]] : Fin 2 → List ℕ) b).getD d 0 := by
  refine ⟨⟨⟨by decide, by decide, by simp⟩, ⟨by decide, by decide, fun a => ?_⟩, by simp⟩, by simp [DistinctAxes], ?_, by decide⟩
  · simp only [List.mem_cons, List.not_mem_nil, or_false]; omega
  · unfold InRangeOff; decide

end NT.C73
