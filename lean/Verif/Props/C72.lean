import Verif.Lemmas.Ntk2
import Mathlib.Analysis.Calculus.FDeriv.Linear

/-!
# C72: the implementations of the empirical NTK agree

Full statement: Jacobian contraction, NTK-vector products and structured derivatives return the same array, the
contraction over all parameters of the two Jacobians with the requested traced and diagonal axes.  For structured
derivatives see C94.  With `vmap_axes` see C96.
-/

namespace NT.C72

open NT.Arr NT.Spec NT.Emp

variable {m : ℕ} {P : Fin (m + 1) → List ℕ} (f1 f2 : Params P → Arr ℝ) (θ : Params P)

/-- Jacobian contraction: for all networks, parameters, traced and diagonal axes the result has the documented layout and
averages the inner products of gradients over the traced axes. -/
theorem jacobian_contraction (trace diagonal : List ℤ) (T D : List ℕ) (hn : (f1 θ).ndim = (f2 θ).ndim)
    (h : ReducedAxes (f1 θ).ndim trace diagonal T D) (hd : DistinctAxes (f1 θ).ndim trace)
    (hT : sizesAt T (f1 θ).shape = sizesAt T (f2 θ).shape) (hD : sizesAt D (f1 θ).shape = sizesAt D (f2 θ).shape) :
    ∃ z, ntkJacobian f1 f2 θ trace diagonal = .ok z ∧ ReducedMean (f1 θ).shape (f2 θ).shape T D (tangentAt f1 f2 θ) z :=
  ntkJacobian_ok rfl hn.symm h hd hT hD

/-- NTK-vector products: the same. -/
theorem vector_products (trace diagonal : List ℤ) (T D : List ℕ) (hn : (f1 θ).ndim = (f2 θ).ndim)
    (h : ReducedAxes (f1 θ).ndim trace diagonal T D)
    (hT : sizesAt T (f1 θ).shape = sizesAt T (f2 θ).shape) (hD : sizesAt D (f1 θ).shape = sizesAt D (f2 θ).shape) :
    ∃ z, ntkVectorProducts f1 f2 θ trace diagonal = .ok z ∧ ReducedMean (f1 θ).shape (f2 θ).shape T D (tangentAt f1 f2 θ) z :=
  ntkVectorProducts_ok rfl hn.symm h hT hD

/-- The two implementations return the same array. -/
theorem implementations_agree_partial (trace diagonal : List ℤ) (T D : List ℕ) (hn : (f1 θ).ndim = (f2 θ).ndim)
    (h : ReducedAxes (f1 θ).ndim trace diagonal T D) (hd : DistinctAxes (f1 θ).ndim trace)
    (hT : sizesAt T (f1 θ).shape = sizesAt T (f2 θ).shape) (hD : sizesAt D (f1 θ).shape = sizesAt D (f2 θ).shape) :
    ∃ z z', ntkJacobian f1 f2 θ trace diagonal = .ok z ∧ ntkVectorProducts f1 f2 θ trace diagonal = .ok z' ∧ z ≋ z' := by
  obtain ⟨z, hz, hr⟩ := jacobian_contraction f1 f2 θ trace diagonal T D hn h hd hT hD
  obtain ⟨z', hz', hr'⟩ := vector_products f1 f2 θ trace diagonal T D hn h hT hD
  exact ⟨z, z', hz, hz', reducedMean_unique hr hr' hn hD fun a ha => ((h.diagonal.mem a).1 ha).1⟩

/-- Axes that the output does not have are rejected by both. -/
theorem bad_axis_raises (trace diagonal : List ℤ) (hn : (f1 θ).ndim = (f2 θ).ndim)
    (h : ∃ r ∈ trace, r < -((f1 θ).ndim : ℤ) ∨ ((f1 θ).ndim : ℤ) ≤ r) :
    ntkJacobian f1 f2 θ trace diagonal = .error .indexError ∧ ntkVectorProducts f1 f2 θ trace diagonal = .error .indexError := by
  have hb : ¬ ∀ r ∈ trace, -((f1 θ).ndim : ℤ) ≤ r ∧ r < (f1 θ).ndim := by
    intro h'
    obtain ⟨r, hr, h⟩ := h
    have := h' r hr
    omega
  constructor
  · unfold ntkJacobian jacobianContraction sizeAtRaw
    rw [show (f1 θ).shape.length = (f1 θ).ndim from rfl, mapM_arange_err _ hb]
    rfl
  · have hNn : (ntkFull f1 f2 θ).ndim = (f1 θ).ndim + (f1 θ).ndim := by
      rw [show (ntkFull f1 f2 θ).ndim = ((f1 θ).shape ++ (f2 θ).shape).length from rfl, List.length_append]
      unfold ndim at hn ⊢
      omega
    unfold ntkVectorProducts traceAndDiagonal
    rw [if_neg (by omega), show (ntkFull f1 f2 θ).ndim / 2 = (f1 θ).ndim by omega]
    simp only [axesList_err hb]
    rfl

/-! ### Non-vacuity and a disagreement -/

/-- One scalar parameter. -/
abbrev oneP : Fin 1 → List ℕ := fun _ => []

/-- The network whose output, of shape `(1, 2)`, has both entries equal to its only parameter. -/
noncomputable def bias (θ : Params oneP) : Arr ℝ := ⟨[1, 2], fun _ => θ ⟨0, ⟨[], by decide⟩⟩⟩

lemma bias_tangent (θ : Params oneP) (i j : List ℕ) : tangentAt bias bias θ i j = 1 := by
  have hd : ∀ i : List ℕ, fderiv ℝ (fun θ => (bias θ).get i) θ = EuclideanSpace.proj (𝕜 := ℝ) ⟨(0 : Fin 1), ⟨[], by decide⟩⟩ := by
    intro i
    exact (EuclideanSpace.proj (𝕜 := ℝ) (⟨(0 : Fin 1), ⟨[], by decide⟩⟩ : Σ l : Fin 1, {p // p ∈ box (oneP l)})).fderiv
  rw [tangent_sum]
  have hu : ∀ p : {p // p ∈ box (oneP 0)}, p = ⟨[], by decide⟩ := by
    rintro ⟨p, hp⟩
    simpa [oneP, box_nil] using hp
  rw [Fin.sum_univ_one, Fintype.sum_eq_single ⟨[], by decide⟩ fun x hx => absurd (hu x) hx, hd, hd]
  simp

lemma axes_last : IsAxes 2 [1, -1] [1] := by
  refine ⟨by decide, by decide, fun a => ?_⟩
  simp only [List.mem_cons, List.not_mem_nil, or_false]
  omega

lemma axes_none : IsAxes 2 [] [] := ⟨by decide, by decide, fun a => by simp⟩

/-- Non-vacuity: the hypotheses of `implementations_agree_partial` hold for the traced axis `-1`. -/
example : ∃ T D, ReducedAxes 2 [-1] [0] T D ∧ DistinctAxes 2 [-1] := by
  refine ⟨[1], [0], ⟨⟨by decide, by decide, fun a => ?_⟩, ⟨by decide, by decide, fun a => ?_⟩, by decide⟩, by simp [DistinctAxes]⟩
  · simp only [List.mem_cons, List.not_mem_nil, or_false]; omega
  · simp only [List.mem_cons, List.not_mem_nil, or_false]; omega

/-- Naming the same axis twice, as `1` and as `-1`, makes the implementations disagree: Jacobian contraction divides by the
size of the axis twice (empirical.py:553 uses the axes as given), NTK-vector products once. -/
theorem repeated_trace_axis_disagree (θ : Params oneP) :
    ∃ z z', ntkJacobian bias bias θ [1, -1] [] = .ok z ∧ ntkVectorProducts bias bias θ [1, -1] [] = .ok z' ∧
      z.get [0, 0] = 1 / 2 ∧ z'.get [0, 0] = 1 := by
  have ha : ReducedAxes 2 [1, -1] [] [1] [] := ⟨axes_last, axes_none, by simp⟩
  obtain ⟨z', hz', hr'⟩ := vector_products bias bias θ [1, -1] [] [1] [] rfl ha rfl rfl
  have ok := axesOk ha
  obtain ⟨w, hw, hwr⟩ := contractLeaf_red (n := 2) (x := jacobianLeaf bias θ 0) (y := jacobianLeaf bias θ 0) (S1 := [1, 2]) (S2 := [1, 2])
    (Q := []) rfl rfl rfl rfl (axesList_axes ok.trace) (axesList_axes ok.diagonal) ok.disjoint rfl rfl
  have hsz : sizeAtRaw [1, 2] [1, -1] = .ok 4 := by decide
  have hoff : InRangeOff [1] [0, 0] [1, 2] := ⟨rfl, by decide⟩
  refine ⟨divBy w ((4 : ℕ) : ℝ), z', ?_, hz', ?_, ?_⟩
  · unfold ntkJacobian jacobianContraction
    show (do let size ← sizeAtRaw [1, 2] [1, -1]; _ : Except Err (Arr ℝ)) = _
    rw [hsz]
    simp only [show (bias θ).shape.length = 2 from rfl, ok.trace, ok.diagonal]
    simp only [bind, Except.bind, List.ofFn_succ, List.ofFn_zero, List.zip_cons_cons, List.zip_nil_left, List.mapM_cons, List.mapM_nil, hw, pure, Except.pure,
      List.foldl_nil]
  · have := hwr.get [0, 0] [0, 0] hoff hoff (by simp)
    have hl : ∀ t ∈ indices [2], (sumOver [] fun p => (jacobianLeaf bias θ 0).get (putAt [1] t [0, 0] ++ p) * (jacobianLeaf bias θ 0).get (putAt [1] t [0, 0] ++ p)) = 1 := by
      intro t _
      have h1 := leaf_sum (f1 := bias) (f2 := bias) (θ := θ) (P := oneP) 0 (i := putAt [1] t [0, 0]) (j := putAt [1] t [0, 0]) rfl rfl
      have h2 := bias_tangent θ (putAt [1] t [0, 0]) (putAt [1] t [0, 0])
      rw [tangent_sum, Fin.sum_univ_one] at h2
      rw [← h2]
      exact h1
    have hs : (sumOver (sizesAt [1] [1, 2]) fun t => sumOver [] fun p => (jacobianLeaf bias θ 0).get (putAt [1] t [0, 0] ++ p) *
        (jacobianLeaf bias θ 0).get (putAt [1] t [0, 0] ++ p)) = 2 := by
      show ((indices [2]).map _).sum = _
      rw [List.map_congr_left hl]
      simp [indices]; norm_num
    show w.get [0, 0] / _ = _
    rw [show ([0, 0] : List ℕ) = pairIdx 2 [1] [] [0, 0] [0, 0] from rfl, show (2 : ℕ) = ([1, 2] : List ℕ).length from rfl, this, hs]
    norm_num
  · have := hr'.get [0, 0] [0, 0] hoff hoff (by simp)
    rw [show ([0, 0] : List ℕ) = pairIdx 2 [1] [] [0, 0] [0, 0] from rfl, show (2 : ℕ) = (bias θ).shape.length from rfl, this]
    simp only [bias_tangent]
    rw [show sizesAt [1] (bias θ).shape = [2] from rfl]
    simp [sumOver, indices]

end NT.C72
