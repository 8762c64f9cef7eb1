import Verif.Lemmas.Vmap
import Verif.Spec.Linearize
import Verif.Props.C72

/-!
# C96: `vmap_axes` changes how the empirical NTK is computed, not its value

For networks that treat the examples along the named axes one by one (as the documentation asks), Jacobian contraction and NTK-vector products with `vmap_axes`
return the arrays that they return without.  Missing: structured derivatives with `vmap_axes`.  `none_disagree`: with `x2=None` the two differ if a keyword argument is a
pair.
-/

namespace NT.C96
open NT NT.Arr NT.Spec NT.Emp

variable {m : ℕ} {P : Fin (m + 1) → List ℕ} {f : ApplyFn P} {V : VmapAxes} {axes : List (Option ℕ)} {o n1 n2 : ℕ} {X1 X2 : List (Arr ℝ)}

/-- Jacobian contraction with `vmap_axes`: the inner products of gradients of the network. -/
theorem jacobian_vmap (hf : OfEntries f) (θ : Params P) (hV : Names V X1 (f θ X1) axes o) (h1 : OneByOne f axes o X1 n1) (h2 : OneByOne f axes o X2 n2)
    (trace diagonal : List ℤ) (T D : List ℕ) (hn : (f θ X1).ndim = (f θ X2).ndim) (h : ReducedAxes (f θ X1).ndim trace diagonal T D)
    (hd : DistinctAxes (f θ X1).ndim trace) (hT : sizesAt T (f θ X1).shape = sizesAt T (f θ X2).shape) (hD : sizesAt D (f θ X1).shape = sizesAt D (f θ X2).shape) :
    ∃ z, ntkJacobianV f θ V X1 (some X2) trace diagonal = .ok z ∧
      ReducedMean (f θ X1).shape (f θ X2).shape T D (tangentAt (fun θ => f θ X1) (fun θ => f θ X2) θ) z := by
  obtain ⟨z, hz, hr⟩ := jacobianContraction_ok (f1 := fun θ => f θ X1) (f2 := fun θ => f θ X2) hn h hd hT hD (h1.jacobian hf θ) (h2.jacobian hf θ)
  refine ⟨z, ?_, hr⟩
  unfold ntkJacobianV
  rw [canonicalize_ok hV]
  show (do let j1 ← jacobiansV f θ axes (some o) X1; let j2 ← jacobiansV f θ axes (some o) X2
           jacobianContraction (f θ X1).shape trace diagonal (List.ofFn j1) (List.ofFn j2)) = _
  rw [jacobiansV_ok h1 hf hV.mapped, jacobiansV_ok h2 hf hV.mapped]
  exact hz

/-- With `x2=None`: the same as `x2=x1`. -/
theorem jacobian_vmap_none (hf : OfEntries f) (θ : Params P) (hV : Names V X1 (f θ X1) axes o) (h1 : OneByOne f axes o X1 n1) (trace diagonal : List ℤ) :
    ntkJacobianV f θ V X1 none trace diagonal = ntkJacobianV f θ V X1 (some X1) trace diagonal := by
  unfold ntkJacobianV
  rw [canonicalize_ok hV]
  show (do let j1 ← jacobiansV f θ axes (some o) X1; let j2 ← Except.ok j1
           jacobianContraction (f θ X1).shape trace diagonal (List.ofFn j1) (List.ofFn j2)) =
    (do let j1 ← jacobiansV f θ axes (some o) X1; let j2 ← jacobiansV f θ axes (some o) X1
        jacobianContraction (f θ X1).shape trace diagonal (List.ofFn j1) (List.ofFn j2))
  rw [jacobiansV_ok h1 hf hV.mapped]
  rfl

/-- NTK-vector products with `vmap_axes`. -/
theorem vector_products_vmap (hf : OfEntries f) (θ : Params P) (hV : Names V X1 (f θ X1) axes o) (h1 : OneByOne f axes o X1 n1) (h2 : OneByOne f axes o X2 n2)
    (same : Bool) (trace diagonal : List ℤ) (T D : List ℕ) (hn : (f θ X1).ndim = (f θ X2).ndim) (h : ReducedAxes (f θ X1).ndim trace diagonal T D)
    (hT : sizesAt T (f θ X1).shape = sizesAt T (f θ X2).shape) (hD : sizesAt D (f θ X1).shape = sizesAt D (f θ X2).shape) :
    ∃ z, ntkVectorProductsV f θ V X1 X2 same trace diagonal = .ok z ∧
      ReducedMean (f θ X1).shape (f θ X2).shape T D (tangentAt (fun θ => f θ X1) (fun θ => f θ X2) θ) z := by
  obtain ⟨g1, g2⟩ := full_examples h1 h2 hf θ
  obtain ⟨z, hz, hr⟩ := traceAndDiagonal_ok (n := (f θ X1).ndim) (S1 := (f θ X1).shape) (S2 := (f θ X2).shape) rfl hn.symm g1 (axesOk h) hT hD
  refine ⟨z, ?_, mean_congr hr hT g2⟩
  unfold ntkVectorProductsV
  rw [canonicalize_ok hV]
  show (do traceAndDiagonal (← ntkFullV f θ axes (some o) X1 X2 same) trace diagonal) = _
  rw [ntkFullV_ok h1 h2 hf hV.mapped]
  exact hz

/-- The four computations return the same array. -/
theorem vmap_transparent_partial (hf : OfEntries f) (θ : Params P) (hV : Names V X1 (f θ X1) axes o) (h1 : OneByOne f axes o X1 n1) (h2 : OneByOne f axes o X2 n2)
    (same : Bool) (trace diagonal : List ℤ) (T D : List ℕ) (hn : (f θ X1).ndim = (f θ X2).ndim) (h : ReducedAxes (f θ X1).ndim trace diagonal T D)
    (hd : DistinctAxes (f θ X1).ndim trace) (hT : sizesAt T (f θ X1).shape = sizesAt T (f θ X2).shape) (hD : sizesAt D (f θ X1).shape = sizesAt D (f θ X2).shape) :
    ∃ z zV w wV, ntkJacobian (fun θ => f θ X1) (fun θ => f θ X2) θ trace diagonal = .ok z ∧ ntkJacobianV f θ V X1 (some X2) trace diagonal = .ok zV ∧
      ntkVectorProducts (fun θ => f θ X1) (fun θ => f θ X2) θ trace diagonal = .ok w ∧ ntkVectorProductsV f θ V X1 X2 same trace diagonal = .ok wV ∧
      zV ≋ z ∧ w ≋ z ∧ wV ≋ z := by
  obtain ⟨z, a1, b1⟩ := C72.jacobian_contraction (fun θ => f θ X1) (fun θ => f θ X2) θ trace diagonal T D hn h hd hT hD
  obtain ⟨w, a2, b2⟩ := C72.vector_products (fun θ => f θ X1) (fun θ => f θ X2) θ trace diagonal T D hn h hT hD
  obtain ⟨zV, a3, b3⟩ := jacobian_vmap hf θ hV h1 h2 trace diagonal T D hn h hd hT hD
  obtain ⟨wV, a4, b4⟩ := vector_products_vmap hf θ hV h1 h2 same trace diagonal T D hn h hT hD
  have key : ∀ {x y : Arr ℝ}, ReducedMean (f θ X1).shape (f θ X2).shape T D (tangentAt (fun θ => f θ X1) (fun θ => f θ X2) θ) x →
      ReducedMean (f θ X1).shape (f θ X2).shape T D (tangentAt (fun θ => f θ X1) (fun θ => f θ X2) θ) y → x ≋ y :=
    fun hx hy => reducedMean_unique hx hy hn hD fun a ha => ((h.diagonal.mem a).1 ha).1
  exact ⟨z, zV, w, wV, a1, a3, a2, a4, key b3 b1, key b2 b1, key b4 b1⟩

/-- Inputs are mapped but the axis of the output is `None`: both raise `ValueError`. -/
theorem output_axis_missing (f : ApplyFn P) (θ : Params P) (X1 X2 : List (Arr ℝ)) (same : Bool) (trace diagonal : List ℤ)
    (hi : List.Forall₂ (fun ax b => IsAxis ax.2.ndim ax.1 b) (V.inp.zip X1) axes) (hm : ∃ a ∈ axes, a.isSome) (ho : V.out = none) :
    ntkJacobianV f θ V X1 (some X2) trace diagonal = .error .valueError ∧ ntkVectorProductsV f θ V X1 X2 same trace diagonal = .error .valueError := by
  have hc := canonicalize_opt (o := none) (fx := f θ X1) hi (by rw [ho]; trivial)
  have hs : ∀ y : Arr ℝ, squeezable none y := fun y a ha => by cases ha
  constructor
  · unfold ntkJacobianV
    rw [hc]
    show (do let j1 ← jacobiansV f θ axes none X1; let j2 ← jacobiansV f θ axes none X2
             jacobianContraction (f θ X1).shape trace diagonal (List.ofFn j1) (List.ofFn j2)) = _
    have : jacobiansV f θ axes none X1 = .error .valueError := by
      unfold jacobiansV
      rw [if_pos (show mapped axes from hm)]
      rcases mapSize_cases axes X1 with ⟨n, e⟩ | e
      · rw [e]
        show (if _ then _ else _) = _
        rw [if_pos (hs _)]
      · rw [e]; rfl
    rw [this]; rfl
  · unfold ntkVectorProductsV
    rw [hc]
    show (do traceAndDiagonal (← ntkFullV f θ axes none X1 X2 same) trace diagonal) = _
    have : ntkFullV f θ axes none X1 X2 same = .error .valueError := by
      unfold ntkFullV
      rw [if_pos (show mapped axes from hm)]
      rcases mapSize_cases axes X2 with ⟨n, e⟩ | e
      · rcases mapSize_cases axes X1 with ⟨n', e'⟩ | e'
        · rw [e, e']
          show (if _ then _ else _) = _
          rw [if_pos ⟨hs _, hs _⟩]
        · rw [e, e']; rfl
      · rw [e]; rfl
    rw [this]; rfl

/-- Two inputs have different numbers of examples: both raise `ValueError`. -/
theorem examples_differ (f : ApplyFn P) (θ : Params P) (hV : Names V X1 (f θ X1) axes o) (X2 : List (Arr ℝ)) (same : Bool) (trace diagonal : List ℤ)
    {ax bx : Option ℕ × Arr ℝ} {a b : ℕ} (ha : ax ∈ axes.zip X1) (hb : bx ∈ axes.zip X1) (ea : ax.1 = some a) (eb : bx.1 = some b)
    (hne : ax.2.shape[a]? ≠ bx.2.shape[b]?) :
    ntkJacobianV f θ V X1 (some X2) trace diagonal = .error .valueError ∧ ntkVectorProductsV f θ V X1 X2 same trace diagonal = .error .valueError := by
  have he := mapSize_error ha hb ea eb hne
  constructor
  · unfold ntkJacobianV
    rw [canonicalize_ok hV]
    show (do let j1 ← jacobiansV f θ axes (some o) X1; let j2 ← jacobiansV f θ axes (some o) X2
             jacobianContraction (f θ X1).shape trace diagonal (List.ofFn j1) (List.ofFn j2)) = _
    have : jacobiansV f θ axes (some o) X1 = .error .valueError := by
      unfold jacobiansV
      rw [if_pos (show mapped axes from hV.mapped), he]
      rfl
    rw [this]; rfl
  · unfold ntkVectorProductsV
    rw [canonicalize_ok hV]
    show (do traceAndDiagonal (← ntkFullV f θ axes (some o) X1 X2 same) trace diagonal) = _
    have : ntkFullV f θ axes (some o) X1 X2 same = .error .valueError := by
      unfold ntkFullV
      rw [if_pos (show mapped axes from hV.mapped)]
      rcases mapSize_cases axes X2 with ⟨n, e⟩ | e
      · rw [e, he]; rfl
      · rw [e]; rfl
    rw [this]; rfl

/-- Only the axis of the output is named: unless it has size at most 1, both raise `ValueError`, as the axis is squeezed although nothing is mapped. -/
theorem input_axis_missing (f : ApplyFn P) (θ : Params P) (X1 X2 : List (Arr ℝ)) (same : Bool) (trace diagonal : List ℤ)
    (hi : ∀ a ∈ V.inp, a = none) (ho : IsAxis (f θ X1).ndim V.out (some o)) (hs : 2 ≤ (f θ X1).shape.getD o 0) :
    ntkJacobianV f θ V X1 (some X2) trace diagonal = .error .valueError ∧ ntkVectorProductsV f θ V X1 X2 same trace diagonal = .error .valueError := by
  obtain ⟨axes, hax, hnone⟩ : ∃ axes : List (Option ℕ), List.Forall₂ (fun ax b => IsAxis ax.2.ndim ax.1 b) (V.inp.zip X1) axes ∧ ∀ a ∈ axes, a = none := by
    refine ⟨(V.inp.zip X1).map fun _ => none, ?_, by simp⟩
    rw [List.forall₂_map_right_iff, List.forall₂_same]
    intro ax hx
    rw [hi ax.1 (List.of_mem_zip hx).1]
    trivial
  have hc := canonicalize_opt hax ho
  have hm : ¬ mapped axes := by
    rintro ⟨a, ha, hs⟩
    rw [hnone a ha] at hs
    cases hs
  have hsq : ¬ squeezable (some o) (f θ X1) := fun h => by
    have := h o rfl
    omega
  constructor
  · unfold ntkJacobianV
    rw [hc]
    show (do let j1 ← jacobiansV f θ axes (some o) X1; let j2 ← jacobiansV f θ axes (some o) X2
             jacobianContraction (f θ X1).shape trace diagonal (List.ofFn j1) (List.ofFn j2)) = _
    have : jacobiansV f θ axes (some o) X1 = .error .valueError := by
      unfold jacobiansV
      rw [if_neg hm, if_neg hsq]
    rw [this]; rfl
  · unfold ntkVectorProductsV
    rw [hc]
    show (do traceAndDiagonal (← ntkFullV f θ axes (some o) X1 X2 same) trace diagonal) = _
    have : ntkFullV f θ axes (some o) X1 X2 same = .error .valueError := by
      unfold ntkFullV
      rw [if_neg hm]
      dsimp only
      rw [if_neg fun h => hsq h.1]
    rw [this]; rfl

/-! ### A network with a keyword argument -/

/-- `θ[c] * x[b, 0] + m[0, b]`, at the index `(c, b)`: the examples are along the axis 0 of `x`, the axis 1 of `m` and the axis 1 of the output. -/
noncomputable def net (θ : Params fun _ : Fin 1 => [2]) (X : List (Arr ℝ)) : Arr ℝ :=
  match X with
  | [x, m] => ⟨[2, x.shape.getD 0 0], fun k => leaves θ 0 [k.getD 0 0] * (if InRange [k.getD 1 0, 0] x.shape then x.get [k.getD 1 0, 0] else 0) +
      (if InRange [0, k.getD 1 0] m.shape then m.get [0, k.getD 1 0] else 0)⟩
  | _ => ⟨[], fun _ => 0⟩

lemma net_entries : OfEntries net where
  eqv θ X Y h := by
    match X, Y, h with
    | [], [], _ => exact ⟨rfl, fun _ _ => rfl⟩
    | [_], [_], _ => exact ⟨rfl, fun _ _ => rfl⟩
    | [x, m], [y, p], .cons h1 (.cons h2 .nil) =>
      refine ⟨by simp only [net, h1.1], fun k _ => ?_⟩
      have key : ∀ {a b : Arr ℝ} (i : List ℕ), a ≋ b → (if InRange i a.shape then a.get i else 0) = if InRange i b.shape then b.get i else 0 := by
        intro a b i h
        rw [← h.1]
        exact if_ctx_congr Iff.rfl (h.2 i) fun _ => rfl
      simp only [net]
      rw [key _ h1, key _ h2]
    | _ :: _ :: _ :: _, _ :: _ :: _ :: _, _ => exact ⟨rfl, fun _ _ => rfl⟩
  shape θ θ' X := by
    match X with
    | [] => rfl
    | [_] => rfl
    | [x, m] => rfl
    | _ :: _ :: _ :: _ => rfl

lemma net_oneByOne (n : ℕ) (x m : Arr ℝ) (hx : x.shape = [n, 3]) (hm : m.shape = [5, n]) : OneByOne net [some 0, some 1] 1 [x, m] n where
  length := rfl
  sizes := by
    intro ax h a ha
    simp only [List.zip_cons_cons, List.zip_nil_left, List.mem_cons, List.not_mem_nil, or_false] at h
    rcases h with rfl | rfl <;> cases ha
    · simp [hx]
    · simp [hm]
  out θ := by simp [net, hx]
  shape θ e := by simp [net, oneExample, hx]
  get θ k hk := by
    simp only [net, hx, List.getD_cons_zero] at hk
    match k, hk with
    | [c, b], .cons h1 (.cons h2 .nil) =>
      have e1 : InRange [b, 0] [n, 3] := .cons h2 (.cons (by omega) .nil)
      have e2 : InRange [0, b] [5, n] := .cons (by omega) (.cons h2 .nil)
      have e3 : InRange [0, 0] [1, 3] := by decide
      have e4 : InRange [0, 0] [5, 1] := by decide
      simp only [net, oneExample, hx, hm, List.zipWith_cons_cons, List.zipWith_nil_left, List.getD_cons_zero, List.getD_cons_succ, List.set_cons_zero, List.set_cons_succ]
      rw [if_pos e1, if_pos e2, if_pos e3, if_pos e4]

/-- All hypotheses of `vmap_transparent_partial` for this network, 4 first and 6 second examples, `vmap_axes=(0, -1, {'m': -1})`, tracing over the outputs. -/
example (x1 m1 x2 m2 : Arr ℝ) (hx1 : x1.shape = [4, 3]) (hm1 : m1.shape = [5, 4]) (hx2 : x2.shape = [6, 3]) (hm2 : m2.shape = [5, 6])
    (θ : Params fun _ : Fin 1 => [2]) :
    ∃ zV wV, ntkJacobianV net θ ⟨[some 0, some (-1)], some (-1)⟩ [x1, m1] (some [x2, m2]) [0] [] = .ok zV ∧
      ntkVectorProductsV net θ ⟨[some 0, some (-1)], some (-1)⟩ [x1, m1] [x2, m2] false [0] [] = .ok wV ∧ wV ≋ zV ∧ zV.shape = [4, 6] := by
  have s1 : (net θ [x1, m1]).shape = [2, 4] := by simp [net, hx1]
  have s2 : (net θ [x2, m2]).shape = [2, 6] := by simp [net, hx2]
  have hV : Names ⟨[some 0, some (-1)], some (-1)⟩ [x1, m1] (net θ [x1, m1]) [some 0, some 1] 1 := by
    refine ⟨rfl, .cons ?_ (.cons ?_ .nil), ⟨some 0, by simp, rfl⟩, ?_⟩
    · simp [IsAxis, ndim, hx1]
    · simp [IsAxis, ndim, hm1]
    · simp [IsAxis, ndim, s1]
  have hr : ReducedAxes (net θ [x1, m1]).ndim [0] [] [0] [] := by
    rw [ndim, s1]
    refine ⟨⟨by decide, by decide, fun a => ?_⟩, ⟨by decide, by decide, fun a => ?_⟩, by decide⟩
    · simp only [List.mem_cons, List.not_mem_nil, or_false]; simp; omega
    · simp
  have hT : sizesAt [0] (net θ [x1, m1]).shape = sizesAt [0] (net θ [x2, m2]).shape := by rw [s1, s2]; rfl
  have hn : (net θ [x1, m1]).ndim = (net θ [x2, m2]).ndim := by rw [ndim, ndim, s1, s2]; rfl
  have hd : DistinctAxes (net θ [x1, m1]).ndim [0] := by rw [ndim, s1]; simp [DistinctAxes]
  obtain ⟨z, zV, w, wV, -, a, -, b, c, d, e⟩ := vmap_transparent_partial net_entries θ hV (net_oneByOne 4 x1 m1 hx1 hm1) (net_oneByOne 6 x2 m2 hx2 hm2) false [0] [] [0] []
    hn hr hd hT rfl
  obtain ⟨z', hz', hr'⟩ := jacobian_vmap net_entries θ hV (net_oneByOne 4 x1 m1 hx1 hm1) (net_oneByOne 6 x2 m2 hx2 hm2) [0] [] [0] [] hn hr hd hT rfl
  obtain rfl : zV = z' := by rw [a] at hz'; exact Except.ok.inj hz'
  refine ⟨zV, wV, a, b, ⟨e.1.trans c.1.symm, fun i hi => (e.2 i hi).trans (c.2 i (by rw [c.1, ← e.1]; exact hi)).symm⟩, ?_⟩
  rw [hr'.shape, s1, s2]
  rfl

/-! ### `x2=None` and keyword arguments of the second inputs -/

/-- `θ * m`: one parameter, the keyword argument `m` of shape `(1,)`. -/
noncomputable def scaled (θ : Params C72.oneP) (X : List (Arr ℝ)) : Arr ℝ :=
  match X with
  | [x, m] => ⟨x.shape, fun k => θ ⟨0, ⟨[], by decide⟩⟩ * if InRange k m.shape then m.get k else 0⟩
  | _ => ⟨[], fun _ => 0⟩

lemma scaled_entries : OfEntries scaled where
  eqv θ X Y h := by
    match X, Y, h with
    | [], [], _ => exact ⟨rfl, fun _ _ => rfl⟩
    | [_], [_], _ => exact ⟨rfl, fun _ _ => rfl⟩
    | [x, m], [y, p], .cons h1 (.cons h2 .nil) =>
      refine ⟨h1.1, fun k _ => ?_⟩
      simp only [scaled]
      rw [← h2.1]
      congr 1
      exact if_ctx_congr Iff.rfl (h2.2 k) fun _ => rfl
    | _ :: _ :: _ :: _, _ :: _ :: _ :: _, _ => exact ⟨rfl, fun _ _ => rfl⟩
  shape θ θ' X := by
    match X with
    | [] => rfl
    | [_] => rfl
    | [x, m] => rfl
    | _ :: _ :: _ :: _ => rfl

/-- The array `[c]`. -/
def single (c : ℝ) : Arr ℝ := ⟨[1], fun _ => c⟩

lemma scaled_oneByOne (c d : ℝ) : OneByOne scaled [some 0, some 0] 0 [single c, single d] 1 where
  length := rfl
  sizes := by
    intro ax h a ha
    simp only [List.zip_cons_cons, List.zip_nil_left, List.mem_cons, List.not_mem_nil, or_false] at h
    rcases h with rfl | rfl <;> cases ha <;> rfl
  out θ := rfl
  shape θ e := rfl
  get θ k hk := by
    have hk : InRange k [1] := hk
    match k, hk with
    | [a], .cons h .nil =>
      obtain rfl : a = 0 := by omega
      rfl

lemma scaled_tangent (θ : Params C72.oneP) (c d e f : ℝ) : tangentAt (fun θ => scaled θ [single c, single d]) (fun θ => scaled θ [single e, single f]) θ [0] [0] = d * f := by
  have hd : ∀ c d : ℝ, fderiv ℝ (fun θ : Params C72.oneP => (scaled θ [single c, single d]).get [0]) θ = d • EuclideanSpace.proj (𝕜 := ℝ) ⟨(0 : Fin 1), ⟨[], by decide⟩⟩ := by
    intro c d
    have e : (fun θ : Params C72.oneP => (scaled θ [single c, single d]).get [0]) =
        (d • EuclideanSpace.proj (𝕜 := ℝ) (⟨(0 : Fin 1), ⟨[], by decide⟩⟩ : Σ l : Fin 1, {p // p ∈ box (C72.oneP l)}) : Params C72.oneP →L[ℝ] ℝ) := by
      funext θ
      have : InRange [0] [1] := by decide
      simp [scaled, single, this, mul_comm]
    rw [e]
    exact ContinuousLinearMap.fderiv _
  rw [tangent_sum]
  have hu : ∀ p : {p // p ∈ box (C72.oneP 0)}, p = ⟨[], by decide⟩ := by
    rintro ⟨p, hp⟩
    simpa [C72.oneP, box_nil] using hp
  rw [Fin.sum_univ_one, Fintype.sum_eq_single ⟨[], by decide⟩ fun x hx => absurd (hu x) hx, hd, hd]
  simp

/-- With `x2=None` and a keyword argument that is a pair `(m1, m2)`, which is split into `m1` for the first and `m2` for the second inputs: with `vmap_axes`, NTK-vector
products use `m2` for the second network, while Jacobian contraction uses `m1` for both. -/
theorem none_disagree (θ : Params C72.oneP) : ∃ z z', ntkJacobianV scaled θ ⟨[some 0, some 0], some 0⟩ [single 1, single 2] none [] [] = .ok z ∧
    ntkVectorProductsV scaled θ ⟨[some 0, some 0], some 0⟩ [single 1, single 2] [single 1, single 3] true [] [] = .ok z' ∧ z.get [0, 0] = 4 ∧ z'.get [0, 0] = 6 := by
  have hV : Names ⟨[some 0, some 0], some 0⟩ [single 1, single 2] (scaled θ [single 1, single 2]) [some 0, some 0] 0 :=
    ⟨rfl, .cons (by simp [IsAxis, ndim, single]) (.cons (by simp [IsAxis, ndim, single]) .nil), ⟨some 0, by simp, rfl⟩, by simp [IsAxis, ndim, single, scaled]⟩
  have hr : ReducedAxes (scaled θ [single 1, single 2]).ndim [] [] [] [] :=
    ⟨⟨by simp, by simp, fun a => by simp⟩, ⟨by simp, by simp, fun a => by simp⟩, by simp⟩
  obtain ⟨z, hz, rz⟩ := jacobian_vmap scaled_entries θ hV (scaled_oneByOne 1 2) (scaled_oneByOne 1 2) [] [] [] [] rfl hr (by simp [DistinctAxes]) rfl rfl
  obtain ⟨z', hz', rz'⟩ := vector_products_vmap scaled_entries θ hV (scaled_oneByOne 1 2) (scaled_oneByOne 1 3) true [] [] [] [] rfl hr rfl rfl
  have hoff : InRangeOff [] [0] [1] := ⟨rfl, by decide⟩
  refine ⟨z, z', (jacobian_vmap_none scaled_entries θ hV (scaled_oneByOne 1 2) [] []).trans hz, hz', ?_, ?_⟩
  · have := rz.get [0] [0] hoff hoff (by simp)
    refine this.trans ?_
    simp [sizesAt, sumOver, indices]
    rw [show Spec.putAt [] [] [0] = [0] from rfl, scaled_tangent]
    norm_num
  · have := rz'.get [0] [0] hoff hoff (by simp)
    refine this.trans ?_
    simp [sizesAt, sumOver, indices]
    rw [show Spec.putAt [] [] [0] = [0] from rfl, scaled_tangent]
    norm_num

end NT.C96
