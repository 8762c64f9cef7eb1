import Verif.Lemmas.Structured7
import Verif.Lemmas.Structured8
import Verif.Spec.Linearize
import Verif.Props.C72

/-!
# C94: the empirical NTK by structured derivatives

For networks whose linearizations consist of primitives with right rules, structured derivatives return the contraction over all parameters of the two
Jacobians, with the requested traced and diagonal axes: the same array as Jacobian contraction and NTK-vector products.
-/

namespace NT.C94
open NT NT.Spec NT.Emp NT.Rules
open NT.Arr
open scoped BigOperators

/-- For all linear programs `J1`, `J2` of the same parameters, and all traced and diagonal axes. -/
theorem structured_derivatives {α : Type} [Field α] {S1 S2 T D : List ℕ} {J1 J2 : Jaxpr α} (t1 : Typed J1 S1) (t2 : Typed J2 S2) (hp : J1.params = J2.params)
    (r1 : RulesFor J1) (r2 : RulesFor J2) (k1 : SmallRanks J1 S1) (k2 : SmallRanks J2 S2)
    (hm : ∀ l, (∃ k s, Declares J1 l k s) → (∃ k s, Declares J2 l k s) → Matching J1 J2 l) (hS : S1.length = S2.length)
    {trace diagonal : List ℤ} (h : ReducedAxes S1.length trace diagonal T D) (hd : DistinctAxes S1.length trace)
    (hT : sizesAt T S1 = sizesAt T S2) (hD : sizesAt D S1 = sizesAt D S2) :
    ∃ z, structuredNtk J1 J2 S1 S2 trace diagonal = .ok z ∧ ReducedMean S1 S2 T D (fun i j =>
      ∑ l ∈ Finset.range J1.params.length, ∑ w ∈ box (J1.params.getD l []), jacobianEntry J1 l i w * jacobianEntry J2 l j w) z :=
  structuredNtk_ok t1 t2 hp r1 r2 k1 k2 hm hS h hd hT hD

lemma leaves_single {L : ℕ} {P : Fin L → List ℕ} (l : Fin L) (p : {p // p ∈ box (P l)}) :
    leaves (EuclideanSpace.single (⟨l, p⟩ : Σ l : Fin L, {p // p ∈ box (P l)}) (1 : ℝ)) = fun (l' : ℕ) w' => if l' = l ∧ w' = p.1 then 1 else 0 := by
  funext l' w'
  unfold leaves
  by_cases h : ∃ hl : l' < L, w' ∈ box (P ⟨l', hl⟩)
  · rw [dif_pos h, PiLp.single_apply]
    obtain ⟨hl, hw⟩ := h
    by_cases hll : l' = l
    · subst hll
      by_cases hww : w' = p.1
      · subst hww
        simp
      · rw [if_neg, if_neg (by tauto)]
        intro he
        have := (Sigma.mk.inj he).2
        exact hww (congrArg Subtype.val (eq_of_heq this))
    · rw [if_neg, if_neg (by tauto)]
      intro he
      exact hll (congrArg Fin.val (Sigma.mk.inj he).1)
  · rw [dif_neg h, if_neg]
    rintro ⟨rfl, rfl⟩
    exact h ⟨l.2, p.2⟩

/-- The entries of the Jacobian of a linearization are the partial derivatives of the network. -/
theorem linearization_jacobian {L : ℕ} {P : Fin L → List ℕ} {J : Jaxpr ℝ} {f : Params P → Arr ℝ} {θ : Params P} (h : Linearizes J f θ) (l : Fin L)
    (p : {p // p ∈ box (P l)}) {i : List ℕ} (hi : InRange i (f θ).shape) :
    jacobianEntry J l i p = fderiv ℝ (fun θ => (f θ).get i) θ (EuclideanSpace.single ⟨l, p⟩ 1) := by
  rw [← h.value _ i hi, leaves_single]
  rfl

variable {m : ℕ} {P : Fin (m + 1) → List ℕ} (f1 f2 : Params P → Arr ℝ) (θ : Params P)

/-- The inner products of gradients, for linearizations `J1`, `J2` of two networks at the parameters `θ`. -/
theorem structured_derivatives_tangent {J1 J2 : Jaxpr ℝ} (h1 : Linearizes J1 f1 θ) (h2 : Linearizes J2 f2 θ) (r1 : RulesFor J1) (r2 : RulesFor J2)
    (k1 : SmallRanks J1 (f1 θ).shape) (k2 : SmallRanks J2 (f2 θ).shape)
    (hm : ∀ l, (∃ k s, Declares J1 l k s) → (∃ k s, Declares J2 l k s) → Matching J1 J2 l)
    (trace diagonal : List ℤ) (T D : List ℕ) (hn : (f1 θ).ndim = (f2 θ).ndim)
    (h : ReducedAxes (f1 θ).ndim trace diagonal T D) (hd : DistinctAxes (f1 θ).ndim trace)
    (hT : sizesAt T (f1 θ).shape = sizesAt T (f2 θ).shape) (hD : sizesAt D (f1 θ).shape = sizesAt D (f2 θ).shape) :
    ∃ z, structuredNtk J1 J2 (f1 θ).shape (f2 θ).shape trace diagonal = .ok z ∧ ReducedMean (f1 θ).shape (f2 θ).shape T D (tangentAt f1 f2 θ) z := by
  obtain ⟨z, hz, hr⟩ := structured_derivatives h1.typed h2.typed (h1.params.trans h2.params.symm) r1 r2 k1 k2 hm hn h hd hT hD
  refine ⟨z, hz, mean_congr hr hT fun i j hi hj => ?_⟩
  rw [tangent_sum, h1.params, List.length_ofFn, Finset.sum_range]
  refine Finset.sum_congr rfl fun l _ => ?_
  have hg : (List.ofFn P).getD l [] = P l := by
    rw [List.getD_eq_getElem _ _ (by rw [List.length_ofFn]; exact l.2), List.getElem_ofFn]
  rw [hg, ← Finset.sum_coe_sort (box (P l))]
  refine Finset.sum_congr rfl fun p _ => ?_
  rw [linearization_jacobian h1 l p hi, linearization_jacobian h2 l p hj]

/-- The three implementations return the same array. -/
theorem implementations_agree {J1 J2 : Jaxpr ℝ} (h1 : Linearizes J1 f1 θ) (h2 : Linearizes J2 f2 θ) (r1 : RulesFor J1) (r2 : RulesFor J2)
    (k1 : SmallRanks J1 (f1 θ).shape) (k2 : SmallRanks J2 (f2 θ).shape)
    (hm : ∀ l, (∃ k s, Declares J1 l k s) → (∃ k s, Declares J2 l k s) → Matching J1 J2 l)
    (trace diagonal : List ℤ) (T D : List ℕ) (hn : (f1 θ).ndim = (f2 θ).ndim)
    (h : ReducedAxes (f1 θ).ndim trace diagonal T D) (hd : DistinctAxes (f1 θ).ndim trace)
    (hT : sizesAt T (f1 θ).shape = sizesAt T (f2 θ).shape) (hD : sizesAt D (f1 θ).shape = sizesAt D (f2 θ).shape) :
    ∃ z z' z'', structuredNtk J1 J2 (f1 θ).shape (f2 θ).shape trace diagonal = .ok z ∧ ntkJacobian f1 f2 θ trace diagonal = .ok z' ∧
      ntkVectorProducts f1 f2 θ trace diagonal = .ok z'' ∧ z ≋ z' ∧ z ≋ z'' := by
  obtain ⟨z, hz, hr⟩ := structured_derivatives_tangent f1 f2 θ h1 h2 r1 r2 k1 k2 hm trace diagonal T D hn h hd hT hD
  obtain ⟨z', hz', hr'⟩ := C72.jacobian_contraction f1 f2 θ trace diagonal T D hn h hd hT hD
  obtain ⟨z'', hz'', hr''⟩ := C72.vector_products f1 f2 θ trace diagonal T D hn h hT hD
  have hDl : ∀ a ∈ D, a < (f1 θ).shape.length := fun a ha => ((h.diagonal.mem a).1 ha).1
  exact ⟨z, z', z'', hz, hz', hz'', reducedMean_unique hr hr' hn hD hDl, reducedMean_unique hr hr'' hn hD hDl⟩

/-- Two networks whose uses of a leaf declare the same structures, without diagonal axes, match.  This is the case for a network at two inputs of which no batch has size
one, and parameters that are only added to or contracted with features. -/
theorem matching_of_same {α : Type} [Field α] {J1 J2 : Jaxpr α} {l : ℕ} (h : ∀ s, (∃ k, Declares J1 l k s) ↔ ∃ k, Declares J2 l k s)
    (hd : ∀ k s, Declares J1 l k s → s.outDiagonal = []) : Matching J1 J2 l := by
  have ex : ∀ (Q : Structure → Prop), (∀ k s, Declares J1 l k s → Q s) ↔ ∀ k s, Declares J2 l k s → Q s := by
    intro Q
    constructor
    · intro hq k s hs
      obtain ⟨k', hk⟩ := (h s).2 ⟨k, hs⟩
      exact hq k' s hk
    · intro hq k s hs
      obtain ⟨k', hk⟩ := (h s).1 ⟨k, hs⟩
      exact hq k' s hk
  refine ⟨fun a => ex fun s => a ∈ s.inTrace, fun a => ex fun s => a ∈ s.outDiagonal, ?_⟩
  intro k1 s1 k2 s2 h1 _ o a b ho
  have : diagPairs s1 k1 = [] := by rw [diagPairs, hd k1 s1 h1]; rfl
  rw [this] at ho
  cases ho

/-- The rules of the primitives are right, so that structured derivatives apply to all linear programs whose uses of parameters are operands of such primitives, or of
primitives without rules. -/
theorem primitives_have_rules {α : Type} [Field α] {J : Jaxpr α} (h : Primitives J) : RulesFor J := fun n e he k l hk => primitive_ok (h n e he k l hk)

/-- If the numbers of traced axes of two uses differ the contraction is refused. -/
theorem unequal_traces_raise {α : Type} [Field α] (S1 S2 y1 y2 T D : List ℕ) (df1 df2 j1 j2 : Arr α) (s1 s2 : Structure) (hn : S1.length = S2.length)
    (h1 : df1.shape = S1 ++ y1) (h2 : df2.shape = S2 ++ y2) (hS : ∀ a < S1.length, a ∈ T ∨ a ∈ D → S1.getD a 0 = S2.getD a 0)
    (h : s1.outTrace.length ≠ s2.outTrace.length) : contractPair S1.length T D df1 df2 j1 j2 s1 s2 = .error .notImplemented := by
  unfold contractPair
  rw [getDims_ok (by rw [h2, List.length_append]; omega), ok_bind]
  · dsimp only
    rw [if_pos h]
  · intro a ha hm
    rw [h1, h2, List.getD_append _ _ _ _ ha, List.getD_append _ _ _ _ (by omega)]
    exact hS a ha hm

/-! ### An example -/

section Example

/-- The derivative with respect to `W` of shape `[2, 3]` and `b` of shape `[2]` of the function with values `∑ j, W i j + b i`: a `reduce_sum` and an `add`. -/
noncomputable def exSum : Eqn ℝ where
  out := [2]
  args := [.param 0]
  shapes := [[2, 3]]
  jac := fun _ o w => if o = gather [0] w then 1 else 0
  struct := fun k => do checked (← .ok (reduceSumS 0 [1] [2, 3] [2])) k [[2, 3]] [2]
  dydw := fun k s => compact (reduceSumJ [1]) s k [2, 3] ⟨[], fun _ => 0⟩ [2]

noncomputable def exAdd : Eqn ℝ where
  out := [2]
  args := [.var 0, .param 1]
  shapes := [[2], [2]]
  jac := fun _ o w => if o = w then 1 else 0
  struct := fun k => do checked (← addS k [2] [2]) k [[2], [2]] [2]
  dydw := fun k s => compact (addJ false k) s k [2] ⟨[2], fun _ => 0⟩ [2]

noncomputable def exJ : Jaxpr ℝ where
  params := [[2, 3], [2]]
  eqns := [exSum, exAdd]
  out := .var 1

lemma ex_eqns {n : ℕ} {e : Eqn ℝ} (h : exJ.eqns[n]? = some e) : (n = 0 ∧ e = exSum) ∨ (n = 1 ∧ e = exAdd) := by
  match n, h with
  | 0, h => exact Or.inl ⟨rfl, (Option.some.inj h).symm⟩
  | 1, h => exact Or.inr ⟨rfl, (Option.some.inj h).symm⟩
  | n + 2, h => cases h

lemma ex_sum {k : ℕ} {a : Operand} (h : exSum.args[k]? = some a) : k = 0 ∧ a = .param 0 := by
  match k, h with
  | 0, h => exact ⟨rfl, (Option.some.inj h).symm⟩
  | k + 1, h => cases h

lemma ex_add {k : ℕ} {a : Operand} (h : exAdd.args[k]? = some a) : (k = 0 ∧ a = .var 0) ∨ (k = 1 ∧ a = .param 1) := by
  match k, h with
  | 0, h => exact Or.inl ⟨rfl, (Option.some.inj h).symm⟩
  | 1, h => exact Or.inr ⟨rfl, (Option.some.inj h).symm⟩
  | k + 2, h => cases h

lemma ex_primitives : Primitives exJ := by
  intro n e he k l hk
  rcases ex_eqns he with ⟨rfl, rfl⟩ | ⟨rfl, rfl⟩
  · obtain ⟨rfl, -⟩ := ex_sum hk
    refine .reduceSum (axes := [1]) (inp := [2, 3]) (other := ⟨[], fun _ => 0⟩) rfl rfl (by decide) (by decide) ⟨rfl, rfl, fun _ => rfl, fun _ => 0, fun w hw => ?_⟩
    have hw : w.shape = [2, 3] := hw
    have hF : freeAxes w.ndim [1] = [0] := by
      show freeAxes w.shape.length [1] = _
      rw [hw]
      rfl
    refine ⟨_, rfl, ?_, fun o _ => ?_⟩
    · show gather (freeAxes w.ndim [1]) w.shape = [2]
      rw [hF, hw]
      rfl
    · show (((indices w.shape).filter fun i => gather (freeAxes w.ndim [1]) i == o).map w.get).sum = 0 + ∑ i ∈ box [2, 3], (if o = gather [0] i then 1 else 0) * w.get i
      rw [hF, hw, zero_add]
      simp only [box_sum_cons, sum_box_nil, Finset.sum_range_succ, Finset.sum_range_zero, zero_add]
      have hi : indices [2, 3] = [[0, 0], [0, 1], [0, 2], [1, 0], [1, 1], [1, 2]] := rfl
      rw [hi]
      simp only [List.filter_cons, List.filter_nil, gather, List.map_cons, List.map_nil, List.getD_cons_zero]
      by_cases h0 : o = [0]
      · subst h0; simp [add_assoc]
      · by_cases h1 : o = [1]
        · subst h1; simp [add_assoc]
        · simp [h0, h1, Ne.symm h0, Ne.symm h1]
  · rcases ex_add hk with ⟨-, h⟩ | ⟨rfl, -⟩
    · cases h
    · refine .add (isSub := false) (inp := [2]) (other := ⟨[2], fun _ => 0⟩) (by decide) rfl (Or.inr (Or.inr ⟨rfl, by decide⟩)) rfl ⟨rfl, rfl, fun _ => rfl, ?_⟩
      refine isJacobian_of_read (fun _ => 0) fun w hw => ?_
      have hw : w.shape = [2] := hw
      obtain ⟨y, h1, h2, h3⟩ := addOp_ok false 1 (by decide) ⟨[2], fun _ => 0⟩ w (by rw [hw]; exact Or.inr (Or.inr ⟨rfl, by decide⟩))
      rw [hw] at h2 h3
      refine ⟨y, h1, h2, fun o ho => Or.inl ⟨o, ho, fun i _ hne => if_neg (Ne.symm hne), ?_⟩⟩
      rw [h3 o ho, bcastIdx_self (show InRange o [2] from ho)]
      simp [exAdd]

lemma ex_typed : Typed exJ [2] where
  var := by
    intro n e he k v hk
    rcases ex_eqns he with ⟨rfl, rfl⟩ | ⟨rfl, rfl⟩
    · cases (ex_sum hk).2
    · rcases ex_add hk with ⟨rfl, h⟩ | ⟨-, h⟩
      · cases h
        exact ⟨by decide, exSum, rfl, rfl⟩
      · cases h
  param := by
    intro n e he k l hk
    rcases ex_eqns he with ⟨rfl, rfl⟩ | ⟨rfl, rfl⟩
    · obtain ⟨rfl, h⟩ := ex_sum hk
      cases h
      exact ⟨by decide, rfl⟩
    · rcases ex_add hk with ⟨-, h⟩ | ⟨rfl, h⟩
      · cases h
      · cases h
        exact ⟨by decide, rfl⟩
  outVar := by
    intro v hv
    cases hv
    exact ⟨exAdd, rfl, rfl⟩
  outParam := by
    intro l hl
    cases hl

lemma ex_ranks : SmallRanks exJ [2] :=
  ⟨by decide, by simp [exJ, exSum, exAdd], by simp [exJ]⟩

lemma ex_matching (l : ℕ) : Matching exJ exJ l := by
  refine matching_of_same (fun _ => Iff.rfl) fun k s h => ?_
  rcases h with ⟨n, e, he, hk, hs⟩ | ⟨h, -⟩
  · rcases ex_eqns he with ⟨rfl, rfl⟩ | ⟨rfl, rfl⟩
    · obtain ⟨rfl, -⟩ := ex_sum hk
      have h2 : exSum.struct 0 = .ok (reduceSumS 0 [1] [2, 3] [2]) := by decide
      rw [h2] at hs
      cases hs
      rfl
    · rcases ex_add hk with ⟨-, h⟩ | ⟨rfl, -⟩
      · cases h
      · have h2 : exAdd.struct 1 = .ok { outTrace := [0], inTrace := [0], inTraceIdxs := [0, 1], outBroadcast := [], outBroadcastIdxs := [0] } := by decide
        rw [h2] at hs
        cases hs
        rfl
  · cases h

lemma ex_value (u : ℕ → List ℕ → ℝ) {i : List ℕ} (hi : InRange i [2]) :
    outValue exJ u i = (∑ w ∈ box [2, 3], (if i = gather [0] w then 1 else 0) * u 0 w) + u 1 i := by
  show eqnVal exAdd u (pushEnv exJ u 1) i = _
  unfold eqnVal
  have hd : ∀ g : List ℕ → ℝ, ∑ v ∈ box [2], (if i = v then 1 else 0) * g v = g i := by
    intro g
    rw [Finset.sum_eq_single i (fun v _ hv => by rw [if_neg (Ne.symm hv), zero_mul]) fun h => absurd (mem_box.2 hi) h, if_pos rfl, one_mul]
  show ∑ k ∈ Finset.range 2, _ = _
  rw [Finset.sum_range_succ, Finset.sum_range_one]
  refine congrArg₂ _ ((hd _).trans ?_) (hd _)
  show eqnVal exSum u (pushEnv exJ u 0) i = _
  unfold eqnVal
  show ∑ k ∈ Finset.range 1, _ = _
  rw [Finset.sum_range_one]
  rfl

/-- The function itself, which `exJ` linearizes at any parameters. -/
noncomputable def exNet (θ : Params ![[2, 3], [2]]) : Arr ℝ :=
  ⟨[2], fun i => (∑ w ∈ box [2, 3], (if i = gather [0] w then 1 else 0) * leaves θ 0 w) + leaves θ 1 i⟩

example (θ : Params ![[2, 3], [2]]) : Linearizes exJ exNet θ where
  typed := ex_typed
  params := rfl
  value := by
    intro u i hi
    have hadd : ∀ (u v : Params ![[2, 3], [2]]) l w, leaves (u + v) l w = leaves u l w + leaves v l w := by
      intro u v l w
      unfold leaves
      split <;> simp
    have hsmul : ∀ (c : ℝ) (u : Params ![[2, 3], [2]]) l w, leaves (c • u) l w = c * leaves u l w := by
      intro c u l w
      unfold leaves
      split <;> simp
    let F : Params ![[2, 3], [2]] →ₗ[ℝ] ℝ :=
      { toFun := fun θ => (exNet θ).get i
        map_add' := fun u v => by
          simp only [exNet, hadd, mul_add, Finset.sum_add_distrib]
          ring
        map_smul' := fun c u => by
          simp only [exNet, hsmul, RingHom.id_apply, smul_eq_mul, mul_add, Finset.mul_sum]
          refine congrArg (· + _) (Finset.sum_congr rfl fun w _ => by ring) }
    have hF : (fun θ => (exNet θ).get i) = LinearMap.toContinuousLinearMap F := rfl
    rw [hF, ContinuousLinearMap.fderiv, ex_value _ hi]
    rfl

lemma ex_axes : IsAxes 1 [] [] := ⟨by decide, by decide, fun a => by simp⟩

/-- The kernel of the example is `4` on the diagonal: three products for `W` and one for `b`. -/
example : ∃ z, structuredNtk exJ exJ [2] [2] [] [] = .ok z ∧ ReducedMean [2] [2] [] [] (fun i j => if i = j then 4 else 0) z := by
  have hr := primitives_have_rules ex_primitives
  obtain ⟨z, hz, hm⟩ := structured_derivatives (T := []) (D := []) (trace := []) (diagonal := []) ex_typed ex_typed rfl hr hr ex_ranks ex_ranks
    (fun l _ _ => ex_matching l) rfl ⟨ex_axes, ex_axes, by simp⟩ (by simp [DistinctAxes]) rfl rfl
  refine ⟨z, hz, mean_congr hm rfl fun i j hi hj => ?_⟩
  show ∑ l ∈ Finset.range 2, _ = _
  rw [Finset.sum_range_succ, Finset.sum_range_one]
  show (∑ w ∈ box [2, 3], _) + ∑ w ∈ box [2], _ = _
  unfold jacobianEntry
  simp only [ex_value _ hi, ex_value _ hj]
  simp only [box_sum_cons, sum_box_nil, Finset.sum_range_succ, Finset.sum_range_zero, zero_add]
  have key : ∀ i, InRange i [2] → i = [0] ∨ i = [1] := by
    intro i hi
    rw [inRange_cons_right] at hi
    obtain ⟨a, l, rfl, ha, hl⟩ := hi
    rw [inRange_nil_right] at hl
    subst hl
    obtain rfl | rfl : a = 0 ∨ a = 1 := by omega
    · exact Or.inl rfl
    · exact Or.inr rfl
  rcases key i hi with rfl | rfl <;> rcases key j hj with rfl | rfl <;> norm_num [gather]

/-- The equation of a dense layer, `x @ W` with inputs `x` of shape `[5, 3]` and weights of shape `[3, 4]`: a `dot_general`. -/
noncomputable def exDot (x : Arr ℝ) : Eqn ℝ where
  out := [5, 4]
  args := [.const, .param 0]
  shapes := [[5, 3], [3, 4]]
  jac := fun _ => dotJac 1 2 [0] [] [1] [] x
  struct := fun k => checked (dotS k [0] [] [] 2 2) k [[5, 3], [3, 4]] [5, 4]
  dydw := fun k s => compact (dotJ k [0] [] [1] []) s k [3, 4] x [5, 4]

example (x : Arr ℝ) (hx : x.shape = [5, 3]) : Primitive (exDot x) 1 := by
  have hd : DotDims [0] [] [1] [] [3, 4] x.shape := by
    rw [hx]
    exact ⟨by decide, by decide, by decide, by decide, by decide, by decide⟩
  have hr := (rules_dot (idx := 1) (by decide) x hd).jacobian
  rw [hx] at hr
  exact .dot (C := [0]) (B := []) (oC := [1]) (oB := []) (inp := [3, 4]) (other := x) (by decide) (by rw [hx]; rfl) hd (by rw [hx]; rfl)
    ⟨rfl, by rw [show x.ndim = 2 from congrArg List.length hx]; rfl, fun _ => rfl, hr⟩

end Example

end NT.C94
