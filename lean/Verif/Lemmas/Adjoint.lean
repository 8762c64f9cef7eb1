import Verif.Spec.Linear
import Verif.Lemmas.Box
import Verif.Tac
import Mathlib.Data.List.GetD

/-!
# The backward pass is the adjoint of the forward evaluation
-/

namespace NT.Emp
open NT NT.Arr NT.Spec
open scoped BigOperators

variable {α : Type} [Field α] {J : Jaxpr α} {fx : List ℕ} {u : ℕ → List ℕ → α}

lemma pushEnv_stable (v : ℕ) : ∀ d, v < d → pushEnv J u d v = pushEnv J u (v + 1) v := by
  intro d hd
  induction d with
  | zero => omega
  | succ d ih =>
    by_cases h : v = d
    · rw [h]
    · have : pushEnv J u (d + 1) v = pushEnv J u d v := if_neg h
      rw [this, ih (by omega)]

/-- The value of a variable. -/
def value (J : Jaxpr α) (u : ℕ → List ℕ → α) : ℕ → List ℕ → α := pushEnv J u J.eqns.length

lemma value_eq (h : Typed J fx) {n : ℕ} {e : Eqn α} (he : J.eqns[n]? = some e) : value J u n = eqnVal e u (value J u) := by
  have hn : n < J.eqns.length := (List.getElem?_eq_some_iff.1 he).1
  unfold value
  rw [pushEnv_stable n _ hn]
  have : pushEnv J u (n + 1) n = eqnVal e u (pushEnv J u n) := by
    show (if n = n then _ else _) = _
    rw [if_pos rfl, he]
  rw [this]
  funext o
  unfold eqnVal
  refine Finset.sum_congr rfl fun k hk => Finset.sum_congr rfl fun i _ => ?_
  have hk := Finset.mem_range.1 hk
  rw [List.getD_eq_getElem _ _ hk]
  cases ha : e.args[k] with
  | param l => rfl
  | const => rfl
  | var v =>
    obtain ⟨hv, -⟩ := h.var n e he k v (by rw [List.getElem?_eq_getElem hk, ha])
    show e.jac k o i * pushEnv J u n v i = e.jac k o i * pushEnv J u J.eqns.length v i
    rw [pushEnv_stable v n hv, pushEnv_stable v J.eqns.length (by omega)]

/-! ### The variables that depend on the parameters -/

/-- What the search guarantees: an equation with an operand met so far is met, or the operand is still to be looked at. -/
def Closed (J : Jaxpr α) (vs : List Operand) (need : List ℕ) : Prop :=
  ∀ (n : ℕ) (e : Eqn α), J.eqns[n]? = some e → ∀ a ∈ e.args, ((∃ l, l < J.params.length ∧ a = .param l) ∨ ∃ v ∈ need, a = .var v) → a ∈ vs ∨ n ∈ need

omit [Field α] in
lemma mem_nextVisit {vs : List Operand} {need : List ℕ} {n : ℕ} :
    n ∈ J.nextVisit vs need ↔ n < J.eqns.length ∧ n ∉ need ∧ ∃ v ∈ vs, ∃ e ∈ J.eqns[n]?, v ∈ e.args := by
  unfold Jaxpr.nextVisit
  rw [List.mem_filter, List.mem_range]
  simp

omit [Field α] in
lemma closed_next {vs : List Operand} {need : List ℕ} (h : Closed J vs need) :
    Closed J ((J.nextVisit vs need).map .var) (need ++ J.nextVisit vs need) := by
  intro n e he a ha hcase
  have hn : n < J.eqns.length := (List.getElem?_eq_some_iff.1 he).1
  have old : ((∃ l, l < J.params.length ∧ a = .param l) ∨ ∃ v ∈ need, a = .var v) → n ∈ need ++ J.nextVisit vs need := by
    intro hc
    rcases h n e he a ha hc with h1 | h1
    · by_cases hm : n ∈ need
      · exact List.mem_append_left _ hm
      · exact List.mem_append_right _ (mem_nextVisit.2 ⟨hn, hm, a, h1, e, he, ha⟩)
    · exact List.mem_append_left _ h1
  rcases hcase with hc | ⟨v, hv, rfl⟩
  · exact Or.inr (old (Or.inl hc))
  · rcases List.mem_append.1 hv with hv | hv
    · exact Or.inr (old (Or.inr ⟨v, hv, rfl⟩))
    · exact Or.inl (List.mem_map.2 ⟨v, hv, rfl⟩)

omit [Field α] in
lemma visit_closed : ∀ (fuel : ℕ) (vs : List Operand) (need : List ℕ), Closed J vs need → need.Nodup → (∀ v ∈ need, v < J.eqns.length) →
    J.eqns.length + 2 ≤ fuel + need.length → Closed J [] (J.visit fuel vs need) := by
  intro fuel
  induction fuel with
  | zero =>
    intro vs need _ hn hl hf
    have : need.length ≤ J.eqns.length := by
      have : need ⊆ List.range J.eqns.length := fun a ha => List.mem_range.2 (hl a ha)
      simpa using (hn.subperm this).length_le
    omega
  | succ fuel ih =>
    intro vs need hc hn hl hf
    unfold Jaxpr.visit
    split_ifs with hv
    · rw [← hv]; exact hc
    · have hc' := closed_next hc
      have nd : (need ++ J.nextVisit vs need).Nodup := by
        rw [List.nodup_append]
        refine ⟨hn, List.nodup_range.filter _, fun a ha b hb e => ?_⟩
        subst e
        exact (mem_nextVisit.1 hb).2.1 ha
      have lt : ∀ v ∈ need ++ J.nextVisit vs need, v < J.eqns.length := fun v hv => (List.mem_append.1 hv).elim (hl v) fun h => (mem_nextVisit.1 h).1
      by_cases hx : J.nextVisit vs need = []
      · rw [hx, List.map_nil, List.append_nil] at hc' ⊢
        cases fuel with
        | zero => exact hc'
        | succ f =>
          unfold Jaxpr.visit
          rw [if_pos rfl]
          exact hc'
      · refine ih _ _ hc' nd lt ?_
        have := List.length_pos_iff.2 hx
        rw [List.length_append]
        omega

omit [Field α] in
lemma needCts_closed (J : Jaxpr α) : Closed J [] J.needCts := by
  refine visit_closed _ _ _ ?_ List.nodup_nil (by simp) (by simp)
  intro n e he a ha hc
  rcases hc with ⟨l, hl, rfl⟩ | ⟨v, hv, -⟩
  · exact Or.inl (List.mem_map.2 ⟨l, List.mem_range.2 hl, rfl⟩)
  · cases hv

/-- Variables that are not met do not depend on the parameters. -/
lemma value_zero (h : Typed J fx) : ∀ n, n < J.eqns.length → n ∉ J.needCts → value J u n = 0 := by
  intro n
  induction n using Nat.strong_induction_on with
  | _ n ih =>
    intro hn hx
    have he : J.eqns[n]? = some J.eqns[n] := List.getElem?_eq_getElem hn
    rw [value_eq h he]
    funext o
    unfold eqnVal
    refine Finset.sum_eq_zero fun k hk => Finset.sum_eq_zero fun i _ => ?_
    have hk := Finset.mem_range.1 hk
    rw [List.getD_eq_getElem _ _ hk]
    have hmem := List.getElem_mem hk
    cases ha : (J.eqns[n]).args[k] with
    | const => exact mul_zero _
    | param l =>
      obtain ⟨hl, -⟩ := h.param n _ he k l (by rw [List.getElem?_eq_getElem hk, ha])
      have := needCts_closed J n _ he _ hmem (Or.inl ⟨l, hl, ha⟩)
      simp [hx] at this
    | var v =>
      obtain ⟨hv, -⟩ := h.var n _ he k v (by rw [List.getElem?_eq_getElem hk, ha])
      have hvn : v ∉ J.needCts := by
        intro hv'
        have := needCts_closed J n _ he _ hmem (Or.inr ⟨v, hv', ha⟩)
        simp [hx] at this
      show _ * value J u v i = 0
      rw [ih v hv (by omega) hvn]
      exact mul_zero _

/-! ### The adjoint -/

/-- The shape of a variable. -/
def shapeOf (J : Jaxpr α) (v : ℕ) : List ℕ := ((J.eqns[v]?).map (·.out)).getD []

/-- What the uses of parameters in an equation with the cotangent `ct` contribute. -/
def paramPart (u : ℕ → List ℕ → α) (e : Eqn α) (ct : List ℕ → α) : α :=
  ∑ k ∈ Finset.range e.args.length, match e.args.getD k .const with
    | .param l => ∑ o ∈ box e.out, ∑ i ∈ box (e.shapes.getD k []), ct o * e.jac k o i * u l i
    | _ => 0

/-- The same for the equation number `n`. -/
def paramAt (J : Jaxpr α) (u : ℕ → List ℕ → α) (seed : List ℕ → α) (n : ℕ) : α :=
  match J.eqns[n]? with
  | none => 0
  | some e => paramPart u e (J.ctsIn seed n)

/-- What the output contributes if it is a parameter. -/
def paramOut (J : Jaxpr α) (fx : List ℕ) (u : ℕ → List ℕ → α) (seed : List ℕ → α) : α :=
  match J.out with
  | .param l => ∑ o ∈ box fx, seed o * u l o
  | _ => 0

/-- What the variables before the equation `n` contribute. -/
def varPart (J : Jaxpr α) (u : ℕ → List ℕ → α) (env : Jaxpr.Env α) (n : ℕ) : α := ∑ v ∈ Finset.range n, ∑ o ∈ box (shapeOf J v), env v o * value J u v o

lemma back_step (h : Typed J fx) (env : Jaxpr.Env α) {n : ℕ} {e : Eqn α} (he : J.eqns[n]? = some e) :
    varPart J u env (n + 1) = varPart J u (J.backStep env n) n + paramPart u e (env n) := by
  have hn : n < J.eqns.length := (List.getElem?_eq_some_iff.1 he).1
  have hso : shapeOf J n = e.out := by unfold shapeOf; rw [he]; rfl
  -- the contribution of the variable `n`, operand by operand
  have term : ∑ o ∈ box (shapeOf J n), env n o * value J u n o = ∑ k ∈ Finset.range e.args.length,
      ∑ o ∈ box e.out, ∑ i ∈ box (e.shapes.getD k []), env n o * e.jac k o i * operandVal u (value J u) (e.args.getD k .const) i := by
    rw [hso, value_eq h he, Finset.sum_comm]
    refine Finset.sum_congr rfl fun o _ => ?_
    unfold eqnVal
    rw [Finset.mul_sum]
    refine Finset.sum_congr rfl fun k _ => ?_
    rw [Finset.mul_sum]
    exact Finset.sum_congr rfl fun i _ => by ring
  have split : ∀ k, k < e.args.length → (∑ o ∈ box e.out, ∑ i ∈ box (e.shapes.getD k []), env n o * e.jac k o i * operandVal u (value J u) (e.args.getD k .const) i) =
      (∑ v ∈ Finset.range n, if e.args[k]? = some (.var v) then ∑ i ∈ box (shapeOf J v), (∑ o ∈ box e.out, env n o * e.jac k o i) * value J u v i else 0) +
      (match e.args.getD k .const with
        | .param l => ∑ o ∈ box e.out, ∑ i ∈ box (e.shapes.getD k []), env n o * e.jac k o i * u l i
        | _ => 0) := by
    intro k hk
    have e0 : e.args.getD k .const = e.args[k] := List.getD_eq_getElem _ _ hk
    have e1 : e.args[k]? = some e.args[k] := List.getElem?_eq_getElem hk
    rw [e0, e1]
    cases ha : e.args[k] with
    | param l =>
      simp only [Option.some.injEq, reduceCtorEq, if_false, Finset.sum_const_zero, zero_add]
      rfl
    | const =>
      simp only [Option.some.injEq, reduceCtorEq, if_false, Finset.sum_const_zero, zero_add]
      exact Finset.sum_eq_zero fun o _ => Finset.sum_eq_zero fun i _ => mul_zero _
    | var v =>
      obtain ⟨hv, e', he', hs⟩ := h.var n e he k v (by rw [e1, ha])
      rw [Finset.sum_eq_single v, if_pos rfl, add_zero, hs, show shapeOf J v = e'.out by unfold shapeOf; rw [he']; rfl, Finset.sum_comm]
      · refine Finset.sum_congr rfl fun i _ => ?_
        rw [Finset.sum_mul]
        rfl
      · intro v' _ hne
        rw [if_neg]
        simpa using fun e => hne e.symm
      · intro hx
        exact absurd (Finset.mem_range.2 hv) hx
  have step : varPart J u (J.backStep env n) n = varPart J u env n + ∑ k ∈ Finset.range e.args.length,
      ∑ v ∈ Finset.range n, if e.args[k]? = some (.var v) then ∑ i ∈ box (shapeOf J v), (∑ o ∈ box e.out, env n o * e.jac k o i) * value J u v i else 0 := by
    unfold varPart Jaxpr.backStep
    rw [he]
    dsimp only
    split_ifs with hc
    · rw [Finset.sum_comm (s := Finset.range e.args.length), ← Finset.sum_add_distrib]
      refine Finset.sum_congr rfl fun v hv => ?_
      have hv := Finset.mem_range.1 hv
      rw [← Finset.sum_filter, Finset.sum_comm, ← Finset.sum_add_distrib]
      refine Finset.sum_congr rfl fun i _ => ?_
      show ((if v = n then (0 : List ℕ → α) else env v) i + _) * _ = _
      rw [if_neg (by omega), add_mul, Finset.sum_mul]
    · have z : (∑ k ∈ Finset.range e.args.length, ∑ v ∈ Finset.range n,
          if e.args[k]? = some (.var v) then ∑ i ∈ box (shapeOf J v), (∑ o ∈ box e.out, env n o * e.jac k o i) * value J u v i else 0) = 0 := by
        refine Finset.sum_eq_zero fun k hk => Finset.sum_eq_zero fun v hv => ?_
        have hv := Finset.mem_range.1 hv
        split_ifs with ha
        · have hvn : v ∉ J.needCts := fun hv' => hc ⟨v, hv', List.mem_of_getElem? ha⟩
          refine Finset.sum_eq_zero fun i _ => ?_
          rw [value_zero h v (by omega) hvn]
          exact mul_zero _
        · rfl
      rw [z, add_zero]
      refine Finset.sum_congr rfl fun v hv => ?_
      have hv := Finset.mem_range.1 hv
      beta_reduce
      rw [if_neg (by omega)]
  rw [step]
  unfold varPart paramPart
  rw [Finset.sum_range_succ, term, add_assoc, ← Finset.sum_add_distrib]
  congr 1
  exact Finset.sum_congr rfl fun k hk => split k (Finset.mem_range.1 hk)

/-- The backward pass is adjoint to the forward evaluation. -/
lemma adjoint (h : Typed J fx) (seed : List ℕ → α) :
    ∑ o ∈ box fx, seed o * outValue J u o = ∑ n ∈ Finset.range J.eqns.length, paramAt J u seed n + paramOut J fx u seed := by
  have start : ∑ o ∈ box fx, seed o * outValue J u o = varPart J u (J.envAfter seed 0) J.eqns.length + paramOut J fx u seed := by
    unfold outValue paramOut varPart
    cases ho : J.out with
    | const =>
      rw [Finset.sum_eq_zero fun o _ => mul_zero _, Finset.sum_eq_zero, add_zero]
      intro v _
      refine Finset.sum_eq_zero fun o _ => ?_
      unfold Jaxpr.envAfter
      rw [ho, if_neg (by simp)]
      exact zero_mul _
    | param l =>
      symm
      rw [Finset.sum_eq_zero, zero_add]
      · rfl
      · intro v _
        refine Finset.sum_eq_zero fun o _ => ?_
        unfold Jaxpr.envAfter
        rw [ho, if_neg (by simp)]
        exact zero_mul _
    | var v =>
      obtain ⟨e, he, hs⟩ := h.outVar v ho
      have hv : v < J.eqns.length := (List.getElem?_eq_some_iff.1 he).1
      rw [Finset.sum_eq_single v, add_zero, show shapeOf J v = fx by unfold shapeOf; rw [he]; exact hs]
      · unfold Jaxpr.envAfter
        rw [ho, if_pos rfl]
        rfl
      · intro v' _ hne
        refine Finset.sum_eq_zero fun o _ => ?_
        unfold Jaxpr.envAfter
        rw [ho, if_neg (by simpa using fun e => hne e.symm)]
        exact zero_mul _
      · intro hx
        exact absurd (Finset.mem_range.2 hv) hx
  have key : ∀ d, d ≤ J.eqns.length → varPart J u (J.envAfter seed 0) J.eqns.length =
      varPart J u (J.envAfter seed d) (J.eqns.length - d) + ∑ n ∈ Finset.Ico (J.eqns.length - d) J.eqns.length, paramAt J u seed n := by
    intro d
    induction d with
    | zero => intro _; simp
    | succ d ih =>
      intro hd
      rw [ih (by omega)]
      obtain ⟨n, hn⟩ : ∃ n, J.eqns.length - d = n + 1 := ⟨J.eqns.length - d - 1, by omega⟩
      have hn' : J.eqns.length - (d + 1) = n := by omega
      have he : J.eqns[n]? = some J.eqns[n] := List.getElem?_eq_getElem (by omega)
      rw [hn, hn', back_step h _ he, Finset.sum_eq_sum_Ico_succ_bot (a := n) (by omega), add_assoc]
      congr 1
      · show _ = varPart J u (J.backStep (J.envAfter seed d) (J.eqns.length - 1 - d)) n
        rw [show J.eqns.length - 1 - d = n by omega]
      · congr 1
        unfold paramAt
        rw [he]
        show _ = paramPart u _ (J.ctsIn seed n)
        unfold Jaxpr.ctsIn
        rw [show J.eqns.length - 1 - n = d by omega]
  rw [start, key J.eqns.length le_rfl, Nat.sub_self]
  congr 1
  unfold varPart
  rw [Finset.sum_range_zero, zero_add, ← Finset.range_eq_Ico]

end NT.Emp
