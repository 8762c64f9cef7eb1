import Verif.Model.Structured

/-!
# What a linearized network computes

The forward evaluation of a jaxpr of linear equations, one equation after the other, and its Jacobian.
-/

namespace NT.Spec
open NT NT.Emp
open scoped BigOperators

variable {α : Type} [Field α]

/-- The value of an operand, for tangents `u` of the parameters and values `env` of the variables.  Constants have no tangent. -/
def operandVal (u env : ℕ → List ℕ → α) : Operand → List ℕ → α
  | .param l => u l
  | .var n => env n
  | .const => fun _ => 0

/-- The value of the output of an equation. -/
def eqnVal (e : Eqn α) (u env : ℕ → List ℕ → α) (o : List ℕ) : α :=
  ∑ k ∈ Finset.range e.args.length, ∑ i ∈ box (e.shapes.getD k []), e.jac k o i * operandVal u env (e.args.getD k .const) i

/-- The values of the variables after the first `d` equations. -/
def pushEnv (J : Jaxpr α) (u : ℕ → List ℕ → α) : ℕ → ℕ → List ℕ → α
  | 0 => fun _ _ => 0
  | d + 1 => fun v => if v = d then (match J.eqns[d]? with | none => fun _ => 0 | some e => eqnVal e u (pushEnv J u d)) else pushEnv J u d v

/-- The value of the output of the network. -/
def outValue (J : Jaxpr α) (u : ℕ → List ℕ → α) : List ℕ → α := operandVal u (pushEnv J u J.eqns.length) J.out

/-- The entry of the Jacobian of the output at `i` with respect to the entry `w` of the leaf `l`: the value for the tangent that is one at this entry and
zero elsewhere. -/
def jacobianEntry (J : Jaxpr α) (l : ℕ) (i w : List ℕ) : α := outValue J (fun l' w' => if l' = l ∧ w' = w then 1 else 0) i

/-- The jaxpr is well formed, with an output of shape `fx`: equations refer to parameters and to earlier equations, and the shapes of the operands are right. -/
structure Typed (J : Jaxpr α) (fx : List ℕ) : Prop where
  var : ∀ (n : ℕ) (e : Eqn α), J.eqns[n]? = some e → ∀ k v, e.args[k]? = some (.var v) →
    v < n ∧ ∃ e', J.eqns[v]? = some e' ∧ e.shapes.getD k [] = e'.out
  param : ∀ (n : ℕ) (e : Eqn α), J.eqns[n]? = some e → ∀ k l, e.args[k]? = some (.param l) →
    l < J.params.length ∧ e.shapes.getD k [] = J.params.getD l []
  outVar : ∀ v, J.out = .var v → ∃ e, J.eqns[v]? = some e ∧ e.out = fx
  outParam : ∀ l, J.out = .param l → l < J.params.length ∧ J.params.getD l [] = fx

end NT.Spec
