import Verif.Spec.Rules
import Verif.Model.Structured

/-!
# Structures that fit the shapes, and the uses of a parameter
-/

namespace NT.Spec
open NT NT.Emp NT.Arr
open scoped BigOperators

/-- The structure `s` of a primitive fits its output of shape `out` and its operand number `idx` of shape `inp`: traced and diagonal axes are distinct axes of the output and of the
operand, with equal sizes, and diagonal axes are not broadcast. -/
structure FitsShapes (s : Structure) (idx : ℕ) (out inp : List ℕ) : Prop where
  traceLen : s.outTrace.length = s.inTrace.length
  diagFst : (diagPairs s idx).map (·.1) = s.outDiagonal
  outNodup : (s.outTrace ++ s.outDiagonal).Nodup
  inNodup : (s.inTrace ++ diagIns s idx).Nodup
  outLt : ∀ a ∈ s.outTrace ++ s.outDiagonal, a < out.length
  inLt : ∀ a ∈ s.inTrace ++ diagIns s idx, a < inp.length
  traceSize : Agree (tracePairs s) out inp
  diagSize : Agree (diagPairs s idx) out inp
  off : ∀ a ∈ s.outDiagonal, a ∉ s.outBroadcast

section
variable {α : Type} [Field α]

/-- The shape with which the result of an equation is read: a `reshape` is read with the shape of its operand (empirical.py:1902-1907). -/
def readShape (e : Eqn α) (k : ℕ) : List ℕ := if e.isReshape then e.shapes.getD k [] else e.out

/-- The Jacobian of the result that is read. -/
def readJac (e : Eqn α) (k : ℕ) : List ℕ → List ℕ → α := if e.isReshape then fun y w => if y = w then 1 else 0 else e.jac k

/-- The rules for the operand `k` of the equation `e` declare the structure `s` and are right. -/
structure RuleOk (e : Eqn α) (k : ℕ) (s : Structure) : Prop where
  struct : e.struct k = .ok s
  fits : FitsShapes s k (readShape e k) (e.shapes.getD k [])
  diagLen : s.inDiagonal.length = s.outDiagonal.length
  sortedTrace : s.inTrace.Pairwise (· < ·)
  sortedDiag : s.outDiagonal.Pairwise (· < ·)
  mild : ∀ a ∈ s.outBroadcast, a ∈ s.inTrace ∨ (e.shapes.getD k []).getD a 1 = 1
  reshape : e.isReshape = true → e.out.prod = (e.shapes.getD k []).prod ∧
    ∀ o w, InRange o e.out → InRange w (e.shapes.getD k []) → e.jac k o w = if ravel e.out o = ravel (e.shapes.getD k []) w then 1 else 0
  compact : ∀ s', Part s' s k (e.shapes.getD k []) → ∃ j, e.dydw k s' = .ok j ∧ Expands s' k (readShape e k) (e.shapes.getD k []) j (readJac e k)

/-- The structure `s` is declared for a use of the leaf `l`, as operand `k` of an equation, or as the output. -/
def Declares (J : Jaxpr α) (l k : ℕ) (s : Structure) : Prop :=
  (∃ (n : ℕ) (e : Eqn α), J.eqns[n]? = some e ∧ e.args[k]? = some (.param l) ∧ e.struct k = .ok s) ∨
  (J.out = .param l ∧ k = 0 ∧ s = Rules.eyeS 0 (J.params.getD l []) (J.params.getD l []))

/-- The structures declared for the uses of the leaf `l` in the two networks match: the axes traced in all uses are the same, the axes of the results that are diagonal in all uses
are the same, and are diagonal in the same axis of the leaf. -/
structure Matching (J1 J2 : Jaxpr α) (l : ℕ) : Prop where
  trace : ∀ a, (∀ k s, Declares J1 l k s → a ∈ s.inTrace) ↔ ∀ k s, Declares J2 l k s → a ∈ s.inTrace
  diag : ∀ a, (∀ k s, Declares J1 l k s → a ∈ s.outDiagonal) ↔ ∀ k s, Declares J2 l k s → a ∈ s.outDiagonal
  axes : ∀ k1 s1 k2 s2, Declares J1 l k1 s1 → Declares J2 l k2 s2 → ∀ o a b, (o, a) ∈ diagPairs s1 k1 → (o, b) ∈ diagPairs s2 k2 → a = b

/-- All uses of parameters have right rules. -/
def RulesFor (J : Jaxpr α) : Prop :=
  ∀ (n : ℕ) (e : Eqn α), J.eqns[n]? = some e → ∀ k l, e.args[k]? = some (.param l) → ∃ s, RuleOk e k s

/-- The ranks of the output, of the results of equations and of the parameters are at most 2000 (labels of axes above 100000 would clash, empirical.py:768-770). -/
structure SmallRanks (J : Jaxpr α) (fx : List ℕ) : Prop where
  out : fx.length ≤ 2000
  eqns : ∀ e ∈ J.eqns, e.out.length ≤ 2000
  params : ∀ p ∈ J.params, p.length ≤ 2000

end
end NT.Spec
