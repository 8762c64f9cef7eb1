import Verif.Model.Rules
import Verif.Spec.Jacobian
import Verif.Spec.Box

/-!
# What the rules for a primitive promise
-/

namespace NT.Spec
open NT NT.Rules
open scoped BigOperators
variable {α : Type} [Field α]

/-- `J` is the Jacobian of the function `f` of arrays of shape `inp`, with values of shape `out`, that is linear up to a constant. -/
def IsJacobian (f : Arr α → Except Err (Arr α)) (inp out : List ℕ) (J : List ℕ → List ℕ → α) : Prop :=
  ∃ c : List ℕ → α, ∀ w : Arr α, w.shape = inp → ∃ y, f w = .ok y ∧ y.shape = out ∧
    ∀ o, InRange o out → y.get o = c o + ∑ i ∈ box inp, J o i * w.get i

/-- The index with zero at the axes `as`. -/
def squash (as i : List ℕ) : List ℕ := i.mapIdx fun x d => if x ∈ as then 0 else d

/-- The input axes of the block diagonal axes. -/
def diagIns (s : Structure) (idx : ℕ) : List ℕ := (diagPairs s idx).map (·.2)

/-- The compact array `j` stands for the Jacobian `J`: it has size one at the traced and broadcast axes of the output and at the traced and diagonal axes
of the input; the Jacobian is zero where the indices differ at a traced or diagonal pair of axes, and elsewhere does not depend on the axes of size
one. -/
structure Expands (s : Structure) (idx : ℕ) (out inp : List ℕ) (j : Arr α) (J : List ℕ → List ℕ → α) : Prop where
  shape : j.shape = trim (s.outTrace ++ s.outBroadcast) out ++ trim (s.inTrace ++ diagIns s idx) inp
  zero : ∀ o i, InRange o out → InRange i inp → ¬ (Agree (tracePairs s) o i ∧ Agree (diagPairs s idx) o i) → J o i = 0
  get : ∀ o i, InRange o out → InRange i inp → Agree (tracePairs s) o i → Agree (diagPairs s idx) o i →
    J o i = j.get (squash (s.outTrace ++ s.outBroadcast) o ++ squash (s.inTrace ++ diagIns s idx) i)

/-- `s'` is a part of the structure `s`, as after `__and__` with the structures of other uses of the variable.  (`__and__` declares broadcast
input axes; the last field says that trimming them changes nothing.) -/
structure Part (s' s : Structure) (idx : ℕ) (inp : List ℕ) : Prop where
  traceLen : s'.outTrace.length = s'.inTrace.length
  trace : ∀ p ∈ tracePairs s', p ∈ tracePairs s
  diagLen : s'.outDiagonal.length = s'.inDiagonal.length
  diag : (s'.outDiagonal.zip s'.inDiagonal).Sublist (s.outDiagonal.zip s.inDiagonal)
  broadcast : ∀ a ∈ s'.outBroadcast, a ∈ s.outBroadcast
  inBroadcast : idx = s'.inBroadcastIdx → ∀ a ∈ s'.inBroadcast, a ∈ s'.inTrace ∨ inp.getD a 1 = 1

/-- The rules for the primitive `f` (as a function of its operand number `idx`) are right: the declared structure passes the checks, the Jacobian rule gives
the Jacobian, and for each part of the structure the compact form stands for the Jacobian. -/
structure RulesOk (f : Arr α → Except Err (Arr α)) (rule : List ℕ → Arr α → List ℕ → Except Err (Arr α)) (s : Structure) (idx : ℕ)
    (shapes : List (List ℕ)) (inp : List ℕ) (other : Arr α) (out : List ℕ) (J : List ℕ → List ℕ → α) : Prop where
  checked : checked s idx shapes out = .ok s
  jacobian : IsJacobian f inp out J
  full : ∃ j, rule inp other out = .ok j ∧ j.shape = out ++ inp ∧ ∀ o i, InRange o out → InRange i inp → j.get (o ++ i) = J o i
  compact : ∀ s', Part s' s idx inp → ∃ j, compact rule s' idx inp other out = .ok j ∧ Expands s' idx out inp j J

end NT.Spec
