import Verif.Model.Structure

/-!
# What a declared structure promises about a Jacobian

A Jacobian of a primitive with output of shape `out` with respect to an input of shape `inp` is a function of the index into the
output and the index into the input.
-/

namespace NT.Spec
open NT

/-- The pairs (output axis, input axis) of the constant block diagonal axes. -/
def tracePairs (s : Structure) : List (ℕ × ℕ) := s.outTrace.zip s.inTrace

/-- The pairs (output axis, input axis) of the block diagonal axes, for the input number `idx`. -/
def diagPairs (s : Structure) (idx : ℕ) : List (ℕ × ℕ) :=
  (s.outDiagonal.zip s.inDiagonal).filterMap fun (o, l) => (l.getD idx none).map fun i => (o, i)

/-- The indices agree on the paired axes. -/
def Agree (ps : List (ℕ × ℕ)) (o i : List ℕ) : Prop := ∀ p ∈ ps, o.getD p.1 0 = i.getD p.2 0

/-- The indices are the same apart from the axes `as`. -/
def SameOff (as : List ℕ) (o o' : List ℕ) : Prop := ∀ a, a ∉ as → o.getD a 0 = o'.getD a 0

/-- The Jacobian `J` has the structure `s` with respect to the input number `idx`: it vanishes where the indices differ on traced or
diagonal axes, it depends on the traced axes only through that, and not on the broadcast axes. -/
structure Has {α : Type} [Zero α] (s : Structure) (idx : ℕ) (out inp : List ℕ) (J : List ℕ → List ℕ → α) : Prop where
  trace_zero : ∀ o i, InRange o out → InRange i inp → ¬ Agree (tracePairs s) o i → J o i = 0
  trace_const : ∀ o i o' i', InRange o out → InRange i inp → InRange o' out → InRange i' inp →
    Agree (tracePairs s) o i → Agree (tracePairs s) o' i' → SameOff ((tracePairs s).map (·.1)) o o' →
    SameOff ((tracePairs s).map (·.2)) i i' → J o i = J o' i'
  diag_zero : ∀ o i, InRange o out → InRange i inp → ¬ Agree (diagPairs s idx) o i → J o i = 0
  broadcast : ∀ o o' i, InRange o out → InRange o' out → InRange i inp → SameOff s.outBroadcast o o' → J o i = J o' i

end NT.Spec
