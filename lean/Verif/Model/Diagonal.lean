import Verif.Model.Arr
import Verif.Tac

/-!
# `Bool` and `Diagonal` of `neural_tangents/_src/stax/requirements.py`
-/

namespace NT

/-- `class Bool(enum.IntEnum)`, requirements.py:401-422. -/
inductive Tri where
  | no
  | maybe
  | yes
  deriving DecidableEq, Repr

/-- The integer value, requirements.py:414-416. -/
def Tri.val : Tri → Nat
  | .no => 0
  | .maybe => 1
  | .yes => 2

/-- `Bool.__and__`, requirements.py:418-419 (`min` of integer enums). -/
def Tri.and (a b : Tri) : Tri := if a.val ≤ b.val then a else b

/-- `class Diagonal`, requirements.py:425-461. -/
structure Diagonal where
  input : Tri := .yes
  output : Tri := .no
  deriving DecidableEq, Repr

/-- `Diagonal.__rshift__`, requirements.py:464-484. -/
def Diagonal.seq (self other : Diagonal) : Diagonal :=
  if self.output = .yes then self
  else
    let input :=
      if self.output.val > Tri.no.val ∧ other.input.val > Tri.no.val then self.input
      else if self.output = .no ∧ other.input.val < Tri.yes.val then .no
      else Tri.and self.input other.input
    ⟨input, other.output⟩

/-- `Diagonal.__and__`, requirements.py:486-497. -/
def Diagonal.par (self other : Diagonal) : Diagonal :=
  ⟨self.input.and other.input, self.output.and other.output⟩

/-- `Diagonal.__bool__`, requirements.py:499-501. -/
def Diagonal.toBool (self : Diagonal) : Bool := self.input = .yes && self.output.val > Tri.no.val

/-- `Diagonal.__lshift__`, requirements.py:503-513. -/
def Diagonal.lshift (self other : Diagonal) : Diagonal := other.seq self

end NT
