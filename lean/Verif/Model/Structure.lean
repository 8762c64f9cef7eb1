import Verif.Model.Arr
import Mathlib.Data.List.Basic

/-!
# `Structure`: declarations of the structure of the Jacobian of a primitive

`neural_tangents/_src/utils/rules.py`, lines 41-143.
-/

namespace NT

/-- The fields of `Structure`, rules.py:91-106.  An entry of `in_diagonal` has one axis, or `None`, for each input of the primitive. -/
structure Structure where
  outTrace : List ℕ := []
  inTrace : List ℕ := []
  inTraceIdxs : List ℕ := []
  outDiagonal : List ℕ := []
  inDiagonal : List (List (Option ℕ)) := []
  outBroadcast : List ℕ := []
  outBroadcastIdxs : List ℕ := []
  inBroadcast : List ℕ := []
  inBroadcastIdx : ℕ := 0
deriving DecidableEq, Repr

namespace Structure

/-- `out_trace` of `__and__`, rules.py:116-118: the entries of the first list at the positions where the entry of the second is in
`l`. An `IndexError` if the second list is shorter does not occur: the lengths are asserted equal. -/
def select {A B : Type} [BEq B] (l : List B) : List A → List B → List A
  | a :: as, b :: bs => if l.contains b then a :: select l as bs else select l as bs
  | _, _ => []

/-- `__and__`, rules.py:108-143.  `in_broadcast` is computed from `out_broadcast`, as in the code. The entry of `in_diagonal`
whose number is beyond `out_diagonal` raises an `IndexError` in the code. -/
def meet (self other : Structure) : Except Err Structure :=
  if self.inTrace.length ≠ self.outTrace.length then .error .assertion
  else if other.inTrace.length ≠ other.outTrace.length then .error .assertion
  else if self.outDiagonal.length < self.inDiagonal.length then .error .indexError
  else .ok
    { outTrace := select other.inTrace self.outTrace self.inTrace
      inTrace := self.inTrace.filter fun i => other.inTrace.contains i
      inTraceIdxs := self.inTraceIdxs
      outDiagonal := self.outDiagonal.filter fun i => other.outDiagonal.contains i
      inDiagonal := select other.outDiagonal self.inDiagonal self.outDiagonal
      outBroadcast := self.outBroadcast.filter fun i => other.outBroadcast.contains i
      outBroadcastIdxs := self.outBroadcastIdxs
      inBroadcast := self.outBroadcast.filter fun i => other.outBroadcast.contains i
      inBroadcastIdx := self.inBroadcastIdx }

/-- The least common structure of the uses of a variable, rules.py:239-258 (`invar_to_structure[var] &= structure`). -/
def common : List Structure → Except Err (Option Structure)
  | [] => .ok none
  | s :: l => (l.foldlM (fun (acc t : Structure) => acc.meet t) s).map some

end Structure
end NT
