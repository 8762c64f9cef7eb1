import Mathlib.Data.List.Basic

/-!
# Indices of activation arrays

An activation array has a batch axis `ba`, a channel axis `ca` and spatial axes.
-/

namespace NT

/-- The index (or shape) with `b` at axis `ba`, `c` at axis `ca`, and the entries of `p` in order at the
other axes. -/
def actIdx {β : Type} (ba ca : Nat) (b c : β) (p : List β) : List β :=
  if ba < ca then (p.insertIdx ba b).insertIdx ca c else (p.insertIdx ca c).insertIdx ba b

example : actIdx 0 3 9 7 [1, 2] = [9, 1, 2, 7] := by decide
example : actIdx 2 1 9 7 [4, 5] = [4, 7, 9, 5] := by decide

end NT
