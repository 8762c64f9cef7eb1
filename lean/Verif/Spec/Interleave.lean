/-!
Specification of the "zipped" coordinate layout: `X, X', Y, Y', Z, Z'`.
-/
namespace NT.Spec

/-- `[a1, a2, ...], [b1, b2, ...] ↦ [a1, b1, a2, b2, ...]`. -/
def interleave {α : Type _} : List α → List α → List α
  | a :: as, b :: bs => a :: b :: interleave as bs
  | _, _ => []

end NT.Spec
