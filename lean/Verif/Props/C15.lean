import Verif.Lemmas.Axes2

/-!
# C15: `outer_prod` lays out products as zipped pairs
-/

namespace NT.C15
open NT Arr Spec

variable {α γ : Type*}

/-- Entry `(l, p1, q1, p2, q2, ..., t)` of `outer_prod(x, y)` is `op x[l, p, t] y[l, q, t]`. -/
theorem outer_prod_entries (op : α → α → γ) (x y : Arr α) (L A B T : List Nat)
    (hx : x.shape = L ++ A ++ T) (hy : y.shape = L ++ B ++ T) (hAB : A.length = B.length) :
    (outerProd x (some y) L.length (L.length + A.length) op).shape = L ++ interleave A B ++ T ∧
    ∀ l p q t, InRange l L → InRange p A → InRange q B → InRange t T →
      (outerProd x (some y) L.length (L.length + A.length) op).get (l ++ interleave p q ++ t)
        = op (x.get (l ++ p ++ t)) (y.get (l ++ q ++ t)) :=
  outerProd_ok op x y L A B T hx hy hAB

/-- `y = None` means `y = x`. -/
theorem outer_prod_none (op : α → α → γ) (x : Arr α) (s e : Nat) :
    outerProd x none s e op = outerProd x (some x) s e op := rfl

/-- With `y = None` and a commutative operation the result is symmetric under swapping all pairs. -/
theorem outer_prod_symm (op : α → α → γ) (hop : ∀ a b, op a b = op b a) (x : Arr α)
    (L A T : List Nat) (hx : x.shape = L ++ A ++ T) (l p q t : List Nat) (hl : InRange l L)
    (hp : InRange p A) (hq : InRange q A) (ht : InRange t T) :
    (outerProd x none L.length (L.length + A.length) op).get (l ++ interleave p q ++ t) =
    (outerProd x none L.length (L.length + A.length) op).get (l ++ interleave q p ++ t) := by
  rw [outer_prod_none]
  obtain ⟨_, h⟩ := outerProd_ok op x x L A A T hx hx rfl
  rw [h l p q t hl hp hq ht, h l q p t hl hq hp ht, hop]

section Examples
example : (outerProd (⟨[2, 3, 1], fun i => [i]⟩ : Arr (List (List Nat)))
    (some ⟨[2, 5, 4], fun i => [i]⟩) 1 3 (· ++ ·)).get [1, 2, 4, 0, 3] = [[1, 2, 0], [1, 4, 3]] :=
  (outer_prod_entries (· ++ ·) _ _ [2] [3, 1] [5, 4] [] rfl rfl rfl).2
    [1] [2, 0] [4, 3] [] (by decide) (by decide) (by decide) (by decide)
end Examples

end NT.C15
