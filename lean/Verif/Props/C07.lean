import Verif.Lemmas.Batching4

/-!
# C07: unrolled scan is a left fold with stacked outputs
-/

namespace NT.C07
open NT Arr Batching

variable {C X Y : Type}

/-- Specification: the carry after consuming a sequence. -/
def carryAfter (f : C → X → C × Y) (c : C) (xs : List X) : C := xs.foldl (fun c x => (f c x).1) c

/-- Pure step functions: the final carry is the left fold, and output `t` is the output of the step
function on input `t` from the carry reached after the first `t` inputs.  (Hence it depends only on
the first `t + 1` inputs.) -/
theorem scan_spec (f : C → X → C × Y) (c : C) (xs : List X) :
    ∃ ys, scanLoop (fun c x => .ok (f c x)) c xs = .ok (carryAfter f c xs, ys) ∧
      ys.length = xs.length ∧
      ∀ t x, xs[t]? = some x → ys[t]? = some (f (carryAfter f c (xs.take t)) x).2 := by
  induction xs generalizing c with
  | nil => exact ⟨[], rfl, rfl, by simp⟩
  | cons x xs ih =>
    obtain ⟨ys, h1, h2, h3⟩ := ih (f c x).1
    refine ⟨(f c x).2 :: ys, ?_, by simp [h2], ?_⟩
    · simp only [scanLoop, h1]; rfl
    · intro t y hy
      cases t with
      | zero => simp at hy; subst hy; simp [carryAfter]
      | succ t =>
        simp only [List.getElem?_cons_succ, List.take_succ_cons] at hy ⊢
        rw [h3 t y hy]
        rfl

/-- Step functions that may raise: scanning a concatenation is scanning the first part and then the
second from the carry reached, and the first exception is propagated. -/
theorem scan_append (f : C → X → Except Err (C × Y)) (c : C) (xs ys : List X) :
    scanLoop f c (xs ++ ys) = (do
      let (c', us) ← scanLoop f c xs
      let (c'', vs) ← scanLoop f c' ys
      return (c'', us ++ vs)) := by
  rw [scanLoop_append]
  cases scanLoop f c xs with
  | error e => rfl
  | ok p =>
    obtain ⟨c', us⟩ := p
    simp only [bind, Except.bind]
    cases scanLoop f c' ys <;> rfl

/-- `_scan` itself, array outputs of equal shape: the outputs are stacked in order. -/
theorem scan_stacks {α : Type} (f : C → X → C × Arr α) (c : C) (xs : List X) (s : List Nat)
    (hne : xs ≠ []) (hs : ∀ c x, (f c x).2.shape = s) :
    ∃ z, scan (fun c x => .ok (f c x)) c xs = .ok (carryAfter f c xs, z) ∧
      z.shape = xs.length :: s ∧
      ∀ t x i, xs[t]? = some x → z.get (t :: i) = (f (carryAfter f c (xs.take t)) x).2.get i := by
  obtain ⟨ys, h1, h2, h3⟩ := scan_spec f c xs
  have hlen : 0 < xs.length := List.length_pos_of_ne_nil hne
  obtain ⟨x0, hx0⟩ : ∃ x, xs[0]? = some x := ⟨xs[0], by simp⟩
  let A : Nat → Arr α := fun t => ys.getD t (f c x0).2
  have hA : (List.range xs.length).map A = ys := by
    apply List.ext_getElem?
    intro t
    by_cases ht : t < xs.length
    · simp [A, ht, List.getD, h2]
    · simp [ht, h2]
  have hAt : ∀ t, t < xs.length → ∃ x, xs[t]? = some x ∧
      A t = (f (carryAfter f c (xs.take t)) x).2 := by
    intro t ht
    refine ⟨xs[t], by simp [ht], ?_⟩
    have := h3 t xs[t] (by simp [ht])
    simp [A, List.getD, this]
  obtain ⟨z, z1, z2, z3⟩ := stackE_range xs.length hlen s A (fun t ht => by
    obtain ⟨x, _, e⟩ := hAt t ht
    rw [e]; exact hs _ _)
  rw [hA] at z1
  refine ⟨z, ?_, z2, ?_⟩
  · unfold scan
    rw [h1]
    have : BatchOut.stack ys = .ok z := z1
    simp only [this]
  · intro t x i hx
    have ht : t < xs.length := by
      by_contra h
      rw [List.getElem?_eq_none (by omega)] at hx
      cases hx
    obtain ⟨x', hx', e⟩ := hAt t ht
    rw [hx] at hx'
    cases hx'
    rw [z3 t i ht, e]

section Examples
/-- Running sums. -/
example : ∃ ys, scanLoop (fun c x => .ok (c + x, c + x)) (0 : Nat) [3, 4, 5] = .ok (12, ys) ∧
    ys[1]? = some 7 := by
  obtain ⟨ys, h1, _, h3⟩ := scan_spec (fun c x => (c + x, c + x)) 0 [3, 4, 5]
  exact ⟨ys, h1, h3 1 4 rfl⟩

example : scanLoop (fun (c : Nat) (x : Nat) => if x = 0 then .error .valueError else .ok (c + x, c))
    0 ([1, 0] ++ [5]) = .error .valueError := by rw [scan_append]; rfl

example : ∃ z, scan (fun (c : Nat) (x : Nat) => .ok (c + x, (⟨[2], fun i => i.headD 0 + c⟩ : Arr Nat)))
    0 [3, 4, 5] = .ok (12, z) ∧ z.get [2, 1] = 8 := by
  obtain ⟨z, h1, _, h3⟩ := scan_stacks (fun c x => (c + x, (⟨[2], fun i => i.headD 0 + c⟩ : Arr Nat)))
    0 [3, 4, 5] [2] (by simp) (by simp)
  exact ⟨z, h1, h3 2 5 [1] rfl⟩
end Examples

end NT.C07
