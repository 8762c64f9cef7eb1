import Verif.Lemmas.Batching4

/-!
# C02: batch-size arithmetic tiles the dataset or raises
-/

namespace NT.C02
open NT Arr Spec Batching

variable {β : Type}

/-- If a batched call returns at all, the batch counts and sizes it used tile the data. -/
theorem tiles {K : Type} [BatchOut K] (hK : ∀ z : K, BatchOut.stack ([] : List K) ≠ .ok z)
    (f : Arr β → Arr β → Except Err K) (bs d n1 n2 : Nat) (hd : 0 < d) (s1 s2 : List Nat)
    (x1 : Arr β) (x2? : Option (Arr β)) (hx1 : x1.shape = n1 :: s1)
    (hx2 : (x2?.getD x1).shape = n2 :: s2) (z : K) (h : serialX1 f bs d x1 x2? = .ok z) :
    ∃ n1b n1bs n2b n2bs, nBatches n1 n2 bs d = .ok (n1b, n1bs, n2b, n2bs) ∧
      n1 = n1b * n1bs ∧ n2 = n2b * n2bs ∧ n1bs = d * n2bs ∧ 0 < n2bs ∧ n2bs ≤ bs := by
  obtain ⟨n1b, n1bs, n2b, n2bs, hb, _, _, p3, _, e1, e2⟩ := serialX1_ok_inv hK f hd hx1 hx2 h
  obtain ⟨_, _, e3, e4⟩ := nBatches_ok hd hb p3
  exact ⟨n1b, n1bs, n2b, n2bs, hb, e1, e2, by rw [e3, Nat.mul_comm], p3,
    by rw [e4]; exact Nat.min_le_left _ _⟩

/-- The arithmetic raises `ValueError` exactly when the effective batch size is positive and does
not divide. -/
theorem ragged_raises (n1 n2 bs d : Nat) (hd : 0 < d) :
    (∃ e, nBatches n1 n2 bs d = .error e) ↔
      0 < min bs (Nat.gcd n1 n2 / d) ∧
        ¬ (min bs (Nat.gcd n1 n2 / d) * d ∣ n1 ∧ min bs (Nat.gcd n1 n2 / d) ∣ n2) := by
  rw [nBatches_eq _ _ _ _ hd]
  simp only
  generalize min bs (Nat.gcd n1 n2 / d) = b
  split
  · subst_vars; simp
  · split
    · rename_i h; simp [h]
    · rename_i h0 h; simpa [h] using Nat.pos_of_ne_zero h0

/-- The whole batched call raises iff the effective batch size is 0 or does not divide, for
non-empty datasets and kernel functions that do not raise on tiles (here: pairwise ones). -/
theorem raises_iff {γ : Type} (P : PairFn β γ) (f : Arr β → Arr β → Except Err (Arr γ))
    (s : List Nat) (hf : ∀ m1 m2, P.ImplementedBy f s m1 m2) (bs d n1 n2 : Nat) (hd : 0 < d)
    (h1 : 0 < n1) (h2 : 0 < n2)
    (x1 : Arr β) (x2? : Option (Arr β)) (hx1 : x1.shape = n1 :: s)
    (hx2 : (x2?.getD x1).shape = n2 :: s) :
    (∃ e, serialX1 f bs d x1 x2? = .error e) ↔
      min bs (Nat.gcd n1 n2 / d) = 0 ∨
        ¬ (min bs (Nat.gcd n1 n2 / d) * d ∣ n1 ∧ min bs (Nat.gcd n1 n2 / d) ∣ n2) := by
  constructor
  · rintro ⟨e, he⟩
    by_contra hc
    push Not at hc
    obtain ⟨hb0, hb1, hb2⟩ := hc
    have hb := nBatches_eq n1 n2 bs d hd
    simp only [hb0, hb1, hb2, and_self, if_true, if_false] at hb
    generalize min bs (Nat.gcd n1 n2 / d) = b at *
    obtain ⟨p, rfl⟩ := hb1
    obtain ⟨q, rfl⟩ := hb2
    have hbp : 0 < b := Nat.pos_of_ne_zero hb0
    have hbd : 0 < b * d := Nat.mul_pos hbp hd
    rw [Nat.mul_div_cancel_left _ hbd, Nat.mul_div_cancel_left _ hbp] at hb
    rw [Nat.mul_comm] at hx1 hb h1
    rw [Nat.mul_comm b q] at hx2 hb h2
    obtain ⟨z, hz, _⟩ := serial_array_entries P f s (Nat.pos_of_mul_pos_right h1)
      (Nat.pos_of_mul_pos_right h2) (hf _ _) hx1 hx2 hb
    rw [hz] at he
    cases he
  · intro hc
    cases hr : serialX1 f bs d x1 x2? with
    | error e => exact ⟨e, rfl⟩
    | ok z =>
      exfalso
      obtain ⟨n1b, n1bs, n2b, n2bs, hb, _, _, p3, _, e1, e2⟩ :=
        serialX1_ok_inv stackE_nil_ne f hd hx1 hx2 hr
      obtain ⟨_, _, e3, e4⟩ := nBatches_ok hd hb p3
      rw [← e4] at hc
      rcases hc with hc | hc
      · omega
      · exact hc ⟨⟨n1b, by rw [e1, e3, Nat.mul_comm]⟩, ⟨n2b, by rw [e2, Nat.mul_comm]⟩⟩

section Examples
/-- A batched call that returns, and what `tiles` says about it. -/
example : ∃ n1b n1bs n2b n2bs, nBatches 4 6 2 1 = .ok (n1b, n1bs, n2b, n2bs) ∧
    4 = n1b * n1bs ∧ 6 = n2b * n2bs ∧ n1bs = 1 * n2bs ∧ 0 < n2bs ∧ n2bs ≤ 2 :=
  tiles stackE_nil_ne dotFn 2 1 4 6 (by decide) [2] [2]
    (ofList [4, 2] [1, 2, 3, 4, 5, 6, 7, 8]) (some (ofList [6, 2] [1, 2, 3, 4, 5, 6, 7, 8, 9, 1, 1, 1]))
    rfl rfl _ rfl
example : nBatches 12 18 2 3 = .ok (2, 6, 9, 2) := by decide
example : nBatches 12 18 4 1 = .error .valueError := by decide
example : ∃ e, nBatches 12 18 4 1 = .error e := (ragged_raises 12 18 4 1 (by decide)).2 (by decide)
example (f : Arr Int → Arr Int → Except Err (Arr Int)) (P : PairFn Int Int)
    (hf : ∀ m1 m2, P.ImplementedBy f [2] m1 m2) :
    ∃ e, serialX1 f 5 4 (ofList [2, 2] [1, 2, 3, 4]) none = .error e :=
  (raises_iff P f [2] hf 5 4 2 2 (by decide) (by decide) (by decide) _ none rfl rfl).2
    (Or.inl (by decide))
example : ∃ e, serialX1 dotFn 4 1 (ofList [6, 2] [1, 2, 3, 4, 5, 6, 7, 8, 9, 10, 11, 12]) none
    = .error e :=
  (raises_iff dotPair dotFn [2] dotPair_implementedBy 4 1 6 6 (by decide) (by decide) (by decide)
    _ none rfl rfl).2 (Or.inr (by decide))
end Examples

end NT.C02
