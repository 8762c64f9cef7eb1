import Verif.Lemmas.Batching4

/-!
# C01: serial batching is transparent

`PairFn` / `PairKernelFn` (see `Verif/Spec/Pairwise.lean`) are the kernel functions whose `(i, j)`
output entries depend only on example `i` of `x1` and example `j` of `x2`.
-/

namespace NT.C01
open NT Arr Spec Batching

variable {β γ : Type}

/-- Arrays out: whenever the batched call returns, it returns what the un-batched call returns. -/
theorem serial_array_transparent (P : PairFn β γ) (f : Arr β → Arr β → Except Err (Arr γ))
    (s : List Nat) (hf : ∀ m1 m2, P.ImplementedBy f s m1 m2) (bs d n1 n2 : Nat) (hd : 0 < d)
    (x1 : Arr β) (x2? : Option (Arr β)) (hx1 : x1.shape = n1 :: s)
    (hx2 : (x2?.getD x1).shape = n2 :: s) (z : Arr γ) (h : serialX1 f bs d x1 x2? = .ok z) :
    ∃ z0, f x1 (x2?.getD x1) = .ok z0 ∧ z ≋ z0 := by
  obtain ⟨n1b, n1bs, n2b, n2bs, hb, p1, p2, _, _, e1, e2⟩ :=
    serialX1_ok_inv stackE_nil_ne f hd hx1 hx2 h
  subst e1 e2
  obtain ⟨z', hz', hE⟩ := serial_array_entries P f s p1 p2 (hf _ _) hx1 hx2 hb
  obtain ⟨z0, h0, hE0⟩ := hf _ _ x1 (x2?.getD x1) hx1 hx2
  rw [hz'] at h
  cases h
  exact ⟨z0, h0, Entries2.eqv hE hE0⟩

/-- Arrays out: the batched call does return when the effective batch size tiles the data. -/
theorem serial_array_returns (P : PairFn β γ) (f : Arr β → Arr β → Except Err (Arr γ))
    (s : List Nat) (hf : ∀ m1 m2, P.ImplementedBy f s m1 m2) (bs d n1 n2 : Nat) (hd : 0 < d)
    (h1 : 0 < n1) (h2 : 0 < n2) (hb0 : 0 < min bs (Nat.gcd n1 n2 / d))
    (hb1 : min bs (Nat.gcd n1 n2 / d) * d ∣ n1) (hb2 : min bs (Nat.gcd n1 n2 / d) ∣ n2)
    (x1 : Arr β) (x2? : Option (Arr β)) (hx1 : x1.shape = n1 :: s)
    (hx2 : (x2?.getD x1).shape = n2 :: s) : ∃ z, serialX1 f bs d x1 x2? = .ok z := by
  have hb := nBatches_eq n1 n2 bs d hd
  simp only [Nat.pos_iff_ne_zero.1 hb0, hb1, hb2, and_self, if_true, if_false] at hb
  generalize min bs (Nat.gcd n1 n2 / d) = b at *
  obtain ⟨p, rfl⟩ := hb1
  obtain ⟨q, rfl⟩ := hb2
  have hbd : 0 < b * d := Nat.mul_pos hb0 hd
  rw [Nat.mul_div_cancel_left _ hbd, Nat.mul_div_cancel_left _ hb0] at hb
  rw [Nat.mul_comm] at hx1 hb h1
  rw [Nat.mul_comm b q] at hx2 hb h2
  obtain ⟨z, hz, _⟩ := serial_array_entries P f s (Nat.pos_of_mul_pos_right h1)
    (Nat.pos_of_mul_pos_right h2) (hf _ _) hx1 hx2 hb
  exact ⟨z, hz⟩

/-- Kernels out: whenever the batched call returns, every field but `x1_is_x2` is that of the
un-batched call; `cov2` is `None` iff `x2` was `None`. -/
theorem serial_kernel_transparent (P : PairKernelFn β γ)
    (f : Arr β → Arr β → Except Err (Kernel γ))
    (s : List Nat) (hf : ∀ m1 m2, P.ImplementedBy f s m1 m2) (bs d n1 n2 : Nat) (hd : 0 < d)
    (x1 : Arr β) (x2? : Option (Arr β)) (hx1 : x1.shape = n1 :: s)
    (hx2 : (x2?.getD x1).shape = n2 :: s) (k : Kernel γ) (h : serialX1 f bs d x1 x2? = .ok k) :
    ∃ k0, f x1 (x2?.getD x1) = .ok k0 ∧ SameKernel k k0 x2?.isSome ∧
      (k.cov2 = none ↔ x2? = none) := by
  obtain ⟨n1b, n1bs, n2b, n2bs, hb, p1, p2, _, _, e1, e2⟩ :=
    serialX1_ok_inv stackKernels_nil_ne f hd hx1 hx2 h
  subst e1 e2
  obtain ⟨k', hk', hD, _⟩ := serial_kernel_describes P f s p1 p2 (hf _ _) hx1 hx2 hb
  obtain ⟨k0, h0, hD0, _⟩ := hf _ _ x1 (x2?.getD x1) hx1 hx2
  rw [hk'] at h
  cases h
  refine ⟨k0, h0, sameKernel_of_describes hD hD0, ?_⟩
  cases hx : x2? with
  | none => simp [(sameKernel_of_describes hD hD0).cov2_none (by simp [hx])]
  | some x2 =>
    have := hD.cov2
    simp only [hx, Option.isSome_some, if_true] at this
    cases hc : k.cov2 with
    | none => simp [hc, OptEntries1] at this
    | some c => simp

/-- Kernels out: the batched call does return when the effective batch size tiles the data. -/
theorem serial_kernel_returns (P : PairKernelFn β γ) (f : Arr β → Arr β → Except Err (Kernel γ))
    (s : List Nat) (hf : ∀ m1 m2, P.ImplementedBy f s m1 m2) (bs d n1 n2 : Nat) (hd : 0 < d)
    (h1 : 0 < n1) (h2 : 0 < n2) (hb0 : 0 < min bs (Nat.gcd n1 n2 / d))
    (hb1 : min bs (Nat.gcd n1 n2 / d) * d ∣ n1) (hb2 : min bs (Nat.gcd n1 n2 / d) ∣ n2)
    (x1 : Arr β) (x2? : Option (Arr β)) (hx1 : x1.shape = n1 :: s)
    (hx2 : (x2?.getD x1).shape = n2 :: s) : ∃ k, serialX1 f bs d x1 x2? = .ok k := by
  have hb := nBatches_eq n1 n2 bs d hd
  simp only [Nat.pos_iff_ne_zero.1 hb0, hb1, hb2, and_self, if_true, if_false] at hb
  generalize min bs (Nat.gcd n1 n2 / d) = b at *
  obtain ⟨p, rfl⟩ := hb1
  obtain ⟨q, rfl⟩ := hb2
  have hbd : 0 < b * d := Nat.mul_pos hb0 hd
  rw [Nat.mul_div_cancel_left _ hbd, Nat.mul_div_cancel_left _ hb0] at hb
  rw [Nat.mul_comm] at hx1 hb h1
  rw [Nat.mul_comm b q] at hx2 hb h2
  obtain ⟨z, hz, _⟩ := serial_kernel_describes P f s (Nat.pos_of_mul_pos_right h1)
    (Nat.pos_of_mul_pos_right h2) (hf _ _) hx1 hx2 hb
  exact ⟨z, hz⟩

section Examples

def xa : Arr Int := ofList [4, 2] [1, 2, 3, 4, 5, 6, 7, 8]
def xb : Arr Int := ofList [6, 2] [1, 0, 0, 1, 1, 1, 2, 1, 1, 2, 3, 3]

example : ∃ z, serialX1 dotFn 2 1 xa (some xb) = .ok z ∧ ∃ z0, dotFn xa xb = .ok z0 ∧ z ≋ z0 := by
  obtain ⟨z, hz⟩ := serial_array_returns dotPair dotFn [2] dotPair_implementedBy 2 1 4 6
    (by decide) (by decide) (by decide) (by decide) (by decide) (by decide) xa (some xb) rfl rfl
  exact ⟨z, hz, serial_array_transparent dotPair dotFn [2] dotPair_implementedBy 2 1 4 6
    (by decide) xa (some xb) rfl rfl z hz⟩

example : ∃ z, serialX1 dotKernelFn 2 1 xa (some xb) = .ok z ∧
    ∃ z0, dotKernelFn xa xb = .ok z0 ∧ SameKernel z z0 true := by
  obtain ⟨z, hz⟩ := serial_kernel_returns dotKernelPair dotKernelFn [2]
    dotKernelPair_implementedBy 2 1 4 6
    (by decide) (by decide) (by decide) (by decide) (by decide) (by decide) xa (some xb) rfl rfl
  obtain ⟨z0, h0, h1, _⟩ := serial_kernel_transparent dotKernelPair dotKernelFn [2]
    dotKernelPair_implementedBy 2 1 4 6 (by decide) xa (some xb) rfl rfl z hz
  exact ⟨z, hz, z0, h0, h1⟩

/-- The field excluded above: the batched call reports the `x1_is_x2` of the first tile only, so two
different datasets that start with the same batch are reported equal. -/
theorem x1_is_x2_not_transparent :
    ∃ k k0, serialX1 dotKernelFn 1 1 (ofList [2, 2] [1, 2, 3, 4]) (some (ofList [2, 2] [1, 2, 5, 6]))
        = .ok k ∧ dotKernelFn (ofList [2, 2] [1, 2, 3, 4]) (ofList [2, 2] [1, 2, 5, 6]) = .ok k0 ∧
      k.x1IsX2.get [] = true ∧ k0.x1IsX2.get [] = false := by
  refine ⟨_, _, rfl, rfl, ?_, ?_⟩ <;> decide +kernel

end Examples

end NT.C01
