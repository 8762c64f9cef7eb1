import Mathlib.Tactic.Lemma
import Verif.Lemmas.Batching4
import Verif.Props.C03

/-!
# C04: serial over parallel batching is transparent
-/

namespace NT.C04
open NT Arr Spec Batching

variable {β γ : Type}

lemma nPerDevice_mul {b d : Nat} (hb : 0 < b) (hd : 0 < d) :
    nPerDevice (d * b) d = .ok (b, d) := by
  rw [C03.device_split _ _ hd, if_neg, if_pos (Dvd.intro _ rfl), Nat.mul_div_cancel_left _ hd]
  have : d * 1 ≤ d * b := Nat.mul_le_mul_left _ hb
  omega

/-- Arrays out. -/
theorem serial_parallel_array_transparent (P : PairFn β γ)
    (f : Arr β → Arr β → Except Err (Arr γ))
    (s : List Nat) (hf : ∀ m1 m2, P.ImplementedBy f s m1 m2) (bs d n1 n2 : Nat) (hd : 0 < d)
    (x1 : Arr β) (x2? : Option (Arr β)) (hx1 : x1.shape = n1 :: s)
    (hx2 : (x2?.getD x1).shape = n2 :: s) (z : Arr γ)
    (h : serialParallelX1 f bs d x1 x2? = .ok z) :
    ∃ z0, f x1 (x2?.getD x1) = .ok z0 ∧ z ≋ z0 := by
  unfold serialParallelX1 at h
  rw [Nat.max_eq_left hd] at h
  obtain ⟨n1b, n1bs, n2b, n2bs, hb, p1, p2, p3, _, e1, e2⟩ :=
    serialX1_ok_inv stackE_nil_ne _ hd hx1 hx2 h
  obtain ⟨_, _, e3, _⟩ := nBatches_ok hd hb p3
  subst e1 e2
  have e4 : n1bs = d * n2bs := by rw [e3, Nat.mul_comm]
  have hp : P.ImplementedBy (fun a b => parallelX1 f d a (some b)) s n1bs n2bs := by
    intro a b ha hb'
    rw [e4] at ha
    have := parallel_array_entries P f s hd (hf _ _) (x1 := a) (x2? := some b) ha hb'
      (nPerDevice_mul p3 hd)
    rw [← e4] at this
    exact this
  obtain ⟨z', hz', hE⟩ := serial_array_entries P _ s p1 p2 hp hx1 hx2 hb
  obtain ⟨z0, h0, hE0⟩ := hf _ _ x1 (x2?.getD x1) hx1 hx2
  rw [hz'] at h
  cases h
  exact ⟨z0, h0, Entries2.eqv hE hE0⟩

/-- Kernels out (`x1_is_x2` excepted, see `C01.x1_is_x2_not_transparent`). -/
theorem serial_parallel_kernel_transparent (P : PairKernelFn β γ)
    (f : Arr β → Arr β → Except Err (Kernel γ))
    (s : List Nat) (hf : ∀ m1 m2, P.ImplementedBy f s m1 m2) (bs d n1 n2 : Nat) (hd : 0 < d)
    (x1 : Arr β) (x2? : Option (Arr β)) (hx1 : x1.shape = n1 :: s)
    (hx2 : (x2?.getD x1).shape = n2 :: s) (k : Kernel γ)
    (h : serialParallelX1 f bs d x1 x2? = .ok k) :
    ∃ k0, f x1 (x2?.getD x1) = .ok k0 ∧ SameKernel k k0 x2?.isSome := by
  unfold serialParallelX1 at h
  rw [Nat.max_eq_left hd] at h
  obtain ⟨n1b, n1bs, n2b, n2bs, hb, p1, p2, p3, _, e1, e2⟩ :=
    serialX1_ok_inv stackKernels_nil_ne _ hd hx1 hx2 h
  obtain ⟨_, _, e3, _⟩ := nBatches_ok hd hb p3
  subst e1 e2
  have e4 : n1bs = d * n2bs := by rw [e3, Nat.mul_comm]
  have hp : P.ImplementedBy (fun a b => parallelX1 f d a (some b)) s n1bs n2bs := by
    intro a b ha hb'
    rw [e4] at ha
    have := parallel_kernel_describes P f s hd (hf _ _) (x1 := a) (x2? := some b) ha hb'
      (nPerDevice_mul p3 hd)
    rw [← e4] at this
    exact this
  obtain ⟨k', hk', hD, _⟩ := serial_kernel_describes P _ s p1 p2 hp hx1 hx2 hb
  obtain ⟨k0, h0, hD0, _⟩ := hf _ _ x1 (x2?.getD x1) hx1 hx2
  rw [hk'] at h
  cases h
  exact ⟨k0, h0, sameKernel_of_describes hD hD0⟩

/-- The call returns when the effective batch size tiles the data. -/
theorem serial_parallel_array_returns (P : PairFn β γ) (f : Arr β → Arr β → Except Err (Arr γ))
    (s : List Nat) (hf : ∀ m1 m2, P.ImplementedBy f s m1 m2) (bs d n1b n2b b : Nat) (hd : 0 < d)
    (h1 : 0 < n1b) (h2 : 0 < n2b) (hb0 : 0 < b)
    (hb : b = min bs (Nat.gcd (n1b * (b * d)) (n2b * b) / d))
    (x1 : Arr β) (x2? : Option (Arr β)) (hx1 : x1.shape = (n1b * (b * d)) :: s)
    (hx2 : (x2?.getD x1).shape = (n2b * b) :: s) :
    ∃ z, serialParallelX1 f bs d x1 x2? = .ok z := by
  unfold serialParallelX1
  rw [Nat.max_eq_left hd]
  have hbd : 0 < b * d := Nat.mul_pos hb0 hd
  have hnb := nBatches_eq (n1b * (b * d)) (n2b * b) bs d hd
  simp only [← hb, Nat.pos_iff_ne_zero.1 hb0, Nat.dvd_mul_left, and_self, if_true, if_false,
    Nat.mul_div_cancel _ hbd, Nat.mul_div_cancel _ hb0] at hnb
  have hp : P.ImplementedBy (fun a b => parallelX1 f d a (some b)) s (b * d) b := by
    intro a c ha hc
    rw [Nat.mul_comm] at ha
    have := parallel_array_entries P f s hd (hf _ _) (x1 := a) (x2? := some c) ha hc
      (nPerDevice_mul hb0 hd)
    rwa [Nat.mul_comm d b] at this
  obtain ⟨z, hz, _⟩ := serial_array_entries P _ s h1 h2 hp hx1 hx2 hnb
  exact ⟨z, hz⟩

section Examples
def xa : Arr Int := ofList [8, 2] [1, 2, 3, 4, 5, 6, 7, 8, 0, 1, 1, 0, 3, 3, 2, 1]
def xb : Arr Int := ofList [4, 2] [1, 0, 0, 1, 1, 1, 2, 1]

example : ∃ z, serialParallelX1 dotFn 2 2 xa (some xb) = .ok z ∧
    ∃ z0, dotFn xa xb = .ok z0 ∧ z ≋ z0 := by
  obtain ⟨z, hz⟩ := serial_parallel_array_returns dotPair dotFn [2] dotPair_implementedBy
    2 2 2 2 2 (by decide) (by decide) (by decide) (by decide) (by decide) xa (some xb) rfl rfl
  exact ⟨z, hz, serial_parallel_array_transparent dotPair dotFn [2] dotPair_implementedBy
    2 2 8 4 (by decide) xa (some xb) rfl rfl z hz⟩

example : ∃ k, serialParallelX1 dotKernelFn 2 2 xa none = .ok k := by
  exact ⟨_, rfl⟩
end Examples

end NT.C04
