import Verif.Lemmas.Batching4

/-!
# C03: device-parallel batching is transparent
-/

namespace NT.C03
open NT Arr Spec Batching

variable {β γ : Type}

/-- Arrays out. -/
theorem parallel_array_transparent (P : PairFn β γ) (f : Arr β → Arr β → Except Err (Arr γ))
    (s : List Nat) (hf : ∀ m1 m2, P.ImplementedBy f s m1 m2) (d n1 n2 : Nat)
    (x1 : Arr β) (x2? : Option (Arr β)) (hx1 : x1.shape = n1 :: s)
    (hx2 : (x2?.getD x1).shape = n2 :: s) (z : Arr γ) (h : parallelX1 f d x1 x2? = .ok z) :
    ∃ z0, f x1 (x2?.getD x1) = .ok z0 ∧ z ≋ z0 := by
  obtain ⟨b, devs, hb, p1, e1⟩ := parallelX1_ok_inv stackE_nil_ne f hx1 h
  subst e1
  obtain ⟨z', hz', hE⟩ := parallel_array_entries P f s p1 (hf _ _) hx1 hx2 hb
  obtain ⟨z0, h0, hE0⟩ := hf _ _ x1 (x2?.getD x1) hx1 hx2
  rw [hz'] at h
  cases h
  exact ⟨z0, h0, Entries2.eqv hE hE0⟩

/-- Kernels out (`x1_is_x2` excepted, see `C01.x1_is_x2_not_transparent`). -/
theorem parallel_kernel_transparent (P : PairKernelFn β γ)
    (f : Arr β → Arr β → Except Err (Kernel γ))
    (s : List Nat) (hf : ∀ m1 m2, P.ImplementedBy f s m1 m2) (d n1 n2 : Nat)
    (x1 : Arr β) (x2? : Option (Arr β)) (hx1 : x1.shape = n1 :: s)
    (hx2 : (x2?.getD x1).shape = n2 :: s) (k : Kernel γ) (h : parallelX1 f d x1 x2? = .ok k) :
    ∃ k0, f x1 (x2?.getD x1) = .ok k0 ∧ SameKernel k k0 x2?.isSome := by
  obtain ⟨b, devs, hb, p1, e1⟩ := parallelX1_ok_inv stackKernels_nil_ne f hx1 h
  subst e1
  obtain ⟨k', hk', hD, _⟩ := parallel_kernel_describes P f s p1 (hf _ _) hx1 hx2 hb
  obtain ⟨k0, h0, hD0, _⟩ := hf _ _ x1 (x2?.getD x1) hx1 hx2
  rw [hk'] at h
  cases h
  exact ⟨k0, h0, sameKernel_of_describes hD hD0⟩

/-- Fewer examples than devices: one example per device, on as many devices as examples.
Otherwise the dataset is split evenly, and a dataset size not divisible by the device count
raises. -/
theorem device_split (n1 d : Nat) (hd : 0 < d) :
    nPerDevice n1 d =
      if n1 < d then .ok (1, n1)
      else if d ∣ n1 then .ok (n1 / d, d)
      else .error .valueError := by
  unfold nPerDevice
  rw [if_neg (by omega)]
  simp only
  by_cases h : n1 < d
  · rw [if_pos h, Nat.div_eq_of_lt h, Nat.mod_eq_of_lt h]; simp
  · have hq : n1 / d ≠ 0 := Nat.pos_iff_ne_zero.1 (Nat.div_pos (by omega) hd)
    rw [if_neg h]
    by_cases hr : n1 % d = 0
    · rw [if_neg (by simp [hr]), if_neg hq, if_pos (Nat.dvd_of_mod_eq_zero hr)]
    · rw [if_pos ⟨hq, hr⟩, if_neg (fun hd => hr (Nat.mod_eq_zero_of_dvd hd))]

/-- The whole call returns iff `0 < n1 < d` or `d ∣ n1` (for non-empty data). -/
theorem returns_iff (P : PairFn β γ) (f : Arr β → Arr β → Except Err (Arr γ))
    (s : List Nat) (hf : ∀ m1 m2, P.ImplementedBy f s m1 m2) (d n1 n2 : Nat) (hd : 0 < d)
    (h1 : 0 < n1) (x1 : Arr β) (x2? : Option (Arr β)) (hx1 : x1.shape = n1 :: s)
    (hx2 : (x2?.getD x1).shape = n2 :: s) :
    (∃ z, parallelX1 f d x1 x2? = .ok z) ↔ n1 < d ∨ d ∣ n1 := by
  constructor
  · rintro ⟨z, hz⟩
    obtain ⟨b, devs, hb, p1, e1⟩ := parallelX1_ok_inv stackE_nil_ne f hx1 hz
    rw [device_split n1 d hd] at hb
    split at hb
    · exact Or.inl ‹_›
    · split at hb
      · exact Or.inr ‹_›
      · cases hb
  · intro h
    have : ∃ b devs, nPerDevice n1 d = .ok (b, devs) ∧ 0 < devs := by
      rw [device_split n1 d hd]
      by_cases hlt : n1 < d
      · exact ⟨1, n1, by rw [if_pos hlt], h1⟩
      · refine ⟨n1 / d, d, ?_, hd⟩
        rw [if_neg hlt, if_pos (h.resolve_left hlt)]
    obtain ⟨b, devs, hb, hdev⟩ := this
    have e := nPerDevice_ok hb
    subst e
    obtain ⟨z, hz, _⟩ := parallel_array_entries P f s hdev (hf _ _) hx1 hx2 hb
    exact ⟨z, hz⟩

section Examples
def xa : Arr Int := ofList [4, 2] [1, 2, 3, 4, 5, 6, 7, 8]
def xb : Arr Int := ofList [3, 2] [1, 0, 0, 1, 1, 1]

example : ∃ z, parallelX1 dotFn 2 xa (some xb) = .ok z ∧ ∃ z0, dotFn xa xb = .ok z0 ∧ z ≋ z0 := by
  obtain ⟨z, hz⟩ := (returns_iff dotPair dotFn [2] dotPair_implementedBy 2 4 3 (by decide)
    (by decide) xa (some xb) rfl rfl).2 (by decide)
  exact ⟨z, hz, parallel_array_transparent dotPair dotFn [2] dotPair_implementedBy 2 4 3
    xa (some xb) rfl rfl z hz⟩

example : ¬ ∃ z, parallelX1 dotFn 3 xa none = .ok z := by
  rw [returns_iff dotPair dotFn [2] dotPair_implementedBy 3 4 4 (by decide)
    (by decide) xa none rfl rfl]
  decide

example : ∃ k, parallelX1 dotKernelFn 8 xa (some xb) = .ok k ∧
    ∃ k0, dotKernelFn xa xb = .ok k0 ∧ SameKernel k k0 true := by
  obtain ⟨k, hk, _⟩ := parallel_kernel_describes dotKernelPair dotKernelFn [2] (d := 8) (b := 1)
    (devs := 4) (n2 := 3) (by decide) (dotKernelPair_implementedBy _ _) (x1 := xa)
    (x2? := some xb) rfl rfl rfl
  exact ⟨k, hk, parallel_kernel_transparent dotKernelPair dotKernelFn [2]
    dotKernelPair_implementedBy 8 4 3 xa (some xb) rfl rfl k hk⟩

example : nPerDevice 3 8 = .ok (1, 3) ∧ nPerDevice 6 3 = .ok (2, 3) ∧
    nPerDevice 7 3 = .error .valueError := by
  refine ⟨?_, ?_, ?_⟩ <;> rw [device_split _ _ (by decide)] <;> rfl
end Examples

end NT.C03
