import Verif.Props.C83
import Verif.Props.C04

/-!
# C83: networks on several devices
-/

namespace NT.C83
open NT NT.Network NT.Spec NT.Semantics NT.Arr NT.Kernel NT.Batching

variable {net : Net} {a C : ℕ} {S : List ℕ} {ds ntk : Bool} {isGaussian isReversed isInput ds' : Bool} {pre post : List ℕ} {ca' : ℕ}
  {ca : ℤ} {same : Arr ℝ → Arr ℝ → Bool}

/-- The examples spread over several devices: when the call returns, its result is that of the call on one device. -/
theorem network_parallel_transparent_partial (h : Batchable net a C S ds ntk isGaussian isReversed isInput ds' pre post ca')
    (hca : ((a + 1 : ℕ) : ℤ) = ca % (S.length + 2)) (d n1 n2 : ℕ) (x1 : Arr ℝ) (x2 : Option (Arr ℝ)) (hx1 : x1.shape = n1 :: S.insertIdx a C)
    (hx2 : (x2.getD x1).shape = n2 :: S.insertIdx a C) (k : Kernel ℝ) (hk : parallelX1 (kernelFn net ds ntk ca same) d x1 x2 = .ok k) :
    ∃ k0, kernelFn net ds ntk ca same x1 (x2.getD x1) = .ok k0 ∧ SameKernel k k0 x2.isSome :=
  C03.parallel_kernel_transparent _ _ _ (implemented h hca) d n1 n2 x1 x2 hx1 hx2 k hk

/-- The call on several devices returns, when there are fewer examples than devices or the number of devices divides that of examples. -/
theorem network_parallel_returns_partial (h : Batchable net a C S ds ntk isGaussian isReversed isInput ds' pre post ca')
    (hca : ((a + 1 : ℕ) : ℤ) = ca % (S.length + 2)) (d n1 n2 : ℕ) (hd : 0 < d) (h1 : 0 < n1) (hn : n1 < d ∨ d ∣ n1) (x1 : Arr ℝ) (x2 : Option (Arr ℝ))
    (hx1 : x1.shape = n1 :: S.insertIdx a C) (hx2 : (x2.getD x1).shape = n2 :: S.insertIdx a C) :
    ∃ k, parallelX1 (kernelFn net ds ntk ca same) d x1 x2 = .ok k := by
  have : ∃ b devs, nPerDevice n1 d = .ok (b, devs) ∧ 0 < devs := by
    rw [C03.device_split n1 d hd]
    by_cases hlt : n1 < d
    · exact ⟨1, n1, by rw [if_pos hlt], h1⟩
    · exact ⟨n1 / d, d, by rw [if_neg hlt, if_pos (hn.resolve_left hlt)], hd⟩
  obtain ⟨b, devs, hb, hdev⟩ := this
  have e := nPerDevice_ok hb
  subst e
  obtain ⟨z, hz, _⟩ := parallel_kernel_describes _ _ _ hdev (implemented (same := same) h hca _ _) hx1 hx2 hb
  exact ⟨z, hz⟩

/-- Batches one after the other, each spread over the devices. -/
theorem network_serial_parallel_transparent_partial (h : Batchable net a C S ds ntk isGaussian isReversed isInput ds' pre post ca')
    (hca : ((a + 1 : ℕ) : ℤ) = ca % (S.length + 2)) (bs d n1 n2 : ℕ) (hd : 0 < d) (x1 : Arr ℝ) (x2 : Option (Arr ℝ)) (hx1 : x1.shape = n1 :: S.insertIdx a C)
    (hx2 : (x2.getD x1).shape = n2 :: S.insertIdx a C) (k : Kernel ℝ) (hk : serialParallelX1 (kernelFn net ds ntk ca same) bs d x1 x2 = .ok k) :
    ∃ k0, kernelFn net ds ntk ca same x1 (x2.getD x1) = .ok k0 ∧ SameKernel k k0 x2.isSome :=
  C04.serial_parallel_kernel_transparent _ _ _ (implemented h hca) bs d n1 n2 hd x1 x2 hx1 hx2 k hk

/-- The residual network of C80 on three devices, and on more devices than examples. -/
example (x1 x2 : Arr ℝ) (ds : Bool) (h1 : x1.shape = [12, 5]) (h2 : x2.shape = [8, 5]) (same : Arr ℝ → Arr ℝ → Bool) (d : ℕ) (hd : d = 3 ∨ d = 16) :
    ∃ k k0, parallelX1 (kernelFn C80.resnet ds true (-1) same) d x1 (some x2) = .ok k ∧ kernelFn C80.resnet ds true (-1) same x1 x2 = .ok k0 ∧
      SameKernel k k0 true := by
  obtain ⟨k, hk⟩ := network_parallel_returns_partial (ca := -1) (same := same) (resnet_batchable ds true) (by simp) d 12 8 (by omega) (by omega)
    (by rcases hd with rfl | rfl <;> decide) x1 (some x2) h1 h2
  obtain ⟨k0, h0, hs⟩ := network_parallel_transparent_partial (ca := -1) (same := same) (resnet_batchable ds true) (by simp) d 12 8 x1 (some x2) h1 h2 k hk
  exact ⟨k, k0, hk, h0, hs⟩

end NT.C83
