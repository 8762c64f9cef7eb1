import Verif.Props.C44

/-!
# C51: `do_stabilize` does not change the kernel of `ABRelu`
-/

namespace NT.C51
open NT Arr Kernel Spec

lemma arctan2Fill_mul {c : ℝ} (hc : 0 < c) (x y f : ℝ) : arctan2Fill (c * x) (c * y) f = arctan2Fill x y f := by
  unfold arctan2Fill
  have e : (c * x = 0 ∧ c * y = 0) ↔ (x = 0 ∧ y = 0) := by simp [hc.ne']
  by_cases h : x = 0 ∧ y = 0
  · rw [if_pos h, if_pos (e.2 h)]
  · rw [if_neg h, if_neg (fun h' => h (e.1 h'))]
    unfold arctan2
    have : (⟨c * y, c * x⟩ : ℂ) = (c : ℂ) * ⟨y, x⟩ := by
      apply Complex.ext <;> simp
    rw [this, Complex.arg_real_mul _ hc]

lemma sqrtTol_mul {c : ℝ} (hc : 0 < c) (x : ℝ) : sqrtTol (c ^ 2 * x) = c * sqrtTol x := by
  unfold sqrtTol
  have : max (c ^ 2 * x) 0 = c ^ 2 * max x 0 := by rw [mul_max_of_nonneg _ _ (sq_nonneg c), mul_zero]
  rw [this, Real.sqrt_mul (sq_nonneg c), Real.sqrt_sq hc.le]

lemma angle_mul {c : ℝ} (hc : 0 < c) (n x y : ℝ) : reluAngle (c * n) (c * x * (c * y)) = reluAngle n (x * y) := by
  unfold reluAngle
  have : c * x * (c * y) - (c * n) ^ 2 = c ^ 2 * (x * y - n ^ 2) := by ring
  rw [this, sqrtTol_mul hc, arctan2Fill_mul hc]

/-- The kernel of `ABRelu` is homogeneous. -/
lemma nngp_mul (a b : ℝ) {c : ℝ} (hc : 0 < c) (n x y : ℝ) :
    (abReluDual a b).nngp (c * n) (c * x * (c * y)) = c * (abReluDual a b).nngp n (x * y) := by
  simp only [abReluDual]
  rw [angle_mul hc]
  have : c * x * (c * y) - (c * n) ^ 2 = c ^ 2 * (x * y - n ^ 2) := by ring
  rw [this, sqrtTol_mul hc]
  ring

lemma dot_mul (a b : ℝ) {c : ℝ} (hc : 0 < c) (n x y : ℝ) :
    (abReluDual a b).dot (c * n) (c * x * (c * y)) = (abReluDual a b).dot n (x * y) := by
  simp only [abReluDual]
  rw [angle_mul hc]

lemma rescale_stores {k : Kernel ℝ} {L : Logical ℝ} (hk : k.Stores L) (c : ℝ) :
    (k.rescale c).Stores (C24.mapL L (c * ·) id) := by
  have := C24.stores_map k L hk (c * ·) id
  refine ⟨this.nngp, this.cov1, this.cov2, ?_⟩
  have h := this.ntk
  have e : k.ntk.map (fun a => a.map id) = k.ntk := by
    cases k.ntk <;> rfl
  simp only [e] at h
  exact h

/-- Scaling down, applying the layer and scaling up again. -/
lemma logical_rescale (a b : ℝ) {c : ℝ} (hc : 0 < c) (L : Logical ℝ) :
    C24.mapL ((abReluDual a b).logical (C24.mapL L (c⁻¹ * ·) id)) (c * ·) id = (abReluDual a b).logical L := by
  have hc' : 0 < c⁻¹ := inv_pos.2 hc
  have hn : ∀ n x y, c * (abReluDual a b).nngp (c⁻¹ * n) (c⁻¹ * x * (c⁻¹ * y)) = (abReluDual a b).nngp n (x * y) := by
    intro n x y
    rw [nngp_mul a b hc', ← mul_assoc, mul_inv_cancel₀ hc.ne', one_mul]
  have hsec : (C24.mapL L (c⁻¹ * ·) id).second = fun x p q => c⁻¹ * L.second x p q := by
    unfold Logical.second C24.mapL
    cases L.k22 <;> rfl
  have hop : (abReluDual a b).op = (· * ·) := rfl
  have hden : (abReluDual a b).den = id := rfl
  unfold DualFn.logical
  rw [hsec]
  simp only [C24.mapL, hop, hden, id, hn, Logical.mk.injEq, true_and, Option.map_map]
  constructor
  · congr 1
    funext F b' p q
    exact hn _ _ _
  · congr 1
    funext F b' p q
    simp only [Function.comp, dot_mul a b hc']

lemma vars_scale {L : Logical ℝ} (hv : L.Vars (fun v => 0 ≤ v)) {c : ℝ} (hc : 0 ≤ c) (g : ℝ → ℝ) :
    (C24.mapL L (c * ·) g).Vars (fun v => 0 ≤ v) := by
  refine ⟨fun i p hi hp => mul_nonneg hc (hv.one i p hi hp), fun F hF i p hi hp => ?_⟩
  simp only [C24.mapL, Option.map_eq_some_iff] at hF
  obtain ⟨G, hG, rfl⟩ := hF
  exact mul_nonneg hc (hv.two G hG i p hi hp)

lemma closed_map {L : Logical ℝ} (hc : L.Closed) (f g : ℝ → ℝ) : (C24.mapL L f g).Closed := by
  intro h
  simp only [C24.mapL, Option.map_eq_none_iff] at h
  exact hc h

/-- `do_stabilize` changes nothing: on every kernel with at least one entry both variants return the same arrays and the
same metadata. -/
theorem stabilize_same (a b : ℝ) (k : Kernel ℝ) (L : Logical ℝ) (hk : k.Stores L) (hc : L.Closed)
    (hv : L.Vars (fun v => 0 ≤ v)) (hg : k.isGaussian = true) (hne : ∀ n ∈ k.nngp.shape, n ≠ 0) :
    ∃ k1 k2, abReluKernelFn a b false k = .ok k1 ∧ abReluKernelFn a b true k = .ok k2 ∧
      k1.nngp ≋ k2.nngp ∧ k1.cov1 ≋ k2.cov1 ∧ OptRel (· ≋ ·) k1.cov2 k2.cov2 ∧ OptRel (· ≋ ·) k1.ntk k2.ntk ∧
      k1.static = k2.static ∧ k1.x1IsX2 = k2.x1IsX2 ∧ k1.mask1 = k2.mask1 ∧ k1.mask2 = k2.mask2 := by
  obtain ⟨k0, h0, h1, h2, h3, h4, h5, h6⟩ := (abReluDual a b).kernelFn_ok hk hc hv (C44.abRelu_exact a b).diag
  obtain ⟨m, hm⟩ : ∃ m, maxAbs k.nngp = .ok m := by
    unfold maxAbs
    cases e : k.nngp.toList with
    | nil =>
      exfalso
      have hz : InRange (k.nngp.shape.map fun _ => 0) k.nngp.shape := by
        unfold InRange
        rw [List.forall₂_map_left_iff]
        exact List.forall₂_same.2 fun n hn => Nat.pos_of_ne_zero (hne n hn)
      have : k.nngp.get (k.nngp.shape.map fun _ => 0) ∈ k.nngp.toList :=
        List.mem_map_of_mem (mem_indices.2 hz)
      rw [e] at this
      simp at this
    | cons x l => exact ⟨_, rfl⟩
  have hf : (0 : ℝ) < max m 1e-12 := lt_max_of_lt_right (by norm_num)
  generalize hfac : max m (1e-12 : ℝ) = c at hf
  have hc' : 0 < c⁻¹ := inv_pos.2 hf
  obtain ⟨j0, i0, i1, i2, i3, i4, i5, i6⟩ := (abReluDual a b).kernelFn_ok (rescale_stores hk c⁻¹) (closed_map hc _ _)
    (vars_scale hv hc'.le id) (C44.abRelu_exact a b).diag
  have r1 := rescale_stores i1 c
  rw [logical_rescale a b hf] at r1
  have hstat : (j0.rescale c).static = k0.static := by
    rw [h2]
    exact i2
  refine ⟨{ k0 with isGaussian := false }, { j0.rescale c with isGaussian := false }, ?_, ?_, ?_⟩
  · simp [abReluKernelFn, elementwise, hg, h0]
  · simp [abReluKernelFn, elementwise, hg, hm, hfac, i0, Except.map]
  · obtain ⟨s1, s2, s3, s4⟩ := stores_eqv h1 r1 hstat.symm h6 i6
    refine ⟨s1, s2, s3, s4, ?_, ?_, ?_, ?_⟩
    · have : k0.static = (j0.rescale c).static := hstat.symm
      simp only [Kernel.static, Kernel.Static.mk.injEq] at this ⊢
      tauto
    · exact h3.trans i3.symm
    · exact h4.trans i4.symm
    · exact h5.trans i5.symm

/-- Without entries the maximum is undefined and the stabilised variant fails. -/
theorem stabilize_empty (a b : ℝ) (k : Kernel ℝ) (hg : k.isGaussian = true) (h0 : 0 ∈ k.nngp.shape) :
    abReluKernelFn a b true k = .error .valueError := by
  have : k.nngp.toList = [] := by
    unfold toList
    rw [List.map_eq_nil_iff, List.eq_nil_iff_forall_not_mem]
    intro i hi
    have := mem_indices.1 hi
    obtain ⟨j, hj, e⟩ := List.getElem_of_mem h0
    have hl : j < i.length := by rw [this.length]; exact hj
    have := List.Forall₂.get this hl hj
    simp only [List.get_eq_getElem, e] at this
    omega
  simp [abReluKernelFn, elementwise, hg, maxAbs, this]

example (db ds rev : Bool) : ∃ k1 k2, abReluKernelFn 2 3 false { C42.exL.encode db ds rev with isGaussian := true } = .ok k1 ∧
    abReluKernelFn 2 3 true { C42.exL.encode db ds rev with isGaussian := true } = .ok k2 ∧ k1.nngp ≋ k2.nngp := by
  obtain ⟨k1, k2, h1, h2, h3, -⟩ := stabilize_same 2 3 _ C42.exL (C42.exL_stores db ds rev) C42.exL_closed C44.exL_vars rfl (by
    have := (C42.exL_stores db ds rev).nngp.shape
    rw [this]
    intro n hn
    have hm : n ∈ ([2, 3, 2, 2] : List ℕ) := by
      revert hn
      cases ds <;> cases rev <;> simp [Logical.encode, C42.exL, pos, interleave]
    simp at hm
    omega)
  exact ⟨k1, k2, h1, h2, h3⟩

example : abReluKernelFn 2 3 true { ({ C42.exL with n1 := 0 } : Logical ℝ).encode true true false with isGaussian := true } =
    .error .valueError :=
  stabilize_empty 2 3 _ rfl (by simp [Logical.encode, holdArr])

end NT.C51
