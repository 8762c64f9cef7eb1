import Verif.Props.C44
import Mathlib.Data.Real.Sign

/-!
# C45: `Sign` computes the Gaussian expectations

For the covariance of different inputs and for the variances; the off-diagonal entries of the covariance of the inputs
with themselves, which are stored if the layout is not diagonal, are wrong (`offdiag_wrong`).
-/

namespace NT.C45
open NT Arr Kernel Spec MeasureTheory Gauss

/-- The dual activation of the sign. -/
lemma sign_exact {P : Measure (ℝ × ℝ)} {q11 q12 q22 : ℝ} (hP : GaussPair P q11 q12 q22) :
    1 - reluAngle q12 (q11 * q22) * 2 / Real.pi = ∫ x, Real.sign x.1 * Real.sign x.2 ∂P := by
  obtain ⟨θ, t1, t2, t3, t4, t5, -⟩ := hP.sign_abs
  obtain ⟨-, r2⟩ := C44.reluAngle_eq hP.nonneg1 hP.nonneg2 t1 t2 t3 t4
  have e : (fun x : ℝ × ℝ => Real.sign x.1 * Real.sign x.2) = fun x => sg x.1 * sg x.2 := rfl
  rw [e, t5, r2]
  ring

/-- The true value of the kernel after `Sign`. -/
noncomputable def signLogical (L : Logical ℝ) : Logical ℝ where
  n1 := L.n1
  n2 := L.n2
  S1 := L.S1
  S2 := L.S2
  k12 b p q := 1 - reluAngle (L.k12 b p q) (L.k11 [b.getD 0 0, b.getD 0 0] p p * L.second [b.getD 1 0, b.getD 1 0] q q) * 2 / Real.pi
  k11 b p q := 1 - reluAngle (L.k11 b p q) (L.k11 [b.getD 0 0, b.getD 0 0] p p * L.k11 [b.getD 1 0, b.getD 1 0] q q) * 2 / Real.pi
  k22 := L.k22.map fun F b p q => 1 - reluAngle (F b p q) (F [b.getD 0 0, b.getD 0 0] p p * F [b.getD 1 0, b.getD 1 0] q q) * 2 / Real.pi
  ntk := L.ntk.map fun _ _ _ _ => 0

/-- What the code stores: as `signLogical`, except for the covariances of the inputs with themselves. -/
noncomputable def codeLogical (L : Logical ℝ) : Logical ℝ :=
  open Classical in
  { signLogical L with
    k11 := fun b p q => if L.k11 b p q = 0 then 0 else 1
    k22 := L.k22.map fun F b p q => if F b p q = 0 then 0 else 1 }

lemma signLogical_dual (L : Logical ℝ) : DualOf Real.sign (fun _ => 0) L (signLogical L) where
  dims := rfl
  k12 i j p q hi hj hp hq P hP := sign_exact hP
  k11 i j p q hi hj hp hq P hP := sign_exact hP
  k22 := by
    simp only [signLogical]
    cases e : L.k22 with
    | none => trivial
    | some F =>
      simp only [Option.map_some, OptRel]
      intro i j p q hi hj hp hq P hP
      exact sign_exact hP
  ntk := by
    simp only [signLogical]
    cases e : L.ntk with
    | none => trivial
    | some F =>
      simp only [Option.map_some, OptRel]
      intro i j p q hi hj hp hq P hP
      simp

lemma diag_value {v : ℝ} (hv : 0 ≤ v) : 1 - reluAngle v (v * v) * 2 / Real.pi = open Classical in if v = 0 then 0 else 1 := by
  have hpi := Real.pi_pos
  have h := C44.reluAngle_eq (q11 := v) (q12 := v) (q22 := v) (θ := if v = 0 then Real.pi / 2 else 0) hv hv
    (by split <;> positivity) (by split <;> linarith) (by
      split
      · rename_i h; simp [h]
      · rw [Real.cos_zero, mul_one, Real.mul_self_sqrt hv]) (fun h => by rw [if_pos (by simpa using h)])
  rw [h.2]
  split
  · field_simp
    ring
  · simp

lemma sign_core_ok {k : Kernel ℝ} {L : Logical ℝ} (hk : k.Stores L) (hc : L.Closed) :
    ∃ k', signCore k = .ok k' ∧ k'.Stores (codeLogical L) ∧ k'.static = k.static ∧ k'.x1IsX2 = k.x1IsX2 ∧
      k'.mask1 = k.mask1 ∧ k'.mask2 = k.mask2 := by
  obtain ⟨p11, p12, p22, h0, h12, -⟩ := getDiagonalOuterProds_ok hk hc id (· * ·)
  have e1 : k.cov1.map id = k.cov1 := rfl
  have e2 : k.cov2.map (fun a => a.map id) = k.cov2 := by cases k.cov2 <;> rfl
  rw [e1, e2] at h0
  obtain ⟨nn, n1, -, n3⟩ := zipB_holdsS (op := fun n p => 1 - reluAngle n p * 2 / Real.pi) (by simp) (.inr hk.nngp) (.inr h12)
  refine ⟨{ k with
    cov1 := k.cov1.map fun v => open Classical in if v = 0 then 0 else 1
    nngp := nn
    cov2 := k.cov2.map (·.map fun v => open Classical in if v = 0 then 0 else 1)
    ntk := k.ntk.map (·.map fun _ => 0) }, by simp only [signCore, h0, n1], ⟨n3 (.inl hk.nngp), hk.cov1.map (fun v => open Classical in if v = 0 then 0 else 1), ?_, ?_⟩, rfl, rfl, rfl, rfl⟩
  · have := hk.cov2
    simp only [codeLogical]
    cases e1 : k.cov2 <;> cases e2 : L.k22 <;> rw [e1, e2] at this <;>
      simp only [OptRel, Option.map_some, Option.map_none] at this ⊢
    exact this.map _
  · have := hk.ntk
    simp only [codeLogical, signLogical]
    cases e1 : k.ntk <;> cases e2 : L.ntk <;> rw [e1, e2] at this <;>
      simp only [OptRel, Option.map_some, Option.map_none] at this ⊢
    rcases this with ⟨h1, h2⟩ | h
    · exact .inl ⟨h1, fun b p q => rfl⟩
    · exact .inr (h.map (fun _ => 0))

/-- In the fully diagonal layout, everything is exact. -/
theorem kernel_exact_partial (k : Kernel ℝ) (L : Logical ℝ) (hk : k.Stores L) (hc : L.Closed)
    (hv : L.Vars (fun v => 0 ≤ v)) (hg : k.isGaussian = true) (hb : k.diagonalBatch = true) (hs : k.diagonalSpatial = true) :
    ∃ k' L', signKernelFn k = .ok k' ∧ k'.Stores L' ∧ AfterElementwise k k' ∧ DualOf Real.sign (fun _ => 0) L L' := by
  obtain ⟨k0, h0, h1, h2, h3, h4, h5⟩ := sign_core_ok hk hc
  have hb0 : k0.diagonalBatch = true := by
    rw [← hb]; exact congrArg Kernel.Static.diagonalBatch h2
  have hs0 : k0.diagonalSpatial = true := by
    rw [← hs]; exact congrArg Kernel.Static.diagonalSpatial h2
  have hst : k0.Stores (signLogical L) := by
    refine ⟨h1.nngp, ?_, ?_, h1.ntk⟩
    · have := h1.cov1
      refine ⟨this.rank, this.square, this.shape, fun b p q hbb hp hq hpq => ?_⟩
      rw [this.get b p q hbb hp hq hpq]
      have hpq := hpq hs0
      subst hpq
      rw [hb0] at hbb
      obtain ⟨i, rfl⟩ : ∃ i, b = [i] := by
        have := hbb.length
        simp only [batchShape, if_true, List.length_singleton] at this
        exact List.length_eq_one_iff.1 this
      have hi : i < L.n1 := by
        have : i < (signLogical L).n1 := by simpa [batchShape, inRange_cons] using hbb
        exact this
      simp only [codeLogical, signLogical, dbl, List.getD_cons_zero, List.getD_cons_succ]
      exact (diag_value (hv.one i p hi hp)).symm
    · have := h1.cov2
      simp only [codeLogical, signLogical] at this ⊢
      cases e2 : L.k22 with
      | none => rw [e2] at this; simpa using this
      | some F =>
        rw [e2] at this
        cases e1 : k0.cov2 with
        | none => rw [e1] at this; simp [OptRel] at this
        | some c =>
          rw [e1] at this
          simp only [Option.map_some, OptRel] at this ⊢
          refine ⟨this.rank, this.square, this.shape, fun b p q hbb hp hq hpq => ?_⟩
          rw [this.get b p q hbb hp hq hpq]
          have hpq := hpq hs0
          subst hpq
          rw [hb0] at hbb
          obtain ⟨i, rfl⟩ : ∃ i, b = [i] := by
            have := hbb.length
            simp only [batchShape, if_true, List.length_singleton] at this
            exact List.length_eq_one_iff.1 this
          have hi : i < L.n2 := by simpa [batchShape, inRange_cons] using hbb
          simp only [dbl, List.getD_cons_zero, List.getD_cons_succ]
          exact (diag_value (hv.two F e2 i p hi hp)).symm
  obtain ⟨k', g1, g2, g3⟩ := elementwise_ok (f := signCore) hg h0 hst h2 h3 h4 h5
  exact ⟨k', _, g1, g2, g3, signLogical_dual L⟩

/-- In every layout, the covariances of the first with the second inputs, the variances and the tangent kernel are exact. -/
theorem cross_and_variance_exact (k : Kernel ℝ) (L : Logical ℝ) (hk : k.Stores L) (hc : L.Closed)
    (hv : L.Vars (fun v => 0 ≤ v)) (hg : k.isGaussian = true) :
    ∃ k' L' L'', signKernelFn k = .ok k' ∧ k'.Stores L' ∧ AfterElementwise k k' ∧ DualOf Real.sign (fun _ => 0) L L'' ∧
      L'.k12 = L''.k12 ∧ L'.ntk = L''.ntk ∧ (L'.n1, L'.n2, L'.S1, L'.S2) = (L.n1, L.n2, L.S1, L.S2) ∧
      (∀ i p, i < L.n1 → InRange p L.S1 → L'.k11 [i, i] p p = L''.k11 [i, i] p p) ∧
      OptRel (fun F F' => ∀ i p, i < L.n2 → InRange p L.S2 → F [i, i] p p = F' [i, i] p p) L'.k22 L''.k22 := by
  obtain ⟨k0, h0, h1, h2, h3, h4, h5⟩ := sign_core_ok hk hc
  obtain ⟨k', g1, g2, g3⟩ := elementwise_ok (f := signCore) hg h0 h1 h2 h3 h4 h5
  refine ⟨k', _, _, g1, g2, g3, signLogical_dual L, rfl, rfl, rfl, ?_, ?_⟩
  · intro i p hi hp
    exact (diag_value (hv.one i p hi hp)).symm
  · simp only [codeLogical, signLogical]
    cases e : L.k22 with
    | none => trivial
    | some F =>
      simp only [Option.map_some, OptRel]
      intro i p hi hp
      exact (diag_value (hv.two F e i p hi hp)).symm

/-- Two independent outputs at two positions of one input. -/
noncomputable def badL (c : ℝ) : Logical ℝ where
  n1 := 1
  n2 := 1
  S1 := [2]
  S2 := [2]
  k12 _ p q := if p = q then 1 else c
  k11 _ p q := if p = q then 1 else c
  k22 := none
  ntk := none

lemma badL_stores (c : ℝ) (db ds rev : Bool) : ({ (badL c).encode db ds rev with isGaussian := true } : Kernel ℝ).Stores (badL c) := by
  have hst := (badL c).encode_stores db ds rev (fun _ => rfl) rfl
  exact ⟨hst.nngp, hst.cov1, hst.cov2, hst.ntk⟩

lemma angle_half : reluAngle (1 / 2) (1 * 1) = Real.pi / 3 := by
  have hpi := Real.pi_pos
  refine (C44.reluAngle_eq (θ := Real.pi / 3) zero_le_one zero_le_one (by positivity) (by linarith) ?_ (by simp)).2
  rw [Real.cos_pi_div_three]
  simp

/-- The covariance of the outputs of `Sign` at two positions of one input is wrong if it is stored: for a correlation of
one half it should be one third, as it is in `nngp`, but `cov1` has one.  (A later average pooling sums these entries.) -/
theorem offdiag_wrong :
    ∃ (k : Kernel ℝ) (L : Logical ℝ), k.Stores L ∧ L.Closed ∧ L.Vars (fun v => 0 ≤ v) ∧ k.isGaussian = true ∧
      (∃ P, GaussPair P (L.k11 [0, 0] [0] [0]) (L.k11 [0, 0] [0] [1]) (L.k11 [0, 0] [1] [1])) ∧
      ∃ k' L', signKernelFn k = .ok k' ∧ k'.Stores L' ∧ k'.diagonalSpatial = false ∧
        L'.k11 [0, 0] [0] [1] = 1 ∧ L'.k12 [0, 0] [0] [1] = 1 / 3 ∧
        ∀ P, GaussPair P (L.k11 [0, 0] [0] [0]) (L.k11 [0, 0] [0] [1]) (L.k11 [0, 0] [1] [1]) →
          ∫ x, Real.sign x.1 * Real.sign x.2 ∂P = 1 / 3 := by
  have hst := badL_stores (1 / 2) true false false
  have hc : (badL (1 / 2)).Closed := fun _ => ⟨rfl, rfl⟩
  have hv : (badL (1 / 2)).Vars (fun v => 0 ≤ v) :=
    ⟨fun i p _ _ => by simp [badL], fun F hF => by simp [badL] at hF⟩
  have hval : 1 - reluAngle (1 / 2) (1 * 1) * 2 / Real.pi = 1 / 3 := by
    rw [angle_half]
    have := Real.pi_pos
    field_simp
    norm_num
  refine ⟨_, badL (1 / 2), hst, hc, hv, rfl, ?_, ?_⟩
  · exact GaussPair.exist _ _ _ (by simp [badL]) (by simp [badL]) (by simp [badL]; norm_num)
  · obtain ⟨k0, h0, h1, h2, h3, h4, h5⟩ := sign_core_ok hst hc
    obtain ⟨k', g1, g2, g3⟩ := elementwise_ok (f := signCore) rfl h0 h1 h2 h3 h4 h5
    refine ⟨k', _, g1, g2, ?_, ?_, ?_, ?_⟩
    · exact congrArg Kernel.Static.diagonalSpatial g3.static
    · simp [codeLogical, badL]
    · have := hval
      simpa [codeLogical, signLogical, badL, Logical.second] using this
    · intro P hP
      rw [← sign_exact hP]
      simpa [badL] using hval

/-! ### A concrete case -/

example (rev : Bool) : ∃ k' L', signKernelFn { C42.exL.encode true true rev with isGaussian := true } = .ok k' ∧
    k'.Stores L' ∧ DualOf Real.sign (fun _ => 0) C42.exL L' := by
  obtain ⟨k', L', h1, h2, -, h3⟩ :=
    kernel_exact_partial _ C42.exL (C42.exL_stores true true rev) C42.exL_closed C44.exL_vars rfl rfl rfl
  exact ⟨k', L', h1, h2, h3⟩

example (db ds rev : Bool) : ∃ k' L' L'', signKernelFn { C42.exL.encode db ds rev with isGaussian := true } = .ok k' ∧
    k'.Stores L' ∧ DualOf Real.sign (fun _ => 0) C42.exL L'' ∧ L'.k12 = L''.k12 := by
  obtain ⟨k', L', L'', h1, h2, -, h3, h4, -⟩ :=
    cross_and_variance_exact _ C42.exL (C42.exL_stores db ds rev) C42.exL_closed C44.exL_vars rfl
  exact ⟨k', L', L'', h1, h2, h3, h4⟩

end NT.C45
