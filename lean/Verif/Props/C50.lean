import Verif.Props.C42
import Verif.Props.C43
import Verif.Props.C44
import Verif.Props.C45
import Verif.Props.C46
import Verif.Props.C47
import Verif.Props.C48
import Verif.Props.C49
import Verif.Props.C51

/-!
# C50: the kernel of a point with itself is its variance, after every analytic nonlinearity
-/

namespace NT.C50
open NT Arr Kernel Spec MeasureTheory Gauss

/-- The analytic nonlinearities with their parameters. -/
inductive Act where
  | exp (a b : ℝ)
  | sin (a b c : ℝ)
  | cos (a b c : ℝ)
  | rbf (gamma : ℝ)
  | abRelu (a b : ℝ)
  | relu
  | leakyRelu (alpha : ℝ)
  | abs
  | sign
  | gaussian (a b : ℝ)
  | erf (a b c : ℝ)
  | sigmoidLike
  | monomial (degree : ℕ)
  | polynomial (coef : List ℝ)
  | gabor
  | gelu
  | expNormalized (gamma shift : ℝ) (doClip : Bool)
  | hermite (degree : ℕ)
  | elementwise (nngpFn : ℝ → ℝ → ℝ → ℝ) (dNngpFn : Option (ℝ → ℝ → ℝ → ℝ))

/-- The kernel functions of the layers. -/
noncomputable def Act.kernelFn : Act → Kernel ℝ → Except Err (Kernel ℝ)
  | .exp a b => expKernelFn a b
  | .sin a b c => sinKernelFn a b c
  | .cos a b c => cosKernelFn a b c
  | .rbf gamma => rbfKernelFn gamma
  | .abRelu a b => abReluKernelFn a b false
  | .relu => reluKernelFn
  | .leakyRelu alpha => leakyReluKernelFn alpha
  | .abs => absKernelFn
  | .sign => signKernelFn
  | .gaussian a b => gaussianKernelFn a b
  | .erf a b c => erfKernelFn a b c
  | .sigmoidLike => sigmoidLikeKernelFn
  | .monomial degree => monomialKernelFn degree
  | .polynomial coef => polynomialKernelFn coef
  | .gabor => gaborKernelFn
  | .gelu => geluKernelFn
  | .expNormalized gamma shift doClip => expNormalizedKernelFn gamma shift doClip
  | .hermite degree => hermiteKernelFn degree
  | .elementwise f d => elementwiseKernelFn (some f) d

/-- The parameters are accepted, and the variances are such that the code does not divide by zero or take the root of a
negative number. -/
def Act.Accepts : Act → ℝ → Prop
  | .gaussian _ b => fun v => 0 ≤ v ∧ 4 * b * v < 1
  | .monomial degree => fun v => 0 ≤ v ∧ degree ≤ 5
  | .polynomial _ => fun v => 0 < v
  | _ => fun v => 0 ≤ v

/-- If the points `(i, p)` of the first and `(j, p)` of the second batch have the same variance before, and it is also their
covariance (as when they are the same point), then the same is true after. -/
def SelfConsistent (L L' : Logical ℝ) : Prop :=
  (L'.n1, L'.n2, L'.S1, L'.S2) = (L.n1, L.n2, L.S1, L.S2) ∧
  ∀ i j p, i < L.n1 → j < L.n2 → InRange p L.S1 → InRange p L.S2 →
    L.k12 [i, j] p p = L.k11 [i, i] p p → L.second [j, j] p p = L.k11 [i, i] p p →
    L'.k12 [i, j] p p = L'.k11 [i, i] p p ∧ L'.second [j, j] p p = L'.k11 [i, i] p p

lemma of_dual {φ dφ : ℝ → ℝ} {L L' : Logical ℝ} (hc : L.Closed) (hv : L.Vars (fun v => 0 ≤ v)) (h : DualOf φ dφ L L') :
    SelfConsistent L L' := by
  refine ⟨h.dims, fun i j p hi hj hp hq e1 e2 => ?_⟩
  have hn := hv.one i p hi hp
  obtain ⟨P, hP⟩ := GaussPair.exist (L.k11 [i, i] p p) (L.k11 [i, i] p p) (L.k11 [i, i] p p) hn hn (by nlinarith)
  have a1 := h.k12 i j p p hi hj hp hq P (by rw [e1, e2]; exact hP)
  have a2 := h.k11 i i p p hi hi hp hp P hP
  refine ⟨a1.trans a2.symm, ?_⟩
  have h22 := h.k22
  unfold Logical.second at e2 ⊢
  cases e3 : L'.k22 <;> cases e4 : L.k22 <;> rw [e3, e4] at h22 <;> simp only [OptRel] at h22
  · simp only [e4, Option.getD_none] at e2 ⊢
    obtain ⟨b1, b2⟩ := hc e4
    rw [b1] at hj
    have a3 := h.k11 j j p p hj hj hp hp P (by rw [e2]; exact hP)
    exact a3.trans a2.symm
  · simp only [e4, Option.getD_some] at e2 ⊢
    exact (h22 j j p p hj hj hq hq P (by rw [e2]; exact hP)).trans a2.symm

lemma of_formula {γ : Type} (D : DualFn γ) {L : Logical ℝ} : SelfConsistent L (D.logical L) := by
  refine ⟨rfl, fun i j p _ _ _ _ e1 e2 => ?_⟩
  refine ⟨?_, ?_⟩
  · simp [DualFn.logical, e1, e2]
  · unfold Logical.second at e2 ⊢
    cases e4 : L.k22 with
    | none => simp only [e4, Option.getD_none] at e2; simp [DualFn.logical, e4, e2]
    | some F => simp only [e4, Option.getD_some] at e2; simp [DualFn.logical, e4, e2]

lemma formula_ok {γ : Type} (D : DualFn γ) {C : ℝ → Prop} {k : Kernel ℝ} {L : Logical ℝ} (hk : k.Stores L) (hc : L.Closed)
    (hv : L.Vars C) (hg : k.isGaussian = true) (hd : ∀ v, C v → D.diag v = D.nngp v (D.op (D.den v) (D.den v))) :
    ∃ k' L', elementwise D.kernelFn k = .ok k' ∧ k'.Stores L' ∧ SelfConsistent L L' := by
  obtain ⟨k0, h0, h1, h2, h3, h4, h5, -⟩ := D.kernelFn_ok hk hc hv hd
  obtain ⟨k', g1, g2, -⟩ := elementwise_ok (f := D.kernelFn) hg h0 h1 h2 h3 h4 h5
  exact ⟨k', _, g1, g2, of_formula D⟩

lemma gabor_diag (v : ℝ) (hv : 0 ≤ v) : gaborDual.diag v = gaborDual.nngp v (gaborDual.op (gaborDual.den v) (gaborDual.den v)) := by
  simp only [gaborDual, id]
  have e1 : 2 * (v + v) + 4 * (v * v - v ^ 2) + 1 = 1 + 4 * v := by ring
  have e2 : v + v + 4 * (v * v - v ^ 2) + 2 * v = 4 * v := by ring
  rw [e1, e2, mul_sub, ← Real.exp_add, mul_one]
  have h : (1 + 4 * v) ≠ 0 := by positivity
  have e3 : -(4 * v) / (2 * (1 + 4 * v)) + 2 * v / (1 + 4 * v) = 0 := by field_simp; ring
  have e4 : -(4 * v) / (2 * (1 + 4 * v)) = -2 * v / (1 + 4 * v) := by field_simp; ring
  rw [e3, e4, Real.exp_zero]

lemma gelu_diag (v : ℝ) (hv : 0 ≤ v) : geluDual.diag v = geluDual.nngp v (geluDual.op (geluDual.den v) (geluDual.den v)) := by
  simp only [geluDual, id]
  have e1 : (v + 1) * (v + 1) - v ^ 2 = 1 + 2 * v := by ring
  rw [e1]
  unfold sqrtTol
  rw [max_eq_left (by positivity)]
  have hs : 0 < Real.sqrt (1 + 2 * v) := Real.sqrt_pos.2 (by positivity)
  have h1 : v + 1 ≠ 0 := by positivity
  have hpi := Real.pi_ne_zero
  generalize Real.sqrt (1 + 2 * v) = s at hs ⊢
  generalize arctan2 v s = t
  field_simp
  ring

/-- For every analytic nonlinearity except `RectifiedMonomial` (which divides by zero here, `C47.variance_divisor_zero`) and every
layout: if two points have equal variances and their covariance is this variance,
then after the layer their `nngp` is their variance `cov1` (and `cov2`). -/
theorem diagonal_consistent_partial (act : Act) (k : Kernel ℝ) (L : Logical ℝ) (hk : k.Stores L) (hc : L.Closed) (hv : L.Vars act.Accepts)
    (hg : k.isGaussian = true) (hne : ∀ degree, act = .monomial degree → degree ≤ 5) (hbg : ∀ gamma, act = .rbf gamma → 0 ≤ gamma) :
    ∃ k' L', act.kernelFn k = .ok k' ∧ k'.Stores L' ∧ SelfConsistent L L' := by
  have hv0 : L.Vars (fun v => 0 ≤ v) := by
    have : ∀ v, act.Accepts v → 0 ≤ v := by
      intro v h
      cases act <;> first | exact h | exact h.1 | exact le_of_lt h
    exact ⟨fun i p hi hp => this _ (hv.one i p hi hp), fun F hF i p hi hp => this _ (hv.two F hF i p hi hp)⟩
  cases act with
  | exp a b =>
    obtain ⟨k', L', h1, h2, -, h3⟩ := C42.kernel_exact a b k L hk hc hg
    exact ⟨k', L', h1, h2, of_dual hc hv0 h3⟩
  | sin a b c =>
    obtain ⟨k', L', h1, h2, -, h3⟩ := C43.sin_kernel_exact a b c k L hk hc hg
    exact ⟨k', L', h1, h2, of_dual hc hv0 h3⟩
  | cos a b c =>
    obtain ⟨k', L', h1, h2, -, h3⟩ := C43.cos_kernel_exact a b c k L hk hc hg
    exact ⟨k', L', h1, h2, of_dual hc hv0 h3⟩
  | rbf gamma =>
    obtain ⟨k', L', h1, h2, -, h3⟩ := C43.rbf_kernel_exact gamma (hbg gamma rfl) k L hk hc hg
    exact ⟨k', L', h1, h2, of_dual hc hv0 h3⟩
  | abRelu a b =>
    obtain ⟨k', L', h1, h2, -, h3⟩ := C44.kernel_exact a b k L hk hc hv0 hg
    exact ⟨k', L', h1, h2, of_dual hc hv0 h3⟩
  | relu =>
    obtain ⟨k', L', h1, h2, -, h3⟩ := C44.relu_exact k L hk hc hv0 hg
    exact ⟨k', L', h1, h2, of_dual hc hv0 h3⟩
  | leakyRelu alpha =>
    obtain ⟨k', L', h1, h2, -, h3⟩ := C44.leaky_relu_exact alpha k L hk hc hv0 hg
    exact ⟨k', L', h1, h2, of_dual hc hv0 h3⟩
  | abs =>
    obtain ⟨k', L', h1, h2, -, h3⟩ := C44.abs_exact k L hk hc hv0 hg
    exact ⟨k', L', h1, h2, of_dual hc hv0 h3⟩
  | sign =>
    obtain ⟨k', L', L'', h1, h2, -, h3, h4, -, h5, h6, h7⟩ := C45.cross_and_variance_exact k L hk hc hv0 hg
    refine ⟨k', L', h1, h2, h5, fun i j p hi hj hp hq e1 e2 => ?_⟩
    obtain ⟨a1, a2⟩ := (of_dual hc hv0 h3).2 i j p hi hj hp hq e1 e2
    rw [h4, h6 i p hi hp]
    refine ⟨a1, ?_⟩
    rw [← a2]
    unfold Logical.second
    cases e3 : L'.k22 <;> cases e4 : L''.k22 <;> rw [e3, e4] at h7 <;> simp only [OptRel] at h7
    · have h22 := h3.k22
      rw [e4] at h22
      cases e5 : L.k22 with
      | none =>
        rw [(hc e5).1] at hj
        simpa using h6 j p hj hp
      | some F => simp [e5, OptRel] at h22
    · exact h7 j p hj hq
  | gaussian a b =>
    obtain ⟨k', L', h1, h2, -, h3⟩ := C49.kernel_exact a b k L hk hc
      ⟨fun i p hi hp => (hv.one i p hi hp).2, fun F hF i p hi hp => (hv.two F hF i p hi hp).2⟩ hg
    exact ⟨k', L', h1, h2, of_dual hc hv0 h3⟩
  | erf a b c =>
    obtain ⟨k', L', h1, h2, -, h3⟩ := C46.kernel_exact a b c k L hk hc hv0 hg
    exact ⟨k', L', h1, h2, of_dual hc hv0 h3⟩
  | sigmoidLike =>
    obtain ⟨k', L', h1, h2, -, h3⟩ := C46.sigmoid_like_exact k L hk hc hv0 hg
    exact ⟨k', L', h1, h2, of_dual hc hv0 h3⟩
  | monomial degree =>
    obtain ⟨k', L', h1, h2, -, h3⟩ := C47.monomial_kernel_exact degree (hne degree rfl) k L hk hc hg
    exact ⟨k', L', h1, h2, of_dual hc hv0 h3⟩
  | polynomial coef =>
    obtain ⟨k', L', h1, h2, -, h3⟩ := C48.kernel_exact coef k L hk hc hv hg
    exact ⟨k', L', h1, h2, of_dual hc hv0 h3⟩
  | gabor => exact formula_ok gaborDual hk hc hv0 hg gabor_diag
  | gelu => exact formula_ok geluDual hk hc hv0 hg gelu_diag
  | expNormalized gamma shift doClip => exact formula_ok (expNormalizedDual gamma shift doClip) hk hc hv0 hg fun _ _ => rfl
  | hermite degree =>
    obtain ⟨k', L', h1, h2, h3⟩ := formula_ok (hermiteDual degree) hk hc hv0 hg fun _ _ => rfl
    refine ⟨k', L', ?_, h2, h3⟩
    show hermiteKernelFn degree k = _
    unfold hermiteKernelFn
    rw [if_neg (by omega)]
    exact h1
  | elementwise f d => exact formula_ok (elementwiseDual f d) hk hc hv0 hg fun _ _ => rfl

/-- The variances of every layer do not depend on whether the layout is fully diagonal: kernels that store the same values in
different layouts are mapped to such kernels (all nonlinearities given by one formula). -/
theorem layouts_agree {γ : Type} (D : DualFn γ) {C : ℝ → Prop} (hd : ∀ v, C v → D.diag v = D.nngp v (D.op (D.den v) (D.den v)))
    (k k2 : Kernel ℝ) (L : Logical ℝ) (hk : k.Stores L) (hk2 : k2.Stores L) (hc : L.Closed) (hv : L.Vars C)
    (hg : k.isGaussian = true) (hg2 : k2.isGaussian = true) :
    ∃ k' k2' L', elementwise D.kernelFn k = .ok k' ∧ elementwise D.kernelFn k2 = .ok k2' ∧ k'.Stores L' ∧ k2'.Stores L' := by
  obtain ⟨k0, h0, h1, h2, h3, h4, h5, -⟩ := D.kernelFn_ok hk hc hv hd
  obtain ⟨k', g1, g2, -⟩ := elementwise_ok (f := D.kernelFn) hg h0 h1 h2 h3 h4 h5
  obtain ⟨k0, h0, h1, h2, h3, h4, h5, -⟩ := D.kernelFn_ok hk2 hc hv hd
  obtain ⟨k2', g3, g4, -⟩ := elementwise_ok (f := D.kernelFn) hg2 h0 h1 h2 h3 h4 h5
  exact ⟨k', k2', _, g1, g3, g2, g4⟩

/-! ### Concrete cases -/

/-- A kernel of two points with themselves. -/
noncomputable def selfL : Logical ℝ where
  n1 := 2
  n2 := 2
  S1 := [2]
  S2 := [2]
  k12 b p q := if b.getD 0 0 = b.getD 1 0 ∧ p = q then 2 else 1 / 2
  k11 b p q := if b.getD 0 0 = b.getD 1 0 ∧ p = q then 2 else 1 / 2
  k22 := none
  ntk := some fun _ _ _ => 1

example (db ds rev : Bool) : ∃ k' L', (Act.gelu).kernelFn { selfL.encode db ds rev with isGaussian := true } = .ok k' ∧
    k'.Stores L' ∧ L'.k12 [1, 1] [0] [0] = L'.k11 [1, 1] [0] [0] := by
  have hst := selfL.encode_stores db ds rev (fun _ => rfl) rfl
  obtain ⟨k', L', h1, h2, -, h3⟩ := diagonal_consistent_partial .gelu { selfL.encode db ds rev with isGaussian := true } selfL
    ⟨hst.nngp, hst.cov1, hst.cov2, hst.ntk⟩ (by simp [Logical.Closed, selfL])
    ⟨fun i p _ _ => by simp [selfL, Act.Accepts], fun F hF => by simp [selfL] at hF⟩ rfl (by simp) (by simp)
  refine ⟨k', L', h1, h2, (h3 1 1 [0] (by simp [selfL]) (by simp [selfL]) ?_ ?_ ?_ ?_).1⟩
  all_goals simp [selfL, InRange, Logical.second]

end NT.C50
