import Verif.Spec.Semantics
import Verif.Lemmas.GaussField
import Verif.Props.C42
import Verif.Props.C43
import Verif.Props.C44
import Verif.Props.C46
import Verif.Props.C47
import Verif.Props.C48
import Verif.Props.C49

/-!
# The nonlinearities of the library, as layers of a network
-/

namespace NT.Semantics
open NT Arr Kernel Spec MeasureTheory ProbabilityTheory Gauss
open scoped NNReal

variable {γ : Type} {D : DualFn γ} {C : ℝ → Prop} {φ dφ : ℝ → ℝ}

/-- The covariance function of a layer. -/
def dualN (D : DualFn γ) (c u v : ℝ) : ℝ := D.nngp c (D.op (D.den u) (D.den v))

/-- The factor of the tangent kernel of a layer. -/
def dualT (D : DualFn γ) (c u v : ℝ) : ℝ := D.dot c (D.op (D.den u) (D.den v))

lemma nonlinearity (h : D.Exact C φ dφ) (hs : ∀ x y, D.op x y = D.op y x) (hm : Measurable φ ∧ Measurable dφ)
    (hL : ∀ v : ℝ≥0, MemLp φ 2 (gaussianReal 0 v) ∧ MemLp dφ 2 (gaussianReal 0 v)) :
    Nonlinearity D.kernelFn C φ dφ (dualN D) (dualT D) where
  computes k L hk hc hv hg := by
    obtain ⟨k0, h0, h1, h2, h3, h4, h5, h6⟩ := D.kernelFn_ok hk hc hv h.diag
    refine ⟨{ k0 with isGaussian := false }, ?_, ⟨h1.nngp, h1.cov1, h1.cov2, h1.ntk⟩, ?_, h3, h4, h5, h6⟩
    · unfold elementwise
      simp [hg, h0]
    · rw [← h2]; rfl
  symm c u v := by unfold dualN dualT; rw [hs (D.den u)]; exact ⟨rfl, rfl⟩
  nngp P q11 q12 q22 hP h1 h2 := h.nngp hP h1 h2
  ntk P q11 q12 q22 hP h1 h2 := h.dot hP h1 h2
  meas := hm
  mem := hL

lemma nonlinearity_scaled (h : D.Exact C φ dφ) (hs : ∀ x y, D.op x y = D.op y x) (hm : Measurable φ ∧ Measurable dφ)
    (hL : ∀ v : ℝ≥0, MemLp φ 2 (gaussianReal 0 v) ∧ MemLp dφ 2 (gaussianReal 0 v)) (a : ℝ) :
    Nonlinearity (fun k => (D.kernelFn k).map (·.mul a)) C (fun x => a * φ x) (fun x => a * dφ x)
      (fun c u v => a ^ 2 * dualN D c u v) (fun c u v => a ^ 2 * dualT D c u v) where
  computes k L hk hc hv hg := by
    obtain ⟨k0, h0, h1, h2, h3, h4, h5, h6⟩ := D.kernelFn_ok hk hc hv h.diag
    have hst := C24.stores_map k0 _ h1 (a ^ 2 * ·) (a ^ 2 * ·)
    have e : C24.mapL (D.logical L) (a ^ 2 * ·) (a ^ 2 * ·) =
        entrywise (fun c u v => a ^ 2 * dualN D c u v) (fun c u v => a ^ 2 * dualT D c u v) L := by
      simp only [C24.mapL, entrywise, DualFn.logical, dualN, dualT, Option.map_map, Function.comp_def, mul_left_comm]
    rw [e] at hst
    refine ⟨{ k0.mul a with isGaussian := false }, ?_, ⟨hst.nngp, hst.cov1, hst.cov2, hst.ntk⟩, ?_, h3, h4, h5, ?_⟩
    · unfold elementwise
      simp [hg, h0, Except.map]
    · rw [← h2]; rfl
    · intro x hx
      simp only [Kernel.mul, Option.map_eq_some_iff] at hx
      obtain ⟨y, hy, rfl⟩ := hx
      exact h6 y hy
  symm c u v := by unfold dualN dualT; rw [hs (D.den u)]; exact ⟨rfl, rfl⟩
  nngp P q11 q12 q22 hP h1 h2 := by
    rw [show dualN D q12 q11 q22 = _ from h.nngp hP h1 h2, ← integral_const_mul]
    exact integral_congr_ae (.of_forall fun x => by ring)
  ntk P q11 q12 q22 hP h1 h2 := by
    rw [show dualT D q12 q11 q22 = _ from h.dot hP h1 h2, ← integral_const_mul]
    exact integral_congr_ae (.of_forall fun x => by ring)
  meas := ⟨hm.1.const_mul a, hm.2.const_mul a⟩
  mem v := ⟨(hL v).1.const_mul a, (hL v).2.const_mul a⟩

/-- Variances stay nonnegative. -/
lemma vars_entrywise {f : Kernel ℝ → Except Err (Kernel ℝ)} {N T : ℝ → ℝ → ℝ → ℝ} (h : Nonlinearity f C φ dφ N T) (hC : ∀ v, 0 ≤ v → C v)
    {L : Logical ℝ} (hv : L.Vars (fun v => 0 ≤ v)) : (entrywise N T L).Vars (fun v => 0 ≤ v) := by
  have key : ∀ v, 0 ≤ v → 0 ≤ N v v v := by
    intro v hv
    have hG : PsdOn 1 [] fun _ _ _ => N v v v := dual_psd (GramOn.const hv).psd h.meas.1 (fun u => (h.mem u).1)
      fun _ _ _ _ _ _ _ _ P hP => h.nngp P v v v hP (hC v hv) (hC v hv)
    exact (psd_gram.1 hG).nonneg_diag (i := 0) (p := []) (by omega) .nil
  refine ⟨fun i p hi hp => key _ (hv.one i p hi hp), fun F hF i p hi hp => ?_⟩
  simp only [entrywise, Option.map_eq_some_iff] at hF
  obtain ⟨G, hG, rfl⟩ := hF
  exact key _ (hv.two G hG i p hi hp)

/-! ### Square integrability -/

lemma mem_bounded {f : ℝ → ℝ} (hf : Measurable f) {M : ℝ} (h : ∀ x, |f x| ≤ M) (v : ℝ≥0) : MemLp f 2 (gaussianReal 0 v) :=
  MemLp.of_bound hf.aestronglyMeasurable M (.of_forall fun x => h x)

lemma mem_exp (b : ℝ) (v : ℝ≥0) : MemLp (fun x => Real.exp (b * x)) 2 (gaussianReal 0 v) := by
  rw [memLp_two_iff_integrable_sq (by fun_prop)]
  refine (integrable_exp_mul_gaussianReal (2 * b)).congr (.of_forall fun x => ?_)
  show _ = _ ^ 2
  rw [← Real.exp_nat_mul]
  push_cast
  congr 1
  ring

lemma mem_pow (n : ℕ) (v : ℝ≥0) : MemLp (fun x : ℝ => x ^ n) 2 (gaussianReal 0 v) := by
  rw [memLp_two_iff_integrable_sq (by fun_prop)]
  have h : MemLp (fun z : ℝ => z) ((2 * n : ℕ) : ENNReal) (gaussianReal 0 v) := memLp_id_gaussianReal' _ (ENNReal.natCast_ne_top _)
  refine h.integrable_norm_pow'.congr (.of_forall fun x => ?_)
  show ‖x‖ ^ (2 * n) = (x ^ n) ^ 2
  rw [Real.norm_eq_abs, ← pow_mul, mul_comm n 2, pow_mul, sq_abs, ← pow_mul]

/-- `Exp(a, b)`. -/
lemma exp_nonlinearity (a b : ℝ) : ∃ C dφ N T, (∀ v, 0 ≤ v → C v) ∧
    Nonlinearity (fun k => ((expDual b).kernelFn k).map (·.mul a)) C (fun x => a * Real.exp (b * x)) dφ N T :=
  ⟨_, _, _, _, fun _ _ => trivial, nonlinearity_scaled (C42.exp_exact b) add_comm ⟨by fun_prop, by fun_prop⟩
    (fun v => ⟨mem_exp b v, (mem_exp b v).const_mul b⟩) a⟩

/-- `Sin(a, b, c)` and `Cos(a, b, c)`, with the derivative. -/
lemma sin_cos (a b c : ℝ) : ∃ C N T, (∀ v, 0 ≤ v → C v) ∧
    Nonlinearity (sinDual a b c).kernelFn C (fun x => a * Real.sin (b * x + c)) (fun x => a * (b * Real.cos (b * x + c))) N T := by
  refine ⟨_, _, _, fun _ _ => trivial, nonlinearity (C43.sin_exact a b c) add_comm ⟨by fun_prop, by fun_prop⟩ fun v => ⟨?_, ?_⟩⟩
  · refine mem_bounded (M := |a|) (by fun_prop) (fun x => ?_) v
    rw [abs_mul]
    exact mul_le_of_le_one_right (abs_nonneg _) (Real.abs_sin_le_one _)
  · refine mem_bounded (M := |a| * |b|) (by fun_prop) (fun x => ?_) v
    rw [abs_mul, abs_mul]
    exact mul_le_mul_of_nonneg_left (mul_le_of_le_one_right (abs_nonneg _) (Real.abs_cos_le_one _)) (abs_nonneg _)

/-- `Sin(a, b, c)` and `Cos(a, b, c)`. -/
lemma sin_nonlinearity (a b c : ℝ) : ∃ C dφ N T, (∀ v, 0 ≤ v → C v) ∧
    Nonlinearity (sinDual a b c).kernelFn C (fun x => a * Real.sin (b * x + c)) dφ N T :=
  ⟨_, _, (sin_cos a b c).choose_spec⟩

/-- `ABRelu(a, b)`, so `Relu`, `LeakyRelu` and `Abs`, with the derivative. -/
lemma abRelu_slope (a b : ℝ) : ∃ C N T, (∀ v, 0 ≤ v → C v) ∧
    Nonlinearity (abReluDual a b).kernelFn C (fun x => a * min x 0 + b * max x 0) (C44.slope a b) N T := by
  have m1 : Measurable (C44.slope a b) := by
    have : C44.slope a b = fun x => (a + b) / 2 + (b - a) / 2 * sg x := funext fun x => C44.slope_eq a b x
    rw [this]
    exact measurable_const.add (measurable_sg.const_mul _)
  have m2 : Measurable (abReluFn a b) := by unfold abReluFn; fun_prop
  refine ⟨_, _, _, fun _ h => h, nonlinearity (C44.abRelu_exact a b) mul_comm ⟨m2, m1⟩ fun v => ⟨?_, ?_⟩⟩
  · have hi : MemLp (fun x : ℝ => x) 2 (gaussianReal 0 v) := memLp_id_gaussianReal' _ (by simp)
    refine (hi.const_mul (|a| + |b|)).mono m2.aestronglyMeasurable (.of_forall fun x => ?_)
    rw [Real.norm_eq_abs, Real.norm_eq_abs, abs_mul, abs_of_nonneg (by positivity : 0 ≤ |a| + |b|), add_mul]
    refine (abs_add_le _ _).trans (add_le_add ?_ ?_) <;> rw [abs_mul] <;> refine mul_le_mul_of_nonneg_left ?_ (abs_nonneg _)
    · rcases le_total x 0 with h | h
      · rw [min_eq_left h]
      · rw [min_eq_right h, abs_zero]; exact abs_nonneg _
    · rcases le_total x 0 with h | h
      · rw [max_eq_right h, abs_zero]; exact abs_nonneg _
      · rw [max_eq_left h]
  · refine mem_bounded (M := |(a + b) / 2| + |(b - a) / 2|) m1 (fun x => ?_) v
    rw [C44.slope_eq]
    refine (abs_add_le _ _).trans (add_le_add le_rfl ?_)
    rw [abs_mul]
    exact mul_le_of_le_one_right (abs_nonneg _) (abs_sg_le _)

/-- `ABRelu(a, b)`, so `Relu`, `LeakyRelu` and `Abs`. -/
lemma abRelu_nonlinearity (a b : ℝ) : ∃ C dφ N T, (∀ v, 0 ≤ v → C v) ∧
    Nonlinearity (abReluDual a b).kernelFn C (fun x => a * min x 0 + b * max x 0) dφ N T :=
  ⟨_, _, (abRelu_slope a b).choose_spec⟩

/-- `Monomial(degree)`. -/
lemma monomial_nonlinearity (n : ℕ) (hn : n ≤ 5) : ∃ C dφ N T, (∀ v, 0 ≤ v → C v) ∧
    Nonlinearity (monomialDual n).kernelFn C (fun x => x ^ n) dφ N T := by
  have e : (deriv fun x : ℝ => x ^ n) = fun x : ℝ => (n : ℝ) * x ^ (n - 1) := by funext x; simp
  exact ⟨_, _, _, _, fun _ _ => trivial, nonlinearity (C47.monomial_exact n hn) mul_comm ⟨by fun_prop, by rw [e]; fun_prop⟩
    fun v => ⟨mem_pow n v, by rw [e]; exact (mem_pow _ v).const_mul _⟩⟩

/-- `Polynomial(coef)`, for positive variances. -/
lemma polynomial_nonlinearity (coef : List ℝ) : ∃ dφ N T,
    Nonlinearity (polynomialDual coef).kernelFn (fun v => 0 < v) (fun x => ∑ m ∈ Finset.range coef.length, coef.getD m 0 * x ^ m) dφ N T := by
  refine ⟨_, _, _, nonlinearity (C48.polynomial_exact coef) ?_ ⟨?_, ?_⟩ fun v => ⟨?_, ?_⟩⟩
  · intro x y
    simp only [polynomialDual, mul_comm]
  · fun_prop
  · rw [C48.poly_deriv]; fun_prop
  · exact memLp_finsetSum _ fun m _ => (mem_pow m v).const_mul _
  · rw [C48.poly_deriv]; exact memLp_finsetSum _ fun m _ => (mem_pow m v).const_mul _

/-- `Gaussian(a, b)` for `b ≤ 0`. -/
lemma gaussian_nonlinearity (a b : ℝ) (hb : b ≤ 0) : ∃ C dφ N T, (∀ v, 0 ≤ v → C v) ∧
    Nonlinearity (fun k => ((gaussianDual b).kernelFn k).map (·.mul a)) C (fun x => a * Real.exp (b * x ^ 2)) dφ N T := by
  have h1 : ∀ x : ℝ, |Real.exp (b * x ^ 2)| ≤ 1 := fun x => by
    rw [abs_of_pos (Real.exp_pos _), Real.exp_le_one_iff]
    nlinarith [sq_nonneg x]
  refine ⟨_, _, _, _, fun v hv => ?_, nonlinearity_scaled (C49.gaussian_exact b) mul_comm ⟨by fun_prop, by fun_prop⟩
    (fun v => ⟨mem_bounded (by fun_prop) h1 v, ?_⟩) a⟩
  · nlinarith
  · have hi : MemLp (fun x : ℝ => x) 2 (gaussianReal 0 v) := memLp_id_gaussianReal' _ (by simp)
    refine (hi.const_mul (2 * b)).mono (by fun_prop) (.of_forall fun x => ?_)
    rw [norm_mul]
    exact mul_le_of_le_one_right (norm_nonneg _) (h1 x)

lemma pair_scale {P : Measure (ℝ × ℝ)} {q11 q12 q22 : ℝ} (b : ℝ) (hP : GaussPair P q11 q12 q22) :
    GaussPair (P.map fun z => (b * z.1, b * z.2)) (b ^ 2 * q11) (b ^ 2 * q12) (b ^ 2 * q22) := by
  have := hP.map_pair b 0 0 b
  have e : (fun z : ℝ × ℝ => (b * z.1 + 0 * z.2, 0 * z.1 + b * z.2)) = fun z => (b * z.1, b * z.2) := by
    funext z; simp
  rw [e] at this
  convert this using 1 <;> ring

lemma odd_shift {P : Measure (ℝ × ℝ)} {q11 q12 q22 : ℝ} (hP : GaussPair P q11 q12 q22) (hm : Measurable φ) {M : ℝ} (hb : ∀ x, |φ x| ≤ M)
    (ho : ∀ x, φ (-x) = -φ x) (c : ℝ) : ∫ x, (φ x.1 + c) * (φ x.2 + c) ∂P = c ^ 2 + ∫ x, φ x.1 * φ x.2 ∂P := by
  have := hP.gaussian
  have hM : 0 ≤ M := (abs_nonneg _).trans (hb 0)
  have i1 : Integrable (fun x : ℝ × ℝ => φ x.1 * φ x.2) P := by
    refine Integrable.of_bound (Measurable.aestronglyMeasurable (by fun_prop)) (M * M) (Filter.Eventually.of_forall fun x => ?_)
    rw [Real.norm_eq_abs, abs_mul]
    exact mul_le_mul (hb _) (hb _) (abs_nonneg _) hM
  have i2 : Integrable (fun x : ℝ × ℝ => φ x.1 + φ x.2) P := by
    refine Integrable.of_bound (Measurable.aestronglyMeasurable (by fun_prop)) (M + M) (Filter.Eventually.of_forall fun x => ?_)
    exact (norm_add_le _ _).trans (add_le_add (hb _) (hb _))
  have h0 : ∫ x, (φ x.1 + φ x.2) ∂P = 0 :=
    hP.odd (fun x => φ x.1 + φ x.2) (by fun_prop) (fun x => by simp only [ho]; ring)
  have e' : (fun x : ℝ × ℝ => (φ x.1 + c) * (φ x.2 + c)) = fun x => c ^ 2 * 1 + (1 * (φ x.1 * φ x.2) + c * (φ x.1 + φ x.2)) := by
    funext x
    ring
  rw [e', integral_three (integrable_const _) i1 i2, h0]
  simp

/-- `Erf(a, b, c)`. -/
lemma erf_nonlinearity (a b c : ℝ) : ∃ C dφ N T, (∀ v, 0 ≤ v → C v) ∧
    Nonlinearity (fun k => (erfDual.kernelFn (k.mul b)).map fun k => (k.mul a).add c) C (fun x => a * erf (b * x) + c) dφ N T := by
  have me := continuous_erf.measurable
  have hbd : ∀ x, |a * erf (b * x)| ≤ |a| := fun x => by
    rw [abs_mul]
    exact mul_le_of_le_one_right (abs_nonneg _) (abs_erf_le _)
  refine ⟨fun v => 0 ≤ v, fun x => a * (b * (2 / Real.sqrt Real.pi * Real.exp (-(b * x) ^ 2))),
    fun n u v => c ^ 2 + a ^ 2 * dualN erfDual (b ^ 2 * n) (b ^ 2 * u) (b ^ 2 * v),
    fun n u v => a ^ 2 * (b ^ 2 * dualT erfDual (b ^ 2 * n) (b ^ 2 * u) (b ^ 2 * v)), fun v hv => hv, ?_, ?_, ?_, ?_, ?_, ?_⟩
  · intro k L hk hc hv hg
    have hkb := C24.stores_map k L hk (b ^ 2 * ·) (b ^ 2 * ·)
    have hcb : (C24.mapL L (b ^ 2 * ·) (b ^ 2 * ·)).Closed := by
      intro h
      simp only [C24.mapL, Option.map_eq_none_iff] at h
      exact hc h
    have hvb : (C24.mapL L (b ^ 2 * ·) (b ^ 2 * ·)).Vars (fun v => 0 ≤ v) := by
      refine ⟨fun i p hi hp => mul_nonneg (sq_nonneg b) (hv.one i p hi hp), fun F hF i p hi hp => ?_⟩
      simp only [C24.mapL, Option.map_eq_some_iff] at hF
      obtain ⟨G, hG, rfl⟩ := hF
      exact mul_nonneg (sq_nonneg b) (hv.two G hG i p hi hp)
    obtain ⟨k0, h0, h1, h2, h3, h4, h5, h6⟩ := erfDual.kernelFn_ok hkb hcb hvb C46.erf_exact.diag
    have hsm := C24.stores_map k0 _ h1 (a ^ 2 * ·) (a ^ 2 * ·)
    have hst : ((k0.mul a).add c).Stores { C24.mapL (C24.mapL (erfDual.logical (C24.mapL L (b ^ 2 * ·) (b ^ 2 * ·)))
        (a ^ 2 * ·) (a ^ 2 * ·)) (c ^ 2 + ·) id with
          ntk := (C24.mapL (erfDual.logical (C24.mapL L (b ^ 2 * ·) (b ^ 2 * ·))) (a ^ 2 * ·) (a ^ 2 * ·)).ntk } := by
      have hsa := C24.stores_map (k0.mul a) _ hsm (c ^ 2 + ·) id
      exact ⟨hsa.nngp, hsa.cov1, hsa.cov2, hsm.ntk⟩
    have hsec : (C24.mapL L (b ^ 2 * ·) (b ^ 2 * ·)).second = fun x p q => b ^ 2 * L.second x p q := by
      unfold Logical.second C24.mapL
      cases L.k22 <;> rfl
    have e : { C24.mapL (C24.mapL (erfDual.logical (C24.mapL L (b ^ 2 * ·) (b ^ 2 * ·)))
        (a ^ 2 * ·) (a ^ 2 * ·)) (c ^ 2 + ·) id with
          ntk := (C24.mapL (erfDual.logical (C24.mapL L (b ^ 2 * ·) (b ^ 2 * ·))) (a ^ 2 * ·) (a ^ 2 * ·)).ntk } =
        entrywise (fun n u v => c ^ 2 + a ^ 2 * dualN erfDual (b ^ 2 * n) (b ^ 2 * u) (b ^ 2 * v))
          (fun n u v => a ^ 2 * (b ^ 2 * dualT erfDual (b ^ 2 * n) (b ^ 2 * u) (b ^ 2 * v))) L := by
      have hs' : ∀ x p q, (C24.mapL L (b ^ 2 * ·) (b ^ 2 * ·)).second x p q = b ^ 2 * L.second x p q := fun x p q => by rw [hsec]
      simp only [C24.mapL] at hs'
      simp only [C24.mapL, entrywise, DualFn.logical, dualN, dualT, Option.map_map, Function.comp_def, hs']
      congr 2
      funext F x p q
      ring
    rw [e] at hst
    refine ⟨{ (k0.mul a).add c with isGaussian := false }, ?_, ⟨hst.nngp, hst.cov1, hst.cov2, hst.ntk⟩, ?_, h3, h4, h5, ?_⟩
    · unfold elementwise
      simp only [hg, Bool.not_true, Bool.false_eq_true, if_false]
      rw [show erfDual.kernelFn (k.mul b) = .ok k0 from h0]
      rfl
    · show (k0.static : Kernel.Static) |> fun s => { s with isGaussian := false } = _
      rw [h2]; rfl
    · intro x hx
      simp only [Kernel.add, Kernel.mul, Option.map_eq_some_iff] at hx
      obtain ⟨y, hy, rfl⟩ := hx
      exact h6 y hy
  · intro n u v
    unfold dualN dualT
    rw [show erfDual.op (erfDual.den (b ^ 2 * u)) (erfDual.den (b ^ 2 * v)) = erfDual.op (erfDual.den (b ^ 2 * v)) (erfDual.den (b ^ 2 * u)) from
      mul_comm _ _]
    exact ⟨rfl, rfl⟩
  · intro P q11 q12 q22 hP h1 h2
    rw [odd_shift hP (φ := fun x => a * erf (b * x)) (by fun_prop) hbd (fun x => by rw [mul_neg, erf_neg]; ring) c]
    congr 1
    rw [show dualN erfDual _ _ _ = _ from C46.erf_exact.nngp (pair_scale b hP) (mul_nonneg (sq_nonneg b) h1) (mul_nonneg (sq_nonneg b) h2),
      integral_map (by fun_prop) (by fun_prop), ← integral_const_mul]
    exact integral_congr_ae (.of_forall fun x => by ring)
  · intro P q11 q12 q22 hP h1 h2
    show a ^ 2 * (b ^ 2 * _) = _
    rw [show dualT erfDual _ _ _ = _ from C46.erf_exact.dot (pair_scale b hP) (mul_nonneg (sq_nonneg b) h1) (mul_nonneg (sq_nonneg b) h2),
      integral_map (by fun_prop) (by fun_prop), ← integral_const_mul, ← integral_const_mul]
    exact integral_congr_ae (.of_forall fun x => by ring)
  · exact ⟨by fun_prop, by fun_prop⟩
  · intro v
    refine ⟨mem_bounded (M := |a| + |c|) (by fun_prop) (fun x => (abs_add_le _ _).trans (add_le_add (hbd x) le_rfl)) v,
      mem_bounded (M := |a| * (|b| * (2 / Real.sqrt Real.pi))) (by fun_prop) (fun x => ?_) v⟩
    rw [abs_mul, abs_mul, abs_mul, abs_of_nonneg (by positivity : 0 ≤ 2 / Real.sqrt Real.pi), abs_of_pos (Real.exp_pos _)]
    gcongr
    refine mul_le_of_le_one_right (by positivity) (Real.exp_le_one_iff.2 ?_)
    nlinarith [sq_nonneg (b * x)]

end NT.Semantics
