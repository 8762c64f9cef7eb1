import Verif.Props.C50

/-!
# C50, `RectifiedMonomial`: at the diagonal the kernel extends continuously to the variance
-/

namespace NT.C50
open NT Arr Kernel Spec MeasureTheory Gauss Filter Topology

lemma arcA_continuous (n : ℕ) : Continuous fun θ => arcA θ n := by
  induction n using Nat.strong_induction_on with
  | _ n ih =>
    match n, ih with
    | 0, _ => simp only [arcA]; fun_prop
    | 1, _ => simp only [arcA]; fun_prop
    | n + 2, ih =>
      have h1 := ih (n + 1) (by omega)
      have h0 := ih n (by omega)
      simp only [arcA]
      fun_prop

lemma ideal_tendsto (n : ℕ) {v : ℝ} (hv : 0 < v) {x a b : ℕ → ℝ} (hx : Tendsto x atTop (𝓝 v)) (ha : Tendsto a atTop (𝓝 v)) (hb : Tendsto b atTop (𝓝 v)) :
    Tendsto (fun m => (C47.ideal n).nngp (x m) (a m * b m)) atTop (𝓝 ((C47.ideal n).nngp v (v * v))) := by
  have hs : Tendsto (fun m => Real.sqrt (a m * b m)) atTop (𝓝 (Real.sqrt (v * v))) := (ha.mul hb).sqrt
  have hv' : Real.sqrt (v * v) ≠ 0 := by rw [Real.sqrt_mul_self hv.le]; exact hv.ne'
  have hq : Tendsto (fun m => Real.arccos (x m / Real.sqrt (a m * b m))) atTop (𝓝 (Real.arccos (v / Real.sqrt (v * v)))) :=
    (Real.continuous_arccos.tendsto _).comp (hx.div hs hv')
  have hA : Tendsto (fun m => arcA (Real.arccos (x m / Real.sqrt (a m * b m))) n) atTop (𝓝 (arcA (Real.arccos (v / Real.sqrt (v * v))) n)) :=
    ((arcA_continuous n).tendsto _).comp hq
  exact ((hs.pow n).div_const _).mul (hA.const_mul _)

lemma ideal_dot_tendsto (n : ℕ) {v : ℝ} (hv : 0 < v) {x a b : ℕ → ℝ} (hx : Tendsto x atTop (𝓝 v)) (ha : Tendsto a atTop (𝓝 v)) (hb : Tendsto b atTop (𝓝 v)) :
    Tendsto (fun m => (C47.ideal n).dot (x m) (a m * b m)) atTop (𝓝 ((C47.ideal n).dot v (v * v))) :=
  (ideal_tendsto (n - 1) hv hx ha hb).const_mul _

/-- `RectifiedMonomial(degree)` near the diagonal, where `diagonal_consistent_partial` does not apply: when two points that are never perfectly correlated
approach each other (their variances and their covariance tend to the same `v > 0`), their `nngp` after the layer tends to the expectation of
`φ(u) ^ 2` for a Gaussian variable `u` of variance `v`, and, in the fully diagonal layout, so do their variances after the layer.  Their `ntk`, if it tends to
`w` before the layer, tends to `w` times the expectation of `φ'(u) ^ 2` after it. -/
theorem rectified_limit_partial (degree : ℕ) (k : ℕ → Kernel ℝ) (L : ℕ → Logical ℝ) (hk : ∀ m, (k m).Stores (L m)) (hc : ∀ m, (L m).Closed)
    (hv : ∀ m, (L m).Vars fun v => 0 < v) (hg : ∀ m, (k m).isGaussian = true) (i j : ℕ) (p q : List ℕ)
    (hi : ∀ m, i < (L m).n1) (hj : ∀ m, j < (L m).n2) (hp : ∀ m, InRange p (L m).S1) (hq : ∀ m, InRange q (L m).S2)
    (hs : ∀ m, C47.Strict ((L m).k11 [i, i] p p) ((L m).k12 [i, j] p q) ((L m).second [j, j] q q)) (v : ℝ) (hv0 : 0 < v)
    (h1 : Tendsto (fun m => (L m).k11 [i, i] p p) atTop (𝓝 v)) (h12 : Tendsto (fun m => (L m).k12 [i, j] p q) atTop (𝓝 v))
    (h2 : Tendsto (fun m => (L m).second [j, j] q q) atTop (𝓝 v)) :
    ∃ (k' : ℕ → Kernel ℝ) (L' : ℕ → Logical ℝ), (∀ m, rectifiedMonomialKernelFn degree (k m) = .ok (k' m) ∧ (k' m).Stores (L' m)) ∧
      ∀ P, GaussPair P v v v →
        Tendsto (fun m => (L' m).k12 [i, j] p q) atTop (𝓝 (∫ x, rectifiedMonomialFn degree x.1 * rectifiedMonomialFn degree x.2 ∂P)) ∧
        ((∀ m, ((k m).diagonalBatch && (k m).diagonalSpatial) = true) →
          Tendsto (fun m => (L' m).k11 [i, i] p p) atTop (𝓝 (∫ x, rectifiedMonomialFn degree x.1 * rectifiedMonomialFn degree x.2 ∂P))) ∧
        ∀ (F : ℕ → List ℕ → List ℕ → List ℕ → ℝ) (w : ℝ), (∀ m, (L m).ntk = some (F m)) → Tendsto (fun m => F m [i, j] p q) atTop (𝓝 w) →
          ∃ F' : ℕ → List ℕ → List ℕ → List ℕ → ℝ, (∀ m, (L' m).ntk = some (F' m)) ∧
            Tendsto (fun m => F' m [i, j] p q) atTop
              (𝓝 (w * ∫ x, deriv (rectifiedMonomialFn degree) x.1 * deriv (rectifiedMonomialFn degree) x.2 ∂P)) := by
  choose k' L' e1 e2 e3 e4 e5 e6 using fun m => C47.rectified_entries_exact_partial degree (k m) (L m) (hk m) (hc m) (hv m) (hg m)
  have pos1 : ∀ m, 0 < (L m).k11 [i, i] p p := fun m => (hv m).one i p (hi m) (hp m)
  have pos2 : ∀ m, 0 < (L m).second [j, j] q q := fun m => (hv m).second (hc m) j q (hj m) (hq m)
  refine ⟨k', L', fun m => ⟨e1 m, e2 m⟩, fun P hP => ?_⟩
  have lim := (C47.ideal_exact degree).nngp hP hv0 hv0
  rw [← lim]
  have pair : ∀ m, ∃ P', GaussPair P' ((L m).k11 [i, i] p p) ((L m).k12 [i, j] p q) ((L m).second [j, j] q q) := by
    intro m
    have hs' : ((L m).k12 [i, j] p q) ^ 2 ≤ (L m).k11 [i, i] p p * (L m).second [j, j] q q := by
      have h := hs m
      unfold C47.Strict at h
      have := Real.lt_sqrt (abs_nonneg _) |>.1 h
      rw [sq_abs] at this
      exact this.le
    exact GaussPair.exist _ _ _ (pos1 m).le (pos2 m).le hs'
  refine ⟨?_, fun hd => ?_, fun F w hF hw => ?_⟩
  · refine (ideal_tendsto degree hv0 h12 h1 h2).congr fun m => ?_
    obtain ⟨P', hP'⟩ := pair m
    rw [(e5 m i j p q (hi m) (hj m) (hp m) (hq m) (hs m) P' hP').1]
    exact (C47.ideal_exact degree).nngp hP' (pos1 m) (pos2 m)
  · refine (ideal_tendsto degree hv0 h1 h1 h1).congr fun m => ?_
    obtain ⟨P', hP'⟩ := GaussPair.exist _ ((L m).k11 [i, i] p p) _ (pos1 m).le (pos1 m).le (pow_two _).le
    rw [e6 m i i p p (hi m) (hi m) (hp m) (hp m) (.inr ⟨rfl, rfl, hd m⟩) P' hP']
    exact (C47.ideal_exact degree).nngp hP' (pos1 m) (pos1 m)
  · have step : ∀ m, ∃ G, (L' m).ntk = some G ∧
        G [i, j] p q = F m [i, j] p q * (C47.ideal degree).dot ((L m).k12 [i, j] p q) ((L m).k11 [i, i] p p * (L m).second [j, j] q q) := by
      intro m
      obtain ⟨P', hP'⟩ := pair m
      have h := (e5 m i j p q (hi m) (hj m) (hp m) (hq m) (hs m) P' hP').2
      rw [hF m] at h
      cases e : (L' m).ntk with
      | none => rw [e] at h; exact h.elim
      | some G =>
        rw [e] at h
        refine ⟨G, rfl, ?_⟩
        have h' : G [i, j] p q = F m [i, j] p q * _ := h
        rw [h']
        exact congrArg _ ((C47.ideal_exact degree).dot hP' (pos1 m) (pos2 m)).symm
    choose G g1 g2 using step
    refine ⟨G, g1, ?_⟩
    have lim' := (C47.ideal_exact degree).dot hP hv0 hv0
    rw [← lim']
    exact (hw.mul (ideal_dot_tendsto degree hv0 h12 h1 h2)).congr fun m => (g2 m).symm

/-- Two points of variance 2 whose correlation tends to 1. -/
noncomputable def approachL (m : ℕ) : Logical ℝ where
  n1 := 1
  n2 := 1
  S1 := []
  S2 := []
  k12 _ _ _ := 2 - 1 / ((m : ℝ) + 1)
  k11 _ _ _ := 2
  k22 := some fun _ _ _ => 2
  ntk := some fun _ _ _ => 3

/-- `rectified_limit_partial`: the hypotheses hold for these points. -/
example (degree : ℕ) : ∃ (k' : ℕ → Kernel ℝ) (L' : ℕ → Logical ℝ) (F' : ℕ → List ℕ → List ℕ → List ℕ → ℝ) (w w' : ℝ),
    (∀ m, rectifiedMonomialKernelFn degree { (approachL m).encode true true false with isGaussian := true } = .ok (k' m) ∧ (k' m).Stores (L' m)) ∧
      Tendsto (fun m => (L' m).k12 [0, 0] [] []) atTop (𝓝 w) ∧ Tendsto (fun m => (L' m).k11 [0, 0] [] []) atTop (𝓝 w) ∧
      (∀ m, (L' m).ntk = some (F' m)) ∧ Tendsto (fun m => F' m [0, 0] [] []) atTop (𝓝 (3 * w')) := by
  have h01 : ∀ m : ℕ, 0 < 1 / ((m : ℝ) + 1) ∧ 1 / ((m : ℝ) + 1) ≤ 1 := fun m =>
    ⟨by positivity, by rw [div_le_one (by positivity)]; linarith [Nat.cast_nonneg (α := ℝ) m]⟩
  obtain ⟨k', L', a1, a2⟩ := rectified_limit_partial degree (fun m => { (approachL m).encode true true false with isGaussian := true }) approachL
    (fun m => by
      have hst := (approachL m).encode_stores true true false (fun _ => rfl) rfl
      exact ⟨hst.nngp, hst.cov1, hst.cov2, hst.ntk⟩)
    (fun m => by simp [Logical.Closed, approachL])
    (fun m => ⟨fun i p _ _ => by simp [approachL], fun F hF i p _ _ => by obtain rfl := Option.some.inj hF; simp⟩)
    (fun m => rfl) 0 0 [] [] (fun m => Nat.one_pos) (fun m => Nat.one_pos) (fun m => .nil) (fun m => .nil)
    (fun m => by
      obtain ⟨b1, b2⟩ := h01 m
      show |2 - 1 / ((m : ℝ) + 1)| < Real.sqrt (2 * 2)
      rw [Real.sqrt_mul_self (by norm_num), abs_of_nonneg (by linarith)]
      linarith)
    2 (by norm_num) tendsto_const_nhds
    (by
      show Tendsto (fun m : ℕ => (2 : ℝ) - 1 / ((m : ℝ) + 1)) atTop (𝓝 2)
      simpa using (tendsto_one_div_add_atTop_nhds_zero_nat (𝕜 := ℝ)).const_sub 2)
    tendsto_const_nhds
  obtain ⟨P, hP⟩ := GaussPair.exist 2 2 2 (by norm_num) (by norm_num) (by norm_num)
  obtain ⟨b1, b2, b3⟩ := a2 P hP
  obtain ⟨F', c1, c2⟩ := b3 (fun _ _ _ _ => 3) 3 (fun m => rfl) tendsto_const_nhds
  exact ⟨k', L', F', _, _, a1, b1, b2 fun m => rfl, c1, c2⟩

end NT.C50
