import Verif.Model.MaxLr
import Verif.Spec.Momentum
import Verif.Props.C61
import Verif.Lemmas.Ensemble
import Mathlib.Analysis.SpecificLimits.Normed

/-!
# C67: `max_learning_rate`
-/

namespace NT.C67
open NT Arr Spec Predict Matrix Filter Topology

/-! ### The scalar recursion -/

lemma geom_tendsto {a b : ℕ → ℝ} {r ρ : ℝ} (hr : |r| ≤ ρ) (hρ : ρ < 1) (ha : ∀ k, a (k + 1) = r * a k + b k) {B : ℝ}
    (hb : ∀ k, |b k| ≤ ρ ^ k * B) : Tendsto a atTop (𝓝 0) := by
  have h0 : 0 ≤ ρ := (abs_nonneg r).trans hr
  have hB : 0 ≤ B := by have := hb 0; rw [pow_zero, one_mul] at this; exact (abs_nonneg _).trans this
  have hbound : ∀ k, |a (k + 1)| ≤ ρ ^ (k + 1) * |a 0| + (k + 1) * ρ ^ k * B := by
    intro k
    induction k with
    | zero =>
      have h1 := abs_add_le (r * a 0) (b 0)
      rw [abs_mul] at h1
      have h2 := mul_le_mul_of_nonneg_right hr (abs_nonneg (a 0))
      have := hb 0
      rw [ha]
      simp only [Nat.cast_zero, zero_add, pow_one, pow_zero, one_mul] at this ⊢
      linarith
    | succ k ih =>
      have h1 := abs_add_le (r * a (k + 1)) (b (k + 1))
      rw [abs_mul] at h1
      have h2 := mul_le_mul_of_nonneg_right hr (abs_nonneg (a (k + 1)))
      have h3 := mul_le_mul_of_nonneg_left ih h0
      have := hb (k + 1)
      rw [ha]
      push_cast
      calc _ ≤ ρ * (ρ ^ (k + 1) * |a 0| + (k + 1) * ρ ^ k * B) + ρ ^ (k + 1) * B := by linarith
        _ = _ := by ring
  have hlim : Tendsto (fun k : ℕ => ρ ^ (k + 1) * |a 0| + (k + 1) * ρ ^ k * B) atTop (𝓝 0) := by
    have h1 : Tendsto (fun k : ℕ => ρ ^ k) atTop (𝓝 0) := tendsto_pow_atTop_nhds_zero_of_lt_one h0 hρ
    have h2 : Tendsto (fun k : ℕ => (k : ℝ) * ρ ^ k) atTop (𝓝 0) := tendsto_self_mul_const_pow_of_lt_one h0 hρ
    have h3 := ((h1.comp (tendsto_add_atTop_nat 1)).mul_const |a 0|).add ((h2.add h1).mul_const B)
    simp only [zero_mul, add_zero] at h3
    refine h3.congr fun k => ?_
    simp only [Function.comp_def]
    ring
  rw [← tendsto_add_atTop_iff_nat 1]
  exact squeeze_zero_norm (fun k => by simpa using hbound k) hlim

/-- The recursion of the heavy ball with the eigenvalue `x` converges for `0 < x < 2 (1 + β)`. -/
lemma recursion_tendsto {β x : ℝ} (hβ : 0 ≤ β) (hβ1 : β < 1) (hx : 0 < x) (hx1 : x < 2 * (1 + β)) {a : ℕ → ℝ}
    (ha : ∀ k, a (k + 2) = (1 + β - x) * a (k + 1) - β * a k) : Tendsto a atTop (𝓝 0) := by
  set s := 1 + β - x with hs
  have hs1 : s < 1 + β := by linarith
  have hs2 : -(1 + β) < s := by linarith
  rcases lt_or_ge (s ^ 2) (4 * β) with hd | hd
  · -- complex roots: a quadratic form decays
    set Q : ℕ → ℝ := fun k => a (k + 1) ^ 2 - s * a (k + 1) * a k + β * a k ^ 2 with hQ
    have hQs : ∀ k, Q k = β ^ k * Q 0 := by
      intro k
      induction k with
      | zero => simp
      | succ k ih =>
        have : Q (k + 1) = β * Q k := by
          simp only [hQ, ha]
          ring
        rw [this, ih]
        ring
    have hc : 0 < β - s ^ 2 / 4 := by linarith
    have hle : ∀ k, a k ^ 2 ≤ β ^ k * Q 0 / (β - s ^ 2 / 4) := by
      intro k
      rw [le_div_iff₀ hc, ← hQs]
      simp only [hQ]
      nlinarith [sq_nonneg (a (k + 1) - s / 2 * a k)]
    have hlim : Tendsto (fun k : ℕ => β ^ k * Q 0 / (β - s ^ 2 / 4)) atTop (𝓝 0) := by
      have := ((tendsto_pow_atTop_nhds_zero_of_lt_one hβ hβ1).mul_const (Q 0)).div_const (β - s ^ 2 / 4)
      simpa using this
    have hsq : Tendsto (fun k => a k ^ 2) atTop (𝓝 0) := squeeze_zero (fun k => sq_nonneg _) hle hlim
    have := hsq.sqrt
    simp only [Real.sqrt_sq_eq_abs, Real.sqrt_zero] at this
    exact (tendsto_zero_iff_abs_tendsto_zero a).2 this
  · -- real roots
    set d := Real.sqrt (s ^ 2 - 4 * β) with hdd
    have hd2 : d ^ 2 = s ^ 2 - 4 * β := Real.sq_sqrt (by linarith)
    have hd0 : 0 ≤ d := Real.sqrt_nonneg _
    have root : ∀ r, r ^ 2 - s * r + β = 0 → |r| < 1 := by
      intro r hr
      rw [abs_lt]
      constructor
      · by_contra h
        push Not at h
        nlinarith [mul_nonneg (show 0 ≤ -(r + 1) by linarith) (show 0 ≤ -(r + β) by linarith)]
      · by_contra h
        push Not at h
        nlinarith [mul_nonneg (show 0 ≤ r - 1 by linarith) (show 0 ≤ r - β by linarith)]
    have h1 := root ((s + d) / 2) (by nlinarith)
    have h2 := root ((s - d) / 2) (by nlinarith)
    set r1 := (s + d) / 2 with hr1
    set r2 := (s - d) / 2 with hr2
    have hsum : r1 + r2 = s := by rw [hr1, hr2]; ring
    have hprod : r1 * r2 = β := by rw [hr1, hr2]; nlinarith
    set b : ℕ → ℝ := fun k => a (k + 1) - r1 * a k with hb
    have hbs : ∀ k, b k = r2 ^ k * b 0 := by
      intro k
      induction k with
      | zero => simp
      | succ k ih =>
        have : b (k + 1) = r2 * b k := by
          simp only [hb, ha]
          rw [← hsum, ← hprod]
          ring
        rw [this, ih]
        ring
    refine geom_tendsto (r := r1) (ρ := max |r1| |r2|) (b := b) (B := |b 0|) (le_max_left _ _) (max_lt h1 h2) (fun k => by simp [hb])
      fun k => ?_
    rw [hbs, abs_mul, abs_pow]
    exact mul_le_mul_of_nonneg_right (pow_le_pow_left₀ (abs_nonneg _) (le_max_right _ _) k) (abs_nonneg _)

/-- The recursion, started at rest, is unbounded for `x > 2 (1 + β)`. -/
lemma recursion_unbounded {β x : ℝ} (hβ : 0 ≤ β) (hβ1 : β < 1) (hx : 2 * (1 + β) < x) {a : ℕ → ℝ}
    (ha : ∀ k, a (k + 2) = (1 + β - x) * a (k + 1) - β * a k) (h1 : a 1 = (1 - x) * a 0) (h0 : a 0 ≠ 0) (C : ℝ) : ∃ k, C < |a k| := by
  set s := 1 + β - x with hs
  have hs2 : s < -(1 + β) := by linarith
  set d := Real.sqrt (s ^ 2 - 4 * β) with hdd
  have hpos : (1 - β) ^ 2 < s ^ 2 - 4 * β := by nlinarith
  have hd2 : d ^ 2 = s ^ 2 - 4 * β := Real.sq_sqrt (by nlinarith)
  have hd0 : 1 - β < d := Real.lt_sqrt_of_sq_lt hpos
  set r := (s - d) / 2 with hr
  set y := (s + d) / 2 with hy
  have hsum : r + y = s := by rw [hr, hy]; ring
  have hprod : r * y = β := by rw [hr, hy]; nlinarith
  have hr1 : r < -1 := by rw [hr]; linarith
  have hy1 : -1 < y := by
    by_contra h
    push Not at h
    nlinarith
  set b : ℕ → ℝ := fun k => a (k + 1) - y * a k with hb
  have hbs : ∀ k, b k = r ^ k * b 0 := by
    intro k
    induction k with
    | zero => simp
    | succ k ih =>
      have : b (k + 1) = r * b k := by
        simp only [hb, ha]
        rw [← hsum, ← hprod]
        ring
      rw [this, ih]
      ring
  have hb0 : b 0 ≠ 0 := by
    have : b 0 = (1 - x - y) * a 0 := by simp only [hb, zero_add, h1]; ring
    rw [this]
    exact mul_ne_zero (by linarith : (1 - x - y) < 0).ne h0
  by_contra hC
  push Not at hC
  have hr2 : 1 < |r| := by rw [abs_of_neg (by linarith)]; linarith
  have hy2 : |y| ≤ |r| := by
    rw [abs_of_neg (show r < 0 by linarith), abs_le]
    constructor
    · linarith
    · nlinarith
  obtain ⟨k, hk⟩ := (tendsto_pow_atTop_atTop_of_one_lt hr2).eventually_gt_atTop ((C + |r| * C) / |b 0|) |>.exists
  rw [div_lt_iff₀ (abs_pos.2 hb0), ← abs_pow, ← abs_mul, ← hbs] at hk
  have hC0 : 0 ≤ C := (abs_nonneg _).trans (hC 0)
  have h3 : |b k| ≤ |a (k + 1)| + |y * a k| := abs_sub _ _
  rw [abs_mul] at h3
  have h4 := hC (k + 1)
  have h5 := mul_le_mul hy2 (hC k) (abs_nonneg _) (abs_nonneg _)
  linarith

/-! ### The modes -/

section
variable {ι κ : Type} [Fintype ι] {rate β N : ℝ} {K : Matrix ι ι ℝ} {Y : Matrix ι κ ℝ} {f z : ℕ → Matrix ι κ ℝ} {v : ι → ℝ} {lam : ℝ}

lemma component_mul (hs : K.IsSymm) (hv : K *ᵥ v = lam • v) (E : Matrix ι κ ℝ) (r : κ) :
    ∑ p, v p * (K * E) p r = lam * ∑ p, v p * E p r := by
  have h1 : ∀ q, ∑ p, v p * K p q = lam * v q := by
    intro q
    have := congrFun hv q
    simp only [mulVec, dotProduct, Pi.smul_apply, smul_eq_mul] at this
    rw [← this]
    exact Finset.sum_congr rfl fun p _ => by rw [mul_comm, ← hs.apply]
  simp only [mul_apply, Finset.mul_sum]
  rw [Finset.sum_comm]
  refine Finset.sum_congr rfl fun q _ => ?_
  rw [← mul_assoc, ← h1, Finset.sum_mul]
  exact Finset.sum_congr rfl fun p _ => by ring

lemma mode_rec (hs : K.IsSymm) (hv : K *ᵥ v = lam • v) (h : Descent rate β N K Y f z) (r : κ) :
    (component v (f 1) Y r = (1 - rate / N * lam) * component v (f 0) Y r) ∧
    ∀ k, component v (f (k + 2)) Y r = (1 + β - rate / N * lam) * component v (f (k + 1)) Y r - β * component v (f k) Y r := by
  have hz : ∀ k, ∑ p, v p * z (k + 1) p r = β * ∑ p, v p * z k p r + 1 / N * (lam * component v (f k) Y r) := by
    intro k
    rw [h.velocity]
    have := component_mul hs hv (f k - Y) r
    simp only [Matrix.add_apply, Matrix.smul_apply, smul_eq_mul, mul_add, Finset.sum_add_distrib]
    have e : ∑ p, v p * (1 / N * (K * (f k - Y)) p r) = 1 / N * ∑ p, v p * (K * (f k - Y)) p r := by
      rw [Finset.mul_sum]
      exact Finset.sum_congr rfl fun p _ => by ring
    rw [e, this]
    congr 1
    rw [Finset.mul_sum]
    exact Finset.sum_congr rfl fun p _ => by ring
  have hf : ∀ k, component v (f (k + 1)) Y r = component v (f k) Y r - rate * ∑ p, v p * z (k + 1) p r := by
    intro k
    rw [h.step, component, component, Finset.mul_sum, ← Finset.sum_sub_distrib]
    exact Finset.sum_congr rfl fun p _ => by simp only [Matrix.sub_apply, Matrix.smul_apply, smul_eq_mul]; ring
  have hz0 : ∑ p, v p * z 0 p r = 0 := by rw [h.start]; simp
  constructor
  · rw [hf 0, hz 0, hz0]
    ring
  · intro k
    have h1 := hf k
    rw [hf (k + 1), hz (k + 1)]
    have : rate * ∑ p, v p * z (k + 1) p r = component v (f k) Y r - component v (f (k + 1)) Y r := by linarith
    calc _ = component v (f (k + 1)) Y r - β * (rate * ∑ p, v p * z (k + 1) p r) - rate / N * lam * component v (f (k + 1)) Y r := by ring
      _ = _ := by rw [this]; ring

end

/-- What `max_learning_rate` returns: `2 (1 + momentum) N / (λmax + eps)` with the largest eigenvalue of the kernel. -/
lemma bound_ok {top : Arr ℝ → ℝ} (htop : TopEigenvalue top) {ntk : Arr ℝ} {S : List ℕ} (hsh : ntk.shape = interleave S S)
    (hK : (pairMat S S ntk).IsSymm) (h0 : S.prod ≠ 0) (size : Option ℕ) (β eps : ℝ) :
    ∃ L, IsGreatest {μ | ∃ v ≠ 0, pairMat S S ntk *ᵥ v = μ • v} L ∧
      maxLearningRate top ntk size β eps = .ok (if L + eps = 0 then none else some (2 * (1 + β) * (size.getD S.prod : ℕ) / (L + eps))) := by
  obtain ⟨A, a1, a2⟩ := rep2_make2d ntk S S hsh rfl
  have hA : mat S.prod S.prod A = (pairMat S S ntk).submatrix (boxEquiv S).symm (boxEquiv S).symm := by
    ext i j
    rw [submatrix_apply, ← a2.get]
    have e : ∀ i : Fin S.prod, ravel S ((boxEquiv S).symm i).1 = i := fun i => by
      have := congrArg Fin.val ((boxEquiv S).apply_symm_apply i)
      exact this
    rw [e, e]
    rfl
  have hsym : (mat S.prod S.prod A).IsSymm := by rw [hA]; exact hK.submatrix _
  have hg := htop S.prod A a2.shape hsym (Nat.pos_of_ne_zero h0)
  refine ⟨top A, ?_, ?_⟩
  · convert hg using 1
    ext μ
    constructor
    · rintro ⟨v, v0, hv⟩
      refine ⟨v ∘ (boxEquiv S).symm, fun h => v0 ?_, ?_⟩
      · funext p
        have := congrFun h (boxEquiv S p)
        simpa using this
      · rw [hA]
        have : (pairMat S S ntk).submatrix (boxEquiv S).symm (boxEquiv S).symm *ᵥ (v ∘ (boxEquiv S).symm) =
            (pairMat S S ntk *ᵥ v) ∘ (boxEquiv S).symm := by
          rw [submatrix_mulVec_equiv]
          congr 2
          funext p
          simp
        rw [this, hv]
        rfl
    · rintro ⟨v, v0, hv⟩
      refine ⟨v ∘ boxEquiv S, fun h => v0 ?_, ?_⟩
      · funext p
        have := congrFun h ((boxEquiv S).symm p)
        simpa using this
      · rw [hA, submatrix_mulVec_equiv] at hv
        funext p
        have := congrFun hv (boxEquiv S p)
        simpa using this
  · unfold maxLearningRate
    simp only [a1, Bind.bind, Except.bind, a2.shape, List.getD_cons_zero]
    split_ifs <;> rfl

variable {top : Arr ℝ → ℝ} {ntk : Arr ℝ} {S : List ℕ} {κ : Type}

/-- **C67.** Every positive learning rate below the returned bound makes gradient descent with momentum converge: the component of
the train error along every eigenvector of the kernel with a positive eigenvalue tends to zero. -/
theorem below_contracts (htop : TopEigenvalue top) (hsh : ntk.shape = interleave S S) (hK : (pairMat S S ntk).PosSemidef)
    (h0 : S.prod ≠ 0) (size : Option ℕ) (hsize : size ≠ some 0) {β eps : ℝ} (hβ : 0 ≤ β) (hβ1 : β < 1) (he : 0 ≤ eps) {bound : ℝ}
    (hb : maxLearningRate top ntk size β eps = .ok (some bound)) {rate : ℝ} (hr : 0 < rate) (hr1 : rate < bound)
    {Y : Matrix (box S) κ ℝ} {f z : ℕ → Matrix (box S) κ ℝ} (hd : Descent rate β (size.getD S.prod : ℕ) (pairMat S S ntk) Y f z)
    {v : box S → ℝ} {lam : ℝ} (hlam : 0 < lam) (hv : pairMat S S ntk *ᵥ v = lam • v) (r : κ) :
    Tendsto (fun k => component v (f k) Y r) atTop (𝓝 0) := by
  obtain ⟨L, hL, e⟩ := bound_ok htop hsh (C61.symm_of hK) h0 size β eps
  rw [hb] at e
  have hN : 0 < ((size.getD S.prod : ℕ) : ℝ) := by
    rw [Nat.cast_pos]
    cases size with
    | none => exact Nat.pos_of_ne_zero h0
    | some n => exact Nat.pos_of_ne_zero fun h => hsize (by rw [show n = 0 from h])
  by_cases hv0 : v = 0
  · subst hv0
    simp [component]
  have hle : lam ≤ L := hL.2 ⟨v, hv0, hv⟩
  have hpos : 0 < L + eps := by linarith
  rw [if_neg hpos.ne'] at e
  have e' : bound = 2 * (1 + β) * (size.getD S.prod : ℕ) / (L + eps) := by simpa using e
  refine recursion_tendsto hβ hβ1 (x := rate / (size.getD S.prod : ℕ) * lam) (by positivity) ?_ (mode_rec (C61.symm_of hK) hv hd r).2
  rw [e', lt_div_iff₀ hpos] at hr1
  rw [div_mul_eq_mul_div, div_lt_iff₀ hN]
  have : rate * lam ≤ rate * (L + eps) := mul_le_mul_of_nonneg_left (by linarith) hr.le
  linarith

/-- **C67.** Without momentum each such component shrinks at every step. -/
theorem below_shrinks (htop : TopEigenvalue top) (hsh : ntk.shape = interleave S S) (hK : (pairMat S S ntk).PosSemidef)
    (h0 : S.prod ≠ 0) (size : Option ℕ) (hsize : size ≠ some 0) {eps : ℝ} (he : 0 ≤ eps) {bound : ℝ}
    (hb : maxLearningRate top ntk size 0 eps = .ok (some bound)) {rate : ℝ} (hr : 0 < rate) (hr1 : rate < bound)
    {Y : Matrix (box S) κ ℝ} {f z : ℕ → Matrix (box S) κ ℝ} (hd : Descent rate 0 (size.getD S.prod : ℕ) (pairMat S S ntk) Y f z)
    {v : box S → ℝ} {lam : ℝ} (hlam : 0 < lam) (hv : pairMat S S ntk *ᵥ v = lam • v) (r : κ) (k : ℕ) :
    |component v (f (k + 1)) Y r| ≤ |component v (f k) Y r| ∧
      (component v (f k) Y r ≠ 0 → |component v (f (k + 1)) Y r| < |component v (f k) Y r|) := by
  obtain ⟨L, hL, e⟩ := bound_ok htop hsh (C61.symm_of hK) h0 size 0 eps
  rw [hb] at e
  have hN : 0 < ((size.getD S.prod : ℕ) : ℝ) := by
    rw [Nat.cast_pos]
    cases size with
    | none => exact Nat.pos_of_ne_zero h0
    | some n => exact Nat.pos_of_ne_zero fun h => hsize (by rw [show n = 0 from h])
  by_cases hv0 : v = 0
  · subst hv0
    simp [component]
  have hle : lam ≤ L := hL.2 ⟨v, hv0, hv⟩
  have hpos : 0 < L + eps := by linarith
  rw [if_neg hpos.ne'] at e
  have e' : bound = 2 * (1 + 0) * (size.getD S.prod : ℕ) / (L + eps) := by simpa using e
  obtain ⟨m1, m2⟩ := mode_rec (C61.symm_of hK) hv hd r
  have hstep : component v (f (k + 1)) Y r = (1 - rate / (size.getD S.prod : ℕ) * lam) * component v (f k) Y r := by
    cases k with
    | zero => exact m1
    | succ k => rw [m2]; ring
  have hc : |1 - rate / (size.getD S.prod : ℕ) * lam| < 1 := by
    have hx : 0 < rate / (size.getD S.prod : ℕ) * lam := by positivity
    have hx1 : rate / (size.getD S.prod : ℕ) * lam < 2 := by
      rw [e', lt_div_iff₀ hpos] at hr1
      rw [div_mul_eq_mul_div, div_lt_iff₀ hN]
      have : rate * lam ≤ rate * (L + eps) := mul_le_mul_of_nonneg_left (by linarith) hr.le
      linarith
    rw [abs_lt]
    constructor <;> linarith
  rw [hstep, abs_mul]
  exact ⟨mul_le_of_le_one_left (abs_nonneg _) hc.le, fun h => mul_lt_of_lt_one_left (abs_pos.2 h) hc⟩

/-- **C67.** The bound is sharp: with `eps = 0`, for a learning rate above it the component of the train error along a top eigenvector
is unbounded, unless it is zero at the start. -/
theorem above_expands (htop : TopEigenvalue top) (hsh : ntk.shape = interleave S S) (hK : (pairMat S S ntk).PosSemidef)
    (h0 : S.prod ≠ 0) (size : Option ℕ) (hsize : size ≠ some 0) {β : ℝ} (hβ : 0 ≤ β) (hβ1 : β < 1) {bound : ℝ}
    (hb : maxLearningRate top ntk size β 0 = .ok (some bound)) :
    ∃ (v : box S → ℝ) (lam : ℝ), v ≠ 0 ∧ 0 < lam ∧ pairMat S S ntk *ᵥ v = lam • v ∧ ∀ {rate : ℝ}, bound < rate → ∀ {Y : Matrix (box S) κ ℝ}
      {f z : ℕ → Matrix (box S) κ ℝ}, Descent rate β (size.getD S.prod : ℕ) (pairMat S S ntk) Y f z →
      ∀ r, component v (f 0) Y r ≠ 0 → ∀ C, ∃ k, C < |component v (f k) Y r| := by
  obtain ⟨L, hL, e⟩ := bound_ok htop hsh (C61.symm_of hK) h0 size β 0
  rw [hb, add_zero] at e
  have hN : 0 < ((size.getD S.prod : ℕ) : ℝ) := by
    rw [Nat.cast_pos]
    cases size with
    | none => exact Nat.pos_of_ne_zero h0
    | some n => exact Nat.pos_of_ne_zero fun h => hsize (by rw [show n = 0 from h])
  obtain ⟨v, v0, hv⟩ := hL.1
  have hL0 : L ≠ 0 := fun h => by rw [if_pos h] at e; simp at e
  have hLn : 0 ≤ L := by
    have h1 := hK.dotProduct_mulVec_nonneg v
    rw [hv] at h1
    have h2 : 0 < v ⬝ᵥ v := by
      have := dotProduct_star_self_pos_iff.2 v0
      simpa using this
    simp only [star_trivial, dotProduct_smul, smul_eq_mul] at h1
    exact nonneg_of_mul_nonneg_left h1 h2
  have hLp : 0 < L := lt_of_le_of_ne hLn (Ne.symm hL0)
  rw [if_neg hL0] at e
  have e' : bound = 2 * (1 + β) * (size.getD S.prod : ℕ) / L := by simpa using e
  refine ⟨v, L, v0, hLp, hv, fun {rate} hr {Y f z} hd r hne C => ?_⟩
  obtain ⟨m1, m2⟩ := mode_rec (C61.symm_of hK) hv hd r
  refine recursion_unbounded hβ hβ1 (x := rate / (size.getD S.prod : ℕ) * L) ?_ m2 m1 hne C
  rw [e', div_lt_iff₀ hLp] at hr
  rw [div_mul_eq_mul_div, lt_div_iff₀ hN]
  linarith

/-- **C67.** For a positive definite kernel the train outputs themselves converge to the targets. -/
theorem below_converges (htop : TopEigenvalue top) (hsh : ntk.shape = interleave S S) (hK : (pairMat S S ntk).PosDef)
    (h0 : S.prod ≠ 0) (size : Option ℕ) (hsize : size ≠ some 0) {β eps : ℝ} (hβ : 0 ≤ β) (hβ1 : β < 1) (he : 0 ≤ eps) {bound : ℝ}
    (hb : maxLearningRate top ntk size β eps = .ok (some bound)) {rate : ℝ} (hr : 0 < rate) (hr1 : rate < bound)
    {Y : Matrix (box S) κ ℝ} {f z : ℕ → Matrix (box S) κ ℝ} (hd : Descent rate β (size.getD S.prod : ℕ) (pairMat S S ntk) Y f z)
    (p : box S) (r : κ) : Tendsto (fun k => f k p r) atTop (𝓝 (Y p r)) := by
  classical
  set hH := hK.isHermitian
  have hc : ∀ i, Tendsto (fun k => component (⇑(hH.eigenvectorBasis i)) (f k) Y r) atTop (𝓝 0) := fun i =>
    below_contracts htop hsh hK.posSemidef h0 size hsize hβ hβ1 he hb hr hr1 hd (hK.eigenvalues_pos i) (hH.mulVec_eigenvectorBasis i) r
  have hsum : ∀ k, f k p r - Y p r = ∑ i, hH.eigenvectorBasis i p * component (⇑(hH.eigenvectorBasis i)) (f k) Y r := by
    intro k
    have := hH.eigenvectorBasis.sum_repr (WithLp.toLp 2 fun q => f k q r - Y q r)
    have h2 := congrArg (fun w : EuclideanSpace ℝ (box S) => w p) this
    simp only at h2
    rw [← h2, ← PiLp.proj_apply (p := 2) (𝕜 := ℝ), map_sum]
    refine Finset.sum_congr rfl fun i _ => ?_
    simp only [OrthonormalBasis.repr_apply_apply, PiLp.inner_apply, PiLp.proj_apply, PiLp.smul_apply, smul_eq_mul, component,
      RCLike.inner_apply, conj_trivial]
    rw [mul_comm]
    congr 1
    exact Finset.sum_congr rfl fun q _ => mul_comm _ _
  have := tendsto_finsetSum Finset.univ fun i _ => (hc i).const_mul (hH.eigenvectorBasis i p)
  simp only [mul_zero, Finset.sum_const_zero] at this
  have h2 := (this.congr fun k => (hsum k).symm).add_const (Y p r)
  simpa using h2

/-! ### The assumption on `eigvalsh` can be met, and a two-point training set -/

lemma exists_top : ∃ top, TopEigenvalue top := by
  classical
  refine ⟨fun A => if h : ∃ L, IsGreatest {μ : ℝ | ∃ v ≠ 0, mat (A.shape.getD 0 0) (A.shape.getD 0 0) A *ᵥ v = μ • v} L then h.choose else 0,
    fun n A hA hs hn => ?_⟩
  have hn' : A.shape.getD 0 0 = n := by rw [hA]; rfl
  have hex : ∃ L, IsGreatest {μ : ℝ | ∃ v ≠ 0, mat n n A *ᵥ v = μ • v} L := by
    have hfin : {μ : ℝ | ∃ v ≠ 0, mat n n A *ᵥ v = μ • v}.Finite := by
      refine (Module.End.finite_hasEigenvalue (Matrix.toLin' (mat n n A))).subset ?_
      rintro μ ⟨v, v0, hv⟩
      exact Module.End.hasEigenvalue_of_hasEigenvector ⟨Module.End.mem_eigenspace_iff.2 (by simpa using hv), v0⟩
    have hne : {μ : ℝ | ∃ v ≠ 0, mat n n A *ᵥ v = μ • v}.Nonempty := by
      have hH : (mat n n A).IsHermitian := by simpa [Matrix.IsHermitian] using hs.eq
      refine ⟨hH.eigenvalues ⟨0, hn⟩, ⇑(hH.eigenvectorBasis ⟨0, hn⟩), fun h => ?_, hH.mulVec_eigenvectorBasis _⟩
      exact hH.eigenvectorBasis.orthonormal.ne_zero ⟨0, hn⟩ (by ext i; exact congrFun h i)
    exact ⟨_, hfin.isCompact.isGreatest_sSup hne⟩
  subst hn'
  beta_reduce
  rw [dif_pos hex]
  exact hex.choose_spec

/-- Trajectories of gradient descent exist from every start. -/
lemma exists_descent {ι κ : Type} [Fintype ι] (rate β N : ℝ) (K : Matrix ι ι ℝ) (Y f0 : Matrix ι κ ℝ) :
    ∃ f z, f 0 = f0 ∧ Descent rate β N K Y f z := by
  let step : Matrix ι κ ℝ × Matrix ι κ ℝ → Matrix ι κ ℝ × Matrix ι κ ℝ := fun s =>
    (s.1 - rate • (β • s.2 + (1 / N) • (K * (s.1 - Y))), β • s.2 + (1 / N) • (K * (s.1 - Y)))
  refine ⟨fun k => (step^[k] (f0, 0)).1, fun k => (step^[k] (f0, 0)).2, rfl, rfl, fun k => ?_, fun k => ?_⟩ <;>
    simp only [Function.iterate_succ_apply'] <;> rfl

/-- The kernel of two training points with momentum `1 / 2`: a positive bound is returned, and half of it trains to the targets. -/
example : ∃ top bound, TopEigenvalue top ∧ 0 < bound ∧ maxLearningRate top C61.exM.kTrainTrain none (1 / 2) 0 = .ok (some bound) ∧
    ∀ Y f0 : Matrix (box [2]) (Fin 3) ℝ, ∃ f z, f 0 = f0 ∧ Descent (bound / 2) (1 / 2) (2 : ℕ) (pairMat [2] [2] C61.exM.kTrainTrain) Y f z ∧
      ∀ p r, Tendsto (fun k => f k p r) atTop (𝓝 (Y p r)) := by
  obtain ⟨top, htop⟩ := exists_top
  have hpd := C61.exM_kernel_posDef
  obtain ⟨L, hL, e⟩ := bound_ok (S := [2]) (ntk := C61.exM.kTrainTrain) htop rfl (C61.symm_of hpd.posSemidef) (by decide) none (1 / 2) 0
  have hLp : 0 < L := by
    obtain ⟨v, v0, hv⟩ := hL.1
    have h1 := hpd.dotProduct_mulVec_pos v0
    rw [hv] at h1
    have h2 : 0 < v ⬝ᵥ v := by
      have := dotProduct_star_self_pos_iff.2 v0
      simpa using this
    simp only [star_trivial, dotProduct_smul, smul_eq_mul] at h1
    exact pos_of_mul_pos_left h1 h2.le
  rw [add_zero, if_neg hLp.ne'] at e
  have hb : 0 < 2 * (1 + 1 / 2) * ((none.getD [2].prod : ℕ) : ℝ) / L := by
    have : (0 : ℝ) < ((none.getD [2].prod : ℕ) : ℝ) := by norm_num
    positivity
  refine ⟨top, _, htop, hb, e, fun Y f0 => ?_⟩
  obtain ⟨f, z, hf, hd⟩ := exists_descent _ (1 / 2) (2 : ℕ) (pairMat [2] [2] C61.exM.kTrainTrain) Y f0
  exact ⟨f, z, hf, hd, below_converges htop rfl hpd (by decide) none (by simp) (by norm_num) (by norm_num) le_rfl e (half_pos hb)
    (half_lt_self hb) hd⟩

example : ∃ top, TopEigenvalue top ∧ ∀ bound, maxLearningRate top C61.exM.kTrainTrain (some 5) 0 0 = .ok (some bound) →
    ∃ (v : box [2] → ℝ) (lam : ℝ), v ≠ 0 ∧ 0 < lam ∧ pairMat [2] [2] C61.exM.kTrainTrain *ᵥ v = lam • v ∧
      ∀ {rate : ℝ}, bound < rate → ∀ {Y : Matrix (box [2]) (Fin 3) ℝ} {f z : ℕ → Matrix (box [2]) (Fin 3) ℝ},
      Descent rate 0 (5 : ℕ) (pairMat [2] [2] C61.exM.kTrainTrain) Y f z →
      ∀ r, component v (f 0) Y r ≠ 0 → ∀ C, ∃ k, C < |component v (f k) Y r| := by
  obtain ⟨top, htop⟩ := exists_top
  exact ⟨top, htop, fun bound hb => above_expands htop rfl C61.exM_kernel_posDef.posSemidef (by decide) (some 5) (by simp) le_rfl
    (by norm_num) hb⟩

end NT.C67
