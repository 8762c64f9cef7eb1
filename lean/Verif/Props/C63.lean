import Verif.Props.C62
import Verif.Lemmas.Cho

/-!
# C63: the infinite time answer of `gradient_descent_mse` is the limit of the finite time answers
-/

namespace NT.C63
open NT Arr Spec Matrix Predict Filter Topology

variable {bk : Backend} {m : Mse} {T S R : List ℕ}

lemma tendsto_fc {n : ℕ} {ι ι' κ : Type} [Fintype ι] [DecidableEq ι] {V : Matrix ι (Fin n) ℝ} (A : Matrix ι' ι ℝ) (W : Matrix ι κ ℝ)
    (g : ℝ → Fin n → ℝ) (l : Fin n → ℝ) (h : ∀ i, Tendsto (fun τ => g τ i) atTop (𝓝 (l i))) (p : ι') (r : κ) :
    Tendsto (fun τ => (A * (Spectral.fc V (g τ) * W)) p r) atTop (𝓝 ((A * (Spectral.fc V l * W)) p r)) := by
  simp only [mul_apply, Spectral.fc_apply]
  refine tendsto_finsetSum _ fun q _ => Tendsto.const_mul _ (tendsto_finsetSum _ fun q' _ => Tendsto.mul_const _ ?_)
  exact tendsto_finsetSum _ fun i _ => ((h i).const_mul _).mul_const _

lemma tendsto_exp (lam c : ℝ) (h1 : 0 < lam) (h2 : 0 < c) : Tendsto (fun τ => Real.exp (-lam * (c * τ))) atTop (𝓝 0) := by
  refine Real.tendsto_exp_atBot.comp ?_
  have : (fun τ => -lam * (c * τ)) = fun τ => -(lam * c) * τ := by funext τ; ring
  rw [this]
  exact tendsto_id.const_mul_atTop_of_neg (by nlinarith)

/-- `t=None` without test points returns the targets. -/
theorem train_inf (h : m.Fits bk T S R) (f : Arr ℝ) : m.predict bk none (some f) none none = .ok (some m.yTrain, none) := by
  unfold Mse.predict checkInputs Mse.predictInf
  simp only [Bind.bind, Except.bind, Option.isNone_some, Bool.false_and, Option.isSome_none, Bool.false_eq_true, if_false, h.axes]
  rfl

/-- For a positive definite regularised kernel and a positive learning rate the train outputs converge to the targets. -/
theorem train_limit (hb : bk.Correct) (h : m.Fits bk T S R)
    (hK : (regMat m.diagReg m.absolute (pairMat S S m.kTrainTrain)).PosDef) (hlr : 0 < m.learningRate) (f : Arr ℝ)
    (hf : FitsShape m.yTrain.shape (some f)) :
    ∃ a : ℝ → Arr ℝ, (∀ τ, m.predict bk (some ⟨[], fun _ => τ⟩) (some f) none none = .ok (some (a τ), none)) ∧
      ∀ i, InRange i m.yTrain.shape → Tendsto (fun τ => (a τ).get i) atTop (𝓝 (m.yTrain.get i)) := by
  obtain ⟨V, lam, h1, h2, -, h3, -⟩ := finite_ok hb h (C61.symm_of hK.posSemidef)
  obtain ⟨-, hl, -⟩ := h.lengths hb
  have hpos := Spectral.eval_pos h1 (h2 ▸ hK)
  have hex : ∀ τ : ℝ, ∃ a, m.predict bk (some ⟨[], fun _ => τ⟩) (some f) none none = .ok (some a, none) ∧
      viewAt [] m.yTrain.ndim T S R a = Spectral.sol V lam (m.learningRate / m.yTrain.shape.prod) (initView m.yTrain.ndim T S R (some f))
        (viewAt [] m.yTrain.ndim T S R m.yTrain) τ := by
    intro τ
    obtain ⟨o, o1, a, rfl, o2, o3⟩ := h3 ⟨[], fun _ => τ⟩ f hf
    refine ⟨a, o1, (o3 [] (by simp [InRange])).trans ?_⟩
    exact congrFun (C61.expm1_sol (fun i => (hpos i).le) _ _ _ _) τ
  choose a a1 a2 using hex
  refine ⟨a, a1, fun i hi => ?_⟩
  have hp : gather (otherAxes m.yTrain.ndim T) i ∈ box S := by
    rw [mem_box, h.rows]
    exact gather_inRange hi fun k hk => (by simpa using (List.mem_filter.1 hk).1 : k < m.yTrain.ndim)
  have hr : gather T i ∈ box R := by
    rw [mem_box, h.cols]
    exact gather_inRange hi hl
  have hval : ∀ c : Arr ℝ, c.get i = viewAt [] m.yTrain.ndim T S R c ⟨_, hp⟩ ⟨_, hr⟩ := by
    intro c
    simp only [viewAt, List.nil_append]
    rw [join_gather (n := m.yTrain.ndim) hi.length]
  simp only [hval, a2]
  have hc : 0 < m.learningRate / m.yTrain.shape.prod := div_pos hlr (by exact_mod_cast Nat.pos_of_ne_zero h.nonempty)
  have hlim := tendsto_fc (V := V) (1 : Matrix (box S) (box S) ℝ)
    (initView m.yTrain.ndim T S R (some f) - viewAt [] m.yTrain.ndim T S R m.yTrain)
    (fun τ i => Real.exp (-(lam i) * (m.learningRate / m.yTrain.shape.prod * τ))) (fun _ => 0)
    (fun i => tendsto_exp _ _ (hpos i) hc) ⟨_, hp⟩ ⟨_, hr⟩
  simp only [Matrix.one_mul, ← Spectral.sol_eq h1, Spectral.fc_zero, Matrix.zero_mul, Matrix.zero_apply, Matrix.sub_apply] at hlim
  have := hlim.add_const (viewAt [] m.yTrain.ndim T S R m.yTrain ⟨_, hp⟩ ⟨_, hr⟩)
  rw [zero_add] at this
  refine this.congr fun τ => ?_
  ring

/-- Test outputs: the `t=None` answer is `f_test + K_td K⁻¹ (y - f_train)`, and the finite time answers converge to it entrywise. -/
theorem test_limit (hb : bk.Correct) (h : m.Fits bk T S R)
    (hK : (regMat m.diagReg m.absolute (pairMat S S m.kTrainTrain)).PosDef) (hlr : 0 < m.learningRate) (fx : Option (Arr ℝ))
    (hf : FitsShape m.yTrain.shape fx) (f k : Arr ℝ) (s' S' : List ℕ) (ht : m.TestFits T S R f k s' S') :
    ∃ (o : ℝ → Option (Arr ℝ)) (a : ℝ → Arr ℝ) (b : Arr ℝ),
      (∀ τ, m.predict bk (some ⟨[], fun _ => τ⟩) fx (some f) (some k) = .ok (o τ, some (a τ))) ∧
      m.predict bk none fx (some f) (some k) = .ok (if fx.isSome then some m.yTrain else none, some b) ∧
      b.shape = s' ∧
      viewAt [] m.yTrain.ndim T S' R b = initView m.yTrain.ndim T S' R (some f) + pairMat S' S k *
        ((regMat m.diagReg m.absolute (pairMat S S m.kTrainTrain))⁻¹ *
          (viewAt [] m.yTrain.ndim T S R m.yTrain - initView m.yTrain.ndim T S R fx)) ∧
      ∀ i, InRange i s' → Tendsto (fun τ => (a τ).get i) atTop (𝓝 (b.get i)) := by
  obtain ⟨V, lam, h1, h2, -, -, h3⟩ := finite_ok hb h (C61.symm_of hK.posSemidef)
  obtain ⟨-, hl, -⟩ := h.lengths hb
  have hpos := Spectral.eval_pos h1 (h2 ▸ hK)
  obtain ⟨b, b1, b2, b3⟩ := inf_ok hb h hK fx hf f k s' S' ht
  have hex : ∀ τ : ℝ, ∃ o a, m.predict bk (some ⟨[], fun _ => τ⟩) fx (some f) (some k) = .ok (o, some a) ∧
      viewAt [] m.yTrain.ndim T S' R a = Spectral.solT V lam (m.learningRate / m.yTrain.shape.prod) (pairMat S' S k)
        (initView m.yTrain.ndim T S R fx) (viewAt [] m.yTrain.ndim T S R m.yTrain) (initView m.yTrain.ndim T S' R (some f)) τ := by
    intro τ
    obtain ⟨o, o', o1, -, -, a, rfl, o2, o3⟩ := h3 ⟨[], fun _ => τ⟩ fx f k s' S' hf ht
    refine ⟨o, a, o1, (o3 [] (by simp [InRange])).trans ?_⟩
    exact congrFun (C61.invExpm1_sol hpos _ _ _ _ _ _) τ
  choose o a a1 a2 using hex
  refine ⟨o, a, b, a1, b1, b2, b3, fun i hi => ?_⟩
  have hp : gather (otherAxes m.yTrain.ndim T) i ∈ box S' := by
    rw [mem_box, ht.rows]
    exact gather_inRange hi fun k hk => by rw [ht.rank]; simpa using (List.mem_filter.1 hk).1
  have hr : gather T i ∈ box R := by
    rw [mem_box, ht.cols]
    exact gather_inRange hi fun k hk => by rw [ht.rank]; exact hl k hk
  have hval : ∀ c : Arr ℝ, c.get i = viewAt [] m.yTrain.ndim T S' R c ⟨_, hp⟩ ⟨_, hr⟩ := by
    intro c
    simp only [viewAt, List.nil_append]
    rw [join_gather (hi.length.trans ht.rank)]
  have hinv : (regMat m.diagReg m.absolute (pairMat S S m.kTrainTrain))⁻¹ = Spectral.fc V fun i => (lam i)⁻¹ := by
    refine inv_eq_right_inv ?_
    rw [h2, Spectral.fc_mul h1, ← Spectral.fc_one h1]
    congr 1
    funext i
    exact mul_inv_cancel₀ (hpos i).ne'
  simp only [hval, a2, b3]
  have hc : 0 < m.learningRate / m.yTrain.shape.prod := div_pos hlr (by exact_mod_cast Nat.pos_of_ne_zero h.nonempty)
  have hlim := tendsto_fc (V := V) (pairMat S' S k)
    (initView m.yTrain.ndim T S R fx - viewAt [] m.yTrain.ndim T S R m.yTrain)
    (fun τ i => (Real.exp (-(lam i) * (m.learningRate / m.yTrain.shape.prod * τ)) - 1) / lam i) (fun i => -1 * (lam i)⁻¹)
    (fun i => by
      have := ((tendsto_exp _ _ (hpos i) hc).sub_const 1).div_const (lam i)
      rwa [zero_sub, div_eq_mul_inv] at this) ⟨_, hp⟩ ⟨_, hr⟩
  have := hlim.const_add (initView m.yTrain.ndim T S' R (some f) ⟨_, hp⟩ ⟨_, hr⟩)
  have e : (-1 : ℝ) • (Spectral.fc V fun i => (lam i)⁻¹) * (initView m.yTrain.ndim T S R fx - viewAt [] m.yTrain.ndim T S R m.yTrain) =
      (Spectral.fc V fun i => (lam i)⁻¹) * (viewAt [] m.yTrain.ndim T S R m.yTrain - initView m.yTrain.ndim T S R fx) := by
    rw [Matrix.smul_mul, ← Matrix.mul_smul]
    congr 1
    ext p r
    simp
  rw [Spectral.fc_smul] at this
  rw [hinv, ← e]
  refine Tendsto.congr (fun τ => ?_) this
  rfl

/-! ### Concrete cases: the two training points of C61 -/

example := train_inf C61.exM_fits ⟨[], fun _ => 1⟩

example := train_limit exact_correct C61.exM_fits C61.exM_posDef (by norm_num [C61.exM]) ⟨[2, 1], fun i => 3 - i.getD 0 0⟩ (Or.inl rfl)

example := test_limit exact_correct C61.exM_fits C61.exM_posDef (by norm_num [C61.exM]) none trivial
  ⟨[3, 1], fun i => i.getD 0 0⟩ ⟨[3, 2], fun i => i.getD 1 0⟩ [3, 1] [3] ⟨rfl, by decide, by decide, by decide, Or.inl rfl⟩

end NT.C63
