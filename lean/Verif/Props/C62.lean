import Verif.Props.C61
import Verif.Lemmas.Predict3

/-!
# C62: time zero and composition of times of `gradient_descent_mse`
-/

namespace NT.C62
open NT Arr Spec Matrix Predict

variable {bk : Backend} {m : Mse} {T S R : List ℕ}

lemma fc_add {n : ℕ} {ι : Type} [Fintype ι] [DecidableEq ι] {V : Matrix ι (Fin n) ℝ} (f g : Fin n → ℝ) :
    Spectral.fc V (fun i => f i + g i) = Spectral.fc V f + Spectral.fc V g := by
  ext p q
  simp only [Spectral.fc_apply, Matrix.add_apply, ← Finset.sum_add_distrib]
  exact Finset.sum_congr rfl fun i _ => by ring

lemma expm1_zero (N lam lr : ℝ) : expm1Fn N lam (0 * lr) = 0 := by simp [expm1Fn]

lemma expm1_add (N lam lr s τ : ℝ) :
    expm1Fn N lam ((s + τ) * lr) = expm1Fn N lam (s * lr) + (expm1Fn N lam (τ * lr) + expm1Fn N lam (τ * lr) * expm1Fn N lam (s * lr)) := by
  simp only [C61.expm1_eq]
  rw [mul_add, mul_add, Real.exp_add]
  ring

lemma invExpm1_add (N lam lr s τ : ℝ) :
    invExpm1Fn N lam ((s + τ) * lr) =
      invExpm1Fn N lam (s * lr) + (invExpm1Fn N lam (τ * lr) + invExpm1Fn N lam (τ * lr) * expm1Fn N lam (s * lr)) := by
  simp only [invExpm1Fn]
  rw [expm1_add]
  ring

lemma some_of {o : Option (Arr ℝ)} {t : Arr ℝ} {n : ℕ} {T S R s : List ℕ} {F : ℝ → Matrix (box S) (box R) ℝ}
    (h : OutIs o t n T S R s F) : ∃ a, o = some a := h.imp fun _ h => h.1

/-- At `t = 0` the train predictions are the initial outputs, for every symmetric kernel. -/
theorem train_zero (hb : bk.Correct) (h : m.Fits bk T S R)
    (hK : (regMat m.diagReg m.absolute (pairMat S S m.kTrainTrain)).IsSymm) (f : Arr ℝ) (hf : FitsShape m.yTrain.shape (some f))
    (t : Arr ℝ) :
    ∃ a, m.predict bk (some t) (some f) none none = .ok (some a, none) ∧ a.shape = t.shape ++ m.yTrain.shape ∧
      ∀ tj i, InRange tj t.shape → InRange i m.yTrain.shape → t.get tj = 0 → a.get (tj ++ i) = initGet f i := by
  obtain ⟨V, lam, h1, h2, -, h3, -⟩ := finite_ok hb h hK
  obtain ⟨o, o1, a, rfl, o2, o3⟩ := h3 t f hf
  obtain ⟨-, hl, -⟩ := h.lengths hb
  refine ⟨a, o1, o2, fun tj i htj hi h0 => ?_⟩
  have hv := o3 tj htj
  simp only [h0, expm1_zero, Spectral.fc_zero, Matrix.zero_mul, add_zero] at hv
  rw [initView_view _ _ _ _ m.yTrain.shape] at hv
  exact view_entries rfl hl h.rows h.cols hv hi

/-- At `t = 0` the test predictions are the initial test outputs, for every symmetric invertible kernel. -/
theorem test_zero (hb : bk.Correct) (h : m.Fits bk T S R)
    (hK : (regMat m.diagReg m.absolute (pairMat S S m.kTrainTrain)).IsSymm)
    (_hdet : (regMat m.diagReg m.absolute (pairMat S S m.kTrainTrain)).det ≠ 0) (fx : Option (Arr ℝ))
    (hf : FitsShape m.yTrain.shape fx) (f k : Arr ℝ) (s' S' : List ℕ) (ht : m.TestFits T S R f k s' S') (t : Arr ℝ) :
    ∃ o a, m.predict bk (some t) fx (some f) (some k) = .ok (o, some a) ∧ a.shape = t.shape ++ s' ∧
      ∀ tj i, InRange tj t.shape → InRange i s' → t.get tj = 0 → a.get (tj ++ i) = initGet f i := by
  obtain ⟨V, lam, h1, h2, -, -, h3⟩ := finite_ok hb h hK
  obtain ⟨o, o', o1, -, -, a, rfl, o2, o3⟩ := h3 t fx f k s' S' hf ht
  obtain ⟨-, hl, -⟩ := h.lengths hb
  refine ⟨o, a, o1, o2, fun tj i htj hi h0 => ?_⟩
  have hv := o3 tj htj
  simp only [h0, invExpm1Fn, expm1_zero, zero_div, Spectral.fc_zero, Matrix.zero_mul, Matrix.mul_zero, add_zero] at hv
  rw [initView_view _ _ _ _ s'] at hv
  exact view_entries ht.rank hl ht.rows ht.cols hv hi

/-- Evolving the train outputs to time `s`, and from there to all times in `t`, gives what evolving to the times `s + t` gives. -/
theorem train_compose (hb : bk.Correct) (h : m.Fits bk T S R)
    (hK : (regMat m.diagReg m.absolute (pairMat S S m.kTrainTrain)).IsSymm) (f : Arr ℝ) (hf : FitsShape m.yTrain.shape (some f))
    (s : ℝ) (t : Arr ℝ) :
    ∃ a b c, m.predict bk (some ⟨[], fun _ => s⟩) (some f) none none = .ok (some a, none) ∧
      m.predict bk (some t) (some a) none none = .ok (some b, none) ∧
      m.predict bk (some (t.map fun τ => s + τ)) (some f) none none = .ok (some c, none) ∧ b ≋ c := by
  obtain ⟨V, lam, h1, h2, -, h3, -⟩ := finite_ok hb h hK
  obtain ⟨-, hl, -⟩ := h.lengths hb
  obtain ⟨o, o1, a, rfl, o2, o3⟩ := h3 ⟨[], fun _ => s⟩ f hf
  obtain ⟨o, p1, p⟩ := h3 t a (Or.inl o2)
  obtain ⟨b, rfl⟩ := some_of p
  obtain ⟨o, q1, q⟩ := h3 (t.map fun τ => s + τ) f hf
  obtain ⟨c, rfl⟩ := some_of q
  refine ⟨a, b, c, o1, p1, q1, outIs_eqv rfl hl h.rows h.cols p q rfl fun tj htj => ?_⟩
  have ha := o3 [] (by simp [InRange])
  dsimp only at ha ⊢
  rw [initView_some (f := a) (by rw [o2]; rfl), ha]
  simp only [Arr.map, expm1_add, fc_add, Matrix.add_mul, ← Spectral.fc_mul h1, add_sub_right_comm, Matrix.mul_add, Matrix.mul_assoc]
  abel

/-- The same with test outputs, for an invertible kernel. -/
theorem test_compose (hb : bk.Correct) (h : m.Fits bk T S R)
    (hK : (regMat m.diagReg m.absolute (pairMat S S m.kTrainTrain)).IsSymm)
    (_hdet : (regMat m.diagReg m.absolute (pairMat S S m.kTrainTrain)).det ≠ 0) (f : Arr ℝ)
    (hf : FitsShape m.yTrain.shape (some f)) (f' k : Arr ℝ) (s' S' : List ℕ) (ht : m.TestFits T S R f' k s' S') (s : ℝ) (t : Arr ℝ) :
    ∃ a a' b b' c c', m.predict bk (some ⟨[], fun _ => s⟩) (some f) (some f') (some k) = .ok (some a, some a') ∧
      m.predict bk (some t) (some a) (some a') (some k) = .ok (some b, some b') ∧
      m.predict bk (some (t.map fun τ => s + τ)) (some f) (some f') (some k) = .ok (some c, some c') ∧ b ≋ c ∧ b' ≋ c' := by
  obtain ⟨V, lam, h1, h2, -, -, h3⟩ := finite_ok hb h hK
  obtain ⟨-, hl, -⟩ := h.lengths hb
  obtain ⟨o, o', o1, -, o2, a', rfl, o4, o5⟩ := h3 ⟨[], fun _ => s⟩ (some f) f' k s' S' hf ht
  obtain ⟨a, rfl, o2, o3⟩ := o2 f rfl
  obtain ⟨o, o', p1, -, p2, p'⟩ := h3 t (some a) a' k s' S' (Or.inl o2) ⟨ht.rank, ht.rows, ht.cols, ht.kernel, Or.inl o4⟩
  have p := p2 a rfl
  obtain ⟨b, rfl⟩ := some_of p
  obtain ⟨b', rfl⟩ := some_of p'
  obtain ⟨o, o', q1, -, q2, q'⟩ := h3 (t.map fun τ => s + τ) (some f) f' k s' S' hf ht
  have q := q2 f rfl
  obtain ⟨c, rfl⟩ := some_of q
  obtain ⟨c', rfl⟩ := some_of q'
  have ha := o3 [] (by simp [InRange])
  have ha' := o5 [] (by simp [InRange])
  refine ⟨a, a', b, b', c, c', o1, p1, q1, outIs_eqv rfl hl h.rows h.cols p q rfl fun tj htj => ?_,
    outIs_eqv ht.rank hl ht.rows ht.cols p' q' rfl fun tj htj => ?_⟩
  · dsimp only at ha ⊢
    rw [initView_some (f := a) (by rw [o2]; rfl), ha]
    simp only [Arr.map, expm1_add, fc_add, Matrix.add_mul, ← Spectral.fc_mul h1, add_sub_right_comm, Matrix.mul_add, Matrix.mul_assoc]
    abel
  · dsimp only at ha ha' ⊢
    rw [initView_some (f := a) (by rw [o2]; rfl), ha, initView_some (f := a') (by rw [o4]; exact ht.rank), ha']
    simp only [Arr.map, invExpm1_add, fc_add, Matrix.add_mul, ← Spectral.fc_mul h1, add_sub_right_comm, Matrix.mul_add, Matrix.mul_assoc]
    abel

/-! ### Concrete cases: the two training points of C61 -/

lemma exM_det : (regMat C61.exM.diagReg C61.exM.absolute (pairMat [2] [2] C61.exM.kTrainTrain)).det ≠ 0 :=
  ((isUnit_iff_isUnit_det _).1 C61.exM_posDef.isUnit).ne_zero

example := train_zero exact_correct C61.exM_fits (C61.symm_of C61.exM_posDef.posSemidef) ⟨[2, 1], fun i => 3 - i.getD 0 0⟩ (Or.inl rfl)
  ⟨[3], fun i => i.getD 0 0⟩

example := test_zero exact_correct C61.exM_fits (C61.symm_of C61.exM_posDef.posSemidef) exM_det none trivial
  ⟨[3, 1], fun i => i.getD 0 0⟩ ⟨[3, 2], fun i => i.getD 1 0⟩ [3, 1] [3] ⟨rfl, by decide, by decide, by decide, Or.inl rfl⟩
  ⟨[3], fun i => i.getD 0 0⟩

example := train_compose exact_correct C61.exM_fits (C61.symm_of C61.exM_posDef.posSemidef) ⟨[2, 1], fun i => 3 - i.getD 0 0⟩
  (Or.inl rfl) 2 ⟨[3], fun i => i.getD 0 0⟩

example := test_compose exact_correct C61.exM_fits (C61.symm_of C61.exM_posDef.posSemidef) exM_det ⟨[], fun _ => 1⟩
  (Or.inr rfl) ⟨[3, 1], fun i => i.getD 0 0⟩ ⟨[3, 2], fun i => i.getD 1 0⟩ [3, 1] [3] ⟨rfl, by decide, by decide, by decide, Or.inl rfl⟩
  2 ⟨[3], fun i => i.getD 0 0⟩

end NT.C62
