import Verif.Props.C68Mse

/-!
# C68: which form the result of `gradient_descent` has, and which arguments it rejects
-/

namespace NT.C68
open NT Arr Spec Matrix Predict

/-- The form of the result for given initial values. -/
inductive Form : OdeInit → Option (Arr ℝ) → OdeOut → Prop
  /-- A state gives a state; there are no separate test outputs, and the state has some outputs. -/
  | state (s s' : OdeState) (h : s.fxTrain.isSome ∨ s.fxTest.isSome) : Form (.state s) none (.state s')
  /-- Only train outputs give one array. -/
  | train (x : Arr ℝ) (a : Option (Arr ℝ)) : Form (.outputs (some x)) none (.one a)
  /-- Only test outputs give one array. -/
  | test (y : Arr ℝ) (a : Option (Arr ℝ)) : Form (.outputs none) (some y) (.one a)
  /-- Both give a pair. -/
  | both (x y : Arr ℝ) (a b : Option (Arr ℝ)) : Form (.outputs (some x)) (some y) (.both a b)

/-- Whenever `predict_fn` of `gradient_descent` returns, some initial outputs were given, a test kernel was given if there are test outputs, and the result has
the form of the initial values: a state for a state, one array if only train or only test outputs are given, else a pair. -/
theorem result_form (bk : Backend) (ode : OdeInt) (m : Gd) (t : Arr ℝ) (init : OdeInit) (fxTest ktd : Option (Arr ℝ)) (o : OdeOut)
    (ho : m.predict bk ode t init fxTest ktd = .ok o) : Form init fxTest o ∧ ((initParts init fxTest).fxTest.isSome → ktd.isSome) := by
  simp only [Gd.predict, bind, Except.bind, pure, Except.pure] at ho
  split at ho
  · cases ho
  split at ho
  · cases ho
  rename_i hc
  split at ho
  · cases ho
  split at ho
  · cases ho
  split at ho
  · cases ho
  split at ho
  · cases ho
  cases ho
  cases init with
  | state s =>
    cases fxTest with
    | some y => simp [checkOde] at hc
    | none =>
      simp only [checkOde, checkInputs] at hc
      refine ⟨.state _ _ ?_, ?_⟩
      · cases h1 : s.fxTrain <;> cases h2 : s.fxTest <;> simp_all
      · simp only [initParts]
        cases h2 : s.fxTest <;> cases ktd <;> simp_all
  | outputs fx =>
    simp only [checkOde, checkInputs] at hc
    cases fx <;> cases fxTest <;> cases ktd <;> simp_all [Gd.select, initParts]
    all_goals constructor

/-- The call of `mse_train` on two points returns one array. -/
example : ∃ a, exG.predict exact exactOde ⟨[3], fun i => i.getD 0 0⟩ (.outputs (some ⟨[], fun _ => 1⟩)) none none = .ok (.one a) := by
  obtain ⟨-, -, -, o, ho, -⟩ := mse_train exact_correct exactOde_correct exG_fits rfl exG_gradient
    (C61.symm_of C61.exM_kernel_posDef.posSemidef) exTimes ⟨[], fun _ => 1⟩ (Or.inr rfl)
  cases (result_form _ _ _ _ _ _ _ _ ho).1 with
  | train => exact ⟨_, ho⟩

end NT.C68
