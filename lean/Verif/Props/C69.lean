import Verif.Props.C68Mse
import Verif.Props.C63

/-!
# C69: validation and shapes of the predictors
-/

namespace NT.C69
open NT Arr Spec Matrix Predict

/-- The initial outputs and the kernel do not go together: nothing to predict, or test outputs without a test-train kernel. -/
def Inconsistent {A B C : Type} (fxTrain : Option A) (fxTest : Option B) (ktd : Option C) : Prop :=
  (fxTrain = none ∧ fxTest = none) ∨ (fxTest.isSome ∧ ktd = none)

/-- Leading axes of the outputs: those of the times, none for infinite time. -/
def timeShape : Option (Arr ℝ) → List ℕ
  | none => []
  | some t => t.shape

/-- An output is present exactly if asked for, and then has the shape `s`. -/
def HasShape (asked : Bool) (s : List ℕ) (o : Option (Arr ℝ)) : Prop :=
  o.isSome = asked ∧ ∀ a, o = some a → a.shape = s

lemma checkInputs_error {A B C : Type} {fx : Option A} {ft : Option B} {k : Option C} (h : Inconsistent fx ft k) :
    checkInputs fx ft k = .error .valueError := by
  unfold checkInputs
  rcases h with ⟨rfl, rfl⟩ | ⟨h, rfl⟩
  · rfl
  · rw [h]
    cases fx <;> cases ft <;> simp_all

lemma checkInputs_ok {A B C : Type} {fx : Option A} {ft : Option B} {k : Option C} (h : ¬ Inconsistent fx ft k) :
    checkInputs fx ft k = .ok () := by
  unfold checkInputs
  cases fx <;> cases ft <;> cases k <;> simp_all [Inconsistent]

lemma no_test (m : Mse) (bk : Backend) (t : Option (Arr ℝ)) (fx : Option (Arr ℝ)) (k : Option (Arr ℝ)) :
    m.predict bk t fx none k = m.predict bk t fx none none := by
  unfold Mse.predict checkInputs
  cases t <;> cases k <;> rfl

lemma OutIs.hasShape {o : Option (Arr ℝ)} {t : Arr ℝ} {n : ℕ} {T S R s : List ℕ} {F : ℝ → Matrix (box S) (box R) ℝ}
    (h : OutIs o t n T S R s F) : HasShape true (t.shape ++ s) o := by
  obtain ⟨a, rfl, ha, -⟩ := h
  exact ⟨rfl, fun b hb => by cases hb; exact ha⟩

/-- **C69** for `gradient_descent_mse`: the predictor raises `ValueError` for inconsistent arguments, whatever the shapes and times, and
for consistent ones of fitting shapes, and a positive definite kernel, it returns the outputs asked for, with the shapes of the train
and test outputs after the axes of the times. -/
theorem mse_validation {bk : Backend} {m : Mse} {T S R : List ℕ} (hb : bk.Correct) (t fxTrain fxTest ktd : Option (Arr ℝ)) :
    (Inconsistent fxTrain fxTest ktd → m.predict bk t fxTrain fxTest ktd = .error .valueError) ∧
    (¬ Inconsistent fxTrain fxTest ktd → m.Fits bk T S R → (regMat m.diagReg m.absolute (pairMat S S m.kTrainTrain)).PosDef →
      FitsShape m.yTrain.shape fxTrain → ∀ s' S', (∀ f k, fxTest = some f → ktd = some k → m.TestFits T S R f k s' S') →
      ∃ o o', m.predict bk t fxTrain fxTest ktd = .ok (o, o') ∧ HasShape fxTrain.isSome (timeShape t ++ m.yTrain.shape) o ∧
        HasShape fxTest.isSome (timeShape t ++ s') o') := by
  refine ⟨fun h => ?_, fun hc h hK hx s' S' ht => ?_⟩
  · unfold Mse.predict
    rw [checkInputs_error h]
    rfl
  · cases fxTest with
    | none =>
      cases fxTrain with
      | none => exact absurd (Or.inl ⟨rfl, rfl⟩) hc
      | some f =>
        rw [no_test]
        cases t with
        | none =>
          refine ⟨some m.yTrain, none, ?_, ⟨rfl, fun a ha => by cases ha; rfl⟩, rfl, fun a ha => by cases ha⟩
          unfold Mse.predict checkInputs Mse.predictInf
          simp only [bind, Except.bind, h.axes]
          rfl
        | some t =>
          obtain ⟨V, lam, -, -, -, h3, -⟩ := finite_ok hb h (C61.symm_of hK.posSemidef)
          obtain ⟨o, o1, o2⟩ := h3 t f hx
          exact ⟨o, none, o1, OutIs.hasShape o2, rfl, fun a ha => by cases ha⟩
    | some f =>
      cases ktd with
      | none => exact absurd (Or.inr ⟨rfl, rfl⟩) hc
      | some k =>
        have ht := ht f k rfl rfl
        cases t with
        | none =>
          obtain ⟨a, a1, a2, -⟩ := inf_ok hb h hK fxTrain hx f k s' S' ht
          refine ⟨_, _, a1, ?_, rfl, fun b hb => by cases hb; exact a2⟩
          cases fxTrain with
          | none => exact ⟨rfl, fun a ha => by simp at ha⟩
          | some x => exact ⟨rfl, fun a ha => by simp at ha; rw [← ha]; rfl⟩
        | some t =>
          obtain ⟨V, lam, -, -, -, -, h3⟩ := finite_ok hb h (C61.symm_of hK.posSemidef)
          obtain ⟨o, o', o1, o2, o3, o4⟩ := h3 t fxTrain f k s' S' hx ht
          refine ⟨o, o', o1, ?_, OutIs.hasShape o4⟩
          cases fxTrain with
          | none => rw [o2 rfl]; exact ⟨rfl, fun a ha => by cases ha⟩
          | some x => exact OutIs.hasShape (o3 x rfl)

variable {bk : Backend} {ode : OdeInt} {m : Gd} {T S R : List ℕ}

/-- **C69** for `gradient_descent`: the predictor raises `ValueError` for inconsistent arguments, and if test outputs are given beside a
state, whatever the shapes, times and solver. -/
theorem gd_raises (hT : axesOf bk m.traceAxes m.yTrain.ndim = .ok T) (t : Arr ℝ) (init : OdeInit) (fxTest ktd : Option (Arr ℝ))
    (h : Inconsistent (initParts init fxTest).fxTrain (initParts init fxTest).fxTest ktd ∨ (∃ s, init = .state s) ∧ fxTest.isSome) :
    m.predict bk ode t init fxTest ktd = .error .valueError := by
  have hc : checkOde init fxTest ktd = .error .valueError := by
    unfold checkOde
    cases init with
    | state s =>
      by_cases hf : fxTest.isSome
      · simp [hf]
      · simp only [hf, Bool.false_eq_true, if_false]
        rcases h with h | ⟨-, h⟩
        · exact checkInputs_error h
        · exact absurd h hf
    | outputs fx =>
      rcases h with h | ⟨⟨s, h⟩, -⟩
      · exact checkInputs_error h
      · cases h
  unfold Gd.predict
  rw [hT]
  simp only [bind, Except.bind, hc]

/-- Velocities are refused, with `ValueError`, if there is no momentum. -/
theorem gd_velocity_without_momentum (hb : bk.Correct) (h : m.Fits bk T S R) (hm : m.momentum = none) (t : Arr ℝ) (ht : t.shape.prod ≠ 0)
    (s : OdeState) (ktd : Option (Arr ℝ)) (hx : FitsShape m.yTrain.shape s.fxTrain) (s' S' : List ℕ)
    (hts : ∀ f k, s.fxTest = some f → ktd = some k → m.TestFits T S R f k s' S') (hc : ¬ Inconsistent s.fxTrain s.fxTest ktd)
    (hk : s.fxTest = none → ktd = none) (hq : s.qxTrain.isSome ∨ s.qxTest.isSome) :
    m.predict bk ode t (.state s) none ktd = .error .valueError := by
  obtain ⟨hn, hl, hSl, hRl, hkn⟩ := h.lengths hb
  have hc' : checkOde (.state s) none ktd = .ok () := checkInputs_ok hc
  have hq' : (s.qxTrain.isSome || s.qxTest.isSome) = true := by simpa using hq
  have hfric : m.friction = none := by simp [Gd.friction, hm]
  obtain ⟨x0, x1, -⟩ := orZeros_ok (n := m.yTrain.ndim) s.fxTrain rfl h.rows h.cols hx
  obtain ⟨n, hn'⟩ := Nat.exists_eq_succ_of_ne_zero ht
  unfold Gd.predict
  rw [h.axes]
  simp only [bind, Except.bind, hc', hn', List.range_succ_eq_map, List.map_cons]
  cases hf : s.fxTest with
  | none =>
    rw [hk hf]
    simp only [fxTestShape, Gd.state0, Gd.parts, bind, Except.bind, x1, hf, pure, Except.pure, hfric, hq', if_true]
  | some f =>
    cases ktd with
    | none => exact absurd (Or.inr ⟨by simp [hf], rfl⟩) hc
    | some k =>
      have htf := hts f k hf rfl
      have hSS : S'.length = S.length := by rw [htf.rows, ← hSl]; simp [sizesAt]
      obtain ⟨a, a1, -⟩ := broadcastTo_ok f s' htf.init
      rw [fxTestShape_ok (axesOf_self hb h.axes) htf.kernel hSS htf.rank htf.rows (h.cols ▸ htf.cols)]
      simp only [Gd.state0, Gd.parts, bind, Except.bind, x1, hf, pure, Except.pure, hfric, hq', if_true, a1, Except.map]

/-- The form of the result: a single array if outputs are asked for on one set only, a pair for both, a state for a state. -/
def Form : OdeInit → Option (Arr ℝ) → OdeOut → Prop
  | .outputs (some _), none, .one _ => True
  | .outputs none, some _, .one _ => True
  | .outputs (some _), some _, .both _ _ => True
  | .state _, _, .state _ => True
  | _, _, _ => False

lemma ValuesAt.hasShape {o : Option (Arr ℝ)} {t : Arr ℝ} {s : List ℕ} {f : ℝ → Arr ℝ} (h : ValuesAt o t s f) :
    HasShape true (t.shape ++ s) o := by
  obtain ⟨a, rfl, ha, -⟩ := h
  exact ⟨rfl, fun b hb => by cases hb; exact ha⟩

/-- Whatever `gradient_descent` returns, with or without momentum, has the documented form, and the train and test outputs in it have the
shapes of the train and test outputs after the axes of the times. -/
theorem gd_shapes (hb : bk.Correct) (hode : ode.Correct) (h : m.Fits bk T S R) {L : Arr ℝ → ℝ}
    (hL : IsGradient L m.gradLoss m.yTrain.shape) {t : Arr ℝ} {t0 t1 : ℝ} (ht : Times t t0 t1) (init : OdeInit) (fxTest ktd : Option (Arr ℝ))
    (hx : FitsShape m.yTrain.shape (initParts init fxTest).fxTrain) (hq : FitsShape m.yTrain.shape (initParts init fxTest).qxTrain)
    (s' S' : List ℕ) (hts : ∀ f k, (initParts init fxTest).fxTest = some f → ktd = some k → m.TestFits T S R f k s' S')
    (hqt : FitsShape s' (initParts init fxTest).qxTest) {o : OdeOut} (ho : m.predict bk ode t init fxTest ktd = .ok o) :
    Form init fxTest o ∧ (ReturnsTrain init → HasShape true (t.shape ++ m.yTrain.shape) (trainOf o)) ∧
      ((initParts init fxTest).fxTest.isSome → HasShape true (t.shape ++ s') (testOf o)) := by
  have hc : ¬ (Inconsistent (initParts init fxTest).fxTrain (initParts init fxTest).fxTest ktd ∨ (∃ s, init = .state s) ∧ fxTest.isSome) := by
    intro hc
    rw [gd_raises h.axes t init fxTest ktd hc] at ho
    cases ho
  have hform : Form init fxTest o := by
    obtain ⟨-, -, γ, -, -, -, -, rfl⟩ := predict_run hode h ht ho
    cases init with
    | state s => cases fxTest <;> trivial
    | outputs fx =>
      cases fx <;> cases fxTest
      · exact absurd (Or.inl (Or.inl ⟨rfl, rfl⟩)) hc
      all_goals trivial
  have key : (ReturnsTrain init → ∃ f, ValuesAt (trainOf o) t m.yTrain.shape f) ∧
      ∀ xt k, (initParts init fxTest).fxTest = some xt → ktd = some k → ∃ g, ValuesAt (testOf o) t s' g := by
    cases hm : m.momentum with
    | none =>
      obtain ⟨f, -, -, -, f4, f5⟩ := C68.flow hb hode h hm hL ht hx ho
      refine ⟨fun hr => ⟨f, f4 hr⟩, fun xt k e1 e2 => ?_⟩
      obtain ⟨g, -, -, -, g4⟩ := f5 xt k s' S' e1 e2 (hts xt k e1 e2)
      exact ⟨g, g4⟩
    | some β =>
      obtain ⟨f, v, -, -, -, -, f4, f5⟩ := C68.heavy_ball hb hode h hm hL ht hx hq ho
      refine ⟨fun hr => ⟨f, f4 hr⟩, fun xt k e1 e2 => ?_⟩
      obtain ⟨g, w, -, -, -, -, g4⟩ := f5 xt k s' S' e1 e2 (hts xt k e1 e2) hqt
      exact ⟨g, g4⟩
  refine ⟨hform, fun hr => ?_, fun hs => ?_⟩
  · obtain ⟨f, hf⟩ := key.1 hr
    exact ValuesAt.hasShape hf
  · obtain ⟨xt, e1⟩ := Option.isSome_iff_exists.1 hs
    cases ktd with
    | none => exact absurd (Or.inl (Or.inr ⟨hs, rfl⟩)) hc
    | some k =>
      obtain ⟨g, hg⟩ := key.2 xt k e1 rfl
      exact ValuesAt.hasShape hg

/-! ### Instances -/

example : C61.exM.predict exact none none (some ⟨[3, 1], fun _ => 0⟩) none = .error .valueError :=
  (mse_validation (T := [1]) (S := [2]) (R := [1]) exact_correct none none (some ⟨[3, 1], fun _ => 0⟩) none).1 (Or.inr ⟨rfl, rfl⟩)

example := (mse_validation (m := C61.exM) exact_correct (some ⟨[5], fun i => i.getD 0 0⟩) (some ⟨[], fun _ => 1⟩)
    (some ⟨[3, 1], fun i => i.getD 0 0⟩) (some ⟨[3, 2], fun i => i.getD 1 0⟩)).2 (by simp [Inconsistent]) C61.exM_fits C61.exM_posDef
  (Or.inr rfl) [3, 1] [3] (by
    intro f k hf hk
    cases hf
    cases hk
    exact ⟨rfl, by decide, by decide, by decide, Or.inl rfl⟩)

example : C68.exG.predict exact C68.exactOde ⟨[3], fun i => i.getD 0 0⟩ (.state ⟨some ⟨[], fun _ => 1⟩, none, none, none⟩)
    (some ⟨[], fun _ => 1⟩) none = .error .valueError :=
  gd_raises C68.exG_fits.axes _ _ _ _ (Or.inr ⟨⟨_, rfl⟩, rfl⟩)

example : C68.exG.predict exact C68.exactOde ⟨[3], fun i => i.getD 0 0⟩
    (.state ⟨some ⟨[], fun _ => 1⟩, some ⟨[3, 1], fun _ => 1⟩, none, some ⟨[], fun _ => 1⟩⟩) none (some ⟨[3, 2], fun i => i.getD 1 0⟩) =
    .error .valueError :=
  gd_velocity_without_momentum exact_correct C68.exG_fits rfl _ (by decide) _ _ (Or.inr rfl) [3, 1] [3] (by
    intro f k hf hk
    cases hf
    cases hk
    exact ⟨rfl, by decide, by decide, by decide, Or.inl rfl⟩) (by simp [Inconsistent]) (by simp) (Or.inr rfl)

example : ∃ a, C68.exH.predict exact C68.exactOde ⟨[3], fun i => i.getD 0 0⟩ (.outputs (some ⟨[2, 1], fun i => i.getD 0 0⟩)) none none =
    .ok (.one (some a)) ∧ a.shape = [3, 2, 1] := by
  obtain ⟨o, ho⟩ := C68.exH_ok
  obtain ⟨h1, h2, -⟩ := gd_shapes exact_correct C68.exactOde_correct C68.exH_fits C68.exH_gradient C68.exTimes
    (.outputs (some ⟨[2, 1], fun i => i.getD 0 0⟩)) none none (Or.inl rfl) trivial [2, 1] [2] (by intro f k hf; cases hf) trivial ho
  obtain ⟨h3, h4⟩ := h2 rfl
  cases o with
  | one a =>
    cases a with
    | none => cases h3
    | some a => exact ⟨a, ho, h4 a rfl⟩
  | both a b => cases h1
  | state s => cases h1

end NT.C69
