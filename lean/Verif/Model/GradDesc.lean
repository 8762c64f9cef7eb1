import Verif.Model.Predict

/-!
# `gradient_descent`, `neural_tangents/_src/predict.py:281-549`

`odeint` and the gradient of the loss are library calls and appear as parameters.
-/

namespace NT.Predict
open NT Arr

/-- `ODEState`, predict.py:281-301. -/
structure OdeState where
  fxTrain : Option (Arr ℝ)
  fxTest : Option (Arr ℝ)
  qxTrain : Option (Arr ℝ)
  qxTest : Option (Arr ℝ)

/-- The argument `fx_train_or_state_0`. -/
inductive OdeInit where
  | outputs (fx : Option (Arr ℝ))
  | state (s : OdeState)

/-- What `predict_fn` returns: an array, a pair of arrays, or a state. -/
inductive OdeOut where
  | one (fx : Option (Arr ℝ))
  | both (fxTrain fxTest : Option (Arr ℝ))
  | state (s : OdeState)

/-- `jax.experimental.ode.odeint(f, s0, ts)` with the leading axis of the result as a list; the time argument of the vector field is
ignored by the only caller. -/
abbrev OdeInt := (OdeState → Except Err OdeState) → OdeState → List ℝ → Except Err (List OdeState)

/-- `jnp.broadcast_to(x, s)`. -/
def broadcastTo (x : Arr ℝ) (s : List ℕ) : Except Err (Arr ℝ) :=
  let d := s.length - x.ndim
  if x.ndim ≤ s.length ∧ ((x.shape.zip (s.drop d)).all fun mn => mn.1 = mn.2 ∨ mn.1 = 1) then
    .ok ⟨s, fun i => x.get (bcastIdx x.shape (i.drop d))⟩
  else .error .valueError

/-- `_check_inputs`, predict.py:1297-1318. -/
def checkOde {K : Type} (init : OdeInit) (fxTest : Option (Arr ℝ)) (ktd : Option K) : Except Err Unit :=
  match init with
  | .state s => if fxTest.isSome then .error .valueError else checkInputs s.fxTrain s.fxTest ktd
  | .outputs fx => checkInputs fx fxTest ktd

/-- `_get_fx_test_shape`, predict.py:1261-1274. -/
def fxTestShape (bk : Backend) (y : Arr ℝ) (ktd : Option (Arr ℝ)) (T : List ℕ) : Except Err (List ℕ) :=
  match ktd with
  | none => .ok y.shape
  | some k => do
    let axes ← axesOf bk (T.map fun a : ℕ => (a : Int)) y.ndim
    return (List.range y.ndim).foldl (fun (shape : List ℕ) i => if i ∈ axes then shape.insertIdx (min i shape.length) (y.shape.getD i 0) else shape)
      (gather (pyRange 0 k.ndim 2) k.shape)

/-- The arguments of `gradient_descent`; `gradLoss` is `grad(lambda fx: loss(fx, y_train))`, predict.py:405. -/
structure Gd where
  gradLoss : Arr ℝ → Arr ℝ
  kTrainTrain : Arr ℝ
  yTrain : Arr ℝ
  learningRate : ℝ
  momentum : Option ℝ
  traceAxes : List Int

namespace Gd
variable (bk : Backend) (ode : OdeInt) (m : Gd)

/-- `learning_rate **= 0.5`, predict.py:408. -/
noncomputable def rate : ℝ := match m.momentum with
  | none => m.learningRate
  | some _ => Real.sqrt m.learningRate

/-- `momentum = (momentum - 1.0) / learning_rate`, predict.py:409. -/
noncomputable def friction : Option ℝ := m.momentum.map fun b => (b - 1) / Real.sqrt m.learningRate

/-- An optional initial value, zeros if missing. -/
def orZeros (x : Option (Arr ℝ)) (s : List ℕ) : Except Err (Arr ℝ) :=
  match x with
  | none => .ok ⟨s, fun _ => 0⟩
  | some x => broadcastTo x s

/-- The unpacked initial values, predict.py:412-419. -/
def parts (init : OdeInit) (fxTest : Option (Arr ℝ)) : OdeState :=
  match init with
  | .state s => s
  | .outputs fx => ⟨fx, fxTest, none, none⟩

/-- `get_state_0`, predict.py:411-438. -/
noncomputable def state0 (init : OdeInit) (fxTest : Option (Arr ℝ)) (testShape : List ℕ) : Except Err OdeState := do
  let s := parts init fxTest
  let fx ← orZeros s.fxTrain m.yTrain.shape
  let ft ← match s.fxTest with
    | none => pure none
    | some f => (broadcastTo f testShape).map some
  match m.friction with
  | none => if s.qxTrain.isSome || s.qxTest.isSome then .error .valueError else return ⟨some fx, ft, none, none⟩
  | some _ =>
    let q ← orZeros s.qxTrain m.yTrain.shape
    let qt ← match ft with
      | none => pure none
      | some _ => (orZeros s.qxTest testShape).map some
    return ⟨some fx, ft, some q, qt⟩

/-- `-moveaxis(tensordot(k, g, (odd, non_t_axes)), last_t_axes, trace_axes)`, predict.py:447-456. -/
def force (k g : Arr ℝ) (T : List ℕ) : Except Err (Arr ℝ) := do
  let z ← dotGeneral k g (pyRange 1 m.kTrainTrain.ndim 2) ((List.range m.yTrain.ndim).filter fun a => a ∉ T) [] []
  return (z.moveaxis (lastAxes z.ndim T.length) T).map fun v => -v

/-- `dstate_dt`, predict.py:441-466. -/
noncomputable def dstate (T : List ℕ) (ktd : Option (Arr ℝ)) (s : OdeState) : Except Err OdeState :=
  match s.fxTrain with
  | none => .error .typeError
  | some fx => do
    let g := m.gradLoss fx
    let d ← m.force m.kTrainTrain g T
    let dt ← match s.fxTest, ktd with
      | none, _ => pure none
      | some _, none => .error .typeError
      | some _, some k => (m.force k g T).map some
    match m.friction with
    | none => return ⟨some d, dt, none, none⟩
    | some b =>
      match s.qxTrain with
      | none => .error .typeError
      | some q =>
        let d ← zipB (fun x y : ℝ => x + b * y) d q
        let dt ← match s.qxTest, dt with
          | none, dt => pure dt
          | some _, none => .error .typeError
          | some qt, some dt => (zipB (fun x y : ℝ => x + b * y) dt qt).map some
        return ⟨s.qxTrain, s.qxTest, some d, dt⟩

/-- `trim`, predict.py:530: drops the added first time and restores the axes of `t`. -/
def trim (t : Arr ℝ) (states : List OdeState) (leaf : OdeState → Option (Arr ℝ)) : Option (Arr ℝ) :=
  match states.head?.bind leaf with
  | none => none
  | some a => some ⟨t.shape ++ a.shape, fun i =>
      (((states.getD (1 + ravel t.shape (i.take t.ndim)) ⟨none, none, none, none⟩) |> leaf).getD a).get (i.drop t.ndim)⟩

/-- The added first time, predict.py:517-521. -/
noncomputable def firstTime (t : ℝ) : ℝ := if t = 0 then -(10 : ℝ) ^ (-24 : ℤ) else 0

/-- The form of the result, predict.py:534-547. -/
def select (init : OdeInit) (fxTest : Option (Arr ℝ)) (out : OdeState) : OdeOut :=
  match init with
  | .state _ => .state out
  | .outputs fx =>
    if fx.isSome && fxTest.isNone then .one out.fxTrain
    else if fxTest.isSome && fx.isNone then .one out.fxTest
    else .both out.fxTrain out.fxTest

/-- `predict_fn`, predict.py:510-532, for finite times `t`. -/
noncomputable def predict (t : Arr ℝ) (init : OdeInit) (fxTest ktd : Option (Arr ℝ)) : Except Err OdeOut := do
  let T ← axesOf bk m.traceAxes m.yTrain.ndim
  checkOde init fxTest ktd
  let ts := (List.range t.shape.prod).map fun k => ((t.map fun v => v * m.rate).reshape [t.shape.prod]).get [k]
  match ts with
  | [] => .error .indexError
  | t1 :: _ =>
    let testShape ← fxTestShape bk m.yTrain ktd T
    let s0 ← m.state0 init fxTest testShape
    let states ← ode (m.dstate T ktd) s0 (firstTime t1 :: ts)
    let out : OdeState := ⟨trim t states (·.fxTrain), trim t states (·.fxTest), trim t states (·.qxTrain), trim t states (·.qxTest)⟩
    return select init fxTest out

end Gd
end NT.Predict
