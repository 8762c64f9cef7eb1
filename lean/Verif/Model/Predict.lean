import Verif.Tac
import Verif.Model.Axes
import Verif.Model.Dot
import Verif.Model.Utils
import Verif.Model.Branching
import Mathlib.Analysis.SpecialFunctions.Exp

/-!
# `neural_tangents/_src/predict.py`

Numbers are reals.  The eigenvalue decomposition, the Cholesky solver and the iteration order of a Python set are parameters.
-/

namespace NT.Predict
open NT Arr

/-- Library calls the predictors depend on. -/
structure Backend where
  /-- `jnp.linalg.eigh(a)`: eigenvalues and the matrix whose columns are the eigenvectors. -/
  eigh : Arr ℝ → Arr ℝ × Arr ℝ
  /-- `jsp.linalg.cho_solve(jsp.linalg.cho_factor(a), b)`. -/
  choSolve : Arr ℝ → Arr ℝ → Arr ℝ
  /-- the order in which a set is iterated over. -/
  setIter : Finset ℕ → List ℕ

noncomputable section

/-- `_get_axes`, predict.py:1321-1328: the even, odd, first and last axes of an array of rank `n`. -/
def getAxes (n : ℕ) : List ℕ × List ℕ × List ℕ × List ℕ :=
  (pyRange 0 n 2, pyRange 1 n 2, pyRange 0 (n / 2) 1, pyRange (n / 2) n 1)

/-- `utils.canonicalize_axis(axes, y)` (utils.py:306-321) as a list. -/
def axesOf (bk : Backend) (axes : List Int) (n : ℕ) : Except Err (List ℕ) :=
  match Utils.canonicalizeAxis axes n with
  | .ok F => .ok (bk.setIter F)
  | .error e => .error e

/-- `range(-k, 0)` for an array of rank `n`. -/
def lastAxes (n k : ℕ) : List ℕ := List.range' (n - k) k

/-- `x.reshape((-1,) + tail)`. -/
def reshapeHead (a : Arr ℝ) (tail : List ℕ) : Except Err (Arr ℝ) :=
  if tail.prod = 0 then .error .zeroDivision
  else if a.shape.prod % tail.prod = 0 then .ok (a.reshape ((a.shape.prod / tail.prod) :: tail))
  else .error .typeError

/-- `_add_diagonal_regularizer`, predict.py:1224-1232. -/
def addDiagReg (A : Arr ℝ) (reg : ℝ) (absolute : Bool) : Arr ℝ :=
  let n := A.shape.getD 0 0
  let reg := if absolute then reg else reg * ((∑ k ∈ Finset.range n, A.get [k, k]) / n)
  ⟨A.shape, fun i => A.get i + reg * (if i.getD 0 0 = i.getD 1 0 then 1 else 0)⟩

/-- `_make_expm1_fn`, predict.py:1277-1285. -/
def expm1Fn (normalization : ℝ) (eval t : ℝ) : ℝ := Real.exp (-(max eval 0) * t / normalization) - 1

/-- `_make_inv_expm1_fn`, predict.py:1288-1294. -/
def invExpm1Fn (normalization : ℝ) (eval t : ℝ) : ℝ := expm1Fn normalization eval t / |eval|

/-- `jnp.einsum('ji,ti,ki,k...->tj...', evecs, fn(evals, t), evecs, y)`, predict.py:1215-1217. -/
def einsumEig (evals evecs : Arr ℝ) (fn : ℝ → ℝ → ℝ) (y t : Arr ℝ) : Except Err (Arr ℝ) :=
  let n := evecs.shape.getD 0 0
  if y.shape.head? = some n then
    .ok ⟨[t.shape.getD 0 0, n] ++ y.shape.tail, fun ix =>
      ∑ i ∈ Finset.range n, ∑ k ∈ Finset.range n,
        evecs.get [ix.getD 1 0, i] * fn (evals.get [i]) (t.get [ix.getD 0 0]) * evecs.get [k, i] * y.get (k :: ix.drop 2)⟩
  else .error .valueError

/-- The decomposition in `_get_fns_in_eigenbasis`, predict.py:1206-1210. -/
def eigenspace (bk : Backend) (K : Arr ℝ) (reg : ℝ) (absolute : Bool) : Except Err (Arr ℝ × Arr ℝ) :=
  match make2d K with
  | .ok A => .ok (bk.eigh (addDiagReg A reg absolute))
  | .error e => .error e

/-- `_get_cho_solve(A, ...)(b, b_axes)`, predict.py:1235-1258. -/
def choSolve (bk : Backend) (A : Arr ℝ) (reg : ℝ) (absolute : Bool) (b : Arr ℝ) (bAxes : List Int) : Except Err (Arr ℝ) := do
  let A2 ← make2d A
  let A2 := addDiagReg A2 reg absolute
  let D ← axesOf bk bAxes b.ndim
  let xShape := gather (pyRange 1 A.ndim 2) A.shape ++ gather D b.shape
  let b := b.moveaxis D (lastAxes b.ndim D.length)
  let n := A2.shape.getD 1 0
  if n = 0 then .error .zeroDivision
  else if b.shape.prod % n = 0 then
    reshapeE (bk.choSolve A2 (b.reshape [n, b.shape.prod / n])) xShape
  else .error .typeError

/-- `jnp.expand_dims(fx, first_t_axes) + d`, predict.py:212, 221: simplified to `fx` being a scalar or having the shape of `d`
without its leading `tn` axes; other shapes NumPy would broadcast are rejected. -/
def addTime (fx d : Arr ℝ) (tn : ℕ) : Except Err (Arr ℝ) :=
  if fx.shape = d.shape.drop tn then .ok ⟨d.shape, fun i => fx.get (i.drop tn) + d.get i⟩
  else if fx.shape = [] then .ok ⟨d.shape, fun i => fx.get [] + d.get i⟩
  else .error .valueError

/-- `_check_inputs` for array arguments, predict.py:1297-1318. -/
def checkInputs {A B C : Type} (fxTrain : Option A) (fxTest : Option B) (ktd : Option C) : Except Err Unit :=
  if fxTrain.isNone && fxTest.isNone then .error .valueError
  else if fxTest.isSome && ktd.isNone then .error .valueError
  else .ok ()

/-- Arguments of `gradient_descent_mse`, predict.py:71-78. -/
structure Mse where
  kTrainTrain : Arr ℝ
  yTrain : Arr ℝ
  learningRate : ℝ
  diagReg : ℝ
  absolute : Bool
  traceAxes : List Int

variable (bk : Backend) (m : Mse)

/-- `rhs`, predict.py:204 and :173 (up to sign): `fx_train_0 - y_train`, `-y_train` for `None`. -/
def Mse.rhs (fx : Option (Arr ℝ)) : Except Err (Arr ℝ) :=
  match fx with
  | none => .ok (m.yTrain.map fun v => -v)
  | some f => zipB (fun a b => a - b) f m.yTrain

/-- The train part of `predict_fn_finite`, predict.py:209-212. -/
def Mse.finiteTrain (es : Arr ℝ × Arr ℝ) (T : List ℕ) (t rhs fx : Arr ℝ) : Except Err (Arr ℝ) := do
  let tt := (t.map fun v => v * m.learningRate).reshape [t.shape.prod]
  let shape := t.shape ++ gather (pyRange 1 m.kTrainTrain.ndim 2) m.kTrainTrain.shape ++ gather T m.yTrain.shape
  let d ← einsumEig es.1 es.2 (expm1Fn m.yTrain.shape.prod) rhs tt
  let d ← reshapeE d shape
  addTime fx (d.moveaxis (lastAxes d.ndim T.length) (T.map fun a => d.ndim - m.yTrain.ndim + a)) t.ndim

/-- The test part of `predict_fn_finite`, predict.py:214-221. -/
def Mse.finiteTest (es : Arr ℝ × Arr ℝ) (T : List ℕ) (t rhs fx ktd : Arr ℝ) : Except Err (Arr ℝ) := do
  let tt := (t.map fun v => v * m.learningRate).reshape [t.shape.prod]
  let shape := t.shape ++ gather (pyRange 1 m.kTrainTrain.ndim 2) m.kTrainTrain.shape ++ gather T m.yTrain.shape
  let nNonT := m.yTrain.ndim - T.length
  let d ← einsumEig es.1 es.2 (invExpm1Fn m.yTrain.shape.prod) rhs tt
  let d ← reshapeE d shape
  let d ← dotGeneral ktd d (getAxes m.kTrainTrain.ndim).2.1 (List.range' (d.ndim - m.yTrain.ndim) nNonT) [] []
  addTime fx (d.moveaxis (List.range' nNonT t.ndim ++ lastAxes d.ndim T.length)
    (List.range t.ndim ++ T.map fun a => d.ndim - m.yTrain.ndim + a)) t.ndim

/-- `predict_fn_finite`, predict.py:198-229.  The result is the pair of train and test predictions; the code returns the tuple of
those that are not `None`. -/
def Mse.predictFinite (t : Arr ℝ) (fxTrain fxTest ktd : Option (Arr ℝ)) : Except Err (Option (Arr ℝ) × Option (Arr ℝ)) := do
  let T ← axesOf bk m.traceAxes m.yTrain.ndim
  let es ← eigenspace bk m.kTrainTrain m.diagReg m.absolute
  let rhs ← m.rhs fxTrain
  let rhs ← reshapeHead (rhs.moveaxis T (lastAxes rhs.ndim T.length)) (gather T m.yTrain.shape)
  let train ← match fxTrain with
    | none => .ok none
    | some f => (m.finiteTrain es T t rhs f).map some
  let test ← match fxTest, ktd with
    | none, _ => .ok none
    | some _, none => .error .typeError
    | some f, some k => (m.finiteTest es T t rhs f k).map some
  return (train, test)

/-- `predict_fn_inf`, predict.py:168-183. -/
def Mse.predictInf (fxTrain fxTest ktd : Option (Arr ℝ)) : Except Err (Option (Arr ℝ) × Option (Arr ℝ)) := do
  let T ← axesOf bk m.traceAxes m.yTrain.ndim
  match fxTest, ktd with
  | none, _ => return (some m.yTrain, none)
  | some _, none => .error .typeError
  | some f, some k => do
    let rhs ← m.rhs fxTrain
    let x ← choSolve bk m.kTrainTrain m.diagReg m.absolute (rhs.map fun v => -v) (T.map fun a : ℕ => (a : Int) - m.yTrain.ndim)
    let d ← dotGeneral k x (getAxes m.kTrainTrain.ndim).2.1 (getAxes m.kTrainTrain.ndim).2.2.1 [] []
    let r ← zipB (fun a b => a + b) f (d.moveaxis (lastAxes d.ndim T.length) (T.map fun a => d.ndim - m.yTrain.ndim + a))
    return (if fxTrain.isSome then some m.yTrain else none, some r)

/-- `predict_fn` of `gradient_descent_mse`, predict.py:231-275. -/
def Mse.predict (t : Option (Arr ℝ)) (fxTrain fxTest ktd : Option (Arr ℝ)) : Except Err (Option (Arr ℝ) × Option (Arr ℝ)) := do
  checkInputs fxTrain fxTest ktd
  match t with
  | none => m.predictInf bk fxTrain fxTest ktd
  | some t => m.predictFinite bk t fxTrain fxTest ktd

end

end NT.Predict
