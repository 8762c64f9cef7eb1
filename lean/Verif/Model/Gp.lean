import Verif.Model.Predict

/-!
# `gp_inference`, `neural_tangents/_src/predict.py:566-745`
-/

namespace NT.Predict
open NT Arr

/-- The attributes of a kernel. -/
inductive Field
  | nngp
  | ntk
deriving DecidableEq

/-- The modes of the Gaussian process. -/
inductive Mode
  | nngp
  | ntk
  | ntkgp
deriving DecidableEq

/-- A kernel argument: an array, or an object whose attributes are absent (outer `none`), `None` (inner `none`) or arrays. -/
inductive KArg
  | arr (a : Arr ℝ)
  | obj (nngp ntk : Option (Option (Arr ℝ)))

/-- `_get_attr`, predict.py:1344-1347. -/
def KArg.attr : KArg → Field → Except Err (Option (Arr ℝ))
  | .arr a, _ => .ok (some a)
  | .obj (some v) _, .nngp => .ok v
  | .obj _ (some v), .ntk => .ok v
  | .obj none _, .nngp => .error .attributeError
  | .obj _ none, .ntk => .error .attributeError

/-- `hasattr(k, 'nngp')`. -/
def KArg.hasNngp : KArg → Bool
  | .arr _ => false
  | .obj v _ => v.isSome

/-- `_get_first`, predict.py:1331-1341. -/
def KArg.first : KArg → Except Err (Arr ℝ)
  | .arr a => .ok a
  | .obj (some (some a)) _ => .ok a
  | .obj _ (some (some a)) => .ok a
  | .obj _ _ => .error .valueError

/-- Reading an attribute (`dtype`, `shape`) of a value that may be `None` instead of an array. -/
def need : Option (Arr ℝ) → Except Err (Arr ℝ)
  | some a => .ok a
  | none => .error .attributeError

/-- Passing a value that may be `None` where an array is expected to a JAX function. -/
def needArr : Option (Arr ℝ) → Except Err (Arr ℝ)
  | some a => .ok a
  | none => .error .typeError

/-- `k = g if g != 'ntkgp' else 'ntk'`, predict.py:689. -/
def Mode.field : Mode → Field
  | .nngp => .nngp
  | _ => .ntk

/-- `g_init = 'nngp' if g != 'ntkgp' else 'ntk'`, predict.py:718. -/
def Mode.init : Mode → Field
  | .ntkgp => .ntk
  | _ => .nngp

/-- Arguments of `gp_inference`, predict.py:566-571. -/
structure Gp where
  kTrainTrain : KArg
  yTrain : Arr ℝ
  diagReg : ℝ
  absolute : Bool
  traceAxes : List Int

noncomputable section

variable (bk : Backend) (m : Gp)

/-- Mean on the test set, predict.py:699-700; `solve` and `k_inv_y` (lines 629-636) are memoised pure functions and appear here
without their caches. -/
def Gp.mean (n : ℕ) (T : List ℕ) (kdd ktd : Arr ℝ) : Except Err (Arr ℝ) := do
  let x ← choSolve bk kdd m.diagReg m.absolute m.yTrain (T.map fun a : ℕ => (a : Int))
  let d ← dotGeneral ktd x (getAxes n).2.1 (getAxes n).2.2.1 [] []
  return d.moveaxis (lastAxes d.ndim T.length) T

/-- Posterior covariance of the modes `nngp` and `ntkgp`, predict.py:720-726. -/
def Gp.covGp (n : ℕ) (kdd ktd kInit ktt : Arr ℝ) : Except Err (Arr ℝ) := do
  let w ← choSolve bk kdd m.diagReg m.absolute kInit ((getAxes n).1.map fun a : ℕ => (a : Int))
  let c ← dotGeneral ktd w (getAxes n).2.1 (getAxes n).2.2.1 [] []
  let c ← zipAxes c
  zipB (fun a b => a - b) ktt c

/-- Covariance of the mode `ntk`, predict.py:720-736. -/
def Gp.covNtk (n : ℕ) (kdd ktd kInit ktt nngpDd : Arr ℝ) : Except Err (Arr ℝ) := do
  let w ← choSolve bk kdd m.diagReg m.absolute kInit ((getAxes n).1.map fun a : ℕ => (a : Int))
  let t1 ← choSolve bk kdd m.diagReg m.absolute ktd ((getAxes n).1.map fun a : ℕ => (a : Int))
  let c ← dotGeneral nngpDd t1 (getAxes n).2.1 (getAxes n).2.2.1 [] []
  let c ← dotGeneral t1 c (getAxes n).2.2.1 (getAxes n).2.2.1 [] []
  let t2 ← dotGeneral ktd w (getAxes n).2.1 (getAxes n).2.2.1 [] []
  let t2 ← zipB (fun a b => a + b) t2 (t2.moveaxis (getAxes n).2.2.1 (getAxes n).2.2.2)
  let c ← zipB (fun a b => a - b) c t2
  let c ← zipAxes c
  zipB (fun a b => a + b) c ktt

/-- One mode of `predict_fn` of `gp_inference`, predict.py:688-743: the mean, and the covariance if `k_test_test` is given. -/
def Gp.one (n : ℕ) (T : List ℕ) (g : Mode) (kTestTrain kTestTest : Option KArg) : Except Err (Arr ℝ × Option (Arr ℝ)) := do
  let kdd ← m.kTrainTrain.attr g.field
  match kTestTrain with
  | none => do
    let kdd ← need kdd
    return (m.yTrain, kTestTest.map fun _ => ⟨kdd.shape, fun _ => 0⟩)
  | some K => do
    match ← K.attr g.field with
    | none => do
      let kdd ← need kdd
      return (m.yTrain, kTestTest.map fun _ => ⟨kdd.shape, fun _ => 0⟩)
    | some ktd => do
      let kdd ← need kdd
      let y ← m.mean bk n T kdd ktd
      match kTestTest with
      | none => return (y, none)
      | some tt =>
        if g = .ntk ∧ (¬ m.kTrainTrain.hasNngp ∨ ¬ K.hasNngp) then .error .valueError
        else do
          let kInit ← K.attr g.init
          let kInit ← needArr kInit
          let ktt ← tt.attr g.init
          let ktt ← needArr ktt
          match g with
          | .ntk => do
            let nngpDd ← m.kTrainTrain.attr .nngp
            let nngpDd ← needArr nngpDd
            let c ← m.covNtk bk n kdd ktd kInit ktt nngpDd
            return (y, some c)
          | _ => do
            let c ← m.covGp bk n kdd ktd kInit ktt
            return (y, some c)

/-- `gp_inference(...)(get, k_test_train, k_test_test)`, predict.py:566-745, for one mode; with several modes the function computes
each of them in this way. -/
def Gp.predict (g : Mode) (kTestTrain kTestTest : Option KArg) : Except Err (Arr ℝ × Option (Arr ℝ)) := do
  let k ← m.kTrainTrain.first
  let T ← axesOf bk m.traceAxes m.yTrain.ndim
  m.one bk k.ndim T g kTestTrain kTestTest

end

end NT.Predict
