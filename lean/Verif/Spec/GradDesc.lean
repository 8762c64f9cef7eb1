import Verif.Spec.Predict
import Verif.Model.GradDesc

/-!
# Specification of `gradient_descent`
-/

namespace NT.Spec
open Matrix NT.Predict

/-- The array curve `c` has the derivative `d` at `τ` along the times `I`. -/
def ArrDeriv (c : ℝ → Arr ℝ) (d : Arr ℝ) (I : Set ℝ) (τ : ℝ) : Prop :=
  (∀ σ ∈ I, (c σ).shape = d.shape) ∧ ∀ i, InRange i d.shape → HasDerivWithinAt (fun σ => (c σ).get i) (d.get i) I τ

/-- The same for a leaf of a state that may be missing. -/
def LeafDeriv (c : ℝ → Option (Arr ℝ)) (d : Option (Arr ℝ)) (I : Set ℝ) (τ : ℝ) : Prop :=
  match d with
  | none => ∀ σ ∈ I, c σ = none
  | some d => ∃ c', (∀ σ ∈ I, c σ = some (c' σ)) ∧ ArrDeriv c' d I τ

/-- `γ` solves `s' = field s` between the times `a` and `b`. -/
def Solves (field : OdeState → Except Err OdeState) (a b : ℝ) (γ : ℝ → OdeState) : Prop :=
  ∀ τ ∈ Set.Icc a b, ∃ d, field (γ τ) = .ok d ∧ LeafDeriv (fun σ => (γ σ).fxTrain) d.fxTrain (Set.Icc a b) τ ∧
    LeafDeriv (fun σ => (γ σ).fxTest) d.fxTest (Set.Icc a b) τ ∧ LeafDeriv (fun σ => (γ σ).qxTrain) d.qxTrain (Set.Icc a b) τ ∧
    LeafDeriv (fun σ => (γ σ).qxTest) d.qxTest (Set.Icc a b) τ

/-- What is assumed of `odeint`, at strictly increasing times: what it returns are the values of a solution, and it returns something
if there is a solution. -/
structure _root_.NT.Predict.OdeInt.Correct (ode : OdeInt) : Prop where
  sound : ∀ field s0 a ts b out, (a :: ts).Pairwise (· < ·) → (a :: ts).getLast (by simp) = b → ode field s0 (a :: ts) = .ok out →
    ∃ γ, γ a = s0 ∧ Solves field a b γ ∧ out = (a :: ts).map γ
  total : ∀ field s0 a ts b, (a :: ts).Pairwise (· < ·) → (a :: ts).getLast (by simp) = b → (∃ γ, γ a = s0 ∧ Solves field a b γ) →
    ∃ out, ode field s0 (a :: ts) = .ok out

/-- The array with `h` added to the entry `i`. -/
def bump (x : Arr ℝ) (i : List ℕ) (h : ℝ) : Arr ℝ := ⟨x.shape, fun j => if j = i then x.get i + h else x.get j⟩

/-- `g` is the gradient of the function `L` of arrays of shape `s`. -/
structure IsGradient (L : Arr ℝ → ℝ) (g : Arr ℝ → Arr ℝ) (s : List ℕ) : Prop where
  shape : ∀ x, x.shape = s → (g x).shape = s
  partials : ∀ x, x.shape = s → ∀ i, InRange i s → HasDerivAt (fun h => L (bump x i h)) ((g x).get i) 0

/-- Gradient flow in function space, `f' = - c K ∇L(f)`: the axes `T` of the outputs are the columns of the matrices. -/
def GradientFlow (I : Set ℝ) (c : ℝ) {S S' : List ℕ} (K : Matrix (box S') (box S) ℝ) (n : ℕ) (T R : List ℕ) (grad : Arr ℝ → Arr ℝ)
    (f g : ℝ → Arr ℝ) : Prop :=
  ∀ τ ∈ I, ∀ p r, HasDerivWithinAt (fun σ => viewAt [] n T S' R (g σ) p r) (-(c * (K * viewAt [] n T S R (grad (f τ))) p r)) I τ

/-- The heavy ball, `g'' = (β - 1) g' - c K ∇L(f)`, with the velocity `v`. -/
def HeavyBall (I : Set ℝ) (c β : ℝ) {S S' : List ℕ} (K : Matrix (box S') (box S) ℝ) (n : ℕ) (T R : List ℕ) (grad : Arr ℝ → Arr ℝ)
    (f g : ℝ → Arr ℝ) (v : ℝ → Matrix (box S') (box R) ℝ) : Prop :=
  ∀ τ ∈ I, ∀ p r, HasDerivWithinAt (fun σ => viewAt [] n T S' R (g σ) p r) (v τ p r) I τ ∧
    HasDerivWithinAt (fun σ => v σ p r) ((β - 1) * v τ p r - c * (K * viewAt [] n T S R (grad (f τ))) p r) I τ

/-- The returned array holds, at the times `t`, the values of the curve `f` of arrays of shape `s`. -/
def ValuesAt (o : Option (Arr ℝ)) (t : Arr ℝ) (s : List ℕ) (f : ℝ → Arr ℝ) : Prop :=
  ∃ a, o = some a ∧ a.shape = t.shape ++ s ∧ ∀ tj i, InRange tj t.shape → InRange i s → a.get (tj ++ i) = (f (t.get tj)).get i

/-- The arguments fit together, see `Mse.Fits`; the trace axes are listed in increasing order. -/
structure _root_.NT.Predict.Gd.Fits (bk : Backend) (m : Gd) (T S R : List ℕ) : Prop where
  axes : axesOf bk m.traceAxes m.yTrain.ndim = .ok T
  order : T.Pairwise (· < ·)
  rows : S = sizesAt (otherAxes m.yTrain.ndim T) m.yTrain.shape
  cols : R = sizesAt T m.yTrain.shape
  kernel : m.kTrainTrain.shape = interleave S S
  rate : 0 < m.learningRate

/-- The times are strictly increasing from `t0 ≥ 0` to `t1`. -/
structure Times (t : Arr ℝ) (t0 t1 : ℝ) : Prop where
  nonempty : t.shape.prod ≠ 0
  increasing : ∀ i j, InRange i t.shape → InRange j t.shape → Arr.ravel t.shape i < Arr.ravel t.shape j → t.get i < t.get j
  first : t.get (Arr.unravel t.shape 0) = t0
  last : t.get (Arr.unravel t.shape (t.shape.prod - 1)) = t1
  nonneg : 0 ≤ t0

/-- The time at which the initial outputs are prescribed: `0`, moved by the solver a little before if the first time is `0`. -/
noncomputable def startTime (rate t0 : ℝ) : ℝ := if t0 = 0 then -(10 : ℝ) ^ (-24 : ℤ) / rate else 0

/-- The test arguments fit: initial outputs `f` of shape `s'` and the test-train kernel `k`. -/
structure _root_.NT.Predict.Gd.TestFits (m : Gd) (T S R : List ℕ) (f k : Arr ℝ) (s' S' : List ℕ) : Prop where
  rank : s'.length = m.yTrain.ndim
  rows : S' = sizesAt (otherAxes m.yTrain.ndim T) s'
  cols : R = sizesAt T s'
  kernel : k.shape = interleave S' S
  init : FitsShape s' (some f)

/-- The initial values passed to the predictor, as outputs or as a state. -/
def initParts : OdeInit → Option (Arr ℝ) → OdeState
  | .state s, _ => s
  | .outputs fx, fxTest => ⟨fx, fxTest, none, none⟩

/-- Train outputs are returned. -/
def ReturnsTrain : OdeInit → Prop
  | .state _ => True
  | .outputs fx => fx.isSome

/-- The train outputs in the result. -/
def trainOf : OdeOut → Option (Arr ℝ)
  | .one a => a
  | .both a _ => a
  | .state s => s.fxTrain

/-- The test outputs in the result. -/
def testOf : OdeOut → Option (Arr ℝ)
  | .one a => a
  | .both _ a => a
  | .state s => s.fxTest

end NT.Spec
