import Verif.Spec.JoinIdx
import Verif.Model.Predict
import Mathlib.LinearAlgebra.Matrix.PosDef
import Mathlib.Algebra.Order.Star.Real
import Mathlib.Analysis.Calculus.Deriv.Basic

/-!
# Specification of the predictors
-/

namespace NT.Spec
open Matrix NT.Predict

/-- A two-dimensional array as a matrix. -/
def mat (n m : ℕ) (a : Arr ℝ) : Matrix (Fin n) (Fin m) ℝ := fun i j => a.get [i, j]

/-- What the library calls are assumed to do: `eigh` returns an orthogonal diagonalisation of a symmetric matrix, the Cholesky solver
solves a positive definite system, a set is iterated over in some order without repetitions. -/
structure _root_.NT.Predict.Backend.Correct (bk : Backend) : Prop where
  evecs_shape : ∀ n A, A.shape = [n, n] → (bk.eigh A).2.shape = [n, n]
  orthogonal : ∀ n A, A.shape = [n, n] → (mat n n A).IsSymm → (mat n n (bk.eigh A).2)ᵀ * mat n n (bk.eigh A).2 = 1
  diagonalises : ∀ n A, A.shape = [n, n] → (mat n n A).IsSymm →
    mat n n A = mat n n (bk.eigh A).2 * diagonal (fun i : Fin n => (bk.eigh A).1.get [i.1]) * (mat n n (bk.eigh A).2)ᵀ
  solve_shape : ∀ n m A b, A.shape = [n, n] → b.shape = [n, m] → (bk.choSolve A b).shape = [n, m]
  solves : ∀ n m A b, A.shape = [n, n] → b.shape = [n, m] → (mat n n A).PosDef →
    mat n n A * mat n m (bk.choSolve A b) = mat n m b
  iter_nodup : ∀ F, (bk.setIter F).Nodup
  iter_mem : ∀ F k, k ∈ bk.setIter F ↔ k ∈ F

/-- A kernel matrix with the diagonal regulariser: `reg` times the identity, or `reg` times the mean of the diagonal. -/
noncomputable def regMat {ι : Type} [Fintype ι] [DecidableEq ι] (reg : ℝ) (absolute : Bool) (K : Matrix ι ι ℝ) : Matrix ι ι ℝ :=
  K + (if absolute then reg else reg * (K.trace / Fintype.card ι)) • (1 : Matrix ι ι ℝ)

/-- Gradient flow of the mean squared error in function space: `F' = - c K (F - Y)`. -/
def Flow {ι κ : Type} [Fintype ι] (c : ℝ) (K : Matrix ι ι ℝ) (Y : Matrix ι κ ℝ) (F : ℝ → Matrix ι κ ℝ) : Prop :=
  ∀ τ i k, HasDerivAt (fun τ => F τ i k) (-(c * (K * (F τ - Y)) i k)) τ

/-- The outputs `G` at other points driven by the residuals at the training points: `G' = - c K' (F - Y)`. -/
def Driven {ι ι' κ : Type} [Fintype ι] (c : ℝ) (K' : Matrix ι' ι ℝ) (Y : Matrix ι κ ℝ) (F : ℝ → Matrix ι κ ℝ)
    (G : ℝ → Matrix ι' κ ℝ) : Prop :=
  ∀ τ i k, HasDerivAt (fun τ => G τ i k) (-(c * (K' * (F τ - Y)) i k)) τ

/-- The entry of an initial output that is an array or a scalar standing for a constant array. -/
def initGet (f : Arr ℝ) (i : List ℕ) : ℝ := if f.shape = [] then f.get [] else f.get i

/-- An initial output: an array, a scalar that stands for a constant array, or `None` for zero. -/
def initView (n : ℕ) (D S R : List ℕ) : Option (Arr ℝ) → Matrix (box S) (box R) ℝ
  | none => 0
  | some f => fun p r => initGet f (joinIdx n D p.1 r.1)

/-- An initial output that fits the shape `s`. -/
def FitsShape (s : List ℕ) : Option (Arr ℝ) → Prop
  | none => True
  | some f => f.shape = s ∨ f.shape = []

/-- The arguments fit together: `T` are the trace axes, `R` their sizes in the targets, `S` the sizes of the other axes, and the kernel has
the shape `zip(S, S)`. -/
structure _root_.NT.Predict.Mse.Fits (bk : Backend) (m : Mse) (T S R : List ℕ) : Prop where
  axes : axesOf bk m.traceAxes m.yTrain.ndim = .ok T
  rows : S = sizesAt (otherAxes m.yTrain.ndim T) m.yTrain.shape
  cols : R = sizesAt T m.yTrain.shape
  kernel : m.kTrainTrain.shape = interleave S S
  nonempty : m.yTrain.shape.prod ≠ 0

/-- The test arguments fit: initial outputs `f` of shape `s'` and the test-train kernel `k`. -/
structure _root_.NT.Predict.Mse.TestFits (m : Mse) (T S R : List ℕ) (f k : Arr ℝ) (s' S' : List ℕ) : Prop where
  rank : s'.length = m.yTrain.ndim
  rows : S' = sizesAt (otherAxes m.yTrain.ndim T) s'
  cols : R = sizesAt T s'
  kernel : k.shape = interleave S' S
  init : FitsShape s' (some f)

/-- The returned array holds, at the times `t`, the values of the curve `F`. -/
def OutIs (o : Option (Arr ℝ)) (t : Arr ℝ) (n : ℕ) (T S R s : List ℕ) (F : ℝ → Matrix (box S) (box R) ℝ) : Prop :=
  ∃ a, o = some a ∧ a.shape = t.shape ++ s ∧ ∀ tj, InRange tj t.shape → viewAt tj n T S R a = F (t.get tj)

end NT.Spec
