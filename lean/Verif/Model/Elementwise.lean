import Verif.Model.Branching
import Verif.Model.Axes
import Verif.Model.Kernel
import Mathlib.Analysis.Real.Sqrt
import Mathlib.Analysis.SpecialFunctions.Complex.Arg
import Mathlib.Analysis.SpecialFunctions.Trigonometric.Basic
import Mathlib.MeasureTheory.Integral.IntervalIntegral.Basic
import Mathlib.Analysis.SpecialFunctions.Trigonometric.Inverse
import Mathlib.Analysis.Calculus.Deriv.Basic
import Mathlib.Data.Nat.Factorial.DoubleFactorial
import Mathlib.Analysis.SpecialFunctions.Pow.Real

/-!
# Elementwise nonlinearities: `neural_tangents/_src/stax/elementwise.py`

Numbers are real numbers: rounding, overflow and `NaN` are not modelled.  In Lean `x / 0 = 0`; the theorems assume
that the divisors of the code are not zero.
-/

namespace NT
open Arr

/-- `get_diagonal`, requirements.py:1057-1074, on a present array. -/
def getDiagonal {α : Type} (cov : Arr α) (diagonalBatch diagonalSpatial : Bool) : Except Err (Arr α) :=
  let batchNdim := if diagonalBatch then 1 else 2
  let start := 2 - batchNdim
  let stop := if diagonalSpatial then batchNdim else cov.ndim
  match unzipAxes cov start (some stop) with
  | .error e => .error e
  | .ok c => diagonalBetween c start (some stop)

/-- `get_diagonal`, requirements.py:1057-1074, with the `None` branch of lines 1067-1068. -/
def getDiagonal? {α : Type} (cov : Option (Arr α)) (diagonalBatch diagonalSpatial : Bool) : Except Err (Option (Arr α)) :=
  match cov with
  | none => .ok none
  | some c => (getDiagonal c diagonalBatch diagonalSpatial).map some

/-- `get_diagonal_outer_prods`, requirements.py:1077-1117: `prod11, prod12, prod22`.  `mean1`, `mean2` stand for the two
calls of `mean_and_var` (lines 1104-1105), which for `axis=()` change nothing. -/
def getDiagonalOuterProds {α γ : Type} (cov1 : Arr α) (cov2 : Option (Arr α)) (diagonalBatch diagonalSpatial : Bool)
    (op : α → α → γ) (mean1 : Arr α → Except Err (Arr α) := .ok) (mean2 : Arr α → Except Err (Arr α) := .ok) :
    Except Err (Arr γ × Arr γ × Arr γ) :=
  match getDiagonal cov1 diagonalBatch diagonalSpatial with
  | .error e => .error e
  | .ok d1 =>
    match getDiagonal? cov2 diagonalBatch diagonalSpatial with
    | .error e => .error e
    | .ok d2 => do
      let d1 ← mean1 d1
      let d2 ← match d2 with
        | none => .ok none
        | some d2 => (mean2 d2).map some
      let stop := if diagonalSpatial then 1 else d1.ndim
      let prod12 := outerProd d1 d2 0 stop op
      let start := if diagonalBatch then 1 else 0
      let prod11 := outerProd d1 (some d1) start stop op
      let prod22 := match d2 with
        | none => prod11
        | some d2 => outerProd d2 (some d2) start stop op
      .ok (prod11, prod12, prod22)

/-- `jnp.arctan2(y, x)`. -/
noncomputable def arctan2 (y x : ℝ) : ℝ := Complex.arg ⟨x, y⟩

/-- `_sqrt`, elementwise.py:1278-1280. -/
noncomputable def sqrtTol (x : ℝ) (tol : ℝ := 0) : ℝ := Real.sqrt (max x tol)

open Classical in
/-- `_arctan2`, elementwise.py:1293-1299, with `fill_zero`. -/
noncomputable def arctan2Fill (x y fillZero : ℝ) : ℝ := if x = 0 ∧ y = 0 then fillZero else arctan2 x y

/-- The parts in which the `kernel_fn`s of the layers differ.  `den` is applied to `cov1`, `cov2` before the outer
products with `op` are formed; `nngp`, `dot` are the results of the local `nngp_ntk_fn` for the arguments `nngp`, `prod`
(`dot` is the factor of `ntk`); `diag` is the local `nngp_fn_diag`.  Layers that form two outer products (of the same
arrays) have a pair-valued `op`. -/
structure DualFn (γ : Type) where
  den : ℝ → ℝ
  op : ℝ → ℝ → γ
  nngp : ℝ → γ → ℝ
  dot : ℝ → γ → ℝ
  diag : ℝ → ℝ

namespace DualFn
variable {γ : Type}

/-- The new `ntk`: `ntk *= dot_sigma` if `ntk` is not `None`. -/
def newNtk (D : DualFn γ) (nngp : Arr ℝ) (prod : Arr γ) : Option (Arr ℝ) → Except Err (Option (Arr ℝ))
  | none => .ok none
  | some t =>
    match zipB D.dot nngp prod with
    | .error e => .error e
    | .ok dot => (zipB (· * ·) t dot).map some

/-- `nngp_ntk_fn(cov, prod)` or, in the diagonal case, `nngp_fn_diag(cov)`. -/
def newCov (D : DualFn γ) (diag : Bool) (cov : Arr ℝ) (prod : Arr γ) : Except Err (Arr ℝ) :=
  if diag then .ok (cov.map D.diag) else zipB D.nngp cov prod

/-- `newCov` for the optional `cov2`. -/
def newCov? (D : DualFn γ) (diag : Bool) (cov : Option (Arr ℝ)) (prod : Arr γ) : Except Err (Option (Arr ℝ)) :=
  match cov with
  | none => .ok none
  | some c => (D.newCov diag c prod).map some

/-- The common body of the `kernel_fn`s, e.g. elementwise.py:561-588 (`Exp`) before the scaling. -/
def kernelFn (D : DualFn γ) (k : Kernel ℝ) : Except Err (Kernel ℝ) :=
  match getDiagonalOuterProds (k.cov1.map D.den) (k.cov2.map (·.map D.den)) k.diagonalBatch k.diagonalSpatial D.op with
  | .error e => .error e
  | .ok (prod11, prod12, prod22) =>
    match zipB D.nngp k.nngp prod12 with
    | .error e => .error e
    | .ok nngp =>
      match D.newNtk k.nngp prod12 k.ntk with
      | .error e => .error e
      | .ok ntk =>
        match D.newCov (k.diagonalBatch && k.diagonalSpatial) k.cov1 prod11 with
        | .error e => .error e
        | .ok cov1 =>
          match D.newCov? (k.diagonalBatch && k.diagonalSpatial) k.cov2 prod22 with
          | .error e => .error e
          | .ok cov2 => .ok { k with cov1 := cov1, nngp := nngp, cov2 := cov2, ntk := ntk }

end DualFn

/-- `new_kernel_fn` of `_elementwise`, elementwise.py:1262-1272, for a present `kernel_fn`. -/
def elementwise (kernelFn : Kernel ℝ → Except Err (Kernel ℝ)) (k : Kernel ℝ) : Except Err (Kernel ℝ) :=
  if !k.isGaussian then .error .valueError
  else
    match kernelFn k with
    | .error e => .error e
    | .ok k => .ok { k with isGaussian := false }

/-! ### The layers -/

/-- `Exp`, elementwise.py:561-588, before the scaling by `a`. -/
noncomputable def expDual (b : ℝ) : DualFn ℝ where
  den := id
  op := (· + ·)
  nngp n s := Real.exp (b ^ 2 * (s / 2 + n))
  dot n s := b ^ 2 * Real.exp (b ^ 2 * (s / 2 + n))
  diag v := Real.exp (2 * b ^ 2 * v)

/-- `Sin`, elementwise.py:294-326. -/
noncomputable def sinDual (a b c : ℝ) : DualFn ℝ where
  den := id
  op := (· + ·)
  nngp n s := a ^ 2 / 2 * (Real.exp (b ^ 2 * (-0.5 * s + n)) - Real.exp (b ^ 2 * (-0.5 * s - n)) * Real.cos (2 * c))
  dot n s := a ^ 2 / 2 * b ^ 2 *
    (Real.exp (b ^ 2 * (-0.5 * s + n)) + Real.exp (b ^ 2 * (-0.5 * s - n)) * Real.cos (2 * c))
  diag v := a ^ 2 / 2 * (1 - Real.exp (-2 * b ^ 2 * v) * Real.cos (2 * c))

/-- `Rbf`, elementwise.py:368-398. -/
noncomputable def rbfDual (gamma : ℝ) : DualFn ℝ where
  den := id
  op := (· + ·)
  nngp n s := Real.exp (gamma * (-s + 2 * n))
  dot n s := 2 * gamma * Real.exp (gamma * (-s + 2 * n))
  diag _ := 1

/-- `ABRelu`, elementwise.py:444-458: `angles`. -/
noncomputable def reluAngle (n prod : ℝ) : ℝ := arctan2Fill (sqrtTol (prod - n ^ 2)) n (Real.pi / 2)

/-- `ABRelu`, elementwise.py:423-477, without stabilisation. -/
noncomputable def abReluDual (a b : ℝ) : DualFn ℝ where
  den := id
  op := (· * ·)
  nngp n prod := (a - b) ^ 2 / (2 * Real.pi) * sqrtTol (prod - n ^ 2) +
    ((a ^ 2 + b ^ 2) / 2 - (a - b) ^ 2 / (2 * Real.pi) * reluAngle n prod) * n
  dot n prod := (a ^ 2 + b ^ 2) / 2 - (a - b) ^ 2 / (2 * Real.pi) * reluAngle n prod
  diag v := (a ^ 2 + b ^ 2) / 2 * v

/-- `Gaussian`, elementwise.py:604-645, before the scaling by `a`. -/
noncomputable def gaussianDual (b : ℝ) : DualFn ℝ where
  den v := 1 - 2 * b * v
  op := (· * ·)
  nngp n prod := 1 / sqrtTol (prod - 4 * b ^ 2 * n ^ 2)
  dot n prod := 4 * b ^ 2 * n / sqrtTol (prod - 4 * b ^ 2 * n ^ 2) ^ 3
  diag v := 1 / sqrtTol (1 - 4 * b * v)

/-- `jax.scipy.special.erf` (elementwise.py:64-65). -/
noncomputable def erf (x : ℝ) : ℝ := 2 / Real.sqrt Real.pi * ∫ t in (0)..x, Real.exp (-t ^ 2)

/-- `Erf`, elementwise.py:67-111, between the scaling by `b` and the final affine map. -/
noncomputable def erfDual : DualFn ℝ where
  den v := 1 + 2 * v
  op := (· * ·)
  nngp n prod := 2 / Real.pi * arctan2 (2 * n) (sqrtTol (prod - 4 * n ^ 2))
  dot n prod := 2 * (2 / Real.pi) / sqrtTol (prod - 4 * n ^ 2)
  diag v := 2 / Real.pi * arctan2 v (Real.sqrt (v + 1 / 4))

/-- The function of `Exp`, elementwise.py:558-559. -/
noncomputable def expFn (a b x : ℝ) : ℝ := a * Real.exp (b * x)

/-- `Exp`, elementwise.py:551-590. -/
noncomputable def expKernelFn (a b : ℝ) : Kernel ℝ → Except Err (Kernel ℝ) :=
  elementwise fun k => ((expDual b).kernelFn k).map (·.mul a)

/-- The function of `Sin`, elementwise.py:291-292. -/
noncomputable def sinFn (a b c x : ℝ) : ℝ := a * Real.sin (b * x + c)

/-- `Sin`, elementwise.py:277-328. -/
noncomputable def sinKernelFn (a b c : ℝ) : Kernel ℝ → Except Err (Kernel ℝ) := elementwise (sinDual a b c).kernelFn

/-- `Cos`, elementwise.py:331-345: the function. -/
noncomputable def cosFn (a b c : ℝ) : ℝ → ℝ := sinFn a b (c + Real.pi / 2)

/-- `Cos`, elementwise.py:331-345. -/
noncomputable def cosKernelFn (a b c : ℝ) : Kernel ℝ → Except Err (Kernel ℝ) := sinKernelFn a b (c + Real.pi / 2)

/-- The function of `Rbf`, elementwise.py:365-366. -/
noncomputable def rbfFn (gamma x : ℝ) : ℝ := Real.sqrt 2 * Real.sin (Real.sqrt (2 * gamma) * x + Real.pi / 4)

/-- `Rbf`, elementwise.py:350-400. -/
noncomputable def rbfKernelFn (gamma : ℝ) : Kernel ℝ → Except Err (Kernel ℝ) := elementwise (rbfDual gamma).kernelFn

/-- The function of `ABRelu`, elementwise.py:420-421. -/
noncomputable def abReluFn (a b x : ℝ) : ℝ := a * min x 0 + b * max x 0

/-- `jnp.max(jnp.abs(a))`: an error for an array without entries. -/
noncomputable def maxAbs (a : Arr ℝ) : Except Err ℝ :=
  match a.toList with
  | [] => .error .valueError
  | x :: l => .ok (l.foldl (fun m y => max m |y|) |x|)

/-- The division and multiplication of `nngp`, `cov1`, `cov2` by `factor`, elementwise.py:433-436 and 471-475. -/
noncomputable def Kernel.rescale (k : Kernel ℝ) (c : ℝ) : Kernel ℝ :=
  { k with nngp := k.nngp.map (c * ·), cov1 := k.cov1.map (c * ·), cov2 := k.cov2.map (·.map (c * ·)) }

/-- `ABRelu`, elementwise.py:403-479. -/
noncomputable def abReluKernelFn (a b : ℝ) (doStabilize : Bool) : Kernel ℝ → Except Err (Kernel ℝ) :=
  elementwise fun k =>
    if doStabilize then
      match maxAbs k.nngp with
      | .error e => .error e
      | .ok m =>
        let factor := max m (1e-12)
        ((abReluDual a b).kernelFn (k.rescale factor⁻¹)).map (·.rescale factor)
    else (abReluDual a b).kernelFn k

/-- `Relu`, elementwise.py:482-491. -/
noncomputable def reluKernelFn (doStabilize : Bool := false) : Kernel ℝ → Except Err (Kernel ℝ) := abReluKernelFn 0 1 doStabilize

/-- `LeakyRelu`, elementwise.py:494-504. -/
noncomputable def leakyReluKernelFn (alpha : ℝ) (doStabilize : Bool := false) : Kernel ℝ → Except Err (Kernel ℝ) :=
  abReluKernelFn alpha 1 doStabilize

/-- `Abs`, elementwise.py:507-516. -/
noncomputable def absKernelFn (doStabilize : Bool := false) : Kernel ℝ → Except Err (Kernel ℝ) := abReluKernelFn (-1) 1 doStabilize

/-- The function of `Gaussian`, elementwise.py:601-602. -/
noncomputable def gaussianFn (a b x : ℝ) : ℝ := a * Real.exp (b * x ^ 2)

/-- `Gaussian`, elementwise.py:595-647. -/
noncomputable def gaussianKernelFn (a b : ℝ) : Kernel ℝ → Except Err (Kernel ℝ) :=
  elementwise fun k => ((gaussianDual b).kernelFn k).map (·.mul a)

/-- The function of `Erf`, elementwise.py:64-65. -/
noncomputable def erfFn (a b c x : ℝ) : ℝ := a * erf (b * x) + c

/-- `Erf`, elementwise.py:49-114. -/
noncomputable def erfKernelFn (a b c : ℝ) : Kernel ℝ → Except Err (Kernel ℝ) :=
  elementwise fun k => (erfDual.kernelFn (k.mul b)).map fun k => (k.mul a).add c

/-- `Sigmoid_like`, elementwise.py:117-128. -/
noncomputable def sigmoidLikeKernelFn : Kernel ℝ → Except Err (Kernel ℝ) := erfKernelFn 0.5 (1 / 2.4020563531719796) 0.5

/-- `Sign`, elementwise.py:530-544, inside the wrapper. -/
noncomputable def signCore (k : Kernel ℝ) : Except Err (Kernel ℝ) :=
  match getDiagonalOuterProds k.cov1 k.cov2 k.diagonalBatch k.diagonalSpatial (· * ·) with
  | .error e => .error e
  | .ok (_, prod12, _) =>
    match zipB (fun n p => 1 - reluAngle n p * 2 / Real.pi) k.nngp prod12 with
    | .error e => .error e
    | .ok nngp =>
      open Classical in
      .ok { k with
        cov1 := k.cov1.map fun v => if v = 0 then 0 else 1
        nngp := nngp
        cov2 := k.cov2.map (·.map fun v => if v = 0 then 0 else 1)
        ntk := k.ntk.map (·.map fun _ => 0) }

/-- `Sign`, elementwise.py:521-546. -/
noncomputable def signKernelFn : Kernel ℝ → Except Err (Kernel ℝ) := elementwise signCore

/-- `_double_factorial`, elementwise.py:1384-1386: the product of `range(n, 0, -2)` (`1` for `n ≤ 0`). -/
def doubleFactorial : ℤ → ℕ
  | .ofNat n => n.doubleFactorial
  | .negSucc _ => 1

/-- `nngp_fn` of `Monomial`, elementwise.py:783-808, for the degrees `-1, …, 5`. -/
def monomialNngp (nngp prod : ℝ) : ℤ → Option ℝ
  | -1 => some 0
  | 0 => some 1
  | 1 => some nngp
  | 2 => some (2 * nngp ^ 2 + prod)
  | 3 => some (6 * nngp ^ 3 + 9 * nngp * prod)
  | 4 => some (3 * (8 * nngp ^ 4 + 3 * prod * (8 * nngp ^ 2 + prod)))
  | 5 => some (15 * nngp * (8 * nngp ^ 4 + 5 * prod * (8 * nngp ^ 2 + 3 * prod)))
  | _ => none

/-- `Monomial`, elementwise.py:770-833, for a degree between `0` and `5` (for which `nngp_fn` does not raise). -/
noncomputable def monomialDual (degree : ℕ) : DualFn ℝ where
  den := id
  op := (· * ·)
  nngp n prod := (monomialNngp n prod degree).getD 0
  dot n prod := degree ^ 2 * (monomialNngp n prod (degree - 1)).getD 0
  diag v := doubleFactorial (2 * degree - 1) * v ^ degree

/-- `Monomial`, elementwise.py:752-836.  The error for other degrees is raised when the layer is made (lines 763-765);
here it is raised when the kernel function is called. -/
noncomputable def monomialKernelFn (degree : ℤ) (k : Kernel ℝ) : Except Err (Kernel ℝ) :=
  if degree ∈ [0, 1, 2, 3, 4, 5] then elementwise (monomialDual degree.toNat).kernelFn k else .error .notImplemented

/-- `f` of `RectifiedMonomial`, elementwise.py:868-884: `f0` and the repeated `diff`; `grad` is the derivative. -/
noncomputable def rectF : ℕ → ℝ → ℝ
  | 0 => fun θ => (Real.pi - θ) / Real.sin θ
  | n + 1 => fun θ => deriv (rectF n) θ / Real.sin θ

/-- `j` of `RectifiedMonomial`, elementwise.py:865-886. -/
noncomputable def rectJ (degree : ℕ) (nngp sqrtProd : ℝ) : ℝ :=
  let θ := Real.arccos (nngp / sqrtProd)
  (-1) ^ degree * Real.sin θ ^ (2 * degree + 1) * rectF degree θ

/-- `RectifiedMonomial`, elementwise.py:855-918. -/
noncomputable def rectifiedMonomialDual (degree : ℕ) : DualFn ℝ where
  den := id
  op := (· * ·)
  nngp n prod := sqrtTol prod ^ degree / (2 * Real.pi) * rectJ degree n (sqrtTol prod)
  dot n prod := if degree = 0 then 0 else
    sqrtTol prod ^ degree / (2 * Real.pi) * deriv (fun n => rectJ degree n (sqrtTol prod)) n
  diag v := doubleFactorial (2 * degree - 1) * v ^ degree / 2

open Classical in
/-- The function of `RectifiedMonomial`, elementwise.py:852-853. -/
noncomputable def rectifiedMonomialFn (degree : ℕ) (x : ℝ) : ℝ := (if 0 ≤ x then 1 else 0) * x ^ degree

/-- `RectifiedMonomial`, elementwise.py:839-921.  The error for negative degrees is raised when the layer is made (lines
849-850); here it is raised when the kernel function is called. -/
noncomputable def rectifiedMonomialKernelFn (degree : ℤ) (k : Kernel ℝ) : Except Err (Kernel ℝ) :=
  if degree < 0 then .error .notImplemented else elementwise (rectifiedMonomialDual degree.toNat).kernelFn k

/-- `jnp.polyval(p, x)`: the highest coefficient first. -/
def polyval (p : List ℝ) (x : ℝ) : ℝ := p.foldl (fun acc c => acc * x + c) 0

/-- The function of `Polynomial`, elementwise.py:938-939. -/
def polynomialFn (coef : List ℝ) (x : ℝ) : ℝ := polyval coef.reverse x

/-- `coef_dict` of `Polynomial`, elementwise.py:950-954: keys and values. -/
noncomputable def polyDict (coef : List ℝ) (l : ℕ) : List (ℕ × ℝ) :=
  (List.range ((coef.length - 1 - l) / 2 + 1)).map fun i =>
    (2 * i + l, coef.getD (2 * i + l) 0 * (2 * i + l).factorial / (2 ^ i * i.factorial * Real.sqrt l.factorial))

/-- `coef_l` of `Polynomial`, elementwise.py:955-956. -/
noncomputable def polyCoef (coef : List ℝ) (l : ℕ) : List ℝ :=
  (List.range coef.length).map fun i => ((polyDict coef l).lookup i).getD 0

/-- `r` of `Polynomial`, elementwise.py:946-957, on one entry. -/
noncomputable def polyR (coef : List ℝ) (n : ℝ) (l : ℕ) : ℝ := polyval (polyCoef coef l).reverse (Real.sqrt n)

/-- `Polynomial`, elementwise.py:943-1016.  The outer products of `cov1`, `cov2` and of the `r(cov1, l)`, `r(cov2, l)` are
one outer product with values in `ℝ × List ℝ`; in the fully diagonal layout the entries of `rs11[l]` are `r(v, l) ** 2`. -/
noncomputable def polynomialDual (coef : List ℝ) : DualFn (ℝ × List ℝ) where
  den := id
  op x y := (x * y, (List.range coef.length).map fun l => polyR coef x l * polyR coef y l)
  nngp n pr := (List.range coef.length).foldl (fun acc l => acc + pr.2.getD l 0 * (n / sqrtTol pr.1) ^ l) 0
  dot n pr := (List.range' 1 (coef.length - 1)).foldl (fun acc l => acc + l * pr.2.getD l 0 * (n / sqrtTol pr.1) ^ (l - 1)) 0 /
    sqrtTol pr.1
  diag v := (List.range coef.length).foldl (fun acc l => acc + polyR coef v l * polyR coef v l) 0

/-- `Polynomial`, elementwise.py:924-1019. -/
noncomputable def polynomialKernelFn (coef : List ℝ) : Kernel ℝ → Except Err (Kernel ℝ) :=
  elementwise (polynomialDual coef).kernelFn

/-- `Gabor`, elementwise.py:144-189; the two outer products (of products and of sums) are one with values in `ℝ × ℝ`. -/
noncomputable def gaborDual : DualFn (ℝ × ℝ) where
  den := id
  op x y := (x * y, x + y)
  nngp n ps :=
    let diff := 4 * (ps.1 - n ^ 2)
    let denom := 2 * ps.2 + diff + 1
    let num := ps.2 + diff + 2 * n
    Real.exp (-num / (2 * denom)) * (Real.exp (2 * n / denom) - 1) / (2 * sqrtTol denom)
  dot n ps :=
    let diff := 4 * (ps.1 - n ^ 2)
    let denom := 2 * ps.2 + diff + 1
    let num := ps.2 + diff + 2 * n
    let sharedTerm := 1 + 2 * ps.2 + 4 * (n ^ 2 + ps.1)
    let diffTerm := 4 * n * (diff + 3 * ps.2 + 2)
    let lhs := sharedTerm - diffTerm
    let rhs := sharedTerm + diffTerm
    Real.exp (-num / (2 * denom)) * (lhs + Real.exp (2 * n / denom) * rhs) / denom ^ (5 / 2 : ℝ) / 2
  diag v := (1 - Real.exp (-2 * v / (1 + 4 * v))) / (2 * sqrtTol (1 + 4 * v))

/-- The function of `Gabor`, elementwise.py:141-142. -/
noncomputable def gaborFn (x : ℝ) : ℝ := Real.exp (-x ^ 2) * Real.sin x

/-- `Gabor`, elementwise.py:131-192. -/
noncomputable def gaborKernelFn : Kernel ℝ → Except Err (Kernel ℝ) := elementwise gaborDual.kernelFn

/-- `Gelu`, elementwise.py:212-269; the two outer products (of the `cov + 1` and of the `cov`) are one with values in
`ℝ × ℝ`: `(prod_plus_1, prod)`. -/
noncomputable def geluDual : DualFn (ℝ × ℝ) where
  den := id
  op x y := ((x + 1) * (y + 1), x * y)
  nngp n pp :=
    let deltaSq := pp.1 - n ^ 2
    let delta := sqrtTol deltaSq
    ((n ^ 2 + pp.2 * deltaSq) / (pp.1 * delta) + n * arctan2 n delta) / (2 * Real.pi) + 0.25 * n
  dot n pp :=
    let deltaSq := pp.1 - n ^ 2
    let delta := sqrtTol deltaSq
    (1 / deltaSq + (1 - pp.2) / pp.1 + 1) * (n / delta / (2 * Real.pi)) + (0.25 + arctan2 n delta / (2 * Real.pi))
  diag v := ((v / ((v + 1) * Real.sqrt (1 + 2 * v)) + arctan2 v (Real.sqrt (1 + 2 * v)) / 2) / Real.pi + 0.25) * v

/-- The function of `Gelu`, elementwise.py:209-210, with `approximate=False`: `jax.nn.gelu` is `x Φ(x)`. -/
noncomputable def geluFn (x : ℝ) : ℝ := x * (1 / 2 * (1 + erf (x / Real.sqrt 2)))

/-- `Gelu`, elementwise.py:195-272. -/
noncomputable def geluKernelFn : Kernel ℝ → Except Err (Kernel ℝ) := elementwise geluDual.kernelFn

open Classical in
/-- `ExpNormalized`, elementwise.py:674-700.  The factors `_sqrt(prod, tol)` are formed from the entries of `prod`. -/
noncomputable def expNormalizedDual (gamma shift : ℝ) (doClip : Bool) : DualFn ℝ where
  den := id
  op := (· * ·)
  nngp n prod :=
    let s := sqrtTol prod 1e-30
    let c := if doClip then max (-1) (min (n / s) 1) else n / s
    s * Real.exp (gamma * (c + shift))
  dot n prod :=
    let s := sqrtTol prod 1e-30
    let c := if doClip then max (-1) (min (n / s) 1) else n / s
    gamma * Real.exp (gamma * (c + shift))
  diag v :=
    let s := sqrtTol (v * v) 1e-30
    let c := if doClip then max (-1) (min (v / s) 1) else v / s
    s * Real.exp (gamma * (c + shift))

/-- `ExpNormalized`, elementwise.py:650-702. -/
noncomputable def expNormalizedKernelFn (gamma shift : ℝ) (doClip : Bool) : Kernel ℝ → Except Err (Kernel ℝ) :=
  elementwise (expNormalizedDual gamma shift doClip).kernelFn

/-- `Hermite`, elementwise.py:729-747: no outer product is used. -/
noncomputable def hermiteDual (degree : ℕ) : DualFn Unit where
  den := id
  op _ _ := ()
  nngp n _ := n ^ degree
  dot n _ := if degree = 0 then 0 else degree * n ^ (degree - 1)
  diag v := v ^ degree

/-- `Hermite`, elementwise.py:705-749.  The error for negative degrees is raised when the layer is made (lines 720-721);
here it is raised when the kernel function is called. -/
noncomputable def hermiteKernelFn (degree : ℤ) (k : Kernel ℝ) : Except Err (Kernel ℝ) :=
  if degree < 0 then .error .notImplemented else elementwise (hermiteDual degree.toNat).kernelFn k

/-- The values of the polynomials of `numpy.polynomial.hermite_e` by their recurrence: `herme2poly([0] * n + [1])` (elementwise.py:723) is
the list of coefficients of this polynomial, `jnp.polyval` its value. -/
def hermeVal : ℕ → ℝ → ℝ
  | 0, _ => 1
  | 1, x => x
  | n + 2, x => x * hermeVal (n + 1) x - (n + 1) * hermeVal n x

/-- The function of `Hermite`, elementwise.py:723-727. -/
noncomputable def hermiteFn (degree : ℕ) (x : ℝ) : ℝ := hermeVal degree x / Real.sqrt degree.factorial

/-- `kernel_fn` of `Elementwise`, elementwise.py:1099-1125: `nngp_fn(cov12, var1, var2)` and `d_nngp_fn` are functions of the
covariance and the two variances; `_vmap_2d` (lines 1313-1377) applies them to corresponding entries, which is an outer product
of pairs; the variances of the fully diagonal layout are `nngp_fn(v, v, v)`.  Without `d_nngp_fn` it is the derivative of `nngp_fn`
in its first argument (lines 1097). -/
noncomputable def elementwiseDual (nngpFn : ℝ → ℝ → ℝ → ℝ) (dNngpFn : Option (ℝ → ℝ → ℝ → ℝ)) : DualFn (ℝ × ℝ) where
  den := id
  op x y := (x, y)
  nngp n vv := nngpFn n vv.1 vv.2
  dot n vv := match dNngpFn with
    | some d => d n vv.1 vv.2
    | none => deriv (fun n => nngpFn n vv.1 vv.2) n
  diag v := nngpFn v v v

/-- `Elementwise`, elementwise.py:1022-1129: without `nngp_fn` the kernel function raises (lines 1264-1265). -/
noncomputable def elementwiseKernelFn (nngpFn : Option (ℝ → ℝ → ℝ → ℝ)) (dNngpFn : Option (ℝ → ℝ → ℝ → ℝ)) (k : Kernel ℝ) :
    Except Err (Kernel ℝ) :=
  match nngpFn with
  | none => .error .notImplemented
  | some f => elementwise (elementwiseDual f dNngpFn).kernelFn k

/-- `ElementwiseNumerical`, elementwise.py:1183-1245, for the quadrature rule `rule`, the list of the pairs of points and
weights that `scipy.special.roots_hermite(deg)` returns; `q11`, `q22` of the code are the two components of the outer product. -/
noncomputable def numericalDual (fn df : ℝ → ℝ) (rule : List (ℝ × ℝ)) : DualFn (ℝ × ℝ) where
  den := id
  op x y := (x, y)
  nngp n q := integrate fn n q
  dot n q := integrate df n q
  diag v := (rule.map fun x => x.2 * fn (sqrtTol (2 * v) * x.1) ^ 2).sum / Real.sqrt Real.pi
where
  /-- `integrate`, elementwise.py:1206-1210. -/
  integrate (f : ℝ → ℝ) (n : ℝ) (q : ℝ × ℝ) : ℝ :=
    (rule.map fun x => (rule.map fun y => x.2 * y.2 * (f (sqrtTol (2 * q.1) * x.1) *
      f (n / sqrtTol (q.1 / 2) 1e-30 * x.1 + sqrtTol (2 * (q.2 - n ^ 2 / q.1)) * y.1))).sum).sum / Real.pi

/-- `ElementwiseNumerical`, elementwise.py:1132-1247. -/
noncomputable def numericalKernelFn (fn df : ℝ → ℝ) (rule : List (ℝ × ℝ)) : Kernel ℝ → Except Err (Kernel ℝ) :=
  elementwise (numericalDual fn df rule).kernelFn

end NT
