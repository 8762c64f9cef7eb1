import Verif.Model.Einsum
import Verif.Model.Kernel
import Verif.Model.Utils
import Verif.Model.Axes

/-!
# `Kernel.dot_general`

`neural_tangents/_src/utils/kernel.py:287-424`.
-/

namespace NT.KernelDot
open NT Arr Einsum
variable {α : Type}

/-- What `dot_general` needs to know: `n_input`, the batch and channel axis, `diagonal_spatial`, `n_other` and the dimension numbers,
kernel.py:306-324, the latter reduced modulo the numbers of axes (`utils.mod`). -/
structure Dims where
  n : ℕ
  ba : ℕ
  ca : ℕ
  ds : Bool
  no : ℕ
  inputC : List ℕ
  inputB : List ℕ
  otherC : List ℕ
  otherB : List ℕ
  isLhs : Bool

namespace Dims
variable (D : Dims)

/-- `other_dims`, kernel.py:326. -/
def otherDims : List ℕ := D.otherB ++ D.otherC

/-- `input_dims`, kernel.py:327. -/
def inputDims : List ℕ := D.inputB ++ D.inputC

/-- `to_kernel_dim`, kernel.py:329-339, for `i ≠ channel_axis` (`ValueError` otherwise, see `Kernel.dotGeneral`). -/
def kdim (i bn : ℕ) (isLeft : Bool) : ℤ :=
  if i = D.ba then (if isLeft || bn == 1 then 0 else 1)
  else
    let i := i - ((if D.ba < i then 1 else 0) + (if D.ca < i then 1 else 0))
    ((bn + (if D.ds then 1 else 2) * i + (if !isLeft && !D.ds then 1 else 0) : ℕ) : ℤ)

/-- `get_other_dims`, kernel.py:341-346. -/
def otherLabels (bn : ℕ) (isLeft : Bool) : List ℤ :=
  (D.inputDims.zip D.otherDims).foldl (fun dims p => dims.set p.2 (D.kdim p.1 bn isLeft))
    ((List.range D.no).map fun i : ℕ => -(i : ℤ) - 1 - (if isLeft || D.ds then 0 else (D.no : ℤ)))

/-- `input_non_c_dims`, kernel.py:349-357. -/
def nonC : List ℕ :=
  let l := D.inputB ++ (List.range D.n).filter fun i => i ∉ D.inputC ++ D.inputB ++ [D.ca]
  if D.ba ∈ l then D.ba :: l.erase D.ba else l

/-- `get_mat_non_c_dims`, kernel.py:348-364. -/
def matNonC (bn : ℕ) : List ℤ :=
  D.nonC.flatMap fun i =>
    let left := D.kdim i bn true
    let right := D.kdim i bn false
    if left = right then [left] else [left, right]

/-- `get_other_non_c_dims`, kernel.py:366-372. -/
def otherNonC : List ℤ :=
  let l := (List.range D.no).filter fun i => i ∉ D.otherDims
  if D.ds then l.map fun i : ℕ => -(i : ℤ) - 1
  else zipFlat (l.map fun i : ℕ => -(i : ℤ) - 1) (l.map fun i : ℕ => -(i : ℤ) - 1 - (D.no : ℤ))

/-- `get_out_dims`, kernel.py:374-383. -/
def outLabels (bn : ℕ) : List ℤ :=
  let m := D.matNonC bn
  let nbSpatial := D.inputB.length - (if D.ba ∈ D.inputB then 1 else 0)
  let nb := if !D.isLhs then m.length
    else (if D.ba ∈ D.inputC then 0 else bn) + (if D.ds then 1 else 2) * nbSpatial
  m.take nb ++ D.otherNonC ++ m.drop nb

/-- `dot`, kernel.py:385-407. -/
def dot [Zero α] [One α] [Add α] [Mul α] (rev : Bool) (bn : ℕ) (mat : Arr α) (other1 other2 : Option (Arr α)) : Except Err (Arr α) :=
  if mat.ndim = 0 ∨ (other1.isNone ∧ other2.isNone) then .ok mat
  else
    let matLabels := (List.range mat.ndim).map fun i : ℕ => (i : ℤ)
    let matLabels := if rev then reverseZippedList matLabels bn else matLabels
    einsum ((match other1 with | none => [] | some o => [(o, D.otherLabels bn true)]) ++ [(mat, matLabels)] ++
      (match other2 with | none => [] | some o => [(o, D.otherLabels bn false)])) (D.outLabels bn)

/-- `dot` of a matrix that may be `None`. -/
def dot? [Zero α] [One α] [Add α] [Mul α] (rev : Bool) (bn : ℕ) (mat : Option (Arr α)) (other1 other2 : Option (Arr α)) :
    Except Err (Option (Arr α)) :=
  match mat with
  | none => .ok none
  | some mat => (D.dot rev bn mat other1 other2).map some

end Dims

/-- `Kernel.dot_general`, kernel.py:287-424; the dimension numbers are those of the inputs and of the other factor (kernel.py:306-309 picks
them apart according to `is_lhs`).  The `ValueError` of `to_kernel_dim` is raised by the first `dot`, here before it. -/
def dotGeneral [Zero α] [One α] [Add α] [Mul α] (k : Kernel α) (other1 other2 : Option (Arr α)) (isLhs : Bool)
    (inputC otherC inputB otherB : List ℤ) : Except Err (Kernel α) :=
  let go (n_other : ℕ) : Except Err (Kernel α) := do
    let n := k.shape1.length
    let D : Dims := {
      n := n, ba := k.batchAxis, ca := k.channelAxis, ds := k.diagonalSpatial, no := n_other
      inputC := inputC.map fun a => (a % (n : ℤ)).toNat
      inputB := inputB.map fun a => (a % (n : ℤ)).toNat
      otherC := otherC.map fun a => (a % (n_other : ℤ)).toNat
      otherB := otherB.map fun a => (a % (n_other : ℤ)).toNat
      isLhs := isLhs }
    if D.ca ∈ D.inputDims then .error .valueError
    else do
      let bn := if k.diagonalBatch then 1 else 2
      let cov1 ← D.dot k.isReversed bn k.cov1 other1 other1
      let cov2 ← D.dot? k.isReversed bn k.cov2 other2 other2
      let nngp ← D.dot k.isReversed 2 k.nngp other1 other2
      let ntk ← D.dot? k.isReversed 2 k.ntk other1 other2
      let lhsNdim := if isLhs then some n_other else none
      return { k with
        cov1 := cov1, nngp := nngp, cov2 := cov2, ntk := ntk, isReversed := false
        batchAxis := Utils.axisAfterDot k.batchAxis D.inputC D.inputB lhsNdim
        channelAxis := Utils.axisAfterDot k.channelAxis D.inputC D.inputB lhsNdim }
  match other1, other2 with
  | none, none => .ok k
  | some o1, some o2 => if o1.ndim ≠ o2.ndim then .error .notImplemented else go o1.ndim
  | some o1, none => go o1.ndim
  | none, some o2 => go o2.ndim

end NT.KernelDot
