import Verif.Model.Axes
import Verif.Model.Dot
import Verif.Model.Utils
import Mathlib.Algebra.Field.Defs
import Mathlib.Data.Finset.Sort

/-!
# Model of the contraction code of the empirical kernels (empirical.py)

Outputs `f(x, params)` and their Jacobians are arrays.  Trees of outputs are not modelled: the code maps
the functions below over the leaves of the output.
-/

namespace NT.Emp

open NT.Arr NT.Utils

variable {α : Type}

/-- `canonicalize_axis` as a list, utils.py:306-321.  The code returns `list(set(...))`; the model lists the
set in increasing order, which is the iteration order of CPython for sets of integers below 8 (and the
order the docstring promises for all). -/
def axesList (axis : List Int) (n : ℕ) : Except Err (List ℕ) := do
  let s ← canonicalizeAxis axis n
  return s.sort

/-- `size_at(x, axes)`, utils.py:492-502, for a list of possibly negative axes as given by the user. -/
def sizeAtRaw (shape : List ℕ) (axis : List Int) : Except Err ℕ := do
  let l ← axis.mapM (arangeAt shape.length)
  return sizeAtAxes shape l

/-- `_get_res_batch_dims`, empirical.py:2344-2353.  Natural number subtraction: for increasing disjoint lists
the result is never negative. -/
def resBatchDims (contracting batch : List ℕ) : List ℕ :=
  batch.zipIdx.map fun bi => 2 * bi.1 - bi.2 - 2 * (contracting.filter (· < bi.1)).length

/-- `_dot_general`, empirical.py:2356-2400.  `lax.dot_general` raises a `TypeError` if an axis is both a
batch and a contracting axis. -/
def dot [Zero α] [Add α] [Mul α] (lhs rhs : Arr α) (contracting batch : List Int) : Except Err (Arr α) := do
  if lhs.ndim ≠ rhs.ndim then throw .valueError
  let c ← axesList contracting lhs.ndim
  let b ← axesList batch lhs.ndim
  if c.any (b.contains ·) then throw .typeError
  let prod ← dotGeneral lhs rhs c c b b
  let prod ← zipAxes prod b.length
  return prod.moveaxis (List.range b.length) (resBatchDims c b)

/-- Division of an array by a scalar. -/
def divBy [Div α] (a : Arr α) (c : α) : Arr α := ⟨a.shape, fun i => a.get i / c⟩

/-- Sum of two arrays of equal shapes, the second one of which is the first operand's shape. -/
def addSame [Add α] (a b : Arr α) : Arr α := ⟨a.shape, fun i => a.get i + b.get i⟩

/-- `contract` of `empirical_nngp_fn`, empirical.py:347-350. -/
def nngp [Field α] (out1 out2 : Arr α) (trace diagonal : List Int) : Except Err (Arr α) := do
  let d ← dot out1 out2 trace diagonal
  let s ← sizeAtRaw out1.shape trace
  return divBy d (s : α)

/-- `contract` of `sum_and_contract`, empirical.py:558-561, for an output of rank `n` and one leaf of the
parameters. -/
def contractLeaf [Field α] (n size : ℕ) (traceC diagC : List ℕ) (x y : Arr α) : Except Err (Arr α) := do
  let d ← dot x y ((traceC ++ List.range' n (x.ndim - n)).map Int.ofNat) (diagC.map Int.ofNat)
  return divBy d (size : α)

/-- `sum_and_contract`, empirical.py:551-563: `j1`, `j2` are the Jacobians of the two outputs with respect to the leaves of
the parameters.  `tree_reduce` without an initial value raises a `TypeError` for no leaves. -/
def jacobianContraction [Field α] (fx : List ℕ) (trace diagonal : List Int) (j1 j2 : List (Arr α)) :
    Except Err (Arr α) := do
  let size ← sizeAtRaw fx trace
  let d ← axesList diagonal fx.length
  let t ← axesList trace fx.length
  match ← (j1.zip j2).mapM fun xy => contractLeaf fx.length size t d xy.1 xy.2 with
  | [] => throw .typeError
  | l :: ls => return ls.foldl addSame l

/-- `jnp.diagonal(a, axis1, axis2)` for `axis1 < axis2`. -/
def diagonalAt (a : Arr α) (ax1 ax2 : ℕ) : Arr α :=
  ⟨(a.shape.eraseIdx ax2).eraseIdx ax1 ++ [min (a.shape.getD ax1 0) (a.shape.getD ax2 0)],
    fun i => a.get ((i.dropLast.insertIdx ax1 (i.getLastD 0)).insertIdx ax2 (i.getLastD 0))⟩

/-- `jnp.trace(a, axis1, axis2)` for `axis1 < axis2`. -/
def traceAt [Zero α] [Add α] (a : Arr α) (ax1 ax2 : ℕ) : Arr α :=
  ⟨(a.shape.eraseIdx ax2).eraseIdx ax1,
    fun i => ((List.range (min (a.shape.getD ax1 0) (a.shape.getD ax2 0))).map fun t =>
      a.get ((i.insertIdx ax1 t).insertIdx ax2 t)).sum⟩

/-- The loop of traces, empirical.py:1423-1424. -/
def traceLoop [Zero α] [Add α] (n : ℕ) (a : Arr α) (t : List ℕ) : Arr α :=
  t.reverse.zipIdx.foldl (fun acc ci => traceAt acc ci.1 (n + ci.1 - ci.2)) a

/-- The loop of diagonals, empirical.py:1426-1433. -/
def diagonalLoop (n : ℕ) (a : Arr α) (t d : List ℕ) : Arr α :=
  d.zipIdx.foldl (fun acc di => diagonalAt acc (di.1 - di.2 - (t.filter (· < di.1)).length)
    (n + di.1 - 2 * di.2 - t.length - (t.filter (· < di.1)).length)) a

/-- `_trace_and_diagonal`, empirical.py:1388-1439.  An axis that is both traced and diagonal makes `jnp.diagonal` act on other axes or
raise; the model raises a `ValueError`. -/
def traceAndDiagonal [Field α] (ntk : Arr α) (trace diagonal : List Int) : Except Err (Arr α) := do
  if ntk.ndim % 2 = 1 then throw .valueError
  let n := ntk.ndim / 2
  let t ← axesList trace n
  let d ← axesList diagonal n
  if t.any (d.contains ·) then throw .valueError
  let size := sizeAtAxes (ntk.shape.take n) t
  let a := diagonalLoop n (traceLoop n ntk t) t d
  let a ← zipAxes a 0 (some (a.ndim - d.length))
  let a := a.moveaxis (List.range' (a.ndim - d.length) d.length) (resBatchDims t d)
  return divBy a (size : α)

end NT.Emp
