import Verif.Model.Lax
import Verif.Model.Structure
import Verif.Model.Utils

/-!
# Structure rules and Jacobian rules of primitives

`neural_tangents/_src/utils/rules.py`, lines 151-209 and 276-1125, and their use in `empirical.py`, lines 1906-1945 and 2053-2125.  A rule
receives the shape of the input `idx` (the code passes abstract values: the input is a variable), the array `other` that is the
second operand of `mul`, `div` and `dot_general`, and the shape of the output.
-/

namespace NT.Rules
open NT Arr
variable {α : Type}

/-! ## Structure rules -/

/-- `_eye_s`, rules.py:1008-1032 (`neg`, `zeros_like`, the identity). -/
def eyeS (idx : ℕ) (inp out : List ℕ) : Structure where
  outTrace := List.range out.length
  inTrace := List.range inp.length
  inTraceIdxs := [idx]

/-- `_transpose_s`, rules.py:1074-1089; `tuple.index` raises a `ValueError` for an axis that is not there. -/
def transposeS (idx : ℕ) (perm out : List ℕ) : Except Err Structure :=
  if ∀ i, i < out.length → i ∈ perm then
    .ok { outTrace := (List.range out.length).map fun i => perm.idxOf i, inTrace := List.range out.length, inTraceIdxs := [idx] }
  else .error .valueError

/-- `_squeeze_s`, rules.py:1110-1125. -/
def squeezeS (idx : ℕ) (dims inp out : List ℕ) : Structure where
  outTrace := List.range out.length
  inTrace := freeAxes inp.length dims
  inTraceIdxs := [idx]

/-- `_reduce_sum_s`, rules.py:855-871. -/
def reduceSumS (idx : ℕ) (axes inp out : List ℕ) : Structure where
  outTrace := List.range out.length
  inTrace := freeAxes inp.length axes
  inTraceIdxs := [idx]

/-- `_broadcast_in_dim_s`, rules.py:799-820. -/
def broadcastS (idx : ℕ) (dims inp out : List ℕ) : Structure where
  outTrace := dims
  inTrace := List.range inp.length
  inTraceIdxs := [idx]
  outBroadcast := freeAxes out.length dims

/-- `_reshape_s`, rules.py:957-974. -/
def reshapeS (idx : ℕ) (dims : Option (List ℕ)) (inp : List ℕ) : Except Err Structure :=
  match dims with
  | none => .ok { outTrace := List.range inp.length, inTrace := List.range inp.length, inTraceIdxs := [idx] }
  | some d =>
    if ∀ i, i < inp.length → i ∈ d then
      .ok { outTrace := List.range inp.length, inTrace := (List.range inp.length).map fun i => d.idxOf i, inTraceIdxs := [idx] }
    else .error .valueError

/-- `_rev_s`, rules.py:766-782. -/
def revS (idx : ℕ) (dims inp : List ℕ) : Structure where
  outTrace := freeAxes inp.length dims
  inTrace := freeAxes inp.length dims
  inTraceIdxs := [idx]

/-- `_pad_s`, rules.py:916-933. -/
def padS (idx : ℕ) (cfg : List (ℤ × ℤ × ℕ)) (out : List ℕ) : Structure where
  outTrace := (List.range out.length).filter fun i => cfg.getD i (0, 0, 0) = (0, 0, 0)
  inTrace := (List.range out.length).filter fun i => cfg.getD i (0, 0, 0) = (0, 0, 0)
  inTraceIdxs := [idx]

/-- `_concatenate_s`, rules.py:714-729; `n` is the number of operands. -/
def concatS (n dim : ℕ) (out : List ℕ) : Structure where
  outTrace := freeAxes out.length [dim]
  inTrace := freeAxes out.length [dim]
  inTraceIdxs := List.range n

/-- The loop of `_add_s`, rules.py:562-577: the traced and the broadcast axes. -/
def addLoop : ℕ → List ℕ → List ℕ → Except Err (List ℕ × List ℕ)
  | i, m :: inp, n :: other => do
    let (t, b) ← addLoop (i + 1) inp other
    if n = m ∨ n = 1 then .ok (i :: t, b)
    else if m = 1 then .ok (t, i :: b)
    else .error .valueError
  | _, _, _ => .ok ([], [])

/-- `_add_s`, rules.py:545-593 (`add`, `add_any`, `sub`). -/
def addS (idx : ℕ) (inp other : List ℕ) : Except Err Structure := do
  let (t, b) ←
    if other.length = 0 then .ok (List.range inp.length, [])
    else if inp.length = 0 then .ok ([], List.range other.length)
    else if other.length = inp.length then addLoop 0 inp other
    else .error .valueError
  .ok { outTrace := t, inTrace := t, inTraceIdxs := [0, 1], outBroadcast := b, outBroadcastIdxs := [if idx = 0 then 1 else 0] }

/-- The loop of `_mul_s`, rules.py:636-655: the traced and the diagonal axes.  Indexing `other.shape[i]` beyond its rank raises. -/
def mulLoop : ℕ → List ℕ → List ℕ → Except Err (List ℕ × List ℕ)
  | i, m :: inp, n :: other => do
    let (t, d) ← mulLoop (i + 1) inp other
    if n = 1 then .ok (i :: t, d)
    else if n = m then .ok (t, i :: d)
    else if m = 1 then .ok (t, d)
    else .error .valueError
  | _, [], _ => .ok ([], [])
  | _, _ :: _, [] => .error .indexError

/-- `_mul_s`, rules.py:619-664 (`mul`, `div`). -/
def mulS (idx : ℕ) (inp other : List ℕ) : Except Err Structure := do
  let (t, d) ← if other.length = 0 then .ok (List.range inp.length, []) else mulLoop 0 inp other
  .ok { outTrace := t, inTrace := t, inTraceIdxs := [idx], outDiagonal := d, inDiagonal := d.map fun i => [some i, some i] }

/-- `_dot_general_s`, rules.py:288-315.  `self` are the axes of the operand number `idx`, `other` those of the other operand. -/
def dotS (idx : ℕ) (selfC selfB otherB : List ℕ) (selfNdim otherNdim : ℕ) : Structure :=
  let inTrace := freeAxes selfNdim (selfC ++ selfB)
  { inTrace := inTrace
    outTrace := inTrace.map fun i => Utils.axisAfterDot i selfC selfB (if idx = 0 then none else some otherNdim)
    inTraceIdxs := [idx]
    inDiagonal := (selfB.zip otherB).map fun (s, o) => if idx = 0 then [some s, some o] else [some o, some s]
    outDiagonal := List.range selfB.length }

/-- The checks of `get_structure`, rules.py:189-207, given the structure of the rule; `out` is the shape of the output (of the input, for
`reshape`: rules.py:186-187), `shapes` are those of the operands. -/
def checked (s : Structure) (idx : ℕ) (shapes : List (List ℕ)) (out : List ℕ) : Except Err Structure :=
  if s.inTrace.length ≠ s.outTrace.length then .error .assertion
  else if (∃ a ∈ s.outTrace, out.length ≤ a) ∨ ∃ a ∈ s.inTrace, (shapes.getD idx []).length ≤ a then .error .indexError
  else if (gather s.inTrace (shapes.getD idx [])).prod ≠ (gather s.outTrace out).prod then .error .assertion
  else if s.outDiagonal.length ≠ s.inDiagonal.length then .error .assertion
  else if ∀ p ∈ s.outDiagonal.zip s.inDiagonal, p.2.length = shapes.length ∧ p.2.getD idx none ≠ none ∧
      ∀ ix, ix < shapes.length → ∀ i, p.2.getD ix none = some i → (shapes.getD ix []).getD i 0 = out.getD p.1 0 then .ok s
  else .error .assertion

/-! ## Jacobian rules -/

variable [Field α]

/-- `_eye_like`, rules.py:276-281. -/
def eyeLike (out inp : List ℕ) : Except Err (Arr α) :=
  if out.prod = inp.prod then (eye out.prod).reshapeE (out ++ inp) else .error .assertion

/-- `_eye_j`, rules.py:1034-1041 (the identity, `squeeze`). -/
def eyeJ (inp : List ℕ) (_ : Arr α) (out : List ℕ) : Except Err (Arr α) := eyeLike out inp

/-- `_neg_j`, rules.py:1049-1056. -/
def negJ (inp : List ℕ) (_ : Arr α) (out : List ℕ) : Except Err (Arr α) := do
  let j : Arr α ← eyeLike out inp
  .ok (j.map fun v => -v)

/-- `_zeros_like_j`, rules.py:1062-1068. -/
def zerosJ (inp : List ℕ) (_ : Arr α) (out : List ℕ) : Except Err (Arr α) := .ok ⟨out ++ inp, fun _ => 0⟩

/-- `_transpose_j`, rules.py:1091-1104. -/
def transposeJ (perm : List ℕ) (inp : List ℕ) (_ : Arr α) (out : List ℕ) : Except Err (Arr α) := do
  let j : Arr α ← eyeLike out inp
  let j ← j.reshapeE (inp ++ inp)
  let j := j.transpose (perm ++ (List.range out.length).map (· + out.length))
  j.reshapeE (out ++ inp)

/-- `_reshape_j`, rules.py:976-990. -/
def reshapeJ (dims : Option (List ℕ)) (inp : List ℕ) (_ : Arr α) (_ : List ℕ) : Except Err (Arr α) := do
  let j : Arr α ← eyeLike inp inp
  let j ← j.reshapeE (inp ++ inp)
  let j := match dims with
    | none => j
    | some d => j.transpose (d ++ (List.range inp.length).map (· + inp.length))
  j.reshapeE (inp ++ inp)

/-- `_rev_j`, rules.py:784-793. -/
def revJ (dims : List ℕ) (inp : List ℕ) (_ : Arr α) (out : List ℕ) : Except Err (Arr α) := do
  let j : Arr α ← eyeLike out inp
  .ok (j.rev dims)

/-- `_broadcast_in_dim_j`, rules.py:822-838. -/
def broadcastJ (dims : List ℕ) (inp : List ℕ) (_ : Arr α) (out : List ℕ) : Except Err (Arr α) := do
  let j : Arr α ← (eye inp.prod).reshapeE (inp ++ inp)
  j.broadcastInDim (out ++ inp) (dims ++ (List.range inp.length).map (· + out.length))

/-- `_reduce_sum_j`, rules.py:873-885. -/
def reduceSumJ (axes : List ℕ) (inp : List ℕ) (_ : Arr α) (out : List ℕ) : Except Err (Arr α) := do
  let j : Arr α ← (eye out.prod).reshapeE (out ++ out)
  let j := j.expandDims (axes.map (· + out.length))
  j.broadcastTo (out ++ inp)

/-- `_pad_j`, rules.py:935-951, for the padded operand. -/
def padJ (cfg : List (ℤ × ℤ × ℕ)) (inp : List ℕ) (_ : Arr α) (_ : List ℕ) : Except Err (Arr α) := do
  let j : Arr α ← (eye inp.prod).reshapeE (inp ++ inp)
  .ok (j.padLax 0 (cfg ++ List.replicate inp.length (0, 0, 0)))

/-- `_concatenate_j`, rules.py:731-757; `sizes` are the sizes of the operands at the axis `dim`. -/
def concatJ (sizes : List ℕ) (idx dim : ℕ) (inp : List ℕ) (_ : Arr α) (out : List ℕ) : Except Err (Arr α) := do
  let block : ℕ → Except Err (Arr α) := fun i =>
    let s := inp.set dim (sizes.getD i 0)
    if i = idx then (eye inp.prod).reshapeE (s ++ inp) else (⟨[s.prod, inp.prod], fun _ => 0⟩ : Arr α).reshapeE (s ++ inp)
  let js ← (List.range sizes.length).mapM block
  let j ← concatE js dim
  j.reshapeE (out ++ inp)

/-- `_add_j`, rules.py:595-607. -/
def addJ (isSub : Bool) (idx : ℕ) (inp : List ℕ) (_ : Arr α) (out : List ℕ) : Except Err (Arr α) := do
  let j : Arr α ← (eye inp.prod).reshapeE (inp ++ inp)
  let j ← j.broadcastTo (out ++ inp)
  .ok (if isSub ∧ idx = 1 then j.map fun v => -v else j)

/-- `_mul_j`, rules.py:666-702.  A division by zero gives `inf` in floating point. -/
def mulJ (isDiv : Bool) (idx : ℕ) (inp : List ℕ) (other : Arr α) (out : List ℕ) : Except Err (Arr α) := do
  if isDiv ∧ idx ≠ 0 then .error .valueError
  else if inp.prod = 0 then .ok ⟨out ++ inp, fun _ => 0⟩
  else
    let other := if isDiv then other.map fun v => 1 / v else other
    if inp.length = 0 then .ok other
    else
      let other ← if other.ndim = 0 then other.broadcastTo inp else .ok other
      if other.ndim = inp.length ∧ inp.length = out.length then
        let j ← other.broadcastTo out
        let j ← j.reshapeE [out.prod]
        let j ← j.diagMat.reshapeE (out ++ out)
        .ok (j.sumKeep (((List.range inp.length).filter fun i => inp.getD i 0 = 1).map (· + out.length)))
      else .error .assertion

/-- `_dot_general_j`, rules.py:317-384. -/
def dotJ (idx : ℕ) (selfC selfB otherC otherB : List ℕ) (inp : List ℕ) (other : Arr α) (out : List ℕ) : Except Err (Arr α) := do
  let n := inp.length
  let free := freeAxes n (selfC ++ selfB)
  let notC := freeAxes n selfC
  let m := other.ndim
  let contracted := ((selfC.zip otherC).mergeSort pairLe).map (·.2)
  let j := other.moveaxis (otherB ++ contracted) (List.range otherB.length ++ (List.range otherC.length).map (· + (m - otherC.length)))
  let freeOut := free.map fun i => Utils.axisAfterDot i selfC selfB (if idx = 1 then some m else none)
  let j := j.expandDims (freeOut ++ notC.map (· + out.length))
  let shape := (List.range j.ndim).map fun x =>
    if x ∈ freeOut then inp.getD (free.getD (freeOut.idxOf x) 0) 0
    else if x ∈ free.map (· + out.length) then inp.getD (x - out.length) 0 else 1
  let e ← (eyeBool (gather free inp).prod).reshapeE shape
  let j := whereMask e j
  (selfB.zip otherB).zipIdx.foldlM (fun j ((sb, ob), b) => do
    let size := other.shape.getD ob 0
    let e ← (eyeBool size).reshapeE ((List.range j.ndim).map fun x => if x = b ∨ x = out.length + sb then size else 1)
    .ok (whereMask e j)) j

/-! ## The compact Jacobian -/

omit [Field α]

/-- `_trim_axis`, empirical.py:2110-2125, on shapes. -/
def trim (axes S : List ℕ) : List ℕ := S.mapIdx fun x n => if x ∈ axes then 1 else n

/-- The axis of the operand number `i` in each entry of `in_diagonal`. -/
def diagAxes (s : Structure) (i : ℕ) : List ℕ := s.inDiagonal.filterMap fun l => l.getD i none

/-- The shape of the input in `_trim_invals`, empirical.py:2064-2089. -/
def trimIn (s : Structure) (idx : ℕ) (inp : List ℕ) : List ℕ :=
  trim (s.inTrace ++ (if idx = s.inBroadcastIdx then s.inBroadcast else []) ++ diagAxes s idx) inp

/-- `_trim_cotangents`, empirical.py:2053-2061. -/
def trimOut (s : Structure) (out : List ℕ) : List ℕ := trim (s.outTrace ++ s.outBroadcast ++ s.outDiagonal) out

/-- `_vmap`, empirical.py:1721-1736, of a function of the array `x`: the slices of `x` along `axis`, kept as axes of size one, give arrays with an
axis of size one at `outAxis`, which are put together along it.  The function is traced once, whatever the size of the axis. -/
def vmapKeep (axis outAxis : ℕ) (f : Arr α → Except Err (Arr α)) (x : Arr α) : Except Err (Arr α) := do
  let j ← f (x.sliceKeep axis 0)
  .ok ⟨j.shape.set outAxis (x.shape.getD axis 0), fun k =>
    match f (x.sliceKeep axis (k.getD outAxis 0)) with
    | .ok y => y.get (k.set outAxis 0)
    | .error _ => j.get (k.set outAxis 0)⟩

/-- The compact Jacobian, empirical.py:1906-1945: the Jacobian rule on trimmed shapes, mapped over the diagonal axes of the other
operand (`vmap` raises if there is none). -/
def compact (rule : List ℕ → Arr α → List ℕ → Except Err (Arr α)) (s : Structure) (idx : ℕ) (inp : List ℕ) (other : Arr α) (out : List ℕ) :
    Except Err (Arr α) :=
  (s.inDiagonal.zip s.outDiagonal).foldl (fun f p => match p.1.getD (if idx = 0 then 1 else 0) none with
    | some axis => vmapKeep axis p.2 f
    | none => fun _ => .error .valueError) (fun x => rule (trimIn s idx inp) x (trimOut s out)) other

end NT.Rules
