import Mathlib.Data.Finset.Dedup
import Mathlib.Data.Finset.Image
import Mathlib.Data.Real.Basic
import Verif.Model.Arr

/-!
# Small utilities of `neural_tangents/_src/utils/utils.py`

Axis canonicalisation, output selection, key handling, index canonicalisation.
-/

namespace NT.Utils
open NT

/-! ## Axes -/

/-- `mod`, utils.py:298-303.  `i % n` is Python's modulo (non-negative for positive `n`).  An integer
`axis` is the one-element list; `n` is what `_get_ndim` (utils.py:285-295) returns. -/
def mod (axis : List Int) (n : Nat) : List Int :=
  axis.map fun i => if n > 0 then i % (n : Int) else i

/-- `np.arange(n)[i]` for one integer `i`: a negative index counts from the end, an index out of
range is an `IndexError`. -/
def arangeAt (n : Nat) (i : Int) : Except Err Nat :=
  if 0 ≤ i ∧ i < n then .ok i.toNat
  else if -(n : Int) ≤ i ∧ i < 0 then .ok (i + n).toNat
  else .error .indexError

/-- `canonicalize_axis`, utils.py:306-321: `list(set(np.arange(n)[axis]))`.  The result is a set: the
iteration order of a Python set is not modelled. -/
def canonicalizeAxis (axis : List Int) (n : Nat) : Except Err (Finset Nat) := do
  let l ← axis.mapM (arangeAt n)
  return l.toFinset

/-- `axis_after_dot`, utils.py:505-520.  Counts are natural numbers and the subtractions never go
below zero on the inputs of C22. -/
def axisAfterDot (axis : Nat) (contracting batch : List Nat) (lhsNdim : Option Nat) : Nat :=
  if axis ∈ batch then batch.idxOf axis
  else
    axis - (contracting.filter (· < axis)).length + (batch.filter (axis < ·)).length +
      match lhsNdim with
      | none => 0
      | some n => n - batch.length - contracting.length

/-! ## Output selection -/

/-- The argument `get`: `None`, a string, or a sequence of strings. -/
inductive Get where
  | none
  | str (s : String)
  | tuple (l : List String)
  deriving DecidableEq, Repr

/-- `canonicalize_get`, utils.py:139-155.  `str.lower` is modelled for ASCII. -/
def canonicalizeGet : Get → Except Err (Bool × Option (List String))
  | .none => .ok (true, .none)
  | .str s =>
    if s = "" then .error .valueError else .ok (true, some [s.toLower])
  | .tuple l =>
    if l = [] then .error .valueError
    else if (l.map String.toLower).Nodup then .ok (false, some (l.map String.toLower))
    else .error .valueError

/-- A Python dictionary with string keys, in insertion order. -/
abbrev Dict (V : Type) := List (String × V)

/-- `d[k]` -/
def Dict.at {V : Type} (d : Dict V) (k : String) : Except Err V :=
  match d.lookup k with
  | some v => .ok v
  | none => .error .keyError

/-- What a `get`-selecting function returns: the object itself, one field, or a named tuple. -/
inductive Sel (V : Type) where
  | whole (d : Dict V)
  | field (v : V)
  | named (l : Dict V)
  deriving DecidableEq, Repr

/-- `getter_fn` / `canonicalize_output`, utils.py:197-252, once the value of `get` is known.  `fn` is
the decorated function; it is called with the canonical `get` and its output is seen as a dictionary
(`_output_to_dict`, utils.py:170-183).  Generators and trees of outputs are not modelled (the same
code runs on each element).  For `get = None` the output is returned unchanged, or, if it is a
dictionary, as a named tuple with the same items; both are `Sel.whole`. -/
def getterFn {V : Type} (fn : Option (List String) → Except Err (Dict V)) (g : Get) :
    Except Err (Sel V) := do
  let (notTuple, get) ← canonicalizeGet g
  let out ← fn get
  match get with
  | none => return .whole out
  | some gs =>
    if notTuple then
      match gs with
      | g :: _ => return .field (← out.at g)
      | [] => .error .indexError
    else
      let vs ← gs.mapM out.at
      return .named (gs.zip vs)

/-- A Python signature: names of the positional-or-keyword parameters and the defaults of the last
ones (`inspect.getfullargspec`). -/
structure Sig (V : Type) where
  args : List String
  defaults : Option (List V)

/-- The lookup of the value of `get` in `getter_fn`, utils.py:210-225: `posArgs` are the positional
arguments of the call and `kwGet` is `kwargs.get('get')`.  A signature without a parameter `get` is a
`ValueError` (raised at decoration time). -/
def getArgument {V : Type} (sig : Sig V) (posArgs : List V) (kwGet : Option V) : Except Err V :=
  if "get" ∈ sig.args then
    match kwGet with
    | some g => .ok g
    | none =>
      match posArgs[sig.args.idxOf "get"]? with
      | some g => .ok g
      | none =>
        match sig.defaults with
        | none => .error .valueError
        | some ds =>
          match ds[sig.args.idxOf "get" - posArgs.length]? with
          | some g => .ok g
          | none => .error .indexError
  else .error .valueError

/-! ## Keys -/

/-- `x1_is_x2` on leaves, utils.py:255-282.  `eps` is the tolerance (`1e-12`).  The shortcut for
identical objects is the general case (the difference is zero).  Custom key types, for which the
comparison is by `==`, are covered by `readKeys` directly. -/
noncomputable def x1IsX2 (eps : ℝ) (x1 : Arr ℝ) (x2 : Option (Arr ℝ)) : Bool :=
  open Classical in
  match x2 with
  | none => true
  | some x2 =>
    if x1.shape = x2.shape then decide (∀ i, InRange i x1.shape → |x1.get i - x2.get i| < eps)
    else false

/-- What a user may pass as `rng`. -/
inductive UserKey (K : Type) where
  | none
  | single (k : K)
  | pair (k1 k2 : K)
  | other
  deriving DecidableEq, Repr

/-- `_read_keys`, utils.py:556-579.  Keys are an abstract type with decidable equality (for raw
`uint32` keys `x1_is_x2` is equality: a difference below `1e-12` is zero); `foldIn` is
`jax.random.fold_in`.  Returns the pair `(key1, key2)`, each being `None`, a key, or (when `x2` is
`None` and a pair was passed) the pair itself. -/
noncomputable def readKeys {K : Type} [DecidableEq K] (foldIn : K → Nat → K) (eps : ℝ)
    (key : UserKey K) (x1 : Arr ℝ) (x2 : Option (Arr ℝ)) : Except Err (UserKey K × UserKey K) :=
  if key = .none ∨ x2.isNone then .ok (key, key)
  else
    match key with
    | .pair k1 k2 =>
      let newKey := if k1 = k2 then foldIn k2 1 else k2
      .ok (.single k1, .single (if x1IsX2 eps x1 x2 then k1 else newKey))
    | .single k =>
      .ok (.single k, .single (if x1IsX2 eps x1 x2 then k else foldIn k 1))
    | _ => .error .typeError

/-! ## Indexing -/

/-- One entry of an index: an integer, a slice or an Ellipsis. -/
inductive Entry where
  | int (i : Int)
  | slice (start stop step : Option Int)
  | ellipsis
  deriving DecidableEq, Repr

/-- `slice(None)` -/
def full : Entry := .slice none none none

/-- An index: a single entry or a tuple of entries. -/
inductive Idx where
  | one (e : Entry)
  | tuple (l : List Entry)

/-- `canonicalize_idx`, utils.py:622-634.  The loop runs over the tuple as it was before the loop
while replacing it. Repeating a tuple a negative number of times gives the empty tuple. -/
def canonicalizeIdx (idx : Idx) (ndim : Nat) : List Entry :=
  let idx0 : List Entry := match idx with
    | .one e => e :: List.replicate (ndim - 1) full
    | .tuple l => l
  let idx1 := idx0.zipIdx.foldl (fun (acc : List Entry) p =>
    if p.1 = .ellipsis then
      acc.take p.2 ++ List.replicate (ndim + 1 - acc.length) full ++ acc.drop (p.2 + 1)
    else acc) idx0
  idx1 ++ List.replicate (ndim - idx1.length) full

/-- Python's `slice(start, stop, step).indices(n)`. -/
def sliceIndices (n : Nat) (start stop step : Option Int) : Except Err (Int × Int × Int) :=
  let step := step.getD 1
  if step = 0 then .error .valueError
  else
    let lower : Int := if step < 0 then -1 else 0
    let upper : Int := if step < 0 then (n : Int) - 1 else n
    let clamp (x : Int) : Int := if x < 0 then max (x + n) lower else min x upper
    let a := match start with
      | none => if step < 0 then upper else lower
      | some s => clamp s
    let b := match stop with
      | none => if step < 0 then lower else upper
      | some s => clamp s
    .ok (a, b, step)

/-- Size of an axis of size `n` after slicing. -/
def sliceLen (n : Nat) (start stop step : Option Int) : Except Err Nat := do
  let (a, b, c) ← sliceIndices n start stop step
  if c < 0 then
    return if b < a then ((a - b - 1) / (-c) + 1).toNat else 0
  else
    return if a < b then ((b - a - 1) / c + 1).toNat else 0

/-- `np.empty(shape)[idx].shape` for an index with one entry per axis (an index of the wrong length
or with an Ellipsis left is an `IndexError`). -/
def npIndexShape : List Nat → List Entry → Except Err (List Nat)
  | [], [] => .ok []
  | n :: s, .int i :: l => do
    let _ ← arangeAt n i
    npIndexShape s l
  | n :: s, .slice a b c :: l => do
    let m ← sliceLen n a b c
    let r ← npIndexShape s l
    return m :: r
  | _, _ => .error .indexError

/-- The loop of `slice_shape`, utils.py:645-656: from axis `a` on, with `nInts` integers seen so
far, returns `np_shape` and the dictionary `unknown_axes`. -/
def sliceShapeLoop : Nat → Nat → List Entry → List Int → Except Err (List Nat × List (Nat × Int))
  | a, nInts, i :: l, s :: sh => do
    if s < 0 ∧ i ≠ full then .error .valueError
    else
      let isInt := match i with
        | .int _ => true
        | _ => false
      let (np, unk) ← sliceShapeLoop (a + 1) (if isInt then nInts + 1 else nInts) l sh
      return (if s < 0 then (0 :: np, (a - nInts, s) :: unk) else (s.toNat :: np, unk))
  | _, _, _, sh => .ok (sh.map Int.toNat, [])

/-- `slice_shape`, utils.py:637-663.  Unknown sizes are the negative ones (for a size `None` the test
`s < 0` of line 648 is a `TypeError`; not modelled).  `np.empty(np_shape)[idx]` is taken with the
canonical index, which denotes the same (C21). -/
def sliceShape (shape : List Int) (idx : Idx) : Except Err (List Int) := do
  let cidx := canonicalizeIdx idx shape.length
  let (np, unk) ← sliceShapeLoop 0 0 cidx shape
  let out ← npIndexShape np cidx
  return unk.foldl (fun (acc : List Int) p => acc.set p.1 p.2) (out.map Int.ofNat)

end NT.Utils
