import Verif.Model.Diagonal

/-!
# Requirements of layers and networks: `stax/combinators.py`, `stax/requirements.py`
-/

namespace NT

/-- A value of the requirement `diagonal_batch`: a Python `bool`, or an `int` (`>>` of two `bool`s is an
`int`). -/
inductive PyInt where
  | bool (b : Bool)
  | int (n : Nat)
  deriving DecidableEq, Repr

/-- The numeric value. -/
def PyInt.val : PyInt → Nat
  | .bool b => b.toNat
  | .int n => n

/-- `a >> b` of Python integers. -/
def PyInt.shr (a b : PyInt) : PyInt := .int (a.val / 2 ^ b.val)

/-- `a & b`: a `bool` for two `bool`s. -/
def PyInt.and : PyInt → PyInt → PyInt
  | .bool a, .bool b => .bool (a && b)
  | a, b => .int (Nat.land a.val b.val)

/-- `bool(a)` -/
def PyInt.truth (a : PyInt) : Bool := a.val ≠ 0

/-- The requirements a layer declares with `@requires(...)`: `none` is an absent key.  `channel_axis` may
be declared as `None`. -/
structure Req where
  diagonalBatch : Option PyInt := none
  diagonalSpatial : Option Diagonal := none
  batchAxis : Option Int := none
  channelAxis : Option (Option Int) := none
  useDropout : Option Bool := none
  deriving DecidableEq, Repr

namespace Req

/-- `if k in req: req[k] = fold(req[k], v) else: req[k] = v`, combinators.py:259-263. -/
def foldKey {β : Type} (fold : β → β → β) : Option β → Option β → Option β
  | some a, some b => some (fold a b)
  | some a, none => some a
  | none, b => b

/-- `use_dropout`, combinators.py:235-239. -/
def dropoutKey : Option Bool → Option Bool → Except Err (Option Bool)
  | some a, some b => if a = b then .ok (some b) else .error .valueError
  | some a, none => .ok (some a)
  | none, b => .ok b

/-- `batch_axis`, combinators.py:241-257: the first value is kept (a mismatch in parallel branches is a
warning). -/
def batchAxisKey : Option Int → Option Int → Option Int
  | some a, _ => some a
  | none, b => b

/-- `channel_axis`, combinators.py:241-257.  In parallel branches a mismatch with `None` compares `None`
with `0`, a `TypeError`: `req[k] >= 0 and v >= 0` or `req[k] < 0 and v < 0`. -/
def channelAxisKey (parallel : Bool) :
    Option (Option Int) → Option (Option Int) → Except Err (Option (Option Int))
  | some a, some b =>
    if parallel ∧ a ≠ b ∧ (a = none ∨ b = none) then .error .typeError else .ok (some a)
  | some a, none => .ok (some a)
  | none, b => .ok b

/-- One round of the loop of `_get_input_req_attr`, combinators.py:230-266. -/
def add (parallel : Bool) (req v : Req) : Except Err Req :=
  match dropoutKey req.useDropout v.useDropout with
  | .error e => .error e
  | .ok d =>
    match channelAxisKey parallel req.channelAxis v.channelAxis with
    | .error e => .error e
    | .ok c =>
      .ok { diagonalBatch :=
              foldKey (if parallel then PyInt.and else PyInt.shr) req.diagonalBatch v.diagonalBatch
            diagonalSpatial :=
              foldKey (if parallel then Diagonal.par else Diagonal.seq) req.diagonalSpatial
                v.diagonalSpatial
            batchAxis := batchAxisKey req.batchAxis v.batchAxis
            channelAxis := c
            useDropout := d }

/-- The loop of `_get_input_req_attr`, started from `req`. -/
def combineFrom (parallel : Bool) (req : Req) : List Req → Except Err Req
  | [] => .ok req
  | v :: vs =>
    match add parallel req v with
    | .error e => .error e
    | .ok r => combineFrom parallel r vs

/-- `_get_input_req_attr`, combinators.py:204-268; `fold` is `&` for `parallel`, `>>` for `serial`. -/
def combine (parallel : Bool) (reqs : List Req) : Except Err Req := combineFrom parallel {} reqs

end Req

/-- A network as far as requirements go: layers, `serial` and `parallel` (combinators.py:40-68,
166-198). -/
inductive Net where
  | layer (r : Req)
  | serial (l : List Net)
  | parallel (l : List Net)

namespace Net
mutual
/-- The requirement of a network.  `serial()` and `parallel()` of no layers fail to unpack
`zip(*layers)`, a `ValueError`. -/
def req : Net → Except Err Req
  | .layer r => .ok r
  | .serial l =>
    if l.isEmpty then .error .valueError
    else
      match reqs l with
      | .error e => .error e
      | .ok rs => Req.combine false rs
  | .parallel l =>
    if l.isEmpty then .error .valueError
    else
      match reqs l with
      | .error e => .error e
      | .ok rs => Req.combine true rs
/-- The requirements of all branches. -/
def reqs : List Net → Except Err (List Req)
  | [] => .ok []
  | n :: ns =>
    match req n with
    | .error e => .error e
    | .ok r =>
      match reqs ns with
      | .error e => .error e
      | .ok rs => .ok (r :: rs)
end

mutual
/-- The layers of a network, from left to right. -/
def layers : Net → List Req
  | .layer r => [r]
  | .serial l => layersAll l
  | .parallel l => layersAll l
/-- The layers of all branches. -/
def layersAll : List Net → List Req
  | [] => []
  | n :: ns => layers n ++ layersAll ns
end

end Net
end NT
