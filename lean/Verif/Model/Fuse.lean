import Verif.Model.Diagonal
import Verif.Model.Kernel

/-!
# Fusing requirements, `neural_tangents/_src/stax/requirements.py`
-/

namespace NT.Fuse
open NT

/-- A value of a requirement or of a keyword argument.  `other` stands for any value that is none of the
rest (an array, a string, ...). -/
inductive Val where
  | none
  | bool (b : Bool)
  | int (n : Int)
  | diag (d : Diagonal)
  | other (n : Nat)
  deriving DecidableEq, Repr

/-- Dictionaries in insertion order. -/
abbrev Dict := List (String × Val)

/-- `d[k] = v` -/
def setKey : Dict → String → Val → Dict
  | [], k, v => [(k, v)]
  | (k', v') :: d, k, v => if k' = k then (k, v) :: d else (k', v') :: setKey d k v

/-- The condition of requirements.py:893-897: `v_user is True and (v_kernel is False or (isinstance(...,
Diagonal) and input == NO))`. -/
def forbidden (vUser : Val) (vKernel : Val) : Bool :=
  vUser = .bool true && match vKernel with
    | .bool b => !b
    | .diag d => d.input = .no
    | _ => false

/-- The first loop of `_fuse_requirements`, requirements.py:890-902. -/
def fuseUser : Dict → Dict → Except Err Dict
  | reqs, [] => .ok reqs
  | reqs, (k, v) :: user =>
    if v = .none then fuseUser reqs user
    else
      match reqs.lookup k with
      | some vk => if forbidden v vk then .error .valueError else fuseUser (setKey reqs k v) user
      | none => fuseUser (setKey reqs k v) user

/-- The second loop, requirements.py:904-907. -/
def fillDefaults : Dict → Dict → Dict
  | reqs, [] => reqs
  | reqs, (k, v) :: ds =>
    match reqs.lookup k with
    | some _ => fillDefaults reqs ds
    | none => fillDefaults (setKey reqs k v) ds

/-- `_fuse_requirements`, requirements.py:882-909. -/
def fuse (reqs defaults user : Dict) : Except Err Dict :=
  match fuseUser reqs user with
  | .error e => .error e
  | .ok r => .ok (fillDefaults r defaults)

/-- `_DEFAULT_INPUT_REQ`, requirements.py:389-398. -/
def defaultReq : Dict :=
  [("diagonal_batch", .bool true), ("diagonal_spatial", .bool false), ("batch_axis", .int 0),
   ("use_dropout", .bool false), ("channel_axis", .int (-1)), ("mask_constant", .none)]

/-- One test of `new_kernel_fn` of `requires`, requirements.py:98-127. -/
def checkOne {α : Type} (k : Kernel α) (key : String) (v : Val) : Except Err Unit :=
  let bad (b : Bool) : Bool := b && match v with
    | .bool b => !b
    | .diag d => d.input = .no
    | _ => false
  let axis (a : Nat) : Except Err Unit := match v with
    | .int i => if (a : Int) ≠ i % (k.shape1.length : Int) then .error .valueError else .ok ()
    | .none => .ok ()
    | _ => .error .typeError
  if key = "diagonal_batch" then (if bad k.diagonalBatch then .error .valueError else .ok ())
  else if key = "diagonal_spatial" then (if bad k.diagonalSpatial then .error .valueError else .ok ())
  else if key = "batch_axis" then axis k.batchAxis
  else if key = "channel_axis" then axis k.channelAxis
  else .ok ()

/-- `new_kernel_fn` of `requires`, requirements.py:81-134, on one `Kernel`. -/
def checkAll {α : Type} (k : Kernel α) : Dict → Except Err Unit
  | [] => .ok ()
  | (key, v) :: d =>
    match checkOne k key v with
    | .error e => .error e
    | .ok () => checkAll k d

/-- A layer function with `@requires(**static)`, called with keyword arguments `user`. -/
def requires {α β : Type} (static user : Dict) (fn : Kernel α → Except Err β) (k : Kernel α) :
    Except Err β :=
  match fuse static [] user with
  | .error e => .error e
  | .ok d =>
    match checkAll k d with
    | .error e => .error e
    | .ok () => fn k

end NT.Fuse
