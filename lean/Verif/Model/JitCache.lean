import Verif.Model.Arr

/-!
# The cache of compiled functions, batching.py:689-787

The result of running `f` (compiled or mapped over devices) is an abstract function `exec`; that is
`jit` and `pmap` (with the array arguments broadcast to all devices, lines 717-720 and 757, 780)
compute what `f` computes.  Functions are identified by names of a type `F` with decidable equality
(Python object identity).  Non-array arguments have decidable equality (Python `==` of hashable
objects; that `1 == True` is not modelled).
-/

namespace NT.JitCache

/-- A positional or keyword argument: an array (`_is_np_ndarray`) or anything else. -/
inductive Arg (A O : Type)
  | arr (a : A)
  | other (o : O)
  deriving DecidableEq, Repr

/-- A call `jit_or_pmap_broadcast(f, device_count)(x, *args, **kwargs)`. -/
structure Call (F X A O : Type) where
  f : F
  deviceCount : Int
  x : X
  args : List (Arg A O)
  kwargs : List (String × Arg A O)

variable {F X A O R : Type}

/-- The loop of batching.py:741-746 from position `n`: `args_np_idxs`. -/
def npIdxsFrom (n : Nat) : List (Arg A O) → List Nat
  | [] => []
  | .arr _ :: l => n :: npIdxsFrom (n + 1) l
  | .other _ :: l => npIdxsFrom (n + 1) l

/-- `args_np_idxs`, batching.py:741-746. -/
def npIdxs (args : List (Arg A O)) : List Nat := npIdxsFrom 0 args

/-- `args_np`. -/
def npArgs : List (Arg A O) → List A
  | [] => []
  | .arr a :: l => a :: npArgs l
  | .other _ :: l => npArgs l

/-- The same loop: `args_other`. -/
def otherArgsFrom (n : Nat) : List (Arg A O) → List (Nat × O)
  | [] => []
  | .arr _ :: l => otherArgsFrom (n + 1) l
  | .other o :: l => (n, o) :: otherArgsFrom (n + 1) l

/-- `args_other`: dictionary from position to value, in increasing order of position. -/
def otherArgs (args : List (Arg A O)) : List (Nat × O) := otherArgsFrom 0 args

/-- `kwargs_np`, batching.py:749-755. -/
def npKwargs (kw : List (String × Arg A O)) : List (String × A) :=
  kw.filterMap fun p => match p.2 with | .arr a => some (p.1, a) | .other _ => none

/-- `kwargs_other`. -/
def otherKwargs (kw : List (String × Arg A O)) : List (String × O) :=
  kw.filterMap fun p => match p.2 with | .arr _ => none | .other o => some (p.1, o)

/-- `_key`, batching.py:735 and 758-760. -/
structure Key (F O : Type) where
  f : F
  deviceCount : Int
  argsOther : List (Nat × O)
  kwargsOther : List (String × O)
  deriving DecidableEq

def key (c : Call F X A O) : Key F O :=
  ⟨c.f, c.deviceCount, otherArgs c.args, otherKwargs c.kwargs⟩

/-- What the closure `_f` of batching.py:765-772 captures. -/
structure Closure (F O : Type) where
  f : F
  deviceCount : Int
  idxs : List Nat
  argsOther : List (Nat × O)
  kwargsOther : List (String × O)

/-- `sorted(_args.items())` on dictionaries with integer keys: insertion of one entry. -/
def insertIdx (p : Nat × Arg A O) : List (Nat × Arg A O) → List (Nat × Arg A O)
  | [] => [p]
  | q :: l => if p.1 ≤ q.1 then p :: q :: l else q :: insertIdx p l

/-- Merge of positional arguments, batching.py:767-769: `{**_args_np, **args_other}` sorted by
position.  The two dictionaries have disjoint keys. -/
def mergeArgs (idxs : List Nat) (np : List A) (other : List (Nat × O)) : List (Arg A O) :=
  let d := (idxs.zip np).map (fun p => (p.1, Arg.arr p.2)) ++ other.map fun p => (p.1, Arg.other p.2)
  (d.foldr insertIdx []).map (·.2)

/-- Merge of keyword arguments, batching.py:770. -/
def mergeKwargs (np : List (String × A)) (other : List (String × O)) : List (String × Arg A O) :=
  np.map (fun p => (p.1, Arg.arr p.2)) ++ other.map fun p => (p.1, Arg.other p.2)

/-- The cache. -/
abbrev Cache (F O : Type) := List (Key F O × Closure F O)

/-- What the function computes on arguments. -/
abbrev Exec (F X A O R : Type) := F → Int → X → List (Arg A O) → List (String × Arg A O) → R

/-- Running a closure, batching.py:765-772. -/
def runClosure (exec : Exec F X A O R) (cl : Closure F O) (x : X) (np : List A)
    (kwnp : List (String × A)) : R :=
  exec cl.f cl.deviceCount x (mergeArgs cl.idxs np cl.argsOther) (mergeKwargs kwnp cl.kwargsOther)

/-- `f_pmapped`, batching.py:737-782: look the key up, or store a new closure; then run it. -/
def call [DecidableEq F] [DecidableEq O] (exec : Exec F X A O R) (cache : Cache F O)
    (c : Call F X A O) : Cache F O × R :=
  match cache.lookup (key c) with
  | some cl => (cache, runClosure exec cl c.x (npArgs c.args) (npKwargs c.kwargs))
  | none =>
    let cl : Closure F O :=
      ⟨c.f, c.deviceCount, npIdxs c.args, otherArgs c.args, otherKwargs c.kwargs⟩
    ((key c, cl) :: cache, runClosure exec cl c.x (npArgs c.args) (npKwargs c.kwargs))

/-- The cache after a history of calls (most recent last), starting from the empty cache. -/
def after [DecidableEq F] [DecidableEq O] (exec : Exec F X A O R) (h : List (Call F X A O)) :
    Cache F O :=
  h.foldl (fun cache c => (call exec cache c).1) []

end NT.JitCache
