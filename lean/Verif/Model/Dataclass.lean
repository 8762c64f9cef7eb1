import Verif.Model.Arr

/-!
# The dataclass decorator, `neural_tangents/_src/utils/dataclasses.py`
-/

namespace NT.Dataclass
open NT

/-- A field of a dataclass: `dataclasses.field(pytree_node, init, default)`, dataclasses.py:122-126. -/
structure FieldSpec (V : Type) where
  name : String
  pytreeNode : Bool := true
  init : Bool := true
  default : Option V := none

/-- An instance: its attributes. -/
abbrev Obj (V : Type) := List (String × V)

variable {V : Type}

/-- `getattr(self, name)` -/
def getattr (o : Obj V) (name : String) : Except Err V :=
  match o.lookup name with
  | some v => .ok v
  | none => .error .attributeError

/-- The attributes the generated `__init__` sets. -/
def initFields : List (FieldSpec V) → Obj V → Except Err (Obj V)
  | [], _ => .ok []
  | f :: fs, kwargs =>
    if f.init then
      match (kwargs.lookup f.name).or f.default with
      | some v => (initFields fs kwargs).map ((f.name, v) :: ·)
      | none => .error .typeError
    else
      match f.default with
      | some v => (initFields fs kwargs).map ((f.name, v) :: ·)
      | none => initFields fs kwargs

/-- `data_clz(**kwargs)`: the `__init__` made by `dataclasses.dataclass` (standard library): an
unexpected keyword or a missing argument is a `TypeError`. -/
def construct (spec : List (FieldSpec V)) (kwargs : Obj V) : Except Err (Obj V) :=
  if ∀ p ∈ kwargs, ∃ f ∈ spec, f.init ∧ f.name = p.1 then initFields spec kwargs
  else .error .typeError

/-- `data_fields`, dataclasses.py:62-71. -/
def dataFields (spec : List (FieldSpec V)) : List String :=
  (spec.filter fun f => f.init && f.pytreeNode).map (·.name)

/-- `meta_fields`, dataclasses.py:62-71. -/
def metaFields (spec : List (FieldSpec V)) : List String :=
  (spec.filter fun f => f.init && !f.pytreeNode).map (·.name)

/-- `iterate_clz`, dataclasses.py:73-76: the leaves and the static part. -/
def flatten (spec : List (FieldSpec V)) (o : Obj V) : Except Err (List V × List V) := do
  let m ← (metaFields spec).mapM (getattr o)
  let d ← (dataFields spec).mapM (getattr o)
  return (d, m)

/-- `clz_from_iterable`, dataclasses.py:78-82. -/
def unflatten (spec : List (FieldSpec V)) (meta_ data : List V) : Except Err (Obj V) :=
  construct spec ((metaFields spec).zip meta_ ++ (dataFields spec).zip data)

/-- The arguments `dataclasses.replace` (standard library, called in dataclasses.py:91-93) passes to
the constructor: the changes, and the current value of every other field.  Naming a field with
`init=False` is a `ValueError`. -/
def replaceKwargs : List (FieldSpec V) → Obj V → Obj V → Except Err (Obj V)
  | [], _, changes => .ok changes
  | f :: fs, o, changes =>
    if f.init then
      match changes.lookup f.name with
      | some _ => replaceKwargs fs o changes
      | none =>
        match getattr o f.name with
        | .ok v => replaceKwargs fs o (changes ++ [(f.name, v)])
        | .error e => .error e
    else
      match changes.lookup f.name with
      | some _ => .error .valueError
      | none => replaceKwargs fs o changes

/-- `replace`, dataclasses.py:91-93. -/
def replace (spec : List (FieldSpec V)) (o changes : Obj V) : Except Err (Obj V) :=
  match replaceKwargs spec o changes with
  | .ok kw => construct spec kw
  | .error e => .error e

/-- `asdict`, dataclasses.py:98-103. -/
def asdict (spec : List (FieldSpec V)) (o : Obj V) : Except Err (Obj V) :=
  spec.mapM fun f =>
    match getattr o f.name with
    | .ok v => .ok (f.name, v)
    | .error e => .error e

/-- `astuple`, dataclasses.py:108-113. -/
def astuple (spec : List (FieldSpec V)) (o : Obj V) : Except Err (List V) :=
  spec.mapM fun f => getattr o f.name

end NT.Dataclass
