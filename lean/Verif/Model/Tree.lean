import Verif.Model.Arr

/-!
# Trees of lists and tuples, `nt_tree_fn`
-/

namespace NT

/-- Nested lists / tuples (`NTTree`, utils/typing.py); `isList` tells a list from a tuple.  A leaf is
anything that is neither (`is_list_or_tuple`, utils.py:43-46). -/
inductive Tree (α : Type) where
  | leaf (a : α)
  | node (isList : Bool) (children : List (Tree α))

namespace Tree
variable {α β γ : Type}

/-- The children of all trees if all of them are nodes of the type `b`
(`all(type(x) == type(args[0]) for x in args[1:])`, utils.py:96). -/
def childrenOf (b : Bool) : List (Tree α) → Option (List (List (Tree α)))
  | [] => some []
  | .node b' cs :: ts => if b = b' then (childrenOf b ts).map (cs :: ·) else none
  | .leaf _ :: _ => none

/-- The values of all trees if all of them are leaves. -/
def leavesOf : List (Tree α) → Option (List α)
  | [] => some []
  | .leaf a :: ts => (leavesOf ts).map (a :: ·)
  | .node _ _ :: _ => none

/-- One step of `zip(*args)` on the lists after the first: their heads and tails, or nothing if one
of them is exhausted. -/
def unconsAll : List (List (Tree α)) → Option (List (Tree α) × List (List (Tree α)))
  | [] => some ([], [])
  | [] :: _ => none
  | (c :: cs) :: ls => (unconsAll ls).map fun p => (c :: p.1, cs :: p.2)

mutual
/-- `check_tree_structure`, utils.py:93-112, on the arguments `t :: ts`. -/
def check : Tree α → List (Tree α) → Except Err Unit
  | .leaf _, ts =>
    match leavesOf ts with
    | some _ => .ok ()
    | none => .error .typeError
  | .node b cs, ts =>
    match childrenOf b ts with
    | some css => checkAll cs css
    | none => .error .typeError
/-- `for x in zip(*args): check_tree_structure(x)`. -/
def checkAll : List (Tree α) → List (List (Tree α)) → Except Err Unit
  | [], _ => .ok ()
  | c :: cs, css =>
    match unconsAll css with
    | none => .ok ()
    | some (hs, tls) =>
      match check c hs with
      | .ok () => checkAll cs tls
      | .error e => .error e
end

mutual
/-- The recursion of `wrapped_fn`, utils.py:116-129, for `reduce` the identity, on the tree arguments
`t :: ts` (the broadcast arguments are part of `fn`).  Simplified: the structure check repeated on
every subtree is left out, it is part of the check of the whole (`call`). -/
def run (fn : List α → Except Err β) : Tree α → List (Tree α) → Except Err (Tree β)
  | .leaf a, ts =>
    match leavesOf ts with
    | some as =>
      match fn (a :: as) with
      | .ok y => .ok (.leaf y)
      | .error e => .error e
    | none => .error .typeError
  | .node b cs, ts =>
    match childrenOf b ts with
    | some css =>
      match runAll fn cs css with
      | .ok ys => .ok (.node b ys)
      | .error e => .error e
    | none => .error .typeError
/-- `wrapped_fn(*xs) for xs in zip(*recurse)`: stops at the shortest argument. -/
def runAll (fn : List α → Except Err β) :
    List (Tree α) → List (List (Tree α)) → Except Err (List (Tree β))
  | [], _ => .ok []
  | c :: cs, css =>
    match unconsAll css with
    | none => .ok []
    | some (hs, tls) =>
      match run fn c hs with
      | .error e => .error e
      | .ok y =>
        match runAll fn cs tls with
        | .error e => .error e
        | .ok ys => .ok (y :: ys)
end

/-- `nt_tree_fn(nargs)(fn)(*args)`, utils.py:57-131, with `tree_structure_argnum` not given.  No tree
arguments is an `IndexError` (`args[0]`). -/
def call (fn : List α → Except Err β) : List (Tree α) → Except Err (Tree β)
  | [] => .error .indexError
  | t :: ts =>
    match check t ts with
    | .error e => .error e
    | .ok () => run fn t ts

end Tree
end NT
