import Verif.Model.Kernel
import Verif.Spec.Interleave

/-!
# What the covariance arrays of a `Kernel` stand for

A `Kernel` stores covariances in one of several layouts: full or diagonal in the batch, full or
diagonal in the spatial positions, spatial axes in logical or reversed order.  `Logical` is the
information that is stored, without the layout; `Kernel.Holds` says that a `Kernel` stores it.
-/

namespace NT
open Spec

/-- The spatial part of an array index (or shape) for the pair of positions `p`, `q`. -/
def pos (diag rev : Bool) (p q : List Nat) : List Nat :=
  if diag then (if rev then p.reverse else p)
  else if rev then interleave p.reverse q.reverse else interleave p q

/-- The array `a` holds the covariances `F`: `F b p q` is the covariance of position `p` and position
`q` of the examples `b` (a list of one example number for a batch-diagonal array, of two otherwise).
`S`, `T` are the spatial shapes.  In the spatially diagonal layout only `p = q` is stored. -/
structure Holds {α : Type} (a : Arr α) (B S T : List Nat) (diag rev : Bool)
    (F : List Nat → List Nat → List Nat → α) : Prop where
  rank : S.length = T.length
  square : diag = true → S = T
  shape : a.shape = B ++ pos diag rev S T
  get : ∀ b p q, InRange b B → InRange p S → InRange q T → (diag = true → p = q) →
    a.get (b ++ pos diag rev p q) = F b p q

/-- The information in a kernel.  `k12 [i, j] p q` is the covariance of position `p` of example `i` of
the first inputs and position `q` of example `j` of the second, `k11` and `k22` likewise, `ntk` the
tangent kernel. -/
structure Logical (α : Type) where
  n1 : Nat
  n2 : Nat
  S1 : List Nat
  S2 : List Nat
  k12 : List Nat → List Nat → List Nat → α
  k11 : List Nat → List Nat → List Nat → α
  k22 : Option (List Nat → List Nat → List Nat → α)
  ntk : Option (List Nat → List Nat → List Nat → α)

/-- The batch part of the shape of `cov1` / `cov2`. -/
def batchShape (diagBatch : Bool) (n : Nat) : List Nat := if diagBatch then [n] else [n, n]

/-- `[i] ↦ [i, i]`: one example paired with itself. -/
def dbl : List Nat → List Nat
  | [i] => [i, i]
  | b => b

/-- Both absent, or both present and related. -/
def OptRel {A B : Type} (R : A → B → Prop) : Option A → Option B → Prop
  | none, none => True
  | some a, some b => R a b
  | _, _ => False

namespace Kernel
variable {α : Type}

/-- The kernel `k` stores the information `L` in the layout its flags say. A tangent kernel array of
rank 0 stands for a constant one (the initial value is the scalar 0). -/
structure Stores (k : Kernel α) (L : Logical α) : Prop where
  nngp : Holds k.nngp [L.n1, L.n2] L.S1 L.S2 k.diagonalSpatial k.isReversed L.k12
  cov1 : Holds k.cov1 (batchShape k.diagonalBatch L.n1) L.S1 L.S1 k.diagonalSpatial k.isReversed
    (fun b => L.k11 (dbl b))
  cov2 : OptRel (fun c F => Holds c (batchShape k.diagonalBatch L.n2) L.S2 L.S2 k.diagonalSpatial
    k.isReversed (fun b => F (dbl b))) k.cov2 L.k22
  ntk : OptRel (fun a F => (a.shape = [] ∧ ∀ b p q, F b p q = a.get []) ∨
    Holds a [L.n1, L.n2] L.S1 L.S2 k.diagonalSpatial k.isReversed F) k.ntk L.ntk

end Kernel
end NT
