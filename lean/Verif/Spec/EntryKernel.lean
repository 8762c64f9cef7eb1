import Verif.Spec.Pairwise

/-!
Specification for C05: kernel-to-kernel functions acting entry-wise, i.e. the `(i, j)` block of the
output depends on the `(i, j)` blocks of the input's nngp and ntk, on row `i` of `cov1` and row `j`
of `cov2` (of `cov1` when `cov2` is `None`).
-/

namespace NT.Spec
open NT

/-- The `(i, j)` block of an optional ntk; a rank-0 ntk is a constant. -/
def ntkBlock {α : Type} (k : Kernel α) (i j : Nat) : Option (Arr α) :=
  k.ntk.map fun n => if n.ndim = 0 then n else (n.lead i).lead j

/-- Row `j` of the second covariance. -/
def cov2Row {α : Type} (k : Kernel α) (j : Nat) : Arr α := (k.cov2.getD k.cov1).lead j

structure EntryKernelFn (α β : Type) where
  /-- trailing shapes of the input's nngp/ntk and cov1/cov2, static part of the input -/
  inT : List Nat
  inTc : List Nat
  inPost : List Nat
  inStatic : Kernel.Static
  /-- output -/
  T : List Nat
  Tc : List Nat
  nngp : Arr α → Option (Arr α) → Arr α → Arr α → List Nat → β
  ntk : Option (Arr α → Option (Arr α) → Arr α → Arr α → List Nat → β)
  cov1 : Arr α → List Nat → β
  cov2 : Arr α → List Nat → β
  pre : List Nat
  post : List Nat
  isGaussian : Bool
  isReversed : Bool
  isInput : Bool
  diagonalSpatial : Bool
  channelAxis : Nat

variable {α β : Type}

/-- A well-formed input kernel on `m1 × m2` examples, without masks, `batch_axis = 0`. -/
structure EntryKernelFn.Input (E : EntryKernelFn α β) (m1 m2 : Nat) (k : Kernel α) : Prop where
  nngp : k.nngp.shape = m1 :: m2 :: E.inT
  ntk : ∀ n, k.ntk = some n → n.shape = [] ∨ n.shape = m1 :: m2 :: E.inT
  cov1 : k.cov1.shape = m1 :: E.inTc
  cov2 : (k.cov2.getD k.cov1).shape = m2 :: E.inTc
  x1IsX2 : k.x1IsX2.shape = []
  mask1 : k.mask1 = none
  mask2 : k.mask2 = none
  static : k.static = { E.inStatic with
    shape1 := m1 :: E.inPost, shape2 := m2 :: E.inPost, batchAxis := 0, diagonalBatch := true }

/-- What the function denotes on an input kernel. -/
def EntryKernelFn.desc (E : EntryKernelFn α β) (k : Kernel α) : KDesc β where
  T := E.T
  Tc := E.Tc
  Tm := []
  nngp i j := E.nngp ((k.nngp.lead i).lead j) (ntkBlock k i j) (k.cov1.lead i) (cov2Row k j)
  ntk := E.ntk.map fun f i j => f ((k.nngp.lead i).lead j) (ntkBlock k i j) (k.cov1.lead i)
    (cov2Row k j)
  cov1 i := E.cov1 (k.cov1.lead i)
  cov2 j := E.cov2 (cov2Row k j)
  mask1 := none
  pre := E.pre
  post := E.post
  isGaussian := E.isGaussian
  isReversed := E.isReversed
  isInput := E.isInput
  diagonalSpatial := E.diagonalSpatial
  channelAxis := E.channelAxis

/-- `kf` returns on every well-formed input the kernel denoted by `E`; `cov2` is `None` in the
output iff it is in the input. -/
def EntryKernelFn.ImplementedBy (E : EntryKernelFn α β) (kf : Kernel α → Except Err (Kernel β)) :
    Prop :=
  ∀ m1 m2 k, E.Input m1 m2 k →
    ∃ r, kf k = .ok r ∧ (E.desc k).Describes m1 m2 k.cov2.isSome r ∧ r.x1IsX2.shape = []

end NT.Spec
