import Verif.Model.Kernel

/-!
Specification for batching: arrays whose entries are given by a function of the
example indices, and kernel functions whose entries depend only on the two
examples concerned.
-/

namespace NT.Spec
open NT

/-- `a` has shape `(n1, n2) + T` and entry `(i, j) + t` equal to `g i j t`. -/
def Entries2 {γ : Type} (a : Arr γ) (n1 n2 : Nat) (T : List Nat) (g : Nat → Nat → List Nat → γ) :
    Prop :=
  a.shape = n1 :: n2 :: T ∧
    ∀ i j t, i < n1 → j < n2 → InRange t T → a.get (i :: j :: t) = g i j t

/-- `a` has shape `(n,) + T` and entry `(i,) + t` equal to `g i t`. -/
def Entries1 {γ : Type} (a : Arr γ) (n : Nat) (T : List Nat) (g : Nat → List Nat → γ) : Prop :=
  a.shape = n :: T ∧ ∀ i t, i < n → InRange t T → a.get (i :: t) = g i t

/-- A pairwise kernel function with array output: `G row1 row2` is the block of entries of a pair
of examples; it only looks at the in-range values of the rows. -/
structure PairFn (β γ : Type) where
  T : List Nat
  G : Arr β → Arr β → List Nat → γ
  congr : ∀ r1 r1' r2 r2', Arr.Eqv r1 r1' → Arr.Eqv r2 r2' → G r1 r2 = G r1' r2'

/-- `f`, called on batches of `m1` and `m2` examples of shape `s`, does not raise and returns the
array whose `(i, j)` block is `G x1[i] x2[j]`. -/
def PairFn.ImplementedBy {β γ : Type} (P : PairFn β γ) (f : Arr β → Arr β → Except Err (Arr γ))
    (s : List Nat) (m1 m2 : Nat) : Prop :=
  ∀ x1 x2 : Arr β, x1.shape = m1 :: s → x2.shape = m2 :: s →
    ∃ z, f x1 x2 = .ok z ∧ Entries2 z m1 m2 P.T fun i j => P.G (x1.lead i) (x2.lead j)

/-- Description of the contents of a `Kernel` on `m1 × m2` examples. -/
structure KDesc (γ : Type) where
  T : List Nat
  Tc : List Nat
  Tm : List Nat
  nngp : Nat → Nat → List Nat → γ
  ntk : Option (Nat → Nat → List Nat → γ)
  cov1 : Nat → List Nat → γ
  cov2 : Nat → List Nat → γ
  mask1 : Option (Nat → List Nat → Bool)
  pre : List Nat
  post : List Nat
  isGaussian : Bool
  isReversed : Bool
  isInput : Bool
  diagonalSpatial : Bool
  channelAxis : Nat

/-- An optional array matches an optional description. -/
def OptEntries2 {γ : Type} (a : Option (Arr γ)) (n1 n2 : Nat) (T : List Nat)
    (g : Option (Nat → Nat → List Nat → γ)) : Prop :=
  match a, g with
  | none, none => True
  | some a, some g => Entries2 a n1 n2 T g
  | _, _ => False

/-- An optional array matches an optional description. -/
def OptEntries1 {γ : Type} (a : Option (Arr γ)) (n : Nat) (T : List Nat)
    (g : Option (Nat → List Nat → γ)) : Prop :=
  match a, g with
  | none, none => True
  | some a, some g => Entries1 a n T g
  | _, _ => False

/-- `k` holds exactly the data described by `D` for `m1 × m2` examples.  `withCov2` tells whether
`cov2` is stored (`x2` given) or `None`.  Everything but `x1_is_x2` is described; `mask2` is
absent and `diagonal_batch` is true. -/
structure KDesc.Describes {γ : Type} (D : KDesc γ) (m1 m2 : Nat) (withCov2 : Bool) (k : Kernel γ) :
    Prop where
  nngp : Entries2 k.nngp m1 m2 D.T D.nngp
  ntk : OptEntries2 k.ntk m1 m2 D.T D.ntk
  cov1 : Entries1 k.cov1 m1 D.Tc D.cov1
  cov2 : OptEntries1 k.cov2 m2 D.Tc (if withCov2 then some D.cov2 else none)
  mask1 : OptEntries1 k.mask1 m1 D.Tm D.mask1
  mask2 : k.mask2 = none
  static : k.static = ⟨D.isGaussian, D.isReversed, D.isInput, true, D.diagonalSpatial,
    D.pre ++ [m1] ++ D.post, D.pre ++ [m2] ++ D.post, D.pre.length, D.channelAxis⟩

/-- A pairwise kernel function with `Kernel` output. -/
structure PairKernelFn (β γ : Type) where
  T : List Nat
  Tc : List Nat
  Tm : List Nat
  nngp : Arr β → Arr β → List Nat → γ
  ntk : Option (Arr β → Arr β → List Nat → γ)
  cov1 : Arr β → List Nat → γ
  cov2 : Arr β → List Nat → γ
  mask1 : Option (Arr β → List Nat → Bool)
  pre : List Nat
  post : List Nat
  isGaussian : Bool
  isReversed : Bool
  isInput : Bool
  diagonalSpatial : Bool
  channelAxis : Nat
  nngp_congr : ∀ r1 r1' r2 r2', Arr.Eqv r1 r1' → Arr.Eqv r2 r2' → nngp r1 r2 = nngp r1' r2'
  ntk_congr : ∀ f, ntk = some f → ∀ r1 r1' r2 r2', Arr.Eqv r1 r1' → Arr.Eqv r2 r2' →
    f r1 r2 = f r1' r2'
  cov1_congr : ∀ r r', Arr.Eqv r r' → cov1 r = cov1 r'
  cov2_congr : ∀ r r', Arr.Eqv r r' → cov2 r = cov2 r'
  mask1_congr : ∀ f, mask1 = some f → ∀ r r', Arr.Eqv r r' → f r = f r'

/-- The kernel a pairwise kernel function denotes on two batches of examples. -/
def PairKernelFn.desc {β γ : Type} (P : PairKernelFn β γ) (x1 x2 : Arr β) : KDesc γ where
  T := P.T
  Tc := P.Tc
  Tm := P.Tm
  nngp i j := P.nngp (x1.lead i) (x2.lead j)
  ntk := P.ntk.map fun f i j => f (x1.lead i) (x2.lead j)
  cov1 i := P.cov1 (x1.lead i)
  cov2 j := P.cov2 (x2.lead j)
  mask1 := P.mask1.map fun f i => f (x1.lead i)
  pre := P.pre
  post := P.post
  isGaussian := P.isGaussian
  isReversed := P.isReversed
  isInput := P.isInput
  diagonalSpatial := P.diagonalSpatial
  channelAxis := P.channelAxis

/-- `f`, called with `x1` and `x2` (both given) of `m1` and `m2` examples, returns the kernel
denoted by `P`. -/
def PairKernelFn.ImplementedBy {β γ : Type} (P : PairKernelFn β γ)
    (f : Arr β → Arr β → Except Err (Kernel γ)) (s : List Nat) (m1 m2 : Nat) : Prop :=
  ∀ x1 x2 : Arr β, x1.shape = m1 :: s → x2.shape = m2 :: s →
    ∃ k, f x1 x2 = .ok k ∧ (P.desc x1 x2).Describes m1 m2 true k ∧ k.x1IsX2.shape = []

end NT.Spec

namespace NT.Spec
open NT

/-- Equality of optional arrays. -/
def OptEqv {γ : Type} (a b : Option (Arr γ)) : Prop :=
  match a, b with
  | none, none => True
  | some a, some b => Arr.Eqv a b
  | _, _ => False

/-- `k` has the same data as `k0`, except that its `cov2` is `None` when `x2` was `None`. -/
structure SameKernel {γ : Type} (k k0 : Kernel γ) (x2Given : Bool) : Prop where
  nngp : Arr.Eqv k.nngp k0.nngp
  ntk : OptEqv k.ntk k0.ntk
  cov1 : Arr.Eqv k.cov1 k0.cov1
  cov2_some : x2Given = true → OptEqv k.cov2 k0.cov2
  cov2_none : x2Given = false → k.cov2 = none
  mask1 : OptEqv k.mask1 k0.mask1
  static : k.static = k0.static

end NT.Spec
