import Verif.Props.C97
import Verif.Props.C95
import Verif.Model.Network
import Verif.Spec.Dual
import Verif.Spec.LayerNorm
import Verif.Spec.Attention
import Verif.Props.C27
import Verif.Props.C28
import Verif.Props.C38
import Verif.Props.C39
import Verif.Props.C40
import Verif.Props.C52
import Verif.Props.C53
import Verif.Props.C54
import Verif.Props.C55
import Verif.Props.C56
import Verif.Props.C57

/-!
# What a network does to the information in a kernel

For each layer, the circumstances under which it is applied as documented and the effect on the logical content of the kernel (the
formulas of C28, C38 to C57), without reference to the arrays; and the composition of layers to networks.
-/

namespace NT.Spec
open NT NT.Network MeasureTheory ProbabilityTheory
open scoped NNReal

/-- The information about a kernel that matters to the layers: the content, the static fields, the flag `x1_is_x2`, and whether the tangent
kernel is certainly an array (an input kernel has the number 0 instead). -/
structure State where
  L : Logical ℝ
  info : Kernel.Static
  same : Bool
  full : Bool

/-- The kernel `k`, without masks, is described by `s`. -/
structure Describes (s : State) (k : Kernel ℝ) : Prop where
  stores : k.Stores s.L
  static : k.static = s.info
  same : k.x1IsX2.shape = [] ∧ k.x1IsX2.get [] = s.same
  mask1 : k.mask1 = none
  mask2 : k.mask2 = none
  full : s.full = true → ∀ a, k.ntk = some a → a.shape ≠ []
  zero : ∀ a, k.ntk = some a → a.shape = [] → a.get [] = 0

/-- The effect of a nonlinearity: a covariance becomes a function `N` of the covariance and the two variances, and the tangent kernel is
multiplied by another function `T`. -/
def entrywise (N T : ℝ → ℝ → ℝ → ℝ) (L : Logical ℝ) : Logical ℝ where
  n1 := L.n1
  n2 := L.n2
  S1 := L.S1
  S2 := L.S2
  k12 b p q := N (L.k12 b p q) (L.k11 [b.getD 0 0, b.getD 0 0] p p) (L.second [b.getD 1 0, b.getD 1 0] q q)
  k11 b p q := N (L.k11 b p q) (L.k11 [b.getD 0 0, b.getD 0 0] p p) (L.k11 [b.getD 1 0, b.getD 1 0] q q)
  k22 := L.k22.map fun F b p q => N (F b p q) (F [b.getD 0 0, b.getD 0 0] p p) (F [b.getD 1 0, b.getD 1 0] q q)
  ntk := L.ntk.map fun F b p q =>
    F b p q * T (L.k12 b p q) (L.k11 [b.getD 0 0, b.getD 0 0] p p) (L.second [b.getD 1 0, b.getD 1 0] q q)

/-- The kernel function `f` is that of the nonlinearity `φ` with derivative `dφ`, for variances in `C`. -/
structure Nonlinearity (f : Kernel ℝ → Except Err (Kernel ℝ)) (C : ℝ → Prop) (φ dφ : ℝ → ℝ) (N T : ℝ → ℝ → ℝ → ℝ) : Prop where
  computes : ∀ k L, k.Stores L → L.Closed → L.Vars C → k.isGaussian = true →
    ∃ k', elementwise f k = .ok k' ∧ k'.Stores (entrywise N T L) ∧ k'.static = { k.static with isGaussian := false } ∧
      k'.x1IsX2 = k.x1IsX2 ∧ k'.mask1 = k.mask1 ∧ k'.mask2 = k.mask2 ∧ ∀ a, k'.ntk = some a → a.shape ≠ []
  symm : ∀ c u v, N c u v = N c v u ∧ T c u v = T c v u
  nngp : ∀ P q11 q12 q22, GaussPair P q11 q12 q22 → C q11 → C q22 → N q12 q11 q22 = ∫ x, φ x.1 * φ x.2 ∂P
  ntk : ∀ P q11 q12 q22, GaussPair P q11 q12 q22 → C q11 → C q22 → T q12 q11 q22 = ∫ x, dφ x.1 * dφ x.2 ∂P
  meas : Measurable φ ∧ Measurable dφ
  mem : ∀ v : ℝ≥0, MemLp φ 2 (gaussianReal 0 v) ∧ MemLp dφ 2 (gaussianReal 0 v)

/-- The order of the spatial axes after a convolution. -/
def convRev (d : Conv) (i : Kernel.Static) : Bool := if !i.diagonalSpatial && d.sharedWeights then !i.isReversed else i.isReversed

/-- The contraction of a `DotGeneral` layer. -/
def contraction (i : Kernel.Static) (no : ℕ) (isLhs : Bool) (inputC otherC inputB otherB : List ℤ) : Contraction where
  n := i.shape1.length
  ba := i.batchAxis
  ca := i.channelAxis
  no := no
  cs := inputC.map fun a => (a % (i.shape1.length : ℤ)).toNat
  bs := inputB.map fun a => (a % (i.shape1.length : ℤ)).toNat
  ocs := otherC.map fun a => (a % (no : ℤ)).toNat
  obs := otherB.map fun a => (a % (no : ℤ)).toNat
  isLhs := isLhs

/-- The index `i` means `l`, one entry per axis: a slice `a:b:st` of the batch, all channels, any entries of the spatial axes. It takes inputs with the
sizes of `s` to `n1'` and `n2'` examples with spatial shapes `S1'` and `S2'`, and shapes `out1` and `out2`. -/
structure IndexOk (i : Utils.Idx) (s : State) (l : List Utils.Entry) (a b st : Option ℤ) (n1' n2' : ℕ) (S1' S2' out1 out2 : List ℕ) : Prop where
  means : C21.Means s.info.shape1.length i l
  axes : s.info.batchAxis ≠ s.info.channelAxis ∧ s.info.batchAxis < s.L.S1.length + 2 ∧ s.info.channelAxis < s.L.S1.length + 2
  rank : s.L.S2.length = s.L.S1.length
  shape1 : ∃ c, s.info.shape1 = actIdx s.info.batchAxis s.info.channelAxis s.L.n1 c s.L.S1
  shape2 : ∃ c, s.info.shape2 = actIdx s.info.batchAxis s.info.channelAxis s.L.n2 c s.L.S2
  batch : l[s.info.batchAxis]? = some (.slice a b st)
  channel : l[s.info.channelAxis]? = some Utils.full
  out1 : Utils.npIndexShape s.info.shape1 l = .ok out1
  out2 : Utils.npIndexShape s.info.shape2 l = .ok out2
  n1 : Utils.sliceLen s.L.n1 a b st = .ok n1'
  n2 : Utils.sliceLen s.L.n2 a b st = .ok n2'
  S1 : Utils.npIndexShape s.L.S1 (C27.otherEntries l s.info.batchAxis s.info.channelAxis) = .ok S1'
  S2 : Utils.npIndexShape s.L.S2 (C27.otherEntries l s.info.batchAxis s.info.channelAxis) = .ok S2'

/-- The effect of indexing. -/
def indexed (s : State) (l : List Utils.Entry) (a b st : Option ℤ) (n1' n2' : ℕ) (S1' S2' out1 out2 : List ℕ) : State :=
  { s with
    L := C27.reindexed s.L a b st (C27.otherEntries l s.info.batchAxis s.info.channelAxis) n1' n2' S1' S2'
    info := { s.info with
      batchAxis := Kernel.shiftAxis l s.info.batchAxis, channelAxis := Kernel.shiftAxis l s.info.channelAxis, shape1 := out1, shape2 := out2 } }

/-- `ImageResize` of inputs with batch axis `B` and channel axis `A`, one entry of `oS` per spatial axis: the new size, or `none` to keep it. The
batch keeps its size. Reversed axes are only right for palindromic output sizes (`C95.resize_reversed_wrong`). -/
structure ResizeOk (d : ImageResize) (s : State) (B A : ℕ) (oS : List (Option ℕ)) : Prop where
  args : C95.Args d B A none oS
  str : d.isStr = true
  method : d.method = .nearest ∨ d.method = .linear
  axis : s.info.batchAxis = B
  rank1 : s.L.S1.length = oS.length
  rank2 : s.L.S2.length = oS.length
  shape1 : ∃ c, s.info.shape1 = actIdx B A s.L.n1 c s.L.S1
  shape2 : ∃ c, s.info.shape2 = actIdx B A s.L.n2 c s.L.S2
  diagonal : s.info.diagonalSpatial = true → d.reqDiagonalSpatial = true
  reversed : s.info.isReversed = true → (ImageResize.sizes oS s.L.S1).reverse = ImageResize.sizes oS s.L.S1 ∧
    (ImageResize.sizes oS s.L.S2).reverse = ImageResize.sizes oS s.L.S2

/-- `GlobalSelfAttention` with linear scaling, or square root scaling of the identity mechanism, of inputs with `c` channels and all pairs of positions.  Positional embeddings need inputs of equal spatial shapes,
and a decay function must give "the positional embeddings covariance matrix", which is positive semidefinite. -/
structure AttnOk (d : Attention) (s : State) (c : ℕ) : Prop where
  scaling : d.linearScaling = true ∨ d.mechanism = .identity
  pairs : s.info.diagonalSpatial = false
  axes : s.info.batchAxis ≠ s.info.channelAxis ∧ s.info.batchAxis < s.L.S1.length + 2 ∧ s.info.channelAxis < s.L.S1.length + 2
  rank : s.L.S2.length = s.L.S1.length
  shape1 : s.info.shape1 = actIdx s.info.batchAxis s.info.channelAxis s.L.n1 c s.L.S1
  shape2 : s.info.shape2 = actIdx s.info.batchAxis s.info.channelAxis s.L.n2 c s.L.S2
  same : d.posEmb ≠ .none → s.L.S2 = s.L.S1
  psd : d.posEmb ≠ .none → ∀ a : List ℕ → ℝ, 0 ≤ ∑ p ∈ box s.L.S1, ∑ q ∈ box s.L.S1, a p * a q * posCov d.pNorm d.decay p q

/-- The layer `l`, applied as documented to a kernel described by `s`, gives one described by `t`. -/
def LayerSem : Layer → State → State → Prop
  | .dense d, s, t => d.param ≠ .other ∧ (d.param = .standard → 0 < d.s.1) ∧
      ∃ C, pyGetNat s.info.shape1 d.channelAxis = .ok C ∧ pyGetNat s.info.shape2 d.channelAxis = .ok C ∧
        t = { s with L := C52.after d C s.L, info := { s.info with isGaussian := true, isInput := false }, full := true }
  | .conv d, s, t => d.param ≠ .other ∧ (d.param = .standard → 0 < d.s.1) ∧ (∀ v ∈ d.filter, 0 < v.1 ∧ 0 < v.2) ∧ s.L.S1.length = d.filter.length ∧
      s.L.S2.length = d.filter.length ∧ (s.info.diagonalSpatial = true → s.info.isReversed = false) ∧
      (d.sharedWeights = false → s.info.diagonalSpatial = false → s.L.S1 = s.L.S2 ∧ (s.info.isReversed = true → d.filter.reverse = d.filter)) ∧
      s.info.shape1.getD d.channelAxis 0 = s.info.shape2.getD d.channelAxis 0 ∧
      t = { s with
        L := C53.after d (s.info.shape1.getD d.channelAxis 0) s.L
        info := { s.info with
          isGaussian := true, isInput := false, isReversed := convRev d s.info, batchAxis := d.batchAxis, channelAxis := d.channelAxis }
        full := true }
  | .convTranspose d, s, t => d.conv.param ≠ .other ∧ (d.conv.param = .standard → 0 < d.conv.s.1) ∧ (∀ v ∈ d.conv.filter, 0 < v.1 ∧ 0 < v.2) ∧
      s.L.S1.length = d.conv.filter.length ∧ s.L.S2.length = d.conv.filter.length ∧ (∀ n ∈ s.L.S1, 0 < n) ∧ (∀ n ∈ s.L.S2, 0 < n) ∧
      (s.info.diagonalSpatial = true → s.info.isReversed = false) ∧
      s.info.shape1.getD d.conv.channelAxis 0 = s.info.shape2.getD d.conv.channelAxis 0 ∧
      t = { s with
        L := C97.after d (s.info.shape1.getD d.conv.channelAxis 0) s.L
        info := { s.info with
          isGaussian := true, isInput := false
          isReversed := if s.info.diagonalSpatial then s.info.isReversed else !s.info.isReversed
          batchAxis := d.conv.batchAxis, channelAxis := d.conv.channelAxis }
        full := true }
  | .pool d, s, t => (∀ v ∈ d.window, 0 < v.1 ∧ 0 < v.2) ∧ s.L.S1.length = d.window.length ∧ s.L.S2.length = d.window.length ∧
      (s.info.diagonalSpatial = true → s.info.isReversed = false ∧ s.L.S1 = s.L.S2 ∧ C54.OffDiagZero s.L ∧
        (d.padding = .circular → List.Forall₂ (fun w n => w ≤ n) (d.window.map Prod.fst) s.L.S1)) ∧
      t = { s with L := C54.pooled d s.L }
  | .globalPool d, s, t => (s.info.diagonalSpatial = true → C54.OffDiagZero s.L) ∧ s.info.shape1.length = s.info.shape2.length ∧
      t = { s with
        L := C54.globalPooled d.type s.L
        info := { s.info with
          isReversed := false
          batchAxis := if d.batchAxis % (s.info.shape1.length : ℤ) < d.channelAxis % (s.info.shape1.length : ℤ) then 0 else 1
          channelAxis := if d.batchAxis % (s.info.shape1.length : ℤ) < d.channelAxis % (s.info.shape1.length : ℤ) then 1 else 0 } }
  | .flatten f, s, t => ∃ bo co, f.axesOut = .ok (bo, co) ∧ s.L.S1 = s.L.S2 ∧ 0 ∉ s.L.S1 ∧
      t = { s with
        L := C55.flat s.L
        info := { s.info with isGaussian := false, isReversed := false, batchAxis := bo, channelAxis := co, diagonalSpatial := false } }
  | .dropout d, s, t => 0 < d.rate ∧ d.rate ≤ 1 ∧
      ((d.mode = .test ∧ t = s) ∨
        (d.mode = .train ∧ s.info.isInput = false ∧ s.full = true ∧ (s.same = true → s.L.n1 = s.L.n2) ∧
          t = { s with L := C56.after d.rate s.same s.L, info := { s.info with isGaussian := false } }))
  | .layerNorm axis eps ba ca, s, t => s.info.isGaussian = true ∧ s.full = true ∧ 0 ≤ eps ∧ s.info.shape1.length = s.L.S1.length + 2 ∧
      s.info.shape2.length = s.info.shape1.length ∧ s.L.S2.length = s.L.S1.length ∧
      ∃ (b c : ℕ) (ax : Finset ℕ), ba = b ∧ b ≠ c ∧ b < s.info.shape1.length ∧ ca % (s.info.shape1.length : ℤ) = c ∧
        Utils.canonicalizeAxis axis s.info.shape1.length = .ok ax ∧ c ∈ ax ∧
        t = { s with L := normalised s.L eps (decide (b ∈ ax)) (C57.Among ax s.info.shape1.length b c) }
  | .act f, s, t => s.info.isGaussian = true ∧ ∃ C φ dφ N T, Nonlinearity f C φ dφ N T ∧ s.L.Vars C ∧
      t = { s with L := entrywise N T s.L, info := { s.info with isGaussian := false }, full := true }
  | .dotGeneral other isLhs inputC otherC inputB otherB, s, t =>
      let C := contraction s.info other.ndim isLhs inputC otherC inputB otherB
      C.Ok ∧ s.info.shape2.length = s.info.shape1.length ∧
      s.L.n1 = s.info.shape1.getD s.info.batchAxis 0 ∧ s.L.n2 = s.info.shape2.getD s.info.batchAxis 0 ∧
      s.L.S1 = (spatialAxes s.info.shape1.length s.info.batchAxis s.info.channelAxis).map (s.info.shape1.getD · 0) ∧
      s.L.S2 = (spatialAxes s.info.shape1.length s.info.batchAxis s.info.channelAxis).map (s.info.shape2.getD · 0) ∧
      KernelDot.Match C s.info.shape1 other.shape ∧ KernelDot.Match C s.info.shape2 other.shape ∧
      (s.info.diagonalSpatial = true → C.cs = [] ∧ C.outShape s.info.shape1 other.shape = C.outShape s.info.shape2 other.shape) ∧
      (s.info.isReversed = true → s.info.diagonalSpatial = false) ∧
      t = { s with
        L := C.logical s.info.shape1 s.info.shape2 other.shape other.shape other.get other.get s.L
        info := { s.info with isReversed := false, batchAxis := KernelDot.after C s.info.batchAxis, channelAxis := KernelDot.after C s.info.channelAxis } }
  | .index i, s, t => ∃ l a b st n1' n2' S1' S2' out1 out2, IndexOk i s l a b st n1' n2' S1' S2' out1 out2 ∧
      t = indexed s l a b st n1' n2' S1' S2' out1 out2
  | .resize d, s, t => ∃ B A oS, ResizeOk d s B A oS ∧ t = { s with L := C95.resizedSpatial d.weight oS s.L }
  | .attention d, s, t => ∃ c, AttnOk d s c ∧
      t = { s with L := attentionLayer d c (fun _ _ => false) (fun _ _ => false) s.L, info := { s.info with isGaussian := true }, full := true }
  | .identity, s, t => t = s

/-- The branches have the same layout. -/
structure SameLayout {m : ℕ} (s : Fin (m + 1) → State) : Prop where
  diagonalBatch : ∀ r, (s r).info.diagonalBatch = (s 0).info.diagonalBatch
  diagonalSpatial : ∀ r, (s r).info.diagonalSpatial = (s 0).info.diagonalSpatial
  batchAxis : ∀ r, (s r).info.batchAxis = (s 0).info.batchAxis
  channelAxis : ∀ r, (s r).info.channelAxis = (s 0).info.channelAxis
  notReversed : (s 0).info.diagonalSpatial = true → ∀ r, (s r).info.isReversed = false
  sizes : ∀ r, (s r).L.n1 = (s 0).L.n1 ∧ (s r).L.n2 = (s 0).L.n2 ∧ (s r).L.S1 = (s 0).L.S1 ∧ (s r).L.S2 = (s 0).L.S2
  same : ∀ r, (s r).same = (s 0).same
  full : ∀ r, (s r).full = true

/-- Whether more than half of the branches have reversed axes. -/
def majority {m : ℕ} (s : Fin (m + 1) → State) : Bool := 2 * (List.ofFn s).countP (fun x => x.info.isReversed) > m + 1

/-- The branches have the same layout, and perhaps different sizes. -/
structure Alike {m : ℕ} (s : Fin (m + 1) → State) : Prop where
  diagonalBatch : ∀ r, (s r).info.diagonalBatch = (s 0).info.diagonalBatch
  diagonalSpatial : ∀ r, (s r).info.diagonalSpatial = (s 0).info.diagonalSpatial
  batchAxis : ∀ r, (s r).info.batchAxis = (s 0).info.batchAxis
  channelAxis : ∀ r, (s r).info.channelAxis = (s 0).info.channelAxis
  notReversed : (s 0).info.diagonalSpatial = true → ∀ r, (s r).info.isReversed = false
  same : ∀ r, (s r).same = (s 0).same
  full : ∀ r, (s r).full = true
  gaussian : ∀ r, (s r).info.isGaussian = true

/-- The fields after a concatenation along the axis `ax`. -/
def joined {m : ℕ} (s : Fin (m + 1) → State) (ax : ℕ) (gaussian : Bool) : Kernel.Static :=
  { (s 0).info with
    isReversed := majority s, isGaussian := gaussian
    shape1 := (s 0).info.shape1.set ax (∑ r, (s r).info.shape1.getD ax 0)
    shape2 := (s 0).info.shape2.set ax (∑ r, (s r).info.shape2.getD ax 0) }

/-- `FanInConcat(axis)` of the channels. -/
def ChannelSem (axis : ℤ) {m : ℕ} (s : Fin (m + 1) → State) (t : State) : Prop :=
  SameLayout s ∧ (s 0).info.shape1 ≠ [] ∧ (s 0).info.shape2.length = (s 0).info.shape1.length ∧
  axis % ((s 0).info.shape1.length : ℤ) = ((s 0).info.channelAxis : ℕ) ∧
  (∀ r, (s r).info.shape1.eraseIdx (s 0).info.channelAxis = (s 0).info.shape1.eraseIdx (s 0).info.channelAxis ∧
    (s r).info.shape2.eraseIdx (s 0).info.channelAxis = (s 0).info.shape2.eraseIdx (s 0).info.channelAxis) ∧
  ∃ w : Fin _ → ℕ, (∀ r, 0 < w r) ∧ (∀ r, (s r).info.shape1.getD (s r).info.channelAxis 0 = w r) ∧
    (∀ r, (s r).info.shape2.getD (s r).info.channelAxis 0 = w r) ∧
    ∃ hasCov2 hasNtk, (∀ r, (s r).L.k22.isSome = hasCov2) ∧ (∀ r, (s r).L.ntk.isSome = hasNtk) ∧
      t = { s 0 with
        L := C40.channelL w hasCov2 hasNtk fun r => (s r).L
        info := { (s 0).info with
          isReversed := majority s, isGaussian := false
          shape1 := (s 0).info.shape1.set (s 0).info.channelAxis (∑ r, (s r).info.shape1.getD (s 0).info.channelAxis 0)
          shape2 := (s 0).info.shape2.set (s 0).info.channelAxis (∑ r, (s r).info.shape2.getD (s 0).info.channelAxis 0) } }

/-- `FanInConcat(axis)` of spatial axes: `axis` is the axis `ax` of the activations, which is the spatial axis number `c`. -/
def SpatialSem (axis : ℤ) {m : ℕ} (s : Fin (m + 1) → State) (t : State) : Prop :=
  Alike s ∧ ∃ ax c : ℕ, axis % ((s 0).info.shape1.length : ℤ) = ax ∧
    ((s 0).info.shape1.length = (s 0).L.S1.length + 2 ∧ (s 0).info.shape2.length = (s 0).info.shape1.length ∧ (s 0).L.S2.length = (s 0).L.S1.length) ∧
    ((s 0).info.batchAxis < (s 0).info.shape1.length ∧ (s 0).info.channelAxis < (s 0).info.shape1.length ∧ (s 0).info.batchAxis ≠ (s 0).info.channelAxis) ∧
    (restAxes (s 0).info.shape1.length (s 0).info.batchAxis (s 0).info.channelAxis)[c]? = some ax ∧
    (∀ r, (s r).info.shape1.eraseIdx ax = (s 0).info.shape1.eraseIdx ax ∧ (s r).info.shape2.eraseIdx ax = (s 0).info.shape2.eraseIdx ax) ∧
    (∀ r, (s r).L.n1 = (s 0).L.n1 ∧ (s r).L.n2 = (s 0).L.n2) ∧
    (∀ r, (s r).L.S1 = (s 0).L.S1.set c ((s r).L.S1.getD c 0) ∧ (s r).L.S2 = (s 0).L.S2.set c ((s r).L.S2.getD c 0)) ∧
    ∃ hasCov2 hasNtk, (∀ r, (s r).L.k22.isSome = hasCov2) ∧ (∀ r, (s r).L.ntk.isSome = hasNtk) ∧
      t = { s 0 with L := C40.spatialL c hasCov2 hasNtk fun r => (s r).L, info := joined s ax true }

/-- `FanInConcat(axis)` of the batch. -/
def BatchSem (axis : ℤ) {m : ℕ} (s : Fin (m + 1) → State) (t : State) : Prop :=
  Alike s ∧ (s 0).info.shape1 ≠ [] ∧ (s 0).info.shape2.length = (s 0).info.shape1.length ∧ axis % ((s 0).info.shape1.length : ℤ) = ((s 0).info.batchAxis : ℕ) ∧
    (s 0).info.batchAxis ≠ (s 0).info.channelAxis ∧
    (∀ r, (s r).info.shape1.eraseIdx (s 0).info.batchAxis = (s 0).info.shape1.eraseIdx (s 0).info.batchAxis ∧
      (s r).info.shape2.eraseIdx (s 0).info.batchAxis = (s 0).info.shape2.eraseIdx (s 0).info.batchAxis) ∧
    (∀ r, (s r).L.S1 = (s 0).L.S1 ∧ (s r).L.S2 = (s 0).L.S2) ∧
    ∃ hasCov2 hasNtk, (∀ r, (s r).L.k22.isSome = hasCov2) ∧ (∀ r, (s r).L.ntk.isSome = hasNtk) ∧
      t = { s 0 with L := C40.batchL hasCov2 hasNtk fun r => (s r).L, info := joined s (s 0).info.batchAxis true }

/-- The fan-in layer `f`, applied as documented to kernels described by `s`, gives one described by `t`. -/
def FanSem : Fan → {m : ℕ} → (Fin (m + 1) → State) → State → Prop
  | .sum, m, s, t => SameLayout s ∧ ((∀ r, (s r).info.isGaussian = true) ∨ m = 0) ∧
      (∀ r, (s r).info.shape1 = (s 0).info.shape1 ∧ (s r).info.shape2 = (s 0).info.shape2) ∧
      ∃ hasCov2 hasNtk, (∀ r, (s r).L.k22.isSome = hasCov2) ∧ (∀ r, (s r).L.ntk.isSome = hasNtk) ∧
        t = { s 0 with
          L := C38.sumL hasCov2 hasNtk fun r => (s r).L
          info := { (s 0).info with isReversed := majority s } }
  | .prod, m, s, t => SameLayout s ∧
      (∀ r, (s r).info.shape1 = (s 0).info.shape1 ∧ (s r).info.shape2 = (s 0).info.shape2) ∧
      ∃ hasCov2 hasNtk, (∀ r, (s r).L.k22.isSome = hasCov2) ∧ (∀ r, (s r).L.ntk.isSome = hasNtk) ∧
        t = { s 0 with
          L := C39.prodL hasCov2 hasNtk fun r => (s r).L
          info := { (s 0).info with isReversed := majority s, isGaussian := decide (m = 0) && (s 0).info.isGaussian } }
  | .concat axis, _, s, t => ChannelSem axis s t ∨ SpatialSem axis s t ∨ BatchSem axis s t

/-- The state with other shapes. -/
def State.withShapes (s1 s2 : List ℕ) (s : State) : State := { s with info := { s.info with shape1 := s1, shape2 := s2 } }

/-- The network, applied as documented to kernels described by the first value, gives kernels described by the second: every layer is
applied as documented to what the layers before it give. -/
inductive NetSem : Net → Vals State → Vals State → Prop
  | layer {l : Layer} {out : List ℕ → List ℕ} {s t : State} : s.L.Closed → LayerSem l s t →
      NetSem (.layer l out) (.one s) (.one (t.withShapes (out s.info.shape1) (out s.info.shape2)))
  | fanOut {n : ℕ} {v : Vals State} : NetSem (.fanOut n) v (.many (List.replicate n v))
  | fanIn {f : Fan} {out : List (List ℕ) → List ℕ} {m : ℕ} {s : Fin (m + 1) → State} {t : State} : (∀ r, (s r).L.Closed) → FanSem f s t →
      NetSem (.fanIn f out) (.many (List.ofFn fun r => .one (s r)))
        (.one (t.withShapes (out (List.ofFn fun r => (s r).info.shape1)) (out (List.ofFn fun r => (s r).info.shape2))))
  | seq {a b : Net} {u v w : Vals State} : NetSem a u v → NetSem b v w → NetSem (.seq a b) u w
  | par {n : ℕ} {branches : Fin n → Net} {u v : Fin n → Vals State} : (∀ i, NetSem (branches i) (u i) (v i)) →
      NetSem (.par n branches) (.many (List.ofFn u)) (.many (List.ofFn v))

end NT.Spec
