import Verif.Spec.Dual
import Verif.Spec.Semantics

/-!
# Selecting examples of the two inputs of a kernel
-/

namespace NT.Spec
open NT NT.Network NT.Arr

/-- A selection of examples: `m1` of the first inputs and `m2` of the second, in any order and with repetitions; number `i` of the selected
ones is number `f i` (`g i`) of the original ones.  `same` is the flag `x1_is_x2` of the selected ones. -/
structure Pick where
  m1 : ℕ
  m2 : ℕ
  f : ℕ → ℕ
  g : ℕ → ℕ
  same : Bool

/-- Covariances of the selected examples. -/
def pick2 (f g : ℕ → ℕ) (F : List ℕ → List ℕ → List ℕ → ℝ) (b : List ℕ) : List ℕ → List ℕ → ℝ := F [f (b.getD 0 0), g (b.getD 1 0)]

/-- The content of the kernel of the selected examples. -/
def _root_.NT.Logical.pick (σ : Pick) (L : Logical ℝ) : Logical ℝ where
  n1 := σ.m1
  n2 := σ.m2
  S1 := L.S1
  S2 := L.S2
  k12 := pick2 σ.f σ.g L.k12
  k11 := pick2 σ.f σ.f L.k11
  k22 := L.k22.map (pick2 σ.g σ.g)
  ntk := L.ntk.map (pick2 σ.f σ.g)

/-- The state of the kernel of the selected examples. -/
def State.pick (σ : Pick) (s : State) : State where
  L := s.L.pick σ
  info := { s.info with shape1 := s.info.shape1.set s.info.batchAxis σ.m1, shape2 := s.info.shape2.set s.info.batchAxis σ.m2 }
  same := σ.same
  full := s.full

/-- The selected examples are among the original ones; and if the second inputs are absent (equal to the first), they are still after the selection. -/
structure Pick.Fits (σ : Pick) (L : Logical ℝ) : Prop where
  one : ∀ i, i < σ.m1 → σ.f i < L.n1
  two : ∀ i, i < σ.m2 → σ.g i < L.n2
  closed : L.k22 = none → σ.m1 = σ.m2 ∧ ∀ i, i < σ.m1 → σ.f i = σ.g i

/-- The layer treats the examples one by one: it does not normalise over the batch, nor multiply examples with different rows of a constant
array, nor select some of them, nor mistake the batch axis for the channels.  Dropout in training mode rescales the covariance of an example with itself, so there the examples
may not be repeated, and the two selections must agree where the inputs do. -/
def _root_.NT.Network.Layer.PerExample (σ : Pick) : Layer → State → Prop
  | .dense d, s => d.channelAxis % (s.info.shape1.length : ℤ) ≠ s.info.batchAxis ∧ d.channelAxis % (s.info.shape2.length : ℤ) ≠ s.info.batchAxis
  | .conv d, s => d.channelAxis ≠ s.info.batchAxis
  | .convTranspose d, s => d.conv.channelAxis ≠ s.info.batchAxis
  | .dropout d, s => d.mode = .train → (∀ i j, i < σ.m1 → j < σ.m1 → σ.f i = σ.f j → i = j) ∧ (∀ i j, i < σ.m2 → j < σ.m2 → σ.g i = σ.g j → i = j) ∧
      σ.same = s.same ∧ (s.same = true → σ.m1 = σ.m2 ∧ ∀ i, i < σ.m1 → σ.f i = σ.g i)
  | .layerNorm axis _ ba _, s => ∀ (b : ℕ) (ax : Finset ℕ), ba = b → Utils.canonicalizeAxis axis s.info.shape1.length = .ok ax → b ∉ ax
  | .dotGeneral other isLhs inputC otherC inputB otherB, s =>
      s.info.batchAxis ∉ (contraction s.info other.ndim isLhs inputC otherC inputB otherB).bs
  | .index i, s => ∀ l, C21.Means s.info.shape1.length i l → l[s.info.batchAxis]? = some Utils.full
  | _, _ => True

/-- `NetSem` for networks all of whose layers treat the examples one by one; in particular the size of the batch axis of the output shape of each
layer is that of the input shape. -/
inductive PerExample (σ : Pick) : Net → Vals State → Vals State → Prop
  | layer {l : Layer} {out : List ℕ → List ℕ} {s t : State} : s.L.Closed → LayerSem l s t → l.PerExample σ s →
      out (s.info.shape1.set s.info.batchAxis σ.m1) = (out s.info.shape1).set t.info.batchAxis σ.m1 →
      out (s.info.shape2.set s.info.batchAxis σ.m2) = (out s.info.shape2).set t.info.batchAxis σ.m2 →
      PerExample σ (.layer l out) (.one s) (.one (t.withShapes (out s.info.shape1) (out s.info.shape2)))
  | fanOut {n : ℕ} {v : Vals State} : PerExample σ (.fanOut n) v (.many (List.replicate n v))
  | fanIn {f : Fan} {out : List (List ℕ) → List ℕ} {m : ℕ} {s : Fin (m + 1) → State} {t : State} : (∀ r, (s r).L.Closed) → FanSem f s t →
      (∀ axis, f = .concat axis → axis % ((s 0).info.shape1.length : ℤ) ≠ (s 0).info.batchAxis) →
      out (List.ofFn fun r => (s r).info.shape1.set (s r).info.batchAxis σ.m1) = (out (List.ofFn fun r => (s r).info.shape1)).set t.info.batchAxis σ.m1 →
      out (List.ofFn fun r => (s r).info.shape2.set (s r).info.batchAxis σ.m2) = (out (List.ofFn fun r => (s r).info.shape2)).set t.info.batchAxis σ.m2 →
      PerExample σ (.fanIn f out) (.many (List.ofFn fun r => .one (s r)))
        (.one (t.withShapes (out (List.ofFn fun r => (s r).info.shape1)) (out (List.ofFn fun r => (s r).info.shape2))))
  | seq {a b : Net} {u v w : Vals State} : PerExample σ a u v → PerExample σ b v w → PerExample σ (.seq a b) u w
  | par {n : ℕ} {branches : Fin n → Net} {u v : Fin n → Vals State} : (∀ i, PerExample σ (branches i) (u i) (v i)) →
      PerExample σ (.par n branches) (.many (List.ofFn u)) (.many (List.ofFn v))

/-- `a'` is `a` restricted to selections along the first two axes. -/
structure PickedArr2 (m1 m2 : ℕ) (f g : ℕ → ℕ) (a a' : Arr ℝ) : Prop where
  shapes : ∃ n1 n2 P, a.shape = n1 :: n2 :: P ∧ a'.shape = m1 :: m2 :: P ∧
    ∀ i j t, i < m1 → j < m2 → InRange t P → a'.get (i :: j :: t) = a.get (f i :: g j :: t)

/-- `a'` is `a` restricted to a selection along the first axis. -/
structure PickedArr1 (m : ℕ) (f : ℕ → ℕ) (a a' : Arr ℝ) : Prop where
  shapes : ∃ n P, a.shape = n :: P ∧ a'.shape = m :: P ∧ ∀ i t, i < m → InRange t P → a'.get (i :: t) = a.get (f i :: t)

/-- A covariance of one input, with one or two batch axes, restricted to selected examples. -/
def PickedCov (diagonalBatch : Bool) (m : ℕ) (f : ℕ → ℕ) (a a' : Arr ℝ) : Prop :=
  if diagonalBatch then PickedArr1 m f a a' else PickedArr2 m m f f a a'

/-- `a` is the number 0, or an array that is 0 on the selected examples. -/
def ZeroOn (m1 m2 : ℕ) (f g : ℕ → ℕ) (a : Arr ℝ) : Prop :=
  a.shape = [] ∧ a.get [] = 0 ∨ ∃ n1 n2 P, a.shape = n1 :: n2 :: P ∧ ∀ i j t, i < m1 → j < m2 → InRange t P → a.get (f i :: g j :: t) = 0

/-- `k'` is the kernel `k` restricted to the selected examples. A tangent kernel may also be the number 0. -/
structure Picked (σ : Pick) (k k' : Kernel ℝ) : Prop where
  nngp : PickedArr2 σ.m1 σ.m2 σ.f σ.g k.nngp k'.nngp
  ntk : OptRel (fun a a' => ((a.shape = [] ∨ a'.shape = []) ∧ ZeroOn σ.m1 σ.m2 σ.f σ.g a ∧ ZeroOn σ.m1 σ.m2 id id a') ∨
    PickedArr2 σ.m1 σ.m2 σ.f σ.g a a') k.ntk k'.ntk
  cov1 : PickedCov k.diagonalBatch σ.m1 σ.f k.cov1 k'.cov1
  cov2 : OptRel (PickedCov k.diagonalBatch σ.m2 σ.g) k.cov2 k'.cov2
  static : k'.static = { k.static with shape1 := k.shape1.set k.batchAxis σ.m1, shape2 := k.shape2.set k.batchAxis σ.m2 }

/-- `x'` consists of the examples number `f 0`, …, `f (m - 1)` of `x`, along the batch axis `B`: `x' = x[f]` for `B = 0`. -/
structure Takes (m : ℕ) (f : ℕ → ℕ) (B : ℕ) (x x' : Arr ℝ) : Prop where
  shape : x'.shape = x.shape.set B m
  get : ∀ i, InRange i x'.shape → x'.get i = x.get (i.set B (f (i.getD B 0)))

end NT.Spec
