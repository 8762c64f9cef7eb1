import Verif.Spec.Semantics
import Verif.Model.Masked
import Verif.Props.C25
import Verif.Props.C35

/-!
# Examples of different sizes in one batch

Examples of different spatial sizes are padded to a common shape, and the padding is masked.  What the layers do to the information in the
kernel of such a batch.
-/

namespace NT.Spec
open NT NT.Network NT.Masked

/-- Position `p` is padding of example `i`, an example of the sizes `len i`. -/
def padding (len : ℕ → List ℕ) (i : ℕ) (p : List ℕ) : Bool := !decide (InRange p (len i))

/-- Two batches of examples of the sizes `len1 i`, `len2 j`, padded: the information about their kernel, the number of channels and the number of channels
of their masks. -/
structure Padded extends State where
  len1 : ℕ → List ℕ
  len2 : ℕ → List ℕ
  c : ℕ
  mc : ℕ

/-- Covariances with padding are zero. -/
structure ZeroPadding (L : Logical ℝ) (len1 len2 : ℕ → List ℕ) : Prop where
  k12 : ∀ i < L.n1, ∀ j < L.n2, ∀ p q, InRange p L.S1 → InRange q L.S2 → ¬(InRange p (len1 i) ∧ InRange q (len2 j)) → L.k12 [i, j] p q = 0
  k11 : ∀ i < L.n1, ∀ j < L.n1, ∀ p q, InRange p L.S1 → InRange q L.S1 → ¬(InRange p (len1 i) ∧ InRange q (len1 j)) → L.k11 [i, j] p q = 0
  k22 : ∀ F, L.k22 = some F → ∀ i < L.n2, ∀ j < L.n2, ∀ p q, InRange p L.S2 → InRange q L.S2 → ¬(InRange p (len2 i) ∧ InRange q (len2 j)) →
    F [i, j] p q = 0
  ntk : ∀ F, L.ntk = some F → ∀ i < L.n1, ∀ j < L.n2, ∀ p q, InRange p L.S1 → InRange q L.S2 → ¬(InRange p (len1 i) ∧ InRange q (len2 j)) →
    F [i, j] p q = 0

/-- Two batches in a layout with all pairs of positions, whose examples fit into the common shapes. -/
structure Padded.Ok (s : Padded) : Prop where
  pairs : s.info.diagonalSpatial = false
  two : s.L.k22 ≠ none
  axes : s.info.batchAxis ≠ s.info.channelAxis ∧ s.info.batchAxis < s.L.S1.length + 2 ∧ s.info.channelAxis < s.L.S1.length + 2
  rank : s.L.S2.length = s.L.S1.length
  shape1 : s.info.shape1 = actIdx s.info.batchAxis s.info.channelAxis s.L.n1 s.c s.L.S1
  shape2 : s.info.shape2 = actIdx s.info.batchAxis s.info.channelAxis s.L.n2 s.c s.L.S2
  len1 : ∀ i < s.L.n1, List.Forall₂ (· ≤ ·) (s.len1 i) s.L.S1
  len2 : ∀ j < s.L.n2, List.Forall₂ (· ≤ ·) (s.len2 j) s.L.S2
  mc : 0 < s.mc
  zero : ZeroPadding s.L s.len1 s.len2

/-- `out` is the output shape of a layer that changes the number of channels from `s.c` to `c` and nothing else. -/
def SameSizes (out : List ℕ → List ℕ) (s : Padded) (c : ℕ) : Prop :=
  ∀ n T, T.length = s.L.S1.length → out (actIdx s.info.batchAxis s.info.channelAxis n s.c T) = actIdx s.info.batchAxis s.info.channelAxis n c T

/-- The batch after a layer, which gives the state `t`, and masking of the padding. -/
noncomputable def Padded.next (s : Padded) (t : State) (out : List ℕ → List ℕ) (c mc : ℕ) : Padded where
  toState := (State.withShapes (out s.info.shape1) (out s.info.shape2) { t with L := C25.maskL t.L (padding s.len1) (padding s.len2) })
  len1 := s.len1
  len2 := s.len2
  c := c
  mc := mc

/-- The kernel of the sums or averages over the positions of each example, without padding. -/
noncomputable def pooledExamples (type : Pooling) (len1 len2 : ℕ → List ℕ) (L : Logical ℝ) : Logical ℝ where
  n1 := L.n1
  n2 := L.n2
  S1 := []
  S2 := []
  k12 b _ _ := C54.weight type (len1 (b.getD 0 0)) * C54.weight type (len2 (b.getD 1 0)) *
    ∑ p ∈ box (len1 (b.getD 0 0)), ∑ q ∈ box (len2 (b.getD 1 0)), L.k12 b p q
  k11 b _ _ := C54.weight type (len1 (b.getD 0 0)) * C54.weight type (len1 (b.getD 1 0)) *
    ∑ p ∈ box (len1 (b.getD 0 0)), ∑ q ∈ box (len1 (b.getD 1 0)), L.k11 b p q
  k22 := L.k22.map fun F b _ _ => C54.weight type (len2 (b.getD 0 0)) * C54.weight type (len2 (b.getD 1 0)) *
    ∑ p ∈ box (len2 (b.getD 0 0)), ∑ q ∈ box (len2 (b.getD 1 0)), F b p q
  ntk := L.ntk.map fun F b _ _ => C54.weight type (len1 (b.getD 0 0)) * C54.weight type (len2 (b.getD 1 0)) *
    ∑ p ∈ box (len1 (b.getD 0 0)), ∑ q ∈ box (len2 (b.getD 1 0)), F b p q

/-- The layers with masks, applied to padded batches so that they treat each example as they treat it alone: convolutions and local pooling with padding
`'SAME'`, unit strides and a fixed divisor, nonlinearities that either mask their output or keep zero, global pooling of nonempty examples. Layers that read the
mask need one with one channel, as is that after `Dense` and `Conv`. -/
inductive Step : MLayer → (List ℕ → List ℕ) → Padded → Padded → Prop
  | dense {d : Dense} {out : List ℕ → List ℕ} {s : Padded} {t : State} {c : ℕ} : d.channelAxis % ((s.L.S1.length + 2 : ℕ) : ℤ) = s.info.channelAxis →
      LayerSem (.dense d) s.toState t → SameSizes out s c → Step (.dense d) out s (s.next t out c 1)
  | conv {d : Conv} {out : List ℕ → List ℕ} {s : Padded} {t : State} {c : ℕ} : d.padding = .same → (∀ v ∈ d.filter, v.2 = 1) → d.sharedWeights = true →
      d.batchAxis = s.info.batchAxis → d.channelAxis = s.info.channelAxis →
      LayerSem (.conv d) s.toState t → SameSizes out s c → Step (.conv d) out s (s.next t out c 1)
  | pool {d : Pool} {out : List ℕ → List ℕ} {s : Padded} {t : State} : d.padding = .same → (∀ v ∈ d.window, v.2 = 1) →
      (d.type = .sum ∨ d.normalizeEdges = false) → d.batchAxis = s.info.batchAxis → d.ca = s.info.channelAxis → s.mc = 1 →
      LayerSem (.pool d) s.toState t → SameSizes out s s.c → Step (.pool d) out s (s.next t out s.c 1)
  | act {f : Kernel ℝ → Except Err (Kernel ℝ)} {remask : Bool} {out : List ℕ → List ℕ} {s : Padded} {C : ℝ → Prop} {φ dφ : ℝ → ℝ}
      {N T : ℝ → ℝ → ℝ → ℝ} : (remask = true ∨ φ 0 = 0 ∧ s.L.Vars (0 ≤ ·)) → (remask = true → s.mc = 1) → s.info.isGaussian = true →
      Nonlinearity f C φ dφ N T → s.L.Vars C → SameSizes out s s.c →
      Step (.act f remask) out s
        (s.next { s.toState with L := entrywise N T s.L, info := { s.info with isGaussian := false }, full := true } out s.c s.mc)
  | dropout {d : Dropout} {out : List ℕ → List ℕ} {s : Padded} : 0 < d.rate → d.rate ≤ 1 → d.mode = .test → SameSizes out s s.c →
      Step (.dropout d) out s (s.next s.toState out s.c s.mc)
  | identity {out : List ℕ → List ℕ} {s : Padded} : SameSizes out s s.c → Step .identity out s (s.next s.toState out s.c s.mc)
  | globalPool {d : GlobalPool} {out : List ℕ → List ℕ} {s : Padded} {b a : ℕ} : s.mc = 1 → s.full = true →
      d.batchAxis % ((s.L.S1.length + 2 : ℕ) : ℤ) = s.info.batchAxis → d.channelAxis % ((s.L.S1.length + 2 : ℕ) : ℤ) = s.info.channelAxis →
      (∀ i < s.L.n1, 0 ∉ s.len1 i) → (∀ j < s.L.n2, 0 ∉ s.len2 j) →
      b = (if s.info.batchAxis < s.info.channelAxis then 0 else 1) → a = (if s.info.batchAxis < s.info.channelAxis then 1 else 0) →
      (∀ n T, T.length = s.L.S1.length → out (actIdx s.info.batchAxis s.info.channelAxis n s.c T) = actIdx b a n s.c []) →
      Step (.globalPool d) out s
        { L := pooledExamples d.type s.len1 s.len2 s.L
          info := { s.info with
            isReversed := false, batchAxis := b, channelAxis := a, shape1 := out s.info.shape1, shape2 := out s.info.shape2 }
          same := s.same, full := true, len1 := fun _ => [], len2 := fun _ => [], c := s.c, mc := 1 }

/-- Layer after layer. -/
inductive Steps : List (MLayer × (List ℕ → List ℕ)) → Padded → Padded → Prop
  | nil {s : Padded} : Steps [] s s
  | cons {l : MLayer} {out : List ℕ → List ℕ} {rest : List (MLayer × (List ℕ → List ℕ))} {s t u : Padded} : Step l out s t → Steps rest t u →
      Steps ((l, out) :: rest) s u

/-- `x` is a batch of `n` examples of the sizes `len i` with `C` channels, batch axis `B` and channel axis `A`, padded to the shape `S` with the value `m`,
which occurs nowhere else. -/
structure PaddedWith (m : ℝ) (x : Arr ℝ) (B A n C : ℕ) (S : List ℕ) (len : ℕ → List ℕ) : Prop where
  shape : x.shape = actIdx B A n C S
  fits : ∀ i < n, List.Forall₂ (· ≤ ·) (len i) S
  value : ∀ i < n, ∀ c < C, ∀ p, InRange p S → (x.get (actIdx B A i c p) = m ↔ ¬InRange p (len i))

/-- `y` is a batch of one, example `i` of `x` without padding. -/
structure ExampleOf (y x : Arr ℝ) (B A i C : ℕ) (len : ℕ → List ℕ) : Prop where
  shape : y.shape = actIdx B A 1 C (len i)
  value : ∀ c < C, ∀ p, InRange p (len i) → y.get (actIdx B A 0 c p) = x.get (actIdx B A i c p)

/-- The information about the kernel of two padded batches of inputs. -/
noncomputable def paddedInputs (m : ℝ) (x1 x2 : Arr ℝ) (db ntk same : Bool) (B A C n1 n2 : ℕ) (S1 S2 : List ℕ) (len1 len2 : ℕ → List ℕ) : Padded where
  L := C35.second (some m) x1 (some x2) ntk B A C n1 n2 S1 S2
  info :=
    { isGaussian := false, isReversed := false, isInput := false, diagonalBatch := db, diagonalSpatial := false
      shape1 := x1.shape, shape2 := x2.shape, batchAxis := B, channelAxis := A }
  same := same
  full := false
  len1 := len1
  len2 := len2
  c := C
  mc := C

/-- The kernel `K'` of a batch of one has for its only example the entries which `K` has for example `i`, at all pairs of positions of an example of
sizes `S`. The index of a pair of examples in `cov1` is one number if only the diagonal is stored. -/
def SameCov (a a' : Arr ℝ) (db rev : Bool) (i : ℕ) (S : List ℕ) : Prop :=
  ∀ p q, InRange p S → InRange q S → a'.get ((if db then [0] else [0, 0]) ++ pos false rev p q) = a.get ((if db then [i] else [i, i]) ++ pos false rev p q)

/-- The same for arrays with one entry for each pair of an example of `x1` and one of `x2`. -/
def SamePair (a a' : Arr ℝ) (rev : Bool) (i j : ℕ) (S T : List ℕ) : Prop :=
  ∀ p q, InRange p S → InRange q T → a'.get ([0, 0] ++ pos false rev p q) = a.get ([i, j] ++ pos false rev p q)

/-- An array of rank 0 stands for one that has the same value everywhere. -/
def spread (a : Arr ℝ) : Arr ℝ := ⟨a.shape, fun i => if a.shape = [] then a.get [] else a.get i⟩

/-- The kernel `K'` of one pair of examples says about them what `K` says about examples `i` and `j`, of sizes `S` and `T`. -/
structure SameExamples (K K' : Kernel ℝ) (i j : ℕ) (S T : List ℕ) : Prop where
  flags : K'.isGaussian = K.isGaussian ∧ K'.isReversed = K.isReversed ∧ K'.isInput = K.isInput ∧ K'.diagonalBatch = K.diagonalBatch ∧
    K'.diagonalSpatial = false ∧ K.diagonalSpatial = false ∧ K'.batchAxis = K.batchAxis ∧ K'.channelAxis = K.channelAxis
  nngp : SamePair K.nngp K'.nngp K.isReversed i j S T
  cov1 : SameCov K.cov1 K'.cov1 K.diagonalBatch K.isReversed i S
  cov2 : OptRel (fun a a' => SameCov a a' K.diagonalBatch K.isReversed j T) K.cov2 K'.cov2
  ntk : OptRel (fun a a' => SamePair (spread a) (spread a') K.isReversed i j S T) K.ntk K'.ntk

end NT.Spec
