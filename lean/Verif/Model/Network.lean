import Verif.Model.Dense
import Verif.Model.Conv
import Verif.Model.ConvTranspose
import Verif.Model.Pool
import Verif.Model.Flatten
import Verif.Model.Dropout
import Verif.Model.LayerNorm
import Verif.Model.Elementwise
import Verif.Model.KernelDot
import Verif.Model.Concat
import Verif.Model.Resize
import Verif.Model.Attention

/-!
# Networks of layers and the kernels they compute

`kernel_fn` of a network, applied to kernels, as `serial`, `parallel`, `FanOut` and the fan-in layers
compose it from the `kernel_fn`s of the layers (`stax/combinators.py`, `stax/branching.py`).  Kernels
without masks.
-/

namespace NT.Network
open NT

/-- The layers with one input. `act` is any nonlinearity of `stax/elementwise.py`: all of them are decorated by `_elementwise`
(elementwise.py:1250-1275), given the undecorated `kernel_fn`. -/
inductive Layer where
  | dense (d : Dense)
  | conv (d : Conv)
  | convTranspose (d : ConvTranspose)
  | pool (d : Pool)
  | globalPool (d : GlobalPool)
  | flatten (d : Flatten)
  | dropout (d : Dropout)
  | layerNorm (axis : List Int) (eps : ℝ) (batchAxis channelAxis : Int)
  | act (f : Kernel ℝ → Except Err (Kernel ℝ))
  | dotGeneral (other : Arr ℝ) (isLhs : Bool) (inputC otherC inputB otherB : List Int)
  | index (i : Utils.Idx)
  | resize (d : ImageResize)
  | attention (d : Attention)
  | identity

/-- The fan-in layers. -/
inductive Fan where
  | sum
  | prod
  | concat (axis : Int)

/-- `kernel_fn` of a layer: linear.py:899-926 (`Dense`), 1321-1424 (`_Conv`), 1629-1661 (`_Pool`), 1773-1803 (`_GlobalPool`), 1865-1900
(`Flatten`), 2605-2640 (`Dropout`), 2513-2583 (`LayerNorm`), 237-246 (`DotGeneral`), 2907-2909 (`Index`), 2785-2836 (`ImageResize`), 2305-2468 (`GlobalSelfAttention`), 117 (`Identity`), elementwise.py:1262-1272. -/
noncomputable def Layer.kernelFn : Layer → Kernel ℝ → Except Err (Kernel ℝ)
  | .dense d, k => d.kernelFn k
  | .conv d, k => d.kernelFn k
  | .convTranspose d, k => d.kernelFn k
  | .pool d, k => .ok (d.kernelFn k)
  | .globalPool d, k => .ok (d.kernelFn k)
  | .flatten d, k => d.kernelFn k
  | .dropout d, k => d.kernelFn k
  | .layerNorm axis eps ba ca, k => layerNormKernelFn axis eps ba ca k
  | .act f, k => elementwise f k
  | .dotGeneral other isLhs inputC otherC inputB otherB, k =>
    KernelDot.dotGeneral k (some other) (some other) isLhs inputC otherC inputB otherB
  | .index i, k => k.getItem i
  | .resize d, k => d.kernelFn k
  | .attention d, k => d.kernelFn k
  | .identity, k => .ok k

/-- `kernel_fn` of a fan-in layer, branching.py:68-112, 137-181, 205-292. -/
noncomputable def Fan.kernelFn : Fan → List (Kernel ℝ) → Except Err (Kernel ℝ)
  | .sum, ks => Kernel.fanInSum ks
  | .prod, ks => Kernel.fanInProd ks
  | .concat axis, ks => Kernel.fanInConcat axis ks

/-- Networks. `out` is the output shape of `init_fn` of the layer as a function of the input shape. `serial` of several
layers is an iterated `seq`. -/
inductive Net where
  | layer (l : Layer) (out : List Nat → List Nat)
  | fanOut (n : Nat)
  | fanIn (f : Fan) (out : List (List Nat) → List Nat)
  | seq (a b : Net)
  | par (n : Nat) (branches : Fin n → Net)

/-- A value passed between layers, or several. -/
inductive Vals (A : Type) where
  | one (a : A)
  | many (l : List (Vals A))

/-- The values of a list of single values. -/
def Vals.ones {A : Type} : List (Vals A) → Option (List A)
  | [] => some []
  | .one a :: l => (Vals.ones l).map (a :: ·)
  | .many _ :: _ => none

/-- `_set_shapes`, requirements.py:857-879, after the `kernel_fn` of a layer. -/
def setShapes {α : Type} (s1 s2 : List Nat) (k : Kernel α) : Kernel α := { k with shape1 := s1, shape2 := s2 }

/-- A loop over `n` branches that stops at the first error. -/
def collect {B : Type} : (n : Nat) → (Fin n → Except Err B) → Except Err (List B)
  | 0, _ => .ok []
  | n + 1, f =>
    match f 0 with
    | .error e => .error e
    | .ok b =>
      match collect n fun i => f i.succ with
      | .error e => .error e
      | .ok bs => .ok (b :: bs)

/-- `kernel_fn` of a network on kernels: combinators.py:60-66 (`serial`: one layer after the other), 188-196 (`parallel`: each
branch on its input), branching.py:50 (`FanOut`: copies), and the decorator `layer` (requirements.py:933-935).  A
layer given several kernels, or several branches given one, raise. Missing branches: see C33; here the numbers must agree. -/
noncomputable def Net.run : Net → Vals (Kernel ℝ) → Except Err (Vals (Kernel ℝ))
  | .layer l out, .one k =>
    match l.kernelFn k with
    | .error e => .error e
    | .ok k' => .ok (.one (setShapes (out k.shape1) (out k.shape2) k'))
  | .layer _ _, .many _ => .error .attributeError
  | .fanOut n, v => .ok (.many (List.replicate n v))
  | .fanIn _ _, .one _ => .error .typeError
  | .fanIn f out, .many l =>
    match Vals.ones l with
    | none => .error .attributeError
    | some ks =>
      match f.kernelFn ks with
      | .error e => .error e
      | .ok k' => .ok (.one (setShapes (out (ks.map (·.shape1))) (out (ks.map (·.shape2))) k'))
  | .seq a b, v =>
    match a.run v with
    | .error e => .error e
    | .ok v' => b.run v'
  | .par _ _, .one _ => .error .typeError
  | .par n branches, .many l =>
    if h : l.length = n then
      match collect n fun i => (branches i).run (l[i]'(by rw [h]; exact i.2)) with
      | .error e => .error e
      | .ok r => .ok (.many r)
    else .error .valueError

end NT.Network
