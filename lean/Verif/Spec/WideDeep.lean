import Verif.Spec.WideConv
import Verif.Model.Pool

/-!
# Random networks of convolutions, dense layers, pooling and flattening

Networks `serial(l1, l2, ...)` of layers of these kinds in any order, with parameters drawn as `init_fn` draws them, as functions of the parameters and the
inputs (`apply_fn`), and as networks of the model (`kernel_fn`).
-/

namespace NT.Spec
open NT NT.Network MeasureTheory ProbabilityTheory

/-- `Conv` or `Dense`, followed by its nonlinearity if there is one, or a layer without parameters. -/
inductive DeepLayer
  | conv (d : Conv) (f : Option Act)
  | dense (d : Dense) (f : Option Act)
  | pool (d : Pool)
  | globalPool (d : GlobalPool)
  | flatten (d : Flatten)

/-- What is fixed when the widths vary. -/
inductive DeepStage
  | conv (s : ConvStage)
  | dense (s : Stage)
  | pool (d : Pool)
  | globalPool (d : GlobalPool)
  | flatten (d : Flatten)

/-- The layer without its width and parameterization. -/
def DeepLayer.stage : DeepLayer → DeepStage
  | .conv d f => .conv ⟨d.filter, d.padding, d.wStd, d.bStd, f⟩
  | .dense d f => .dense ⟨d.wStd, d.bStd, f⟩
  | .pool d => .pool d
  | .globalPool d => .globalPool d
  | .flatten d => .flatten d

/-- The format of activations: batch axis, channel axis, and spatial shape. -/
structure Fmt where
  B : ℕ
  A : ℕ
  S : List ℕ

/-- The rank of activations. -/
def Fmt.rank (f : Fmt) : ℕ := f.S.length + 2

/-- The spatial shape after the layer. -/
def DeepStage.dims : DeepStage → List ℕ → List ℕ
  | .conv s, S => outDims s.padding S s.filter
  | .dense _, S => S
  | .pool d, S => outDims d.padding S d.window
  | .globalPool _, _ => []
  | .flatten _, _ => []

/-- The format after the layer. -/
def DeepStage.fmt (s : DeepStage) (f : Fmt) : Fmt :=
  match s with
  | .globalPool _ => if f.B < f.A then ⟨0, 1, []⟩ else ⟨1, 0, []⟩
  | .flatten d => match d.axesOut with
    | .ok (bo, co) => ⟨bo, co, []⟩
    | .error _ => ⟨f.B, f.A, []⟩
  | s => ⟨f.B, f.A, s.dims f.S⟩

/-- A layer without parameters on top, which multiplies the number of channels by `m`. -/
def RandomNet.mapOut (g : Arr ℝ → Arr ℝ) (m : ℕ) (N : RandomNet) : RandomNet where
  E := N.E
  law := N.law
  apply θ x := g (N.apply θ x)
  channels := N.channels * m

/-- An optional nonlinearity on top. -/
def RandomNet.actOpt (f : Option Act) (N : RandomNet) : RandomNet :=
  match f with
  | none => N
  | some f => N.act f.fn

/-- The network with the layer on top, for activations of the given format. -/
noncomputable def DeepLayer.grow (l : DeepLayer) (f : Fmt) (N : RandomNet) : RandomNet :=
  match l with
  | .conv d a => (N.conv d f.rank).actOpt a
  | .dense d a => (N.dense d f.rank f.A).actOpt a
  | .pool d => N.mapOut d.apply 1
  | .globalPool d => N.mapOut d.apply 1
  | .flatten d => N.mapOut (fun x => match d.apply x with
    | .ok z => z
    | .error _ => ⟨[], fun _ => 0⟩) f.S.prod

/-- The network with the layers on top. -/
noncomputable def drawFrom : Fmt → RandomNet → List DeepLayer → RandomNet
  | _, N, [] => N
  | f, N, l :: ls => drawFrom (l.stage.fmt f) (l.grow f N) ls

/-- The random network `serial(l1, l2, ...)` for inputs with `C` channels. -/
noncomputable def drawDeep (C : ℕ) (f : Fmt) (layers : List DeepLayer) : RandomNet := drawFrom f (RandomNet.input C) layers

/-- The sizes of the axes of `s` other than `b` and `c`. -/
def spatialOf (b c : ℕ) (s : List ℕ) : List ℕ := Arr.gather ((List.range s.length).filter fun i => !([b, c].contains i)) s

/-- The output shape of `init_fn` of the layer. -/
def DeepLayer.outShape : DeepLayer → List ℕ → List ℕ
  | .conv d _, s => convOut d s
  | .dense d _, s => s.set (d.channelAxis % s.length).toNat d.width
  | .pool d, s => actIdx d.batchAxis d.ca (s.getD d.batchAxis 0) (s.getD d.ca 0) (outDims d.padding (spatialOf d.batchAxis d.ca s) d.window)
  | .globalPool d, s =>
    let b := (d.batchAxis % s.length).toNat
    let c := (d.channelAxis % s.length).toNat
    if b < c then [s.getD b 0, s.getD c 0] else [s.getD c 0, s.getD b 0]
  | .flatten d, s =>
    let b := (d.batchAxis % s.length).toNat
    match d.axesOut with
    | .ok (bo, co) => actIdx bo co (s.getD b 0) (s.eraseIdx b).prod []
    | .error _ => s

/-- The layer of the model of `stax`. -/
noncomputable def DeepLayer.layer : DeepLayer → Layer × Option Act
  | .conv d f => (.conv d, f)
  | .dense d f => (.dense d, f)
  | .pool d => (.pool d, none)
  | .globalPool d => (.globalPool d, none)
  | .flatten d => (.flatten d, none)

/-- The network of the model with the layer on top. -/
noncomputable def DeepLayer.growNet (N : Net) (l : DeepLayer) : Net :=
  let N := N.seq (.layer l.layer.1 l.outShape)
  match l.layer.2 with
  | none => N
  | some f => N.seq (.layer (.act f.kernelFn) id)

/-- The same network of the model of `stax`. -/
noncomputable def deepNet (layers : List DeepLayer) : Net := layers.foldl DeepLayer.growNet (.layer .identity id)

/-- The layer can be applied to activations of the format, and has at least `n` channels. -/
def DeepLayer.Wide (n : ℕ) (f : Fmt) : DeepLayer → Prop
  | .conv d _ => d.sharedWeights = true ∧ d.param ≠ .other ∧ (d.param = .standard → 0 < d.s.1) ∧ d.batchAxis = f.B ∧ d.channelAxis = f.A ∧ n ≤ d.width
  | .dense d _ => d.param ≠ .other ∧ (d.param = .standard → 0 < d.s.1) ∧ (f.A : ℤ) = d.channelAxis % f.rank ∧
      (-(f.rank : ℤ) ≤ d.channelAxis ∧ d.channelAxis < f.rank) ∧ n ≤ d.width
  | _ => True

/-- All layers can be applied and have at least `n` channels. -/
def AllWide (n : ℕ) : Fmt → List DeepLayer → Prop
  | _, [] => True
  | f, l :: ls => l.Wide n f ∧ AllWide n (l.stage.fmt f) ls

/-- The spatial shape after the stages. -/
def deepDims (l : List DeepStage) (S : List ℕ) : List ℕ := l.foldl (fun S s => s.dims S) S

/-- The format after the stages. -/
def deepFmt (l : List DeepStage) (f : Fmt) : Fmt := l.foldl (fun f s => s.fmt f) f

end NT.Spec
