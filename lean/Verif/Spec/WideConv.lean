import Verif.Spec.Wide

/-!
# Random convolutional networks

Networks `serial(Conv(n1), phi1, Conv(n2), phi2, ...)` with parameters drawn as `init_fn` draws them, as functions of the parameters and the inputs
(`apply_fn`), and as networks of the model (`kernel_fn`).
-/

namespace NT.Spec
open NT NT.Network MeasureTheory ProbabilityTheory

/-- A `Conv` layer with fresh parameters on top, for inputs of rank `r`. -/
noncomputable def RandomNet.conv (d : Conv) (r : ℕ) (N : RandomNet) : RandomNet where
  E := Ext N.E (C52.Idx (d.fanIn N.channels) (C53.toDense d).width (C52.nBias (C53.toDense d)))
  law := extMeasure N.law (normalVector (C53.initVar d N.channels))
  apply θ x := C53.layerOut d N.channels r (fun θ => N.apply θ x) θ
  channels := d.width

/-- The network of the layers `Conv`, each followed by its nonlinearity if there is one. -/
noncomputable def drawConv (C r : ℕ) (ds : List (Conv × Option Act)) : RandomNet :=
  ds.foldl (fun N d => match d.2 with
    | none => N.conv d.1 r
    | some f => (N.conv d.1 r).act f.fn) (RandomNet.input C)

/-- The output shape of `init_fn` of `Conv`. -/
def convOut (d : Conv) (s : List ℕ) : List ℕ :=
  actIdx d.batchAxis d.channelAxis (s.getD d.batchAxis 0) d.width
    (outDims d.padding (Arr.gather ((List.range s.length).filter fun i => !([d.batchAxis, d.channelAxis].contains i)) s) d.filter)

/-- The same network of the model of `stax`. -/
noncomputable def convNet (ds : List (Conv × Option Act)) : Net :=
  ds.foldl (fun N d =>
    let N := N.seq (.layer (.conv d.1) (convOut d.1))
    match d.2 with
    | none => N
    | some f => N.seq (.layer (.act f.kernelFn) id)) (.layer .identity id)

/-- What is fixed when the widths vary: the filter sizes and strides, the padding, `W_std`, `b_std` and the nonlinearity. -/
structure ConvStage where
  filter : List (ℕ × ℕ)
  padding : Padding
  wStd : ℝ
  bStd : Option ℝ
  act : Option Act

/-- The layer `d` has the hyperparameters of the stage, shared weights, a valid parameterization, at least `n` channels, and batch and channel axes `ba` and
`ca`. -/
structure ConvStage.Fits (ba ca n : ℕ) (d : Conv × Option Act) (s : ConvStage) : Prop where
  filter : d.1.filter = s.filter
  padding : d.1.padding = s.padding
  wStd : d.1.wStd = s.wStd
  bStd : d.1.bStd = s.bStd
  act : d.2 = s.act
  shared : d.1.sharedWeights = true
  param : d.1.param ≠ .other
  sample : d.1.param = .standard → 0 < d.1.s.1
  batchAxis : d.1.batchAxis = ba
  channelAxis : d.1.channelAxis = ca
  wide : n ≤ d.1.width

/-- The spatial shape after the stages. -/
def dimsAfter (l : List ConvStage) (S : List ℕ) : List ℕ := l.foldl (fun S s => outDims s.padding S s.filter) S

end NT.Spec
