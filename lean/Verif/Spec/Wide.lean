import Verif.Spec.Semantics
import Verif.Spec.Channels
import Mathlib.Probability.Distributions.Gaussian.Real

/-!
# Random fully connected networks

Networks `serial(Dense(n1), phi1, Dense(n2), phi2, ...)` with parameters drawn as `init_fn` draws them, as functions of the parameters and the inputs
(`apply_fn`), and as networks of the model (`kernel_fn`).
-/

namespace NT.Spec
open NT NT.Network MeasureTheory ProbabilityTheory

/-- Independent normal numbers with mean 0 and variances `v`. -/
noncomputable def normalVector {ι : Type} [Fintype ι] (v : ι → ℝ) : Measure (EuclideanSpace ℝ ι) :=
  (Measure.pi fun k => gaussianReal 0 (v k).toNNReal).map (WithLp.toLp 2)

/-- A network with random parameters: the space of the parameters, their law, the output for given parameters and inputs, and the number of channels of the
output. -/
structure RandomNet where
  E : Type
  [normed : NormedAddCommGroup E]
  [inner : InnerProductSpace ℝ E]
  [complete : CompleteSpace E]
  [meas : MeasurableSpace E]
  [borel : BorelSpace E]
  [second : SecondCountableTopology E]
  law : Measure E
  [prob : IsProbabilityMeasure law]
  apply : E → Arr ℝ → Arr ℝ
  channels : ℕ

attribute [instance] RandomNet.normed RandomNet.inner RandomNet.complete RandomNet.meas RandomNet.borel RandomNet.second RandomNet.prob

instance {ι : Type} [Fintype ι] (v : ι → ℝ) : IsProbabilityMeasure (normalVector v) :=
  Measure.isProbabilityMeasure_map (by fun_prop)

instance {E ι : Type} [NormedAddCommGroup E] [InnerProductSpace ℝ E] [CompleteSpace E] [MeasurableSpace E] [Fintype ι] (μ : Measure E)
    (ν : Measure (EuclideanSpace ℝ ι)) [IsProbabilityMeasure μ] [IsProbabilityMeasure ν] : IsProbabilityMeasure (extMeasure μ ν) :=
  Measure.isProbabilityMeasure_map (by fun_prop)

/-- No parameters: the output is the input, with `C` channels. -/
noncomputable def RandomNet.input (C : ℕ) : RandomNet where
  E := EuclideanSpace ℝ (Fin 0)
  law := Measure.dirac 0
  apply _ x := x
  channels := C

/-- A `Dense` layer with fresh parameters on top, for inputs of rank `r` with channels at axis `ca`. -/
noncomputable def RandomNet.dense (d : Dense) (r ca : ℕ) (N : RandomNet) : RandomNet where
  E := Ext N.E (C52.Idx N.channels d.width (C52.nBias d))
  law := extMeasure N.law (normalVector (C52.initVar d))
  apply θ x := C52.layerOut d r ca (fun θ => N.apply θ x) θ
  channels := d.width

/-- A nonlinearity on top. -/
def RandomNet.act (φ : ℝ → ℝ) (N : RandomNet) : RandomNet where
  E := N.E
  law := N.law
  apply θ x := (N.apply θ x).map φ
  channels := N.channels

/-- A nonlinearity: the function and the `kernel_fn` of its layer. -/
structure Act where
  fn : ℝ → ℝ
  kernelFn : Kernel ℝ → Except Err (Kernel ℝ)

/-- The network of the layers `Dense`, each followed by its nonlinearity if there is one. -/
noncomputable def draw (C r ca : ℕ) (ds : List (Dense × Option Act)) : RandomNet :=
  ds.foldl (fun N d => match d.2 with
    | none => N.dense d.1 r ca
    | some f => (N.dense d.1 r ca).act f.fn) (RandomNet.input C)

/-- The same network of the model of `stax`: `init_fn` of `Dense` replaces the number of channels. -/
noncomputable def fcNet (ca : ℕ) (ds : List (Dense × Option Act)) : Net :=
  ds.foldl (fun N d =>
    let N := N.seq (.layer (.dense d.1) fun s => s.set ca d.1.width)
    match d.2 with
    | none => N
    | some f => N.seq (.layer (.act f.kernelFn) id)) (.layer .identity id)

/-- What is fixed when the widths vary: `W_std`, `b_std` and the nonlinearity. -/
structure Stage where
  wStd : ℝ
  bStd : Option ℝ
  act : Option Act

/-- The layer `d` has the hyperparameters of the stage, a valid parameterization, at least `n` channels, and the channels at axis `ca` for inputs of rank `r`. -/
structure Stage.Fits (r ca n : ℕ) (d : Dense × Option Act) (s : Stage) : Prop where
  wStd : d.1.wStd = s.wStd
  bStd : d.1.bStd = s.bStd
  act : d.2 = s.act
  param : d.1.param ≠ .other
  sample : d.1.param = .standard → 0 < d.1.s.1
  axis : (ca : ℤ) = d.1.channelAxis % r
  inRange : -(r : ℤ) ≤ d.1.channelAxis ∧ d.1.channelAxis < r
  wide : n ≤ d.1.width

end NT.Spec
