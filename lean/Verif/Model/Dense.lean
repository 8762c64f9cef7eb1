import Verif.Model.Dot
import Verif.Model.Axes
import Verif.Model.Branching
import Verif.Model.Kernel
import Mathlib.Analysis.Real.Sqrt

/-!
# The `Dense` layer: `neural_tangents/_src/stax/linear.py:760-931`
-/

namespace NT
open Arr

/-- The `parameterization` argument after `.lower()`. -/
inductive Param
  | ntk
  | standard
  | other
  deriving DecidableEq

/-- `l[i]` for a Python integer `i`. -/
def pyGetNat (l : List Nat) (i : Int) : Except Err Nat :=
  if -(l.length : Int) ≤ i ∧ i < l.length then .ok (l.getD (i % (l.length : Int)).toNat 0) else .error .indexError

/-- `_affine` on one array, linear.py:2938-2971. -/
def affine (mat : Arr ℝ) (wStd : ℝ) (bStd : Option ℝ) : Arr ℝ :=
  let mat := mat.map fun v => v * wStd ^ 2
  match bStd with
  | none => mat
  | some b => mat.map fun v => v + b ^ 2

/-- The arguments of `Dense`, linear.py:762-770. -/
structure Dense where
  outDim : Nat
  wStd : ℝ
  bStd : Option ℝ
  channelAxis : Int
  param : Param
  s : Nat × Nat

namespace Dense

/-- The number of output channels, linear.py:864-868. -/
def width (d : Dense) : Nat := if d.param = .standard then d.outDim * d.s.2 else d.outDim

/-- The factors of the drawn standard normal `W`, `b`, linear.py:864-871: in the standard
parameterization `W *= W_std / (input_shape[channel_axis] / s[0]) ** 0.5` and `b *= b_std`. -/
noncomputable def scaleW (d : Dense) (inDim : Nat) : ℝ :=
  if d.param = .standard then d.wStd / Real.sqrt (inDim / d.s.1) else 1

@[inherit_doc scaleW]
noncomputable def scaleB (d : Dense) : ℝ := if d.param = .standard then d.bStd.getD 0 else 1

/-- `init_fn`, linear.py:848-878, for drawn standard normal numbers `nW`, `nb`: the output shape, `W`, `b`.
Simplified: `channel_axis` is in range. -/
noncomputable def init (d : Dense) (nW nb : Arr ℝ) (inputShape : List Nat) :
    Except Err (List Nat × Arr ℝ × Option (Arr ℝ)) :=
  if d.param = .other then .error .valueError
  else
    let ca := (d.channelAxis % (inputShape.length : Int)).toNat
    let c := inputShape.getD ca 0
    .ok (inputShape.set ca d.width,
      ⟨[c, d.width], fun i => nW.get i * d.scaleW c⟩,
      d.bStd.map fun _ => ⟨(List.replicate inputShape.length 1).set ca d.width, fun i => nb.get i * d.scaleB⟩)

/-- `apply_fn`, linear.py:880-897. -/
noncomputable def apply (d : Dense) (W : Arr ℝ) (b : Option (Arr ℝ)) (x : Arr ℝ) : Except Err (Arr ℝ) :=
  let ca := (d.channelAxis % (x.ndim : Int)).toNat
  match tensordot W x 0 ca with
  | .error e => .error e
  | .ok prod =>
    let prod := prod.moveaxis [0] [ca]
    match d.param with
    | .ntk =>
      let norm := d.wStd / Real.sqrt (x.shape.getD ca 0)
      let outputs := prod.map fun v => norm * v
      .ok (match b with
        | none => outputs
        | some b => bcast (fun v u => v + d.bStd.getD 0 * u) outputs b)
    | .standard =>
      let outputs := prod.map fun v => v / Real.sqrt d.s.1
      .ok (match b with
        | none => outputs
        | some b => bcast (fun v u => v + u) outputs b)
    | .other => .error .valueError

/-- The `ntk` part of `kernel_fn` for the `ntk` parameterization, linear.py:910-913. -/
noncomputable def ntkNtk (d : Dense) (nngp : Arr ℝ) : Option (Arr ℝ) → Except Err (Option (Arr ℝ))
  | none => .ok none
  | some n => (zipB (· + ·) nngp (n.map fun v => d.wStd ^ 2 * v)).map some

/-- The `ntk` part of `kernel_fn` for the standard parameterization, linear.py:914-919. -/
noncomputable def ntkStandard (d : Dense) (inputWidth : ℝ) (nngp : Arr ℝ) : Option (Arr ℝ) → Except Err (Option (Arr ℝ))
  | none => .ok none
  | some n =>
    match zipB (· + ·) (nngp.map fun v => inputWidth * v) (n.map fun v => d.wStd ^ 2 * v) with
    | .error e => .error e
    | .ok n => .ok (some (if d.bStd.isSome then n.map fun v => v + 1 else n))

/-- `kernel_fn`, linear.py:899-926. -/
noncomputable def kernelFn (d : Dense) (k : Kernel ℝ) : Except Err (Kernel ℝ) :=
  let fc := fun x => affine x d.wStd d.bStd
  let finish := fun (ntk : Option (Arr ℝ)) =>
    { k with cov1 := fc k.cov1, nngp := fc k.nngp, cov2 := k.cov2.map fc, ntk := ntk,
             isGaussian := true, isInput := false }
  match d.param with
  | .ntk => (d.ntkNtk (fc k.nngp) k.ntk).map finish
  | .standard =>
    match pyGetNat k.shape1 d.channelAxis with
    | .error e => .error e
    | .ok w => (d.ntkStandard ((w : ℝ) / d.s.1) k.nngp k.ntk).map finish
  | .other => .error .valueError

/-- `mask_fn`, linear.py:928-929. -/
def maskFn (d : Dense) (mask : Arr Bool) : Arr Bool :=
  let ca := (d.channelAxis % (mask.ndim : Int)).toNat
  ⟨mask.shape.set ca 1, fun i => (List.range (mask.shape.getD ca 0)).all fun c => mask.get (i.set ca c)⟩

end Dense
end NT
