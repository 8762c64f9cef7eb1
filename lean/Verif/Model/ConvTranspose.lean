import Verif.Model.Conv
import Verif.Model.Axes

/-!
# Transposed convolutions: `neural_tangents/_src/stax/linear.py:996-1035`, `1116-1454`, `3022-3098`, `3270-3338`, `3440-3496`

`ConvTranspose` is `_Conv` with `transpose=True`; the parts of `_Conv` that do not depend on this flag are those of
`Verif.Model.Conv`.  The propagation of masks (linear.py:1426-1452) is not modelled.
-/

namespace NT
open Arr

/-- Applies `τ size parameters output offset` along each axis; `none` if it is `none` along one of them. -/
def alongAxes {α : Type} (τ : Nat → α → Nat → Nat → Option Nat) : List Nat → List α → List Nat → List Nat → Option (List Nat)
  | n :: S, v :: vs, o :: os, f :: fs =>
    match τ n v o f, alongAxes τ S vs os fs with
    | some p, some r => some (p :: r)
    | _, _ => none
  | [], [], [], [] => some []
  | _, _, _, _ => none

/-- The pads that `lax.conv_transpose` adds around one axis of the dilated input for window `w`, stride `s`
(`_conv_transpose_padding`, JAX, not in /repo).  `CIRCULAR` is never passed to it. -/
def upPads (pad : Padding) (w s : Nat) : Nat × Nat :=
  match pad with
  | .same =>
    let len := w + s - 2
    let a := if s > w - 1 then w - 1 else (len + 1) / 2
    (a, len - a)
  | _ =>
    let len := w + s - 2 + (w - s)
    (w - 1, len - (w - 1))

/-- The size of an axis of size `n` after `s - 1` zeros were inserted between its entries (JAX). -/
def dilated (n s : Nat) : Nat := if n = 0 then 0 else (n - 1) * s + 1

/-- The output size of `lax.conv_transpose` along one axis (JAX). -/
def upOut (pad : Padding) (n : Nat) (v : Nat × Nat) : Nat :=
  windowOut ((upPads pad v.1 v.2).1 + dilated n v.2 + (upPads pad v.1 v.2).2) v.1 1

/-- The entry of the input that filter entry `f` meets at output position `o`: the filter slides with stride 1 over the
padded dilated input and is not flipped (`transpose_kernel=False`); `none` in the pads and at inserted zeros (JAX). -/
def upTap (pad : Padding) (n : Nat) (v : Nat × Nat) (o f : Nat) : Option Nat :=
  let a := (upPads pad v.1 v.2).1
  if a ≤ o + f ∧ o + f < a + dilated n v.2 ∧ (o + f - a) % v.2 = 0 then some ((o + f - a) / v.2) else none

/-- `_pool_transpose`, linear.py:3077-3098: `lax.conv_transpose` with a filter of ones.  Simplified: `ws` lists filter
size and stride of each axis of `x`; the axes that are not in `axes` have size and stride 1 (the code flattens them to
one example axis; `axes` are always the last ones, so that nothing is moved). -/
noncomputable def poolTranspose (x : Arr ℝ) (ws : List (Nat × Nat)) (pad : Padding) : Arr ℝ :=
  ⟨List.zipWith (upOut pad) x.shape ws, fun o =>
    sumOver (ws.map Prod.fst) fun f => readTap x.get (alongAxes (upTap pad) x.shape ws o f)⟩

/-- `window_dimensions` and `dilation` of `_same_pad_for_filter_shape_transpose`, linear.py:3047-3051, for an axis of size
`m`; the target is `some out` for the axes in `axes`. -/
def foldWindow (m : Nat) : Option Nat → Nat × Nat
  | some out => ((m + out - 1) / out / 2 * 2 + 1, out)
  | none => (1, 1)

/-- The entry read by offset `f` of a window of size `v.1` with dilation `v.2` at `o`, stride 1 and `'SAME'` padding:
`(v.1 - 1) * v.2` zeros are added, half of them in front (JAX). -/
def dilTap (m : Nat) (v : Nat × Nat) (o f : Nat) : Option Nat :=
  let lo := (v.1 - 1) * v.2 / 2
  if lo ≤ o + f * v.2 ∧ o + f * v.2 < lo + m then some (o + f * v.2 - lo) else none

/-- `lax.reduce_window(x, 0, lax.add, window, (1, ...), 'SAME', window_dilation)` (JAX primitive, not in /repo). -/
noncomputable def reduceDilated (x : Arr ℝ) (ws : List (Nat × Nat)) : Arr ℝ :=
  ⟨x.shape, fun o => sumOver (ws.map Prod.fst) fun f => readTap x.get (alongAxes dilTap x.shape ws o f)⟩

/-- The slices `x[tuple(slices)]`, linear.py:3063-3073: from `(m - out) // 2` on, `out` entries.  (`m ≥ out` whenever the
code gets here; for `x.shape == out_shape` the slices are the whole array.) -/
def cropTo (x : Arr ℝ) (ts : List (Option Nat)) : Arr ℝ :=
  ⟨List.zipWith (fun m t => t.getD m) x.shape ts, fun i =>
    x.get (List.zipWith (fun mt k => (mt.1 - mt.2.getD mt.1) / 2 + k) (x.shape.zip ts) i)⟩

/-- `_same_pad_for_filter_shape_transpose`, linear.py:3022-3074; `ts` is `some out_shape[i]` for `i` in `axes`. -/
noncomputable def samePadTranspose (x : Arr ℝ) (ts : List (Option Nat)) : Arr ℝ :=
  cropTo (reduceDilated x (List.zipWith foldWindow x.shape ts)) ts

/-- `_conv_kernel_diagonal_spatial_transpose`, linear.py:3440-3496. -/
noncomputable def convUpDiagonal (lhs : Arr ℝ) (ws : List (Nat × Nat)) (pad : Padding) (bn : Nat) : Arr ℝ :=
  if lhs.ndim = 0 then lhs
  else
    let v := List.replicate bn (1, 1) ++ ws
    let out := poolTranspose lhs v (if pad = .circular then .valid else pad)
    let out := if pad = .circular then
      samePadTranspose out (List.replicate bn none ++ ((poolTranspose lhs v .same).shape.drop bn).map some) else out
    out.map fun x => x / ((ws.map Prod.fst).prod : ℕ)

/-- `lax.conv_transpose` of the last two axes with the filter `diag(1 / f)`, linear.py:3312-3321, 3369-3376: all other
axes are flattened to examples. -/
noncomputable def convUpLast (x : Arr ℝ) (v : Nat × Nat) (pad : Padding) : Arr ℝ :=
  let n := x.ndim - 2
  let S := x.shape.drop n
  ⟨x.shape.take n ++ List.zipWith (upOut pad) S [v, v], fun j =>
    sumOver [v.1, v.1] fun g => diagFilter v.1 g *
      readTap (fun p => x.get (j.take n ++ p)) (alongAxes (upTap pad) S [v, v] (j.drop n) g)⟩

/-- `_conv_kernel_full_spatial_loop`, linear.py:3341-3378, with `lax.conv_transpose`. -/
noncomputable def convUpLoop (lhs : Arr ℝ) (ws : List (Nat × Nat)) (pad : Padding) : Arr ℝ :=
  let bn := lhs.ndim - ws.length * 2
  ws.zipIdx.foldr (fun vj x =>
    convUpLast (x.moveaxis [bn + 2 * vj.2, bn + 2 * vj.2 + 1] [x.ndim - 2, x.ndim - 1]) vj.1 pad) lhs

/-- `_conv_kernel_full_spatial_transpose`, linear.py:3270-3338. -/
noncomputable def convUpFull (lhs : Arr ℝ) (ws : List (Nat × Nat)) (pad : Padding) (bn : Nat) : Arr ℝ :=
  if lhs.ndim = 0 then lhs
  else
    let out := convUpLoop lhs ws (if pad = .circular then .valid else pad)
    if pad = .circular then
      let outShape := (poolTranspose lhs (List.replicate bn (1, 1) ++ ws.flatMap fun v => [v, v]) .same).shape
      samePadTranspose out (List.replicate bn none ++ ((reverseZippedList outShape bn).drop bn).map some)
    else out

/-- The arguments of `ConvTranspose`, linear.py:996-1035; simplified as those of `Conv`. -/
structure ConvTranspose where
  conv : Conv
  /-- `_Conv` raises `NotImplementedError` for unshared weights, linear.py:1220-1221. -/
  shared : conv.sharedWeights = true

namespace ConvTranspose

/-- `lax.conv_transpose(x, W, strides, padding)` for `W` of shape `filter ++ [C, D]` (JAX primitive, not in /repo). -/
noncomputable def laxConv (x W : Arr ℝ) (ws : List (Nat × Nat)) (pad : Padding) (ba ca : Nat) : Arr ℝ :=
  let rest := (List.range x.ndim).filter fun i => !([ba, ca].contains i)
  let S := gather rest x.shape
  let C := x.shape.getD ca 0
  let D := W.shape.getD (ws.length + 1) 0
  ⟨actIdx ba ca (x.shape.getD ba 0) D (List.zipWith (upOut pad) S ws), fun j =>
    sumOver (ws.map Prod.fst ++ [C]) fun g =>
      W.get (g ++ [j.getD ca 0]) *
        readTap (fun p => x.get (actIdx ba ca (j.getD ba 0) (g.getD ws.length 0) p))
          (alongAxes (upTap pad) S ws (gather rest j) (g.take ws.length))⟩

/-- The output of `apply_fn` before the bias is added, linear.py:1298-1315. -/
noncomputable def applyConv (d : ConvTranspose) (norm : ℝ) (W x : Arr ℝ) : Arr ℝ :=
  let c := d.conv
  let res := (laxConv x W c.filter (if c.padding = .circular then .valid else c.padding) c.batchAxis c.channelAxis).map
    fun v => norm * v
  if c.padding = .circular then
    let rest := (List.range x.ndim).filter fun i => !([c.batchAxis, c.channelAxis].contains i)
    let outShape := (laxConv x W c.filter .same c.batchAxis c.channelAxis).shape
    samePadTranspose res (actIdx c.batchAxis c.channelAxis none none ((gather rest outShape).map some))
  else res

/-- `apply_fn`, linear.py:1280-1319. -/
noncomputable def apply (d : ConvTranspose) (W : Arr ℝ) (b : Option (Arr ℝ)) (x : Arr ℝ) : Except Err (Arr ℝ) :=
  let c := d.conv
  let C := x.shape.getD c.channelAxis 0
  let run := fun (norm bRescale : ℝ) =>
    let res := d.applyConv norm W x
    match b with
    | none => res
    | some b => bcast (fun v u => v + bRescale * u) res b
  match c.param with
  | .ntk => .ok (run (c.wStd / Real.sqrt (c.fanIn C)) (c.bStd.getD 0))
  | .standard => .ok (run (1 / Real.sqrt c.s.1) 1)
  | .other => .error .notImplemented

/-- `conv_unscaled`, linear.py:1336-1366. -/
noncomputable def convUnscaled (d : ConvTranspose) (k : Kernel ℝ) (lhs : Arr ℝ) (bn : Nat) : Arr ℝ :=
  if k.diagonalSpatial then convUpDiagonal lhs d.conv.filter d.conv.padding bn
  else convUpFull lhs (if k.isReversed then d.conv.filter.reverse else d.conv.filter) d.conv.padding bn

/-- `conv`, linear.py:1388-1391. -/
noncomputable def convScaled (d : ConvTranspose) (k : Kernel ℝ) (lhs : Arr ℝ) (bn : Nat) : Arr ℝ :=
  d.conv.affine k (d.convUnscaled k lhs bn) (d.conv.wStd ^ 2) (d.conv.bStd.map (· ^ 2)) bn

/-- The `ntk` of the `ntk` parameterization, linear.py:1397-1399. -/
noncomputable def ntkNtk (d : ConvTranspose) (k : Kernel ℝ) (nngp : Arr ℝ) : Except Err (Option (Arr ℝ)) :=
  match k.ntk with
  | none => .ok none
  | some n => do
    let r ← zipB (· + ·) ((d.convUnscaled k n 2).map fun v => d.conv.wStd ^ 2 * v) nngp
    return some r

/-- The `ntk` of the standard parameterization, linear.py:1401-1407. -/
noncomputable def ntkStandard (d : ConvTranspose) (k : Kernel ℝ) (C : Nat) (nngpUnscaled : Arr ℝ) :
    Except Err (Option (Arr ℝ)) :=
  match k.ntk with
  | none => .ok none
  | some n => do
    let r ← zipB (· + ·) (nngpUnscaled.map fun v => (d.conv.fanIn C : ℝ) / d.conv.s.1 * v)
      ((d.convUnscaled k n 2).map fun v => d.conv.wStd ^ 2 * v)
    return some (if d.conv.bStd.isSome then d.conv.affine k r 1 (some 1) 2 else r)

/-- `kernel_fn`, linear.py:1321-1424. -/
noncomputable def kernelFn (d : ConvTranspose) (k : Kernel ℝ) : Except Err (Kernel ℝ) :=
  let bn := if k.diagonalBatch then 1 else 2
  let cov1 := d.convScaled k k.cov1 bn
  let cov2 := k.cov2.map fun a => d.convScaled k a bn
  match d.conv.param with
  | .ntk => do
    let nngp := d.convScaled k k.nngp 2
    let ntk ← d.ntkNtk k nngp
    return d.conv.finish k cov1 nngp cov2 ntk
  | .standard => do
    let u := d.convUnscaled k k.nngp 2
    let ntk ← d.ntkStandard k (k.shape1.getD d.conv.channelAxis 0) u
    return d.conv.finish k cov1 (d.conv.affine k u (d.conv.wStd ^ 2) (d.conv.bStd.map (· ^ 2)) 2) cov2 ntk
  | .other => .error .valueError

end ConvTranspose
end NT
