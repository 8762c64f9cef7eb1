[
 {
  "file": "Model/ConvTranspose.lean",
  "definition": "upPads",
  "old": "else (len + 1) / 2",
  "new": "else len / 2",
  "edit": "SAME pads rounded the other way",
  "claim": "C97, C98"
 },
 {
  "file": "Model/ConvTranspose.lean",
  "definition": "upPads",
  "old": "if s > w - 1 then w - 1",
  "new": "if s > w then w - 1",
  "edit": "boundary of the stride test off by one",
  "claim": "C97"
 },
 {
  "file": "Model/ConvTranspose.lean",
  "definition": "upPads",
  "old": "let len := w + s - 2 + (w - s)\n",
  "new": "let len := w + s - 2\n",
  "edit": "VALID output too short",
  "claim": "C97"
 },
 {
  "file": "Model/ConvTranspose.lean",
  "definition": "upPads",
  "old": "(w - 1, len - (w - 1))",
  "new": "(w, len - (w - 1))",
  "edit": "VALID left pad off by one",
  "claim": "C97"
 },
 {
  "file": "Model/ConvTranspose.lean",
  "definition": "dilated",
  "old": "(n - 1) * s + 1",
  "new": "n * s",
  "edit": "zeros also after the last entry",
  "claim": "C97"
 },
 {
  "file": "Model/ConvTranspose.lean",
  "definition": "upTap",
  "old": "∧ (o + f - a) % v.2 = 0",
  "new": "",
  "edit": "inserted zeros read as entries",
  "claim": "C97"
 },
 {
  "file": "Model/ConvTranspose.lean",
  "definition": "upTap",
  "old": "some ((o + f - a) / v.2) else none",
  "new": "some (o + f - a) else none",
  "edit": "stride ignored in the position read",
  "claim": "C97"
 },
 {
  "file": "Model/ConvTranspose.lean",
  "definition": "upTap",
  "old": "let a := (upPads pad v.1 v.2).1",
  "new": "let a := (upPads pad v.1 v.2).2",
  "edit": "right pad used on the left",
  "claim": "C97"
 },
 {
  "file": "Model/ConvTranspose.lean",
  "definition": "foldWindow",
  "old": "(m + out - 1) / out / 2 * 2 + 1",
  "new": "(m + out - 1) / out",
  "edit": "window not rounded up to an odd size",
  "claim": "C97"
 },
 {
  "file": "Model/ConvTranspose.lean",
  "definition": "foldWindow",
  "old": "(m + out - 1) / out / 2 * 2 + 1, out",
  "new": "(m + out - 1) / out / 2 * 2 + 1, m",
  "edit": "dilation is the size of the input",
  "claim": "C97"
 },
 {
  "file": "Model/ConvTranspose.lean",
  "definition": "foldWindow",
  "old": "(m + out - 1) / out / 2 * 2 + 1",
  "new": "m / out / 2 * 2 + 1",
  "edit": "floor instead of ceil",
  "claim": "C97"
 },
 {
  "file": "Model/ConvTranspose.lean",
  "definition": "dilTap",
  "old": "let lo := (v.1 - 1) * v.2 / 2",
  "new": "let lo := (v.1 - 1) * v.2",
  "edit": "all padding on the left",
  "claim": "C97"
 },
 {
  "file": "Model/ConvTranspose.lean",
  "definition": "dilTap",
  "old": "some (o + f * v.2 - lo)",
  "new": "some (o + f - lo)",
  "edit": "dilation ignored in the position read",
  "claim": "C97"
 },
 {
  "file": "Model/ConvTranspose.lean",
  "definition": "cropTo",
  "old": "(mt.1 - mt.2.getD mt.1) / 2 + k",
  "new": "k",
  "edit": "crop from the start",
  "claim": "C97"
 },
 {
  "file": "Model/ConvTranspose.lean",
  "definition": "cropTo",
  "old": "(mt.1 - mt.2.getD mt.1) / 2 + k",
  "new": "(mt.1 - mt.2.getD mt.1 + 1) / 2 + k",
  "edit": "crop rounded up",
  "claim": "C97"
 },
 {
  "file": "Model/ConvTranspose.lean",
  "definition": "convUpDiagonal",
  "old": "out.map fun x => x / ((ws.map Prod.fst).prod : ℕ)",
  "new": "out",
  "edit": "no division by the filter size",
  "claim": "C97"
 },
 {
  "file": "Model/ConvTranspose.lean",
  "definition": "convUpDiagonal",
  "old": "let out := poolTranspose lhs v (if pad = .circular then .valid else pad)",
  "new": "let out := poolTranspose lhs v (if pad = .circular then .same else pad)",
  "edit": "circular pooling with SAME",
  "claim": "C97"
 },
 {
  "file": "Model/ConvTranspose.lean",
  "definition": "convUpFull",
  "old": "let out := convUpLoop lhs ws (if pad = .circular then .valid else pad)",
  "new": "let out := convUpLoop lhs ws (if pad = .circular then .same else pad)",
  "edit": "circular convolution with SAME",
  "claim": "C97"
 },
 {
  "file": "Model/ConvTranspose.lean",
  "definition": "convUpFull",
  "old": "((reverseZippedList outShape bn).drop bn).map some",
  "new": "(outShape.drop bn).map some",
  "edit": "target shape not reversed",
  "claim": "C97"
 },
 {
  "file": "Model/ConvTranspose.lean",
  "definition": "convUpLoop",
  "old": "[x.ndim - 2, x.ndim - 1]) vj.1 pad",
  "new": "[x.ndim - 1, x.ndim - 2]) vj.1 pad",
  "edit": "axes of a pair swapped",
  "claim": "C97"
 },
 {
  "file": "Model/ConvTranspose.lean",
  "definition": "ConvTranspose.applyConv",
  "old": "(if c.padding = .circular then .valid else c.padding)",
  "new": "(if c.padding = .circular then .same else c.padding)",
  "edit": "circular apply with SAME",
  "claim": "C97"
 },
 {
  "file": "Model/ConvTranspose.lean",
  "definition": "ConvTranspose.applyConv",
  "old": "if c.padding = .circular then\n    let rest",
  "new": "if c.padding = .same then\n    let rest",
  "edit": "fold for SAME instead of CIRCULAR",
  "claim": "C97"
 },
 {
  "file": "Model/ConvTranspose.lean",
  "definition": "ConvTranspose.apply",
  "old": "c.wStd / Real.sqrt (c.fanIn C)",
  "new": "c.wStd / Real.sqrt C",
  "edit": "fan-in without filter size",
  "claim": "C97, C98"
 },
 {
  "file": "Model/ConvTranspose.lean",
  "definition": "ConvTranspose.convUnscaled",
  "old": "if k.isReversed then d.conv.filter.reverse else d.conv.filter",
  "new": "d.conv.filter",
  "edit": "filter not reversed with the axes",
  "claim": "C97"
 },
 {
  "file": "Model/ConvTranspose.lean",
  "definition": "ConvTranspose.convScaled",
  "old": "(d.conv.wStd ^ 2) (d.conv.bStd.map (· ^ 2)) bn",
  "new": "(d.conv.wStd ^ 2) none bn",
  "edit": "bias variance dropped",
  "claim": "C97"
 },
 {
  "file": "Model/ConvTranspose.lean",
  "definition": "ConvTranspose.ntkNtk",
  "old": "fun v => d.conv.wStd ^ 2 * v) nngp",
  "new": "fun v => v) nngp",
  "edit": "ntk not scaled by W_std ** 2",
  "claim": "C97"
 },
 {
  "file": "Model/ConvTranspose.lean",
  "definition": "ConvTranspose.ntkStandard",
  "old": "(d.conv.fanIn C : ℝ) / d.conv.s.1 * v",
  "new": "(C : ℝ) / d.conv.s.1 * v",
  "edit": "filter size missing in the standard ntk",
  "claim": "C97"
 },
 {
  "file": "Model/ConvTranspose.lean",
  "definition": "ConvTranspose.ntkStandard",
  "old": "if d.conv.bStd.isSome then d.conv.affine k r 1 (some 1) 2 else r",
  "new": "r",
  "edit": "bias gradients dropped",
  "claim": "C97"
 },
 {
  "file": "Model/ConvTranspose.lean",
  "definition": "ConvTranspose.kernelFn",
  "old": "let bn := if k.diagonalBatch then 1 else 2",
  "new": "let bn := 2",
  "edit": "two batch axes for a diagonal batch",
  "claim": "C97"
 },
 {
  "file": "Model/Vmap.lean",
  "definition": "Emp.modAxis",
  "old": "(a % (n : ℤ)).toNat",
  "new": "a.toNat",
  "edit": "negative axes not reduced",
  "claim": "C96"
 },
 {
  "file": "Model/Vmap.lean",
  "definition": "Emp.canonicalizeAxes",
  "old": "let out ← modAxis V.out fx.ndim",
  "new": "let out ← modAxis V.out (fx.ndim + 1)",
  "edit": "output axis modulo the wrong rank",
  "claim": "C96"
 },
 {
  "file": "Model/Vmap.lean",
  "definition": "Emp.exampleOf",
  "old": "(x.take e a).expandDims [a]",
  "new": "x.take e a",
  "edit": "axis not restored",
  "claim": "C96"
 },
 {
  "file": "Model/Vmap.lean",
  "definition": "Emp.exampleOf",
  "old": "(x.take e a).expandDims [a]",
  "new": "(x.take e a).expandDims [0]",
  "edit": "axis restored in front",
  "claim": "C96"
 },
 {
  "file": "Model/Vmap.lean",
  "definition": "Emp.mapSize",
  "old": "∧ ∀ s ∈ sizes, s = sizes.headD 0 then",
  "new": "then",
  "edit": "sizes not compared",
  "claim": "C96"
 },
 {
  "file": "Model/Vmap.lean",
  "definition": "Emp.stackAt",
  "old": "(k.eraseIdx o)⟩",
  "new": "(k.eraseIdx 0)⟩",
  "edit": "example index removed from the front",
  "claim": "C96"
 },
 {
  "file": "Model/Vmap.lean",
  "definition": "Emp.stackPairs",
  "old": "stackAt o2 n2 fun e2 => stackAt o1 n1 fun e1 => g e1 e2",
  "new": "stackAt o2 n2 fun e2 => stackAt o1 n1 fun e1 => g e2 e1",
  "edit": "examples of the two inputs swapped",
  "claim": "C96"
 },
 {
  "file": "Model/Vmap.lean",
  "definition": "Emp.ntkFullV",
  "old": "stackPairs ((f θ X1).ndim + o) o n1 n2",
  "new": "stackPairs o ((f θ X1).ndim + o) n1 n2",
  "edit": "output axes of the nested maps swapped",
  "claim": "C96"
 },
 {
  "file": "Model/Vmap.lean",
  "definition": "Emp.ntkFullV",
  "old": "let X2 := if same then X1 else X2",
  "new": "let X2 := X2",
  "edit": "x2=None not replaced by x1 without mapping",
  "claim": "C96"
 },
 {
  "file": "Model/Vmap.lean",
  "definition": "Emp.jacobiansV",
  "old": "| none => .error .valueError\n      | some o => .ok fun l",
  "new": "| none => .error .typeError\n      | some o => .ok fun l",
  "edit": "wrong exception for a missing output axis",
  "claim": "C96"
 },
 {
  "file": "Model/Vmap.lean",
  "definition": "Emp.ntkJacobianV",
  "old": "| none => .ok j1",
  "new": "| none => jacobiansV f θ axes o [X1.headD ⟨[], fun _ => 0⟩]",
  "edit": "keyword arguments dropped for x2=None",
  "claim": "C96"
 },
 {
  "file": "Model/Attention.lean",
  "definition": "Attention.kernelSqrt",
  "old": "let cov2 := l.sqrtCov2 dot22 cov2Interp",
  "new": "let cov2 := l.sqrtCov2 dot22 (some nngpInterp)",
  "edit": "cov2 from the interpolated nngp",
  "claim": "C59"
 },
 {
  "file": "Model/Attention.lean",
  "definition": "Attention.dot",
  "old": "let nb := if diagonalBatch then 1 else 2",
  "new": "let nb := 2",
  "edit": "batch axes of a diagonal batch contracted wrongly",
  "claim": "C59"
 },
 {
  "file": "Model/Attention.lean",
  "definition": "Attention.dot",
  "old": "sumKeep (lhs.map fun v => v ^ 2) cAxes",
  "new": "sumKeep lhs cAxes",
  "edit": "square dropped",
  "claim": "C59"
 },
 {
  "file": "Model/Attention.lean",
  "definition": "Attention.sqrtNtk",
  "old": "d.map fun v => 2 * v",
  "new": "d.map fun v => v",
  "edit": "factor 2 of the two uses dropped",
  "claim": "C59"
 },
 {
  "file": "Model/Attention.lean",
  "definition": "Attention.sqrtNtk",
  "old": "fun u v => u + 4 * v) ntkInterp",
  "new": "fun u v => u + 2 * v) ntkInterp",
  "edit": "factor 4 replaced by 2",
  "claim": "C59"
 },
 {
  "file": "Model/Attention.lean",
  "definition": "Attention.sqrtNtk",
  "old": "let d2 ← dot false k.nngp (some ntkInterp)",
  "new": "let d2 ← dot false nngpInterp (some ntkInterp)",
  "edit": "positional embedding of the values",
  "claim": "C59"
 },
 {
  "file": "Model/Attention.lean",
  "definition": "Attention.kernelSqrt",
  "old": "let dot12 ← dot false nngpInterp (if l.valPosEmb then none else some k.nngp)",
  "new": "let dot12 ← dot false nngpInterp none",
  "edit": "value position embedding ignored",
  "claim": "C59"
 },
 {
  "file": "Model/Attention.lean",
  "definition": "Attention.kernelSqrt",
  "old": "let std := l.qkStd * l.ovStd",
  "new": "let std := l.ovStd",
  "edit": "W_key_std and W_query_std dropped",
  "claim": "C59"
 }
]