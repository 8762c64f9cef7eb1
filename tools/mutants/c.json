[
 {
  "file": "Model/Structured.lean",
  "definition": "Emp.getDims",
  "old": "d.2 ++ [(i : ℤ), d.1.getD i 0])",
  "new": "d.2 ++ [d.1.getD i 0, (i : ℤ)])",
  "edit": "output axes of the two networks swapped",
  "claim": "C94"
 },
 {
  "file": "Model/Structured.lean",
  "definition": "Emp.getDims",
  "old": "if df1.getD i 0 = df2.getD i 0 then .ok (d.1.set i (i : ℤ), d.2) else",
  "new": "if df1.getD i 0 = df2.getD i 0 then .ok (d.1, d.2) else",
  "edit": "traced axes not identified",
  "claim": "C94"
 },
 {
  "file": "Model/Structured.lean",
  "definition": "Emp.getDims",
  "old": ".ok (d.1.set i (i : ℤ), d.2 ++ [(i : ℤ)])",
  "new": ".ok (d.1.set i (i : ℤ), d.2)",
  "edit": "diagonal axes summed away",
  "claim": "C94"
 },
 {
  "file": "Model/Structured.lean",
  "definition": "Emp.contractPair",
  "old": "relabel d2 n (s2.outTrace.map (· % (df2.ndim - n))) fun i => ((p + i : ℕ) : ℤ)",
  "new": "relabel d2 n (s2.outTrace.map (· % (df2.ndim - n))) fun i => ((p + i + 1 : ℕ) : ℤ)",
  "edit": "labels of traced axes differ between the networks",
  "claim": "C94"
 },
 {
  "file": "Model/Structured.lean",
  "definition": "Emp.contractPair",
  "old": "let d2 := relabel d2 n s2.outDiagonal fun i => q - i",
  "new": "let d2 := relabel d2 n s2.outDiagonal fun i => q - i - 1",
  "edit": "labels of diagonal axes differ between the networks",
  "claim": "C94"
 },
 {
  "file": "Model/Structured.lean",
  "definition": "Emp.contractPair",
  "old": "let w1 := relabel w1 0 s1.outDiagonal fun i => q - i\n",
  "new": "",
  "edit": "diagonal axes of the first dy_dw not labelled",
  "claim": "C94"
 },
 {
  "file": "Model/Structured.lean",
  "definition": "Emp.contractPair",
  "old": "let w2 := shareFree n d2 s2 w2\n",
  "new": "",
  "edit": "free axes of the second dy_dw not shared",
  "claim": "C94"
 },
 {
  "file": "Model/Structured.lean",
  "definition": "Emp.contractPair",
  "old": "let w2 := (List.range j2.ndim).map fun x : ℕ => (x : ℤ) - j2.ndim",
  "new": "let w2 := (List.range j2.ndim).map fun x : ℕ => (x : ℤ) - j2.ndim - 1",
  "edit": "labels of parameter axes shifted in one network",
  "claim": "C94"
 },
 {
  "file": "Model/Structured.lean",
  "definition": "Emp.contractPair",
  "old": "(j2, w2), (df2, d2)] out",
  "new": "(j1, w2), (df2, d2)] out",
  "edit": "Jacobian of the first network used for the second",
  "claim": "C94"
 },
 {
  "file": "Model/Structured.lean",
  "definition": "Emp.relabel",
  "old": "d.set (n + ai.1) (id ai.2)",
  "new": "d.set ai.1 (id ai.2)",
  "edit": "output rank not added",
  "claim": "C94"
 },
 {
  "file": "Model/Structured.lean",
  "definition": "Emp.shareFree",
  "old": "s.outTrace ++ s.outDiagonal ++ s.outBroadcast",
  "new": "s.outTrace ++ s.outBroadcast",
  "edit": "diagonal axes relabelled as free",
  "claim": "C94"
 },
 {
  "file": "Model/Structured.lean",
  "definition": "Emp.shareFree",
  "old": "s.outTrace ++ s.outDiagonal ++ s.outBroadcast",
  "new": "s.outTrace ++ s.outDiagonal",
  "edit": "broadcast axes treated as free",
  "claim": "C94"
 },
 {
  "file": "Model/Structured.lean",
  "definition": "Emp.contractUses",
  "old": "us1.flatMap fun a => us2.map fun b => (a, b)",
  "new": "us1.zip us2",
  "edit": "only corresponding uses contracted",
  "claim": "C94"
 },
 {
  "file": "Model/Structured.lean",
  "definition": "Emp.ntkShape",
  "old": "if x.2 ∈ D then [x.1.1] else [x.1.1, x.1.2]",
  "new": "if x.2 ∈ D then [x.1.1] else [x.1.2, x.1.1]",
  "edit": "shape of the zero kernel swapped",
  "claim": "C94"
 },
 {
  "file": "Model/Structured.lean",
  "definition": "Emp.sumAndContract",
  "old": ".ok (divBy a (size : α))",
  "new": ".ok a",
  "edit": "trace not normalised",
  "claim": "C94"
 },
 {
  "file": "Model/Structured.lean",
  "definition": "Emp.sumAndContract",
  "old": "let ls ← (us1.zip us2).mapM",
  "new": "let ls ← ((us1.zip us2).take 1).mapM",
  "edit": "only the first leaf",
  "claim": "C94"
 },
 {
  "file": "Model/Structured.lean",
  "definition": "Jaxpr.nextVisit",
  "old": "n ∉ need ∧ ∃ v ∈ vs",
  "new": "∃ v ∈ vs",
  "edit": "variables visited again",
  "claim": "C94"
 },
 {
  "file": "Model/Structured.lean",
  "definition": "Jaxpr.needCts",
  "old": "J.visit (J.eqns.length + 2)",
  "new": "J.visit 1",
  "edit": "only the direct uses of parameters need cotangents",
  "claim": "C94"
 },
 {
  "file": "Model/Structured.lean",
  "definition": "Jaxpr.backStep",
  "old": "fun v i => popped v i + ∑",
  "new": "fun v i => ∑",
  "edit": "cotangents overwritten instead of accumulated",
  "claim": "C94"
 },
 {
  "file": "Model/Structured.lean",
  "definition": "Jaxpr.backStep",
  "old": "if v = n then 0 else env v",
  "new": "env v",
  "edit": "cotangent of the equation not removed",
  "claim": "C94"
 },
 {
  "file": "Model/Structured.lean",
  "definition": "Jaxpr.envAfter",
  "old": "J.backStep (J.envAfter seed d) (J.eqns.length - 1 - d)",
  "new": "J.backStep (J.envAfter seed d) d",
  "edit": "equations visited forwards",
  "claim": "C94"
 },
 {
  "file": "Model/Structured.lean",
  "definition": "Jaxpr.uses",
  "old": "(List.range J.eqns.length).reverse.flatMap",
  "new": "(List.range (J.eqns.length - 1)).reverse.flatMap",
  "edit": "last equation not searched for uses",
  "claim": "C94"
 },
 {
  "file": "Model/Structured.lean",
  "definition": "Jaxpr.dfDy",
  "old": "let y := if e.isReshape then e.shapes.getD k [] else e.out",
  "new": "let y := e.out",
  "edit": "reshape read with the shape of its output",
  "claim": "C94"
 },
 {
  "file": "Model/Structured.lean",
  "definition": "Jaxpr.structureCache",
  "old": "(if J.out = .param l then [Rules.eyeS 0 (J.params.getD l []) (J.params.getD l [])] else []) ++ ss",
  "new": "ss",
  "edit": "identity not in the cache",
  "claim": "C94"
 },
 {
  "file": "Model/Structured.lean",
  "definition": "Jaxpr.useAt",
  "old": "let s ← (← e.struct u.2).meet c",
  "new": "let s ← e.struct u.2",
  "edit": "structure not met with the cache",
  "claim": "C94"
 },
 {
  "file": "Model/Structured.lean",
  "definition": "Jaxpr.useAt",
  "old": ".ok (J.dfDy fx u.1 u.2 e, j, s)",
  "new": ".ok (J.dfDy fx u.1 u.2 e, j, c)",
  "edit": "structure of the cache returned",
  "claim": "C94"
 },
 {
  "file": "Model/Structured.lean",
  "definition": "Jaxpr.usesOf",
  "old": ".ok (us ++ [(dfDyId fx, j, s)])",
  "new": ".ok us",
  "edit": "identity use dropped",
  "claim": "C94"
 },
 {
  "file": "Model/Structured.lean",
  "definition": "Emp.structuredNtk",
  "old": "let us2 ← (List.range J2.params.length).mapM (J2.usesOf fx2)",
  "new": "let us2 ← (List.range J2.params.length).mapM (J2.usesOf fx1)",
  "edit": "shape of the first output used for the second",
  "claim": "C94"
 },
 {
  "file": "Model/Rules.lean",
  "definition": "Rules.dotS",
  "old": "freeAxes selfNdim (selfC ++ selfB)",
  "new": "freeAxes selfNdim selfC",
  "edit": "batch axes traced",
  "claim": "C76"
 },
 {
  "file": "Model/Rules.lean",
  "definition": "Rules.dotS",
  "old": "if idx = 0 then [some s, some o] else [some o, some s]",
  "new": "[some s, some o]",
  "edit": "diagonal axes not swapped for the right operand",
  "claim": "C76"
 },
 {
  "file": "Model/Rules.lean",
  "definition": "Rules.dotS",
  "old": "(if idx = 0 then none else some otherNdim)",
  "new": "(if idx = 1 then none else some otherNdim)",
  "edit": "traced axes placed for the wrong side",
  "claim": "C76"
 },
 {
  "file": "Model/Rules.lean",
  "definition": "Rules.dotS",
  "old": "outDiagonal := List.range selfB.length }",
  "new": "outDiagonal := selfB }",
  "edit": "output batch axes not first",
  "claim": "C76"
 },
 {
  "file": "Model/Rules.lean",
  "definition": "Rules.dotJ",
  "old": "((selfC.zip otherC).mergeSort pairLe).map (·.2)",
  "new": "otherC",
  "edit": "contracted axes not sorted",
  "claim": "C76"
 },
 {
  "file": "Model/Rules.lean",
  "definition": "Rules.dotJ",
  "old": "(List.range otherC.length).map (· + (m - otherC.length))",
  "new": "(List.range otherC.length).map (· + otherB.length)",
  "edit": "contracted axes moved to the wrong place",
  "claim": "C76"
 },
 {
  "file": "Model/Rules.lean",
  "definition": "Rules.dotJ",
  "old": "freeOut ++ notC.map (· + out.length)",
  "new": "freeOut ++ free.map (· + out.length)",
  "edit": "batch axes of the operand not added",
  "claim": "C76"
 },
 {
  "file": "Model/Rules.lean",
  "definition": "Rules.dotJ",
  "old": "x = b ∨ x = out.length + sb",
  "new": "x = b ∨ x = out.length + ob",
  "edit": "batch axis of the other operand used",
  "claim": "C76"
 },
 {
  "file": "Model/Rules.lean",
  "definition": "Rules.dotJ",
  "old": "(if idx = 1 then some m else none)",
  "new": "(if idx = 0 then some m else none)",
  "edit": "free axes placed for the wrong side",
  "claim": "C76"
 },
 {
  "file": "Model/Rules.lean",
  "definition": "Rules.broadcastJ",
  "old": "(List.range inp.length).map (· + out.length)",
  "new": "(List.range inp.length).map (· + inp.length)",
  "edit": "input axes at the wrong offset",
  "claim": "C76"
 },
 {
  "file": "Model/Rules.lean",
  "definition": "Rules.concatJ",
  "old": "if i = idx then (eye",
  "new": "if i = 0 then (eye",
  "edit": "identity block of the first operand",
  "claim": "C76"
 },
 {
  "file": "Model/Rules.lean",
  "definition": "Rules.mulJ",
  "old": "inp.getD i 0 = 1).map (· + out.length)",
  "new": "inp.getD i 0 = 1)",
  "edit": "broadcast output axes summed",
  "claim": "C76"
 },
 {
  "file": "Model/Rules.lean",
  "definition": "Rules.compact",
  "old": "if idx = 0 then 1 else 0",
  "new": "0",
  "edit": "mapped over the axis of the left operand always",
  "claim": "C76",
  "nth": 1
 },
 {
  "file": "Model/Rules.lean",
  "definition": "Rules.vmapKeep",
  "old": "x.shape.getD axis 0",
  "new": "x.shape.getD outAxis 0",
  "edit": "size of the mapped axis read at the output axis",
  "claim": "C76"
 },
 {
  "file": "Model/Rules.lean",
  "definition": "Rules.trimOut",
  "old": "s.outTrace ++ s.outBroadcast ++ s.outDiagonal",
  "new": "s.outTrace ++ s.outBroadcast",
  "edit": "diagonal axes of the output not trimmed",
  "claim": "C76"
 },
 {
  "file": "Model/Rules.lean",
  "definition": "Rules.padJ",
  "old": "cfg ++ List.replicate inp.length (0, 0, 0)",
  "new": "List.replicate inp.length (0, 0, 0) ++ cfg",
  "edit": "input axes padded instead of output axes",
  "claim": "C76"
 },
 {
  "file": "Model/Rules.lean",
  "definition": "Rules.checked",
  "old": "(shapes.getD ix []).getD i 0 = out.getD p.1 0",
  "new": "(shapes.getD ix []).getD i 0 = out.getD i 0",
  "edit": "diagonal sizes compared at the wrong axis",
  "claim": "C76"
 },
 {
  "file": "Model/Elementwise.lean",
  "definition": "gaborDual",
  "old": "let denom := 2 * ps.2 + diff + 1\n    let num := ps.2 + diff + 2 * n\n    Real.exp",
  "new": "let denom := 2 * ps.2 + diff + 2\n    let num := ps.2 + diff + 2 * n\n    Real.exp",
  "edit": "constant in the determinant",
  "claim": "C88"
 },
 {
  "file": "Model/Elementwise.lean",
  "definition": "gaborDual",
  "old": "let diffTerm := 4 * n * (diff + 3 * ps.2 + 2)",
  "new": "let diffTerm := 4 * n * (diff + 3 * ps.2 + 1)",
  "edit": "constant in the derivative",
  "claim": "C88"
 },
 {
  "file": "Model/Elementwise.lean",
  "definition": "gaborDual",
  "old": "(2 * sqrtTol (1 + 4 * v))",
  "new": "(sqrtTol (1 + 4 * v))",
  "edit": "factor two missing in the diagonal",
  "claim": "C88"
 },
 {
  "file": "Model/Elementwise.lean",
  "definition": "geluDual",
  "old": "+ n * arctan2 n delta) / (2 * Real.pi) + 0.25 * n",
  "new": "+ n * arctan2 delta n) / (2 * Real.pi) + 0.25 * n",
  "edit": "arguments of arctan2 swapped",
  "claim": "C87"
 },
 {
  "file": "Model/Elementwise.lean",
  "definition": "geluDual",
  "old": "(1 / deltaSq + (1 - pp.2) / pp.1 + 1)",
  "new": "(1 / deltaSq + (1 - pp.2) / pp.1)",
  "edit": "term missing in the derivative",
  "claim": "C87"
 },
 {
  "file": "Model/Elementwise.lean",
  "definition": "hermiteDual",
  "old": "degree * n ^ (degree - 1)",
  "new": "n ^ (degree - 1)",
  "edit": "factor of the derivative missing",
  "claim": "C89"
 },
 {
  "file": "Model/Elementwise.lean",
  "definition": "hermeVal",
  "old": "x * hermeVal (n + 1) x - (n + 1) * hermeVal n x",
  "new": "x * hermeVal (n + 1) x - n * hermeVal n x",
  "edit": "recurrence of the polynomials",
  "claim": "C89"
 },
 {
  "file": "Model/Elementwise.lean",
  "definition": "expNormalizedDual",
  "old": "gamma * Real.exp (gamma * (c + shift))\n  diag",
  "new": "gamma * s * Real.exp (gamma * (c + shift))\n  diag",
  "edit": "derivative scaled by the variances",
  "claim": "C90"
 },
 {
  "file": "Model/Elementwise.lean",
  "definition": "elementwiseDual",
  "old": "nngp n vv := nngpFn n vv.1 vv.2",
  "new": "nngp n vv := nngpFn n vv.2 vv.1",
  "edit": "variances swapped",
  "claim": "C90"
 },
 {
  "file": "Model/Elementwise.lean",
  "definition": "polynomialDual",
  "old": "acc + l * pr.2.getD l 0 * (n / sqrtTol pr.1) ^ (l - 1)) 0 /\n    sqrtTol pr.1",
  "new": "acc + l * pr.2.getD l 0 * (n / sqrtTol pr.1) ^ (l - 1)) 0",
  "edit": "inner derivative missing",
  "claim": "C49"
 },
 {
  "file": "Model/Elementwise.lean",
  "definition": "polyCoef",
  "old": "((polyDict coef l).lookup i).getD 0",
  "new": "((polyDict coef l).lookup (i + l)).getD 0",
  "edit": "coefficients shifted",
  "claim": "C49"
 },
 {
  "file": "Model/KernelOps.lean",
  "definition": "Kernel.getItem",
  "old": "let sp := if k.isReversed then sp.reverse else sp",
  "new": "let sp := sp",
  "edit": "spatial entries not reversed",
  "claim": "C27"
 },
 {
  "file": "Model/KernelOps.lean",
  "definition": "Kernel.getItem",
  "old": "let covSlice := (if k.diagonalBatch then [batchIdx] else [batchIdx, batchIdx]) ++ sp",
  "new": "let covSlice := [batchIdx, batchIdx] ++ sp",
  "edit": "variances indexed twice along the batch",
  "claim": "C27"
 },
 {
  "file": "Model/KernelOps.lean",
  "definition": "Kernel.spatialIdx",
  "old": "p.2 ≠ k.batchAxis ∧ p.2 ≠ k.channelAxis",
  "new": "p.2 ≠ k.batchAxis",
  "edit": "channel entry kept",
  "claim": "C27"
 },
 {
  "file": "Model/KernelOps.lean",
  "definition": "Kernel.sourceIdx",
  "old": "sliceAt n a b c k :: sourceIdx s es o",
  "new": "k :: sourceIdx s es o",
  "edit": "slices read without their start and step",
  "claim": "C27"
 },
 {
  "file": "Model/Dense.lean",
  "definition": "Dense.scaleW",
  "old": "Real.sqrt (inDim / d.s.1)",
  "new": "Real.sqrt inDim",
  "edit": "width factor missing",
  "claim": "C92"
 },
 {
  "file": "Model/Dense.lean",
  "definition": "Dense.scaleB",
  "old": "d.bStd.getD 0 else 1",
  "new": "d.bStd.getD 0 ^ 2 else 1",
  "edit": "bias scaled by its variance",
  "claim": "C92"
 },
 {
  "file": "Model/Dense.lean",
  "definition": "Dense.apply",
  "old": "let norm := d.wStd / Real.sqrt (x.shape.getD ca 0)",
  "new": "let norm := d.wStd / (x.shape.getD ca 0)",
  "edit": "not the square root of the width",
  "claim": "C92"
 },
 {
  "file": "Model/Dense.lean",
  "definition": "Dense.apply",
  "old": "prod.moveaxis [0] [ca]",
  "new": "prod",
  "edit": "channel axis not moved back",
  "claim": "C92"
 },
 {
  "file": "Model/Dense.lean",
  "definition": "affine",
  "old": "v + b ^ 2",
  "new": "v + b",
  "edit": "bias not squared",
  "claim": "C92"
 },
 {
  "file": "Model/Dense.lean",
  "definition": "Dense.ntkStandard",
  "old": "v + 1 else n",
  "new": "v + d.bStd.getD 0 ^ 2 else n",
  "edit": "bias gradient scaled",
  "claim": "C93"
 },
 {
  "file": "Model/Network.lean",
  "definition": "Network.collect",
  "old": ".ok (b :: bs)",
  "new": ".ok (bs ++ [b])",
  "edit": "results of the branches in another order",
  "claim": "C80"
 },
 {
  "file": "Model/Network.lean",
  "definition": "Network.setShapes",
  "old": "shape1 := s1, shape2 := s2",
  "new": "shape1 := s1, shape2 := s1",
  "edit": "output shape of the first input used for both",
  "claim": "C80"
 }
]