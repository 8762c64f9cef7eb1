[
 {
  "file": "Model/Resize.lean",
  "definition": "ImageResize.kShape",
  "old": "(shape1.getD d.ba 0 :: if diagonalBatch then [] else [shape2.getD d.ba 0])",
  "new": "(shape1.getD d.ba 0 :: if diagonalBatch then [shape2.getD d.ba 0] else [shape2.getD d.ba 0])",
  "edit": "two batch axes also for a diagonal batch",
  "claim": "C95"
 },
 {
  "file": "Model/Resize.lean",
  "definition": "ImageResize.kShape",
  "old": "if diagonalSpatial then [shape1.getD i 0] else [shape1.getD i 0, shape2.getD i 0]",
  "new": "if diagonalSpatial then [shape1.getD i 0] else [shape2.getD i 0, shape1.getD i 0]",
  "edit": "spatial sizes of the two inputs swapped",
  "claim": "C95"
 },
 {
  "file": "Model/Resize.lean",
  "definition": "ImageResize.kShape",
  "old": "if diagonalSpatial then [shape1.getD i 0] else [shape1.getD i 0, shape2.getD i 0]",
  "new": "[shape1.getD i 0, shape2.getD i 0]",
  "edit": "diagonal_spatial ignored",
  "claim": "C95"
 },
 {
  "file": "Model/Resize.lean",
  "definition": "ImageResize.kShape",
  "old": "fun i => !([d.ba, d.ca].contains i)).flatMap",
  "new": "fun i => !([d.ba].contains i)).flatMap",
  "edit": "channel axis kept in the kernel shape",
  "claim": "C95"
 },
 {
  "file": "Model/Resize.lean",
  "definition": "ImageResize.kernelFn",
  "old": "let cov2 ← d.resizeOpt k.diagonalSpatial shape2 shape2 k.diagonalBatch k.cov2",
  "new": "let cov2 ← d.resizeOpt k.diagonalSpatial shape1 shape2 k.diagonalBatch k.cov2",
  "edit": "cov2 resized with the shape of x1",
  "claim": "C95"
 },
 {
  "file": "Model/Resize.lean",
  "definition": "ImageResize.kernelFn",
  "old": "let nngp ← d.resize k.diagonalSpatial shape1 shape2 false k.nngp",
  "new": "let nngp ← d.resize k.diagonalSpatial shape1 shape2 k.diagonalBatch k.nngp",
  "edit": "nngp resized as cov1",
  "claim": "C95"
 },
 {
  "file": "Model/Resize.lean",
  "definition": "ImageResize.kernelFn",
  "old": "cov2 := cov2, ntk := ntk }",
  "new": "cov2 := cov2 }",
  "edit": "ntk not updated",
  "claim": "C95"
 },
 {
  "file": "Model/Resize.lean",
  "definition": "ImageResize.kernelFn",
  "old": "else if (d.shape.getD d.ca none).isSome then .error .valueError",
  "new": "",
  "edit": "resizing of channels not rejected",
  "claim": "C95"
 },
 {
  "file": "Model/Resize.lean",
  "definition": "ImageResize.kernelFn",
  "old": "else if !supported d.method then .error .notImplemented",
  "new": "",
  "edit": "cubic methods not rejected",
  "claim": "C95"
 },
 {
  "file": "Model/Resize.lean",
  "definition": "ImageResize.resolve",
  "old": "| none :: l, n :: S => do return n :: (← resolve l S)",
  "new": "| none :: l, n :: S => do return n :: (← resolve l (n :: S))",
  "edit": "-1 takes the size of the previous axis",
  "claim": "C95"
 },
 {
  "file": "Model/Resize.lean",
  "definition": "ImageResize.maskFn",
  "old": "(mask.map fun b => if b then 0 else 1)",
  "new": "(mask.map fun b => if b then 1 else 0)",
  "edit": "mask not inverted before resizing",
  "claim": "C95"
 },
 {
  "file": "Model/Resize.lean",
  "definition": "ImageResize.maskFn",
  "old": "return r.map fun v => !decide (v ≠ 0)",
  "new": "return r.map fun v => decide (v ≠ 0)",
  "edit": "mask not inverted back",
  "claim": "C95"
 },
 {
  "file": "Model/Resize.lean",
  "definition": "ImageResize.reqDiagonalSpatial",
  "old": "(d.shape.getD i none).isNone || [d.ba, d.ca].contains i",
  "new": "(d.shape.getD i none).isNone || [d.ba, d.ca, 1].contains i",
  "edit": "diagonal allowed although axis 1 is resized",
  "claim": "C95"
 },
 {
  "file": "Model/Resize.lean",
  "definition": "ImageResize.reqDiagonalBatch",
  "old": "(d.shape.getD d.ba none).isNone",
  "new": "(d.shape.getD d.ba none).isSome",
  "edit": "diagonal batch allowed only if the batch is resized",
  "claim": "C95"
 },
 {
  "file": "Model/Resize.lean",
  "definition": "axisWeight",
  "old": "if n = m then (if i = j then 1 else 0) else w n m i j",
  "new": "if n = m then (if i = 0 then 1 else 0) else w n m i j",
  "edit": "unchanged axis replaced by its first entry",
  "claim": "C95"
 },
 {
  "file": "Model/Resize.lean",
  "definition": "axesWeight",
  "old": "axisWeight w n m i j * axesWeight w N M I J",
  "new": "axisWeight w m n i j * axesWeight w N M I J",
  "edit": "old and new sizes swapped in the weights",
  "claim": "C95"
 },
 {
  "file": "Model/Resize.lean",
  "definition": "nearestWeight",
  "old": "(2 * j + 1) * n / (2 * m)",
  "new": "(2 * j) * n / (2 * m) + 1",
  "edit": "nearest neighbour off by one",
  "claim": "C95"
 },
 {
  "file": "Model/RulesConv.lean",
  "definition": "Rules.convS",
  "old": ".ok { inDiagonal := [[some (p.lhsSpec.getD 1 0), some (p.rhsSpec.getD 0 0)]], outDiagonal := [p.outSpec.getD 1 0] }\n    else .error .assertion",
  "new": ".ok { inDiagonal := [[some (p.lhsSpec.getD 1 0), some (p.rhsSpec.getD 1 0)]], outDiagonal := [p.outSpec.getD 1 0] }\n    else .error .assertion",
  "edit": "depthwise: input features of the filter instead of output features",
  "claim": "C76"
 },
 {
  "file": "Model/RulesConv.lean",
  "definition": "Rules.convS",
  "old": "rhs.getD (p.rhsSpec.getD 0 0) 0 = p.featureGroups ∧ rhs.getD (p.rhsSpec.getD 1 0) 0 = 1 then",
  "new": "rhs.getD (p.rhsSpec.getD 0 0) 0 = p.featureGroups then",
  "edit": "depthwise case also for several inputs per group",
  "claim": "C76"
 },
 {
  "file": "Model/RulesConv.lean",
  "definition": "Rules.convS",
  "old": "lhs.getD (p.lhsSpec.getD 0 0) 0 = p.batchGroups ∧ rhs.getD (p.rhsSpec.getD 0 0) 0 = p.batchGroups then",
  "new": "rhs.getD (p.rhsSpec.getD 0 0) 0 = p.batchGroups then",
  "edit": "batch groups: size of the batch not checked",
  "claim": "C76"
 },
 {
  "file": "Model/RulesConv.lean",
  "definition": "Rules.convS",
  "old": "else if p.batchGroups = p.featureGroups ∧ p.featureGroups = 1 then",
  "new": "else if p.batchGroups = p.featureGroups then",
  "edit": "no effect unless both groups exceed 1, which lax rejects",
  "claim": "C76"
 },
 {
  "file": "Model/RulesConv.lean",
  "definition": "Rules.convS",
  "old": "else if p.batchGroups = p.featureGroups ∧ p.featureGroups = 1 then",
  "new": "else if p.batchGroups = 1 then",
  "edit": "trace claimed for grouped features",
  "claim": "C76"
 },
 {
  "file": "Model/RulesConv.lean",
  "definition": "Rules.convS",
  "old": "inTraceIdxs := [idx], outTrace := [p.outSpec.getD 1 0] }",
  "new": "inTraceIdxs := [idx], outTrace := [p.outSpec.getD 0 0] }",
  "edit": "trace over the batch axis of the output",
  "claim": "C76"
 },
 {
  "file": "Model/RulesConv.lean",
  "definition": "Rules.convS",
  "old": ".ok { inTrace := [p.rhsSpec.getD 0 0], inTraceIdxs",
  "new": ".ok { inTrace := [p.rhsSpec.getD 1 0], inTraceIdxs",
  "edit": "trace over the input features of the filter",
  "claim": "C76"
 },
 {
  "file": "Model/RulesConv.lean",
  "definition": "Rules.kron",
  "old": "a.get (List.zipWith (· / ·) k b.shape) * b.get (List.zipWith (· % ·) k b.shape)",
  "new": "a.get (List.zipWith (· % ·) k b.shape) * b.get (List.zipWith (· / ·) k b.shape)",
  "edit": "blocks and entries of the Kronecker product swapped",
  "claim": "C76"
 },
 {
  "file": "Model/RulesConv.lean",
  "definition": "Rules.diagLast",
  "old": "if k.getD (a.ndim - 1) 0 = k.getD a.ndim 0 then a.get (k.take a.ndim) else 0",
  "new": "a.get (k.take a.ndim)",
  "edit": "diagonal filled everywhere",
  "claim": "C76"
 },
 {
  "file": "Model/RulesConv.lean",
  "definition": "Rules.convBlocks",
  "old": "let j := j.moveaxis [n - 1, n] [j.ndim - 1, j.ndim - 2]",
  "new": "let j := j.moveaxis [n - 1, n] [j.ndim - 2, j.ndim - 1]",
  "edit": "group axis not last before the diagonal",
  "claim": "C76"
 },
 {
  "file": "Model/RulesConv.lean",
  "definition": "Rules.convBlocks",
  "old": "([p.featureGroups, channels / p.featureGroups] ++ filter)",
  "new": "([channels / p.featureGroups, p.featureGroups] ++ filter)",
  "edit": "groups taken as the minor part of the features",
  "claim": "C76"
 },
 {
  "file": "Model/RulesConv.lean",
  "definition": "Rules.convBlocks",
  "old": "let fAxes := (p.rhsSpec.drop 2).mergeSort",
  "new": "let fAxes := p.rhsSpec.drop 2",
  "edit": "spatial axes of the filter not sorted",
  "claim": "C76"
 },
 {
  "file": "Model/RulesConv.lean",
  "definition": "Rules.convBlocks",
  "old": "let j := j.moveaxis [o0, o1] [n - 1, n - 2]",
  "new": "let j := j.moveaxis [o0, o1] [n - 2, n - 1]",
  "edit": "batch and features swapped",
  "claim": "C76"
 },
 {
  "file": "Model/RulesConv.lean",
  "definition": "Rules.convBlocks",
  "old": "[n + p.rhsSpec.getD 1 0, o1, n + p.rhsSpec.getD 0 0]))",
  "new": "[n + p.rhsSpec.getD 0 0, o1, n + p.rhsSpec.getD 1 0]))",
  "edit": "input and output features of the filter swapped",
  "claim": "C76"
 },
 {
  "file": "Model/RulesConv.lean",
  "definition": "Rules.convBlocks",
  "old": "++ [p.batchGroups, lhs.shape.getD (p.lhsSpec.getD 0 0) 0 / p.batchGroups])",
  "new": "++ [lhs.shape.getD (p.lhsSpec.getD 0 0) 0 / p.batchGroups, p.batchGroups])",
  "edit": "groups taken as the minor part of the batch",
  "claim": "C76"
 },
 {
  "file": "Model/RulesConv.lean",
  "definition": "Rules.convJ",
  "old": "/ (p.featureGroups * p.batchGroups)",
  "new": "/ p.featureGroups",
  "edit": "batch groups ignored in the size of the identity",
  "claim": "C76"
 },
 {
  "file": "Model/RulesConv.lean",
  "definition": "Rules.convE",
  "old": " ∨ rhs.getD (p.rhsSpec.getD 0 0) 0 < p.featureGroups then { p with featureGroups := 1 } else p",
  "new": " then { p with featureGroups := 1 } else p",
  "edit": "groups of a trimmed filter kept",
  "claim": "C76"
 },
 {
  "file": "Model/RulesConv.lean",
  "definition": "Rules.convE",
  "old": "rhs.getD (p.rhsSpec.getD 0 0) 0 < p.batchGroups ∨ lhs.getD (p.lhsSpec.getD 0 0) 0 < p.batchGroups then",
  "new": "lhs.getD (p.lhsSpec.getD 0 0) 0 < p.batchGroups then",
  "edit": "batch groups of a trimmed filter kept",
  "claim": "C76"
 },
 {
  "file": "Model/RulesWindow.lean",
  "definition": "Rules.windowS",
  "old": "p.padding.getD a (0, 0) = (0, 0) ∧ ",
  "new": "",
  "edit": "padded axes traced",
  "claim": "C76"
 },
 {
  "file": "Model/RulesWindow.lean",
  "definition": "Rules.windowS",
  "old": " ∧ p.strides.getD a 0 = 1",
  "new": "",
  "edit": "strided axes traced",
  "claim": "C76"
 },
 {
  "file": "Model/RulesWindow.lean",
  "definition": "Rules.windowS",
  "old": "p.window.getD a 0 = 1 ∧ ",
  "new": "",
  "edit": "windowed axes traced",
  "claim": "C76"
 },
 {
  "file": "Model/RulesWindow.lean",
  "definition": "Rules.windowS",
  "old": "p.baseDilation.getD a 0 = 1 ∧ ",
  "new": "",
  "edit": "dilated axes traced",
  "claim": "C76"
 },
 {
  "file": "Model/RulesWindow.lean",
  "definition": "Rules.windowS",
  "old": "inTraceIdxs := [idx]",
  "new": "inTraceIdxs := []",
  "edit": "trace of no operand",
  "claim": "C76"
 },
 {
  "file": "Model/RulesWindow.lean",
  "definition": "Rules.vanillaJ",
  "old": "| .ok y => y.get (k.take out.length)",
  "new": "| .ok y => y.get (k.drop inp.length)",
  "edit": "output index read from the end",
  "claim": "C76"
 },
 {
  "file": "Model/RulesWindow.lean",
  "definition": "Rules.vanillaJ",
  "old": "if i = k.drop out.length then 1 else 0",
  "new": "if i = k.take inp.length then 1 else 0",
  "edit": "basis vector from the first axes",
  "claim": "C76"
 },
 {
  "file": "Model/RulesWindow.lean",
  "definition": "Rules.vanillaJ",
  "old": ".ok ⟨out ++ inp,",
  "new": ".ok ⟨inp ++ out,",
  "edit": "Jacobian stored transposed",
  "claim": "C76"
 }
]