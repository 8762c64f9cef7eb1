[
{
"file": "Model/Batching.lean",
"definition": "Batching.flattenBatchDims",
"old": "[0, 2, 1, 3]",
"new": "[0, 1, 2, 3]",
"edit": "do not swap the row and column batch axes before reshaping",
"claim": "C01"
},
{
"file": "Model/Batching.lean",
"definition": "Batching.flattenBatchDims",
"old": "let k := k.take 0 d",
"new": "let k := k.take 0 0",
"edit": "discard axis 0 for cov1 as well as cov2",
"claim": "C01"
},
{
"file": "Model/Batching.lean",
"definition": "Batching.flattenKernel",
"old": "flattenBatchDims c isParallel (some 0)",
"new": "flattenBatchDims c isParallel (some 1)",
"edit": "flatten cov2 discarding the column axis",
"claim": "C01"
},
{
"file": "Model/Batching.lean",
"definition": "Batching.flattenKernel",
"old": "shape1 := scaleAxis k.shape1 k.batchAxis b1",
"new": "shape1 := k.shape1",
"edit": "do not scale shape1 by the number of row batches",
"claim": "C01"
},
{
"file": "Model/Batching.lean",
"definition": "Batching.flattenKernel",
"old": "scaleAxis k.shape2 k.batchAxis b2",
"new": "scaleAxis k.shape2 k.batchAxis b1",
"edit": "scale shape2 by the number of row batches",
"claim": "C01"
},
{
"file": "Model/Batching.lean",
"definition": "Batching.nBatches",
"old": "Nat.gcd n1 n2 / deviceCount",
"new": "Nat.gcd n1 n2",
"edit": "forget the device count in the largest serial batch",
"claim": "C02"
},
{
"file": "Model/Batching.lean",
"definition": "Batching.nBatches",
"old": "let n2bs := min batchSize maxSerial",
"new": "let n2bs := batchSize",
"edit": "do not cap the batch size",
"claim": "C02"
},
{
"file": "Model/Batching.lean",
"definition": "Batching.nBatches",
"old": "if ragged2 \u2260 0 then .error .valueError",
"new": "if false then .error .valueError",
"edit": "no error for ragged columns",
"claim": "C02"
},
{
"file": "Model/Batching.lean",
"definition": "Batching.serialX1",
"old": "(scan colFn c (rows x2s))",
"new": "(scan colFn c (rows x1s))",
"edit": "iterate columns over x1",
"claim": "C01"
},
{
"file": "Model/Batching.lean",
"definition": "Batching.nPerDevice",
"old": "if q \u2260 0 \u2227 r \u2260 0 then .error .valueError",
"new": "if false then .error .valueError",
"edit": "accept a ragged split over devices",
"claim": "C03"
},
{
"file": "Model/Batching.lean",
"definition": "Batching.nPerDevice",
"old": "else if q = 0 then .ok (1, r)",
"new": "else if q = 0 then .ok (1, deviceCount)",
"edit": "use all devices when there are fewer examples",
"claim": "C03"
},
{
"file": "Model/Batching.lean",
"definition": "Batching.serialParallelX1",
"old": "batchSize (max deviceCount 1)",
"new": "batchSize 1",
"edit": "serial batching ignores the device count",
"claim": "C04"
},
{
"file": "Model/Batching.lean",
"definition": "Batching.serialKernel",
"old": "(k.slice a n1bs b n2bs)",
"new": "(k.slice b n1bs a n2bs)",
"edit": "swap row and column offsets",
"claim": "C05"
},
{
"file": "Model/Batching.lean",
"definition": "Batching.serialKernel",
"old": "if k.cov2.isNone then { r with cov2 := none } else r",
"new": "r",
"edit": "keep cov2 of the tiles",
"claim": "C05"
},
{
"file": "Model/Batching.lean",
"definition": "Batching.scanLoop",
"old": ".ok (c'', y :: ys)",
"new": ".ok (c'', ys ++ [y])",
"edit": "outputs in reverse order",
"claim": "C07"
},
{
"file": "Model/Batching.lean",
"definition": "Batching.scanLoop",
"old": "match scanLoop f c' xs with",
"new": "match scanLoop f c xs with",
"edit": "carry not updated",
"claim": "C07"
},
{
"file": "Model/Kernel.lean",
"definition": "Kernel.slice",
"old": "| some c => c.sliceLead lo2 len2",
"new": "| some c => c.sliceLead lo1 len1",
"edit": "slice cov2 with the rows",
"claim": "C05"
},
{
"file": "Model/JitCache.lean",
"definition": "JitCache.key",
"old": "\u27e8c.f, c.deviceCount, otherArgs c.args, otherKwargs c.kwargs\u27e9",
"new": "\u27e8c.f, c.deviceCount, otherArgs c.args, []\u27e9",
"edit": "keyword arguments not in the cache key",
"claim": "C06"
},
{
"file": "Model/JitCache.lean",
"definition": "JitCache.key",
"old": "\u27e8c.f, c.deviceCount, otherArgs c.args",
"new": "\u27e8c.f, 0, otherArgs c.args",
"edit": "device count not in the cache key",
"claim": "C06"
},
{
"file": "Model/JitCache.lean",
"definition": "JitCache.insertIdx",
"old": "if p.1 \u2264 q.1 then p :: q :: l",
"new": "if q.1 \u2264 p.1 then p :: q :: l",
"edit": "merge positional arguments in reverse order",
"claim": "C06"
},
{
"file": "Model/MonteCarlo.lean",
"definition": "MonteCarlo.samplesFrom",
"old": "let (key', sp) := split key",
"new": "let (sp, key') := split key",
"edit": "swap carried key and sample key",
"claim": "C08"
},
{
"file": "Model/MonteCarlo.lean",
"definition": "MonteCarlo.samplesFrom",
"old": "fuel (n + 1) key' (some ker')",
"new": "fuel (n + 1) key (some ker')",
"edit": "reuse the same key for every sample",
"claim": "C08"
},
{
"file": "Model/MonteCarlo.lean",
"definition": "MonteCarlo.samplesFrom",
"old": "| some k => k + oneSample",
"new": "| some _ => oneSample",
"edit": "do not accumulate samples",
"claim": "C08"
},
{
"file": "Model/MonteCarlo.lean",
"definition": "MonteCarlo.sampledKernels",
"old": "fun p => normalize p.2 p.1",
"new": "fun p => normalize p.2 (ns.max' h)",
"edit": "normalise every yielded estimate by the largest count",
"claim": "C09"
},
{
"file": "Model/MonteCarlo.lean",
"definition": "MonteCarlo.canonicalize",
"old": "decide (e.val \u2264 0)",
"new": "decide (e.val < 0)",
"edit": "accept zero samples",
"claim": "C10"
},
{
"file": "Model/MonteCarlo.lean",
"definition": "MonteCarlo.canonicalize",
"old": "| .int n => check [.int n] false",
"new": "| .int n => check [.int n] true",
"edit": "generator for a single count",
"claim": "C10"
},
{
"file": "Model/Axes.lean",
"definition": "zipAxesCore",
"old": "let oddAxes := pyRange (start + 1) e 2",
"new": "let oddAxes := pyRange start e 2",
"edit": "even instead of odd axes",
"claim": "C11"
},
{
"file": "Model/Axes.lean",
"definition": "zipAxesCore",
"old": "if unzip then .ok (x.moveaxis oddAxes lastAxes)",
"new": "if !unzip then .ok (x.moveaxis oddAxes lastAxes)",
"edit": "swap zip and unzip",
"claim": "C11"
},
{
"file": "Model/Axes.lean",
"definition": "reverseSource",
"old": "n - 2 * (k + 1)",
"new": "start + 2 * k",
"edit": "pairs not reversed",
"claim": "C12"
},
{
"file": "Model/Axes.lean",
"definition": "make2d",
"old": "let y \u2190 unzipAxes x start (some e)",
"new": "let y := x",
"edit": "no unzip before reshaping",
"claim": "C13"
},
{
"file": "Model/Axes.lean",
"definition": "diagonalBetween",
"old": "let d := d.moveaxis [d.ndim - 1] [start]",
"new": "let d := d",
"edit": "diagonal left as the last axis",
"claim": "C14"
},
{
"file": "Model/Axes.lean",
"definition": "interleaveOnes",
"old": "if xFirst then zipFlat xAxes ones else zipFlat ones xAxes",
"new": "zipFlat xAxes ones",
"edit": "both factors on the even axes",
"claim": "C15"
},
{
"file": "Model/Axes.lean",
"definition": "outerProd",
"old": "(interleaveOnes x start stop true) (interleaveOnes (y.getD x) start stop false)",
"new": "(interleaveOnes x start stop false) (interleaveOnes (y.getD x) start stop true)",
"edit": "swap the factors",
"claim": "C15"
},
{
"file": "Model/Utils.lean",
"definition": "Utils.mod",
"old": "if n > 0 then i % (n : Int) else i",
"new": "i",
"edit": "negative axes kept",
"claim": "C16"
},
{
"file": "Model/Utils.lean",
"definition": "Utils.arangeAt",
"old": ".ok (i + n).toNat",
"new": ".ok (i + n - 1).toNat",
"edit": "off by one for negative indices",
"claim": "C16"
},
{
"file": "Model/Utils.lean",
"definition": "Utils.axisAfterDot",
"old": "(contracting.filter (\u00b7 < axis)).length",
"new": "(contracting.filter (axis < \u00b7)).length",
"edit": "count the contracting axes after the axis",
"claim": "C22"
},
{
"file": "Model/Utils.lean",
"definition": "Utils.axisAfterDot",
"old": "(batch.filter (axis < \u00b7)).length",
"new": "(batch.filter (\u00b7 < axis)).length",
"edit": "count the batch axes before the axis",
"claim": "C22"
},
{
"file": "Model/Utils.lean",
"definition": "Utils.axisAfterDot",
"old": "| some n => n - batch.length - contracting.length",
"new": "| some n => n - contracting.length",
"edit": "do not subtract batch axes of the left operand",
"claim": "C22"
},
{
"file": "Model/Utils.lean",
"definition": "Utils.canonicalizeGet",
"old": "if s = \"\" then .error .valueError else .ok (true, some [s.toLower])",
"new": ".ok (true, some [s.toLower])",
"edit": "accept the empty string",
"claim": "C18"
},
{
"file": "Model/Utils.lean",
"definition": "Utils.canonicalizeGet",
"old": "if (l.map String.toLower).Nodup",
"new": "if l.Nodup",
"edit": "duplicates tested before lower-casing",
"claim": "C18"
},
{
"file": "Model/Utils.lean",
"definition": "Utils.getterFn",
"old": "return .named (gs.zip vs)",
"new": "return .named (gs.zip vs).reverse",
"edit": "named tuple in reverse order",
"claim": "C18"
},
{
"file": "Model/Utils.lean",
"definition": "Utils.getArgument",
"old": "match kwGet with\n    | some g => .ok g\n    | none =>\n      match posArgs[sig.args.idxOf \"get\"]? with\n      | some g => .ok g",
"new": "match kwGet with\n    | some g => .ok g\n    | none =>\n      match posArgs[sig.args.idxOf \"get\" + 1]? with\n      | some g => .ok g",
"edit": "look at the next positional argument",
"claim": "C19"
},
{
"file": "Model/Utils.lean",
"definition": "Utils.readKeys",
"old": "let newKey := if k1 = k2 then foldIn k2 1 else k2",
"new": "let newKey := k2",
"edit": "same key for different inputs when the pair repeats a key",
"claim": "C20"
},
{
"file": "Model/Utils.lean",
"definition": "Utils.readKeys",
"old": ".ok (.single k, .single (if x1IsX2 eps x1 x2 then k else foldIn k 1))",
"new": ".ok (.single k, .single k)",
"edit": "same dropout key for different inputs",
"claim": "C20"
},
{
"file": "Model/Utils.lean",
"definition": "Utils.canonicalizeIdx",
"old": "List.replicate (ndim + 1 - acc.length) full",
"new": "List.replicate (ndim - acc.length) full",
"edit": "Ellipsis one axis short",
"claim": "C21"
},
{
"file": "Model/Utils.lean",
"definition": "Utils.sliceShapeLoop",
"old": "(a - nInts, s) :: unk",
"new": "(a, s) :: unk",
"edit": "unknown axes not shifted by integers",
"claim": "C21"
},
{
"file": "Model/Tree.lean",
"definition": "Tree.runAll",
"old": ".ok (y :: ys)",
"new": ".ok ys",
"edit": "drop a result",
"claim": "C17"
},
{
"file": "Model/Tree.lean",
"definition": "Tree.childrenOf",
"old": "if b = b' then (childrenOf b ts).map (cs :: \u00b7) else none",
"new": "(childrenOf b ts).map (cs :: \u00b7)",
"edit": "lists and tuples not distinguished",
"claim": "C17"
},
{
"file": "Model/Dataclass.lean",
"definition": "Dataclass.metaFields",
"old": "f.init && !f.pytreeNode",
"new": "!f.pytreeNode",
"edit": "non-init fields among the static ones",
"claim": "C23"
},
{
"file": "Model/Dataclass.lean",
"definition": "Dataclass.unflatten",
"old": "((metaFields spec).zip meta_ ++ (dataFields spec).zip data)",
"new": "((dataFields spec).zip meta_ ++ (metaFields spec).zip data)",
"edit": "swap data and static fields",
"claim": "C23"
},
{
"file": "Model/Dataclass.lean",
"definition": "Dataclass.replaceKwargs",
"old": "| some _ => .error .valueError",
"new": "| some _ => replaceKwargs fs o changes",
"edit": "replace of a non-init field not rejected",
"claim": "C23"
},
{
"file": "Model/KernelOps.lean",
"definition": "Kernel.reverse",
"old": "let cov1 \u2190 reverseZipped k.cov1 k.batchNdim",
"new": "let cov1 \u2190 reverseZipped k.cov1 2",
"edit": "reverse cov1 as if it had two batch axes",
"claim": "C12"
},
{
"file": "Model/KernelOps.lean",
"definition": "Kernel.reverse",
"old": "isReversed := !k.isReversed",
"new": "isReversed := k.isReversed",
"edit": "flag not flipped",
"claim": "C12"
},
{
"file": "Model/KernelOps.lean",
"definition": "Kernel.mul",
"old": "ntk := k.ntk.map fun a => a.map (c ^ 2 * \u00b7) }",
"new": "ntk := k.ntk.map fun a => a.map (c * \u00b7) }",
"edit": "ntk scaled by c",
"claim": "C24"
},
{
"file": "Model/KernelOps.lean",
"definition": "Kernel.add",
"old": "cov2 := k.cov2.map fun a => a.map (c ^ 2 + \u00b7) }",
"new": "cov2 := k.cov2.map fun a => a.map (c ^ 2 + \u00b7), ntk := k.ntk.map fun a => a.map (c ^ 2 + \u00b7) }",
"edit": "constant added to ntk too",
"claim": "C24"
},
{
"file": "Model/KernelOps.lean",
"definition": "Kernel.mask",
"old": "| some _ => maskProd k m2 m2 k.batchNdim",
"new": "| some _ => maskProd k m1 m1 k.batchNdim",
"edit": "cov2 masked with the first mask",
"claim": "C25"
},
{
"file": "Model/KernelOps.lean",
"definition": "Kernel.maskReshape",
"old": ".ok (if k.isReversed then",
"new": ".ok (if false then",
"edit": "mask of a reversed kernel not reversed",
"claim": "C25"
},
{
"file": "Model/KernelOps.lean",
"definition": "Kernel.maskProd",
"old": "(if k.diagonalSpatial then 1 else m1.ndim) or)\n  | some m1, some m2",
"new": "(if k.diagonalSpatial then 1 else m1.ndim) and)\n  | some m1, some m2",
"edit": "only positions masked on both sides are zeroed",
"claim": "C25"
},
{
"file": "Model/KernelOps.lean",
"definition": "Kernel.permuteAxes",
"old": "[2 * a - batchNdim, 2 * a - batchNdim + 1]",
"new": "[2 * a, 2 * a + 1]",
"edit": "offset of the batch axes wrong",
"claim": "C26"
},
{
"file": "Model/KernelOps.lean",
"definition": "Kernel.transpose",
"old": "let nngp \u2190 transposeE k.nngp (permuteAxes k.diagonalSpatial axes 2)",
"new": "let nngp := k.nngp",
"edit": "nngp not transposed",
"claim": "C26"
},
{
"file": "Model/KernelOps.lean",
"definition": "Kernel.getItem",
"old": "let sp := if k.isReversed then sp.reverse else sp",
"new": "let sp := sp",
"edit": "index of a reversed kernel not reversed",
"claim": "C27"
},
{
"file": "Model/KernelOps.lean",
"definition": "Kernel.getItem",
"old": "batchAxis := shiftAxis idx k.batchAxis",
"new": "batchAxis := k.batchAxis",
"edit": "batch axis not shifted",
"claim": "C27"
},
{
"file": "Model/KernelOps.lean",
"definition": "Kernel.shiftAxis",
"old": "if isIntEntry p.1 \u2227 p.2 < ax then ax - 1 else ax",
"new": "if isIntEntry p.1 then ax - 1 else ax",
"edit": "every integer shifts the axis",
"claim": "C27"
},
{
"file": "Model/KernelOps.lean",
"definition": "Kernel.getItem",
"old": "if k.diagonalBatch then [batchIdx] else [batchIdx, batchIdx]",
"new": "[batchIdx]",
"edit": "cov indexed with one batch entry always",
"claim": "C27"
}
]