[
{
"file": "Model/KernelDot.lean",
"definition": "KernelDot.outLabels",
"old": "if !D.isLhs then m.length",
"new": "if D.isLhs then m.length",
"edit": "free axes of the other operand placed for the wrong side",
"claim": "C28"
},
{
"file": "Model/KernelDot.lean",
"definition": "KernelDot.dotGeneral",
"old": "let nngp ← D.dot k.isReversed 2 k.nngp other1 other2",
"new": "let nngp ← D.dot k.isReversed 2 k.nngp other2 other1",
"edit": "operands of x1 and x2 swapped for the nngp",
"claim": "C28"
},
{
"file": "Model/Diagonal.lean",
"definition": "Diagonal.seq",
"old": "else Tri.and self.input other.input",
"new": "else self.input",
"edit": "composition forgets the requirement of the later layer",
"claim": "C29"
},
{
"file": "Model/Diagonal.lean",
"definition": "Diagonal.toBool",
"old": "self.output.val > Tri.no.val",
"new": "self.output = .yes",
"edit": "MAYBE output treated as not diagonal",
"claim": "C30"
},
{
"file": "Model/Req.lean",
"definition": "Req.foldKey",
"old": "| some a, none => some a",
"new": "| some _, none => none",
"edit": "a requirement of an earlier layer is dropped if a later layer has none",
"claim": "C31"
},
{
"file": "Model/Combinators.lean",
"definition": "Comb.serialInit",
"old": "match l.init (split rng).2 s with",
"new": "match l.init (split rng).1 s with",
"edit": "the same half of the key is used for the layer and for the rest",
"claim": "C32"
},
{
"file": "Model/Combinators.lean",
"definition": "Comb.runAll",
"old": "| .ok b => runAll fs b",
"new": "| .ok _ => runAll fs a",
"edit": "the input, not the output of the previous layer, is passed on",
"claim": "C32"
},
{
"file": "Model/Combinators.lean",
"definition": "Comb.parallelApply",
"old": "| .ok ys => .ok (y :: ys)",
"new": "| .ok ys => .ok (ys ++ [y])",
"edit": "branch outputs in reverse order",
"claim": "C33"
},
{
"file": "Model/Combinators.lean",
"definition": "Comb.repeatKernel",
"old": "runAll (List.replicate (n - 1) f) k1",
"new": "runAll (List.replicate n f) k1",
"edit": "the first application is not counted",
"claim": "C34"
},
{
"file": "Model/Combinators.lean",
"definition": "Comb.repeat",
"old": "if s' ≠ s then .error .valueError",
"new": "if s' = s then .error .valueError",
"edit": "inverted check of the shape",
"claim": "C34"
},
{
"file": "Model/Inputs.lean",
"definition": "Inputs.inputsToKernel",
"old": "mask2 := r2.bind (·.2.2)",
"new": "mask2 := r1.bind (·.2.2)",
"edit": "mask of x1 used for x2",
"claim": "C35"
},
{
"file": "Model/Inputs.lean",
"definition": "Inputs.covDiagonal",
"old": "divBy ret (x1.shape.getD ca 0)",
"new": "divBy ret (x1.shape.getD 0 0)",
"edit": "divided by the batch size instead of the number of channels",
"claim": "C35"
},
{
"file": "Model/Fuse.lean",
"definition": "Fuse.forbidden",
"old": "d.input = .no",
"new": "d.input ≠ .yes",
"edit": "MAYBE requirement forbids the diagonal layout",
"claim": "C36"
},
{
"file": "Model/Dense.lean",
"definition": "Dense.kernelFn",
"old": "isGaussian := true, isInput := false",
"new": "isInput := false",
"edit": "Dense does not mark its output Gaussian",
"claim": "C37"
},
{
"file": "Model/Flatten.lean",
"definition": "Flatten.kernelFn",
"old": "isGaussian := false, isReversed := false",
"new": "isReversed := false",
"edit": "Flatten keeps the Gaussian flag",
"claim": "C37"
},
{
"file": "Model/Branching.lean",
"definition": "Kernel.fanInSum",
"old": "if !gauss && ks'.length != 1 then .error .notImplemented",
"new": "if false then .error .notImplemented",
"edit": "non-Gaussian branches are summed",
"claim": "C38"
},
{
"file": "Model/Branching.lean",
"definition": "Kernel.preprocessFanIn",
"old": "2 * all.countP (·.isReversed) > all.length",
"new": "all.countP (·.isReversed) > all.length",
"edit": "majority vote never reverses",
"claim": "C38"
},
{
"file": "Model/Branching.lean",
"definition": "Kernel.matsProdLoop",
"old": "zipB (· * ·) nngpProd ntk",
"new": "zipB (· * ·) ntkProd ntk",
"edit": "product rule with the wrong factor",
"claim": "C39"
},
{
"file": "Model/Concat.lean",
"definition": "Kernel.concatWeights",
"old": "widths.map fun _ => 1 else widths",
"new": "widths.map fun _ => 1 else widths.map fun _ => 1",
"edit": "branches weighted equally whatever their widths",
"claim": "C40"
},
{
"file": "Model/Concat.lean",
"definition": "Kernel.concatAxis",
"old": "if rev then sp.reverse.getD (sp.idxOf ax) 0 else ax",
"new": "ax",
"edit": "reversed kernels are concatenated along the wrong axis",
"claim": "C40"
},
{
"file": "Model/Concat.lean",
"definition": "Kernel.blockConcat",
"old": "concatE (padRows padAxis 0 mats) (padAxis + 1)",
"new": "concatE (padRows padAxis 0 mats) padAxis",
"edit": "blocks concatenated along the padded axis",
"claim": "C40"
},
{
"file": "Model/Branching.lean",
"definition": "Masks.andB",
"old": "a.get (clip i a.shape) && b.get (clip i b.shape)",
"new": "a.get (clip i a.shape) || b.get (clip i b.shape)",
"edit": "sum of masks masks a position masked in any branch",
"claim": "C41"
},
{
"file": "Model/Elementwise.lean",
"definition": "expDual",
"old": "diag v := Real.exp (2 * b ^ 2 * v)",
"new": "diag v := Real.exp (b ^ 2 * v)",
"edit": "wrong variance of Exp",
"claim": "C42"
},
{
"file": "Model/Elementwise.lean",
"definition": "sinDual",
"old": "(Real.exp (b ^ 2 * (-0.5 * s + n)) - Real.exp",
"new": "(Real.exp (b ^ 2 * (-0.5 * s + n)) + Real.exp",
"edit": "sign of the second term of Sin",
"claim": "C43"
},
{
"file": "Model/Elementwise.lean",
"definition": "rbfDual",
"old": "dot n s := 2 * gamma",
"new": "dot n s := gamma",
"edit": "derivative of Rbf without the factor 2",
"claim": "C43"
},
{
"file": "Model/Elementwise.lean",
"definition": "abReluDual",
"old": "(a - b) ^ 2 / (2 * Real.pi) * sqrtTol",
"new": "(a + b) ^ 2 / (2 * Real.pi) * sqrtTol",
"edit": "slopes added instead of subtracted",
"claim": "C44"
},
{
"file": "Model/Elementwise.lean",
"definition": "signCore",
"old": "1 - reluAngle n p * 2 / Real.pi",
"new": "1 - reluAngle n p / Real.pi",
"edit": "angle of Sign without the factor 2",
"claim": "C45"
},
{
"file": "Model/Elementwise.lean",
"definition": "erfDual",
"old": "dot n prod := 2 * (2 / Real.pi)",
"new": "dot n prod := 2 / Real.pi",
"edit": "derivative of Erf without the factor 2",
"claim": "C46"
},
{
"file": "Model/Elementwise.lean",
"definition": "erfKernelFn",
"old": "fun k => (k.mul a).add c",
"new": "fun k => (k.add c).mul a",
"edit": "shift applied before the scaling",
"claim": "C46"
},
{
"file": "Model/Elementwise.lean",
"definition": "monomialNngp",
"old": "6 * nngp ^ 3 + 9 * nngp * prod",
"new": "6 * nngp ^ 3 + 6 * nngp * prod",
"edit": "coefficient of the cubic",
"claim": "C47"
},
{
"file": "Model/Elementwise.lean",
"definition": "rectJ",
"old": "(-1) ^ degree * Real.sin θ ^ (2 * degree + 1)",
"new": "Real.sin θ ^ (2 * degree + 1)",
"edit": "sign of the arc-cosine kernels",
"claim": "C47"
},
{
"file": "Model/Elementwise.lean",
"definition": "polyDict",
"old": "(2 ^ i * i.factorial * Real.sqrt l.factorial)",
"new": "(2 ^ i * Real.sqrt l.factorial)",
"edit": "factorial missing in the Hermite expansion",
"claim": "C48"
},
{
"file": "Model/Elementwise.lean",
"definition": "gaussianDual",
"old": "4 * b ^ 2 * n / sqrtTol (prod - 4 * b ^ 2 * n ^ 2) ^ 3",
"new": "4 * b ^ 2 * n / sqrtTol (prod - 4 * b ^ 2 * n ^ 2) ^ 2",
"edit": "wrong power in the derivative of Gaussian",
"claim": "C49"
},
{
"file": "Model/Elementwise.lean",
"definition": "hermiteDual",
"old": "diag v := v ^ degree",
"new": "diag v := v",
"edit": "variance of Hermite not raised to the degree",
"claim": "C50"
},
{
"file": "Model/Elementwise.lean",
"definition": "abReluKernelFn",
"old": ".map (·.rescale factor)",
"new": ".map (·.rescale 1)",
"edit": "result not scaled back",
"claim": "C51"
},
{
"file": "Model/Elementwise.lean",
"definition": "getDiagonalOuterProds",
"old": "let prod12 := outerProd d1 d2 0 stop op",
"new": "let prod12 := outerProd d1 (some d1) 0 stop op",
"edit": "products of x1 with x1 used for the cross covariance",
"claim": "C42"
},
{
"file": "Model/Elementwise.lean",
"definition": "DualFn.newNtk",
"old": "zipB (· * ·) t dot",
"new": "zipB (· + ·) t dot",
"edit": "ntk not multiplied by the derivative kernel",
"claim": "C42"
},
{
"file": "Model/Elementwise.lean",
"definition": "numericalDual",
"old": "n / sqrtTol (q.1 / 2) 1e-30 * x.1",
"new": "n / sqrtTol (q.2 / 2) 1e-30 * x.1",
"edit": "normalised by the variance of the other input",
"claim": "C79"
},
{
"file": "Model/Dense.lean",
"definition": "Dense.ntkNtk",
"old": "zipB (· + ·) nngp (n.map fun v => d.wStd ^ 2 * v)",
"new": "zipB (· + ·) nngp (n.map fun v => d.wStd * v)",
"edit": "weight standard deviation not squared in the ntk",
"claim": "C52"
},
{
"file": "Model/Dense.lean",
"definition": "Dense.ntkStandard",
"old": "n.map fun v => v + 1 else n",
"new": "n else n",
"edit": "bias gradient missing for the standard parameterization",
"claim": "C52"
},
{
"file": "Model/Conv.lean",
"definition": "Conv.convUnscaled",
"old": "if k.isReversed then d.filter.reverse else d.filter",
"new": "d.filter",
"edit": "filter not reversed for reversed kernels",
"claim": "C53"
},
{
"file": "Model/Conv.lean",
"definition": "Conv.affine",
"old": "if pairsEqual (i.drop bn) then out.get i + t else out.get i",
"new": "out.get i + t",
"edit": "bias of unshared filters added off the diagonal",
"claim": "C53"
},
{
"file": "Model/Conv.lean",
"definition": "convDiagonal",
"old": "(reduceWindow lhs v pad).map fun x => x / ((ws.map Prod.fst).prod : ℕ)",
"new": "reduceWindow lhs v pad",
"edit": "not divided by the filter size",
"claim": "C53"
},
{
"file": "Model/Pool.lean",
"definition": "normalize",
"old": "if pad = .same ∧ normalizeEdges = true then",
"new": "if pad = .same then",
"edit": "edges normalized always",
"claim": "C54"
},
{
"file": "Model/Pool.lean",
"definition": "Pool.pool",
"old": "if k.diagonalSpatial ∧ d.type = .avg then normalize",
"new": "if false ∧ d.type = .avg then normalize",
"edit": "diagonal kernels are divided once only",
"claim": "C54"
},
{
"file": "Model/Pool.lean",
"definition": "GlobalPool.kernelFn",
"old": "batchAxis := if batchFirst then 0 else 1",
"new": "batchAxis := 0",
"edit": "batch axis of the output assumed first",
"claim": "C54"
},
{
"file": "Model/Flatten.lean",
"definition": "traceLast",
"old": ".sum / n⟩",
"new": ".sum⟩",
"edit": "trace without normalization",
"claim": "C55"
},
{
"file": "Model/Flatten.lean",
"definition": "Flatten.kernelFn",
"old": "let bn := if k.diagonalBatch then 1 else 2",
"new": "let bn := 2",
"edit": "cov1 assumed to have two batch axes",
"claim": "C55"
},
{
"file": "Model/Dropout.lean",
"definition": "Dropout.kernelFnTrain",
"old": "if k.x1IsX2.get [] then factor else 1",
"new": "factor",
"edit": "cross covariance scaled for different inputs",
"claim": "C56"
},
{
"file": "Model/Dropout.lean",
"definition": "pairsEqual",
"old": "a == b && pairsEqual t",
"new": "a == b || pairsEqual t",
"edit": "entries with one equal pair are scaled",
"claim": "C56"
},
{
"file": "Model/LayerNorm.lean",
"definition": "layerNormAxes",
"old": "if rev then spatial.reverse else spatial",
"new": "spatial",
"edit": "axes not reversed for reversed kernels",
"claim": "C57"
},
{
"file": "Model/LayerNorm.lean",
"definition": "groupSize",
"old": "max (flagSize fl s - maskSize.get i) 1",
"new": "max (flagSize fl s) 1",
"edit": "masked positions counted",
"claim": "C78"
},
{
"file": "Model/Aggregate.lean",
"definition": "Aggregate.bucketAxes",
"old": "let agg1 := agg.map fun a => a - (if ba < a then 1 else 0) - (if ca < a then 1 else 0) + start",
"new": "let agg1 := agg.map fun a => a - (if ba < a then 1 else 0) + start",
"edit": "channel axis not skipped",
"claim": "C58"
},
{
"file": "Model/Aggregate.lean",
"definition": "Aggregate.passMessages",
"old": "segmentSum k r1 v1",
"new": "segmentSum k s1 v1",
"edit": "messages gathered at the senders",
"claim": "C58"
},
{
"file": "Model/Attention.lean",
"definition": "Attention.coefficients",
"old": "(1 * (nIn / (nIn + nPos : ℕ)), l.posStd ^ 2 * (nPos / (nIn + nPos : ℕ)))",
"new": "(1 * (nPos / (nIn + nPos : ℕ)), l.posStd ^ 2 * (nIn / (nIn + nPos : ℕ)))",
"edit": "weights of concatenation swapped",
"claim": "C59"
},
{
"file": "Model/Attention.lean",
"definition": "Attention.kernelLinear",
"old": "u + 2 * v) a",
"new": "u + v) a",
"edit": "value and output weights counted once in the ntk",
"claim": "C59"
},
{
"file": "Model/Attention.lean",
"definition": "Attention.scores",
"old": "if l.mechanism = .softmax then negInf else 0",
"new": "0",
"edit": "masked scores are zero also for softmax",
"claim": "C59"
},
{
"file": "Model/Window.lean",
"definition": "wrap1",
"old": "(((k : Int) - lo) % n).toNat",
"new": "(((k : Int) + lo) % n).toNat",
"edit": "circular padding shifted the wrong way",
"claim": "C60"
},
{
"file": "Model/Window.lean",
"definition": "samePads",
"old": "(total / 2, total - total / 2)",
"new": "(total - total / 2, total / 2)",
"edit": "larger half of the padding in front",
"claim": "C60"
},
{
"file": "Model/Predict.lean",
"definition": "Predict.invExpm1Fn",
"old": "/ |eval|",
"new": "/ eval",
"edit": "no absolute value of the eigenvalue",
"claim": "C61"
},
{
"file": "Model/Predict.lean",
"definition": "Predict.Mse.finiteTrain",
"old": "(expm1Fn m.yTrain.shape.prod)",
"new": "(expm1Fn 1)",
"edit": "loss not normalised by the number of outputs",
"claim": "C61"
},
{
"file": "Model/Predict.lean",
"definition": "Predict.addTime",
"old": "fx.get (i.drop tn) + d.get i⟩",
"new": "d.get i⟩",
"edit": "initial outputs not added",
"claim": "C62"
},
{
"file": "Model/Predict.lean",
"definition": "Predict.Mse.predictInf",
"old": "zipB (fun a b => a + b) f (d.moveaxis",
"new": "zipB (fun a b => a - b) f (d.moveaxis",
"edit": "sign of the correction at infinite time",
"claim": "C63"
},
{
"file": "Model/Predict.lean",
"definition": "Predict.addDiagReg",
"old": "if absolute then reg else reg *",
"new": "if !absolute then reg else reg *",
"edit": "absolute and relative regularisation swapped",
"claim": "C64"
},
{
"file": "Model/Gp.lean",
"definition": "Predict.Gp.covGp",
"old": "zipB (fun a b => a - b) ktt c",
"new": "zipB (fun a b => a - b) c ktt",
"edit": "posterior covariance with the wrong sign",
"claim": "C64"
},
{
"file": "Model/Gp.lean",
"definition": "Predict.Mode.init",
"old": "| .ntkgp => .ntk",
"new": "| .ntkgp => .nngp",
"edit": "ntkgp covariance from the nngp kernel",
"claim": "C64"
},
{
"file": "Model/Ensemble.lean",
"definition": "Predict.Ens.covTest",
"old": "e (2 * t)) tt",
"new": "e t) tt",
"edit": "time not doubled in the nngp covariance",
"claim": "C65"
},
{
"file": "Model/Ensemble.lean",
"definition": "Predict.Ens.covTrain",
"old": "-2 * max e 0",
"new": "-max e 0",
"edit": "time not doubled in the train covariance",
"claim": "C65"
},
{
"file": "Model/PredictCache.lean",
"definition": "Predict.Gp.invYM",
"old": "let r := Lru.call 2 s'.invY g",
"new": "let r := Lru.call 2 s'.invY .nngp",
"edit": "cached under a fixed key",
"claim": "C66"
},
{
"file": "Model/PredictCache.lean",
"definition": "Predict.Lru.call",
"old": "(.ok a, ((k, a) :: l).take cap)",
"new": "(.ok a, ((k, a) :: l).drop 1)",
"edit": "new value not kept",
"claim": "C66"
},
{
"file": "Model/MaxLr.lean",
"definition": "Predict.maxLearningRate",
"old": "2 * (1 + momentum) * factor",
"new": "2 * factor",
"edit": "momentum ignored",
"claim": "C67"
},
{
"file": "Model/GradDesc.lean",
"definition": "Predict.Gd.force",
"old": ".map fun v => -v",
"new": ".map fun v => v",
"edit": "gradient ascent",
"claim": "C68"
},
{
"file": "Model/GradDesc.lean",
"definition": "Predict.Gd.friction",
"old": "(b - 1) / Real.sqrt m.learningRate",
"new": "(b - 1) / m.learningRate",
"edit": "friction scaled by the learning rate",
"claim": "C68"
},
{
"file": "Model/Predict.lean",
"definition": "Predict.checkInputs",
"old": "fxTest.isSome && ktd.isNone",
"new": "fxTest.isNone && ktd.isNone",
"edit": "missing test-train kernel not detected",
"claim": "C69"
},
{
"file": "Model/Taylor.lean",
"definition": "Taylor.linearize",
"old": "let dparams := p - params",
"new": "let dparams := params - p",
"edit": "direction reversed",
"claim": "C70"
},
{
"file": "Model/Taylor.lean",
"definition": "Taylor.taylorizeR",
"old": "((currentDegree + 1 : ℕ) : ℝ)⁻¹ • df",
"new": "((currentDegree + 2 : ℕ) : ℝ)⁻¹ • df",
"edit": "divided by the wrong degree",
"claim": "C71"
},
{
"file": "Model/Empirical.lean",
"definition": "Emp.traceLoop",
"old": "traceAt acc ci.1 (n + ci.1 - ci.2)",
"new": "traceAt acc ci.1 (n + ci.1)",
"edit": "axes removed so far not subtracted",
"claim": "C72"
},
{
"file": "Model/Empirical.lean",
"definition": "Emp.resBatchDims",
"old": "2 * bi.1 - bi.2 - 2 *",
"new": "2 * bi.1 - bi.2 - 1 *",
"edit": "traced axes counted once",
"claim": "C72"
},
{
"file": "Model/Empirical.lean",
"definition": "Emp.nngp",
"old": "let d ← dot out1 out2 trace diagonal",
"new": "let d ← dot out1 out1 trace diagonal",
"edit": "second output ignored",
"claim": "C73"
},
{
"file": "Model/EmpiricalNtk.lean",
"definition": "Emp.ntkVp",
"old": "jvp f1 θ (vjp f2 θ cotangents)",
"new": "jvp f2 θ (vjp f1 θ cotangents)",
"edit": "inputs swapped",
"claim": "C75"
},
{
"file": "Model/Empirical.lean",
"definition": "Emp.dot",
"old": "return prod.moveaxis (List.range b.length) (resBatchDims c b)",
"new": "return prod.moveaxis (List.range b.length) b",
"edit": "batch axes moved to their old places",
"claim": "C74"
},
{
"file": "Model/Rules.lean",
"definition": "Rules.transposeS",
"old": "outTrace := (List.range out.length).map fun i => perm.idxOf i",
"new": "outTrace := perm",
"edit": "permutation instead of its inverse",
"claim": "C76"
},
{
"file": "Model/Rules.lean",
"definition": "Rules.addJ",
"old": "if isSub ∧ idx = 1 then",
"new": "if isSub then",
"edit": "first operand of a difference negated",
"claim": "C76"
},
{
"file": "Model/Rules.lean",
"definition": "Rules.mulLoop",
"old": "else if n = m then .ok (t, i :: d)",
"new": "else if n = m then .ok (i :: t, d)",
"edit": "equal sizes declared a trace",
"claim": "C76"
},
{
"file": "Model/Structure.lean",
"definition": "Structure.meet",
"old": "outDiagonal := self.outDiagonal.filter fun i => other.outDiagonal.contains i",
"new": "outDiagonal := self.outDiagonal",
"edit": "diagonal axes not intersected",
"claim": "C77"
},
{
"file": "Model/LayerNorm.lean",
"definition": "meanKeep",
"old": "(groupSum fl x).get i / size.get i",
"new": "(groupSum fl x).get i",
"edit": "sum instead of mean",
"claim": "C78"
},
{
"file": "Model/Network.lean",
"definition": "Network.Net.run",
"old": "| .ok v' => b.run v'",
"new": "| .ok _ => b.run v",
"edit": "second part of a network applied to its input",
"claim": "C80"
},
{
"file": "Model/Conv.lean",
"definition": "Conv.finish",
"old": "isReversed := if !k.diagonalSpatial && d.sharedWeights then !k.isReversed else k.isReversed",
"new": "isReversed := k.isReversed",
"edit": "reversal not recorded",
"claim": "C80"
}
]