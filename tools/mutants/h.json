[
 {
  "file": "Model/GradDesc.lean",
  "definition": "Gd.select",
  "old": "if fx.isSome && fxTest.isNone then .one out.fxTrain\n    else if",
  "new": "if",
  "edit": "a pair also when only train outputs are given",
  "claim": "C68"
 },
 {
  "file": "Model/GradDesc.lean",
  "definition": "Gd.select",
  "old": "else if fxTest.isSome && fx.isNone then .one out.fxTest\n    ",
  "new": "",
  "edit": "a pair also when only test outputs are given",
  "claim": "C68"
 },
 {
  "file": "Model/Fuse.lean",
  "definition": "defaultReq",
  "old": "(\"channel_axis\", .int (-1))",
  "new": "(\"channel_axis\", .int 1)",
  "edit": "default channel axis",
  "claim": "C36"
 },
 {
  "file": "Model/Batching.lean",
  "definition": "flattenKernel",
  "old": "| some _ => if x2IsNone then .ok k' else .error .typeError",
  "new": "| some m => if x2IsNone then .ok k' else .ok { k' with mask2 := some (flattenBatchDims m isParallel (some 0)) }",
  "edit": "second mask flattened without the unary minus",
  "claim": "C83"
 },
 {
  "file": "Model/MaskedTree.lean",
  "definition": "fanWithMasking",
  "old": ".ok { k' with mask1 := m1, mask2 := m2 }",
  "new": ".ok { k' with mask1 := m1, mask2 := none }",
  "edit": "second mask dropped at a fan-in",
  "claim": "C83"
 },
 {
  "file": "Model/GradDesc.lean",
  "definition": "Gd.rate",
  "old": "| some _ => Real.sqrt m.learningRate",
  "new": "| some _ => m.learningRate",
  "edit": "no square root with momentum",
  "claim": "C68"
 },
 {
  "file": "Model/GradDesc.lean",
  "definition": "Gd.friction",
  "old": "(b - 1) / Real.sqrt m.learningRate",
  "new": "(b - 1) / m.learningRate",
  "edit": "no square root in the friction",
  "claim": "C68"
 },
 {
  "file": "Model/GradDesc.lean",
  "definition": "Gd.state0",
  "old": "if s.qxTrain.isSome || s.qxTest.isSome then .error .valueError else",
  "new": "if s.qxTrain.isSome && s.qxTest.isSome then .error .valueError else",
  "edit": "auxiliary variables without momentum accepted unless both are given",
  "claim": "C69"
 },
 {
  "file": "Model/GradDesc.lean",
  "definition": "Gd.dstate",
  "old": "zipB (fun x y : ℝ => x + b * y) d q",
  "new": "zipB (fun x y : ℝ => x - b * y) d q",
  "edit": "sign of the friction",
  "claim": "C68"
 },
 {
  "file": "Model/GradDesc.lean",
  "definition": "Gd.dstate",
  "old": "(zipB (fun x y : ℝ => x + b * y) dt qt).map some",
  "new": "(zipB (fun x y : ℝ => x - b * y) dt qt).map some",
  "edit": "sign of the friction on the test set",
  "claim": "C68"
 },
 {
  "file": "Model/GradDesc.lean",
  "definition": "Gd.dstate",
  "old": "(m.force k g T).map some",
  "new": "(m.force m.kTrainTrain g T).map some",
  "edit": "train kernel used on the test set",
  "claim": "C68"
 },
 {
  "file": "Model/GradDesc.lean",
  "definition": "Gd.trim",
  "old": "states.getD (1 + ravel",
  "new": "states.getD (ravel",
  "edit": "added first time not dropped",
  "claim": "C68"
 },
 {
  "file": "Model/GradDesc.lean",
  "definition": "Gd.firstTime",
  "old": "if t = 0 then -(10 : ℝ) ^ (-24 : ℤ) else 0",
  "new": "0",
  "edit": "first time 0 also when t starts at 0",
  "claim": "C68"
 },
 {
  "file": "Model/GradDesc.lean",
  "definition": "Gd.select",
  "old": "if fx.isSome && fxTest.isNone then .one out.fxTrain",
  "new": "if fxTest.isNone then .one out.fxTrain",
  "edit": "train outputs alone when neither is given",
  "claim": "C68",
  "accept": "equivalent: predict raises before when neither is given (checkOde)"
 },
 {
  "file": "Model/GradDesc.lean",
  "definition": "Gd.checkOde",
  "old": "if fxTest.isSome then .error .valueError else checkInputs s.fxTrain",
  "new": "if false then .error .valueError else checkInputs s.fxTrain",
  "edit": "test outputs beside a state accepted",
  "claim": "C69"
 },
 {
  "file": "Model/GradDesc.lean",
  "definition": "Gd.fxTestShape",
  "old": "| none => .ok y.shape",
  "new": "| none => .ok []",
  "edit": "test shape without a test kernel",
  "claim": "C68"
 },
 {
  "file": "Model/Gp.lean",
  "definition": "Mode.field",
  "old": "  | .nngp => .nngp\n  | _ => .ntk",
  "new": "  | .ntk => .ntk\n  | _ => .nngp",
  "edit": "ntkgp uses the NNGP",
  "claim": "C64"
 },
 {
  "file": "Model/Gp.lean",
  "definition": "Mode.init",
  "old": "  | .ntkgp => .ntk\n  | _ => .nngp",
  "new": "  | _ => .nngp",
  "edit": "initial covariance of ntkgp is the NNGP",
  "claim": "C64"
 },
 {
  "file": "Model/Gp.lean",
  "definition": "Gp.covNtk",
  "old": "let c ← zipB (fun a b => a - b) c t2",
  "new": "let c ← zipB (fun a b => a + b) c t2",
  "edit": "sign of the cross terms",
  "claim": "C64"
 },
 {
  "file": "Model/Gp.lean",
  "definition": "Gp.covNtk",
  "old": "let t2 ← zipB (fun a b => a + b) t2 (t2.moveaxis (getAxes n).2.2.1 (getAxes n).2.2.2)",
  "new": "let t2 ← zipB (fun a b => a + b) t2 t2",
  "edit": "cross term not transposed",
  "claim": "C64"
 },
 {
  "file": "Model/Gp.lean",
  "definition": "Gp.one",
  "old": "if g = .ntk ∧ (¬ m.kTrainTrain.hasNngp ∨ ¬ K.hasNngp) then .error .valueError",
  "new": "if g = .ntk ∧ (¬ m.kTrainTrain.hasNngp ∧ ¬ K.hasNngp) then .error .valueError",
  "edit": "missing NNGP reported only if both are missing",
  "claim": "C69"
 },
 {
  "file": "Model/Gp.lean",
  "definition": "Gp.one",
  "old": "return (m.yTrain, kTestTest.map fun _ => ⟨kdd.shape, fun _ => 0⟩)",
  "new": "return (m.yTrain, kTestTest.map fun _ => kdd)",
  "edit": "prior covariance at the training points",
  "claim": "C64"
 },
 {
  "file": "Model/Gp.lean",
  "definition": "Gp.mean",
  "old": "return d.moveaxis (lastAxes d.ndim T.length) T",
  "new": "return d",
  "edit": "trace axes left at the end",
  "claim": "C64"
 },
 {
  "file": "Model/Gp.lean",
  "definition": "Gp.covGp",
  "old": "zipB (fun a b => a - b) ktt c",
  "new": "zipB (fun a b => a + b) ktt c",
  "edit": "posterior covariance adds the reduction",
  "claim": "C64"
 },
 {
  "file": "Model/Gp.lean",
  "definition": "KArg.first",
  "old": "  | .obj (some (some a)) _ => .ok a\n",
  "new": "",
  "edit": "NNGP not considered",
  "claim": "C64"
 },
 {
  "file": "Model/Ensemble.lean",
  "definition": "needs",
  "old": "get.contains .nngp || (get.contains .ntk && cov)",
  "new": "get.contains .nngp",
  "edit": "NNGP not computed for the covariance of ntk",
  "claim": "C65"
 },
 {
  "file": "Model/Ensemble.lean",
  "definition": "Ens.covTrain",
  "old": "Real.exp (-2 * max e 0 * t",
  "new": "Real.exp (-1 * max e 0 * t",
  "edit": "covariance decays at the rate of the mean",
  "claim": "C65"
 },
 {
  "file": "Model/Ensemble.lean",
  "definition": "Ens.covTest",
  "old": "e (2 * t)) tt) k",
  "new": "e t) tt) k",
  "edit": "covariance on the test set decays at the rate of the mean",
  "claim": "C65"
 },
 {
  "file": "Model/Ensemble.lean",
  "definition": "Ens.covTest",
  "old": "let t2 ← zipB (fun a b => a + b) t2 (t2.moveaxis [1] [2])",
  "new": "let t2 ← zipB (fun a b => a + b) t2 t2",
  "edit": "cross term not transposed",
  "claim": "C65"
 },
 {
  "file": "Model/Ensemble.lean",
  "definition": "Ens.covTest",
  "old": "let c ← innerE t1 nngpDd",
  "new": "let c ← innerE F nngpDd",
  "edit": "test kernel missing in the quadratic term",
  "claim": "C65"
 },
 {
  "file": "Model/Ensemble.lean",
  "definition": "Ens.reshapeMean",
  "old": "(T.map fun a => d.ndim - m.yTrain.ndim + a)",
  "new": "T",
  "edit": "trace axes put among the axes of t",
  "claim": "C65"
 },
 {
  "file": "Model/Ensemble.lean",
  "definition": "Ens.kddArg",
  "old": "(some (if c .ntk then some (m.kdd .ntk) else none))",
  "new": "(some (if c .ntk then some (m.kdd .nngp) else none))",
  "edit": "NNGP stored as NTK",
  "claim": "C65"
 },
 {
  "file": "Model/Ensemble.lean",
  "definition": "TestSet.ktdArg",
  "old": "then some (some (x.ktd .ntk))",
  "new": "then some (some (x.ktd .nngp))",
  "edit": "NNGP of the test set stored as NTK",
  "claim": "C65"
 },
 {
  "file": "Model/Fuse.lean",
  "definition": "fuseUser",
  "old": "if v = .none then fuseUser reqs user",
  "new": "if false then fuseUser reqs user",
  "edit": "None overrides the requirement",
  "claim": "C36"
 },
 {
  "file": "Model/Fuse.lean",
  "definition": "fillDefaults",
  "old": "| some _ => fillDefaults reqs ds",
  "new": "| some _ => fillDefaults (setKey reqs k v) ds",
  "edit": "defaults override requirements",
  "claim": "C36"
 },
 {
  "file": "Model/Fuse.lean",
  "definition": "checkOne",
  "old": "else if key = \"channel_axis\" then axis k.channelAxis",
  "new": "else if key = \"channel_axis\" then axis k.batchAxis",
  "edit": "channel axis compared with the batch axis",
  "claim": "C36"
 },
 {
  "file": "Model/Fuse.lean",
  "definition": "checkOne",
  "old": "if bad k.diagonalSpatial then .error",
  "new": "if bad k.diagonalBatch then .error",
  "edit": "wrong flag compared",
  "claim": "C36"
 },
 {
  "file": "Model/Fuse.lean",
  "definition": "checkAll",
  "old": "    | .ok () => checkAll k d",
  "new": "    | .ok () => .ok ()",
  "edit": "only the first requirement is checked",
  "claim": "C36"
 },
 {
  "file": "Model/Fuse.lean",
  "definition": "defaultReq",
  "old": "(\"diagonal_batch\", .bool true)",
  "new": "(\"diagonal_batch\", .bool false)",
  "edit": "default layout of the batch",
  "claim": "C36",
  "tightened": [
   "NT.C36.defaults_used"
  ]
 },
 {
  "file": "Model/Fuse.lean",
  "definition": "forbidden",
  "old": "| .diag d => d.input = .no",
  "new": "| .diag d => d.output = .no",
  "edit": "output flag read instead of the input flag",
  "claim": "C36"
 },
 {
  "file": "Model/LayerNorm.lean",
  "definition": "divSqrt",
  "old": "bcastE (fun u v => u / Real.sqrt v) x prod",
  "new": "bcastE (fun u v => u / v) x prod",
  "edit": "no square root",
  "claim": "C57"
 },
 {
  "file": "Model/LayerNorm.lean",
  "definition": "layerNormKernelFn",
  "old": "let cov1 ← divSqrt k.cov1 prod11",
  "new": "let cov1 ← divSqrt k.cov1 prod12",
  "edit": "cov1 divided by the cross norms",
  "claim": "C57"
 },
 {
  "file": "Model/LayerNorm.lean",
  "definition": "layerNormKernelFn",
  "old": "let ntk ← divSqrt? k.ntk prod12",
  "new": "let ntk := k.ntk",
  "edit": "NTK not divided",
  "claim": "C57"
 },
 {
  "file": "Model/LayerNorm.lean",
  "definition": "layerNormKernelFn",
  "old": "(k.cov2.map (·.map fun v => eps + v))",
  "new": "k.cov2",
  "edit": "eps missing for the second input",
  "claim": "C57"
 },
 {
  "file": "Model/LayerNorm.lean",
  "definition": "layerNormKernelFn",
  "old": "(fun d => meanKeep d kax m2)",
  "new": "(fun d => meanKeep d kax m1)",
  "edit": "first mask used for the second input",
  "claim": "C57"
 },
 {
  "file": "Model/LayerNorm.lean",
  "definition": "layerNormKernelFn",
  "old": "if ca ∉ ax then .error .valueError",
  "new": "if false then .error .valueError",
  "edit": "channel axis not required",
  "claim": "C57"
 },
 {
  "file": "Model/LayerNorm.lean",
  "definition": "layerNormKernelFn",
  "old": "if !k.isGaussian then .error .notImplemented",
  "new": "if false then .error .notImplemented",
  "edit": "Gaussianity not required",
  "claim": "C57"
 },
 {
  "file": "Model/LayerNorm.lean",
  "definition": "layerNormAxes",
  "old": "let spatial := if rev then spatial.reverse else spatial",
  "new": "let spatial := spatial",
  "edit": "reversed order of axes ignored",
  "claim": "C57"
 },
 {
  "file": "Model/LayerNorm.lean",
  "definition": "layerNormApply",
  "old": "u / Real.sqrt (eps + v)",
  "new": "u / (eps + Real.sqrt v)",
  "edit": "eps outside the square root",
  "claim": "C57"
 },
 {
  "file": "Model/LayerNorm.lean",
  "definition": "prepareMask",
  "old": "(if rev then m.moveaxis",
  "new": "(if !rev then m.moveaxis",
  "edit": "mask reversed when the kernel is not",
  "claim": "C57"
 },
 {
  "file": "Model/Batching.lean",
  "definition": "scaleAxis",
  "old": "[shape.getD axis 1 * b]",
  "new": "[b]",
  "edit": "shape holds the number of batches",
  "claim": "C01"
 },
 {
  "file": "Model/Batching.lean",
  "definition": "flattenKernel",
  "old": "cov2 := if x2IsNone then none",
  "new": "cov2 := if false then none",
  "edit": "cov2 kept without second input",
  "claim": "C01"
 },
 {
  "file": "Model/Batching.lean",
  "definition": "flattenKernel",
  "old": "mask1 := k.mask1.map fun m => flattenBatchDims m isParallel (some 1)",
  "new": "mask1 := k.mask1.map fun m => flattenBatchDims m isParallel (some 0)",
  "edit": "mask of the first input taken along the second",
  "claim": "C01"
 },
 {
  "file": "Model/Batching.lean",
  "definition": "flattenKernel",
  "old": "if !k.diagonalBatch then .error .notImplemented",
  "new": "if false then .error .notImplemented",
  "edit": "full batch covariances not rejected",
  "claim": "C01"
 },
 {
  "file": "Model/Batching.lean",
  "definition": "stackKernels",
  "old": "if ∀ k' ∈ ks, k'.static = k.static then do",
  "new": "if True then do",
  "edit": "static data of the tiles not compared",
  "claim": "C01"
 },
 {
  "file": "Model/Batching.lean",
  "definition": "parallelX1",
  "old": "BatchOut.flatten k x2?.isNone true",
  "new": "BatchOut.flatten k x2?.isNone false",
  "edit": "parallel result flattened as serial",
  "claim": "C03"
 },
 {
  "file": "Model/Batching.lean",
  "definition": "nPerDevice",
  "old": "else if q = 0 then .ok (1, r)",
  "new": "else if q = 0 then .ok (1, deviceCount)",
  "edit": "all devices used for fewer examples",
  "claim": "C03"
 },
 {
  "file": "Model/Taylor.lean",
  "definition": "linearize",
  "old": "let dparams := p - params",
  "new": "let dparams := params - p",
  "edit": "direction reversed",
  "claim": "C70"
 },
 {
  "file": "Model/Taylor.lean",
  "definition": "taylorExpand",
  "old": "params dparams degree 0",
  "new": "params dparams degree 1",
  "edit": "starts at degree 1",
  "claim": "C71"
 }
]