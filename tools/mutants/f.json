[
 {
  "file": "Model/MaskedApply.lean",
  "definition": "getMaskedArray",
  "old": "| .masked x => ⟨Kernel.maskArr x.value x.mask, x.mask⟩",
  "new": "| .masked x => ⟨x.value, x.mask⟩",
  "edit": "masked entries not zeroed before the next layer",
  "claim": "C100"
 },
 {
  "file": "Model/MaskedApply.lean",
  "definition": "getMaskedArray",
  "old": "⟨Kernel.maskArr x.value x.mask, x.mask⟩",
  "new": "⟨Kernel.maskArr x.value x.mask, some (x.value.map fun v => decide (some v = maskConstant))⟩",
  "edit": "mask recomputed from the mask constant at every layer",
  "claim": "C100"
 },
 {
  "file": "Model/MaskedApply.lean",
  "definition": "globalApply",
  "old": "(max (S.prod - sumOver S fun p => if m.get (bcastIdx m.shape (at' i p)) then 1 else 0) 1 : ℕ)",
  "new": "(max S.prod 1 : ℕ)",
  "edit": "mean divided by all positions",
  "claim": "C100"
 },
 {
  "file": "Model/MaskedApply.lean",
  "definition": "globalApply",
  "old": "(max (S.prod - sumOver S fun p => if m.get (bcastIdx m.shape (at' i p)) then 1 else 0) 1 : ℕ)",
  "new": "(max (sumOver S fun p => if m.get (bcastIdx m.shape (at' i p)) then 1 else 0) 1 : ℕ)",
  "edit": "mean divided by the number of masked positions",
  "claim": "C100"
 },
 {
  "file": "Model/MaskedApply.lean",
  "definition": "globalApply",
  "old": "then 1 else 0) 1 : ℕ)",
  "new": "then 1 else 0) 2 : ℕ)",
  "edit": "divisor at least 2",
  "claim": "C100"
 },
 {
  "file": "Model/MaskedApply.lean",
  "definition": "globalApply",
  "old": "m.get (bcastIdx m.shape (at' i p))",
  "new": "m.get (at' i p)",
  "edit": "mask read without broadcasting",
  "claim": "C100"
 },
 {
  "file": "Model/MaskedApply.lean",
  "definition": "ALayer.mlayer",
  "old": "| .pool d => .pool d",
  "new": "| .pool _ => .identity",
  "edit": "mask not passed through pooling (no check of its channels)",
  "claim": "C100"
 },
 {
  "file": "Model/MaskedApply.lean",
  "definition": "ALayer.mlayer",
  "old": "| .dense d _ _ => .dense d",
  "new": "| .dense _ _ _ => .identity",
  "edit": "Dense keeps the mask of the input channels",
  "claim": "C100"
 },
 {
  "file": "Model/MaskedApply.lean",
  "definition": "ALayer.apply",
  "old": "| .pool d, x, _ => .ok (d.apply x)",
  "new": "| .pool d, x, _ => .ok ({ d with normalizeEdges := true }.apply x)",
  "edit": "edges always normalised",
  "claim": "C100"
 },
 {
  "file": "Model/MaskedApply.lean",
  "definition": "ALayer.apply",
  "old": "| .globalPool d, x, m => globalApply d x m",
  "new": "| .globalPool d, x, _ => globalApply d x none",
  "edit": "mask not passed to global pooling",
  "claim": "C100"
 },
 {
  "file": "Model/MaskedApply.lean",
  "definition": "ALayer.applyWithMasking",
  "old": "let outputsMask ← onMask l.mlayer.maskFn x.mask",
  "new": "let outputsMask : Option (Arr Bool) := x.mask",
  "edit": "mask of the inputs returned with the outputs",
  "claim": "C100"
 },
 {
  "file": "Model/MaskedApply.lean",
  "definition": "ALayer.applyWithMasking",
  "old": "| none => .array outputs",
  "new": "| none => .masked ⟨outputs, none⟩",
  "edit": "MaskedArray returned without a mask",
  "claim": "C100"
 },
 {
  "file": "Model/MaskedApply.lean",
  "definition": "applyAll",
  "old": "(← l.applyWithMasking maskConstant x)",
  "new": "(← l.applyWithMasking none x)",
  "edit": "mask constant not passed on by serial",
  "claim": "C100"
 },
 {
  "file": "Model/MaskedApply.lean",
  "definition": "applyAll",
  "old": "do applyAll maskConstant ls (← l.applyWithMasking maskConstant x)",
  "new": "do l.applyWithMasking maskConstant (← applyAll maskConstant ls x)",
  "edit": "layers applied in reverse order",
  "claim": "C100"
 },
 {
  "file": "Model/MaskedApply.lean",
  "definition": "unmask",
  "old": "| .masked x => Kernel.maskArr x.value x.mask",
  "new": "| .masked x => x.value",
  "edit": "unmask_fn leaves the values at the padding",
  "claim": "C100"
 },
 {
  "file": "Model/Masked.lean",
  "definition": "allKeep",
  "old": ".all fun c => m.get (i.set a c)",
  "new": ".any fun c => m.get (i.set a c)",
  "edit": "any instead of all over the channels (same on masks of whole positions)",
  "claim": "C99",
  "accept": "equivalent on the masks of the theorem, which mark positions as a whole with at least one channel"
 },
 {
  "file": "Model/Masked.lean",
  "definition": "allKeep",
  "old": "⟨m.shape.set a 1,",
  "new": "⟨m.shape,",
  "edit": "keepdims keeps the size of the axis",
  "claim": "C99"
 },
 {
  "file": "Model/Masked.lean",
  "definition": "maskSlice",
  "old": "((w : Int) - 1) / 2",
  "new": "(w : Int) / 2",
  "edit": "centre of an even window rounded up",
  "claim": "C99"
 },
 {
  "file": "Model/Masked.lean",
  "definition": "poolMask",
  "old": "if m.shape = out then .ok m\n",
  "new": "if m.shape = out then .ok (m.map fun _ => false)\n",
  "edit": "mask dropped when the shape does not change",
  "claim": "C99"
 },
 {
  "file": "Model/Masked.lean",
  "definition": "MLayer.remask",
  "old": "| .conv _ => true",
  "new": "| .conv _ => false",
  "edit": "kernel not masked again after Conv",
  "claim": "C99"
 },
 {
  "file": "Model/Masked.lean",
  "definition": "MLayer.remask",
  "old": "| .dense _ => true",
  "new": "| .dense _ => false",
  "edit": "kernel not masked again after Dense",
  "claim": "C99"
 },
 {
  "file": "Model/Masked.lean",
  "definition": "MLayer.remask",
  "old": "| .pool _ => true",
  "new": "| .pool _ => false",
  "edit": "kernel not masked again after pooling",
  "claim": "C99"
 },
 {
  "file": "Model/Masked.lean",
  "definition": "globalMask",
  "old": "(indices S).all fun p",
  "new": "(indices S).any fun p",
  "edit": "an example counts as masked if any position is",
  "claim": "C99"
 },
 {
  "file": "Model/Masked.lean",
  "definition": "globalMask",
  "old": "if m.shape.getD ca 0 ≠ 1 then .error .notImplemented",
  "new": "if m.shape.getD ca 0 = 1 then .error .notImplemented",
  "edit": "channel check inverted",
  "claim": "C99"
 },
 {
  "file": "Model/Masked.lean",
  "definition": "MLayer.maskFn",
  "old": "| .conv d, m => poolMask (allKeep m d.channelAxis)",
  "new": "| .conv d, m => poolMask m",
  "edit": "mask keeps the channels of the input",
  "claim": "C99"
 },
 {
  "file": "Model/Masked.lean",
  "definition": "maskedMean",
  "old": "(max ((x.shape.drop bn).prod - sumOver (x.shape.drop bn) fun p => if m.get (i ++ p) then 1 else 0) 1 : ℕ)",
  "new": "(max (x.shape.drop bn).prod 1 : ℕ)",
  "edit": "mean over all pairs of positions",
  "claim": "C99"
 },
 {
  "file": "Model/Masked.lean",
  "definition": "poolArr",
  "old": "| .sum => .ok (GlobalPool.poolTail .sum bn mat)",
  "new": "| .sum => maskedMean bn mat mask",
  "edit": "sum pooling averages",
  "claim": "C99"
 },
 {
  "file": "Model/Masked.lean",
  "definition": "globalPoolKernel",
  "old": "let mask12 ← Kernel.maskProd k k.mask1 k.mask2 2",
  "new": "let mask12 ← Kernel.maskProd k k.mask1 k.mask1 2",
  "edit": "mask of x1 used for both inputs",
  "claim": "C99"
 },
 {
  "file": "Model/Masked.lean",
  "definition": "globalPoolKernel",
  "old": "| some _ => Kernel.maskProd k k.mask2 k.mask2 k.batchNdim",
  "new": "| some _ => Kernel.maskProd k k.mask1 k.mask1 k.batchNdim",
  "edit": "mask of x1 used for cov2",
  "claim": "C99"
 },
 {
  "file": "Model/Masked.lean",
  "definition": "globalPoolKernel",
  "old": "if batchFirst then 0 else 1",
  "new": "0",
  "edit": "batch axis always first",
  "claim": "C99"
 },
 {
  "file": "Model/Masked.lean",
  "definition": "globalPoolKernel",
  "old": "isReversed := false }",
  "new": "}",
  "edit": "order of the axes not reset",
  "claim": "C99"
 },
 {
  "file": "Model/Masked.lean",
  "definition": "MLayer.withMasking",
  "old": "let m2 ← onMask l.maskFn k.mask2",
  "new": "let m2 ← onMask l.maskFn k.mask1",
  "edit": "mask of x2 taken from x1",
  "claim": "C99"
 },
 {
  "file": "Model/Masked.lean",
  "definition": "MLayer.withMasking",
  "old": "if l.remask then k'.mask m1 m2",
  "new": "if l.remask then k'.mask k.mask1 k.mask2",
  "edit": "kernel masked with the masks of the inputs",
  "claim": "C99"
 },
 {
  "file": "Model/Masked.lean",
  "definition": "run",
  "old": "setShapes (out k.shape1) (out k.shape2) k'",
  "new": "setShapes (out k.shape1) (out k.shape1) k'",
  "edit": "shape of x1 set for x2",
  "claim": "C99"
 },
 {
  "file": "Model/Batching.lean",
  "definition": "parallelX1",
  "old": "BatchOut.flatten k x2?.isNone true",
  "new": "BatchOut.flatten k x2?.isNone false",
  "edit": "pmapped axis not marked as parallel",
  "claim": "C83, C85"
 },
 {
  "file": "Model/Batching.lean",
  "definition": "parallelX1",
  "old": "let x2 := x2?.getD x1",
  "new": "let x2 := x1",
  "edit": "x2 ignored in parallel batching",
  "claim": "C83"
 }
]