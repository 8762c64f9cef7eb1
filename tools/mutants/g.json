[
 {
  "file": "Model/MaskedBranch.lean",
  "definition": "AFan.op",
  "old": "| .prod => (· * ·)",
  "new": "| .prod => (· + ·)",
  "edit": "product of branches adds them",
  "claim": "C100",
  "tightened": [
   "NT.C100.fan_in_entries"
  ]
 },
 {
  "file": "Model/MaskedBranch.lean",
  "definition": "foldArrs",
  "old": "| .ok z => foldArrs op z ys",
  "new": "| .ok _ => foldArrs op y ys",
  "edit": "accumulator lost in the loop over branches",
  "claim": "C100"
 },
 {
  "file": "Model/MaskedBranch.lean",
  "definition": "AFan.applyWithMasking",
  "old": "let outputsMask ← Masks.sum (xs.map (·.mask))",
  "new": "let outputsMask ← Masks.sum [xs.head?.bind (·.mask)]",
  "edit": "mask of the first branch only (same on branches with equal masks)",
  "claim": "C100"
 },
 {
  "file": "Model/MaskedBranch.lean",
  "definition": "AFan.applyWithMasking",
  "old": "let outputs ← f.apply (xs.map (·.value))\n  let outputsMask ← Masks.sum (xs.map (·.mask))\n  return match outputsMask with\n    | none => .array outputs\n    | some m => .masked ⟨outputs, some m⟩",
  "new": "let outputs ← f.apply (xs.map (·.value))\n  return .array outputs",
  "edit": "mask dropped after a sum of branches",
  "claim": "C100"
 },
 {
  "file": "Model/MaskedBranch.lean",
  "definition": "concatAxisOf",
  "old": "then .ok (axis % (x.ndim : Int)).toNat",
  "new": "then .ok axis.toNat",
  "edit": "negative axis of FanInConcat read as 0",
  "claim": "C100"
 },
 {
  "file": "Model/MaskedBranch.lean",
  "definition": "concatWithMasking",
  "old": "let outputsMask ← Masks.concat (xs.map (·.mask)) (xs.map (·.value.shape)) a\n  return match outputsMask with\n    | none => .array outputs\n    | some m => .masked ⟨outputs, some m⟩",
  "new": "return .array outputs",
  "edit": "mask dropped after a concatenation",
  "claim": "C100"
 },
 {
  "file": "Model/MaskedBranch.lean",
  "definition": "concatWithMasking",
  "old": "Masks.concat (xs.map (·.mask)) (xs.map (·.value.shape)) a",
  "new": "Masks.sum (xs.map (·.mask))",
  "edit": "concatenation sums the masks of its branches",
  "claim": "C100"
 },
 {
  "file": "Model/MaskedBranch.lean",
  "definition": "ANet.run",
  "old": "| .fanOut n, v => .ok (.many (List.replicate n v))",
  "new": "| .fanOut n, v => .ok (.many (List.replicate (n + 1) v))",
  "edit": "FanOut makes one copy too many",
  "claim": "C100"
 },
 {
  "file": "Model/MaskedBranch.lean",
  "definition": "ANet.run",
  "old": "match collect n fun i => (branches i).run maskConstant",
  "new": "match collect n fun i => (branches i).run none",
  "edit": "parallel does not pass mask_constant",
  "claim": "C100"
 },
 {
  "file": "Model/MaskedBranch.lean",
  "definition": "ANet.run",
  "old": "match a.run maskConstant v with\n    | .error e => .error e\n    | .ok v' => b.run maskConstant v'",
  "new": "match b.run maskConstant v with\n    | .error e => .error e\n    | .ok v' => a.run maskConstant v'",
  "edit": "serial in reverse order",
  "claim": "C100"
 },
 {
  "file": "Model/MaskedTree.lean",
  "definition": "fanMask",
  "old": "| .prod, ms, _ => Masks.sum ms",
  "new": "| .prod, _, _ => .ok none",
  "edit": "mask dropped by FanInProd",
  "claim": "C99"
 },
 {
  "file": "Model/MaskedTree.lean",
  "definition": "fanMask",
  "old": "Masks.concat ms (s :: ss) (axis % (s.length : Int)).toNat",
  "new": "Masks.concat ms (s :: ss) axis.toNat",
  "edit": "negative axis read as 0 in the mask of FanInConcat",
  "claim": "C99"
 },
 {
  "file": "Model/MaskedTree.lean",
  "definition": "fanWithMasking",
  "old": "let m2 ← fanMask f (ks.map (·.mask2)) (ks.map (·.shape2))",
  "new": "let m2 ← fanMask f (ks.map (·.mask1)) (ks.map (·.shape1))",
  "edit": "mask of x2 taken from x1",
  "claim": "C99"
 },
 {
  "file": "Model/MaskedTree.lean",
  "definition": "fanWithMasking",
  "old": ".ok { k' with mask1 := m1, mask2 := m2 }",
  "new": ".ok { k' with mask1 := m2, mask2 := m1 }",
  "edit": "masks of x1 and x2 swapped",
  "claim": "C99"
 },
 {
  "file": "Model/MaskedTree.lean",
  "definition": "fanWithMasking",
  "old": ".ok { k' with mask1 := m1, mask2 := m2 }",
  "new": ".ok { k' with mask1 := m1, mask2 := none }",
  "edit": "mask of x2 dropped",
  "claim": "C99"
 },
 {
  "file": "Model/MaskedTree.lean",
  "definition": "MNet.run",
  "old": "setShapes (out (ks.map (·.shape1))) (out (ks.map (·.shape2))) k'",
  "new": "setShapes (out (ks.map (·.shape1))) (out (ks.map (·.shape1))) k'",
  "edit": "shape of x1 set for x2 after a fan-in",
  "claim": "C99"
 },
 {
  "file": "Model/MaskedTree.lean",
  "definition": "MNet.run",
  "old": "match a.run v with\n    | .error e => .error e\n    | .ok v' => b.run v'",
  "new": "match b.run v with\n    | .error e => .error e\n    | .ok v' => a.run v'",
  "edit": "serial in reverse order",
  "claim": "C99"
 }
]