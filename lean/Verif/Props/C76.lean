import Verif.Lemmas.Rules8
import Verif.Lemmas.Rules12
import Verif.Lemmas.RulesConv5
import Verif.Lemmas.RulesWindow
import Verif.Props.C77

/-!
# C76: the structured rules of primitives

For each primitive rule declaring Jacobian structure (identity blocks, diagonal axes, constant blocks), expanding the compact form
gives the full Jacobian of the primitive.

`RulesOk f rule s idx shapes inp other out J` (Spec/Rules) says it for the primitive `f` as a function of its operand number `idx`: the declared structure
`s` passes the checks of `get_structure`; `J` is the Jacobian of `f`; the Jacobian rule gives `J`; and for each part `s'` of the structure (what is left of `s` after it
is intersected with the structures of the other uses of the variable), the compact form computed on trimmed shapes stands for `J`.
-/

namespace NT.C76
open NT NT.Arr NT.Spec NT.Rules NT.Structure
variable {α : Type} [Field α]

/-! ## The specification is about one Jacobian -/

/-- A function has one Jacobian. -/
theorem jacobian_unique {f : Arr α → Except Err (Arr α)} {inp out : List ℕ} {J J' : List ℕ → List ℕ → α} (h : IsJacobian f inp out J)
    (h' : IsJacobian f inp out J') {o i : List ℕ} (ho : InRange o out) (hi : InRange i inp) : J o i = J' o i := by
  obtain ⟨c, h⟩ := h
  obtain ⟨c', h'⟩ := h'
  have key : ∀ w : Arr α, w.shape = inp → c o + ∑ i ∈ box inp, J o i * w.get i = c' o + ∑ i ∈ box inp, J' o i * w.get i := by
    intro w hw
    obtain ⟨y, h1, h2, h3⟩ := h w hw
    obtain ⟨y', g1, g2, g3⟩ := h' w hw
    rw [h1] at g1
    obtain rfl := Except.ok.inj g1
    rw [← h3 o ho, ← g3 o ho]
  have h0 := key ⟨inp, fun _ => 0⟩ rfl
  simp only [mul_zero, Finset.sum_const_zero, add_zero] at h0
  have h1 := key ⟨inp, fun k => if k = i then 1 else 0⟩ rfl
  rw [h0] at h1
  have h2 := add_left_cancel h1
  simp only [mul_ite, mul_one, mul_zero, Finset.sum_ite_eq', mem_box, hi, if_true] at h2
  exact h2

/-- The compact form determines the Jacobian. -/
theorem compact_determines {s : Structure} {idx : ℕ} {out inp : List ℕ} {j : Arr α} {J J' : List ℕ → List ℕ → α} (h : Expands s idx out inp j J)
    (h' : Expands s idx out inp j J') {o i : List ℕ} (ho : InRange o out) (hi : InRange i inp) : J o i = J' o i := by
  by_cases ha : Agree (tracePairs s) o i ∧ Agree (diagPairs s idx) o i
  · rw [h.get o i ho hi ha.1 ha.2, h'.get o i ho hi ha.1 ha.2]
  · rw [h.zero o i ho hi ha, h'.zero o i ho hi ha]

/-! ## What the other uses of a variable leave of a structure -/

/-- The broadcast axes of a structure, read as axes of the input, are traced or of size one there. -/
def Mild (s : Structure) (inp : List ℕ) : Prop := ∀ a ∈ s.outBroadcast, a ∈ s.inTrace ∨ inp.getD a 1 = 1

lemma mild_meet {s t m : Structure} {inp : List ℕ} (hs : Mild s inp) (ht : Mild t inp) (h : s.meet t = .ok m) :
    ∀ a ∈ m.outBroadcast, a ∈ m.inTrace ∨ inp.getD a 1 = 1 := by
  obtain ⟨h1, -, h3⟩ := C77.declares_common_partial s t m h
  intro a ha
  rw [h3] at ha
  rw [h1]
  rcases hs a ha.1 with h4 | h4
  · rcases ht a ha.2 with h5 | h5
    · exact Or.inl ⟨h4, h5⟩
    · exact Or.inr h5
  · exact Or.inr h4

lemma meet_inBroadcast {s t m : Structure} (h : s.meet t = .ok m) : m.inBroadcast = s.outBroadcast.filter fun i => t.outBroadcast.contains i := by
  rw [meet] at h
  split at h
  · cases h
  · split at h
    · cases h
    · split at h
      · cases h
      · obtain rfl := Except.ok.inj h
        rfl

/-- The intersection with another structure is a part of the structure. -/
theorem meet_part {s t m : Structure} {inp : List ℕ} (hw : C77.WF s) (hs : Mild s inp) (ht : Mild t inp) (h : s.meet t = .ok m) (idx : ℕ) : Part m s idx inp := by
  obtain ⟨h1, h2⟩ := C77.pairing s t m hw h
  have hm := mild_meet hs ht h
  obtain ⟨e1, e2, e3, e4, e5, e6, e7⟩ := C77.meet_eq h
  have l1 : m.outTrace.length = m.inTrace.length := by
    rw [e1, e2]
    exact C77.select_length _ _ _ hw.trace.symm
  have l2 : m.outDiagonal.length = m.inDiagonal.length := by
    rw [e3, e4]
    exact (C77.select_length _ _ _ hw.diag).symm
  refine ⟨l1, fun p hp => ?_, l2, ?_, fun a ha => ?_, fun _ a ha => ?_⟩
  · rw [h1] at hp
    exact (List.mem_filter.1 hp).1
  · have hz : ∀ s : Structure, s.outDiagonal.zip s.inDiagonal = (s.inDiagonal.zip s.outDiagonal).map Prod.swap := fun s => (List.zip_swap _ _).symm
    rw [hz, hz, h2]
    exact List.filter_sublist.map _
  · rw [e5] at ha
    exact (List.mem_filter.1 ha).1
  · have hb : m.inBroadcast = m.outBroadcast := by
      rw [e5]
      exact meet_inBroadcast h
    rw [hb] at ha
    exact hm a ha

/-- So for each use of a variable the compact form, with the structure that all its uses have in common, stands for the Jacobian of that use. -/
theorem use_sound {f : Arr α → Except Err (Arr α)} {rule : List ℕ → Arr α → List ℕ → Except Err (Arr α)} {s c m : Structure} {idx : ℕ}
    {shapes : List (List ℕ)} {inp : List ℕ} {other : Arr α} {out : List ℕ} {J : List ℕ → List ℕ → α} (h : RulesOk f rule s idx shapes inp other out J)
    (hw : C77.WF s) (hs : Mild s inp) {l : List Structure} (hl : ∀ t ∈ l, Mild t inp) (hc : common l = .ok (some c)) (hm : s.meet c = .ok m) :
    ∃ j, compact rule m idx inp other out = .ok j ∧ Expands m idx out inp j J := by
  refine h.compact m (meet_part hw hs ?_ hm idx)
  cases l with
  | nil => simp [common] at hc
  | cons t l =>
    have key : ∀ (l : List Structure) (t c : Structure), Mild t inp → (∀ u ∈ l, Mild u inp) →
        l.foldlM (fun (acc t : Structure) => acc.meet t) t = .ok c → Mild c inp := by
      intro l
      induction l with
      | nil =>
        intro t c ht _ h
        obtain rfl := Except.ok.inj h
        exact ht
      | cons u l ih =>
        intro t c ht hl h
        rw [List.foldlM_cons] at h
        cases hu : t.meet u with
        | error e =>
          rw [hu] at h
          cases h
        | ok v =>
          rw [hu] at h
          exact ih v c (mild_meet ht (hl u (by simp)) hu) (fun x hx => hl x (by simp [hx])) h
    have hc : (l.foldlM (fun (acc t : Structure) => acc.meet t) t).map some = .ok (some c) := hc
    cases hf : l.foldlM (fun (acc t : Structure) => acc.meet t) t with
    | error e =>
      rw [hf] at hc
      cases hc
    | ok v =>
      rw [hf] at hc
      obtain rfl : v = c := by simpa [Except.map] using hc
      exact key l t v (hl t (by simp)) (fun u hu => hl u (by simp [hu])) hf

/-! ## The rules -/

/-- The rules of the primitives that return their operand (`copy`, `convert_element_type`, ...), and of the identity. -/
theorem identity_rules (S : List ℕ) (other : Arr α) :
    ∃ J, RulesOk (fun w => .ok w) eyeJ (eyeS 0 S S) 0 [S] S other S J := ⟨_, rules_eye S other⟩

/-- The rules of `neg`. -/
theorem neg_rules (S : List ℕ) (other : Arr α) :
    ∃ J, RulesOk (fun w => .ok (w.map fun v => -v)) negJ (eyeS 0 S S) 0 [S] S other S J := ⟨_, rules_neg S other⟩

/-- The rules of `zeros_like`. -/
theorem zeros_like_rules (S : List ℕ) (other : Arr α) :
    ∃ J, RulesOk (fun w => .ok ⟨w.shape, fun _ => 0⟩) zerosJ (eyeS 0 S S) 0 [S] S other S J := ⟨_, rules_zeros S other⟩

/-- The rules of `transpose`. -/
theorem transpose_rules {perm inp : List ℕ} (hp : perm.Perm (List.range inp.length)) (other : Arr α) :
    ∃ s J, transposeS 0 perm (gather perm inp) = .ok s ∧
      RulesOk (fun w => .ok (w.transpose perm)) (transposeJ perm) s 0 [inp] inp other (gather perm inp) J := rules_transpose hp other

example : ([2, 0, 1] : List ℕ).Perm (List.range ([4, 2, 3] : List ℕ).length) := by decide

/-- The rules of `squeeze`. -/
theorem squeeze_rules {dims inp : List ℕ} (hd : ∀ a ∈ dims, inp.getD a 0 = 1) (other : Arr α) :
    ∃ J, RulesOk (fun w => w.reshapeE (gather (freeAxes inp.length dims) inp)) eyeJ
      (squeezeS 0 dims inp (gather (freeAxes inp.length dims) inp)) 0 [inp] inp other (gather (freeAxes inp.length dims) inp) J := rules_squeeze hd other

example : ∀ a ∈ ([1, 3] : List ℕ), ([2, 1, 3, 1] : List ℕ).getD a 0 = 1 := by decide

/-- The rules of `reshape`, whose result is read with the shape of the operand (rules.py:186-187).  For a `reshape` that permutes axes first see
`reshape_dimensions_wrong`. -/
theorem reshape_rules_partial {inp out : List ℕ} (h : out.prod = inp.prod) (other : Arr α) :
    ∃ s J, reshapeS 0 none inp = .ok s ∧
      RulesOk (fun w => do (← w.reshapeE out).reshapeE inp) (reshapeJ none) s 0 [inp] inp other inp J := rules_reshape h other

example : ([6, 2] : List ℕ).prod = ([3, 4] : List ℕ).prod := by decide

/-- The rules of `reduce_sum`. -/
theorem reduce_sum_rules {axes inp : List ℕ} (hn : axes.Nodup) (hl : ∀ a ∈ axes, a < inp.length) (other : Arr α) :
    ∃ J, RulesOk (fun w => .ok (w.reduceSum axes)) (reduceSumJ axes) (reduceSumS 0 axes inp (gather (freeAxes inp.length axes) inp)) 0 [inp] inp other
      (gather (freeAxes inp.length axes) inp) J := rules_reduceSum hn hl other

example : ([2, 0] : List ℕ).Nodup ∧ ∀ a ∈ ([2, 0] : List ℕ), a < ([4, 2, 3] : List ℕ).length := by decide

/-- The rules of `broadcast_in_dim` without expansion of axes of size one; with expansion see `broadcast_in_dim_expanding_raises`. -/
theorem broadcast_in_dim_rules_partial {dims inp out : List ℕ} (hn : dims.Nodup) (hl : ∀ a ∈ dims, a < out.length) (h : gather dims out = inp) (other : Arr α) :
    ∃ J, RulesOk (fun w => w.broadcastInDim out dims) (broadcastJ dims) (broadcastS 0 dims inp out) 0 [inp] inp other out J := rules_broadcast hn hl h other

example : ([1, 3] : List ℕ).Nodup ∧ (∀ a ∈ ([1, 3] : List ℕ), a < ([5, 2, 4, 3] : List ℕ).length) ∧ gather [1, 3] [5, 2, 4, 3] = [2, 3] := by decide

/-- The rules of `rev`. -/
theorem rev_rules {dims S : List ℕ} (hd : ∀ a ∈ dims, a < S.length) (other : Arr α) :
    ∃ J, RulesOk (fun w => .ok (w.rev dims)) (revJ dims) (revS 0 dims S) 0 [S] S other S J := rules_rev hd other

example : ∀ a ∈ ([1] : List ℕ), a < ([4, 2, 3] : List ℕ).length := by decide

/-- The rules of `pad`, with respect to the padded operand, for any configuration: negative and interior padding too. -/
theorem pad_rules {cfg : List (ℤ × ℤ × ℕ)} {inp : List ℕ} (hc : cfg.length = inp.length) (v : α) (shapes : List (List ℕ)) (hs : shapes.getD 0 [] = inp)
    (other : Arr α) :
    ∃ J, RulesOk (fun w => .ok (w.padLax v cfg)) (padJ cfg) (padS 0 cfg (inp.mapIdx fun x n => padSize (cfg.getD x (0, 0, 0)) n)) 0 shapes inp other
      (inp.mapIdx fun x n => padSize (cfg.getD x (0, 0, 0)) n) J := rules_pad hc v shapes hs other

example : ([(1, -1, 2), (0, 0, 0)] : List (ℤ × ℤ × ℕ)).length = ([3, 4] : List ℕ).length ∧ padSize (1, -1, 2) 3 = 7 := by decide

/-- The rules of `concatenate`, with respect to any of the operands. -/
theorem concatenate_rules {sizes inp : List ℕ} {idx dim : ℕ} (hd : dim < inp.length) (hi : idx < sizes.length) (hs : inp.getD dim 0 = sizes.getD idx 0)
    (others : List (Arr α)) (ho : others.map (·.shape) = sizes.map fun n => inp.set dim n) (other : Arr α) :
    ∃ J, RulesOk (fun w => concatE (others.set idx w) dim) (concatJ sizes idx dim) (concatS sizes.length dim (inp.set dim sizes.sum)) idx
      (sizes.map fun n => inp.set dim n) inp other (inp.set dim sizes.sum) J := rules_concat hd hi hs others ho other

example : ([⟨[2, 3], fun _ => 1⟩, ⟨[2, 1], fun _ => 2⟩] : List (Arr ℚ)).map (·.shape) = ([3, 1] : List ℕ).map fun n => ([2, 1] : List ℕ).set 1 n := by decide

/-- The rules of `add` and `sub`, with respect to either operand, for operands of equal rank with axes of size one expanded, or a scalar operand. -/
theorem add_sub_rules (isSub : Bool) {idx : ℕ} (hidx : idx < 2) {inp : List ℕ} (other : Arr α) (h : Operands inp other.shape) :
    ∃ s J, addS idx inp other.shape = .ok s ∧ RulesOk (addOp isSub idx other) (addJ isSub idx) s idx (operandShapes idx inp other.shape) inp other
      (bshape inp other.shape) J := rules_add isSub hidx other h

/-- The rules of `mul` with respect to either operand, and of `div` with respect to the numerator. -/
theorem mul_div_rules {isDiv : Bool} {idx : ℕ} (hidx : idx < 2) (hd : ¬ (isDiv ∧ idx ≠ 0)) {inp : List ℕ} (other : Arr α) (h : Operands inp other.shape) :
    ∃ s J, mulS idx inp other.shape = .ok s ∧ RulesOk (mulOp isDiv idx other) (mulJ isDiv idx) s idx (operandShapes idx inp other.shape) inp other
      (bshape inp other.shape) J := by
  obtain ⟨s, h1, h2⟩ := rules_mul hidx hd other h
  exact ⟨s, _, h1, h2⟩

example : Operands [2, 1, 3] [2, 4, 1] ∧ bshape [2, 1, 3] [2, 4, 1] = [2, 4, 3] := ⟨Or.inr (Or.inr ⟨rfl, by decide⟩), by decide⟩

/-- The rules of `dot_general` with respect to either operand, for any contracted and batch axes of equal sizes. -/
theorem dot_general_rules {idx : ℕ} (hidx : idx < 2) {C B oC oB inp : List ℕ} (other : Arr α) (hd : DotDims C B oC oB inp other.shape) :
    ∃ J, RulesOk (dotOp idx C B oC oB other) (dotJ idx C B oC oB) (dotS idx C B oB inp.length other.ndim) idx (operandShapes idx inp other.shape) inp other
      (dotOut idx C B oC oB inp other.shape) J := ⟨_, rules_dot hidx other hd⟩

/-- A contraction with a batch axis, a contracted axis, and free axes of both operands. The operand is the second one: the output has the batch axis, the free
axis of the other operand, and the free axes of this one; these are traced, and the batch axis is diagonal. -/
example : DotDims [0] [2] [1] [0] [3, 4, 2, 6] [2, 3, 5] ∧ dotOut 1 [0] [2] [1] [0] [3, 4, 2, 6] [2, 3, 5] = [2, 5, 4, 6] ∧
    dotS 1 [0] [2] [0] 4 3 = { outTrace := [2, 3], inTrace := [1, 3], inTraceIdxs := [1], outDiagonal := [0], inDiagonal := [[some 0, some 2]] } :=
  ⟨⟨by decide, by decide, by decide, by decide, by decide, by decide⟩, by decide, rfl⟩

/-- The rules of `conv_general_dilated` with respect to the filter (the second operand), for any dimension numbers, strides, padding, dilations and groups that the primitive
accepts, and a filter with some output feature. -/
theorem conv_general_dilated_rules {p : ConvParams} {inp : List ℕ} (other : Arr α) (hv : p.Valid other.shape inp) (hF : 0 < inp.getD (p.rhsSpec.getD 0 0) 0) :
    ∃ s J, convS p 1 other.shape inp = .ok s ∧
      RulesOk (fun w => p.conv other w) (convRule p other.shape) s 1 [other.shape, inp] inp other (convOut p other.shape inp) J := by
  obtain ⟨s, hs⟩ := convS_ok hv
  exact ⟨s, _, hs, rules_conv other hv hF hs⟩

/-- A convolution of layout `NHWC`, filter `HWIO`, with strides `(2, 1)`, padding and dilation: the output features are traced. -/
def exConv (f b : ℕ) : ConvParams := ⟨[0, 3, 1, 2], [3, 2, 0, 1], [0, 3, 1, 2], [2, 1], [(1, 1), (0, -1)], [1, 2], [2, 1], f, b⟩

example : (exConv 1 1).Valid [5, 6, 4, 3] [2, 3, 3, 7] ∧ convOut (exConv 1 1) [5, 6, 4, 3] [2, 3, 3, 7] = [5, 3, 4, 7] ∧
    convS (exConv 1 1) 1 [5, 6, 4, 3] [2, 3, 3, 7] = .ok { inTrace := [3], inTraceIdxs := [1], outTrace := [3] } := ⟨by decide, by decide, rfl⟩

/-- A grouped convolution, without structure; a depthwise convolution; and one with a group of the batch for each input. -/
example : ((exConv 2 1).Valid [5, 6, 4, 6] [2, 3, 3, 8] ∧ convS (exConv 2 1) 1 [5, 6, 4, 6] [2, 3, 3, 8] = .ok {}) ∧
    ((exConv 4 1).Valid [5, 6, 4, 4] [2, 3, 1, 4] ∧ convS (exConv 4 1) 1 [5, 6, 4, 4] [2, 3, 1, 4] = .ok { inDiagonal := [[some 3, some 3]], outDiagonal := [3] }) ∧
    (exConv 1 5).Valid [5, 6, 4, 3] [2, 3, 3, 5] ∧ convS (exConv 1 5) 1 [5, 6, 4, 3] [2, 3, 3, 5] = .ok { inDiagonal := [[some 0, some 3]], outDiagonal := [3] } :=
  ⟨⟨by decide, rfl⟩, ⟨by decide, rfl⟩, by decide, rfl⟩

/-- There is no rule with respect to the convolved operand: the structure rule raises. -/
theorem conv_operand_raises (p : ConvParams) {idx : ℕ} (h : idx ≠ 1) (lhs rhs : List ℕ) : convS p idx lhs rhs = .error .notImplemented := if_pos h

example : (0 : ℕ) ≠ 1 := by decide

/-- The rules of `reduce_window_sum` (sum pooling): the structure rule traces the axes without a window, and the Jacobian is the default one, which applies the primitive to
the standard basis. -/
theorem reduce_window_sum_rules {p : WindowParams} {inp : List ℕ} (hv : p.Valid inp) (other : Arr α) :
    ∃ J, RulesOk (fun w => p.sum w) (vanillaJ fun w => p.sum w) (windowS 0 p (p.outShape inp)) 0 [inp] inp other (p.outShape inp) J := rules_window hv other

/-- Pooling of images of layout `NHWC`, with a window of `(2, 3)`, strides `(2, 1)`, and padding: batch and channels are traced. -/
example : (⟨[1, 2, 3, 1], [1, 2, 1, 1], [(0, 0), (0, 0), (1, 1), (0, 0)], [1, 1, 1, 1], [1, 1, 1, 1]⟩ : WindowParams).Valid [5, 6, 4, 3] ∧
    (⟨[1, 2, 3, 1], [1, 2, 1, 1], [(0, 0), (0, 0), (1, 1), (0, 0)], [1, 1, 1, 1], [1, 1, 1, 1]⟩ : WindowParams).outShape [5, 6, 4, 3] = [5, 3, 4, 3] ∧
    windowS 0 ⟨[1, 2, 3, 1], [1, 2, 1, 1], [(0, 0), (0, 0), (1, 1), (0, 0)], [1, 1, 1, 1], [1, 1, 1, 1]⟩ [5, 3, 4, 3] =
      { inTrace := [0, 3], outTrace := [0, 3], inTraceIdxs := [0] } := ⟨by decide, by decide, by decide⟩

/-- An example of a structure and a part of it: `w * x` with shapes `[2, 1, 3]` and `[2, 4, 1]` declares axis 2 traced and axis 0 diagonal; another use may
leave only the diagonal axis. -/
example : mulS 0 [2, 1, 3] [2, 4, 1] = .ok { outTrace := [2], inTrace := [2], inTraceIdxs := [0], outDiagonal := [0], inDiagonal := [[some 0, some 0]] } ∧
    Part { inTraceIdxs := [0], outDiagonal := [0], inDiagonal := [[some 0, some 0]] }
      { outTrace := [2], inTrace := [2], inTraceIdxs := [0], outDiagonal := [0], inDiagonal := [[some 0, some 0]] } 0 [2, 1, 3] :=
  ⟨rfl, rfl, by simp [tracePairs], rfl, by simp, by simp, by simp⟩

/-- `div` has no rule with respect to the denominator. -/
theorem denominator_raises (inp : List ℕ) (other : Arr α) (out : List ℕ) : mulJ true 1 inp other out = .error .valueError := by
  unfold mulJ
  rw [if_pos ⟨rfl, Nat.one_ne_zero⟩]

/-! ## The declarations can be combined -/

/-- The structures that the rules declare for a variable of shape `inp`. -/
inductive Declared (inp : List ℕ) : Structure → Prop
  | eye : Declared inp (eyeS 0 inp inp)
  | transpose {perm : List ℕ} {s : Structure} (hp : perm.Perm (List.range inp.length)) (h : transposeS 0 perm (gather perm inp) = .ok s) : Declared inp s
  | squeeze (dims : List ℕ) : Declared inp (squeezeS 0 dims inp (gather (freeAxes inp.length dims) inp))
  | reshape {s : Structure} (h : reshapeS 0 none inp = .ok s) : Declared inp s
  | reduceSum (axes : List ℕ) : Declared inp (reduceSumS 0 axes inp (gather (freeAxes inp.length axes) inp))
  | broadcast {dims out : List ℕ} (hn : dims.Nodup) (h : gather dims out = inp) : Declared inp (broadcastS 0 dims inp out)
  | rev (dims : List ℕ) : Declared inp (revS 0 dims inp)
  | pad (cfg : List (ℤ × ℤ × ℕ)) (out : List ℕ) : Declared inp (padS 0 cfg out)
  | concat (n dim : ℕ) (out : List ℕ) : Declared inp (concatS n dim out)
  | add {idx : ℕ} {other : List ℕ} {s : Structure} (h : Operands inp other) (hs : addS idx inp other = .ok s) : Declared inp s
  | mul {idx : ℕ} {other : List ℕ} {s : Structure} (h : Operands inp other) (hs : mulS idx inp other = .ok s) : Declared inp s
  | dot {idx : ℕ} {C B oC oB other : List ℕ} (hidx : idx < 2) (hd : DotDims C B oC oB inp other) : Declared inp (dotS idx C B oB inp.length other.length)
  | conv {p : ConvParams} {lhs : List ℕ} {s : Structure} (hs : convS p 1 lhs inp = .ok s) : Declared inp s
  | window (p : WindowParams) (out : List ℕ) : Declared inp (windowS 0 p out)

/-- The structures that the rules declare are well formed, and their broadcast axes are harmless: these are the conditions of `use_sound`. -/
theorem declarations_mild {inp : List ℕ} {s : Structure} (h : Declared inp s) : C77.WF s ∧ Mild s inp := by
  have nil : ∀ s : Structure, s.outBroadcast = [] → Mild s inp := fun s hs a ha => by rw [hs] at ha; cases ha
  have same : ∀ (s : Structure) (T : List ℕ), T.Nodup → s.outTrace = T → s.inTrace = T → s.inDiagonal.length = s.outDiagonal.length → C77.WF s :=
    fun s T hT h1 h2 h3 => ⟨by rw [h1, h2], h3, h2 ▸ hT, h1 ▸ hT⟩
  cases h with
  | eye => exact ⟨same _ (List.range inp.length) List.nodup_range rfl rfl rfl, nil _ rfl⟩
  | transpose hp h =>
    obtain ⟨s', h1, hO, hI, hd, hd', hB, hf⟩ := fits_transpose 0 hp
    rw [h] at h1
    obtain rfl := Except.ok.inj h1
    exact ⟨⟨hf.len.symm, by rw [hd, hd']; rfl, hf.nodupI, hf.nodupO⟩, nil _ hB⟩
  | squeeze dims =>
    refine ⟨⟨?_, rfl, nodup_free _ _, List.nodup_range⟩, nil _ rfl⟩
    simp [squeezeS]
  | reshape h =>
    obtain rfl := Except.ok.inj h
    exact ⟨same _ (List.range inp.length) List.nodup_range rfl rfl rfl, nil _ rfl⟩
  | reduceSum axes =>
    refine ⟨⟨?_, rfl, nodup_free _ _, List.nodup_range⟩, nil _ rfl⟩
    simp [reduceSumS]
  | @broadcast dims out hn h =>
    refine ⟨⟨?_, rfl, List.nodup_range, hn⟩, fun a _ => ?_⟩
    · show (List.range inp.length).length = dims.length
      rw [← h]
      simp
    · by_cases ha : a < inp.length
      · exact Or.inl (List.mem_range.2 ha)
      · exact Or.inr (List.getD_eq_default _ _ (by omega))
  | rev dims => exact ⟨same _ _ (nodup_free _ _) rfl rfl rfl, nil _ rfl⟩
  | pad cfg out => exact ⟨same _ _ (List.nodup_range.filter _) rfl rfl rfl, nil _ rfl⟩
  | concat n dim out => exact ⟨same _ _ (nodup_free _ _) rfl rfl rfl, nil _ rfl⟩
  | @add idx other s h hs =>
    unfold addS at hs
    by_cases h0 : other.length = 0
    · simp only [h0, if_true] at hs
      obtain rfl := Except.ok.inj hs
      exact ⟨same _ _ List.nodup_range rfl rfl rfl, nil _ rfl⟩
    · by_cases hi : inp.length = 0
      · simp only [h0, hi, if_false, if_true] at hs
        obtain rfl := Except.ok.inj hs
        exact ⟨same _ _ List.nodup_nil rfl rfl rfl, fun a _ => Or.inr (List.getD_eq_default _ _ (by omega))⟩
      · have hc : Compat inp other := by
          rcases h with h | h | h
          · exact absurd (by rw [h]; rfl) hi
          · exact absurd (by rw [h]; rfl) h0
          · exact h
        simp only [hi, hc.1, if_false, if_true] at hs
        rw [addLoop_ok 0 _ _ hc] at hs
        obtain rfl := Except.ok.inj hs
        simp only [Nat.add_zero, List.map_id']
        refine ⟨same _ (full inp other) (List.nodup_range.filter _) rfl rfl rfl, fun a ha => ?_⟩
        obtain ⟨h1, h2⟩ := mem_ones.1 ha
        right
        rcases hc.2 a h1 with h3 | h3 | h3
        · exact absurd (Or.inl h3) h2
        · exact absurd (Or.inr h3) h2
        · rw [List.getD_eq_getElem _ _ h1] at h3 ⊢
          exact h3
  | @mul idx other s h hs =>
    unfold mulS at hs
    by_cases h0 : other.length = 0
    · simp only [h0, if_true] at hs
      obtain rfl := Except.ok.inj hs
      exact ⟨same _ _ List.nodup_range rfl rfl rfl, nil _ rfl⟩
    · by_cases hi : inp = []
      · subst hi
        rw [if_neg h0] at hs
        obtain rfl := Except.ok.inj hs
        exact ⟨same _ _ List.nodup_nil rfl rfl rfl, nil _ rfl⟩
      · have hc : Compat inp other := by
          rcases h with h | h | h
          · exact absurd h hi
          · exact absurd (by rw [h]; rfl) h0
          · exact h
        rw [if_neg h0, mulLoop_ok 0 _ _ hc] at hs
        obtain rfl := Except.ok.inj hs
        refine ⟨same _ ((unit inp other).map (· + 0)) ?_ rfl rfl (by simp), nil _ rfl⟩
        simp only [Nat.add_zero, List.map_id']
        exact List.nodup_range.filter _
  | @dot idx C B oC oB other hidx hd =>
    rw [dotS_eq hidx (dotOk_of (idx := idx) hd)]
    exact ⟨⟨by simp [outFree], by simp, nodup_freeAxes _ _, outFree_nodup⟩, nil _ rfl⟩
  | @conv p lhs s hs =>
    rcases convS_cases hs with ⟨a, rfl⟩ | rfl | rfl
    · exact ⟨same _ [] List.nodup_nil rfl rfl rfl, nil _ rfl⟩
    · exact ⟨⟨rfl, rfl, List.nodup_singleton _, List.nodup_singleton _⟩, nil _ rfl⟩
    · exact ⟨same _ [] List.nodup_nil rfl rfl rfl, nil _ rfl⟩
  | window p out => exact ⟨same _ _ (List.nodup_range.filter _) rfl rfl rfl, nil _ rfl⟩

/-! ## Where the rules are wrong -/

/-- `lax.reshape(w, sizes, dimensions)` permutes the axes first.  The declared pairs of axes use the inverse permutation: for a permutation that is not its own
inverse no compact form stands for the Jacobian, and the checks pass if the axes have equal sizes. -/
theorem reshape_dimensions_wrong : ∃ (inp dims : List ℕ) (s : Structure), dims.Perm (List.range inp.length) ∧ reshapeS 0 (some dims) inp = .ok s ∧
    checked s 0 [inp] inp = .ok s ∧
    ∀ J : List ℕ → List ℕ → ℚ, IsJacobian (fun w => (w.transpose dims).reshapeE inp) inp inp J → ¬ ∃ j, Expands s 0 inp inp j J := by
  refine ⟨[2, 2, 2], [1, 2, 0], ⟨[0, 1, 2], [2, 0, 1], [0], [], [], [], [], [], 0⟩, by decide, by decide, by decide, ?_⟩
  rintro J ⟨c, hJ⟩ ⟨j, hj⟩
  have h0 := hj.zero [1, 0, 0] [0, 1, 0] (by decide) (by decide) (fun h => absurd (h.1 (0, 2) (by decide)) (by decide))
  obtain ⟨y, y1, y2, y3⟩ := hJ ⟨[2, 2, 2], fun _ => 0⟩ rfl
  obtain ⟨z, z1, z2, z3⟩ := hJ ⟨[2, 2, 2], fun k => if k = [0, 1, 0] then 1 else 0⟩ rfl
  have hy := y3 [1, 0, 0] (by decide)
  have hz := z3 [1, 0, 0] (by decide)
  obtain rfl := Except.ok.inj y1
  obtain rfl := Except.ok.inj z1
  have ey : ((⟨[2, 2, 2], fun _ => 0⟩ : Arr ℚ).transpose [1, 2, 0] |>.reshape [2, 2, 2]).get [1, 0, 0] = 0 := rfl
  have ez : ((⟨[2, 2, 2], fun k => if k = [0, 1, 0] then 1 else 0⟩ : Arr ℚ).transpose [1, 2, 0] |>.reshape [2, 2, 2]).get [1, 0, 0] = 1 := by decide
  rw [ey] at hy
  rw [ez] at hz
  simp only [mul_zero, Finset.sum_const_zero, add_zero] at hy
  simp only [mul_ite, mul_one, mul_zero, Finset.sum_ite_eq', mem_box] at hz
  rw [if_pos (by decide), ← hy, h0] at hz
  simp at hz

/-- A `broadcast_in_dim` that expands an axis of size one fails an assertion. -/
theorem broadcast_in_dim_expanding_raises {dims inp out : List ℕ} (hl : dims.length = inp.length) (hd : ∀ a ∈ dims, a < out.length)
    (h : (gather dims out).prod ≠ inp.prod) : checked (broadcastS 0 dims inp out) 0 [inp] out = .error .assertion := by
  unfold checked broadcastS
  dsimp only
  rw [if_neg (by simp [hl]), if_neg, if_pos]
  · show (gather (List.range inp.length) inp).prod ≠ _
    rw [gather_range_self inp _ rfl]
    exact h.symm
  · rintro (⟨a, ha, h2⟩ | ⟨a, ha, h2⟩)
    · have := hd a ha
      omega
    · have : a < inp.length := by simpa using ha
      have h2 : inp.length ≤ a := h2
      omega

example : (gather [0, 1] [2, 3]).prod ≠ ([1, 3] : List ℕ).prod := by decide

end NT.C76
