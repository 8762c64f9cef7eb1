import Verif.Lemmas.Rules4

/-!
# The rules of `add` and `sub`
-/

namespace NT.Rules
open NT Arr Spec
variable {α : Type} [Field α]

/-- Sizes that broadcast. -/
def Compat (inp other : List ℕ) : Prop :=
  other.length = inp.length ∧ ∀ x, x < inp.length → other.getD x 0 = inp.getD x 0 ∨ other.getD x 0 = 1 ∨ inp.getD x 0 = 1

/-- The axes that the operand does not broadcast. -/
def full (inp other : List ℕ) : List ℕ := (List.range inp.length).filter fun x => other.getD x 0 = inp.getD x 0 ∨ other.getD x 0 = 1

/-- The axes that the operand broadcasts. -/
def ones (inp other : List ℕ) : List ℕ := (List.range inp.length).filter fun x => ¬ (other.getD x 0 = inp.getD x 0 ∨ other.getD x 0 = 1)

lemma filter_cons_range (n : ℕ) (p : ℕ → Bool) (i : ℕ) : ((List.range (n + 1)).filter p).map (· + i) =
    (if p 0 then [i] else []) ++ ((List.range n).filter fun x => p (x + 1)).map (· + (i + 1)) := by
  rw [List.range_succ_eq_map, List.filter_cons, List.filter_map]
  have e : List.filter (fun x => p (x + 1)) (List.range n) = List.filter (p ∘ Nat.succ) (List.range n) := rfl
  have e2 : (fun x => x + i) ∘ Nat.succ = fun x => x + (i + 1) := funext fun x => by simp only [Function.comp]; omega
  rw [e]
  split <;> simp [e2]

lemma addLoop_ok : ∀ (i : ℕ) (inp other : List ℕ), Compat inp other →
    addLoop i inp other = .ok ((full inp other).map (· + i), (ones inp other).map (· + i))
  | i, [], [], _ => rfl
  | i, [], _ :: _, h => by simp [Compat] at h
  | i, _ :: _, [], h => by simp [Compat] at h
  | i, m :: inp, n :: other, h => by
    have h' : Compat inp other := ⟨by simpa using h.1, fun x hx => by simpa using h.2 (x + 1) (by simpa using hx)⟩
    have h0 := h.2 0 (by simp)
    simp only [List.getD_cons_zero] at h0
    have e1 : (full (m :: inp) (n :: other)).map (· + i) = (if n = m ∨ n = 1 then [i] else []) ++ (full inp other).map (· + (i + 1)) := by
      unfold full
      rw [List.length_cons, filter_cons_range]
      simp
    have e2 : (ones (m :: inp) (n :: other)).map (· + i) = (if n = m ∨ n = 1 then [] else [i]) ++ (ones inp other).map (· + (i + 1)) := by
      unfold ones
      rw [List.length_cons, filter_cons_range]
      by_cases hc : n = m ∨ n = 1
      · simp [hc]
      · simp [hc]
    unfold addLoop
    rw [addLoop_ok (i + 1) inp other h', e1, e2]
    simp only [bind, Except.bind]
    by_cases hc : n = m ∨ n = 1
    · simp [hc]
    · have : m = 1 := by tauto
      simp only [if_neg hc, if_pos this]
      rfl

lemma mem_full {inp other : List ℕ} {x : ℕ} : x ∈ full inp other ↔ x < inp.length ∧ (other.getD x 0 = inp.getD x 0 ∨ other.getD x 0 = 1) := by simp [full]

lemma mem_ones {inp other : List ℕ} {x : ℕ} : x ∈ ones inp other ↔ x < inp.length ∧ ¬ (other.getD x 0 = inp.getD x 0 ∨ other.getD x 0 = 1) := by simp [ones]

/-- The Jacobian rule, when the operand has size one at the axes not in `T`. -/
lemma addJ_ok {inp out T : List ℕ} (hl : out.length = inp.length) (hT : ∀ x ∈ T, x < inp.length) (h1 : ∀ x, x < inp.length → x ∉ T → inp.getD x 0 = 1)
    (he : gather T out = gather T inp) (isSub : Bool) (idx : ℕ) (other : Arr α) :
    ∃ j, addJ isSub idx inp other out = .ok j ∧ j.shape = out ++ inp ∧
      ∀ o i, InRange o out → InRange i inp → j.get (o ++ i) = delta (if isSub ∧ idx = 1 then -1 else 1) T T o i := by
  obtain ⟨j0, a1, a2, a3⟩ := eye_same (α := α) inp
  have hn : j0.ndim = inp.length + inp.length := by show j0.shape.length = _; rw [a2, List.length_append]
  have hd : ∀ x, x < inp.length + inp.length → ((List.range j0.ndim).map (· + ((out ++ inp).length - j0.ndim))).getD x 0 = x := by
    intro x hx
    rw [hn, getD_range_add _ _ _ hx, List.length_append, hl]
    omega
  have hsz : ∀ x, x < inp.length + inp.length → x ∉ (List.range inp.length).filter (fun x => x ∉ T) → (inp ++ inp).getD x 0 = (out ++ inp).getD x 0 := by
    intro x hx hx2
    by_cases h : x < inp.length
    · have : x ∈ T := by
        by_contra h3
        exact hx2 (List.mem_filter.2 ⟨List.mem_range.2 h, by simpa using h3⟩)
      rw [List.getD_append _ _ _ _ h, List.getD_append _ _ _ _ (by omega)]
      exact (gather_eq_iff.1 he x this).symm
    · rw [List.getD_append_right _ _ _ _ (by omega), List.getD_append_right _ _ _ _ (by omega), hl]
  obtain ⟨j, c1, c2, c3⟩ := bid_ok j0 (shape := out ++ inp) (dims := (List.range j0.ndim).map (· + ((out ++ inp).length - j0.ndim)))
    (by simp; rfl) (by
      intro x hx
      have hx : x < inp.length + inp.length := by rw [a2, List.length_append] at hx; exact hx
      rw [hd x hx, List.length_append, a2]
      refine ⟨by omega, ?_⟩
      by_cases h : x ∈ (List.range inp.length).filter (fun x => x ∉ T)
      · left
        rw [List.mem_filter] at h
        have h3 := List.mem_range.1 h.1
        rw [List.getD_append _ _ _ _ h3]
        exact h1 x h3 (by simpa using h.2)
      · exact Or.inr (hsz x hx h))
  have hval : ∀ o i, InRange o out → InRange i inp → j.get (o ++ i) = delta 1 T T o i := by
    intro o i ho hi
    obtain ⟨k', d1, d2, d3, d4⟩ := c3 (o ++ i) ((inRange_append ho.length).2 ⟨ho, hi⟩)
    rw [a2] at d2 d3 d4
    rw [List.length_append] at d2 d3 d4
    have hki : k' = k'.take inp.length ++ i := by
      conv_lhs => rw [← List.take_append_drop inp.length k']
      congr 1
      refine ext_getD (by rw [List.length_drop, d2, hi.length]; omega) fun x hx => ?_
      have hx : x < inp.length := by rw [List.length_drop, d2] at hx; omega
      have h3 := d3 (inp.length + x) (by omega) (by
        rw [hd _ (by omega)]
        exact hsz _ (by omega) (by simp))
      rw [hd _ (by omega), List.getD_append_right _ _ _ _ (by rw [ho.length]; omega), ho.length, hl] at h3
      rw [List.getD_eq_getElem?_getD, List.getElem?_drop, ← List.getD_eq_getElem?_getD, h3]
      congr 1
      omega
    have hkr : ∀ x, x < inp.length → (k'.take inp.length).getD x 0 = k'.getD x 0 := by
      intro x hx
      rw [List.getD_eq_getElem?_getD, List.getElem?_take_of_lt hx, ← List.getD_eq_getElem?_getD]
    have hk1 : ∀ x, x < inp.length → x ∈ T → (k'.take inp.length).getD x 0 = o.getD x 0 := by
      intro x hx hxT
      rw [hkr x hx, d3 x (by omega) (by
        rw [hd _ (by omega)]
        refine hsz _ (by omega) fun h => ?_
        have := (List.mem_filter.1 h).2
        simp at this
        exact this hxT), hd _ (by omega), List.getD_append _ _ _ _ (by rw [ho.length]; omega)]
    have hk2 : ∀ x, x < inp.length → x ∉ T → (k'.take inp.length).getD x 0 = 0 := by
      intro x hx hxT
      rw [hkr x hx, d4 x (by omega) (by rw [List.getD_append _ _ _ _ hx]; exact h1 x hx hxT)]
    have hin : InRange (k'.take inp.length) inp := by
      refine inRange_iff.2 ⟨by rw [List.length_take, d2]; omega, fun x hx => ?_⟩
      by_cases hxT : x ∈ T
      · rw [hk1 x hx hxT, ← gather_eq_iff.1 he x hxT]
        exact (inRange_iff.1 ho).2 x (by omega)
      · rw [hk2 x hx hxT, h1 x hx hxT]
        exact Nat.one_pos
    rw [d1, hki, a3 _ _ hin hi]
    refine delta_iff 1 ?_
    rw [gather_eq_iff]
    constructor
    · intro h
      refine ext_getD (by rw [hin.length, hi.length]) fun x hx => ?_
      rw [hin.length] at hx
      by_cases hxT : x ∈ T
      · rw [hk1 x hx hxT, h x hxT]
      · have h3 := (inRange_iff.1 hi).2 x hx
        rw [h1 x hx hxT] at h3
        rw [hk2 x hx hxT]
        omega
    · intro h x hxT
      rw [← h, hk1 x (hT x hxT) hxT]
  have hb : j0.broadcastTo (out ++ inp) = .ok j := by
    unfold broadcastTo
    rw [if_pos (by rw [hn, List.length_append, hl])]
    exact c1
  by_cases hs : isSub ∧ idx = 1
  · refine ⟨j.map fun v => -v, ?_, c2, fun o i ho hi => ?_⟩
    · unfold addJ
      rw [a1]
      simp only [bind, Except.bind]
      rw [hb]
      simp [hs]
    · show -(j.get _) = _
      rw [hval o i ho hi, if_pos hs]
      unfold delta
      split <;> simp
  · refine ⟨j, ?_, c2, fun o i ho hi => ?_⟩
    · unfold addJ
      rw [a1]
      simp only [bind, Except.bind]
      rw [hb]
      simp only [if_neg hs]
    · rw [hval o i ho hi, if_neg hs]

/-- The operands of an elementwise operation fit. -/
def Operands (inp other : List ℕ) : Prop := inp = [] ∨ other = [] ∨ Compat inp other

/-- The shape of the result of an elementwise operation. -/
def bshape (a b : List ℕ) : List ℕ := if a = [] then b else if b = [] then a else List.zipWith bcastDim a b

lemma compat_symm {a b : List ℕ} (h : Compat a b) : Compat b a :=
  ⟨h.1.symm, fun x hx => by rcases h.2 x (by have := h.1; omega) with h1 | h1 | h1 <;> omega⟩

lemma bshape_length {a b : List ℕ} (h : Compat a b) : (bshape a b).length = a.length := by
  unfold bshape
  have := h.1
  split
  · rename_i h2
    simp [h2] at this ⊢
    simp [this]
  · split
    · rfl
    · simp [this]

lemma getD_zipWith (f : ℕ → ℕ → ℕ) (a b : List ℕ) (x : ℕ) (h1 : x < a.length) (h2 : x < b.length) :
    (List.zipWith f a b).getD x 0 = f (a.getD x 0) (b.getD x 0) := by
  rw [List.getD_eq_getElem _ _ (by simp [h1, h2]), List.getElem_zipWith, List.getD_eq_getElem _ _ h1, List.getD_eq_getElem _ _ h2]

lemma bshape_getD {a b : List ℕ} (h : Compat a b) {x : ℕ} (hx : x < a.length) : (bshape a b).getD x 0 = if a.getD x 0 = 1 then b.getD x 0 else a.getD x 0 := by
  have hb := h.1
  unfold bshape
  rw [if_neg (by rintro rfl; simp at hx), if_neg (by rintro rfl; simp at hb; omega), getD_zipWith _ _ _ _ hx (by omega)]
  rfl

lemma bshape_comm {a b : List ℕ} (h : Operands a b) : bshape b a = bshape a b := by
  rcases h with rfl | rfl | h
  · unfold bshape
    by_cases hb : b = [] <;> simp [hb]
  · unfold bshape
    by_cases hb : a = [] <;> simp [hb]
  · have h1 := bshape_length h
    have h2 := bshape_length (compat_symm h)
    refine ext_getD (by rw [h1, h2, h.1]) fun x hx => ?_
    have hx : x < a.length := by rw [h2, h.1] at hx; exact hx
    rw [bshape_getD h hx, bshape_getD (compat_symm h) (by have := h.1; omega)]
    rcases h.2 x hx with h3 | h3 | h3
    · simp only [h3]
    · simp only [h3, if_true]
      split <;> omega
    · simp only [h3, if_true]
      split <;> omega

lemma getD_bcastIdx (S o : List ℕ) (x : ℕ) (h1 : x < S.length) (h2 : x < o.length) : (bcastIdx S o).getD x 0 = if S.getD x 0 = 1 then 0 else o.getD x 0 :=
  getD_zipWith _ _ _ _ h1 h2

lemma bcastIdx_self {S o : List ℕ} (h : InRange o S) : bcastIdx S o = o := by
  have hl := h.length
  refine ext_getD (by simp [bcastIdx, hl]) fun x hx => ?_
  have hx : x < S.length := by simpa [bcastIdx, hl] using hx
  rw [getD_bcastIdx _ _ _ hx (by omega)]
  have := (inRange_iff.1 h).2 x hx
  split <;> omega

lemma bcastIdx_nil (o : List ℕ) : bcastIdx [] o = [] := rfl

/-- The index that an entry of the result reads, at an axis. -/
lemma bcastIdx_operand {a b o : List ℕ} (h : Compat a b) (ho : InRange o (bshape a b)) : InRange (bcastIdx a o) a ∧
    ∀ x, x < a.length → (a.getD x 0 = (bshape a b).getD x 0) → (bcastIdx a o).getD x 0 = o.getD x 0 := by
  have hl := ho.length
  rw [bshape_length h] at hl
  have hg : ∀ x, x < a.length → (bcastIdx a o).getD x 0 = if a.getD x 0 = 1 then 0 else o.getD x 0 := fun x hx => getD_bcastIdx _ _ _ hx (by omega)
  refine ⟨inRange_iff.2 ⟨by simp [bcastIdx, hl], fun x hx => ?_⟩, fun x hx he => ?_⟩
  · have h1 := (inRange_iff.1 ho).2 x (by rw [bshape_length h]; exact hx)
    rw [bshape_getD h hx] at h1
    rw [hg x hx]
    split
    · rename_i h2
      omega
    · rename_i h2
      rwa [if_neg h2] at h1
  · have h1 := (inRange_iff.1 ho).2 x (by rw [bshape_length h]; exact hx)
    rw [hg x hx]
    split <;> omega

omit [Field α] in
lemma binLax_ok {β γ : Type} (op : α → β → γ) (w : Arr α) (u : Arr β) (h : Operands w.shape u.shape) :
    ∃ y, binLax op w u = .ok y ∧ y.shape = bshape w.shape u.shape ∧
      ∀ o, InRange o (bshape w.shape u.shape) → y.get o = op (w.get (bcastIdx w.shape o)) (u.get (bcastIdx u.shape o)) := by
  unfold binLax
  by_cases h1 : w.ndim = 0
  · have h1' : w.shape = [] := List.length_eq_zero_iff.1 h1
    rw [if_pos h1, h1']
    refine ⟨_, rfl, by simp [bshape], fun o ho => ?_⟩
    simp only [bshape, if_true] at ho
    rw [bcastIdx_nil, bcastIdx_self ho]
  · rw [if_neg h1]
    have h1' : w.shape ≠ [] := fun h => h1 (by show w.shape.length = 0; rw [h]; rfl)
    by_cases h2 : u.ndim = 0
    · have h2' : u.shape = [] := List.length_eq_zero_iff.1 h2
      rw [if_pos h2, h2']
      refine ⟨_, rfl, by simp [bshape, h1'], fun o ho => ?_⟩
      simp only [bshape, if_neg h1', if_true] at ho
      rw [bcastIdx_nil, bcastIdx_self ho]
    · have h2' : u.shape ≠ [] := fun h => h2 (by show u.shape.length = 0; rw [h]; rfl)
      have hc : Compat w.shape u.shape := by
        rcases h with h | h | h
        · exact absurd h h1'
        · exact absurd h h2'
        · exact h
      rw [if_neg h2, if_pos]
      · refine ⟨_, rfl, ?_, fun o ho => rfl⟩
        unfold bshape
        rw [if_neg h1', if_neg h2']
        rfl
      · refine ⟨hc.1.symm, fun x hx => ?_⟩
        rcases hc.2 x hx with h | h | h
        · exact Or.inl h.symm
        · exact Or.inr (Or.inr h)
        · exact Or.inr (Or.inl h)

/-- `add` or `sub` as a function of the operand number `idx`. -/
def addOp (isSub : Bool) (idx : ℕ) (other w : Arr α) : Except Err (Arr α) :=
  if idx = 0 then binLax (if isSub then (· - ·) else (· + ·)) w other else binLax (if isSub then (· - ·) else (· + ·)) other w

lemma addOp_ok (isSub : Bool) (idx : ℕ) (hidx : idx < 2) (other w : Arr α) (h : Operands w.shape other.shape) :
    ∃ y, addOp isSub idx other w = .ok y ∧ y.shape = bshape w.shape other.shape ∧ ∀ o, InRange o (bshape w.shape other.shape) →
      y.get o = (if isSub ∧ idx = 0 then -1 else 1) * other.get (bcastIdx other.shape o) + (if isSub ∧ idx = 1 then -1 else 1) * w.get (bcastIdx w.shape o) := by
  have h' : Operands other.shape w.shape := by
    rcases h with h | h | h
    · exact Or.inr (Or.inl h)
    · exact Or.inl h
    · exact Or.inr (Or.inr (compat_symm h))
  unfold addOp
  obtain rfl | rfl : idx = 0 ∨ idx = 1 := by omega
  · obtain ⟨y, e1, e2, e3⟩ := binLax_ok (if isSub then (· - ·) else (· + ·) : α → α → α) w other h
    refine ⟨y, by simpa using e1, e2, fun o ho => ?_⟩
    rw [e3 o ho]
    cases isSub <;> simp <;> ring
  · obtain ⟨y, e1, e2, e3⟩ := binLax_ok (if isSub then (· - ·) else (· + ·) : α → α → α) other w h'
    refine ⟨y, by simpa using e1, e2.trans (bshape_comm h), fun o ho => ?_⟩
    rw [e3 o (by rw [bshape_comm h]; exact ho)]
    cases isSub <;> simp
    ring

/-- The shapes of the operands. -/
def operandShapes (idx : ℕ) (inp other : List ℕ) : List (List ℕ) := if idx = 0 then [inp, other] else [other, inp]

lemma operandShapes_getD {idx : ℕ} (hidx : idx < 2) (inp other : List ℕ) : (operandShapes idx inp other).getD idx [] = inp := by
  obtain rfl | rfl : idx = 0 ∨ idx = 1 := by omega
  · rfl
  · rfl

lemma rules_add (isSub : Bool) {idx : ℕ} (hidx : idx < 2) {inp : List ℕ} (other : Arr α) (h : Operands inp other.shape) :
    ∃ s J, addS idx inp other.shape = .ok s ∧ RulesOk (addOp isSub idx other) (addJ isSub idx) s idx (operandShapes idx inp other.shape) inp other
      (bshape inp other.shape) J := by
  have hop : ∀ w : Arr α, w.shape = inp → ∃ y, addOp isSub idx other w = .ok y ∧ y.shape = bshape inp other.shape ∧
      ∀ o, InRange o (bshape inp other.shape) → y.get o = (if isSub ∧ idx = 0 then -1 else 1) * other.get (bcastIdx other.shape o) +
        (if isSub ∧ idx = 1 then -1 else 1) * w.get (bcastIdx inp o) := by
    rintro w rfl
    exact addOp_ok isSub idx hidx other w h
  by_cases hsc : inp.length = 0 ∧ other.shape.length ≠ 0
  · -- a scalar operand
    have hi : inp = [] := List.length_eq_zero_iff.1 hsc.1
    subst hi
    have hb : bshape [] other.shape = other.shape := by simp [bshape]
    rw [hb] at hop ⊢
    refine ⟨⟨[], [], [0, 1], [], [], List.range other.shape.length, [if idx = 0 then 1 else 0], [], 0⟩, delta (if isSub ∧ idx = 1 then -1 else 1) [] [], ?_, ?_⟩
    · unfold addS
      simp only [hsc.2, if_false]
      rfl
    · refine rulesOk_const (if isSub ∧ idx = 1 then -1 else 1) (fun _ _ => True) (operandShapes_getD hidx _ _) rfl rfl ?_ trivial (fun _ _ _ _ => trivial) ?_ ?_
      · exact ⟨rfl, List.nodup_nil, List.nodup_nil, by simp, by simp, rfl, by simp⟩
      · intro inp' out' hf' h1 h2 _
        have : inp' = [] := List.length_eq_zero_iff.1 h1
        subst this
        obtain ⟨j0, a1, a2, a3⟩ := eye_same (α := α) []
        obtain ⟨j, c1, c2, c3⟩ := bid_ok j0 (shape := out' ++ []) (dims := []) (by rw [a2]; rfl) (by rw [a2]; simp)
        have hb : j0.broadcastTo (out' ++ []) = .ok j := by
          have hn : j0.ndim = 0 := by show j0.shape.length = 0; rw [a2]; rfl
          unfold broadcastTo
          rw [if_pos (by rw [hn]; exact Nat.zero_le _), hn]
          exact c1
        have hv : ∀ o, InRange o out' → j.get (o ++ []) = 1 := by
          intro o ho
          obtain ⟨k', d1, d2, _⟩ := c3 (o ++ []) (by simpa using ho)
          rw [a2] at d2
          have : k' = [] ++ [] := List.length_eq_zero_iff.1 d2
          rw [d1, this, a3 [] [] (by simp) (by simp), if_pos rfl]
        by_cases hs : isSub ∧ idx = 1
        · refine ⟨j.map fun v => -v, ?_, c2, fun o i ho hi => ?_⟩
          · unfold addJ
            rw [a1]
            simp only [bind, Except.bind]
            rw [hb]
            simp [hs]
          · rw [inRange_nil_right] at hi
            subst hi
            show -(j.get _) = _
            rw [hv o ho, if_pos hs]
            exact (delta_pos (L := []) (R := []) rfl).symm
        · refine ⟨j, ?_, c2, fun o i ho hi => ?_⟩
          · unfold addJ
            rw [a1]
            simp only [bind, Except.bind]
            rw [hb]
            simp only [if_neg hs]
          · rw [inRange_nil_right] at hi
            subst hi
            rw [hv o ho, if_neg hs]
            exact (delta_pos (L := []) (R := []) rfl).symm
      · refine jacobian_const _ (fun o => (if isSub ∧ idx = 0 then -1 else 1) * other.get (bcastIdx other.shape o)) (bcastIdx []) (fun o _ => by simp [bcastIdx_nil]) ?_ hop
        intro o i ho hi
        rw [inRange_nil_right] at hi
        simp [hi, bcastIdx_nil, gather]
  · -- equal ranks, or a scalar other operand
    have key : ∀ (s : Structure) (T : List ℕ), s.outTrace = T → s.inTrace = T → s.outDiagonal = [] → s.inDiagonal = [] → T.Nodup →
        (∀ x ∈ T, x < inp.length) → (∀ x ∈ T, x ∉ s.outBroadcast) → (bshape inp other.shape).length = inp.length →
        (∀ x, x < inp.length → x ∉ T → inp.getD x 0 = 1) → (∀ x ∈ T, (bshape inp other.shape).getD x 0 = inp.getD x 0) →
        (∀ o, InRange o (bshape inp other.shape) → InRange (bcastIdx inp o) inp) →
        (∀ o, InRange o (bshape inp other.shape) → ∀ x ∈ T, (bcastIdx inp o).getD x 0 = o.getD x 0) →
        RulesOk (addOp isSub idx other) (addJ isSub idx) s idx (operandShapes idx inp other.shape) inp other
          (bshape inp other.shape) (delta (if isSub ∧ idx = 1 then -1 else 1) s.outTrace s.inTrace) := by
      intro s T hO hI hd hd' hn hlt hdis hl h1 he hr1 hr2
      have hf : Fits s inp (bshape inp other.shape) := by
        refine ⟨by rw [hO, hI], by rw [hO]; exact hn, by rw [hI]; exact hn, by rw [hO, hl]; exact hlt, by rw [hI]; exact hlt, ?_, by rw [hO]; exact hdis⟩
        rw [hO, hI]
        exact gather_eq_iff.2 he
      refine rulesOk_const _ (fun inp' _ => ∀ x, x < inp.length → x ∉ T → inp'.getD x 0 = 1) (operandShapes_getD hidx _ _) hd hd' hf h1 ?_ ?_ ?_
      · intro as bs cs _ x hx hxT
        rw [getD_trim _ _ _ hx, h1 x hx hxT]
        simp
      · intro inp' out' hf' hi' ho' hx
        have he' := hf'.eq
        rw [hO, hI] at he' ⊢
        exact addJ_ok (by rw [ho', hi', hl]) (by rw [hi']; exact hlt) (by rw [hi']; exact hx) he' isSub idx other
      · refine jacobian_const _ (fun o => (if isSub ∧ idx = 0 then -1 else 1) * other.get (bcastIdx other.shape o)) (bcastIdx inp) hr1 ?_ hop
        intro o i ho hi
        rw [hO, hI, gather_eq_iff]
        constructor
        · intro h3
          refine ext_getD (by rw [hi.length, (hr1 o ho).length]) fun x hx => ?_
          rw [hi.length] at hx
          by_cases hxT : x ∈ T
          · rw [hr2 o ho x hxT, h3 x hxT]
          · have e1 := (inRange_iff.1 hi).2 x hx
            have e2 := (inRange_iff.1 (hr1 o ho)).2 x hx
            rw [h1 x hx hxT] at e1 e2
            omega
        · rintro rfl x hxT
          exact (hr2 o ho x hxT).symm
    by_cases hos : other.shape.length = 0
    · have hos' : other.shape = [] := List.length_eq_zero_iff.1 hos
      have hb : bshape inp other.shape = inp := by
        unfold bshape
        rw [hos']
        split
        · rename_i h3
          exact h3.symm
        · rfl
      refine ⟨⟨List.range inp.length, List.range inp.length, [0, 1], [], [], [], [if idx = 0 then 1 else 0], [], 0⟩, _, ?_,
        key _ (List.range inp.length) rfl rfl rfl rfl List.nodup_range (by simp) (by simp) (by rw [hb]) ?_ ?_ ?_ ?_⟩
      · unfold addS
        simp only [hos, if_true]
        rfl
      · intro x hx hxT
        simp at hxT
        omega
      · rw [hb]
        exact fun _ _ => rfl
      · rw [hb]
        exact fun o ho => by rw [bcastIdx_self ho]; exact ho
      · rw [hb]
        exact fun o ho x _ => by rw [bcastIdx_self ho]
    · have hin : inp.length ≠ 0 := fun h3 => hsc ⟨h3, hos⟩
      have hc : Compat inp other.shape := by
        rcases h with h | h | h
        · exact absurd (by rw [h]; rfl) hin
        · exact absurd (by rw [h]; rfl) hos
        · exact h
      have hT : ∀ x ∈ full inp other.shape, (bshape inp other.shape).getD x 0 = inp.getD x 0 := by
        intro x hx
        obtain ⟨h3, h4⟩ := mem_full.1 hx
        rw [bshape_getD hc h3]
        split
        · rename_i h5
          rcases h4 with h4 | h4 <;> omega
        · rfl
      refine ⟨⟨full inp other.shape, full inp other.shape, [0, 1], [], [], ones inp other.shape, [if idx = 0 then 1 else 0], [], 0⟩, _, ?_,
        key _ (full inp other.shape) rfl rfl rfl rfl (List.nodup_range.filter _) (fun x hx => (mem_full.1 hx).1) ?_ (bshape_length hc) ?_ hT ?_ ?_⟩
      · unfold addS
        simp only [hin, hc.1, if_false, if_true]
        rw [addLoop_ok 0 _ _ hc]
        simp
        rfl
      · exact fun x hx h3 => (mem_ones.1 h3).2 (mem_full.1 hx).2
      · intro x hx hxT
        rw [mem_full] at hxT
        rcases hc.2 x hx with h3 | h3 | h3
        · exact absurd ⟨hx, Or.inl h3⟩ hxT
        · exact absurd ⟨hx, Or.inr h3⟩ hxT
        · exact h3
      · exact fun o ho => (bcastIdx_operand hc ho).1
      · exact fun o ho x hx => (bcastIdx_operand hc ho).2 x (mem_full.1 hx).1 (hT x hx).symm

end NT.Rules
