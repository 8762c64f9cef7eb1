import Verif.Lemmas.Rules11

/-!
# Rules of `dot_general`: the compact form
-/

namespace NT.Rules
open NT Arr Spec
variable {α : Type}

/-- The axes of the output that are free axes of the operand. -/
def outFree (idx n m : ℕ) (C B oC oB : List ℕ) : List ℕ :=
  List.range' (offF idx B.length (freeAxes m (oC ++ oB)).length) (freeAxes n (C ++ B)).length

/-- A part `To`, `Ti` of the traced axes, and a part `D` of the batch axes. -/
structure DotCut (idx n m : ℕ) (C B oC oB To Ti D : List ℕ) : Prop where
  len : To.length = Ti.length
  trace : ∀ p ∈ To.zip Ti, p ∈ (outFree idx n m C B oC oB).zip (freeAxes n (C ++ B))
  diag : ∀ d ∈ D, d < B.length

/-- The batch axes of an operand. -/
def batchAxes (B D : List ℕ) : List ℕ := D.map fun d => B.getD d 0

lemma nodup_zip_left {xs ys : List ℕ} (h : xs.Nodup) {a b b' : ℕ} (h1 : (a, b) ∈ xs.zip ys) (h2 : (a, b') ∈ xs.zip ys) : b = b' := by
  obtain ⟨k, hk, e1⟩ := List.mem_iff_getElem.1 h1
  obtain ⟨l, hl, e2⟩ := List.mem_iff_getElem.1 h2
  rw [List.length_zip, lt_min_iff] at hk hl
  rw [List.getElem_zip, Prod.mk.injEq] at e1 e2
  have : k = l := (List.Nodup.getElem_inj_iff h (hi := hk.1) (hj := hl.1)).1 (e1.1.trans e2.1.symm)
  subst this
  exact e1.2.symm.trans e2.2

lemma nodup_zip_right {xs ys : List ℕ} (h : ys.Nodup) {a a' b : ℕ} (h1 : (a, b) ∈ xs.zip ys) (h2 : (a', b) ∈ xs.zip ys) : a = a' := by
  obtain ⟨k, hk, e1⟩ := List.mem_iff_getElem.1 h1
  obtain ⟨l, hl, e2⟩ := List.mem_iff_getElem.1 h2
  rw [List.length_zip, lt_min_iff] at hk hl
  rw [List.getElem_zip, Prod.mk.injEq] at e1 e2
  have : k = l := (List.Nodup.getElem_inj_iff h (hi := hk.2) (hj := hl.2)).1 (e1.2.trans e2.2.symm)
  subst this
  exact e1.1.symm.trans e2.1

lemma mem_zip_of_left {xs ys : List ℕ} (h : xs.length = ys.length) {a : ℕ} (ha : a ∈ xs) : ∃ b, (a, b) ∈ xs.zip ys := by
  obtain ⟨k, hk, rfl⟩ := List.mem_iff_getElem.1 ha
  exact ⟨ys[k], List.mem_iff_getElem.2 ⟨k, by simp; omega, by simp⟩⟩

lemma mem_zip_of_right {xs ys : List ℕ} (h : xs.length = ys.length) {b : ℕ} (hb : b ∈ ys) : ∃ a, (a, b) ∈ xs.zip ys := by
  obtain ⟨k, hk, rfl⟩ := List.mem_iff_getElem.1 hb
  exact ⟨xs[k], List.mem_iff_getElem.2 ⟨k, by simp; omega, by simp⟩⟩

lemma mem_batchAxes {B D : List ℕ} (hn : B.Nodup) (hD : ∀ d ∈ D, d < B.length) {k : ℕ} (hk : k < B.length) : B.getD k 0 ∈ batchAxes B D ↔ k ∈ D := by
  constructor
  · intro h
    obtain ⟨d, hd, e⟩ := List.mem_map.1 h
    rw [List.getD_eq_getElem _ _ hk, List.getD_eq_getElem _ _ (hD d hd)] at e
    rwa [(List.Nodup.getElem_inj_iff hn).1 e] at hd
  · exact fun h => List.mem_map.2 ⟨k, h, rfl⟩

lemma batchAxes_sub {B D : List ℕ} (hD : ∀ d ∈ D, d < B.length) {x : ℕ} (hx : x ∈ batchAxes B D) : x ∈ B := by
  obtain ⟨d, hd, rfl⟩ := List.mem_map.1 hx
  rw [List.getD_eq_getElem _ _ (hD d hd)]
  exact List.getElem_mem _

section
variable {idx n m : ℕ} {C B oC oB To Ti D : List ℕ}

lemma outFree_nodup : (outFree idx n m C B oC oB).Nodup := List.nodup_range'

lemma outFree_ge {x : ℕ} (hx : x ∈ outFree idx n m C B oC oB) : B.length ≤ x := by
  unfold outFree at hx
  rw [List.mem_range'_1] at hx
  unfold offF at hx
  split at hx <;> omega

lemma DotCut.out (h : DotCut idx n m C B oC oB To Ti D) {x : ℕ} (hx : x ∈ To) : x ∈ outFree idx n m C B oC oB := by
  obtain ⟨b, hb⟩ := mem_zip_of_left h.len hx
  exact (List.of_mem_zip (h.trace _ hb)).1

lemma DotCut.inn (h : DotCut idx n m C B oC oB To Ti D) {x : ℕ} (hx : x ∈ Ti) : x ∈ freeAxes n (C ++ B) := by
  obtain ⟨b, hb⟩ := mem_zip_of_right h.len hx
  exact (List.of_mem_zip (h.trace _ hb)).2

/-- Of two axes with the same index, both are trimmed or none. -/
lemma DotCut.pair (h : DotCut idx n m C B oC oB To Ti D) (hB : B.Nodup) {p : ℕ × ℕ} (hp : p ∈ dotP idx n m C B oC oB) :
    (p.1 ∈ To ++ D ↔ p.2 ∈ Ti ++ batchAxes B D) ∧ (p.1 ∈ To ++ D → p ∈ To.zip Ti ∨ p ∈ D.map fun d => (d, B.getD d 0)) := by
  unfold dotP at hp
  rw [List.mem_append] at hp
  rcases hp with hp | hp
  · have hp' : p ∈ (outFree idx n m C B oC oB).zip (freeAxes n (C ++ B)) := hp
    obtain ⟨h1, h2⟩ := List.of_mem_zip hp'
    have h3 := outFree_ge h1
    have h4 : p.1 ∉ D := fun h5 => by have := h.diag _ h5; omega
    have h5 : p.2 ∉ batchAxes B D := fun h6 => (mem_freeAxes.1 h2).2 (by simp [batchAxes_sub h.diag h6])
    have h6 : p.1 ∈ To → p ∈ To.zip Ti := fun h7 => by
      obtain ⟨b, hb⟩ := mem_zip_of_left h.len h7
      have : p.2 = b := nodup_zip_left outFree_nodup (a := p.1) hp' (h.trace _ hb)
      rw [← this] at hb
      exact hb
    have h7 : p.2 ∈ Ti → p ∈ To.zip Ti := fun h7 => by
      obtain ⟨b, hb⟩ := mem_zip_of_right h.len h7
      have : p.1 = b := nodup_zip_right (nodup_freeAxes _ _) (b := p.2) hp' (h.trace _ hb)
      rw [← this] at hb
      exact hb
    simp only [List.mem_append, h4, h5, or_false]
    exact ⟨⟨fun h8 => (List.of_mem_zip (h6 h8)).2, fun h8 => (List.of_mem_zip (h7 h8)).1⟩, fun h8 => Or.inl (h6 h8)⟩
  · obtain ⟨k, hk, rfl⟩ := List.mem_iff_getElem.1 hp
    have hk1 : k < B.length := by simpa using hk
    rw [List.getElem_zip, List.getElem_range]
    have h1 : k ∉ To := fun h2 => by have := outFree_ge (h.out h2); omega
    have h2 : B[k] ∉ Ti := fun h3 => (mem_freeAxes.1 (h.inn h3)).2 (by simp)
    have h3 := mem_batchAxes hB h.diag hk1
    rw [List.getD_eq_getElem _ _ hk1] at h3
    simp only [List.mem_append, h1, h2, false_or, h3]
    refine ⟨trivial, fun h4 => Or.inr (List.mem_map.2 ⟨k, h4, ?_⟩)⟩
    rw [List.getD_eq_getElem _ _ hk1]

/-- An axis of the Jacobian from the other operand is trimmed if the axis of that operand is. -/
lemma DotCut.other (h : DotCut idx n m C B oC oB To Ti D) (hn' : (oC ++ oB).Nodup) (hlC : C.length = oC.length) (hlB : B.length = oB.length) (hn : (C ++ B).Nodup)
    {N : ℕ} (hN : N = B.length + (freeAxes n (C ++ B)).length + (freeAxes m (oC ++ oB)).length) {a : ℕ} (ha : a < m) :
    ((dotV idx n m C B oC oB N).getD a 0 < N ∧ ((dotV idx n m C B oC oB N).getD a 0 ∈ To ++ D ↔ a ∈ batchAxes oB D)) ∨
      (N ≤ (dotV idx n m C B oC oB N).getD a 0 ∧ (dotV idx n m C B oC oB N).getD a 0 - N ∉ Ti ++ batchAxes B D ∧ a ∉ batchAxes oB D) := by
  have hDo : ∀ d ∈ D, d < oB.length := fun d hd => hlB ▸ h.diag d hd
  rw [getD_dotV ha]
  by_cases h1 : a ∈ oB
  · left
    have h2 := List.idxOf_lt_length_iff.2 h1
    have h3 := mem_batchAxes (List.nodup_append.1 hn').2.1 hDo h2
    rw [List.getD_eq_getElem _ _ h2, List.getElem_idxOf] at h3
    rw [if_pos h1, h3, List.mem_append]
    refine ⟨by omega, ⟨fun h4 => h4.resolve_left fun h5 => ?_, Or.inr⟩⟩
    have := outFree_ge (h.out h5)
    omega
  · have h4 : a ∉ batchAxes oB D := fun h5 => h1 (batchAxes_sub hDo h5)
    rw [if_neg h1]
    by_cases h2 : a ∈ oC
    · right
      rw [if_pos h2]
      have h3 := List.idxOf_lt_length_iff.2 h2
      have h5 : C.getD (oC.idxOf a) 0 ∈ C := by
        rw [List.getD_eq_getElem _ _ (by omega)]
        exact List.getElem_mem _
      refine ⟨by omega, ?_, h4⟩
      rw [Nat.add_sub_cancel_left, List.mem_append]
      rintro (h6 | h6)
      · exact (mem_freeAxes.1 (h.inn h6)).2 (List.mem_append_left _ h5)
      · exact (List.nodup_append.1 hn).2.2 _ h5 _ (batchAxes_sub h.diag h6) rfl
    · left
      rw [if_neg h2]
      have h3 := List.idxOf_lt_length_iff.2 (mem_freeAxes.2 ⟨ha, by simp [h1, h2]⟩ : a ∈ freeAxes m (oC ++ oB))
      refine ⟨by unfold offG; split <;> omega, ⟨fun h5 => ?_, fun h5 => absurd h5 h4⟩⟩
      exfalso
      rcases List.mem_append.1 h5 with h5 | h5
      · have h6 := h.out h5
        unfold outFree at h6
        rw [List.mem_range'_1] at h6
        unfold offF offG at h6
        by_cases h0 : idx = 0
        · simp only [h0, if_true] at h6
          omega
        · simp only [h0, if_false] at h6
          omega
      · have h6 := h.diag _ h5
        unfold offG at h6
        split at h6 <;> omega

end

lemma DotOk.cut {idx : ℕ} {C B oC oB inp oS out To Ti D : List ℕ} (h : DotOk idx C B oC oB inp oS out) (hc : DotCut idx inp.length oS.length C B oC oB To Ti D) :
    DotOk idx C B oC oB (trim (Ti ++ batchAxes B D) inp) (trim (batchAxes oB D) oS) (trim (To ++ D) out) := by
  have hp := fun {p : ℕ × ℕ} (hp : p ∈ dotP idx inp.length oS.length C B oC oB) => (hc.pair (List.nodup_append.1 h.nodup).2.1 hp).1
  have hN := h.len
  have key : ∀ A F' : List ℕ, A.length = F'.length → (∀ q ∈ A.zip F', q ∈ dotP idx inp.length oS.length C B oC oB) → (∀ x ∈ A, x < out.length) → (∀ x ∈ F', x < inp.length) →
      gather A out = gather F' inp → gather A (trim (To ++ D) out) = gather F' (trim (Ti ++ batchAxes B D) inp) := by
    intro A F' hl hq hA hF he
    refine ext_getD (by simp [gather, hl]) fun k hk => ?_
    have hk1 : k < A.length := by simpa [gather] using hk
    have hk2 : k < F'.length := by omega
    have e := congrArg (fun l => l.getD k 0) he
    beta_reduce at e
    rw [gather_getD _ _ _ hk1, gather_getD _ _ _ hk2] at e ⊢
    have h1 := hp (hq (A[k], F'[k]) (List.mem_iff_getElem.2 ⟨k, by simp; omega, by simp⟩))
    rw [getD_trim _ _ _ (hA _ (List.getElem_mem _)), getD_trim _ _ _ (hF _ (List.getElem_mem _)), e]
    dsimp only at h1
    by_cases h2 : A[k] ∈ To ++ D
    · rw [if_pos h2, if_pos (h1.1 h2)]
    · rw [if_neg h2, if_neg fun h3 => h2 (h1.2 h3)]
  refine ⟨h.nodup, by rw [length_trim]; exact h.lt, h.nodup', by rw [length_trim]; exact h.lt', h.lenC, h.lenB, by simp only [length_trim]; exact h.len, ?_, ?_, ?_⟩
  · simp only [length_trim]
    refine ext_getD (by simp [gather, length_dotV, length_trim]) fun a ha => ?_
    have ha : a < oS.length := by simpa [gather, length_dotV] using ha
    have e := congrArg (fun l => l.getD a 0) h.shape
    beta_reduce at e
    rw [gather_getD' _ _ _ (by rw [length_dotV]; exact ha)] at e ⊢
    rw [getD_trim _ _ _ ha]
    rcases hc.other h.nodup' h.lenC h.lenB h.nodup hN ha with ⟨h1, h2⟩ | ⟨h1, h2, h3⟩
    · rw [List.getD_append _ _ _ _ (by rw [length_trim]; exact h1), getD_trim _ _ _ h1]
      rw [List.getD_append _ _ _ _ h1] at e
      by_cases h3 : a ∈ batchAxes oB D
      · rw [if_pos h3, if_pos (h2.2 h3)]
      · rw [if_neg h3, if_neg fun h4 => h3 (h2.1 h4), e]
    · rw [List.getD_append_right _ _ _ _ (by rw [length_trim]; exact h1), length_trim]
      rw [List.getD_append_right _ _ _ _ h1] at e
      rw [if_neg h3, ← e]
      by_cases h4 : (dotV idx inp.length oS.length C B oC oB out.length).getD a 0 - out.length < inp.length
      · rw [getD_trim _ _ _ h4, if_neg h2]
      · rw [List.getD_eq_default _ _ (by rw [length_trim]; omega), List.getD_eq_default _ _ (by omega)]
  · simp only [length_trim]
    refine key _ _ (by simp) (fun q hq => List.mem_append_left _ hq) (fun x hx => ?_) (fun x hx => (mem_freeAxes.1 hx).1) h.free
    rw [List.mem_range'_1] at hx
    unfold offF at hx
    split at hx <;> omega
  · refine key _ _ (by simp) (fun q hq => List.mem_append_right _ hq) (fun x hx => ?_) (fun x hx => h.lt x (by simp [hx])) h.batch
    rw [List.mem_range] at hx
    omega

lemma zip_range_map {B oB : List ℕ} (hl : B.length = oB.length) (f : ℕ × ℕ → List (Option ℕ)) :
    (List.range B.length).zip ((B.zip oB).map f) = (List.range B.length).map fun d => (d, f (B.getD d 0, oB.getD d 0)) := by
  refine List.ext_getElem (by simp; omega) fun k h1 h2 => ?_
  have hk : k < B.length := by simpa using h2
  have hk2 : k < oB.length := by omega
  simp only [List.getElem_zip, List.getElem_map, List.getElem_range]
  rw [List.getD_eq_getElem _ _ hk, List.getD_eq_getElem _ _ hk2]

/-- The entry of `in_diagonal` for the batch axis `d`. -/
def dotDiag (idx : ℕ) (B oB : List ℕ) (d : ℕ) : List (Option ℕ) :=
  if idx = 0 then [some (B.getD d 0), some (oB.getD d 0)] else [some (oB.getD d 0), some (B.getD d 0)]

lemma dotDiag_self {idx : ℕ} (hidx : idx < 2) (B oB : List ℕ) (d : ℕ) : (dotDiag idx B oB d).getD idx none = some (B.getD d 0) := by
  obtain rfl | rfl : idx = 0 ∨ idx = 1 := by omega
  · rfl
  · rfl

lemma dotDiag_other {idx : ℕ} (B oB : List ℕ) (d : ℕ) : (dotDiag idx B oB d).getD (if idx = 0 then 1 else 0) none = some (oB.getD d 0) := by
  unfold dotDiag
  split <;> rfl

lemma diag_of_zip {f : ℕ → List (Option ℕ)} : ∀ {as : List ℕ} {bs : List (List (Option ℕ))}, as.length = bs.length → (∀ p ∈ as.zip bs, p.2 = f p.1) → bs = as.map f
  | [], [], _, _ => rfl
  | [], _ :: _, h, _ => by simp at h
  | _ :: _, [], h, _ => by simp at h
  | a :: as, b :: bs, h, h2 => by
    have := h2 (a, b) (by simp)
    dsimp only at this
    rw [diag_of_zip (as := as) (bs := bs) (by simpa using h) fun p hp => h2 p (by simp [hp]), this]
    rfl

/-- The structure of `dot_general`. -/
lemma dotS_eq {idx : ℕ} (hidx : idx < 2) {C B oC oB inp oS out : List ℕ} (h : DotOk idx C B oC oB inp oS out) :
    dotS idx C B oB inp.length oS.length =
      { inTrace := freeAxes inp.length (C ++ B)
        outTrace := outFree idx inp.length oS.length C B oC oB
        inTraceIdxs := [idx]
        inDiagonal := (List.range B.length).map (dotDiag idx B oB)
        outDiagonal := List.range B.length } := by
  unfold dotS
  dsimp only
  congr 1
  · have := freeOut_eq (n := inp.length) hidx h.nodup h.nodup' h.lt' h.lenC h.lenB
    unfold outFree
    rw [← this]
    refine List.map_congr_left fun i _ => ?_
    congr 1
    obtain rfl | rfl : idx = 0 ∨ idx = 1 := by omega
    · rfl
    · rfl
  · have hl := h.lenB
    refine List.ext_getElem (by simp; omega) fun k h1 h2 => ?_
    have hk : k < B.length := by simpa using h2
    simp only [List.getElem_map, List.getElem_zip, List.getElem_range, dotDiag]
    rw [List.getD_eq_getElem _ _ hk, List.getD_eq_getElem _ _ (by omega)]

lemma DotOk.batchSize {idx : ℕ} {C B oC oB inp oS out : List ℕ} (h : DotOk idx C B oC oB inp oS out) {d : ℕ} (hd : d < B.length) :
    d < out.length ∧ B.getD d 0 < inp.length ∧ oB.getD d 0 < oS.length ∧ out.getD d 0 = inp.getD (B.getD d 0) 0 ∧ out.getD d 0 = oS.getD (oB.getD d 0) 0 := by
  have hN := h.len
  have hd2 : d < oB.length := h.lenB ▸ hd
  have e1 := congrArg (fun l => l.getD d 0) h.batch
  beta_reduce at e1
  rw [gather_getD _ _ _ (by simpa using hd), List.getElem_range, gather_getD' _ _ _ hd] at e1
  have h3 : oB.getD d 0 < oS.length := by
    rw [List.getD_eq_getElem _ _ hd2]
    exact h.lt' _ (by simp)
  have e2 := congrArg (fun l => l.getD (oB.getD d 0) 0) h.shape
  beta_reduce at e2
  have e3 := congrArg (fun l => l.getD d 0) (gather_dotV_batch (idx := idx) (n := inp.length) (N := out.length) (C := C) (B := B) h.nodup' h.lt')
  beta_reduce at e3
  rw [gather_getD' _ _ _ hd2, List.getD_eq_getElem (List.range oB.length) _ (by simpa using hd2), List.getElem_range] at e3
  rw [gather_getD' _ _ _ (by rw [length_dotV]; exact h3), e3, List.getD_append _ _ _ _ (by omega)] at e2
  refine ⟨by omega, ?_, h3, e1, e2⟩
  rw [List.getD_eq_getElem _ _ hd]
  exact h.lt _ (by simp)

/-- The rules of `dot_general`. -/
lemma rules_dot [Field α] {idx : ℕ} (hidx : idx < 2) {C B oC oB inp : List ℕ} (other : Arr α) (hd : DotDims C B oC oB inp other.shape) :
    RulesOk (dotOp idx C B oC oB other) (dotJ idx C B oC oB) (dotS idx C B oB inp.length other.ndim) idx (operandShapes idx inp other.shape) inp other
      (dotOut idx C B oC oB inp other.shape) (dotJac idx inp.length C B oC oB other) := by
  have h := dotOk_of (idx := idx) hd
  have hjac := dot_jacobian (idx := idx) other hd
  have hS : dotS idx C B oB inp.length other.ndim = _ := dotS_eq hidx h
  rw [hS]
  generalize dotOut idx C B oC oB inp other.shape = out at h hjac ⊢
  have hN := h.len
  have hBn := (List.nodup_append.1 h.nodup).2.1
  have hoBn := (List.nodup_append.1 h.nodup').2.1
  refine ⟨?_, hjac, dotJ_ok hidx other h, ?_⟩
  · unfold checked
    dsimp only
    rw [operandShapes_getD hidx]
    rw [if_neg (by simp [outFree]), if_neg, if_neg, if_neg (by simp), if_pos]
    · intro p hp
      rw [zip_map_self] at hp
      obtain ⟨d, hd', rfl⟩ := List.mem_map.1 hp
      have hd' := List.mem_range.1 hd'
      obtain ⟨b1, b2, b3, b4, b5⟩ := h.batchSize hd'
      refine ⟨by unfold operandShapes dotDiag; split <;> rfl, by rw [dotDiag_self hidx]; simp, fun ix hix i hi => ?_⟩
      have hix : ix < 2 := by unfold operandShapes at hix; split at hix <;> simpa using hix
      dsimp only at hi ⊢
      unfold operandShapes
      unfold dotDiag at hi
      obtain rfl | rfl : ix = 0 ∨ ix = 1 := by omega
      · split at hi <;> rename_i h0
        · rw [if_pos h0]
          obtain rfl := Option.some.inj hi
          exact b4.symm
        · rw [if_neg h0]
          obtain rfl := Option.some.inj hi
          exact b5.symm
      · split at hi <;> rename_i h0
        · rw [if_pos h0]
          obtain rfl := Option.some.inj hi
          exact b5.symm
        · rw [if_neg h0]
          obtain rfl := Option.some.inj hi
          exact b4.symm
    · rw [not_not]
      exact congrArg List.prod h.free.symm
    · rintro (⟨a, ha, h2⟩ | ⟨a, ha, h2⟩)
      · unfold outFree at ha
        rw [List.mem_range'_1] at ha
        have hN : out.length = B.length + (freeAxes inp.length (C ++ B)).length + (freeAxes other.shape.length (oC ++ oB)).length := hN
        unfold offF at ha
        split at ha <;> omega
      · have := (mem_freeAxes.1 ha).1
        omega
  · intro s' hs
    have hdz : ∀ p ∈ s'.outDiagonal.zip s'.inDiagonal, p.1 < B.length ∧ p.2 = dotDiag idx B oB p.1 := fun p hp => by
      have := hs.diag.subset hp
      rw [zip_map_self] at this
      obtain ⟨d, hd', rfl⟩ := List.mem_map.1 this
      exact ⟨List.mem_range.1 hd', rfl⟩
    have hID : s'.inDiagonal = s'.outDiagonal.map (dotDiag idx B oB) := diag_of_zip hs.diagLen fun p hp => (hdz p hp).2
    have hBr : s'.outBroadcast = [] := List.eq_nil_iff_forall_not_mem.2 fun x hx => by simpa using hs.broadcast x hx
    have hDs : s'.outDiagonal.Sublist (List.range B.length) := by
      have := hs.diag.map Prod.fst
      rw [List.map_fst_zip hs.diagLen.le, List.map_fst_zip (by simp)] at this
      exact this
    have hcut : DotCut idx inp.length other.shape.length C B oC oB s'.outTrace s'.inTrace s'.outDiagonal :=
      ⟨hs.traceLen, fun p hp => hs.trace p hp, fun d hd' => List.mem_range.1 (hDs.subset hd')⟩
    have hDn : s'.outDiagonal.Nodup := hDs.nodup List.nodup_range
    set To := s'.outTrace with hTo
    set Ti := s'.inTrace with hTi
    set D := s'.outDiagonal with hD
    have ediag : diagPairs s' idx = D.map fun d => (d, B.getD d 0) := by
      unfold diagPairs
      rw [hID, ← hD, zip_map_self, List.filterMap_map, List.filterMap_eq_map_iff_forall_eq_some.2]
      intro d _
      simp only [Function.comp]
      rw [dotDiag_self hidx]
      rfl
    have eins : diagIns s' idx = batchAxes B D := by
      unfold diagIns
      rw [ediag, List.map_map]
      rfl
    have e1 : trimIn s' idx inp = trim (Ti ++ batchAxes B D) inp := by
      refine trimIn_eq hs (batchAxes B D) fun x => ?_
      unfold diagAxes
      rw [hID, List.filterMap_map]
      have : D.filterMap ((fun l : List (Option ℕ) => l.getD idx none) ∘ dotDiag idx B oB) = batchAxes B D :=
        List.filterMap_eq_map_iff_forall_eq_some.2 fun d _ => dotDiag_self hidx B oB d
      rw [this]
    have e2 : trimOut s' out = trim (To ++ D) out := by
      unfold trimOut
      rw [hBr, List.append_nil]
    have hok := h.cut hcut
    have hToN : ∀ a ∈ To, a < out.length := fun a ha => by
      have h1 := hcut.out ha
      unfold outFree at h1
      rw [List.mem_range'_1] at h1
      unfold offF at h1
      split at h1 <;> omega
    have hDo : ∀ d ∈ D, d < out.length := fun d hd' => (h.batchSize (hcut.diag d hd')).1
    have hDT : ∀ d ∈ D, d ∉ To := fun d hd' h1 => by
      have := outFree_ge (hcut.out h1)
      have := hcut.diag d hd'
      omega
    have hGives : Gives (fun x : Arr α => dotJ idx C B oC oB (trimIn s' idx inp) x (trimOut s' out)) (trim (batchAxes oB D) other.shape)
        (trim (To ++ D) out ++ trim (Ti ++ batchAxes B D) inp)
        fun (x : Arr α) k => dotJac idx inp.length C B oC oB x (k.take out.length) (k.drop out.length) := by
      intro x hx
      rw [e1, e2]
      rw [← hx] at hok
      obtain ⟨j, j1, j2, j3⟩ := dotJ_ok hidx x hok
      refine ⟨j, j1, j2, fun k hk => ?_⟩
      have hl : (trim (To ++ D) out).length = out.length := length_trim ..
      have hk1 := hk.length
      rw [List.length_append] at hk1
      have hkt : k.take out.length ++ k.drop out.length = k := List.take_append_drop _ _
      rw [← hkt] at hk
      obtain ⟨hk2, hk3⟩ := (inRange_append (by rw [List.length_take]; omega)).1 hk
      have := j3 _ _ hk2 hk3
      rwa [hkt, length_trim] at this
    have hm2 : (D.map fun d => (oB.getD d 0, d)).map (·.2) = D := by rw [List.map_map]; exact List.map_id _
    have hm1 : (D.map fun d => (oB.getD d 0, d)).map (·.1) = batchAxes oB D := by rw [List.map_map]; rfl
    have hoD : (batchAxes oB D).Nodup := by
      refine List.Nodup.map_on (fun a ha b hb e => ?_) hDn
      have ha := h.lenB ▸ hcut.diag a ha
      have hb := h.lenB ▸ hcut.diag b hb
      rw [List.getD_eq_getElem _ _ ha, List.getD_eq_getElem _ _ hb] at e
      exact (List.Nodup.getElem_inj_iff hoBn).1 e
    obtain ⟨j, j1, j2, j3⟩ := compact_gives (rule := dotJ (α := α) idx C B oC oB) (s := s') (idx := idx) (inp := inp) (other := other) (out := out)
      (Y := trim To out ++ trim (Ti ++ batchAxes B D) inp) (D.map fun d => (oB.getD d 0, d)) (by
        rw [hID, ← hD, List.map_map]
        rw [zip_map_self', List.map_map]
        refine List.map_congr_left fun d _ => ?_
        simp only [Function.comp]
        rw [dotDiag_other]) (by rw [hm1]; exact hoD) (by rw [hm2]; exact hDn) (by
        intro p hp
        obtain ⟨d, hd', rfl⟩ := List.mem_map.1 hp
        have hb := h.batchSize (hcut.diag d hd')
        show (trim To out ++ _).getD d 0 = other.shape.getD (oB.getD d 0) 0
        rw [List.getD_append _ _ _ _ (by rw [length_trim]; exact hb.1), getD_trim _ _ _ hb.1, if_neg (hDT d hd'), hb.2.2.2.2])
      (G := fun (x : Arr α) k => dotJac idx inp.length C B oC oB x (k.take out.length) (k.drop out.length)) (by
        rw [hm1, hm2, trim_append (by rw [length_trim]; exact hDo), trim_trim]
        exact hGives)
    rw [hm2] at j3
    refine ⟨j, j1, ?_, ?_, ?_⟩
    · rw [j2, hBr, eins, List.append_nil]
    · intro o i ho hi hne
      rw [dotJac, if_neg]
      intro hall
      refine hne ⟨fun p hp => hall p ?_, fun p hp => hall p ?_⟩
      · exact List.mem_append_left _ (hs.trace p hp)
      · rw [ediag] at hp
        obtain ⟨d, hd', rfl⟩ := List.mem_map.1 hp
        have := hcut.diag d hd'
        refine List.mem_append_right _ (List.mem_iff_getElem.2 ⟨d, by simpa using this, ?_⟩)
        rw [List.getElem_zip, List.getElem_range, List.getD_eq_getElem _ _ this]
    · intro o i ho hi ha1 ha2
      have hol := ho.length
      have hil := hi.length
      rw [hBr, eins, List.append_nil, j3 _ ((inRange_append (by rw [length_squash, length_trim]; exact hol)).2 ⟨inRange_squash ho, inRange_squash hi⟩)]
      rw [squash_append (by rw [length_squash, hol]; exact hDo), squash_squash]
      have hl : out.length = (squash (To ++ D) o).length := by rw [length_squash, hol]
      conv_rhs => rw [hl, List.take_left, List.drop_left]
      unfold dotJac
      have hsn : (slices (D.map fun d => (oB.getD d 0, d)) (squash To o ++ squash (Ti ++ batchAxes B D) i) other).ndim = other.shape.length := by
        show (trim _ other.shape).length = _
        rw [length_trim]
      rw [hsn, ← hl, hol]
      have hcond : Agree (dotP idx inp.length other.shape.length C B oC oB) o i ↔
          Agree (dotP idx inp.length other.shape.length C B oC oB) (squash (To ++ D) o) (squash (Ti ++ batchAxes B D) i) := by
        refine forall_congr' fun p => forall_congr' fun hp => ?_
        obtain ⟨h1, h2⟩ := hcut.pair hBn hp
        rw [getD_squash, getD_squash]
        by_cases h3 : p.1 ∈ To ++ D
        · rw [if_pos h3, if_pos (h1.1 h3)]
          simp only [iff_true]
          rcases h2 h3 with h4 | h4
          · exact ha1 p h4
          · exact ha2 p (by rw [ediag]; exact h4)
        · rw [if_neg h3, if_neg fun h4 => h3 (h1.2 h4)]
      have hval : other.get (gather (dotV idx inp.length other.shape.length C B oC oB out.length) (o ++ i)) =
          (slices (D.map fun d => (oB.getD d 0, d)) (squash To o ++ squash (Ti ++ batchAxes B D) i) other).get
            (gather (dotV idx inp.length other.shape.length C B oC oB out.length) (squash (To ++ D) o ++ squash (Ti ++ batchAxes B D) i)) := by
        show _ = other.get (addAt _ _ _)
        congr 1
        refine ext_getD (by rw [addAt_length]; simp [gather]) fun a ha => ?_
        have ha : a < other.shape.length := by simpa [gather, length_dotV] using ha
        have hV : ∀ k, (gather (dotV idx inp.length other.shape.length C B oC oB out.length) k).getD a 0 =
            k.getD ((dotV idx inp.length other.shape.length C B oC oB out.length).getD a 0) 0 := fun k => gather_getD' _ _ _ (by rw [length_dotV]; exact ha)
        rw [hV]
        have hoth := hcut.other h.nodup' h.lenC h.lenB h.nodup hN ha
        by_cases hxD : a ∈ batchAxes oB D
        · obtain ⟨d, hd', rfl⟩ := List.mem_map.1 hxD
          have hdB := hcut.diag d hd'
          have hdo : d < oB.length := h.lenB ▸ hdB
          have := addAt_on (D.map fun d => (oB.getD d 0, d)) (squash To o ++ squash (Ti ++ batchAxes B D) i)
            (gather (dotV idx inp.length other.shape.length C B oC oB out.length) (squash (To ++ D) o ++ squash (Ti ++ batchAxes B D) i))
            (by rw [hm1]; exact hoD) (p := (oB.getD d 0, d)) (List.mem_map.2 ⟨d, hd', rfl⟩) (by simpa [gather, length_dotV] using ha)
          dsimp only at this
          rw [this, hV]
          have e3 := congrArg (fun l => l.getD d 0) (gather_dotV_batch (idx := idx) (n := inp.length) (N := out.length) (C := C) (B := B) h.nodup' h.lt')
          beta_reduce at e3
          rw [gather_getD' _ _ _ hdo, List.getD_eq_getElem (List.range oB.length) _ (by simpa using hdo), List.getElem_range] at e3
          have hdN := hDo d hd'
          rw [e3, List.getD_append _ _ _ _ (by omega), List.getD_append _ _ _ _ (by omega), List.getD_append _ _ _ _ (by rw [length_squash]; omega), getD_squash, getD_squash,
            if_pos (by simp [hd']), if_neg (hDT d hd'), zero_add]
        · rw [addAt_off _ _ _ (by rw [hm1]; exact hxD), hV]
          rcases hoth with ⟨h1, h2⟩ | ⟨h1, h2, h3⟩
          · rw [List.getD_append _ _ _ _ (by omega), List.getD_append _ _ _ _ (by omega), getD_squash, if_neg fun h4 => hxD (h2.1 h4)]
          · rw [List.getD_append_right _ _ _ _ (by omega), List.getD_append_right _ _ _ _ (by omega), getD_squash, length_squash, hol, if_neg h2]
      by_cases hc : Agree (dotP idx inp.length other.shape.length C B oC oB) o i
      · rw [if_pos (hcond.1 hc), ← hval]
        exact if_pos hc
      · rw [if_neg fun h1 => hc (hcond.2 h1)]
        exact if_neg hc

end NT.Rules
