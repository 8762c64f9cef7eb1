import Verif.Lemmas.Rules7

/-!
# Rules of multiplication and division: the compact form
-/

namespace NT.Rules
open NT Arr Spec
variable {α : Type} [Field α]

/-- The axes at which the other operand has size one. -/
def unit (inp other : List ℕ) : List ℕ := (List.range inp.length).filter fun x => other.getD x 0 = 1

/-- The axes at which both operands have the size of the output. -/
def both (inp other : List ℕ) : List ℕ := (List.range inp.length).filter fun x => other.getD x 0 ≠ 1 ∧ other.getD x 0 = inp.getD x 0

lemma mem_unit {inp other : List ℕ} {x : ℕ} : x ∈ unit inp other ↔ x < inp.length ∧ other.getD x 0 = 1 := by simp [unit]

lemma mem_both {inp other : List ℕ} {x : ℕ} : x ∈ both inp other ↔ x < inp.length ∧ other.getD x 0 ≠ 1 ∧ other.getD x 0 = inp.getD x 0 := by simp [both]

lemma mulLoop_ok : ∀ (i : ℕ) (inp other : List ℕ), Compat inp other →
    mulLoop i inp other = .ok ((unit inp other).map (· + i), (both inp other).map (· + i))
  | i, [], other, _ => by unfold mulLoop; rfl
  | i, m :: inp, [], h => by have := h.1; simp at this
  | i, m :: inp, n :: other, h => by
    have h0 := h.2 0 (by simp)
    simp only [List.getD_cons_zero] at h0
    have ih := mulLoop_ok (i + 1) inp other ⟨by simpa using h.1, fun x hx => by
      have := h.2 (x + 1) (by simpa using hx)
      simpa using this⟩
    unfold mulLoop
    rw [ih]
    simp only [bind, Except.bind]
    unfold unit both
    rw [List.length_cons, filter_cons_range, filter_cons_range]
    simp only [List.getD_cons_zero, List.getD_cons_succ]
    by_cases h1 : n = 1
    · rw [if_pos h1]
      simp [h1]
    · rw [if_neg h1]
      by_cases h2 : n = m
      · rw [if_pos h2]
        have : ¬ m = 1 := h2 ▸ h1
        simp [h2, this]
      · rw [if_neg h2, if_pos (by omega)]
        simp [h1, h2]

lemma trim_trim (as bs S : List ℕ) : trim bs (trim as S) = trim (as ++ bs) S := by
  refine ext_getD (by simp [length_trim]) fun x hx => ?_
  have hx : x < S.length := by simpa [length_trim] using hx
  rw [getD_trim _ _ _ (by rw [length_trim]; exact hx), getD_trim _ _ _ hx, getD_trim _ _ _ hx]
  by_cases h1 : x ∈ as <;> by_cases h2 : x ∈ bs <;> simp [h1, h2]

lemma squash_squash (as bs k : List ℕ) : squash bs (squash as k) = squash (as ++ bs) k := by
  refine ext_getD (by simp [length_squash]) fun x hx => ?_
  rw [getD_squash, getD_squash, getD_squash]
  by_cases h1 : x ∈ as <;> by_cases h2 : x ∈ bs <;> simp [h1, h2]

lemma trim_append {as S T : List ℕ} (h : ∀ a ∈ as, a < S.length) : trim as (S ++ T) = trim as S ++ T := by
  refine ext_getD (by simp [length_trim]) fun x hx => ?_
  have hx : x < (S ++ T).length := by simpa [length_trim] using hx
  rw [getD_trim _ _ _ hx]
  by_cases h1 : x < S.length
  · rw [List.getD_append _ _ _ _ h1, List.getD_append _ _ _ _ (by rw [length_trim]; exact h1), getD_trim _ _ _ h1]
  · rw [List.getD_append_right _ _ _ _ (by omega), List.getD_append_right _ _ _ _ (by rw [length_trim]; omega), length_trim, if_neg fun h2 => h1 (h x h2)]

lemma squash_append {as o i : List ℕ} (h : ∀ a ∈ as, a < o.length) : squash as (o ++ i) = squash as o ++ i := by
  refine ext_getD (by simp [length_squash]) fun x hx => ?_
  rw [getD_squash]
  by_cases h1 : x < o.length
  · rw [List.getD_append _ _ _ _ h1, List.getD_append _ _ _ _ (by rw [length_squash]; exact h1), getD_squash]
  · rw [List.getD_append_right _ _ _ _ (by omega), List.getD_append_right _ _ _ _ (by rw [length_squash]; omega), length_squash, if_neg fun h2 => h1 (h x h2)]

/-- `mul` or `div` as a function of the operand number `idx`. -/
def mulOp (isDiv : Bool) (idx : ℕ) (other w : Arr α) : Except Err (Arr α) :=
  if idx = 0 then binLax (if isDiv then (· / ·) else (· * ·)) w other else binLax (if isDiv then (· / ·) else (· * ·)) other w

lemma mulOp_ok {isDiv : Bool} {idx : ℕ} (hidx : idx < 2) (hd : ¬ (isDiv ∧ idx ≠ 0)) (other w : Arr α) (h : Operands w.shape other.shape) :
    ∃ y, mulOp isDiv idx other w = .ok y ∧ y.shape = bshape w.shape other.shape ∧ ∀ o, InRange o (bshape w.shape other.shape) →
      y.get o = factor isDiv (other.get (bcastIdx other.shape o)) * w.get (bcastIdx w.shape o) := by
  have h' : Operands other.shape w.shape := by
    rcases h with h | h | h
    · exact Or.inr (Or.inl h)
    · exact Or.inl h
    · exact Or.inr (Or.inr (compat_symm h))
  unfold mulOp
  obtain rfl | rfl : idx = 0 ∨ idx = 1 := by omega
  · obtain ⟨y, e1, e2, e3⟩ := binLax_ok (if isDiv then (· / ·) else (· * ·) : α → α → α) w other h
    refine ⟨y, by simpa using e1, e2, fun o ho => ?_⟩
    rw [e3 o ho]
    cases isDiv
    · simp [factor, mul_comm]
    · simp [factor, div_eq_mul_inv, mul_comm]
  · obtain rfl : isDiv = false := by
      cases isDiv
      · rfl
      · simp at hd
    obtain ⟨y, e1, e2, e3⟩ := binLax_ok ((· * ·) : α → α → α) other w h'
    refine ⟨y, by simpa using e1, e2.trans (bshape_comm h), fun o ho => ?_⟩
    rw [e3 o (by rw [bshape_comm h]; exact ho)]
    simp [factor]

/-- What the entries of a list of traced and diagonal axes of an elementwise operation are. -/
structure MulAxes (inp other T D : List ℕ) : Prop where
  traceLt : ∀ x ∈ T, x < inp.length
  traceOne : ∀ x ∈ T, x < other.length → other.getD x 0 = 1
  diagLt : ∀ x ∈ D, x < inp.length ∧ x < other.length
  diagEq : ∀ x ∈ D, other.getD x 0 = inp.getD x 0
  diagOne : ∀ x ∈ D, other.getD x 0 ≠ 1

lemma MulAxes.disj {inp other T D : List ℕ} (h : MulAxes inp other T D) {x : ℕ} (hx : x ∈ D) : x ∉ T :=
  fun ht => h.diagOne x hx (h.traceOne x ht (h.diagLt x hx).2)

lemma bshape_nil_right {a : List ℕ} : bshape a [] = a := by
  unfold bshape
  split
  · rename_i h
    exact h.symm
  · rfl

lemma MulAxes.size {inp other T D : List ℕ} (h : MulAxes inp other T D) (ho : Operands inp other) {x : ℕ} (hx : x ∈ T ∨ x ∈ D) :
    x < (bshape inp other).length ∧ (bshape inp other).getD x 0 = inp.getD x 0 := by
  have hlt : x < inp.length := hx.elim (h.traceLt x) fun h2 => (h.diagLt x h2).1
  rcases ho with rfl | rfl | hc
  · simp at hlt
  · rw [bshape_nil_right]
    exact ⟨hlt, rfl⟩
  · have hc1 := hc.1
    refine ⟨by rw [bshape_length hc]; exact hlt, ?_⟩
    rw [bshape_getD hc hlt]
    split
    · rename_i h1
      rcases hx with hx | hx
      · rw [h.traceOne x hx (by omega), h1]
      · exact h.diagEq x hx
    · rfl

lemma MulAxes.trimmed {inp other T D : List ℕ} (h : MulAxes inp other T D) (ho : Operands inp other) :
    Operands (trim (T ++ D) inp) (trim D other) ∧ bshape (trim (T ++ D) inp) (trim D other) = trim (T ++ D) (bshape inp other) := by
  rcases ho with rfl | rfl | hc
  · have hT : T = [] := List.eq_nil_iff_forall_not_mem.2 fun x hx => by simpa using h.traceLt x hx
    have hD : D = [] := List.eq_nil_iff_forall_not_mem.2 fun x hx => by simpa using (h.diagLt x hx).1
    subst hT
    subst hD
    have e1 : ∀ S, trim [] S = S := fun S => by
      refine ext_getD (length_trim _ _) fun x hx => ?_
      rw [length_trim] at hx
      rw [getD_trim _ _ _ hx]
      simp
    simp only [List.append_nil, e1]
    exact ⟨Or.inl rfl, trivial⟩
  · have e1 : trim D [] = [] := rfl
    rw [e1, bshape_nil_right, bshape_nil_right]
    exact ⟨Or.inr (Or.inl rfl), rfl⟩
  · have hc1 := hc.1
    have hg1 : ∀ x < inp.length, (trim (T ++ D) inp).getD x 0 = if x ∈ T ++ D then 1 else inp.getD x 0 := fun x hx => getD_trim _ _ _ hx
    have hg2 : ∀ x < inp.length, (trim D other).getD x 0 = if x ∈ D then 1 else other.getD x 0 := fun x hx => getD_trim _ _ _ (by omega)
    have hT : ∀ x < inp.length, x ∈ T → other.getD x 0 = 1 := fun x hx ht => h.traceOne x ht (by omega)
    have hc' : Compat (trim (T ++ D) inp) (trim D other) := by
      refine ⟨by simp only [length_trim]; exact hc1, fun x hx => ?_⟩
      rw [length_trim] at hx
      rw [hg1 x hx, hg2 x hx]
      by_cases hD : x ∈ D
      · simp [hD]
      · by_cases hT' : x ∈ T
        · simp [hD, hT']
        · simp only [List.mem_append, hD, hT', or_self, if_false]
          exact hc.2 x hx
    refine ⟨Or.inr (Or.inr hc'), ?_⟩
    refine ext_getD (by rw [bshape_length hc', length_trim, length_trim, bshape_length hc]) fun x hx => ?_
    rw [bshape_length hc', length_trim] at hx
    rw [bshape_getD hc' (by rw [length_trim]; exact hx), hg1 x hx, hg2 x hx, getD_trim _ _ _ (by rw [bshape_length hc]; exact hx), bshape_getD hc hx]
    by_cases hD : x ∈ D
    · simp [hD]
    · by_cases hT' : x ∈ T
      · simp only [List.mem_append, hD, hT', true_or, if_true, if_false, hT x hx hT']
      · simp only [List.mem_append, hD, hT', or_self, if_false]

omit [Field α] in
lemma zip_self_eq : ∀ {as bs : List ℕ}, as.length = bs.length → (∀ p ∈ as.zip bs, p.1 = p.2) → bs = as
  | [], [], _, _ => rfl
  | [], _ :: _, h, _ => by simp at h
  | _ :: _, [], h, _ => by simp at h
  | a :: as, b :: bs, h, h2 => by
    rw [zip_self_eq (as := as) (bs := bs) (by simpa using h) fun p hp => h2 p (by simp [hp])]
    have : a = b := h2 (a, b) (by simp)
    rw [this]

lemma mul_diag : ∀ {as : List ℕ} {bs : List (List (Option ℕ))}, as.length = bs.length → (∀ p ∈ as.zip bs, p.2 = [some p.1, some p.1]) →
    bs = as.map fun i => [some i, some i]
  | [], [], _, _ => rfl
  | [], _ :: _, h, _ => by simp at h
  | _ :: _, [], h, _ => by simp at h
  | a :: as, b :: bs, h, h2 => by
    have := h2 (a, b) (by simp)
    dsimp only at this
    rw [mul_diag (as := as) (bs := bs) (by simpa using h) fun p hp => h2 p (by simp [hp]), this]
    rfl

omit [Field α] in
lemma zip_map_self (f : ℕ → List (Option ℕ)) (D : List ℕ) : D.zip (D.map f) = D.map fun i => (i, f i) := by
  induction D with
  | nil => rfl
  | cons a D ih => simp [ih]

omit [Field α] in
lemma zip_map_self' (f : ℕ → List (Option ℕ)) (D : List ℕ) : (D.map f).zip D = D.map fun i => (f i, i) := by
  induction D with
  | nil => rfl
  | cons a D ih => simp [ih]

lemma rules_mul_axes {isDiv : Bool} {idx : ℕ} (hidx : idx < 2) (hd : ¬ (isDiv ∧ idx ≠ 0)) {inp : List ℕ} (other : Arr α) (h : Operands inp other.shape)
    {T D : List ℕ} (hD : D.Nodup) (hax : MulAxes inp other.shape T D) :
    RulesOk (mulOp isDiv idx other) (mulJ isDiv idx) { outTrace := T, inTrace := T, inTraceIdxs := [idx], outDiagonal := D, inDiagonal := D.map fun i => [some i, some i] }
      idx (operandShapes idx inp other.shape) inp other (bshape inp other.shape) (mulJac isDiv inp other) := by
  have hlen : ∀ o, InRange o (bshape inp other.shape) → InRange (bcastIdx inp o) inp ∧
      ∀ i, InRange i inp → ((∀ x < inp.length, inp.getD x 0 = 1 ∨ o.getD x 0 = i.getD x 0) ↔ i = bcastIdx inp o) := by
    intro o ho
    have hr : InRange (bcastIdx inp o) inp ∧ (inp.length ≤ o.length) := by
      have hol := ho.length
      rcases h with h | h | h
      · subst h
        simp [bcastIdx_nil]
      · rw [h, bshape_nil_right] at ho hol
        rw [bcastIdx_self ho]
        exact ⟨ho, by omega⟩
      · rw [bshape_length h] at hol
        exact ⟨(bcastIdx_operand h ho).1, by omega⟩
    refine ⟨hr.1, fun i hi => ?_⟩
    have hil := hi.length
    have hbl := hr.1.length
    constructor
    · intro h2
      refine ext_getD (by omega) fun x hx => ?_
      have h3 := h2 x (by omega)
      have h4 := (inRange_iff.1 hi).2 x (by omega)
      rw [getD_bcastIdx _ _ _ (by omega) (by omega)]
      split <;> omega
    · rintro rfl x hx
      rw [getD_bcastIdx _ _ _ hx (by omega)]
      by_cases h1 : inp.getD x 0 = 1
      · exact Or.inl h1
      · rw [if_neg h1]
        exact Or.inr rfl
  refine ⟨?_, ?_, ?_, ?_⟩
  · unfold checked
    dsimp only
    rw [operandShapes_getD hidx]
    rw [if_neg (by simp), if_neg, if_neg, if_neg (by simp), if_pos]
    · intro p hp
      rw [zip_map_self] at hp
      obtain ⟨d, hd', rfl⟩ := List.mem_map.1 hp
      have hs := hax.size h (Or.inr hd')
      have he := hax.diagEq d hd'
      refine ⟨by unfold operandShapes; split <;> rfl, ?_, fun ix hix i hi => ?_⟩
      · obtain rfl | rfl : idx = 0 ∨ idx = 1 := by omega
        · simp
        · simp
      · have hix : ix < 2 := by unfold operandShapes at hix; split at hix <;> simpa using hix
        obtain rfl | rfl : ix = 0 ∨ ix = 1 := by omega
        · simp only [List.getD_cons_zero, Option.some.injEq] at hi
          subst hi
          unfold operandShapes
          dsimp only
          split
          · exact hs.2.symm
          · exact he.trans hs.2.symm
        · simp only [List.getD_cons_zero, List.getD_cons_succ, Option.some.injEq] at hi
          subst hi
          unfold operandShapes
          dsimp only
          split
          · exact he.trans hs.2.symm
          · exact hs.2.symm
    · rw [not_not, gather_eq_iff.2 fun x hx => ((hax.size h (Or.inl hx)).2).symm]
    · rintro (⟨a, ha, h2⟩ | ⟨a, ha, h2⟩)
      · have := (hax.size h (Or.inl ha)).1
        omega
      · have := hax.traceLt a ha
        omega
  · refine isJacobian_of_read (fun _ => 0) fun w hw => ?_
    subst hw
    obtain ⟨y, h1, h2, h3⟩ := mulOp_ok hidx hd other w h
    refine ⟨y, h1, h2, fun o ho => Or.inl ⟨bcastIdx w.shape o, (hlen o ho).1, fun i hi hne => ?_, ?_⟩⟩
    · rw [mulJac, if_neg fun h4 => hne (((hlen o ho).2 i hi).1 h4)]
    · rw [h3 o ho, mulJac, if_pos (((hlen o ho).2 _ (hlen o ho).1).2 rfl), zero_add]
  · exact mulJ_ok hd other h
  · intro s' hs
    have hI : s'.inTrace = s'.outTrace := zip_self_eq hs.traceLen fun p hp => by
      have := hs.trace p hp
      unfold tracePairs at this
      obtain ⟨k, hk, rfl⟩ := List.mem_iff_getElem.1 this
      simp
    have hdz : ∀ p ∈ s'.outDiagonal.zip s'.inDiagonal, p.1 ∈ D ∧ p.2 = [some p.1, some p.1] := fun p hp => by
      have := hs.diag.subset hp
      rw [zip_map_self] at this
      obtain ⟨d, hd', rfl⟩ := List.mem_map.1 this
      exact ⟨hd', rfl⟩
    have hID : s'.inDiagonal = s'.outDiagonal.map fun i => [some i, some i] := mul_diag hs.diagLen fun p hp => (hdz p hp).2
    have hB : s'.outBroadcast = [] := List.eq_nil_iff_forall_not_mem.2 fun x hx => by simpa using hs.broadcast x hx
    have hDs : s'.outDiagonal.Sublist D := by
      have := hs.diag.map Prod.fst
      rw [List.map_fst_zip hs.diagLen.le, List.map_fst_zip (by simp)] at this
      exact this
    have hTs : ∀ x ∈ s'.outTrace, x ∈ T := fun x hx => by
      have := hs.trace (x, x) (by unfold tracePairs; rw [hI]; exact mem_zip_self hx)
      exact (List.of_mem_zip this).1
    have hax' : MulAxes inp other.shape s'.outTrace s'.outDiagonal :=
      ⟨fun x hx => hax.traceLt x (hTs x hx), fun x hx => hax.traceOne x (hTs x hx), fun x hx => hax.diagLt x (hDs.subset hx),
        fun x hx => hax.diagEq x (hDs.subset hx), fun x hx => hax.diagOne x (hDs.subset hx)⟩
    have hDn : s'.outDiagonal.Nodup := hDs.nodup hD
    set T' := s'.outTrace with hT'
    set D' := s'.outDiagonal with hD'
    have ediag : diagPairs s' idx = D'.map fun d => (d, d) := by
      unfold diagPairs
      rw [hID, ← hD', zip_map_self, List.filterMap_map]
      rw [List.filterMap_eq_map_iff_forall_eq_some.2]
      intro d _
      obtain rfl | rfl : idx = 0 ∨ idx = 1 := by omega
      · rfl
      · rfl
    have eins : diagIns s' idx = D' := by
      unfold diagIns
      rw [ediag, List.map_map]
      exact List.map_id _
    have e1 : trimIn s' idx inp = trim (T' ++ D') inp := by
      rw [trimIn_eq hs D', hI]
      intro x
      unfold diagAxes
      rw [hID, List.filterMap_map]
      obtain rfl | rfl : idx = 0 ∨ idx = 1 := by omega
      · simp
      · simp
    set out := bshape inp other.shape with hout
    have e2 : trimOut s' out = trim (T' ++ D') out := by
      unfold trimOut
      rw [hB, List.append_nil]
    have htr := hax'.trimmed h
    have hDo : ∀ d ∈ D', d < out.length := fun d hd' => (hax'.size h (Or.inr hd')).1
    have hGives : Gives (fun x : Arr α => mulJ isDiv idx (trimIn s' idx inp) x (trimOut s' out)) (trim D' other.shape) (trim (T' ++ D') out ++ trim (T' ++ D') inp)
        fun (x : Arr α) k => mulJac isDiv (trim (T' ++ D') inp) x (k.take out.length) (k.drop out.length) := by
      intro x hx
      rw [e1, e2, ← htr.2, ← hx]
      rw [← hx] at htr
      obtain ⟨j, j1, j2, j3⟩ := mulJ_ok hd x htr.1
      refine ⟨j, j1, j2, fun k hk => ?_⟩
      have hl : (bshape (trim (T' ++ D') inp) x.shape).length = out.length := by rw [htr.2, length_trim]
      have hk1 := hk.length
      rw [List.length_append] at hk1
      have hkt : k.take out.length ++ k.drop out.length = k := List.take_append_drop _ _
      rw [← hkt] at hk
      obtain ⟨hk2, hk3⟩ := (inRange_append (by rw [List.length_take]; omega)).1 hk
      have := j3 _ _ hk2 hk3
      rwa [hkt] at this
    have hm2 : (D'.map fun d => (d, d)).map (·.2) = D' := by rw [List.map_map]; exact List.map_id _
    have hm1 : (D'.map fun d => (d, d)).map (·.1) = D' := by rw [List.map_map]; exact List.map_id _
    obtain ⟨j, j1, j2, j3⟩ := compact_gives (rule := mulJ (α := α) isDiv idx) (s := s') (idx := idx) (inp := inp) (other := other) (out := out)
      (Y := trim T' out ++ trim (T' ++ D') inp) (D'.map fun d => (d, d)) (by
        rw [hID, ← hD', List.map_map]
        rw [zip_map_self', List.map_map]
        refine List.map_congr_left fun d _ => ?_
        obtain rfl | rfl : idx = 0 ∨ idx = 1 := by omega
        · rfl
        · rfl) (by rw [hm1]; exact hDn) (by rw [hm2]; exact hDn) (by
        intro p hp
        obtain ⟨d, hd', rfl⟩ := List.mem_map.1 hp
        have hs := hax'.size h (Or.inr hd')
        show (trim T' out ++ _).getD d 0 = other.shape.getD d 0
        rw [List.getD_append _ _ _ _ (by rw [length_trim]; exact hs.1), getD_trim _ _ _ hs.1, if_neg (hax'.disj hd'), hs.2, hax'.diagEq d hd'])
      (G := fun (x : Arr α) k => mulJac isDiv (trim (T' ++ D') inp) x (k.take out.length) (k.drop out.length)) (by
        rw [hm1, hm2, trim_append (by rw [length_trim]; exact hDo), trim_trim]
        exact hGives)
    rw [hm2] at j3
    refine ⟨j, j1, ?_, ?_, ?_⟩
    · rw [j2, hB, eins, hI, List.append_nil]
    · intro o i ho hi hne
      rw [mulJac, if_neg]
      intro hall
      have key : ∀ x, x < inp.length → (x ∈ T' ∨ x ∈ D') → o.getD x 0 = i.getD x 0 := by
        intro x hx hx'
        rcases hall x hx with h1 | h1
        · have h2 := (inRange_iff.1 hi).2 x hx
          have h3 := hax'.size h hx'
          rw [← hout] at h3
          have h4 := (inRange_iff.1 ho).2 x h3.1
          omega
        · exact h1
      refine hne ⟨fun p hp => ?_, fun p hp => ?_⟩
      · unfold tracePairs at hp
        rw [hI] at hp
        have h1 := (List.of_mem_zip hp).1
        have h2 : p.1 = p.2 := by
          obtain ⟨k, hk, rfl⟩ := List.mem_iff_getElem.1 hp
          rw [List.getElem_zip]
        rw [← h2]
        exact key p.1 (hax'.traceLt _ h1) (Or.inl h1)
      · rw [ediag] at hp
        obtain ⟨d, hd', rfl⟩ := List.mem_map.1 hp
        exact key d (hax'.diagLt d hd').1 (Or.inr hd')
    · intro o i ho hi ha1 ha2
      have hol := ho.length
      have hil := hi.length
      have hag : ∀ x, x ∈ T' ∨ x ∈ D' → o.getD x 0 = i.getD x 0 := by
        rintro x (hx | hx)
        · exact ha1 (x, x) (by unfold tracePairs; rw [hI]; exact mem_zip_self hx)
        · exact ha2 (x, x) (by rw [ediag]; exact List.mem_map.2 ⟨x, hx, rfl⟩)
      rw [hB, eins, hI, List.append_nil, j3 _ ((inRange_append (by rw [length_squash, length_trim]; exact hol)).2 ⟨inRange_squash ho, inRange_squash hi⟩)]
      rw [squash_append (by rw [length_squash, hol]; exact hDo), squash_squash]
      have hl : out.length = (squash (T' ++ D') o).length := by rw [length_squash, hol]
      rw [hl, List.take_left, List.drop_left]
      unfold mulJac
      have hcond : (∀ x < inp.length, inp.getD x 0 = 1 ∨ o.getD x 0 = i.getD x 0) ↔
          ∀ x < (trim (T' ++ D') inp).length, (trim (T' ++ D') inp).getD x 0 = 1 ∨ (squash (T' ++ D') o).getD x 0 = (squash (T' ++ D') i).getD x 0 := by
        rw [length_trim]
        refine forall_congr' fun x => forall_congr' fun hx => ?_
        rw [getD_trim _ _ _ hx, getD_squash, getD_squash]
        by_cases hx' : x ∈ T' ++ D'
        · simp only [hx', if_true, true_or, iff_true]
          exact Or.inr (hag x (List.mem_append.1 hx'))
        · simp only [hx', if_false]
      have hval : other.get (bcastIdx other.shape o) = (slices (D'.map fun d => (d, d)) (squash T' o ++ squash (T' ++ D') i) other).get
          (bcastIdx (slices (D'.map fun d => (d, d)) (squash T' o ++ squash (T' ++ D') i) other).shape (squash (T' ++ D') o)) := by
        show _ = other.get (addAt _ _ (bcastIdx (trim ((D'.map fun d => (d, d)).map (·.1)) other.shape) (squash (T' ++ D') o)))
        rw [hm1]
        congr 1
        have hle : other.shape.length ≤ o.length := by
          rw [hol, hout]
          rcases h with h | h | h
          · rw [h]; simp [bshape]
          · rw [h]; simp
          · rw [bshape_length h, h.1]
        refine ext_getD (by rw [addAt_length]; simp [bcastIdx, length_trim, length_squash]) fun x hx => ?_
        have hx : x < other.shape.length := by simp [bcastIdx] at hx; omega
        rw [getD_bcastIdx _ _ _ hx (by omega)]
        have hq : ∀ y, y < other.shape.length → (bcastIdx (trim D' other.shape) (squash (T' ++ D') o)).getD y 0 =
            if (if y ∈ D' then 1 else other.shape.getD y 0) = 1 then 0 else if y ∈ T' ++ D' then 0 else o.getD y 0 := by
          intro y hy
          rw [getD_bcastIdx _ _ _ (by rw [length_trim]; exact hy) (by rw [length_squash]; omega), getD_trim _ _ _ hy, getD_squash]
        by_cases hxD : x ∈ D'
        · have := addAt_on (D'.map fun d => (d, d)) (squash T' o ++ squash (T' ++ D') i) (bcastIdx (trim D' other.shape) (squash (T' ++ D') o))
            (by rw [hm1]; exact hDn) (p := (x, x)) (List.mem_map.2 ⟨x, hxD, rfl⟩) (by simp [bcastIdx, length_trim, length_squash]; omega)
          dsimp only at this
          rw [this, hq x hx, if_pos hxD, if_pos rfl, zero_add, if_neg (hax'.diagOne x hxD), List.getD_append _ _ _ _ (by rw [length_squash]; omega), getD_squash,
            if_neg (hax'.disj hxD)]
        · rw [addAt_off _ _ _ (by rw [hm1]; exact hxD), hq x hx, if_neg hxD]
          split
          · rfl
          · rename_i h1
            rw [if_neg]
            rw [List.mem_append]
            rintro (h2 | h2)
            · exact h1 (hax'.traceOne x h2 hx)
            · exact hxD h2
      by_cases hc : ∀ x < inp.length, inp.getD x 0 = 1 ∨ o.getD x 0 = i.getD x 0
      · rw [if_pos hc, if_pos (hcond.1 hc), hval]
      · rw [if_neg hc, if_neg fun h1 => hc (hcond.2 h1)]

/-- The rules of `mul`, and of `div` with respect to the numerator. -/
lemma rules_mul {isDiv : Bool} {idx : ℕ} (hidx : idx < 2) (hd : ¬ (isDiv ∧ idx ≠ 0)) {inp : List ℕ} (other : Arr α) (h : Operands inp other.shape) :
    ∃ s, mulS idx inp other.shape = .ok s ∧ RulesOk (mulOp isDiv idx other) (mulJ isDiv idx) s idx (operandShapes idx inp other.shape) inp other
      (bshape inp other.shape) (mulJac isDiv inp other) := by
  by_cases h0 : other.shape.length = 0
  · refine ⟨_, ?_, rules_mul_axes hidx hd other h (T := List.range inp.length) (D := []) List.nodup_nil ?_⟩
    · unfold mulS
      rw [if_pos h0]
      rfl
    · refine ⟨by simp, fun x _ hx => ?_, by simp, by simp, by simp⟩
      omega
  · by_cases hi : inp = []
    · subst hi
      refine ⟨_, ?_, rules_mul_axes hidx hd other h (T := []) (D := []) List.nodup_nil ⟨by simp, by simp, by simp, by simp, by simp⟩⟩
      unfold mulS
      rw [if_neg h0]
      rfl
    · have hc : Compat inp other.shape := by
        rcases h with h | h | h
        · exact absurd h hi
        · exact absurd (by rw [h]; rfl) h0
        · exact h
      have hc1 := hc.1
      refine ⟨_, ?_, rules_mul_axes hidx hd other h (T := unit inp other.shape) (D := both inp other.shape) (List.nodup_range.filter _) ?_⟩
      · unfold mulS
        rw [if_neg h0, mulLoop_ok 0 _ _ hc]
        simp [bind, Except.bind]
      · refine ⟨fun x hx => (mem_unit.1 hx).1, fun x hx _ => (mem_unit.1 hx).2, fun x hx => ?_, fun x hx => (mem_both.1 hx).2.2, fun x hx => (mem_both.1 hx).2.1⟩
        have := (mem_both.1 hx).1
        exact ⟨this, by omega⟩

end NT.Rules
