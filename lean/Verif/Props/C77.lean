import Verif.Spec.Jacobian
import Verif.Tac
import Mathlib.Data.List.Sort

/-!
# C77: the intersection of structure declarations

The combination of structure declarations used when several primitives use the same variable declares only structure both sides
have, and is idempotent and commutative on what it promises.
-/

set_option linter.unusedSectionVars false

namespace NT.C77
open NT NT.Spec NT.Structure

/-- A declaration as the rules make them: axes are paired and listed once. -/
structure WF (s : Structure) : Prop where
  trace : s.inTrace.length = s.outTrace.length
  diag : s.inDiagonal.length = s.outDiagonal.length
  inNodup : s.inTrace.Nodup
  outNodup : s.outTrace.Nodup

section select
variable {A B : Type} [BEq B] [LawfulBEq B]

lemma select_zip (l : List B) : ∀ (as : List A) (bs : List B), as.length = bs.length →
    (select l as bs).zip (bs.filter fun b => l.contains b) = (as.zip bs).filter fun p => l.contains p.2
  | [], [], _ => rfl
  | a :: as, b :: bs, h => by
    have ih := select_zip l as bs (by simpa using h)
    by_cases hb : l.contains b = true
    · simp only [select, hb, if_true, List.filter_cons_of_pos, List.zip_cons_cons, ih]
    · simp only [select, hb, List.filter_cons_of_neg, List.zip_cons_cons, ih, Bool.false_eq_true, if_false, not_false_eq_true]

lemma select_length (l : List B) : ∀ (as : List A) (bs : List B), as.length = bs.length →
    (select l as bs).length = (bs.filter fun b => l.contains b).length
  | [], [], _ => rfl
  | a :: as, b :: bs, h => by
    have ih := select_length l as bs (by simpa using h)
    by_cases hb : l.contains b = true
    · simp only [select, hb, if_true, List.filter_cons_of_pos, List.length_cons, ih]
    · simp only [select, hb, List.filter_cons_of_neg, ih, Bool.false_eq_true, if_false, not_false_eq_true]

lemma select_self : ∀ (l : List B) (as : List A) (bs : List B), as.length = bs.length → (∀ b ∈ bs, b ∈ l) → select l as bs = as
  | _, [], [], _, _ => rfl
  | l, a :: as, b :: bs, h, hm => by
    have := hm b (by simp)
    simp only [select, List.contains_iff_mem, this, if_true]
    rw [select_self l as bs (by simpa using h) fun x hx => hm x (by simp [hx])]

lemma select_sublist (l : List B) : ∀ (as : List A) (bs : List B), (select l as bs).Sublist as
  | [], bs => by cases bs <;> simp [select]
  | a :: as, [] => by simp [select]
  | a :: as, b :: bs => by
    by_cases hb : l.contains b = true
    · simp only [select, hb, if_true]
      exact (select_sublist l as bs).cons_cons a
    · simp only [select, hb, Bool.false_eq_true, if_false]
      exact (select_sublist l as bs).cons a

end select

/-- The declarations the rules make can be combined, and the result is again of this form. -/
theorem defined (s t : Structure) (hs : WF s) (ht : WF t) : ∃ m, s.meet t = .ok m ∧ WF m := by
  have h1 : ¬ s.inTrace.length ≠ s.outTrace.length := by simp [hs.trace]
  have h2 : ¬ t.inTrace.length ≠ t.outTrace.length := by simp [ht.trace]
  have h3 : ¬ s.outDiagonal.length < s.inDiagonal.length := by simp [hs.diag]
  refine ⟨_, by rw [meet, if_neg h1, if_neg h2, if_neg h3], ⟨?_, ?_, ?_, ?_⟩⟩
  · exact (select_length _ _ _ hs.trace.symm).symm
  · exact select_length _ _ _ hs.diag
  · exact hs.inNodup.filter _
  · exact hs.outNodup.sublist (select_sublist _ _ _)

lemma meet_eq {s t m : Structure} (h : s.meet t = .ok m) :
    m.outTrace = select t.inTrace s.outTrace s.inTrace ∧ m.inTrace = s.inTrace.filter (fun i => t.inTrace.contains i) ∧
    m.outDiagonal = s.outDiagonal.filter (fun i => t.outDiagonal.contains i) ∧
    m.inDiagonal = select t.outDiagonal s.inDiagonal s.outDiagonal ∧
    m.outBroadcast = s.outBroadcast.filter (fun i => t.outBroadcast.contains i) ∧ m.inTraceIdxs = s.inTraceIdxs ∧
    m.outBroadcastIdxs = s.outBroadcastIdxs ∧ m.inBroadcastIdx = s.inBroadcastIdx ∧
    s.inTrace.length = s.outTrace.length := by
  rw [meet] at h
  split at h
  · simp at h
  · split at h
    · simp at h
    · split at h
      · simp at h
      · rename_i h1 _ _
        obtain rfl := Except.ok.inj h
        exact ⟨rfl, rfl, rfl, rfl, rfl, rfl, rfl, rfl, by simpa using h1⟩

/-- Lists that cannot be paired are refused. -/
theorem unpaired_raises (s t : Structure) (h : s.inTrace.length ≠ s.outTrace.length ∨ t.inTrace.length ≠ t.outTrace.length) :
    s.meet t = .error .assertion := by
  rw [meet]
  split
  · rfl
  · rw [if_pos (h.resolve_left (by assumption))]

/-- What is declared is declared by both: an input axis is traced, an output axis is diagonal or broadcast, exactly if it is in both. -/
theorem declares_common_partial (s t m : Structure) (h : s.meet t = .ok m) :
    (∀ i, i ∈ m.inTrace ↔ i ∈ s.inTrace ∧ i ∈ t.inTrace) ∧
    (∀ o, o ∈ m.outDiagonal ↔ o ∈ s.outDiagonal ∧ o ∈ t.outDiagonal) ∧
    (∀ o, o ∈ m.outBroadcast ↔ o ∈ s.outBroadcast ∧ o ∈ t.outBroadcast) := by
  obtain ⟨-, h1, h2, -, h3, -⟩ := meet_eq h
  refine ⟨fun i => ?_, fun i => ?_, fun i => ?_⟩
  · rw [h1]; simp
  · rw [h2]; simp
  · rw [h3]; simp

/-- Each traced input axis keeps the output axis it had on the left, each diagonal output axis its input axes. -/
theorem pairing (s t m : Structure) (hs : WF s) (h : s.meet t = .ok m) :
    tracePairs m = (tracePairs s).filter (fun p => t.inTrace.contains p.2) ∧
    m.inDiagonal.zip m.outDiagonal = (s.inDiagonal.zip s.outDiagonal).filter (fun p => t.outDiagonal.contains p.2) := by
  obtain ⟨h0, h1, h2, h3, -, -, -, -, -⟩ := meet_eq h
  refine ⟨?_, ?_⟩
  · rw [tracePairs, tracePairs, h0, h1]
    exact select_zip _ _ _ hs.trace.symm
  · rw [h2, h3]
    exact select_zip _ _ _ hs.diag

lemma zip_swap {A B : Type} (as : List A) (bs : List B) : as.zip bs = (bs.zip as).map fun p => (p.2, p.1) := by
  rw [← List.zip_swap]
  rfl

lemma diagPairs_sub (s t m : Structure) (hs : WF s) (h : s.meet t = .ok m) (idx : ℕ) (p : ℕ × ℕ) (hp : p ∈ diagPairs m idx) :
    p ∈ diagPairs s idx := by
  obtain ⟨-, h2⟩ := pairing s t m hs h
  rw [diagPairs, List.mem_filterMap] at hp ⊢
  obtain ⟨⟨o, l⟩, hm, e⟩ := hp
  refine ⟨(o, l), ?_, e⟩
  rw [zip_swap, List.mem_map] at hm ⊢
  obtain ⟨⟨l', o'⟩, hq, e'⟩ := hm
  rw [h2] at hq
  exact ⟨(l', o'), (List.mem_filter.1 hq).1, e'⟩

lemma nodup_pair_fst {A B : Type} {as : List A} {bs : List B} (h : as.Nodup) {a : A} {b b' : B} (h1 : (a, b) ∈ as.zip bs)
    (h2 : (a, b') ∈ as.zip bs) : b = b' := by
  obtain ⟨i, hi, e1⟩ := List.mem_iff_getElem.1 h1
  obtain ⟨j, hj, e2⟩ := List.mem_iff_getElem.1 h2
  simp only [List.getElem_zip, Prod.mk.injEq] at e1 e2
  have : i = j := (List.Nodup.getElem_inj_iff h).1 (e1.1.trans e2.1.symm)
  subst this
  exact e1.2.symm.trans e2.2

lemma nodup_pair_snd {A B : Type} {as : List A} {bs : List B} (h : bs.Nodup) {a a' : A} {b : B} (h1 : (a, b) ∈ as.zip bs)
    (h2 : (a', b) ∈ as.zip bs) : a = a' := by
  obtain ⟨i, hi, e1⟩ := List.mem_iff_getElem.1 h1
  obtain ⟨j, hj, e2⟩ := List.mem_iff_getElem.1 h2
  simp only [List.getElem_zip, Prod.mk.injEq] at e1 e2
  have : i = j := (List.Nodup.getElem_inj_iff h).1 (e1.2.trans e2.2.symm)
  subst this
  exact e1.1.symm.trans e2.1

/-- A Jacobian with the structure on the left has the structure of the combination. -/
theorem sound {α : Type} [Zero α] (s t m : Structure) (hs : WF s) (h : s.meet t = .ok m) (idx : ℕ) (out inp : List ℕ)
    (J : List ℕ → List ℕ → α) (hJ : Has s idx out inp J) : Has m idx out inp J := by
  obtain ⟨h1, -⟩ := pairing s t m hs h
  have sub : ∀ p ∈ tracePairs m, p ∈ tracePairs s := fun p hp => by
    rw [h1] at hp
    exact (List.mem_filter.1 hp).1
  refine ⟨fun o i ho hi hn => hJ.trace_zero o i ho hi fun ha => hn fun p hp => ha p (sub p hp), ?_,
    fun o i ho hi hn => hJ.diag_zero o i ho hi fun ha => hn fun p hp => ha p (diagPairs_sub s t m hs h idx p hp), ?_⟩
  · intro o i o' i' ho hi ho' hi' ha ha' so si
    -- on the pairs that are dropped, the indices are the same
    have off : ∀ p ∈ tracePairs s, p ∉ tracePairs m → o.getD p.1 0 = o'.getD p.1 0 ∧ i.getD p.2 0 = i'.getD p.2 0 := by
      intro p hp hn
      refine ⟨so _ fun hc => ?_, si _ fun hc => ?_⟩
      · obtain ⟨q, hq, e⟩ := List.mem_map.1 hc
        have := nodup_pair_fst hs.outNodup (a := p.1) (b := p.2) (b' := q.2) hp (by rw [← e]; exact sub q hq)
        apply hn
        have : p = q := by ext <;> simp [this, e]
        rw [this]; exact hq
      · obtain ⟨q, hq, e⟩ := List.mem_map.1 hc
        have := nodup_pair_snd hs.inNodup (a := p.1) (a' := q.1) (b := p.2) hp (by rw [← e]; exact sub q hq)
        apply hn
        have : p = q := by ext <;> simp [this, e]
        rw [this]; exact hq
    have iff : Agree (tracePairs s) o i ↔ Agree (tracePairs s) o' i' := by
      refine forall₂_congr fun p hp => ?_
      by_cases hm : p ∈ tracePairs m
      · exact ⟨fun _ => ha' p hm, fun _ => ha p hm⟩
      · obtain ⟨e1, e2⟩ := off p hp hm
        rw [e1, e2]
    have mono : ∀ {f : ℕ × ℕ → ℕ} {u v : List ℕ}, SameOff ((tracePairs m).map f) u v → SameOff ((tracePairs s).map f) u v :=
      fun hh a ha => hh a fun hc => by
        obtain ⟨q, hq, e⟩ := List.mem_map.1 hc
        exact ha (List.mem_map.2 ⟨q, sub q hq, e⟩)
    by_cases hA : Agree (tracePairs s) o i
    · exact hJ.trace_const o i o' i' ho hi ho' hi' hA (iff.1 hA) (mono so) (mono si)
    · rw [hJ.trace_zero o i ho hi hA, hJ.trace_zero o' i' ho' hi' fun hc => hA (iff.2 hc)]
  · intro o o' i ho ho' hi hb
    exact hJ.broadcast o o' i ho ho' hi fun a ha => hb a fun hc =>
      ha (((declares_common_partial s t m h).2.2 a).1 hc).1

/-- The order of the two does not matter for which input axes are traced, which output axes are diagonal and which are broadcast. -/
theorem commutative (s t m n : Structure) (h : s.meet t = .ok m) (h' : t.meet s = .ok n) :
    (∀ i, i ∈ m.inTrace ↔ i ∈ n.inTrace) ∧ (∀ o, o ∈ m.outDiagonal ↔ o ∈ n.outDiagonal) ∧
    (∀ o, o ∈ m.outBroadcast ↔ o ∈ n.outBroadcast) := by
  obtain ⟨a1, a2, a3⟩ := declares_common_partial s t m h
  obtain ⟨b1, b2, b3⟩ := declares_common_partial t s n h'
  refine ⟨fun i => ?_, fun i => ?_, fun i => ?_⟩
  · rw [a1, b1, and_comm]
  · rw [a2, b2, and_comm]
  · rw [a3, b3, and_comm]

/-- Combining a declaration with itself changes nothing but `in_broadcast`. -/
theorem idempotent_partial (s m : Structure) (hs : WF s) (h : s.meet s = .ok m) : m = { s with inBroadcast := s.outBroadcast } := by
  obtain ⟨k, hk, -⟩ := defined s s hs hs
  have h1 : ¬ s.inTrace.length ≠ s.outTrace.length := by simp [hs.trace]
  have h3 : ¬ s.outDiagonal.length < s.inDiagonal.length := by simp [hs.diag]
  rw [meet, if_neg h1, if_neg h1, if_neg h3] at h
  obtain rfl := Except.ok.inj h
  have f : ∀ l : List ℕ, l.filter (fun i => l.contains i) = l := fun l => by
    rw [List.filter_eq_self]; simp
  rw [f, f, f, select_self _ _ _ hs.trace.symm fun b hb => hb, select_self _ _ _ hs.diag fun b hb => hb]

lemma common_trace : ∀ (l : List Structure) (s c : Structure), l.foldlM (fun (acc t : Structure) => acc.meet t) s = .ok c →
    ∀ i, i ∈ c.inTrace ↔ i ∈ s.inTrace ∧ ∀ t ∈ l, i ∈ t.inTrace
  | [], s, c, h, i => by
    obtain rfl : s = c := by simpa [pure, Except.pure] using h
    simp
  | t :: l, s, c, h, i => by
    rw [List.foldlM_cons] at h
    cases e : s.meet t with
    | error e' => simp [e, bind, Except.bind] at h
    | ok m =>
      simp only [e, bind, Except.bind] at h
      rw [common_trace l m c h i, (declares_common_partial s t m e).1 i]
      simp [and_assoc]

/-- Several primitives use a variable; each combines its own declaration with the common one. Then all trace the same input axes, in the same
order, so the output axes that the contraction of the Jacobians pairs belong to the same input axis. -/
theorem uses_agree (l : List Structure) (c s t m n : Structure) (hc : common l = .ok (some c)) (hs : s ∈ l) (ht : t ∈ l)
    (os : s.inTrace.Pairwise (· < ·)) (ot : t.inTrace.Pairwise (· < ·)) (hm : s.meet c = .ok m) (hn : t.meet c = .ok n) :
    m.inTrace = n.inTrace ∧ (∀ i, i ∈ m.inTrace ↔ ∀ u ∈ l, i ∈ u.inTrace) ∧
    ∀ (k : ℕ) (p q : ℕ × ℕ), (tracePairs m)[k]? = some p → (tracePairs n)[k]? = some q → p.2 = q.2 := by
  have cm : ∀ i, i ∈ c.inTrace ↔ ∀ u ∈ l, i ∈ u.inTrace := by
    intro i
    cases l with
    | nil => simp at hs
    | cons u l =>
      rw [common] at hc
      cases e : l.foldlM (fun (acc t : Structure) => acc.meet t) u with
      | error e' => simp [e, Except.map] at hc
      | ok c' =>
        obtain rfl : c' = c := by simpa [e, Except.map] using hc
        rw [common_trace l u c' e i]
        simp
  have mm : ∀ i, i ∈ m.inTrace ↔ ∀ u ∈ l, i ∈ u.inTrace := fun i => by
    rw [(declares_common_partial s c m hm).1 i, cm i]
    exact ⟨fun h => h.2, fun h => ⟨h s hs, h⟩⟩
  have nn : ∀ i, i ∈ n.inTrace ↔ ∀ u ∈ l, i ∈ u.inTrace := fun i => by
    rw [(declares_common_partial t c n hn).1 i, cm i]
    exact ⟨fun h => h.2, fun h => ⟨h t ht, h⟩⟩
  have eq : m.inTrace = n.inTrace := by
    refine List.Pairwise.eq_of_mem_iff (r := (· < ·)) ?_ ?_ fun i => by rw [mm, nn]
    · rw [(meet_eq hm).2.1]; exact os.filter _
    · rw [(meet_eq hn).2.1]; exact ot.filter _
  refine ⟨eq, mm, fun k p q hp hq => ?_⟩
  rw [tracePairs, List.getElem?_zip_eq_some] at hp hq
  have := hp.2.symm.trans ((congrArg (·[k]?) eq).trans hq.2)
  exact Option.some.inj this

/-- `in_broadcast` is not common: the declaration of the addition of an array of shape (1, 3) to one of shape (2, 3) has none
(rules.py:584-593), its combination with itself has the axis 0. -/
theorem in_broadcast_not_common :
    ∃ s m : Structure, WF s ∧ s.meet s = .ok m ∧ s.inBroadcast = [] ∧ m.inBroadcast = [0] := by
  refine ⟨{ outTrace := [1], inTrace := [1], inTraceIdxs := [0, 1], outBroadcast := [0], outBroadcastIdxs := [1] }, _, ?_, rfl, rfl, rfl⟩
  exact ⟨rfl, rfl, by simp, by simp⟩

/-- Diagonal axes are matched by the output axis only. Two batched products with a variable, one batched over its axis 0 and one over its axis
1 (rules.py:309-315), both have the diagonal output axis 0; the combined declarations of the two keep it although they are
diagonal in different axes of the variable, which the contraction then identifies. -/
theorem diagonal_not_common : ∃ s t m n : Structure, WF s ∧ WF t ∧ s.meet t = .ok m ∧ t.meet s = .ok n ∧
    diagPairs m 0 = [(0, 0)] ∧ diagPairs n 0 = [(0, 1)] := by
  refine ⟨{ inTraceIdxs := [0], inDiagonal := [[some 0, some 0]], outDiagonal := [0] },
    { inTraceIdxs := [0], inDiagonal := [[some 1, some 0]], outDiagonal := [0] }, _, _, ?_, ?_, rfl, rfl, by decide, by decide⟩ <;>
  exact ⟨rfl, rfl, by simp, by simp⟩

/-! ### Concrete cases -/

/-- The declarations of a matrix product and of a transposition, both of a variable of rank 2. -/
def matmul : Structure := { outTrace := [0], inTrace := [0], inTraceIdxs := [0] }
def transp : Structure := { outTrace := [1, 0], inTrace := [0, 1], inTraceIdxs := [0] }

example : WF matmul ∧ WF transp ∧ ∃ m, transp.meet matmul = .ok m ∧ tracePairs m = [(1, 0)] :=
  ⟨⟨rfl, rfl, by decide, by decide⟩, ⟨rfl, rfl, by decide, by decide⟩, _, rfl, rfl⟩

example : Has transp 0 [2, 3] [3, 2] (fun o i => if o = i.reverse then (1 : ℤ) else 0) := by
  have len : ∀ {o : List ℕ} {a b : ℕ}, InRange o [a, b] → ∃ x y, o = [x, y] := by
    intro o a b h
    match o, h with
    | [x, y], _ => exact ⟨x, y, rfl⟩
  refine ⟨?_, ?_, ?_, ?_⟩
  · intro o i ho hi hn
    obtain ⟨x, y, rfl⟩ := len ho
    obtain ⟨u, v, rfl⟩ := len hi
    rw [if_neg]
    intro e
    apply hn
    simp only [List.reverse_cons, List.reverse_nil, List.nil_append, List.cons_append, List.cons.injEq, and_true] at e
    simp [Agree, tracePairs, transp, e]
  · intro o i o' i' ho hi ho' hi' h1 h2 _ _
    obtain ⟨x, y, rfl⟩ := len ho
    obtain ⟨u, v, rfl⟩ := len hi
    obtain ⟨x', y', rfl⟩ := len ho'
    obtain ⟨u', v', rfl⟩ := len hi'
    simp only [Agree, tracePairs, transp, List.zip_cons_cons, List.zip_nil_right, List.forall_mem_cons, List.getD_cons_zero,
      List.getD_cons_succ, List.not_mem_nil, false_imp_iff, implies_true, and_true] at h1 h2
    simp [h1, h2]
  · intro o i _ _ hn
    exact absurd (fun p hp => by simp [diagPairs, transp] at hp) hn
  · intro o o' i ho ho' hi hb
    obtain ⟨x, y, rfl⟩ := len ho
    obtain ⟨x', y', rfl⟩ := len ho'
    have h0 := hb 0 (by simp [transp])
    have h1 := hb 1 (by simp [transp])
    simp only [List.getD_cons_zero, List.getD_cons_succ] at h0 h1
    rw [h0, h1]

example : ∃ c m n, common [transp, matmul] = .ok (some c) ∧ transp.meet c = .ok m ∧ matmul.meet c = .ok n ∧
    m.inTrace = [0] ∧ m.outTrace = [1] ∧ n.outTrace = [0] :=
  ⟨_, _, _, rfl, rfl, rfl, rfl, rfl, rfl⟩

end NT.C77
