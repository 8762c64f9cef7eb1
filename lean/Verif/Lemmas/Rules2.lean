import Verif.Lemmas.Rules
import Verif.Lemmas.MoveAxis

/-!
# The rules of primitives that move, drop and repeat entries
-/

namespace NT.Rules
open NT Arr Spec
variable {α : Type} [Field α]

lemma gather_inj_iff {L R o i : List ℕ} (h : L.length = R.length) : gather L o = gather R i ↔ Agree (L.zip R) o i := by
  induction L generalizing R with
  | nil => cases R <;> simp_all [gather, Agree]
  | cons a L ih =>
    cases R with
    | nil => simp at h
    | cons b R =>
      have := ih (R := R) (by simpa using h)
      simp only [gather, List.map_cons, List.cons.injEq] at this ⊢
      simp only [Agree, List.zip_cons_cons, List.forall_mem_cons] at this ⊢
      rw [this]

lemma oneToOne_zip {L R : List ℕ} (hL : L.Nodup) (hR : R.Nodup) : OneToOne (L.zip R) := by
  constructor
  · intro p hp q hq h
    obtain ⟨i, hi, rfl⟩ := List.mem_iff_getElem.1 hp
    obtain ⟨j, hj, rfl⟩ := List.mem_iff_getElem.1 hq
    simp only [List.getElem_zip] at h ⊢
    have := (List.Nodup.getElem_inj_iff hL).1 h
    subst this
    rfl
  · intro p hp q hq h
    obtain ⟨i, hi, rfl⟩ := List.mem_iff_getElem.1 hp
    obtain ⟨j, hj, rfl⟩ := List.mem_iff_getElem.1 hq
    simp only [List.getElem_zip] at h ⊢
    have := (List.Nodup.getElem_inj_iff hR).1 h
    subst this
    rfl

/-- The sizes of the traced axes of the output and of the input fit. -/
structure Fits (s : Structure) (inp out : List ℕ) : Prop where
  len : s.outTrace.length = s.inTrace.length
  nodupO : s.outTrace.Nodup
  nodupI : s.inTrace.Nodup
  ltO : ∀ a ∈ s.outTrace, a < out.length
  ltI : ∀ a ∈ s.inTrace, a < inp.length
  eq : gather s.outTrace out = gather s.inTrace inp
  off : ∀ a ∈ s.outTrace, a ∉ s.outBroadcast

lemma Fits.oneToOne {s : Structure} {inp out : List ℕ} (h : Fits s inp out) : OneToOne (tracePairs s) := oneToOne_zip h.nodupO h.nodupI

lemma Fits.agree {s : Structure} {inp out o i : List ℕ} (h : Fits s inp out) :
    Agree (tracePairs s) o i ↔ gather s.outTrace o = gather s.inTrace i := (gather_inj_iff h.len).symm

lemma Fits.disj {s : Structure} {inp out : List ℕ} (h : Fits s inp out) : ∀ p ∈ tracePairs s, p.1 ∉ s.outBroadcast :=
  fun p hp => h.off p.1 ((mem_trace_left h.len).2 ⟨p, hp, rfl⟩)

lemma Fits.checked {s : Structure} {inp out : List ℕ} (h : Fits s inp out) (hd : s.outDiagonal = []) (hd' : s.inDiagonal = []) {idx : ℕ}
    {shapes : List (List ℕ)} (hs : shapes.getD idx [] = inp) : checked s idx shapes out = .ok s := by
  unfold Rules.checked
  rw [if_neg (not_not.2 h.len.symm), hs, if_neg, if_neg (not_not.2 (by rw [h.eq])), if_neg (by simp [hd, hd']), if_pos (by simp [hd])]
  rintro (⟨a, h1, h2⟩ | ⟨a, h1, h2⟩)
  · exact absurd (h.ltO a h1) (by omega)
  · exact absurd (h.ltI a h1) (by omega)

lemma Fits.trim {s : Structure} {inp out : List ℕ} (h : Fits s inp out) {as bs cs : List ℕ}
    (hc : Cut (tracePairs s) s.outBroadcast as bs cs) : Fits s (trim bs inp) (trim (as ++ cs) out) := by
  refine ⟨h.len, h.nodupO, h.nodupI, ?_, ?_, ?_, h.off⟩
  · simpa [length_trim] using h.ltO
  · simpa [length_trim] using h.ltI
  · have h1 := h.eq
    rw [gather_inj_iff h.len] at h1 ⊢
    intro p hp
    have ho : p.1 ∈ s.outTrace := (mem_trace_left h.len).2 ⟨p, hp, rfl⟩
    have hi : p.2 ∈ s.inTrace := (mem_trace_right h.len).2 ⟨p, hp, rfl⟩
    rw [getD_trim _ _ _ (h.ltO _ ho), getD_trim _ _ _ (h.ltI _ hi)]
    have h2 : p.1 ∉ cs := fun hx => h.off _ ho (hc.sub _ hx)
    have h3 := hc.both p hp
    have h4 := h1 p hp
    by_cases h5 : p.2 ∈ bs
    · simp [h5, h3.2 h5]
    · have h6 : p.1 ∉ as := fun hx => h5 (h3.1 hx)
      rw [if_neg (by simp [h6, h2]), if_neg h5]
      exact h4

/-- `v` where the indices agree on the axes, and zero elsewhere. -/
def delta (v : α) (L R o i : List ℕ) : α := if gather L o = gather R i then v else 0

lemma delta_pos {v : α} {L R o i : List ℕ} (h : gather L o = gather R i) : delta v L R o i = v := if_pos h

lemma delta_neg {v : α} {L R o i : List ℕ} (h : gather L o ≠ gather R i) : delta v L R o i = 0 := if_neg h

lemma delta_iff (v : α) {L R o i : List ℕ} {c : Prop} [Decidable c] (h : gather L o = gather R i ↔ c) : (if c then v else 0) = delta v L R o i := by
  by_cases hc : c
  · rw [if_pos hc, delta_pos (h.2 hc)]
  · rw [if_neg hc, delta_neg fun h2 => hc (h.1 h2)]

/-- Rules with no diagonal axes and a constant value `v` where the traced axes agree. -/
lemma rulesOk_const {f : Arr α → Except Err (Arr α)} {rule : List ℕ → Arr α → List ℕ → Except Err (Arr α)} {s : Structure} {idx : ℕ}
    {shapes : List (List ℕ)} {inp : List ℕ} {other : Arr α} {out : List ℕ} (v : α) (Extra : List ℕ → List ℕ → Prop)
    (hs : shapes.getD idx [] = inp) (hd : s.outDiagonal = []) (hd' : s.inDiagonal = []) (hf : Fits s inp out) (he : Extra inp out)
    (htrim : ∀ as bs cs, Cut (tracePairs s) s.outBroadcast as bs cs → Extra (trim bs inp) (trim (as ++ cs) out))
    (hrule : ∀ inp' out', Fits s inp' out' → inp'.length = inp.length → out'.length = out.length → Extra inp' out' →
      ∃ j, rule inp' other out' = .ok j ∧ j.shape = out' ++ inp' ∧
        ∀ o i, InRange o out' → InRange i inp' → j.get (o ++ i) = delta v s.outTrace s.inTrace o i)
    (hjac : IsJacobian f inp out (delta v s.outTrace s.inTrace)) :
    RulesOk f rule s idx shapes inp other out (delta v s.outTrace s.inTrace) := by
  classical
  have e : ∀ o i, (if Agree (tracePairs s) o i then v else 0) = delta v s.outTrace s.inTrace o i := fun o i => delta_iff v hf.agree.symm
  have := rulesOk_of_trace (f := f) (rule := rule) (s := s) (idx := idx) (shapes := shapes) (inp := inp) (other := other) (out := out)
    (fun _ _ _ _ => v) (fun inp' out' => Fits s inp' out' ∧ inp'.length = inp.length ∧ out'.length = out.length ∧ Extra inp' out') hd hf.oneToOne hf.disj
    (hf.checked hd hd' hs) ⟨hf, rfl, rfl, he⟩ (fun as bs cs hc => ⟨hf.trim hc, length_trim _ _, length_trim _ _, htrim _ _ _ hc⟩)
    (fun inp' out' ⟨h1, h2, h3, h4⟩ => by simpa only [e] using hrule inp' out' h1 h2 h3 h4) (fun _ _ _ _ _ _ _ _ _ => rfl)
    (by simpa only [e] using hjac)
  simpa only [e] using this

/-! ### The identity, `neg`, `zeros_like` -/

lemma fits_eye (idx : ℕ) (S : List ℕ) : Fits (eyeS idx S S) S S :=
  ⟨rfl, List.nodup_range, List.nodup_range, by simp [eyeS], by simp [eyeS], rfl, by simp [eyeS]⟩

lemma eye_out {idx n : ℕ} {S inp out : List ℕ} (hS : S.length = n) (h : Fits (eyeS idx S S) inp out) (h1 : inp.length = n) (h2 : out.length = n) :
    out = inp := by
  have := h.eq
  simp only [eyeS, hS] at this
  rwa [gather_range_self _ _ h1, gather_range_self _ _ h2] at this

lemma eyeLike_ok (S : List ℕ) : ∃ j : Arr α, eyeLike S S = .ok j ∧ j.shape = S ++ S ∧
    ∀ o i, InRange o S → InRange i S → j.get (o ++ i) = if o = i then 1 else 0 := by
  unfold eyeLike
  rw [if_pos rfl]
  exact eye_same (α := α) S

lemma range_iff {S o i : List ℕ} (ho : InRange o S) (hi : InRange i S) :
    gather (List.range S.length) o = gather (List.range S.length) i ↔ o = i := by
  rw [gather_range_self _ _ ho.length, gather_range_self _ _ hi.length]

lemma rules_eye (S : List ℕ) (other : Arr α) : RulesOk (fun w => .ok w) eyeJ (eyeS 0 S S) 0 [S] S other S
    (delta 1 (List.range S.length) (List.range S.length)) := by
  refine rulesOk_const (s := eyeS 0 S S) 1 (fun _ _ => True) rfl rfl rfl (fits_eye 0 S) trivial (fun _ _ _ _ => trivial) ?_ ?_
  · intro inp out hf h1 h2 _
    obtain rfl := eye_out rfl hf h1 h2
    obtain ⟨j, e1, e2, e3⟩ := eyeLike_ok (α := α) out
    refine ⟨j, e1, e2, fun o i ho hi => ?_⟩
    rw [e3 o i ho hi]
    refine delta_iff 1 ?_
    simp only [eyeS, ← h1]
    exact range_iff ho hi
  · exact isJacobian_of_read (fun _ => 0) fun w hw => ⟨w, rfl, hw, fun o ho => Or.inl ⟨o, ho,
      fun i hi hne => delta_neg fun h => hne ((range_iff ho hi).1 h).symm, by rw [delta_pos (show gather (eyeS 0 S S).outTrace o = gather (eyeS 0 S S).inTrace o from rfl)]; simp⟩⟩

lemma rules_neg (S : List ℕ) (other : Arr α) : RulesOk (fun w => .ok (w.map fun v => -v)) negJ (eyeS 0 S S) 0 [S] S other S
    (delta (-1) (List.range S.length) (List.range S.length)) := by
  refine rulesOk_const (s := eyeS 0 S S) (-1) (fun _ _ => True) rfl rfl rfl (fits_eye 0 S) trivial (fun _ _ _ _ => trivial) ?_ ?_
  · intro inp out hf h1 h2 _
    obtain rfl := eye_out rfl hf h1 h2
    obtain ⟨j, e1, e2, e3⟩ := eyeLike_ok (α := α) out
    refine ⟨j.map fun v => -v, ?_, e2, fun o i ho hi => ?_⟩
    · unfold negJ
      rw [e1]
      rfl
    · show -(j.get (o ++ i)) = _
      rw [e3 o i ho hi, neg_ite, neg_zero]
      refine delta_iff (-1) ?_
      simp only [eyeS, ← h1]
      exact range_iff ho hi
  · exact isJacobian_of_read (fun _ => 0) fun w hw => ⟨_, rfl, hw, fun o ho => Or.inl ⟨o, ho,
      fun i hi hne => delta_neg fun h => hne ((range_iff ho hi).1 h).symm, by rw [delta_pos (show gather (eyeS 0 S S).outTrace o = gather (eyeS 0 S S).inTrace o from rfl)]; simp [Arr.map]⟩⟩

lemma rules_zeros (S : List ℕ) (other : Arr α) : RulesOk (fun w => .ok ⟨w.shape, fun _ => 0⟩) zerosJ (eyeS 0 S S) 0 [S] S other S
    (delta (0) (List.range S.length) (List.range S.length)) := by
  have e : ∀ L R o i, delta (0 : α) L R o i = 0 := fun L R o i => by simp [delta]
  refine rulesOk_const (s := eyeS 0 S S) 0 (fun _ _ => True) rfl rfl rfl (fits_eye 0 S) trivial (fun _ _ _ _ => trivial) ?_ ?_
  · intro inp out hf h1 h2 _
    exact ⟨_, rfl, rfl, fun o i ho hi => (e _ _ _ _).symm⟩
  · exact isJacobian_of_read (fun _ => 0) fun w hw => ⟨_, rfl, hw, fun o ho => Or.inr ⟨fun i hi => e _ _ _ _, rfl⟩⟩

lemma jacobian_const {f : Arr α → Except Err (Arr α)} {inp out L R : List ℕ} (v : α) (c : List ℕ → α) (σ : List ℕ → List ℕ)
    (hσ : ∀ o, InRange o out → InRange (σ o) inp) (h1 : ∀ o i, InRange o out → InRange i inp → (gather L o = gather R i ↔ i = σ o))
    (h : ∀ w : Arr α, w.shape = inp → ∃ y, f w = .ok y ∧ y.shape = out ∧ ∀ o, InRange o out → y.get o = c o + v * w.get (σ o)) :
    IsJacobian f inp out (delta v L R) := by
  refine isJacobian_of_read c fun w hw => ?_
  obtain ⟨y, e1, e2, e3⟩ := h w hw
  refine ⟨y, e1, e2, fun o ho => Or.inl ⟨σ o, hσ o ho, fun i hi hne => delta_neg fun h2 => hne ((h1 o i ho hi).1 h2), ?_⟩⟩
  rw [e3 o ho, delta_pos ((h1 o _ ho (hσ o ho)).2 rfl)]

/-! ### `transpose` -/

lemma fits_transpose {perm inp : List ℕ} (idx : ℕ) (hp : perm.Perm (List.range inp.length)) :
    ∃ s, transposeS idx perm (gather perm inp) = .ok s ∧ s.outTrace = (List.range inp.length).map (fun i => perm.idxOf i) ∧
      s.inTrace = List.range inp.length ∧ s.outDiagonal = [] ∧ s.inDiagonal = [] ∧ s.outBroadcast = [] ∧ Fits s inp (gather perm inp) := by
  have hl : perm.length = inp.length := by simpa using hp.length_eq
  have hm : ∀ i, i < inp.length → i ∈ perm := fun i hi => hp.mem_iff.2 (List.mem_range.2 hi)
  refine ⟨_, by unfold transposeS; rw [gather_length, hl, if_pos hm], rfl, rfl, rfl, rfl, rfl, ?_⟩
  refine ⟨by simp, ?_, List.nodup_range, ?_, by simp, ?_, by simp⟩
  · refine List.Nodup.map_on (fun a ha b hb h => ?_) List.nodup_range
    have h1 := hm a (List.mem_range.1 ha)
    have h2 := hm b (List.mem_range.1 hb)
    rw [← List.getElem_idxOf (List.idxOf_lt_length_iff.2 h1), ← List.getElem_idxOf (List.idxOf_lt_length_iff.2 h2)]
    simp only [h]
  · simp only [List.mem_map, List.mem_range, gather_length]
    rintro a ⟨b, hb, rfl⟩
    exact List.idxOf_lt_length_iff.2 (hm b hb)
  · rw [gather_range_self inp _ rfl]
    conv_rhs => rw [← scatter_gather hp rfl]
    simp [scatter, gather]

lemma gather_idxOf (perm : List ℕ) (n : ℕ) (o : List ℕ) : gather ((List.range n).map fun i => perm.idxOf i) o = scatter perm n o := by
  simp [scatter, gather]

omit [Field α] in
lemma reshapeE_self (a : Arr α) {S : List ℕ} (h : a.shape = S) : ∃ b, a.reshapeE S = .ok b ∧ b ≋ a := by
  subst h
  exact ⟨a.reshape a.shape, by unfold reshapeE; rw [if_pos rfl], rfl, fun i hi => reshape_get a a.shape hi rfl⟩

lemma perm_double {perm : List ℕ} {n : ℕ} (hp : perm.Perm (List.range n)) : (perm ++ (List.range n).map (· + n)).Perm (List.range (n + n)) := by
  rw [List.range_add]
  refine hp.append ?_
  rw [show (fun x => x + n) = (fun x => n + x) from funext fun x => Nat.add_comm _ _]

lemma gather_double {perm a i : List ℕ} {n : ℕ} (hp : perm.Perm (List.range n)) (ha : a.length = n) (hi : i.length = n) :
    gather (perm ++ (List.range n).map (· + n)) (a ++ i) = gather perm a ++ i := by
  rw [gather_append]
  congr 1
  · refine List.map_congr_left fun k hk => ?_
    have : k < a.length := by rw [ha]; exact List.mem_range.1 (hp.mem_iff.1 hk)
    rw [List.getD_append _ _ _ _ this]
  · refine ext_getD (by simp [gather, hi]) fun k hk => ?_
    have hk : k < n := by simpa using hk
    rw [gather_getD _ _ _ (by simpa using hk)]
    simp only [List.getElem_map, List.getElem_range]
    rw [List.getD_append_right _ _ _ _ (by omega)]
    congr 1
    omega

lemma transposeJ_ok {perm inp : List ℕ} (hp : perm.Perm (List.range inp.length)) (other : Arr α) :
    ∃ j, transposeJ perm inp other (gather perm inp) = .ok j ∧ j.shape = gather perm inp ++ inp ∧
      ∀ o i, InRange o (gather perm inp) → InRange i inp → j.get (o ++ i) = if scatter perm inp.length o = i then 1 else 0 := by
  have hl : perm.length = inp.length := by simpa using hp.length_eq
  have hprod : (gather perm inp).prod = inp.prod := by
    have : (gather perm inp).Perm (gather (List.range inp.length) inp) := hp.map _
    rw [this.prod_eq, gather_range_self _ _ rfl]
  obtain ⟨j1, a1, a2, a3⟩ := eye_reshape (α := α) hprod
  set j2 := j1.reshape (inp ++ inp) with hj2
  have b1 : j1.reshapeE (inp ++ inp) = .ok j2 := by unfold reshapeE; rw [if_pos (by rw [a2]; simp [hprod])]
  have b2 : ∀ a i, InRange a inp → InRange i inp → j2.get (a ++ i) = if a = i then 1 else 0 := by
    intro a i ha hi
    have hlt := ravel_lt ha
    rw [← hprod] at hlt
    have ho := inRange_unravel hlt
    rw [hj2, reshape_get j1 (inp ++ inp) (j := unravel (gather perm inp) (ravel inp a) ++ i), a3 _ _ ho hi, ravel_unravel hlt]
    · have : ravel inp a = ravel inp i ↔ a = i := ⟨fun h => ravel_inj ha hi h, fun h => h ▸ rfl⟩
      simp only [this]
    · rw [a2]
      exact (inRange_append ho.length).2 ⟨ho, hi⟩
    · rw [a2, ravel_append ha.length, ravel_append ho.length, ravel_unravel hlt]
  set p := perm ++ (List.range (gather perm inp).length).map (· + (gather perm inp).length) with hpdef
  have hp2 : p = perm ++ (List.range inp.length).map (· + inp.length) := by rw [hpdef, gather_length, hl]
  have hp3 : p.Perm (List.range j2.ndim) := by
    rw [hp2]
    show List.Perm _ (List.range (inp ++ inp).length)
    rw [List.length_append]
    exact perm_double hp
  have c2 : (j2.transpose p).shape = gather perm inp ++ inp := by
    show gather p (inp ++ inp) = _
    rw [hp2, gather_double hp rfl rfl]
  obtain ⟨j3, d1, d2⟩ := reshapeE_self (j2.transpose p) c2
  refine ⟨j3, ?_, d2.1.trans c2, fun o i ho hi => ?_⟩
  · unfold transposeJ eyeLike
    rw [if_pos hprod, a1]
    simp only [bind, Except.bind]
    rw [b1]
    exact d1
  · have hol : o.length = inp.length := by rw [ho.length, gather_length, hl]
    have hsc : InRange (scatter perm inp.length o) inp := by
      rw [← inRange_gather hp (by simp) rfl, gather_scatter hp hol]
      exact ho
    rw [d2.2 _ (by rw [d2.1, c2]; exact (inRange_append ho.length).2 ⟨ho, hi⟩)]
    rw [show o ++ i = gather p (scatter perm inp.length o ++ i) by rw [hp2, gather_double hp (by simp) hi.length, gather_scatter hp hol]]
    rw [transpose_get j2 hp3 (by show _ = (inp ++ inp).length; simp [hi.length]), b2 _ _ hsc hi]

lemma rules_transpose {perm inp : List ℕ} (hp : perm.Perm (List.range inp.length)) (other : Arr α) :
    ∃ s J, transposeS 0 perm (gather perm inp) = .ok s ∧
      RulesOk (fun w => .ok (w.transpose perm)) (transposeJ perm) s 0 [inp] inp other (gather perm inp) J := by
  obtain ⟨s, h1, hO, hI, hd, hd', hB, hf⟩ := fits_transpose 0 hp
  have hl : perm.length = inp.length := by simpa using hp.length_eq
  have hsc : ∀ o, InRange o (gather perm inp) → InRange (scatter perm inp.length o) inp := fun o ho => by
    rw [← inRange_gather hp (by simp) rfl, gather_scatter hp (by rw [ho.length, gather_length, hl])]
    exact ho
  refine ⟨s, _, h1, rulesOk_const 1 (fun _ _ => True) rfl hd hd' hf trivial (fun _ _ _ _ => trivial) ?_ ?_⟩
  · intro inp' out' hf' hi' ho' _
    have he := hf'.eq
    rw [hO, hI, gather_idxOf, ← hi', gather_range_self _ _ rfl] at he
    have hp' : perm.Perm (List.range inp'.length) := hi' ▸ hp
    have : out' = gather perm inp' := by rw [← he, gather_scatter hp' (by rw [ho', gather_length, hl, hi'])]
    subst this
    obtain ⟨j, e1, e2, e3⟩ := transposeJ_ok hp' other
    refine ⟨j, e1, e2, fun o i ho hi => ?_⟩
    rw [e3 o i ho hi]
    refine delta_iff 1 ?_
    rw [hO, hI, gather_idxOf, ← hi', gather_range_self _ _ hi.length]
  · refine jacobian_const 1 (fun _ => 0) (scatter perm inp.length) hsc ?_ ?_
    · intro o i ho hi
      rw [hO, hI, gather_idxOf, gather_range_self _ _ hi.length, eq_comm]
    · intro w hw
      refine ⟨_, rfl, by show gather perm w.shape = _; rw [hw], fun o ho => ?_⟩
      show w.get (scatter perm w.shape.length o) = _
      rw [hw, zero_add, one_mul]

end NT.Rules
