import Verif.Lemmas.Structured5
import Verif.Lemmas.Rules4

/-!
# What is computed for the uses of a leaf of the parameters
-/

namespace NT.Emp
open NT NT.Spec NT.Rules NT.Structure
open NT.Arr
open scoped BigOperators

variable {α : Type} [Field α]

/-- The use `x` of the leaf `l` stands for the contribution `K` to the Jacobian. -/
structure UseOk (J : Jaxpr α) (fx : List ℕ) (l : ℕ) (x : Use α) (K : List ℕ → List ℕ → α) : Prop where
  ex : ∃ (k : ℕ) (y : List ℕ) (Jm : List ℕ → List ℕ → α) (s : Structure), x.1.shape = fx ++ y ∧ y.length ≤ 2000 ∧
    Expands x.2.2 k y (J.params.getD l []) x.2.1 Jm ∧ FitsShapes x.2.2 k y (J.params.getD l []) ∧
    (∀ i w, InRange i fx → InRange w (J.params.getD l []) → K i w = ∑ v ∈ box y, x.1.get (i ++ v) * Jm v w) ∧
    Declares J l k s ∧ ∀ p ∈ diagPairs x.2.2 k, p ∈ diagPairs s k
  sortedT : x.2.2.inTrace.Pairwise (· < ·)
  sortedD : x.2.2.outDiagonal.Pairwise (· < ·)
  memT : ∀ a, a ∈ x.2.2.inTrace ↔ ∀ k s, Declares J l k s → a ∈ s.inTrace
  memD : ∀ a, a ∈ x.2.2.outDiagonal ↔ ∀ k s, Declares J l k s → a ∈ s.outDiagonal

omit [Field α] in
lemma mem_uses {J : Jaxpr α} {l n k : ℕ} : (n, k) ∈ J.uses l ↔ ∃ e, J.eqns[n]? = some e ∧ e.args[k]? = some (.param l) := by
  unfold Jaxpr.uses
  simp only [List.mem_flatMap, List.mem_reverse, List.mem_range]
  constructor
  · rintro ⟨m, hm, h⟩
    cases he : J.eqns[m]? with
    | none => rw [he] at h; cases h
    | some e =>
      rw [he] at h
      simp only [List.mem_map, List.mem_filter, List.mem_range, decide_eq_true_eq, Prod.mk.injEq] at h
      obtain ⟨a, ⟨-, h2⟩, rfl, rfl⟩ := h
      exact ⟨e, he, h2⟩
  · rintro ⟨e, he, ha⟩
    refine ⟨n, (List.getElem?_eq_some_iff.1 he).1, ?_⟩
    rw [he]
    simp only [List.mem_map, List.mem_filter, List.mem_range, decide_eq_true_eq, Prod.mk.injEq]
    exact ⟨k, ⟨(List.getElem?_eq_some_iff.1 ha).1, ha⟩, by simp⟩

lemma fits_eye (p : List ℕ) : FitsShapes (eyeS 0 p p) 0 p p where
  traceLen := rfl
  diagFst := rfl
  outNodup := by simp [eyeS, List.nodup_range]
  inNodup := by simp [eyeS, diagIns, diagPairs, List.nodup_range]
  outLt := by simp [eyeS]
  inLt := by simp [eyeS, diagIns, diagPairs]
  traceSize := by
    intro q hq
    rw [tracePairs, eyeS, List.zip_eq_zipWith, List.zipWith_self] at hq
    obtain ⟨a, -, rfl⟩ := List.mem_map.1 hq
    rfl
  diagSize := by simp [eyeS, diagPairs, Agree]
  off := by simp [eyeS]

lemma sum_use (J : Jaxpr α) (fx : List ℕ) {n k : ℕ} {e : Eqn α} {s : Structure} (he : J.eqns[n]? = some e) (hr : RuleOk e k s) {i w : List ℕ}
    (hi : InRange i fx) (hw : InRange w (e.shapes.getD k [])) :
    useTerm J fx (n, k) i w = ∑ v ∈ box (readShape e k), (J.dfDy fx n k e).get (i ++ v) * readJac e k v w := by
  unfold useTerm
  rw [he]
  dsimp only
  by_cases hres : e.isReshape = true
  · obtain ⟨hp, hj⟩ := hr.reshape hres
    have hrs : readShape e k = e.shapes.getD k [] := by simp [readShape, hres]
    have hlt : ravel (e.shapes.getD k []) w < e.out.prod := by rw [hp]; exact ravel_lt hw
    have hin := inRange_unravel hlt
    have hrv := ravel_unravel hlt
    rw [Finset.sum_eq_single (unravel e.out (ravel (e.shapes.getD k []) w))]
    · rw [Finset.sum_eq_single w]
      · rw [hj _ _ hin hw, if_pos hrv, dfDy_get n k e hi (by rw [hrs]; exact hw) hin (by rw [if_pos hres, hrs]; exact hrv)]
        simp [readJac, hres]
      · intro v _ hv
        simp [readJac, hres, hv]
      · intro h
        exact absurd (mem_box.2 (by rw [hrs]; exact hw)) h
    · intro o ho hne
      rw [hj o w (mem_box.1 ho) hw, if_neg, mul_zero]
      intro h
      exact hne (by rw [← h, unravel_ravel (mem_box.1 ho)])
    · intro h
      exact absurd (mem_box.2 hin) h
  · have hrs : readShape e k = e.out := by simp [readShape, hres]
    rw [hrs]
    refine Finset.sum_congr rfl fun o ho => ?_
    rw [dfDy_get n k e hi (by rw [hrs]; exact mem_box.1 ho) (mem_box.1 ho) (by rw [if_neg hres])]
    simp [readJac, hres]

lemma ok_bind {A B : Type} (a : A) (f : A → Except Err B) : (Except.ok a >>= f) = f a := rfl

lemma sorted_filter {l : List ℕ} (h : l.Pairwise (· < ·)) (p : ℕ → Bool) : (l.filter p).Pairwise (· < ·) := h.sublist List.filter_sublist

/-- The uses of a leaf: together they stand for the Jacobian with respect to the leaf. -/
lemma usesOf_ok {J : Jaxpr α} {fx : List ℕ} (h : Typed J fx) (hr : RulesFor J) (hs : SmallRanks J fx) {l : ℕ} (hl : l < J.params.length) :
    ∃ (us : List (Use α)) (Ks : List (List ℕ → List ℕ → α)), J.usesOf fx l = .ok us ∧ List.Forall₂ (UseOk J fx l) us Ks ∧
      ∀ i w, InRange i fx → InRange w (J.params.getD l []) → jacobianEntry J l i w = (Ks.map fun K => K i w).sum := by
  have hpl : (J.params.getD l []).length ≤ 2000 := by
    rw [List.getD_eq_getElem _ _ hl]
    exact hs.params _ (List.getElem_mem hl)
  have h1 : ∀ u : ℕ × ℕ, ∃ s : Structure, u ∈ J.uses l → ∃ e, J.eqns[u.1]? = some e ∧ e.args[u.2]? = some (.param l) ∧ RuleOk e u.2 s := by
    intro u
    by_cases hu : u ∈ J.uses l
    · obtain ⟨e, he, ha⟩ := mem_uses.1 hu
      obtain ⟨s, hs⟩ := hr _ e he _ l ha
      exact ⟨s, fun _ => ⟨e, he, ha, hs⟩⟩
    · exact ⟨{}, fun h => absurd h hu⟩
  choose sOf hsOf using h1
  set p := J.params.getD l [] with hp
  set Ls := (if J.out = .param l then [eyeS 0 p p] else []) ++ (J.uses l).reverse.map sOf with hLs
  have hcache : J.structureCache l = common Ls := by
    unfold Jaxpr.structureCache
    rw [mapM_ok' (g := sOf)]
    · rfl
    · intro u hu
      obtain ⟨e, he, -, hrule⟩ := hsOf u (List.mem_reverse.1 hu)
      rw [he]
      exact hrule.struct
  have hmem : ∀ s, s ∈ Ls ↔ ∃ k, Declares J l k s := by
    intro s
    rw [hLs, List.mem_append, List.mem_map]
    constructor
    · rintro (hx | ⟨u, hu, rfl⟩)
      · split_ifs at hx with ho
        · rw [List.mem_singleton] at hx
          exact ⟨0, Or.inr ⟨ho, rfl, hx⟩⟩
        · cases hx
      · obtain ⟨e, he, ha, hrule⟩ := hsOf u (List.mem_reverse.1 hu)
        exact ⟨u.2, Or.inl ⟨u.1, e, he, ha, hrule.struct⟩⟩
    · rintro ⟨k, ⟨n, e, he, ha, hst⟩ | ⟨ho, -, rfl⟩⟩
      · right
        have hu : (n, k) ∈ J.uses l := mem_uses.2 ⟨e, he, ha⟩
        refine ⟨(n, k), List.mem_reverse.2 hu, ?_⟩
        obtain ⟨e', he', -, hrule⟩ := hsOf _ hu
        obtain rfl : e = e' := by simpa [he] using he'
        have := hrule.struct
        dsimp only at this
        rw [hst] at this
        exact (Except.ok.inj this).symm
      · left
        rw [if_pos ho]
        exact List.mem_singleton.2 rfl
  have hall : ∀ (Q : Structure → Prop), (∀ s ∈ Ls, Q s) ↔ ∀ k s, Declares J l k s → Q s := fun Q =>
    ⟨fun hq k s hd => hq s ((hmem s).2 ⟨k, hd⟩), fun hq s hx => by obtain ⟨k, hd⟩ := (hmem s).1 hx; exact hq k s hd⟩
  have hwf : ∀ s ∈ Ls, C77.WF s ∧ C76.Mild s p := by
    intro s hx
    rw [hLs, List.mem_append, List.mem_map] at hx
    rcases hx with hx | ⟨u, hu, rfl⟩
    · split_ifs at hx with ho
      · rw [List.mem_singleton] at hx
        subst hx
        exact ⟨wf_of_fits (fits_eye p) rfl, by intro a ha; simp [eyeS] at ha⟩
      · cases hx
    · obtain ⟨e, he, ha, hrule⟩ := hsOf u (List.mem_reverse.1 hu)
      refine ⟨wf_of_fits hrule.fits hrule.diagLen, ?_⟩
      have := hrule.mild
      rw [(h.param _ e he _ l ha).2] at this
      exact this
  by_cases hne : Ls = []
  · refine ⟨[], [], ?_, List.Forall₂.nil, ?_⟩
    · unfold Jaxpr.usesOf
      rw [hcache, hne]
      rfl
    · intro i w hi hw
      rw [hLs, List.append_eq_nil_iff] at hne
      have hu : J.uses l = [] := by simpa using hne.2
      have ho : ¬ J.out = .param l := by
        intro ho
        rw [if_pos ho] at hne
        exact absurd hne.1 (by simp)
      rw [jacobianEntry_eq h hi hw, hu, if_neg ho]
      simp
  · obtain ⟨c, hc, cw, cm, ct, cd⟩ := common_ok Ls hne hwf
    have memT : ∀ {s m : Structure}, s ∈ Ls → s.meet c = .ok m → (∀ a, a ∈ m.inTrace ↔ ∀ k s, Declares J l k s → a ∈ s.inTrace) ∧
        (∀ a, a ∈ m.outDiagonal ↔ ∀ k s, Declares J l k s → a ∈ s.outDiagonal) := by
      intro s m hsm hm
      obtain ⟨d1, d2, -⟩ := C77.declares_common_partial s c m hm
      refine ⟨fun a => ?_, fun a => ?_⟩
      · rw [d1, ct, hall (fun s => a ∈ s.inTrace)]
        exact ⟨fun x => x.2, fun x => ⟨(hall (fun s => a ∈ s.inTrace)).2 x s hsm, x⟩⟩
      · rw [d2, cd, hall (fun s => a ∈ s.outDiagonal)]
        exact ⟨fun x => x.2, fun x => ⟨(hall (fun s => a ∈ s.outDiagonal)).2 x s hsm, x⟩⟩
    have h2 : ∀ u : ℕ × ℕ, ∃ x : Use α, u ∈ J.uses l → UseOk J fx l x (useTerm J fx u) ∧
        J.useAt fx c u = .ok x := by
      intro u
      by_cases hu : u ∈ J.uses l
      · obtain ⟨e, he, ha, hrule⟩ := hsOf u hu
        have hshape := (h.param _ e he _ l ha).2
        have hsL : sOf u ∈ Ls := (hmem _).2 ⟨u.2, Or.inl ⟨u.1, e, he, ha, hrule.struct⟩⟩
        have w := (hwf _ hsL)
        obtain ⟨m, hm, hmw⟩ := C77.defined (sOf u) c w.1 cw
        obtain ⟨j, hj, hex⟩ := hrule.compact m (by rw [hshape]; exact C76.meet_part w.1 w.2 cm hm u.2)
        have hf := fits_meet hrule.fits hrule.diagLen w.1 hm
        rw [hshape] at hex hf
        refine ⟨(J.dfDy fx u.1 u.2 e, j, m), fun _ => ⟨⟨⟨u.2, readShape e u.2, readJac e u.2, sOf u, rfl, ?_, hex, hf.1, ?_, ?_, hf.2⟩, ?_, ?_, (memT hsL hm).1, (memT hsL hm).2⟩, ?_⟩⟩
        · unfold readShape
          split_ifs
          · rw [hshape]; exact hpl
          · exact hs.eqns e (List.mem_of_getElem? he)
        · intro i w hi hw
          exact sum_use J fx he hrule hi (by rw [hshape]; exact hw)
        · exact Or.inl ⟨u.1, e, he, ha, hrule.struct⟩
        · obtain ⟨-, e2, -⟩ := C77.meet_eq hm
          show m.inTrace.Pairwise _
          rw [e2]
          exact sorted_filter hrule.sortedTrace _
        · obtain ⟨-, -, e3, -⟩ := C77.meet_eq hm
          show m.outDiagonal.Pairwise _
          rw [e3]
          exact sorted_filter hrule.sortedDiag _
        · unfold Jaxpr.useAt
          rw [he]
          dsimp only
          rw [hrule.struct, ok_bind, hm, ok_bind, hj, ok_bind]
      · exact ⟨⟨⟨[], fun _ => 0⟩, ⟨[], fun _ => 0⟩, {}⟩, fun h => absurd h hu⟩
    choose xOf hxOf using h2
    have hmap := mapM_ok' (g := xOf) (J.uses l) fun u hu => (hxOf u hu).2
    have hfor : List.Forall₂ (UseOk J fx l) ((J.uses l).map xOf) ((J.uses l).map (useTerm J fx)) := by
      rw [List.forall₂_map_left_iff, List.forall₂_map_right_iff, List.forall₂_same]
      exact fun u hu => (hxOf u hu).1
    by_cases ho : J.out = .param l
    · obtain ⟨-, hfx⟩ := h.outParam l ho
      have hsL : eyeS 0 p p ∈ Ls := (hmem _).2 ⟨0, Or.inr ⟨ho, rfl, rfl⟩⟩
      have w := hwf _ hsL
      obtain ⟨m, hm, hmw⟩ := C77.defined (eyeS 0 p p) c w.1 cw
      obtain ⟨j, hj, hex⟩ := (rules_eye (α := α) p ⟨[], fun _ => 0⟩).compact m (C76.meet_part w.1 w.2 cm hm 0)
      have hf := fits_meet (fits_eye p) rfl w.1 hm
      refine ⟨(J.uses l).map xOf ++ [(Jaxpr.dfDyId fx, j, m)], (J.uses l).map (useTerm J fx) ++ [fun i w => if i = w then 1 else 0], ?_, ?_, ?_⟩
      · unfold Jaxpr.usesOf
        rw [hcache, hc]
        rw [ok_bind]
        dsimp only
        rw [hmap, ok_bind]
        rw [if_pos ho, hm, ok_bind, hj, ok_bind]
      · refine List.rel_append hfor (List.Forall₂.cons ⟨⟨0, p, _, eyeS 0 p p, ?_, hpl, hex, hf.1, ?_, Or.inr ⟨ho, rfl, rfl⟩, hf.2⟩, ?_, ?_, (memT hsL hm).1, (memT hsL hm).2⟩ List.Forall₂.nil)
        · show fx ++ fx = fx ++ p
          rw [hp, hfx]
        · intro i w hi hw
          have hpf : p = fx := hfx
          rw [show J.params.getD l [] = fx from hfx] at hw
          rw [hpf]
          rw [Finset.sum_eq_single i]
          · show _ = (Jaxpr.dfDyId fx : Arr α).get (i ++ i) * _
            rw [dfDyId_get hi hi, if_pos rfl, one_mul, delta, gather_range_self _ _ hi.length, gather_range_self _ _ hw.length]
          · intro v hv hne
            show (Jaxpr.dfDyId fx : Arr α).get (i ++ v) * _ = 0
            rw [dfDyId_get hi (mem_box.1 hv), if_neg hne, zero_mul]
          · intro hn
            exact absurd (mem_box.2 hi) hn
        · obtain ⟨-, e2, -⟩ := C77.meet_eq hm
          show m.inTrace.Pairwise _
          rw [e2]
          exact sorted_filter List.pairwise_lt_range _
        · obtain ⟨-, -, e3, -⟩ := C77.meet_eq hm
          show m.outDiagonal.Pairwise _
          rw [e3]
          exact sorted_filter List.Pairwise.nil _
      · intro i w hi hw
        rw [jacobianEntry_eq h hi hw, if_pos ho, List.map_append, List.sum_append, List.map_map]
        simp [Function.comp_def]
    · refine ⟨(J.uses l).map xOf, (J.uses l).map (useTerm J fx), ?_, hfor, ?_⟩
      · unfold Jaxpr.usesOf
        rw [hcache, hc]
        rw [ok_bind]
        dsimp only
        rw [hmap, ok_bind]
        rw [if_neg ho]
      · intro i w hi hw
        rw [jacobianEntry_eq h hi hw, if_neg ho, List.map_map, add_zero]
        rfl

end NT.Emp
