import Verif.Lemmas.Structured4
import Verif.Lemmas.Adjoint
import Verif.Lemmas.Dot
import Verif.Props.C76

/-!
# The uses of a parameter
-/

namespace NT.Emp
open NT NT.Spec NT.Rules NT.Structure
open NT.Arr
open scoped BigOperators

set_option linter.unusedSectionVars false

variable {α : Type} [Field α]

/-! ### Structures in common -/

lemma filterMap_all {β γ : Type} {f : β → Option γ} {l : List β} (h : (l.filterMap f).length = l.length) : ∀ x ∈ l, (f x).isSome := by
  induction l with
  | nil => intro x hx; cases hx
  | cons a l ih =>
    have hle := List.length_filterMap_le f l
    cases ha : f a with
    | none =>
      rw [List.filterMap_cons_none ha, List.length_cons] at h
      omega
    | some b =>
      rw [List.filterMap_cons_some ha, List.length_cons, List.length_cons] at h
      intro x hx
      rcases List.mem_cons.1 hx with rfl | hx
      · rw [ha]; rfl
      · exact ih (by omega) x hx

lemma map_filterMap_fst {l : List (ℕ × List (Option ℕ))} {i : ℕ} (h : ∀ x ∈ l, (x.2.getD i none).isSome) :
    (l.filterMap fun (o, m) => (m.getD i none).map fun a => (o, a)).map (·.1) = l.map (·.1) := by
  induction l with
  | nil => rfl
  | cons x l ih =>
    obtain ⟨o, m⟩ := x
    obtain ⟨a, ha⟩ := Option.isSome_iff_exists.1 (h (o, m) (by simp))
    have ha : m.getD i none = some a := ha
    rw [List.filterMap_cons_some (b := (o, a)) (by show (m.getD i none).map _ = _; rw [ha]; rfl), List.map_cons, List.map_cons, ih fun x hx => h x (by simp [hx])]

/-- What is left of a structure after the intersection with others fits the shapes too. -/
lemma fits_meet {s t m : Structure} {i : ℕ} {out inp : List ℕ} (h : FitsShapes s i out inp) (hd : s.inDiagonal.length = s.outDiagonal.length) (hw : C77.WF s)
    (hm : s.meet t = .ok m) : FitsShapes m i out inp ∧ ∀ p ∈ diagPairs m i, p ∈ diagPairs s i := by
  obtain ⟨p1, p2⟩ := C77.pairing s t m hw hm
  obtain ⟨e1, e2, e3, e4, e5, -⟩ := C77.meet_eq hm
  have subT : (m.outTrace).Sublist s.outTrace := by rw [e1]; exact C77.select_sublist _ _ _
  have subI : (m.inTrace).Sublist s.inTrace := by rw [e2]; exact List.filter_sublist
  have subO : (m.outDiagonal).Sublist s.outDiagonal := by rw [e3]; exact List.filter_sublist
  have hz : ∀ s : Structure, s.outDiagonal.zip s.inDiagonal = (s.inDiagonal.zip s.outDiagonal).map Prod.swap := fun s => (List.zip_swap _ _).symm
  have subZ : (m.outDiagonal.zip m.inDiagonal).Sublist (s.outDiagonal.zip s.inDiagonal) := by
    rw [hz, hz, p2]
    exact List.filter_sublist.map _
  have subD : (diagPairs m i).Sublist (diagPairs s i) := subZ.filterMap _
  have mlen : m.outDiagonal.length = m.inDiagonal.length := by
    rw [e3, e4]
    exact (C77.select_length _ _ _ hd).symm
  have some : ∀ x ∈ s.outDiagonal.zip s.inDiagonal, (x.2.getD i none).isSome := by
    intro x hx
    have := filterMap_all (f := fun (x : ℕ × List (Option ℕ)) => (x.2.getD i none).map fun a => (x.1, a)) (l := s.outDiagonal.zip s.inDiagonal) (by
      have := congrArg List.length h.diagFst
      rw [List.length_map] at this
      rw [List.length_zip, hd, Nat.min_self]
      exact this) x hx
    simpa using this
  refine ⟨⟨?_, ?_, ?_, ?_, ?_, ?_, ?_, ?_, ?_⟩, fun p hp => subD.subset hp⟩
  · rw [e1, e2]
    exact C77.select_length _ _ _ hw.trace.symm
  · refine (map_filterMap_fst fun x hx => some x (subZ.subset hx)).trans ?_
    rw [List.map_fst_zip mlen.le]
  · exact h.outNodup.sublist (subT.append subO)
  · exact h.inNodup.sublist (subI.append (subD.map _))
  · intro a ha
    exact h.outLt a ((subT.append subO).subset ha)
  · intro a ha
    exact h.inLt a ((subI.append (subD.map _)).subset ha)
  · intro p hp
    rw [p1] at hp
    exact h.traceSize p (List.mem_filter.1 hp).1
  · intro p hp
    exact h.diagSize p (subD.subset hp)
  · intro a ha hb
    rw [e5] at hb
    exact h.off a (subO.subset ha) (List.mem_filter.1 hb).1

lemma wf_of_fits {s : Structure} {i : ℕ} {out inp : List ℕ} (h : FitsShapes s i out inp) (hd : s.inDiagonal.length = s.outDiagonal.length) : C77.WF s :=
  ⟨h.traceLen.symm, hd, (List.nodup_append.1 h.inNodup).1, (List.nodup_append.1 h.outNodup).1⟩

/-- The common structure of a list of declarations. -/
lemma common_ok {inp : List ℕ} : ∀ (l : List Structure), l ≠ [] → (∀ s ∈ l, C77.WF s ∧ C76.Mild s inp) →
    ∃ c, common l = .ok (some c) ∧ C77.WF c ∧ C76.Mild c inp ∧ (∀ a, a ∈ c.inTrace ↔ ∀ s ∈ l, a ∈ s.inTrace) ∧ ∀ a, a ∈ c.outDiagonal ↔ ∀ s ∈ l, a ∈ s.outDiagonal := by
  intro l hl h
  match l, hl with
  | t :: l, _ =>
    have key : ∀ (l : List Structure) (t : Structure), C77.WF t ∧ C76.Mild t inp → (∀ u ∈ l, C77.WF u ∧ C76.Mild u inp) →
        ∃ c, l.foldlM (fun (acc t : Structure) => acc.meet t) t = .ok c ∧ C77.WF c ∧ C76.Mild c inp ∧
          (∀ a, a ∈ c.inTrace ↔ a ∈ t.inTrace ∧ ∀ s ∈ l, a ∈ s.inTrace) ∧ ∀ a, a ∈ c.outDiagonal ↔ a ∈ t.outDiagonal ∧ ∀ s ∈ l, a ∈ s.outDiagonal := by
      intro l
      induction l with
      | nil =>
        intro t ht _
        exact ⟨t, rfl, ht.1, ht.2, by simp, by simp⟩
      | cons u l ih =>
        intro t ht hl
        obtain ⟨m, hm, hw⟩ := C77.defined t u ht.1 (hl u (by simp)).1
        have d := C77.declares_common_partial t u m hm
        obtain ⟨c, hc, h1, h2, h3, h4⟩ := ih m ⟨hw, C76.mild_meet ht.2 (hl u (by simp)).2 hm⟩ fun x hx => hl x (by simp [hx])
        refine ⟨c, ?_, h1, h2, fun a => ?_, fun a => ?_⟩
        · rw [List.foldlM_cons, hm]
          exact hc
        · rw [h3 a, d.1 a]
          simp [and_assoc]
        · rw [h4 a, d.2.1 a]
          simp [and_assoc]
    obtain ⟨c, hc, h1, h2, h3, h4⟩ := key l t (h t (by simp)) fun u hu => h u (by simp [hu])
    refine ⟨c, ?_, h1, h2, fun a => ?_, fun a => ?_⟩
    · show (l.foldlM (fun (acc t : Structure) => acc.meet t) t).map some = _
      rw [hc]
      rfl
    · rw [h3 a]; simp
    · rw [h4 a]; simp

/-! ### `df_dy` -/

section
variable {J : Jaxpr α} {fx : List ℕ}

/-- The row of the standard basis for the entry `i` of the output. -/
def seedAt (fx i : List ℕ) : List ℕ → α := fun o => ((Arr.eye fx.prod).reshape (fx.prod :: fx)).get (ravel fx i :: o)

lemma seedAt_get {i o : List ℕ} (hi : InRange i fx) (ho : InRange o fx) : (seedAt fx i o : α) = if o = i then 1 else 0 := by
  unfold seedAt
  have h1 := ravel_lt hi
  have h2 := ravel_lt ho
  unfold Arr.eye
  rw [reshape_get _ _ (j := [ravel fx i, ravel fx o]) (by simp [InRange, h1, h2]) (by simp [ravel])]
  simp only [List.getD_cons_zero, List.getD_cons_succ]
  by_cases h : o = i
  · rw [h]; simp
  · rw [if_neg h, if_neg]
    exact fun h' => h (ravel_inj hi ho h').symm

lemma dfDy_shape (n k : ℕ) (e : Eqn α) : (J.dfDy fx n k e).shape = fx ++ readShape e k := rfl

lemma dfDy_get (n k : ℕ) (e : Eqn α) {i y o : List ℕ} (hi : InRange i fx) (hy : InRange y (readShape e k)) (ho : InRange o e.out)
    (h : if e.isReshape then ravel e.out o = ravel (readShape e k) y else o = y) :
    (J.dfDy fx n k e).get (i ++ y) = J.ctsIn (seedAt fx i) n o := by
  unfold Jaxpr.dfDy
  dsimp only
  rw [reshape_get _ _ (j := ravel fx i :: y) (by exact List.Forall₂.cons (ravel_lt hi) hy) (by rw [ravel_append hi.length]; rfl)]
  simp only [List.headD_cons, List.tail_cons]
  split_ifs at h ⊢ with hr
  · have hy' : InRange y (e.shapes.getD k []) := by simpa [readShape, hr] using hy
    have h' : ravel e.out o = ravel (e.shapes.getD k []) y := by simpa [readShape, hr] using h
    rw [reshape_get _ _ (j := o) ho h'.symm]
    rfl
  · rw [← h]
    rfl

lemma dfDyId_get {i y : List ℕ} (hi : InRange i fx) (hy : InRange y fx) : (Jaxpr.dfDyId fx : Arr α).get (i ++ y) = if y = i then 1 else 0 := by
  unfold Jaxpr.dfDyId
  rw [reshape_get _ _ (j := ravel fx i :: y) (by exact List.Forall₂.cons (ravel_lt hi) hy) (by rw [ravel_append hi.length]; rfl)]
  exact seedAt_get hi hy

/-! ### The Jacobian as a sum over uses -/

/-- What a use contributes to the Jacobian. -/
def useTerm (J : Jaxpr α) (fx : List ℕ) (x : ℕ × ℕ) (i w : List ℕ) : α :=
  match J.eqns[x.1]? with
  | none => 0
  | some e => ∑ o ∈ box e.out, J.ctsIn (seedAt fx i) x.1 o * e.jac x.2 o w

lemma sum_filter_list {β M : Type} [AddCommMonoid M] (p : β → Bool) (f : β → M) (l : List β) :
    ((l.filter p).map f).sum = (l.map fun x => if p x then f x else 0).sum := by
  induction l with
  | nil => rfl
  | cons a l ih =>
    by_cases ha : p a = true
    · rw [List.filter_cons_of_pos ha, List.map_cons, List.sum_cons, ih, List.map_cons, List.sum_cons, if_pos ha]
    · rw [List.filter_cons_of_neg ha, ih, List.map_cons, List.sum_cons, if_neg ha, zero_add]

lemma jacobianEntry_eq (h : Typed J fx) {l : ℕ} {i w : List ℕ} (hi : InRange i fx) (hw : InRange w (J.params.getD l [])) :
    jacobianEntry J l i w = ((J.uses l).map fun x => useTerm J fx x i w).sum + if J.out = .param l then (if i = w then 1 else 0) else 0 := by
  have ad := adjoint (u := fun l' w' => if l' = l ∧ w' = w then (1 : α) else 0) h (seedAt fx i)
  have e1 : ∑ o ∈ box fx, seedAt fx i o * outValue J (fun l' w' => if l' = l ∧ w' = w then (1 : α) else 0) o = jacobianEntry J l i w := by
    rw [Finset.sum_congr rfl fun o ho => by rw [seedAt_get hi (mem_box.1 ho)]]
    simp only [ite_mul, one_mul, zero_mul, Finset.sum_ite_eq', mem_box.2 hi, if_true]
    rfl
  rw [← e1, ad]
  congr 1
  · unfold Jaxpr.uses
    rw [List.map_flatMap, List.flatMap_def, List.sum_flatten, List.map_map, List.map_reverse, List.sum_reverse, sum_range_list]
    refine Finset.sum_congr rfl fun n hn => ?_
    obtain ⟨e, he⟩ : ∃ e, J.eqns[n]? = some e := ⟨_, List.getElem?_eq_getElem (Finset.mem_range.1 hn)⟩
    simp only [Function.comp, paramAt]
    rw [he]
    dsimp only
    rw [List.map_map, sum_filter_list, sum_range_list]
    unfold paramPart
    refine Finset.sum_congr rfl fun k hk => ?_
    have hk := Finset.mem_range.1 hk
    have e1 : e.args[k]? = some e.args[k] := List.getElem?_eq_getElem hk
    rw [List.getD_eq_getElem _ _ hk]
    simp only [Function.comp, useTerm]
    rw [he, e1]
    cases ha : e.args[k] with
    | const => simp
    | var v => simp
    | param l' =>
      simp only [decide_eq_true_eq, Option.some.injEq, Operand.param.injEq]
      obtain ⟨-, hs⟩ := h.param n _ he k l' (by rw [e1, ha])
      by_cases hll : l' = l
      · subst hll
        rw [if_pos rfl]
        refine Finset.sum_congr rfl fun o _ => ?_
        simp only [true_and, mul_ite, mul_one, mul_zero, Finset.sum_ite_eq', hs, mem_box.2 hw, if_true]
      · rw [if_neg hll]
        refine Finset.sum_eq_zero fun o _ => Finset.sum_eq_zero fun i _ => ?_
        simp [hll]
  · unfold paramOut
    cases ho : J.out with
    | const => simp
    | var v => simp
    | param l' =>
      obtain ⟨hl, hs⟩ := h.outParam l' ho
      simp only [Operand.param.injEq]
      by_cases hll : l' = l
      · subst hll
        rw [hs] at hw
        rw [if_pos rfl]
        simp only [true_and, mul_ite, mul_one, mul_zero, Finset.sum_ite_eq', mem_box.2 hw, if_true]
        rw [seedAt_get hi hw]
        exact if_congr eq_comm rfl rfl
      · rw [if_neg hll]
        refine Finset.sum_eq_zero fun o _ => ?_
        simp [hll]

end
end NT.Emp
