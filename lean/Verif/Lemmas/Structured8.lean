import Verif.Lemmas.Structured6
import Verif.Spec.Primitive
import Verif.Props.C76

/-!
# The rules of primitives and structured derivatives
-/

namespace NT.Emp
open NT NT.Spec NT.Rules NT.Structure
open NT.Arr

variable {α : Type} [Field α]

lemma expands_congr {s : Structure} {k : ℕ} {out inp : List ℕ} {j : Arr α} {J J' : List ℕ → List ℕ → α} (h : Expands s k out inp j J)
    (hJ : ∀ o i, InRange o out → InRange i inp → J' o i = J o i) : Expands s k out inp j J' :=
  ⟨h.shape, fun o i ho hi hn => (hJ o i ho hi).trans (h.zero o i ho hi hn), fun o i ho hi h1 h2 => (hJ o i ho hi).trans (h.get o i ho hi h1 h2)⟩

/-- What is needed of the structure. -/
structure Good (s : Structure) (k : ℕ) (out inp : List ℕ) : Prop where
  fits : FitsShapes s k out inp
  diagLen : s.inDiagonal.length = s.outDiagonal.length
  sortedTrace : s.inTrace.Pairwise (· < ·)
  sortedDiag : s.outDiagonal.Pairwise (· < ·)
  mild : ∀ a ∈ s.outBroadcast, a ∈ s.inTrace ∨ inp.getD a 1 = 1

lemma ruleOk_of {e : Eqn α} {k : ℕ} {f : Arr α → Except Err (Arr α)} {rule : List ℕ → Arr α → List ℕ → Except Err (Arr α)} {S : Except Err Structure}
    {s : Structure} {other : Arr α} {J : List ℕ → List ℕ → α} (h : Follows e k f rule S other) (hS : S = .ok s)
    (hr : RulesOk f rule s k e.shapes (e.shapes.getD k []) other e.out J) (hg : Good s k e.out (e.shapes.getD k [])) : RuleOk e k s := by
  have hrs : readShape e k = e.out := by simp [readShape, h.plain]
  have hrj : readJac e k = e.jac k := by simp [readJac, h.plain]
  refine ⟨?_, by rw [hrs]; exact hg.fits, hg.diagLen, hg.sortedTrace, hg.sortedDiag, hg.mild, by simp [h.plain], fun s' hs' => ?_⟩
  · rw [h.struct, hS]
    exact hr.checked
  · obtain ⟨j, h1, h2⟩ := hr.compact s' hs'
    refine ⟨j, by rw [h.dydw, h1], ?_⟩
    rw [hrs, hrj]
    exact expands_congr h2 fun o i ho hi => C76.jacobian_unique h.jac hr.jacobian ho hi

omit [Field α] in
lemma fitsShapes_of {s : Structure} {k : ℕ} {out inp : List ℕ} (h : Fits s inp out) (hd : s.outDiagonal = []) : FitsShapes s k out inp := by
  have h1 : diagPairs s k = [] := by simp [diagPairs, hd]
  have h2 : diagIns s k = [] := by simp [diagIns, h1]
  refine ⟨h.len, by rw [h1, hd]; rfl, by rw [hd, List.append_nil]; exact h.nodupO, by rw [h2, List.append_nil]; exact h.nodupI,
    by rw [hd, List.append_nil]; exact h.ltO, by rw [h2, List.append_nil]; exact h.ltI, h.agree.2 h.eq, by rw [h1]; exact fun p hp => by simp at hp, by rw [hd]; simp⟩

omit [Field α] in
lemma good_of {s : Structure} {k : ℕ} {out inp : List ℕ} (h : Fits s inp out) (hd : s.outDiagonal = []) (hd' : s.inDiagonal = []) (ht : s.inTrace.Pairwise (· < ·))
    (hm : ∀ a ∈ s.outBroadcast, a ∈ s.inTrace ∨ inp.getD a 1 = 1) : Good s k out inp :=
  ⟨fitsShapes_of h hd, by rw [hd, hd']; rfl, ht, by rw [hd]; exact List.Pairwise.nil, hm⟩

omit [Field α] in
lemma sorted_free (n : ℕ) (D : List ℕ) : (freeAxes n D).Pairwise (· < ·) := List.pairwise_lt_range.filter _

omit [Field α] in
lemma good_add {k : ℕ} {inp other : List ℕ} {s : Structure} (h : Operands inp other) (hs : addS k inp other = .ok s) : Good s k (bshape inp other) inp := by
  have hm := (C76.declarations_mild (.add h hs)).2
  unfold addS at hs
  by_cases h0 : other.length = 0
  · have h0' := List.length_eq_zero_iff.1 h0
    simp only [h0, if_true] at hs
    obtain rfl := Except.ok.inj hs
    refine good_of ⟨rfl, List.nodup_range, List.nodup_range, ?_, by simp, ?_, by simp⟩ rfl rfl List.pairwise_lt_range hm
    · rw [h0', bshape_nil_right]; simp
    · rw [h0', bshape_nil_right]
  · by_cases hi : inp.length = 0
    · simp only [h0, hi, if_false, if_true] at hs
      obtain rfl := Except.ok.inj hs
      exact good_of ⟨rfl, List.nodup_nil, List.nodup_nil, by simp, by simp, rfl, by simp⟩ rfl rfl List.Pairwise.nil hm
    · have hc : Compat inp other := by
        rcases h with h | h | h
        · exact absurd (by rw [h]; rfl) hi
        · exact absurd (by rw [h]; rfl) h0
        · exact h
      have hc1 := hc.1
      simp only [hi, hc.1, if_false, if_true] at hs
      rw [addLoop_ok 0 _ _ hc] at hs
      obtain rfl := Except.ok.inj hs
      simp only [Nat.add_zero, List.map_id'] at hm ⊢
      have hT : ∀ x ∈ full inp other, x < inp.length ∧ (other.getD x 0 = inp.getD x 0 ∨ other.getD x 0 = 1) := by
        intro x hx
        simpa [full] using hx
      refine good_of ⟨rfl, List.nodup_range.filter _, List.nodup_range.filter _, fun x hx => ?_, fun x hx => (hT x hx).1, ?_, fun x hx hb => ?_⟩ rfl rfl
        (List.pairwise_lt_range.filter _) hm
      · rw [bshape_length hc]; exact (hT x hx).1
      · refine gather_eq_iff.2 fun x hx => ?_
        obtain ⟨h1, h2⟩ := hT x hx
        rw [bshape_getD hc h1]
        split
        · omega
        · rfl
      · exact (mem_ones.1 hb).2 (hT x hx).2

omit [Field α] in
lemma good_dot {k : ℕ} (hk : k < 2) {C B oC oB inp oS : List ℕ} (hd : DotDims C B oC oB inp oS) :
    Good (dotS k C B oB inp.length oS.length) k (dotOut k C B oC oB inp oS) inp := by
  have h := dotOk_of (idx := k) hd
  rw [dotS_eq hk h]
  generalize dotOut k C B oC oB inp oS = out at h
  set s : Structure :=
    { inTrace := freeAxes inp.length (C ++ B)
      outTrace := outFree k inp.length oS.length C B oC oB
      inTraceIdxs := [k]
      inDiagonal := (List.range B.length).map (dotDiag k B oB)
      outDiagonal := List.range B.length }
  have ediag : diagPairs s k = (List.range B.length).map fun d => (d, B.getD d 0) := by
    unfold diagPairs
    show (((List.range B.length).zip ((List.range B.length).map (dotDiag k B oB))).filterMap _) = _
    rw [zip_map_self, List.filterMap_map, List.filterMap_eq_map_iff_forall_eq_some.2]
    intro d _
    simp only [Function.comp]
    rw [dotDiag_self hk]
    rfl
  have eins : diagIns s k = B := by
    unfold diagIns
    rw [ediag, List.map_map]
    refine List.ext_getElem (by simp) fun i h1 h2 => ?_
    simp only [List.getElem_map, List.getElem_range, Function.comp]
    exact List.getD_eq_getElem _ _ h2
  have hT : ∀ a ∈ outFree k inp.length oS.length C B oC oB, B.length ≤ a ∧ a < out.length := fun a ha => by
    have hN := h.len
    refine ⟨outFree_ge ha, ?_⟩
    unfold outFree at ha
    rw [List.mem_range'_1] at ha
    unfold offF at ha
    split at ha <;> omega
  refine ⟨⟨by simp [s, outFree], ?_, ?_, ?_, ?_, ?_, ?_, ?_, by simp [s]⟩, by simp [s], sorted_free _ _, List.pairwise_lt_range, by simp [s]⟩
  · rw [ediag, List.map_map]
    exact List.map_id _
  · refine List.nodup_append.2 ⟨outFree_nodup, List.nodup_range, fun a ha b hb => ?_⟩
    have h1 := (hT a ha).1
    have h2 := List.mem_range.1 hb
    omega
  · rw [eins]
    refine List.nodup_append.2 ⟨nodup_freeAxes _ _, (List.nodup_append.1 h.nodup).2.1, fun a ha b hb => ?_⟩
    rintro rfl
    exact (mem_freeAxes.1 ha).2 (List.mem_append_right _ hb)
  · intro a ha
    rcases List.mem_append.1 ha with h1 | h1
    · exact (hT a h1).2
    · exact (h.batchSize (List.mem_range.1 h1)).1
  · rw [eins]
    intro a ha
    rcases List.mem_append.1 ha with h1 | h1
    · exact (mem_freeAxes.1 h1).1
    · exact h.lt _ (List.mem_append_right _ h1)
  · exact (gather_inj_iff (by simp [s, outFree])).1 h.free
  · intro p hp
    rw [ediag] at hp
    obtain ⟨d, hd', rfl⟩ := List.mem_map.1 hp
    exact (h.batchSize (List.mem_range.1 hd')).2.2.2.1

omit [Field α] in
lemma good_mul {k : ℕ} (hk : k < 2) {inp other : List ℕ} {s : Structure} (h : Operands inp other) (hs : mulS k inp other = .ok s) : Good s k (bshape inp other) inp := by
  have key : ∀ T D : List ℕ, T.Pairwise (· < ·) → D.Pairwise (· < ·) → MulAxes inp other T D →
      Good { outTrace := T, inTrace := T, inTraceIdxs := [k], outDiagonal := D, inDiagonal := D.map fun i => [some i, some i] } k (bshape inp other) inp := by
    intro T D hT hD hax
    set s : Structure := { outTrace := T, inTrace := T, inTraceIdxs := [k], outDiagonal := D, inDiagonal := D.map fun i => [some i, some i] }
    have ediag : diagPairs s k = D.map fun d => (d, d) := by
      unfold diagPairs
      show ((D.zip (D.map _)).filterMap _) = _
      rw [zip_map_self, List.filterMap_map, List.filterMap_eq_map_iff_forall_eq_some.2]
      intro d _
      obtain rfl | rfl : k = 0 ∨ k = 1 := by omega
      · rfl
      · rfl
    have eins : diagIns s k = D := by
      unfold diagIns
      rw [ediag, List.map_map]
      exact List.map_id _
    have hlt : ∀ x ∈ T ++ D, x < inp.length := fun x hx => (List.mem_append.1 hx).elim (hax.traceLt x) fun h2 => (hax.diagLt x h2).1
    have hnd : (T ++ D).Nodup := List.nodup_append.2 ⟨hT.imp (fun h => Nat.ne_of_lt h), hD.imp (fun h => Nat.ne_of_lt h), fun a ha b hb => by
      rintro rfl
      exact hax.disj hb ha⟩
    refine ⟨⟨rfl, ?_, hnd, by rw [eins]; exact hnd, fun x hx => (hax.size h (List.mem_append.1 hx)).1, by rw [eins]; exact hlt, ?_, ?_, by simp [s]⟩, ?_, hT, hD, by simp [s]⟩
    · rw [ediag, List.map_map]
      exact List.map_id _
    · intro p hp
      have hp : p ∈ T.zip T := hp
      rw [List.zip_eq_zipWith, List.zipWith_self] at hp
      obtain ⟨a, ha, rfl⟩ := List.mem_map.1 hp
      exact (hax.size h (Or.inl ha)).2
    · intro p hp
      rw [ediag] at hp
      obtain ⟨a, ha, rfl⟩ := List.mem_map.1 hp
      exact (hax.size h (Or.inr ha)).2
    · simp [s]
  unfold mulS at hs
  by_cases h0 : other.length = 0
  · simp only [h0, if_true] at hs
    obtain rfl := Except.ok.inj hs
    refine key (List.range inp.length) [] List.pairwise_lt_range List.Pairwise.nil ⟨by simp, fun x _ hx => ?_, by simp, by simp, by simp⟩
    omega
  · by_cases hi : inp = []
    · subst hi
      rw [if_neg h0] at hs
      obtain rfl := Except.ok.inj hs
      exact key [] [] List.Pairwise.nil List.Pairwise.nil ⟨by simp, by simp, by simp, by simp, by simp⟩
    · have hc : Compat inp other := by
        rcases h with h | h | h
        · exact absurd h hi
        · exact absurd (by rw [h]; rfl) h0
        · exact h
      have hc1 := hc.1
      rw [if_neg h0, mulLoop_ok 0 _ _ hc] at hs
      obtain rfl := Except.ok.inj hs
      simp only [Nat.add_zero, List.map_id']
      refine key (unit inp other) (both inp other) (List.pairwise_lt_range.filter _) (List.pairwise_lt_range.filter _)
        ⟨fun x hx => (mem_unit.1 hx).1, fun x hx _ => (mem_unit.1 hx).2, fun x hx => ?_, fun x hx => (mem_both.1 hx).2.2, fun x hx => (mem_both.1 hx).2.1⟩
      have := (mem_both.1 hx).1
      exact ⟨this, by omega⟩

omit [Field α] in
lemma good_conv {p : ConvParams} {lhs inp : List ℕ} {s : Structure} (hv : p.Valid lhs inp) (hS : convS p 1 lhs inp = .ok s) :
    Good s 1 (convOut p lhs inp) inp := by
  have h := convOk_of hv
  have hO := h.outShape (lhs.getD (p.lhsSpec.getD 0 0) 0 / p.batchGroups) (inp.getD (p.rhsSpec.getD 0 0) 0) (ConvParams.spatial p.rhsSpec inp)
  have hlen : (convOut p lhs inp).length = inp.length := hO.1
  have hfe : (convOut p lhs inp).getD (p.outSpec.getD 1 0) 0 = inp.getD (p.rhsSpec.getD 0 0) 0 := hO.2.2.1
  have ho1 := h.O.one
  have hr0 := h.R.zero
  generalize convOut p lhs inp = out at *
  have hdiag : ∀ a, Good { inDiagonal := [[some a, some (p.rhsSpec.getD 0 0)]], outDiagonal := [p.outSpec.getD 1 0] } 1 out inp := fun a => by
    refine ⟨⟨rfl, rfl, by simp, List.nodup_singleton _, fun x hx => ?_, fun x hx => ?_, fun q hq => ?_, fun q hq => ?_, by simp⟩, rfl, List.Pairwise.nil, by simp, by simp⟩
    · obtain rfl := List.mem_singleton.1 hx
      omega
    · obtain rfl := List.mem_singleton.1 hx
      exact hr0
    · cases hq
    · obtain rfl := List.mem_singleton.1 hq
      exact hfe
  rcases convS_cases hS with ⟨a, rfl⟩ | rfl | rfl
  · exact hdiag a
  · refine ⟨⟨rfl, rfl, by simp, List.nodup_singleton _, fun x hx => ?_, fun x hx => ?_, fun q hq => ?_, fun q hq => ?_, by simp⟩, rfl, by simp, by simp, by simp⟩
    · obtain rfl := List.mem_singleton.1 hx
      omega
    · obtain rfl := List.mem_singleton.1 hx
      exact hr0
    · obtain rfl := List.mem_singleton.1 hq
      exact hfe
    · cases hq
  · exact good_of ⟨rfl, List.nodup_nil, List.nodup_nil, by simp, by simp, rfl, by simp⟩ rfl rfl List.Pairwise.nil (by simp)

lemma primitive_ok {e : Eqn α} {k : ℕ} (h : Primitive e k) : ∃ s, RuleOk e k s := by
  cases h with
  | @id inp other hs ho h =>
    have hg : e.shapes.getD 0 [] = inp := by rw [hs]; rfl
    refine ⟨_, ruleOk_of h rfl (J := _) (by rw [hg, ho, hs]; exact rules_eye inp other) ?_⟩
    rw [hg, ho]
    exact good_of (Rules.fits_eye 0 inp) rfl rfl List.pairwise_lt_range (by simp [eyeS])
  | @neg inp other hs ho h =>
    have hg : e.shapes.getD 0 [] = inp := by rw [hs]; rfl
    refine ⟨_, ruleOk_of h rfl (J := _) (by rw [hg, ho, hs]; exact rules_neg inp other) ?_⟩
    rw [hg, ho]
    exact good_of (Rules.fits_eye 0 inp) rfl rfl List.pairwise_lt_range (by simp [eyeS])
  | @transpose perm inp other hs ho hp h =>
    have hg : e.shapes.getD 0 [] = inp := by rw [hs]; rfl
    obtain ⟨s, J, h1, h2⟩ := rules_transpose hp other
    obtain ⟨s', h1', hO, hI, hd, hd', hB, hf⟩ := fits_transpose 0 hp
    rw [h1] at h1'
    obtain rfl := Except.ok.inj h1'
    refine ⟨s, ruleOk_of h (by rw [ho]; exact h1) (by rw [hg, ho, hs]; exact h2) ?_⟩
    rw [hg, ho]
    exact good_of hf hd hd' (by rw [hI]; exact List.pairwise_lt_range) (by rw [hB]; simp)
  | @squeeze dims inp other hs ho hd h =>
    have hg : e.shapes.getD 0 [] = inp := by rw [hs]; rfl
    obtain ⟨J, h2⟩ := rules_squeeze hd other
    rw [← ho] at h2
    refine ⟨_, ruleOk_of h rfl (by rw [hg, hs]; exact h2) ?_⟩
    rw [hg]
    refine good_of ⟨?_, List.nodup_range, nodup_free _ _, by simp [squeezeS], fun a ha => (mem_free.1 ha).1, ?_, by simp [squeezeS]⟩ rfl rfl (sorted_free _ _) (by simp [squeezeS])
    · simp [squeezeS, ho]
    · show gather (List.range e.out.length) e.out = _
      rw [gather_range_self _ _ rfl]
      exact ho
  | @reduceSum axes inp other hs ho hn hl h =>
    have hg : e.shapes.getD 0 [] = inp := by rw [hs]; rfl
    obtain ⟨J, h2⟩ := rules_reduceSum hn hl other
    rw [← ho] at h2
    refine ⟨_, ruleOk_of h rfl (by rw [hg, hs]; exact h2) ?_⟩
    rw [hg]
    refine good_of ⟨?_, List.nodup_range, nodup_free _ _, by simp [reduceSumS], fun a ha => (mem_free.1 ha).1, ?_, by simp [reduceSumS]⟩ rfl rfl (sorted_free _ _)
      (by simp [reduceSumS])
    · simp [reduceSumS, ho]
    · show gather (List.range e.out.length) e.out = _
      rw [gather_range_self _ _ rfl]
      exact ho
  | @broadcast dims inp other hs hn hl ho h =>
    have hg : e.shapes.getD 0 [] = inp := by rw [hs]; rfl
    obtain ⟨J, h2⟩ := rules_broadcast hn hl ho other
    refine ⟨_, ruleOk_of h rfl (by rw [hg, hs]; exact h2) ?_⟩
    rw [hg]
    refine good_of ⟨?_, hn, List.nodup_range, hl, by simp [broadcastS], ?_, fun a ha hb => (mem_free.1 hb).2 ha⟩ rfl rfl List.pairwise_lt_range
      (C76.declarations_mild (.broadcast hn ho)).2
    · simp [broadcastS, ← ho]
    · show _ = gather (List.range inp.length) inp
      rw [gather_range_self _ _ rfl]
      exact ho
  | @rev dims inp other hs ho hd h =>
    have hg : e.shapes.getD 0 [] = inp := by rw [hs]; rfl
    obtain ⟨J, h2⟩ := rules_rev hd other
    refine ⟨_, ruleOk_of h rfl (by rw [hg, hs, ho]; exact h2) ?_⟩
    rw [hg, ho]
    exact good_of (fits_free _ inp dims rfl rfl rfl rfl fun _ _ _ => rfl) rfl rfl (sorted_free _ _) (by simp [revS])
  | @pad cfg inp v other hs hc ho h =>
    obtain ⟨J, h2⟩ := rules_pad hc v e.shapes hs other
    rw [← ho] at h2
    refine ⟨_, ruleOk_of h rfl (by rw [hs]; exact h2) ?_⟩
    rw [hs]
    have hol : e.out.length = inp.length := by simp [ho]
    refine good_of ⟨rfl, List.nodup_range.filter _, List.nodup_range.filter _, ?_, ?_, ?_, by simp [padS]⟩ rfl rfl (List.pairwise_lt_range.filter _) (by simp [padS])
    · intro a ha
      exact List.mem_range.1 (List.mem_filter.1 ha).1
    · intro a ha
      rw [← hol]
      exact List.mem_range.1 (List.mem_filter.1 ha).1
    · refine gather_eq_iff.2 fun x hx => ?_
      obtain ⟨h1, h3⟩ := List.mem_filter.1 hx
      rw [List.mem_range, hol] at h1
      rw [ho, getD_mapIdx (fun x n => padSize _ n) _ _ h1, of_decide_eq_true h3, padSize_zero]
  | @concat sizes inp k dim others other hs hd hk hi hos ho h =>
    have hg : e.shapes.getD k [] = inp := by
      rw [hs, List.getD_eq_getElem _ _ (by simpa using hk), List.getElem_map, ← List.getD_eq_getElem _ 0 hk, ← hi, List.getD_eq_getElem _ _ hd]
      exact List.set_getElem_self hd
    obtain ⟨J, h2⟩ := rules_concat hd hk hi others (hos.trans hs) other
    rw [← ho] at h2
    refine ⟨_, ruleOk_of h rfl (by rw [hg, hs]; exact h2) ?_⟩
    rw [hg]
    have hol : e.out.length = inp.length := by simp [ho]
    have hO : (concatS sizes.length dim e.out).outTrace = freeAxes inp.length [dim] := by simp only [concatS, hol]
    refine good_of (fits_free _ inp [dim] hO hO rfl hol fun x hx hn => ?_) rfl rfl (sorted_free _ _) (by simp [concatS])
    rw [ho, getD_set_ne (by simpa using hn)]
  | @add isSub _ inp other hk hs hop ho h =>
    have hg : e.shapes.getD k [] = inp := by rw [hs]; exact operandShapes_getD hk _ _
    obtain ⟨s, J, h1, h2⟩ := rules_add isSub hk other hop
    refine ⟨s, ruleOk_of h h1 (by rw [hg, hs, ho]; exact h2) ?_⟩
    rw [hg, ho]
    exact good_add hop h1
  | @mul isDiv _ inp other hk hd hs hop ho h =>
    have hg : e.shapes.getD k [] = inp := by rw [hs]; exact operandShapes_getD hk _ _
    obtain ⟨s, h1, h2⟩ := rules_mul hk hd other hop
    refine ⟨s, ruleOk_of h h1 (by rw [hg, hs, ho]; exact h2) ?_⟩
    rw [hg, ho]
    exact good_mul hk hop h1
  | @dot _ C B oC oB inp other hk hs hd ho h =>
    have hg : e.shapes.getD k [] = inp := by rw [hs]; exact operandShapes_getD hk _ _
    refine ⟨_, ruleOk_of h rfl (by rw [hg, hs, ho]; exact rules_dot hk other hd) ?_⟩
    rw [hg, ho]
    exact good_dot hk hd
  | @conv p inp other hs hv hF ho h =>
    have hg : e.shapes.getD 1 [] = inp := by rw [hs]; rfl
    obtain ⟨s, h1⟩ := convS_ok hv
    refine ⟨s, ruleOk_of h h1 (by rw [hg, hs, ho]; exact rules_conv other hv hF h1) ?_⟩
    rw [hg, ho]
    exact good_conv hv h1
  | @window p inp other hs hv ho h =>
    have hg : e.shapes.getD 0 [] = inp := by rw [hs]; rfl
    obtain ⟨J, h2⟩ := rules_window hv other
    rw [← ho] at h2
    refine ⟨_, ruleOk_of h rfl (by rw [hg, hs]; exact h2) ?_⟩
    rw [hg]
    have hol : e.out.length = inp.length := by simp [ho, WindowParams.outShape]
    refine good_of ⟨rfl, List.nodup_range.filter _, List.nodup_range.filter _, ?_, ?_, ?_, by simp [windowS]⟩ rfl rfl (List.pairwise_lt_range.filter _) (by simp [windowS])
    · intro a ha
      exact List.mem_range.1 (List.mem_filter.1 ha).1
    · intro a ha
      rw [← hol]
      exact List.mem_range.1 (List.mem_filter.1 ha).1
    · refine gather_eq_iff.2 fun x hx => ?_
      obtain ⟨h1, h3⟩ := mem_windowS.1 hx
      rw [hol] at h1
      rw [ho]
      unfold WindowParams.outShape
      rw [getD_mapIdx (fun a n => p.outSize a n) _ _ h1, outSize_plain h3]
  | @reshape inp other hs ho hr hst hdw hj =>
    have hg : e.shapes.getD 0 [] = inp := by rw [hs]; rfl
    have hrs : readShape e 0 = inp := by rw [readShape, if_pos hr, hg]
    have hrj : readJac e 0 = fun y w => if y = w then 1 else 0 := by rw [readJac, if_pos hr]
    obtain ⟨s, J, h1, h2⟩ := rules_reshape ho other
    have hJ : IsJacobian (fun w => do (← w.reshapeE e.out).reshapeE inp) inp inp fun y w => if y = w then (1 : α) else 0 := by
      obtain ⟨c, hc⟩ := h2.jacobian
      refine isJacobian_of_read (fun _ => 0) fun w hw => ?_
      have e1 : w.reshapeE e.out = .ok (w.reshape e.out) := by unfold reshapeE; rw [if_pos (by rw [hw, ho])]
      have e2 : (w.reshape e.out).reshapeE inp = .ok ((w.reshape e.out).reshape inp) := by
        unfold reshapeE; rw [if_pos (show inp.prod = (w.reshape e.out).shape.prod from ho.symm)]
      refine ⟨(w.reshape e.out).reshape inp, by rw [e1]; exact e2, rfl, fun o hi => Or.inl ⟨o, hi, fun i _ hne => if_neg (Ne.symm hne), ?_⟩⟩
      have h3 := reshape_reshape_eqv w e.out (by rw [hw, ho])
      rw [hw] at h3
      rw [h3.2 o hi, if_pos rfl, zero_add, one_mul]
    obtain rfl := Except.ok.inj h1
    have hgood : Good (eyeS 0 inp inp) 0 inp inp := good_of (Rules.fits_eye 0 inp) rfl rfl List.pairwise_lt_range (by simp [eyeS])
    refine ⟨eyeS 0 inp inp, ?_, by rw [hrs, hg]; exact hgood.fits, hgood.diagLen, hgood.sortedTrace, hgood.sortedDiag, by rw [hg]; exact hgood.mild, fun _ => ?_, fun s' hs' => ?_⟩
    · rw [hst, hs]
      exact h2.checked
    · rw [hg]
      refine ⟨ho, fun o w hoo hw => ?_⟩
      refine C76.jacobian_unique hj (J' := fun o w => if ravel e.out o = ravel inp w then 1 else 0) ?_ hoo hw
      refine isJacobian_of_read (fun _ => 0) fun w hw => ?_
      refine ⟨w.reshape e.out, by unfold reshapeE; rw [if_pos (by rw [hw, ho])], rfl, fun o hoo => Or.inl ⟨unravel inp (ravel e.out o), ?_, fun i hi hne => ?_, ?_⟩⟩
      · exact inRange_unravel (by rw [← ho]; exact ravel_lt hoo)
      · refine if_neg fun he => hne ?_
        rw [he, unravel_ravel hi]
      · show w.get (unravel w.shape (ravel e.out o)) = _
        rw [ravel_unravel (by rw [← ho]; exact ravel_lt hoo), if_pos rfl, hw, zero_add, one_mul]
    · rw [hg] at hs'
      obtain ⟨j, j1, j2⟩ := h2.compact s' hs'
      refine ⟨j, by rw [hdw, j1], ?_⟩
      rw [hrs, hrj, hg]
      exact expands_congr j2 fun o i ho hi => C76.jacobian_unique hJ h2.jacobian ho hi
  | @other _ other hr hst hdw =>
    have hrs : readShape e k = e.out := by simp [readShape, hr]
    have hrj : readJac e k = e.jac k := by simp [readJac, hr]
    refine ⟨{}, ?_, ?_, rfl, List.Pairwise.nil, List.Pairwise.nil, by simp, by simp [hr], fun s' hs' => ?_⟩
    · rw [hst]
      unfold checked
      simp [gather]
    · exact fitsShapes_of ⟨rfl, List.nodup_nil, List.nodup_nil, by simp, by simp, rfl, by simp⟩ rfl
    · have hT : s'.outTrace = [] ∧ s'.inTrace = [] := by
        have h1 : tracePairs s' = [] := List.eq_nil_iff_forall_not_mem.2 fun p hp => by simpa [tracePairs] using hs'.trace p hp
        have h2 := congrArg List.length h1
        have h3 := hs'.traceLen
        rw [tracePairs, List.length_zip] at h2
        simp only [List.length_nil] at h2
        exact ⟨List.length_eq_zero_iff.1 (by omega), List.length_eq_zero_iff.1 (by omega)⟩
      have hD : s'.outDiagonal = [] ∧ s'.inDiagonal = [] := by
        have h1 := hs'.diag.length_le
        have h3 := hs'.diagLen
        rw [List.length_zip, List.length_zip] at h1
        simp only [List.length_nil] at h1
        exact ⟨List.length_eq_zero_iff.1 (by omega), List.length_eq_zero_iff.1 (by omega)⟩
      have hB : s'.outBroadcast = [] := List.eq_nil_iff_forall_not_mem.2 fun x hx => by simpa using hs'.broadcast x hx
      have e1 : trimIn s' k (e.shapes.getD k []) = e.shapes.getD k [] := by
        rw [trimIn_eq hs' [] (by simp [diagAxes, hD.2]), hT.2]
        exact trim_nil _
      have e2 : trimOut s' e.out = e.out := by
        unfold trimOut
        rw [hT.1, hD.1, hB]
        exact trim_nil _
      refine ⟨_, by rw [hdw]; unfold compact; rw [hD.2, e1, e2]; rfl, ?_⟩
      rw [hrs, hrj]
      have hp : diagPairs s' k = [] := by simp [diagPairs, hD.1]
      have hi : diagIns s' k = [] := by simp [diagIns, hp]
      have hq : tracePairs s' = [] := by simp [tracePairs, hT.1]
      refine ⟨?_, fun o i _ _ hn => ?_, fun o i ho _ _ _ => ?_⟩
      · rw [hT.1, hT.2, hB, hi, List.append_nil, trim_nil, trim_nil]
      · exact absurd ⟨by rw [hq]; simp [Agree], by rw [hp]; simp [Agree]⟩ hn
      · rw [hT.1, hT.2, hB, hi, List.append_nil, squash_nil, squash_nil]
        dsimp only
        rw [← ho.length, List.take_left, List.drop_left]

end NT.Emp
