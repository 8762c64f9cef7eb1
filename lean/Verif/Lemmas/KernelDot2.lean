import Verif.Lemmas.KernelDot
import Verif.Lemmas.Box

/-!
# The arrays that `Kernel.dot_general` computes
-/

namespace NT.KernelDot
open NT Arr Spec Einsum
open scoped BigOperators

variable {C : Contraction} {ds : Bool} {bn : ℕ}

/-- Inputs of shape `s` and an array of shape `t` can be contracted. -/
structure Match (C : Contraction) (s t : List ℕ) : Prop where
  len : t.length = C.no
  eq : ∀ j ∈ C.obs ++ C.ocs, t.getD j 0 = s.getD ((C.bs ++ C.cs).getD ((C.obs ++ C.ocs).idxOf j) 0) 0

/-- The summed labels. -/
def sumLabels (C : Contraction) (ds : Bool) (bn : ℕ) : List ℤ :=
  if ds then [] else C.cs.map (fun a => (Dims.of C ds).kdim a bn true) ++ C.cs.map fun a => (Dims.of C ds).kdim a bn false

lemma cs_lt (hC : C.Ok) {a : ℕ} (h : a ∈ C.cs) : a < C.n ∧ a ≠ C.ca ∧ a ≠ C.ba :=
  ⟨hC.lt a (by simp [h]), fun e => hC.chan (by simp [← e, h]), fun e => hC.batch (e ▸ h)⟩

lemma mem_sumLabels (h : ds = true → C.cs = []) {l : ℤ} :
    l ∈ sumLabels C ds bn ↔ ∃ left, ∃ a ∈ C.cs, l = (Dims.of C ds).kdim a bn left := by
  unfold sumLabels
  cases ds
  · simp only [Bool.false_eq_true, if_false, List.mem_append, List.mem_map, Bool.exists_bool]
    constructor
    · rintro (⟨a, ha, rfl⟩ | ⟨a, ha, rfl⟩)
      · exact .inr ⟨a, ha, rfl⟩
      · exact .inl ⟨a, ha, rfl⟩
    · rintro (⟨a, ha, rfl⟩ | ⟨a, ha, rfl⟩)
      · exact .inr ⟨a, ha, rfl⟩
      · exact .inl ⟨a, ha, rfl⟩
  · simp [h rfl]

lemma sumLabels_nodup (hC : C.Ok) (hbn : bn = 1 ∨ bn = 2) : (sumLabels C ds bn).Nodup := by
  have hcs : C.cs.Nodup := (List.nodup_append.1 hC.nodup).2.1
  have inj : ∀ s, (C.cs.map fun a => (Dims.of C ds).kdim a bn s).Nodup := fun s => hcs.map_on fun x hx y hy h =>
    kdim_inj hC hbn (cs_lt hC hx).1 (cs_lt hC hx).2.1 (cs_lt hC hy).1 (cs_lt hC hy).2.1 h
  unfold sumLabels
  cases ds
  · simp only [Bool.false_eq_true, if_false]
    rw [List.nodup_append]
    refine ⟨inj true, inj false, ?_⟩
    intro l h1 l' h2 e
    subst e
    obtain ⟨a, ha, rfl⟩ := List.mem_map.1 h1
    obtain ⟨a', ha', e⟩ := List.mem_map.1 h2
    have h3 := cs_lt hC ha
    have h4 := cs_lt hC ha'
    have := (kdim_inj' hC hbn h4.1 h4.2.1 h3.1 h3.2.1 h4.2.2 e).2 rfl
    cases this
  · simp

lemma inRange_map {ι : Type} {l : List ι} {f g : ι → ℕ} : InRange (l.map f) (l.map g) ↔ ∀ x ∈ l, f x < g x := by
  unfold InRange
  rw [List.forall₂_map_left_iff, List.forall₂_map_right_iff, List.forall₂_same]

/-- The axes of the inputs and the array on which the contraction depends are distinct. -/
lemma axes_nodup (hC : C.Ok) : (C.outAxes ++ C.cs.map Sum.inl).Nodup := by
  rw [List.nodup_append]
  refine ⟨outAxes_nodup hC, (List.nodup_append.1 hC.nodup).2.1.map Sum.inl_injective, ?_⟩
  rintro x hx y hy rfl
  obtain ⟨a, ha, rfl⟩ := List.mem_map.1 hy
  rcases mem_outAxes.1 hx with ⟨a', ha', e⟩ | ⟨j, hj, e⟩
  · simp only [Sum.inl.injEq] at e; subst e; exact ((mem_keep hC).1 ha').2.2.2 ha
  · simp at e

lemma coord_map (hC : C.Ok) {P c : List ℕ} (hP : P.length = C.outAxes.length) (hc : c.length = C.cs.length) :
    C.outAxes.map (C.coord P c) = P ∧ C.cs.map (fun a => C.coord P c (.inl a)) = c := by
  have := map_assign (C.outAxes ++ C.cs.map Sum.inl) (P ++ c) (axes_nodup hC) (by simp [hP, hc])
  rw [List.map_append, List.map_map] at this
  exact List.append_inj this (by simp [hP])

lemma coord_lt (hC : C.Ok) {s t P c : List ℕ} (hP : InRange P (C.outShape s t)) (hc : InRange c (C.cs.map (s.getD · 0))) {x : ℕ ⊕ ℕ}
    (hx : x ∈ C.outAxes ++ C.cs.map Sum.inl) : C.coord P c x < Sum.elim (s.getD · 0) (t.getD · 0) x := by
  have hP' : P.length = C.outAxes.length := by simpa [Contraction.outShape] using hP.length_eq
  have hc' : c.length = C.cs.length := by simpa using hc.length_eq
  obtain ⟨e1, e2⟩ := coord_map hC hP' hc'
  rcases List.mem_append.1 hx with h | h
  · unfold Contraction.outShape at hP
    have e3 : InRange (C.outAxes.map (C.coord P c)) (C.outAxes.map (Sum.elim (s.getD · 0) (t.getD · 0))) := by rw [e1]; exact hP
    exact inRange_map.1 e3 x h
  · obtain ⟨a, ha, rfl⟩ := List.mem_map.1 h
    have e3 : InRange (C.cs.map fun a => C.coord P c (.inl a)) (C.cs.map (s.getD · 0)) := by rw [e2]; exact hc
    exact inRange_map.1 e3 a ha

lemma inPos_inRange (hC : C.Ok) {s t P c : List ℕ} (hP : InRange P (C.outShape s t)) (hc : InRange c (C.cs.map (s.getD · 0))) :
    InRange (C.inPos P c) ((spatialAxes C.n C.ba C.ca).map (s.getD · 0)) := by
  unfold Contraction.inPos
  rw [inRange_map]
  intro a ha
  obtain ⟨h1, h2, h3⟩ := mem_spatialAxes.1 ha
  have := coord_lt (x := .inl a) hC hP hc (by
    by_cases e : a ∈ C.cs
    · exact List.mem_append_right _ (List.mem_map_of_mem e)
    · exact List.mem_append_left _ (mem_outAxes.2 (.inl ⟨a, (mem_keep hC).2 ⟨h1, h2, h3, e⟩, rfl⟩)))
  simpa using this

/-- The coordinates along the axes of the inputs. -/
def inVal (C : Contraction) (i : ℕ) (P c : List ℕ) (a : ℕ) : ℕ := if a = C.ba then i else C.coord P c (.inl a)

lemma inVal_out (hC : C.Ok) {i : ℕ} {P c : List ℕ} (hP : P.length = C.outAxes.length) (hc : c.length = C.cs.length) :
    C.outAxes.map (Sum.elim (inVal C i P c) fun j => C.coord P c (.inr j)) = P := by
  rw [← (coord_map hC hP hc).1]
  conv_lhs => rw [(coord_map hC hP hc).1]
  refine List.map_congr_left fun x hx => ?_
  rcases mem_outAxes.1 hx with ⟨a, ha, rfl⟩ | ⟨j, hj, rfl⟩
  · simp [inVal, keep_ne ha]
  · rfl

lemma inVal_sp {i : ℕ} {P c : List ℕ} : (spatialAxes C.n C.ba C.ca).map (inVal C i P c) = C.inPos P c := by
  refine List.map_congr_left fun a ha => ?_
  simp [inVal, (mem_spatialAxes.1 ha).2.1]

lemma inVal_cs (hC : C.Ok) {i : ℕ} {P c : List ℕ} (hP : P.length = C.outAxes.length) (hc : c.length = C.cs.length) :
    C.cs.map (inVal C i P c) = c := by
  have := (coord_map hC hP hc).2
  calc C.cs.map (inVal C i P c) = C.cs.map (fun a => C.coord P c (.inl a)) :=
        List.map_congr_left fun a ha => by simp [inVal, (cs_lt hC ha).2.2]
    _ = c := this

lemma pos_nat (p q : List ℕ) : pos ds false p q = sp2 ds p q := by cases ds <;> simp [pos, sp2]

/-- `dot` computes the covariances of the contractions. -/
lemma dot_holds (hC : C.Ok) (hbn : bn = 1 ∨ bn = 2) (hcs : ds = true → C.cs = []) {rev : Bool} (hr : rev = true → ds = false)
    {s s' t t' : List ℕ} {o o' mat : Arr ℝ} (ho : o.shape = t) (ho' : o'.shape = t') (ht : Match C s t) (ht' : Match C s' t')
    (hb : bn = 1 → s.getD C.ba 0 = s'.getD C.ba 0) (hsq : ds = true → C.outShape s t = C.outShape s' t')
    {F : List ℕ → List ℕ → List ℕ → ℝ}
    (hm : Holds mat (batchVals bn (s.getD C.ba 0) (s'.getD C.ba 0)) ((spatialAxes C.n C.ba C.ca).map (s.getD · 0))
      ((spatialAxes C.n C.ba C.ca).map (s'.getD · 0)) ds rev fun b => F (dbl b)) :
    ∃ y, (Dims.of C ds).dot rev bn mat (some o) (some o') = .ok y ∧
      Holds y (batchVals bn (s.getD C.ba 0) (s'.getD C.ba 0)) (C.outShape s t) (C.outShape s' t') ds false
        fun b => C.covar s s' o.get o'.get F (dbl b) := by
  have hfree : ds = true → ∀ j, j < C.no → j ∉ C.obs ++ C.ocs → t.getD j 0 = t'.getD j 0 := by
    intro h j hj hj'
    have := hsq h
    unfold Contraction.outShape at this
    exact List.map_inj_left.1 this (.inr j) (mem_outAxes.2 (.inr ⟨j, mem_freeO.2 ⟨hj, hj'⟩, rfl⟩))
  have hcomp : Compat C ds bn (s.getD · 0) (s'.getD · 0) (t.getD · 0) (t'.getD · 0) :=
    ⟨hbn, hb, fun h a ha => List.map_inj_left.1 (hm.square h) a ha, hfree⟩
  have hmn : mat.ndim = bn + (if ds then 1 else 2) * (spatialAxes C.n C.ba C.ca).length := by
    show mat.shape.length = _
    rw [hm.shape, List.length_append]
    congr 1
    · rcases hbn with rfl | rfl <;> rfl
    · cases ds <;> cases rev <;> simp [pos, interleave_length]
  have hnz : mat.ndim ≠ 0 := by rw [hmn]; rcases hbn with rfl | rfl <;> omega
  unfold Dims.dot
  rw [if_neg (by simp [hnz])]
  simp only
  generalize hML : (if rev = true then reverseZippedList ((List.range mat.ndim).map fun i : ℕ => (i : ℤ)) bn
    else (List.range mat.ndim).map fun i : ℕ => (i : ℤ)) = ML
  have hMmem : ∀ l, l ∈ ML ↔ ∃ left, ∃ a, a < C.n ∧ a ≠ C.ca ∧ l = (Dims.of C ds).kdim a bn left := by
    intro l; rw [← hML]; exact mem_matLabels hC hbn rev hr hmn
  have hMlab : ∀ {eL eR wL wR : ℕ → ℕ}, Compat C ds bn eL eR wL wR → ML.map (lab C ds bn eL eR wL wR) =
      batchVals bn (eL C.ba) (eR C.ba) ++ pos ds rev ((spatialAxes C.n C.ba C.ca).map eL) ((spatialAxes C.n C.ba C.ca).map eR) := by
    intro eL eR wL wR h; rw [← hML]; exact matLabels_lab hC h rev hr hmn
  have hopsmem : ∀ l, (l ∈ (([(o, (Dims.of C ds).otherLabels bn true)] ++ [(mat, ML)] ++ [(o', (Dims.of C ds).otherLabels bn false)]).flatMap
      fun o : Arr ℝ × List ℤ => o.2)) ↔ (∃ left, ∃ a, a < C.n ∧ a ≠ C.ca ∧ l = (Dims.of C ds).kdim a bn left) ∨
      ∃ left, ∃ j, j < C.no ∧ j ∉ C.obs ++ C.ocs ∧ l = neg C ds j left := by
    intro l
    have e : (([(o, (Dims.of C ds).otherLabels bn true)] ++ [(mat, ML)] ++ [(o', (Dims.of C ds).otherLabels bn false)]).flatMap
      fun o : Arr ℝ × List ℤ => o.2) = (Dims.of C ds).otherLabels bn true ++ (ML ++ (Dims.of C ds).otherLabels bn false) := by simp
    rw [e, List.mem_append, List.mem_append, hMmem]
    constructor
    · rintro (h | h | h)
      · rcases mem_otherLabels hC true h with ⟨a, h⟩ | ⟨j, h⟩
        · exact .inl ⟨true, a, h⟩
        · exact .inr ⟨true, j, h⟩
      · exact .inl h
      · rcases mem_otherLabels hC false h with ⟨a, h⟩ | ⟨j, h⟩
        · exact .inl ⟨false, a, h⟩
        · exact .inr ⟨false, j, h⟩
    · rintro (h | ⟨left, j, h1, h2, rfl⟩)
      · exact .inr (.inl h)
      · cases left
        · exact .inr (.inr (neg_mem_otherLabels hC false h1 h2))
        · exact .inl (neg_mem_otherLabels hC true h1 h2)
  have hoshape : ∀ {s t : List ℕ}, Match C s t → t = (List.range C.no).map fun j => if j ∈ C.obs ++ C.ocs then
      s.getD ((C.bs ++ C.cs).getD ((C.obs ++ C.ocs).idxOf j) 0) 0 else t.getD j 0 := by
    intro s t h
    refine List.ext_getElem (by simp [h.len]) fun k h1 h2 => ?_
    simp only [List.getElem_map, List.getElem_range]
    have e : t.getD k 0 = t[k] := by rw [List.getD, List.getElem?_eq_getElem h1]; rfl
    split_ifs with hj
    · rw [← h.eq k hj, e]
    · rw [e]
  obtain ⟨y, hy, hys, hyv⟩ := einsum_ok ([(o, (Dims.of C ds).otherLabels bn true)] ++ [(mat, ML)] ++
      [(o', (Dims.of C ds).otherLabels bn false)]) ((Dims.of C ds).outLabels bn)
      (lab C ds bn (s.getD · 0) (s'.getD · 0) (t.getD · 0) (t'.getD · 0)) (by
        intro x hx
        simp only [List.cons_append, List.nil_append, List.mem_cons, List.not_mem_nil, or_false] at hx
        rcases hx with rfl | rfl | rfl
        · simp only
          rw [otherLabels_lab hC hcomp true, ho]
          exact hoshape ht
        · simp only
          rw [hMlab hcomp]
          exact hm.shape
        · simp only
          rw [otherLabels_lab hC hcomp false, ho']
          exact hoshape ht')
      (by
        intro l hl
        rw [hopsmem]
        rcases (mem_outLabels hC hbn).1 hl with ⟨left, a, h1, h2, -, h3⟩ | h
        · exact .inl ⟨left, a, h1, h2, h3⟩
        · exact .inr h)
      (outLabels_nodup hC hbn) (sumLabels C ds bn) (sumLabels_nodup hC hbn) (by
        intro l
        rw [hopsmem, mem_outLabels hC hbn, mem_sumLabels hcs]
        constructor
        · rintro ⟨left, a, ha, rfl⟩
          obtain ⟨h1, h2, h3⟩ := cs_lt hC ha
          refine ⟨.inl ⟨left, a, h1, h2, rfl⟩, ?_⟩
          rintro (⟨left', a', g1, g2, g3, e⟩ | ⟨left', j, g1, g2, e⟩)
          · exact g3 (kdim_inj hC hbn h1 h2 g1 g2 e ▸ ha)
          · have := kdim_nonneg (C := C) (ds := ds) (bn := bn) a left
            have h2 := neg_neg' (C := C) (ds := ds) j left'
            omega
        · rintro ⟨⟨left, a, h1, h2, rfl⟩ | ⟨left, j, h1, h2, rfl⟩, hn⟩
          · refine ⟨left, a, ?_, rfl⟩
            by_contra hcon
            exact hn (.inl ⟨left, a, h1, h2, hcon, rfl⟩)
          · exact absurd (.inr ⟨left, j, h1, h2, rfl⟩) hn)
  refine ⟨y, hy, by simp [Contraction.outShape], hsq, ?_, ?_⟩
  · rw [hys, outLabels_lab hC hcomp, pos_nat]
    rfl
  · intro b P Q hbr hP hQ hPQ
    have hP' : P.length = C.outAxes.length := by simpa [Contraction.outShape] using hP.length_eq
    have hQ' : Q.length = C.outAxes.length := by simpa [Contraction.outShape] using hQ.length_eq
    have hbv : b = batchVals bn ((dbl b).getD 0 0) ((dbl b).getD 1 0) ∧ (bn = 1 → (dbl b).getD 0 0 = (dbl b).getD 1 0) := by
      have hl := hbr.length_eq
      rcases hbn with rfl | rfl
      · simp only [batchVals, if_true] at hl ⊢
        match b, hl with
        | [i], _ => exact ⟨rfl, fun _ => rfl⟩
      · simp only [batchVals] at hl ⊢
        match b, hl with
        | [i, j], _ => exact ⟨rfl, fun h => by simp at h⟩
    obtain ⟨hbv1, hbv2⟩ := hbv
    set i := (dbl b).getD 0 0 with hi
    set j := (dbl b).getD 1 0 with hj
    have hval : ∀ c c' x : List ℕ, InRange c (C.cs.map (s.getD · 0)) → InRange c' (C.cs.map (s'.getD · 0)) → x = (if ds then [] else c ++ c') →
        (([(o, (Dims.of C ds).otherLabels bn true)] ++ [(mat, ML)] ++ [(o', (Dims.of C ds).otherLabels bn false)]).map
          fun z : Arr ℝ × List ℤ => z.1.get (z.2.map (assign ((Dims.of C ds).outLabels bn ++ sumLabels C ds bn)
            (b ++ pos ds false P Q ++ x)))).prod =
        o.get (C.otherIdx i P c) * F (dbl b) (C.inPos P c) (C.inPos Q c') * o'.get (C.otherIdx j Q c') := by
      intro c c' x hc hc' hx
      have hcl : c.length = C.cs.length := by simpa using hc.length_eq
      have hcl' : c'.length = C.cs.length := by simpa using hc'.length_eq
      have hcc : ds = true → C.coord P c = C.coord Q c' := by
        intro h
        have e1 : c = [] := List.length_eq_zero_iff.1 (by rw [hcl, hcs h]; rfl)
        have e2 : c' = [] := List.length_eq_zero_iff.1 (by rw [hcl', hcs h]; rfl)
        rw [e1, e2, hPQ h]
      have hcv : Compat C ds bn (inVal C i P c) (inVal C j Q c') (fun j => C.coord P c (.inr j)) (fun j => C.coord Q c' (.inr j)) := by
        refine ⟨hbn, fun h => ?_, fun h a ha => ?_, fun h j _ _ => ?_⟩
        · simpa [inVal] using hbv2 h
        · simp [inVal, (mem_spatialAxes.1 ha).2.1, hcc h]
        · simp only [hcc h]
      generalize hτ : lab C ds bn (inVal C i P c) (inVal C j Q c') (fun j => C.coord P c (.inr j)) (fun j => C.coord Q c' (.inr j)) = τ
      have ebb : batchVals bn (inVal C i P c C.ba) (inVal C j Q c' C.ba) = b := by
        conv_rhs => rw [hbv1]
        simp [inVal]
      have eout : ((Dims.of C ds).outLabels bn).map τ = b ++ pos ds false P Q := by
        rw [← hτ, outLabels_lab hC hcv, inVal_out hC hP' hcl, inVal_out hC hQ' hcl', pos_nat, ebb]
      have esum : (sumLabels C ds bn).map τ = x := by
        rw [hx]
        unfold sumLabels
        cases ds
        · simp only [Bool.false_eq_true, if_false, List.map_append, List.map_map]
          congr 1
          · conv_rhs => rw [← inVal_cs (i := i) hC hP' hcl]
            refine List.map_congr_left fun a ha => ?_
            simp only [Function.comp, ← hτ]
            simpa using lab_kdim hC hcv (cs_lt hC ha).1 (cs_lt hC ha).2.1 true
          · conv_rhs => rw [← inVal_cs (i := j) hC hQ' hcl']
            refine List.map_congr_left fun a ha => ?_
            simp only [Function.comp, ← hτ]
            simpa using lab_kdim hC hcv (cs_lt hC ha).1 (cs_lt hC ha).2.1 false
        · simp
      have eass : ∀ l, ((∃ left, ∃ a, a < C.n ∧ a ≠ C.ca ∧ l = (Dims.of C ds).kdim a bn left) ∨
          ∃ left, ∃ j, j < C.no ∧ j ∉ C.obs ++ C.ocs ∧ l = neg C ds j left) →
          assign ((Dims.of C ds).outLabels bn ++ sumLabels C ds bn) (b ++ pos ds false P Q ++ x) l = τ l := by
        intro l hl
        rw [← eout, ← esum, ← List.map_append]
        refine assign_map _ _ ?_
        rw [List.mem_append, mem_outLabels hC hbn, mem_sumLabels hcs]
        rcases hl with ⟨left, a, h1, h2, rfl⟩ | h
        · by_cases e : a ∈ C.cs
          · exact .inr ⟨left, a, e, rfl⟩
          · exact .inl (.inl ⟨left, a, h1, h2, e, rfl⟩)
        · exact .inl (.inr h)
      have eo : ∀ left, ((Dims.of C ds).otherLabels bn left).map (assign ((Dims.of C ds).outLabels bn ++ sumLabels C ds bn)
          (b ++ pos ds false P Q ++ x)) = ((Dims.of C ds).otherLabels bn left).map τ := by
        intro left
        refine List.map_congr_left fun l hl => eass l ?_
        rcases mem_otherLabels hC left hl with ⟨a, h⟩ | ⟨j, h⟩
        · exact .inl ⟨left, a, h⟩
        · exact .inr ⟨left, j, h⟩
      have em : ML.map (assign ((Dims.of C ds).outLabels bn ++ sumLabels C ds bn) (b ++ pos ds false P Q ++ x)) = ML.map τ :=
        List.map_congr_left fun l hl => eass l (.inl ((hMmem l).1 hl))
      have v1 : ((Dims.of C ds).otherLabels bn true).map τ = C.otherIdx i P c := by
        rw [← hτ, otherLabels_lab hC hcv true]
        rfl
      have v2 : ((Dims.of C ds).otherLabels bn false).map τ = C.otherIdx j Q c' := by
        rw [← hτ, otherLabels_lab hC hcv false]
        rfl
      have v3 : mat.get (ML.map τ) = F (dbl b) (C.inPos P c) (C.inPos Q c') := by
        rw [← hτ, hMlab hcv, inVal_sp, inVal_sp, ebb]
        exact hm.get b _ _ hbr (inPos_inRange hC hP hc) (inPos_inRange hC hQ hc') fun h => by
          unfold Contraction.inPos; rw [hcc h]
      simp only [List.cons_append, List.nil_append, List.map_cons, List.map_nil, List.prod_cons, List.prod_nil, mul_one, eo, em, v1, v2, v3]
      ring
    have hlen : (b ++ pos ds false P Q).length = ((Dims.of C ds).outLabels bn).length := by
      rw [outLabels_eq hC hbn, List.length_append, List.length_append, batchLabels_length hbn, sp2_length _ _ (by simp), pos_nat,
        sp2_length _ _ (by rw [hP', hQ']), List.length_map, hP']
      congr 1
      rw [hbr.length_eq]
      rcases hbn with rfl | rfl <;> rfl
    rw [hyv _ hlen]
    unfold Contraction.covar
    cases hds : ds
    · subst hds
      have e : (sumLabels C false bn).map (lab C false bn (s.getD · 0) (s'.getD · 0) (t.getD · 0) (t'.getD · 0)) =
          C.cs.map (s.getD · 0) ++ C.cs.map (s'.getD · 0) := by
        simp only [sumLabels, Bool.false_eq_true, if_false, List.map_append, List.map_map]
        congr 1 <;> refine List.map_congr_left fun a ha => ?_
        · simpa using lab_kdim hC hcomp (cs_lt hC ha).1 (cs_lt hC ha).2.1 true
        · simpa using lab_kdim hC hcomp (cs_lt hC ha).1 (cs_lt hC ha).2.1 false
      rw [e, box_sum_append]
      refine Finset.sum_congr rfl fun c hc => Finset.sum_congr rfl fun c' hc' => ?_
      exact hval c c' (c ++ c') (mem_box.1 hc) (mem_box.1 hc') (by simp)
    · subst hds
      have h0 := hcs rfl
      have h1 := hval [] [] [] (by rw [h0]; exact List.Forall₂.nil) (by rw [h0]; exact List.Forall₂.nil) (by simp)
      rw [h0]
      simp only [List.map_nil, sumLabels, if_true, sum_box_nil] at h1 ⊢
      exact h1

end NT.KernelDot
