import Verif.Lemmas.KernelDot2
import Verif.Lemmas.Linear
import Verif.Lemmas.Dot

/-!
# Contractions of activations
-/

namespace NT.KernelDot
open NT Arr Spec Einsum MeasureTheory
open scoped BigOperators

variable {C : Contraction}

/-- Inserting the batch and channel coordinates where they belong. -/
lemma actIdx_filter {ι : Type} [DecidableEq ι] (l : List ι) (hl : l.Nodup) {a b : ℕ} {X Y : ι} (hX : l[a]? = some X) (hY : l[b]? = some Y)
    (hne : X ≠ Y) (f : ι → ℕ) : actIdx a b (f X) (f Y) ((l.filter fun z => z ≠ X ∧ z ≠ Y).map f) = l.map f ∧ a ≠ b := by
  have hab : a ≠ b := by rintro rfl; rw [hX] at hY; exact hne (by simpa using hY)
  have ins : ∀ (u w : List ℕ) (x : ℕ), (u ++ w).insertIdx u.length x = u ++ x :: w := by
    intro u w x; induction u with
    | nil => rfl
    | cons c u ih => simp [ih]
  have filt : ∀ (u : List ι), (∀ z ∈ u, z ≠ X ∧ z ≠ Y) → u.filter (fun z => z ≠ X ∧ z ≠ Y) = u := by
    intro u hu; rw [List.filter_eq_self]; intro z hz; simpa using hu z hz
  -- split the list at the two positions
  have split : ∀ {a b : ℕ} {X Y : ι}, l[a]? = some X → l[b]? = some Y → a < b →
      ∃ u v w, l = u ++ X :: (v ++ Y :: w) ∧ u.length = a ∧ a + 1 + v.length = b := by
    intro a b X Y hX hY hab
    obtain ⟨ha, hXa⟩ := List.getElem?_eq_some_iff.1 hX
    obtain ⟨hb, hYb⟩ := List.getElem?_eq_some_iff.1 hY
    refine ⟨l.take a, (l.drop (a + 1)).take (b - a - 1), l.drop (b + 1), ?_, by simp; omega, by simp; omega⟩
    conv_lhs => rw [← List.take_append_drop a l, List.drop_eq_getElem_cons ha, hXa]
    congr 2
    conv_lhs => rw [← List.take_append_drop (b - a - 1) (l.drop (a + 1))]
    congr 1
    rw [List.drop_drop, show a + 1 + (b - a - 1) = b by omega, List.drop_eq_getElem_cons hb, hYb]
  have out : ∀ {X' Y' : ι} {u v w : List ι}, l = u ++ X' :: (v ++ Y' :: w) → (∀ z ∈ u ++ (v ++ w), z ≠ X' ∧ z ≠ Y') := by
    intro X' Y' u v w e z hz
    rw [e] at hl
    simp only [List.nodup_append, List.nodup_cons, List.mem_append, List.mem_cons] at hl hz
    obtain ⟨-, ⟨h1, -, ⟨h2, -⟩, h3⟩, h4⟩ := hl
    rcases hz with hz | hz | hz
    · exact ⟨h4 z hz X' (.inl rfl), h4 z hz Y' (.inr (.inr (.inl rfl)))⟩
    · exact ⟨fun e => h1 (.inl (e ▸ hz)), h3 z hz Y' (.inl rfl)⟩
    · exact ⟨fun e => h1 (.inr (.inr (e ▸ hz))), fun e => h2 (e ▸ hz)⟩
  refine ⟨?_, hab⟩
  unfold actIdx
  rcases lt_or_gt_of_ne hab with h | h
  · obtain ⟨u, v, w, e, h1, h2⟩ := split hX hY h
    have ho := out e
    have ef : l.filter (fun z => z ≠ X ∧ z ≠ Y) = u ++ (v ++ w) := by
      rw [← filt _ ho, e]
      simp only [List.filter_append, List.filter_cons]
      simp
    rw [if_pos h, ef, e]
    simp only [List.map_append, List.map_cons]
    have e1 := ins (u.map f) (v.map f ++ w.map f) (f X)
    rw [List.length_map, h1] at e1
    rw [e1]
    have e2 := ins (u.map f ++ f X :: v.map f) (w.map f) (f Y)
    rw [show (u.map f ++ f X :: v.map f).length = b by simp; omega] at e2
    simpa using e2
  · obtain ⟨u, v, w, e, h1, h2⟩ := split hY hX h
    have ho := out e
    have ef : l.filter (fun z => z ≠ X ∧ z ≠ Y) = u ++ (v ++ w) := by
      have ho' : ∀ z ∈ u ++ (v ++ w), z ≠ X ∧ z ≠ Y := fun z hz => ⟨(ho z hz).2, (ho z hz).1⟩
      rw [← filt _ ho', e]
      simp only [List.filter_append, List.filter_cons]
      simp
    rw [if_neg (by omega), ef, e]
    simp only [List.map_append, List.map_cons]
    have e1 := ins (u.map f) (v.map f ++ w.map f) (f Y)
    rw [List.length_map, h1] at e1
    rw [e1]
    have e2 := ins (u.map f ++ f Y :: v.map f) (w.map f) (f X)
    rw [show (u.map f ++ f Y :: v.map f).length = a by simp; omega] at e2
    simpa using e2

/-- All axes of the result of `lax.dot_general`. -/
def outFull (C : Contraction) : List (ℕ ⊕ ℕ) :=
  let free := (C22.free C.n C.cs C.bs).map Sum.inl
  if C.isLhs then C.bs.map Sum.inl ++ (freeO C).map Sum.inr ++ free else C.bs.map Sum.inl ++ free ++ (freeO C).map Sum.inr

/-- The position of an axis of the inputs in the result. -/
def after (C : Contraction) (a : ℕ) : ℕ := Utils.axisAfterDot a C.cs C.bs (if C.isLhs then some C.no else none)

/-- The axes as counted by C22. -/
def orig (C : Contraction) : C22.Origin → ℕ ⊕ ℕ
  | .batch k => .inl (C.bs.getD k 0)
  | .lhs a => if C.isLhs then .inr a else .inl a
  | .rhs a => if C.isLhs then .inl a else .inr a

lemma freeO_eq : freeO C = C22.free C.no C.ocs C.obs := rfl

lemma bs_getD (C : Contraction) : (List.range C.bs.length).map (fun k => C.bs.getD k 0) = C.bs := by
  refine List.ext_getElem (by simp) fun k h1 h2 => ?_
  simp only [List.getElem_map, List.getElem_range]
  rw [List.getD, List.getElem?_eq_getElem h2]; rfl

lemma getD_idxOf {l : List ℕ} {a : ℕ} (h : a ∈ l) : l.getD (l.idxOf a) 0 = a := by
  have := List.idxOf_lt_length_of_mem h
  rw [List.getD, List.getElem?_eq_getElem this]
  simp

lemma admissible (hC : C.Ok) : C22.Admissible C.n C.cs C.bs :=
  ⟨(List.perm_append_comm.nodup_iff).1 hC.nodup, fun a ha => hC.lt a (by simpa [or_comm] using ha)⟩

lemma admissibleO (hC : C.Ok) : C22.Admissible C.no C.ocs C.obs :=
  ⟨(List.perm_append_comm.nodup_iff).1 hC.onodup, fun a ha => hC.olt a (by simpa [or_comm] using ha)⟩

lemma outFull_after (hC : C.Ok) {a : ℕ} (ha : a < C.n) (hc : a ∉ C.cs) : (outFull C)[after C a]? = some (.inl a) := by
  have hb := bs_getD C
  unfold outFull after
  cases hl : C.isLhs
  · have h := C22.axisAfterDot_lhs C.n C.no C.cs C.bs C.ocs C.obs (admissible hC) a ha hc
    have e : (C22.outputAxes C.n C.no C.cs C.bs C.ocs C.obs).map (orig C) =
        C.bs.map Sum.inl ++ (C22.free C.n C.cs C.bs).map Sum.inl ++ (freeO C).map Sum.inr := by
      unfold C22.outputAxes
      simp only [List.map_append, List.map_map, freeO_eq]
      congr 2
      · conv_rhs => rw [← hb]
        rw [List.map_map]
        rfl
      · exact List.map_congr_left fun x _ => by simp [orig, hl]
      · funext x; simp [orig, hl]
    simp only [Bool.false_eq_true, if_false]
    rw [← e, List.getElem?_map, h]
    split_ifs with hm
    · simp only [Option.map_some, orig, getD_idxOf hm]
    · simp [orig, hl]
  · have h := C22.axisAfterDot_rhs C.no C.n C.ocs C.obs C.cs C.bs (admissibleO hC) (admissible hC) hC.lenB hC.lenC a ha hc
    have e : (C22.outputAxes C.no C.n C.ocs C.obs C.cs C.bs).map (orig C) =
        C.bs.map Sum.inl ++ (freeO C).map Sum.inr ++ (C22.free C.n C.cs C.bs).map Sum.inl := by
      unfold C22.outputAxes
      simp only [List.map_append, List.map_map, freeO_eq]
      congr 2
      · conv_rhs => rw [← hb]
        rw [List.map_map, hC.lenB]
        rfl
      · exact List.map_congr_left fun x _ => by simp [orig, hl]
      · funext x; simp [orig, hl]
    simp only [if_true]
    rw [← e, List.getElem?_map, h]
    split_ifs with hm
    · simp only [Option.map_some, orig, getD_idxOf hm]
    · simp [orig, hl]

lemma mem_outFull (hC : C.Ok) {x : ℕ ⊕ ℕ} : x ∈ outFull C ↔ (∃ a, a < C.n ∧ a ∉ C.cs ∧ x = .inl a) ∨ ∃ j ∈ freeO C, x = .inr j := by
  have hb : ∀ a ∈ C.bs, a < C.n ∧ a ∉ C.cs := fun a ha =>
    ⟨hC.lt a (by simp [ha]), fun h => (List.nodup_append.1 hC.nodup).2.2 a ha a h rfl⟩
  have key : x ∈ outFull C ↔ x ∈ C.bs.map Sum.inl ∨ x ∈ (C22.free C.n C.cs C.bs).map Sum.inl ∨ x ∈ (freeO C).map Sum.inr := by
    unfold outFull
    split_ifs <;> simp only [List.mem_append] <;> tauto
  rw [key]
  simp only [List.mem_map, C22.free, List.mem_filter, List.mem_range, decide_eq_true_eq]
  constructor
  · rintro (⟨a, h, rfl⟩ | ⟨a, h, rfl⟩ | ⟨j, h, rfl⟩)
    · exact .inl ⟨a, (hb a h).1, (hb a h).2, rfl⟩
    · exact .inl ⟨a, h.1, h.2.1, rfl⟩
    · exact .inr ⟨j, h, rfl⟩
  · rintro (⟨a, h1, h2, rfl⟩ | ⟨j, h, rfl⟩)
    · by_cases h : a ∈ C.bs
      · exact .inl ⟨a, h, rfl⟩
      · exact .inr (.inl ⟨a, ⟨h1, h2, h⟩, rfl⟩)
    · exact .inr (.inr ⟨j, h, rfl⟩)

lemma outFull_nodup (hC : C.Ok) : (outFull C).Nodup := by
  have hB : (C.bs.map (Sum.inl (β := ℕ))).Nodup := (List.nodup_append.1 hC.nodup).1.map Sum.inl_injective
  have hF : ((C22.free C.n C.cs C.bs).map (Sum.inl (β := ℕ))).Nodup := (List.nodup_range.filter _).map Sum.inl_injective
  have hO : ((freeO C).map (Sum.inr (α := ℕ))).Nodup := (List.nodup_range.filter _).map Sum.inr_injective
  have hBF : ∀ a ∈ C.bs, a ∉ C22.free C.n C.cs C.bs := by
    intro a ha hb
    simp only [C22.free, List.mem_filter, decide_eq_true_eq] at hb
    exact hb.2.2 ha
  unfold outFull
  split_ifs
  · simp only [List.nodup_append, List.mem_append, List.mem_map]
    refine ⟨⟨hB, hO, ?_⟩, hF, ?_⟩
    · rintro _ ⟨a, -, rfl⟩ _ ⟨b, -, rfl⟩; simp
    · rintro _ (⟨a, ha, rfl⟩ | ⟨a, -, rfl⟩) _ ⟨b, hb, rfl⟩
      · simp only [ne_eq, Sum.inl.injEq]; rintro rfl; exact hBF a ha hb
      · simp
  · simp only [List.nodup_append, List.mem_append, List.mem_map]
    refine ⟨⟨hB, hF, ?_⟩, hO, ?_⟩
    · rintro _ ⟨a, ha, rfl⟩ _ ⟨b, hb, rfl⟩
      simp only [ne_eq, Sum.inl.injEq]; rintro rfl; exact hBF a ha hb
    · rintro _ (⟨a, ha, rfl⟩ | ⟨a, -, rfl⟩) _ ⟨b, hb, rfl⟩ <;> simp

lemma outFull_filter (hC : C.Ok) : (outFull C).filter (fun z => z ≠ .inl C.ba ∧ z ≠ .inl C.ca) = C.outAxes := by
  have hfB : (C.bs.map (Sum.inl (β := ℕ))).filter (fun z => z ≠ .inl C.ba ∧ z ≠ .inl C.ca) = (keepB C).map Sum.inl := by
    unfold keepB
    rw [List.filter_map]
    congr 1
    refine List.filter_congr fun a ha => ?_
    have : a ≠ C.ca := fun e => hC.chan (by simp [← e, ha])
    simp [this]
  have hfF : ((C22.free C.n C.cs C.bs).map (Sum.inl (β := ℕ))).filter (fun z => z ≠ .inl C.ba ∧ z ≠ .inl C.ca) = (keepF C).map Sum.inl := by
    unfold keepF C22.free
    rw [List.filter_map, List.filter_filter]
    congr 1
    refine List.filter_congr fun a _ => ?_
    rw [Bool.eq_iff_iff]
    simp only [Function.comp, ne_eq, Sum.inl.injEq, Bool.and_eq_true, decide_eq_true_eq]
    tauto
  have hfO : ((freeO C).map (Sum.inr (α := ℕ))).filter (fun z => z ≠ .inl C.ba ∧ z ≠ .inl C.ca) = (freeO C).map Sum.inr := by
    rw [List.filter_eq_self]
    intro x hx
    obtain ⟨j, -, rfl⟩ := List.mem_map.1 hx
    simp
  rw [outAxes_eq]
  unfold outFull
  split_ifs
  · rw [List.filter_append, List.filter_append, hfB, hfF, hfO]
  · rw [List.filter_append, List.filter_append, hfB, hfF, hfO]

/-- Coordinates of the activations. -/
def fullVal (C : Contraction) (i ch : ℕ) (P c : List ℕ) : ℕ ⊕ ℕ → ℕ
  | .inl a => if a = C.ba then i else if a = C.ca then ch else C.coord P c (.inl a)
  | .inr j => C.coord P c (.inr j)

lemma fullVal_out (hC : C.Ok) {i ch : ℕ} {P c : List ℕ} (hP : P.length = C.outAxes.length) (hc : c.length = C.cs.length) :
    (outFull C).map (fullVal C i ch P c) = actIdx (after C C.ba) (after C C.ca) i ch P := by
  have hca : C.ca ∉ C.cs := fun h => hC.chan (by simp [h])
  have := (actIdx_filter (outFull C) (outFull_nodup hC) (outFull_after hC hC.ba hC.batch) (outFull_after hC hC.ca hca)
    (by simp [hC.ne]) (fullVal C i ch P c)).1
  rw [← this, outFull_filter hC]
  have e1 : fullVal C i ch P c (.inl C.ba) = i := by simp [fullVal]
  have e2 : fullVal C i ch P c (.inl C.ca) = ch := by simp [fullVal, Ne.symm hC.ne]
  rw [e1, e2]
  congr 1
  conv_rhs => rw [← (coord_map hC hP hc).1]
  refine List.map_congr_left fun x hx => ?_
  rcases mem_outAxes.1 hx with ⟨a, ha, rfl⟩ | ⟨j, hj, rfl⟩
  · simp [fullVal, keep_ne ha, ((mem_keep hC).1 ha).2.2.1]
  · rfl

lemma spatialAxes_filter (n ba ca : ℕ) : spatialAxes n ba ca = (List.range n).filter (fun a => a ≠ ba ∧ a ≠ ca) := by
  unfold spatialAxes
  exact List.filter_congr fun a _ => by simp

lemma fullVal_in (hC : C.Ok) {i ch : ℕ} {P c : List ℕ} :
    (List.range C.n).map (fun a => fullVal C i ch P c (.inl a)) = actIdx C.ba C.ca i ch (C.inPos P c) := by
  have := (actIdx_filter (List.range C.n) List.nodup_range (a := C.ba) (b := C.ca) (X := C.ba) (Y := C.ca) (by simp [hC.ba]) (by simp [hC.ca]) hC.ne
    fun a => fullVal C i ch P c (.inl a)).1
  rw [← this]
  have e1 : fullVal C i ch P c (.inl C.ba) = i := by simp [fullVal]
  have e2 : fullVal C i ch P c (.inl C.ca) = ch := by simp [fullVal, Ne.symm hC.ne]
  rw [e1, e2, ← spatialAxes_filter]
  congr 1
  refine List.map_congr_left fun a ha => ?_
  obtain ⟨-, h2, h3⟩ := mem_spatialAxes.1 ha
  simp [fullVal, h2, h3]

lemma fullVal_cs (hC : C.Ok) {i ch : ℕ} {P c : List ℕ} (hP : P.length = C.outAxes.length) (hc : c.length = C.cs.length) :
    C.cs.map (fun a => fullVal C i ch P c (.inl a)) = c := by
  calc C.cs.map (fun a => fullVal C i ch P c (.inl a)) = C.cs.map (fun a => C.coord P c (.inl a)) :=
        List.map_congr_left fun a ha => by simp [fullVal, (cs_lt hC ha).2.2, (cs_lt hC ha).2.1]
    _ = c := (coord_map hC hP hc).2

lemma otherIdx_full (hC : C.Ok) {i ch : ℕ} {P c : List ℕ} : C.otherIdx i P c = (List.range C.no).map fun j =>
    if j ∈ C.obs ++ C.ocs then fullVal C i ch P c (.inl ((C.bs ++ C.cs).getD ((C.obs ++ C.ocs).idxOf j) 0)) else fullVal C i ch P c (.inr j) := by
  unfold Contraction.otherIdx
  refine List.map_congr_left fun j _ => ?_
  split_ifs with h
  · simp only [fullVal]
    have := pair_chan hC (pair_mem hC h)
    rw [if_neg this]
  · rfl

lemma gather_range_map (n : ℕ) (f : ℕ → ℕ) (l : List ℕ) (h : ∀ a ∈ l, a < n) : gather l ((List.range n).map f) = l.map f := by
  unfold gather
  refine List.map_congr_left fun a ha => ?_
  have := h a ha
  simp [List.getD, this]

/-- The paired axes of the array, in order. -/
lemma pair_map (hC : C.Ok) {β : Type} (g : ℕ → β) :
    C.obs.map (fun j => g ((C.bs ++ C.cs).getD ((C.obs ++ C.ocs).idxOf j) 0)) = C.bs.map g ∧
      C.ocs.map (fun j => g ((C.bs ++ C.cs).getD ((C.obs ++ C.ocs).idxOf j) 0)) = C.cs.map g := by
  have h : (C.obs ++ C.ocs).map (fun j => g ((C.bs ++ C.cs).getD ((C.obs ++ C.ocs).idxOf j) 0)) = (C.bs ++ C.cs).map g := by
    refine List.ext_getElem (by simp [hC.lenB, hC.lenC]) fun k h1 h2 => ?_
    simp only [List.getElem_map]
    rw [hC.onodup.idxOf_getElem, List.getD, List.getElem?_eq_getElem (by simpa using h2)]
    rfl
  rw [List.map_append, List.map_append] at h
  exact List.append_inj h (by simp [hC.lenB])

/-- `lax.dot_general` computes the contraction. -/
lemma dot_act (hC : C.Ok) {s t : List ℕ} (x o : Arr ℝ) (hx : x.shape = s) (hs : s.length = C.n) (ho : o.shape = t) (ht : Match C s t) :
    ∃ y, (if C.isLhs then Arr.dotGeneral o x C.ocs C.cs C.obs C.bs else Arr.dotGeneral x o C.cs C.ocs C.bs C.obs) = .ok y ∧
      y.shape = actIdx (after C C.ba) (after C C.ca) (s.getD C.ba 0) (s.getD C.ca 0) (C.outShape s t) ∧
      ∀ i ch P, P.length = C.outAxes.length → y.get (actIdx (after C C.ba) (after C C.ca) i ch P) =
        C.contract s o.get (fun i p => x.get (actIdx C.ba C.ca i ch p)) i P := by
  have hxn : x.ndim = C.n := by show x.shape.length = _; rw [hx, hs]
  have hon : o.ndim = C.no := by show o.shape.length = _; rw [ho, ht.len]
  have hfI : freeAxes C.n (C.bs ++ C.cs) = C22.free C.n C.cs C.bs := by
    unfold freeAxes C22.free
    refine List.filter_congr fun a _ => ?_
    rw [Bool.eq_iff_iff]
    simp
    tauto
  have hfO : freeAxes C.no (C.obs ++ C.ocs) = freeO C := by
    rw [freeO_eq]
    unfold freeAxes C22.free
    refine List.filter_congr fun a _ => ?_
    rw [Bool.eq_iff_iff]
    simp
    tauto
  have gpair : ∀ (g : ℕ → ℕ), (∀ j ∈ C.obs ++ C.ocs, t.getD j 0 = g ((C.bs ++ C.cs).getD ((C.obs ++ C.ocs).idxOf j) 0)) →
      gather C.obs t = C.bs.map g ∧ gather C.ocs t = C.cs.map g := by
    intro g hg
    rw [← (pair_map hC g).1, ← (pair_map hC g).2]
    exact ⟨List.map_congr_left fun j hj => hg j (by simp [hj]), List.map_congr_left fun j hj => hg j (by simp [hj])⟩
  have hcsz : gather C.cs x.shape = gather C.ocs o.shape := by
    rw [hx, ho, (gpair (s.getD · 0) ht.eq).2]; rfl
  have hbsz : gather C.bs x.shape = gather C.obs o.shape := by
    rw [hx, ho, (gpair (s.getD · 0) ht.eq).1]; rfl
  have hA : (C.bs ++ C.cs).Nodup ∧ ∀ k ∈ C.bs ++ C.cs, k < x.ndim := ⟨hC.nodup, by rw [hxn]; exact hC.lt⟩
  have hB : (C.obs ++ C.ocs).Nodup ∧ ∀ k ∈ C.obs ++ C.ocs, k < o.ndim := ⟨hC.onodup, by rw [hon]; exact hC.olt⟩
  -- the shape of the result
  have hshape : ∀ sh, sh = (outFull C).map (Sum.elim (s.getD · 0) (t.getD · 0)) →
      sh = actIdx (after C C.ba) (after C C.ca) (s.getD C.ba 0) (s.getD C.ca 0) (C.outShape s t) := by
    rintro _ rfl
    have hca : C.ca ∉ C.cs := fun h => hC.chan (by simp [h])
    have := (actIdx_filter (outFull C) (outFull_nodup hC) (outFull_after hC hC.ba hC.batch) (outFull_after hC hC.ca hca)
      (by simp [hC.ne]) (Sum.elim (s.getD · 0) (t.getD · 0))).1
    rw [← this, outFull_filter hC]
    rfl
  -- the coordinates that do not depend on the summed ones
  have hfix : ∀ i ch P c, P.length = C.outAxes.length → ∀ z ∈ outFull C,
      fullVal C i ch P c z = fullVal C i ch P (List.replicate C.cs.length 0) z := by
    intro i ch P c hP z hz
    have hcoord : ∀ z ∈ C.outAxes, C.coord P c z = C.coord P (List.replicate C.cs.length 0) z := by
      intro z hz
      unfold Contraction.coord
      rw [assign_append _ _ _ _ hP.symm, assign_append _ _ _ _ hP.symm, if_pos hz, if_pos hz]
    have hz' : z ∈ C.outAxes ∨ z = .inl C.ba ∨ z = .inl C.ca := by
      rw [← outFull_filter hC, List.mem_filter]
      simp only [decide_eq_true_eq]
      tauto
    rcases hz' with h | rfl | rfl
    · have hh := hcoord z h
      cases z with
      | inl a => simp only [fullVal]; rw [hh]
      | inr j => exact hh
    · simp [fullVal]
    · simp [fullVal]
  have hmapfix : ∀ i ch P c (l : List ℕ), P.length = C.outAxes.length → (∀ a ∈ l, (Sum.inl a : ℕ ⊕ ℕ) ∈ outFull C) →
      l.map (fun a => fullVal C i ch P c (.inl a)) = l.map fun a => fullVal C i ch P (List.replicate C.cs.length 0) (.inl a) :=
    fun i ch P c l hP hl => List.map_congr_left fun a ha => hfix i ch P c hP _ (hl a ha)
  have hbsOut : ∀ a ∈ C.bs, (Sum.inl a : ℕ ⊕ ℕ) ∈ outFull C := fun a ha => (mem_outFull hC).2 (.inl
    ⟨a, hC.lt a (by simp [ha]), fun h => (List.nodup_append.1 hC.nodup).2.2 a ha a h rfl, rfl⟩)
  have hfrOut : ∀ a ∈ C22.free C.n C.cs C.bs, (Sum.inl a : ℕ ⊕ ℕ) ∈ outFull C := fun a ha => by
    simp only [C22.free, List.mem_filter, List.mem_range, decide_eq_true_eq] at ha
    exact (mem_outFull hC).2 (.inl ⟨a, ha.1, ha.2.1, rfl⟩)
  -- the indices into the inputs and the array
  have hja : ∀ i ch P, P.length = C.outAxes.length → ∀ c, c.length = C.cs.length →
      (actIdx C.ba C.ca i ch (C.inPos P c)).length = C.n ∧
      gather C.bs (actIdx C.ba C.ca i ch (C.inPos P c)) = C.bs.map (fun a => fullVal C i ch P (List.replicate C.cs.length 0) (.inl a)) ∧
      gather (C22.free C.n C.cs C.bs) (actIdx C.ba C.ca i ch (C.inPos P c)) =
        (C22.free C.n C.cs C.bs).map (fun a => fullVal C i ch P (List.replicate C.cs.length 0) (.inl a)) ∧
      gather C.cs (actIdx C.ba C.ca i ch (C.inPos P c)) = c := by
    intro i ch P hP c hc
    rw [← fullVal_in hC]
    refine ⟨by simp, ?_, ?_, ?_⟩
    · rw [gather_range_map _ _ _ fun a ha => hC.lt a (by simp [ha])]
      exact hmapfix i ch P c _ hP hbsOut
    · rw [gather_range_map _ _ _ fun a ha => by simp only [C22.free, List.mem_filter, List.mem_range] at ha; exact ha.1]
      exact hmapfix i ch P c _ hP hfrOut
    · rw [gather_range_map _ _ _ fun a ha => hC.lt a (by simp [ha])]
      exact fullVal_cs hC hP hc
  have hjb : ∀ i ch P, P.length = C.outAxes.length → ∀ c, c.length = C.cs.length →
      (C.otherIdx i P c).length = C.no ∧
      gather C.obs (C.otherIdx i P c) = C.bs.map (fun a => fullVal C i ch P (List.replicate C.cs.length 0) (.inl a)) ∧
      gather (freeO C) (C.otherIdx i P c) = (freeO C).map (fun j => fullVal C i ch P (List.replicate C.cs.length 0) (.inr j)) ∧
      gather C.ocs (C.otherIdx i P c) = c := by
    intro i ch P hP c hc
    rw [otherIdx_full (ch := ch) hC]
    have hp := pair_map hC (fun a => fullVal C i ch P c (.inl a))
    refine ⟨by simp, ?_, ?_, ?_⟩
    · rw [gather_range_map _ _ _ fun a ha => hC.olt a (by simp [ha])]
      rw [← hmapfix i ch P c _ hP hbsOut, ← hp.1]
      exact List.map_congr_left fun j hj => by rw [if_pos (by simp [hj])]
    · rw [gather_range_map _ _ _ fun a ha => (mem_freeO.1 ha).1]
      refine List.map_congr_left fun j hj => ?_
      rw [if_neg (mem_freeO.1 hj).2]
      exact hfix i ch P c hP _ ((mem_outFull hC).2 (.inr ⟨j, hj, rfl⟩))
    · rw [gather_range_map _ _ _ fun a ha => hC.olt a (by simp [ha])]
      conv_rhs => rw [← fullVal_cs (i := i) (ch := ch) hC hP hc, ← hp.2]
      exact List.map_congr_left fun j hj => by rw [if_pos (by simp [hj])]
  cases hl : C.isLhs
  · obtain ⟨z, hz, hzs, hzv⟩ := dotGeneral_ok x o C.cs C.ocs C.bs C.obs hA hB hcsz hbsz
    rw [hxn, hon, hfI, hfO] at hzs
    rw [hxn, hon, hfI, hfO] at hzv
    refine ⟨z, by simpa using hz, hshape _ ?_, ?_⟩
    · rw [hzs, hx, ho]
      unfold outFull
      rw [hl]
      simp only [Bool.false_eq_true, if_false, List.map_append, List.map_map]
      rfl
    · intro i ch P hP
      have := hzv _ _ _ (fun c => actIdx C.ba C.ca i ch (C.inPos P c)) (fun c => C.otherIdx i P c) (by simp) (by simp)
        (hja i ch P hP) (hjb i ch P hP)
      rw [← fullVal_out (c := List.replicate C.cs.length 0) hC hP (by simp)]
      unfold outFull
      rw [hl]
      simp only [Bool.false_eq_true, if_false, List.map_append, List.map_map]
      refine this.trans ?_
      rw [sumOver_eq_box, hx]
      rfl
  · obtain ⟨z, hz, hzs, hzv⟩ := dotGeneral_ok o x C.ocs C.cs C.obs C.bs hB hA hcsz.symm hbsz.symm
    rw [hxn, hon, hfI, hfO] at hzs
    rw [hxn, hon, hfI, hfO] at hzv
    refine ⟨z, by simpa using hz, hshape _ ?_, ?_⟩
    · rw [hzs, hx, ho, ← ho, ← hbsz, hx, ho]
      unfold outFull
      rw [hl]
      simp only [if_true, List.map_append, List.map_map]
      rfl
    · intro i ch P hP
      have := hzv _ _ _ (fun c => C.otherIdx i P c) (fun c => actIdx C.ba C.ca i ch (C.inPos P c)) (by simp [hC.lenB]) (by simp)
        (fun c hc => hjb i ch P hP c (by rw [hc, hC.lenC])) (fun c hc => hja i ch P hP c (by rw [hc, hC.lenC]))
      rw [← fullVal_out (c := List.replicate C.cs.length 0) hC hP (by simp)]
      unfold outFull
      rw [hl]
      simp only [if_true, List.map_append, List.map_map]
      refine this.trans ?_
      rw [sumOver_eq_box, ← hcsz, hx]
      unfold Contraction.contract
      exact Finset.sum_congr rfl fun c _ => mul_comm _ _

end NT.KernelDot
