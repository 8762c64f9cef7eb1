import Verif.Lemmas.Einsum
import Verif.Spec.Contract
import Verif.Lemmas.Axes2
import Verif.Lemmas.Layout
import Verif.Props.C22

/-!
# The labels of `Kernel.dot_general`
-/

namespace NT.KernelDot
open NT Arr Spec Einsum

/-- The arguments of the code for a contraction. -/
def Dims.of (C : Contraction) (ds : Bool) : Dims :=
  { n := C.n, ba := C.ba, ca := C.ca, ds := ds, no := C.no, inputC := C.cs, inputB := C.bs, otherC := C.ocs, otherB := C.obs,
    isLhs := C.isLhs }

variable {C : Contraction} {ds : Bool} {bn : ℕ}

/-- The position of an axis among the spatial axes. -/
def spIdx (ba ca a : ℕ) : ℕ := a - ((if ba < a then 1 else 0) + (if ca < a then 1 else 0))

lemma spIdx_get {n ba ca a : ℕ} (hne : ba ≠ ca) (ha : a < n) (h1 : a ≠ ba) (h2 : a ≠ ca) :
    (spatialAxes n ba ca)[spIdx ba ca a]? = some a := by
  have hnd : ([ba, ca] ++ ([] : List ℕ)).Nodup := by simp [hne]
  have e := C22.free_take n a [ba, ca] [] ha (by simp [h1, h2]) (by simp)
  have l := C22.free_length a [ba, ca] [] hnd (by simp)
  have e1 : C22.free n [ba, ca] [] = spatialAxes n ba ca := by
    unfold C22.free spatialAxes
    refine List.filter_congr fun x _ => ?_
    simp
  have e2 : (C22.free a [ba, ca] []).length = spIdx ba ca a := by
    unfold spIdx
    have : ([ba, ca].filter (· < a)).length = (if ba < a then 1 else 0) + (if ca < a then 1 else 0) := by
      by_cases c1 : ba < a <;> by_cases c2 : ca < a <;> simp [c1, c2]
    simp only [List.length_nil, List.filter_nil] at l
    omega
  rw [e1, e2] at e
  exact e

lemma mem_spatialAxes {n ba ca a : ℕ} : a ∈ spatialAxes n ba ca ↔ a < n ∧ a ≠ ba ∧ a ≠ ca := by simp [spatialAxes]

lemma spatialAxes_nodup (n ba ca : ℕ) : (spatialAxes n ba ca).Nodup := List.nodup_range.filter _

lemma map_spIdx {n ba ca : ℕ} (hne : ba ≠ ca) : (spatialAxes n ba ca).map (spIdx ba ca) = List.range (spatialAxes n ba ca).length := by
  refine List.ext_getElem (by simp) fun k h1 h2 => ?_
  rw [List.getElem_map, List.getElem_range]
  have hk : k < (spatialAxes n ba ca).length := by simpa using h2
  have hm := mem_spatialAxes.1 (List.getElem_mem hk)
  have := spIdx_get hne hm.1 hm.2.1 hm.2.2
  obtain ⟨h3, h4⟩ := List.getElem?_eq_some_iff.1 this
  exact (spatialAxes_nodup n ba ca).getElem_inj_iff.1 h4

/-- The value of a label, given the values along the axes of the inputs (`eL`, `eR`: first and second inputs) and along those of the
arrays (`wL`, `wR`). -/
def lab (C : Contraction) (ds : Bool) (bn : ℕ) (eL eR wL wR : ℕ → ℕ) (l : ℤ) : ℕ :=
  if l < 0 then (if (-l - 1).toNat < C.no then wL (-l - 1).toNat else wR ((-l - 1).toNat - C.no))
  else if l.toNat = 0 then eL C.ba
  else if l.toNat < bn then eR C.ba
  else if ds then eL ((spatialAxes C.n C.ba C.ca).getD (l.toNat - bn) 0)
  else if (l.toNat - bn) % 2 = 0 then eL ((spatialAxes C.n C.ba C.ca).getD ((l.toNat - bn) / 2) 0)
  else eR ((spatialAxes C.n C.ba C.ca).getD ((l.toNat - bn) / 2) 0)

/-- Values for the first and second inputs agree where there is only one axis for both. -/
structure Compat (C : Contraction) (ds : Bool) (bn : ℕ) (eL eR wL wR : ℕ → ℕ) : Prop where
  two : bn = 1 ∨ bn = 2
  batch : bn = 1 → eL C.ba = eR C.ba
  spatial : ds = true → ∀ a ∈ spatialAxes C.n C.ba C.ca, eL a = eR a
  other : ds = true → ∀ j, j < C.no → j ∉ C.obs ++ C.ocs → wL j = wR j

lemma kdim_spatial {a : ℕ} (h : a ≠ C.ba) (left : Bool) : (Dims.of C ds).kdim a bn left =
    ((bn + (if ds then 1 else 2) * spIdx C.ba C.ca a + (if !left && !ds then 1 else 0) : ℕ) : ℤ) := by
  unfold Dims.kdim Dims.of spIdx
  simp only [h, if_false]

lemma kdim_batch (left : Bool) : (Dims.of C ds).kdim C.ba bn left = if left || bn == 1 then 0 else 1 := by
  unfold Dims.kdim Dims.of
  simp

lemma kdim_nonneg (a : ℕ) (left : Bool) : 0 ≤ (Dims.of C ds).kdim a bn left := by
  by_cases h : a = C.ba
  · subst h; rw [kdim_batch]; split_ifs <;> simp
  · rw [kdim_spatial h]; exact Int.natCast_nonneg _

lemma lab_kdim (hC : C.Ok) {eL eR wL wR : ℕ → ℕ} (hc : Compat C ds bn eL eR wL wR) {a : ℕ} (ha : a < C.n) (hca : a ≠ C.ca) (left : Bool) :
    lab C ds bn eL eR wL wR ((Dims.of C ds).kdim a bn left) = if left then eL a else eR a := by
  have hbn := hc.two
  by_cases h : a = C.ba
  · subst h
    rw [kdim_batch]
    unfold lab
    rcases hbn with rfl | rfl
    · have := hc.batch rfl
      cases left <;> simp [this]
    · cases left <;> simp
  · have e := spIdx_get hC.ne ha h hca
    have e' : (spatialAxes C.n C.ba C.ca).getD (spIdx C.ba C.ca a) 0 = a := by simp [List.getD, e]
    have hsp := hc.spatial
    rw [kdim_spatial h]
    generalize hk : spIdx C.ba C.ca a = k at e'
    unfold lab
    rw [if_neg (by omega)]
    simp only [Int.toNat_natCast]
    rw [if_neg (by rcases hbn with rfl | rfl <;> omega), if_neg (by omega)]
    cases ds
    · simp only [Bool.false_eq_true, if_false, Bool.not_false, Bool.and_true]
      cases left
      · simp only [Bool.not_false, if_true, Bool.false_eq_true, if_false]
        rw [if_neg (by omega), show (bn + 2 * k + 1 - bn) / 2 = k by omega, e']
      · simp only [Bool.not_true, Bool.false_eq_true, if_false, if_true, add_zero]
        rw [if_pos (by omega), show (bn + 2 * k - bn) / 2 = k by omega, e']
    · simp only [if_true, Bool.not_true, Bool.and_false, Bool.false_eq_true, if_false, add_zero, one_mul, add_tsub_cancel_left]
      rw [e', hsp rfl a (mem_spatialAxes.2 ⟨ha, h, hca⟩)]
      simp

lemma kdim_inj (hC : C.Ok) (hbn : bn = 1 ∨ bn = 2) {a a' : ℕ} (ha : a < C.n) (hca : a ≠ C.ca) (ha' : a' < C.n) (hca' : a' ≠ C.ca)
    {s s' : Bool} (h : (Dims.of C ds).kdim a bn s = (Dims.of C ds).kdim a' bn s') : a = a' := by
  have hc : Compat C ds bn id id id id := ⟨hbn, fun _ => rfl, fun _ _ _ => rfl, fun _ _ _ _ => rfl⟩
  have h1 := lab_kdim hC hc ha hca s
  have h2 := lab_kdim hC hc ha' hca' s'
  rw [h, h2] at h1
  simpa using h1.symm

/-- The label of a free axis of the array. -/
def neg (C : Contraction) (ds : Bool) (j : ℕ) (left : Bool) : ℤ := -(j : ℤ) - 1 - (if left || ds then 0 else (C.no : ℤ))

lemma neg_neg' (j : ℕ) (left : Bool) : neg C ds j left < 0 := by
  unfold neg; split_ifs <;> omega

lemma lab_neg {eL eR wL wR : ℕ → ℕ} (hc : Compat C ds bn eL eR wL wR) {j : ℕ} (hj : j < C.no) (hf : j ∉ C.obs ++ C.ocs) (left : Bool) :
    lab C ds bn eL eR wL wR (neg C ds j left) = if left then wL j else wR j := by
  have ho := hc.other
  unfold lab
  rw [if_pos (neg_neg' j left)]
  unfold neg
  cases left <;> cases ds <;> simp only [Bool.or_false, Bool.or_true, Bool.false_eq_true, if_false, if_true]
  · rw [if_neg (by omega)]; congr 1; omega
  · rw [show (-(-(j : ℤ) - 1 - 0) - 1).toNat = j by omega, if_pos hj, ho rfl j hj hf]
  · rw [show (-(-(j : ℤ) - 1 - 0) - 1).toNat = j by omega, if_pos hj]
  · rw [show (-(-(j : ℤ) - 1 - 0) - 1).toNat = j by omega, if_pos hj]

lemma foldl_set (kd : ℕ → ℤ) (is js : List ℕ) (no : ℕ) (g : ℕ → ℤ) (hl : js.length = is.length) (hn : js.Nodup) (hlt : ∀ j ∈ js, j < no) :
    (is.zip js).foldl (fun dims p => dims.set p.2 (kd p.1)) ((List.range no).map g) =
      (List.range no).map fun j => if j ∈ js then kd (is.getD (js.idxOf j) 0) else g j := by
  induction js generalizing is g with
  | nil => simp
  | cons o js ih =>
    match is with
    | a :: is =>
      rw [List.nodup_cons] at hn
      have e : ((List.range no).map g).set o (kd a) = (List.range no).map (fun j => if j = o then kd a else g j) := by
        refine List.ext_getElem (by simp) fun k h1 h2 => ?_
        rw [List.getElem_set]
        simp only [List.getElem_map, List.getElem_range]
        by_cases e : o = k <;> simp [e, eq_comm]
      rw [List.zip_cons_cons, List.foldl_cons, e, ih is _ (by simpa using hl) hn.2 fun j hj => hlt j (by simp [hj])]
      refine List.map_congr_left fun j _ => ?_
      by_cases e1 : j = o
      · subst e1
        simp [hn.1]
      · by_cases e2 : j ∈ js
        · simp [e1, e2, List.idxOf_cons_ne _ (Ne.symm e1)]
        · simp [e1, e2]
    | [] => simp at hl

lemma otherLabels_eq (hC : C.Ok) (left : Bool) : (Dims.of C ds).otherLabels bn left = (List.range C.no).map fun j =>
    if j ∈ C.obs ++ C.ocs then (Dims.of C ds).kdim ((C.bs ++ C.cs).getD ((C.obs ++ C.ocs).idxOf j) 0) bn left else neg C ds j left := by
  have := foldl_set (fun a => (Dims.of C ds).kdim a bn left) (C.bs ++ C.cs) (C.obs ++ C.ocs) C.no (fun j => neg C ds j left)
    (by simp [hC.lenB, hC.lenC]) hC.onodup hC.olt
  rw [← this]
  rfl

lemma pair_mem (hC : C.Ok) {j : ℕ} (hj : j ∈ C.obs ++ C.ocs) : (C.bs ++ C.cs).getD ((C.obs ++ C.ocs).idxOf j) 0 ∈ C.bs ++ C.cs := by
  have h1 := List.idxOf_lt_length_of_mem hj
  have h2 : (C.obs ++ C.ocs).idxOf j < (C.bs ++ C.cs).length := by
    simp only [List.length_append, hC.lenB, hC.lenC] at h1 ⊢
    exact h1
  have : (C.bs ++ C.cs).getD ((C.obs ++ C.ocs).idxOf j) 0 = (C.bs ++ C.cs)[(C.obs ++ C.ocs).idxOf j] := by
    rw [List.getD, List.getElem?_eq_getElem h2]; rfl
  rw [this]
  exact List.getElem_mem h2

lemma pair_chan (hC : C.Ok) {a : ℕ} (ha : a ∈ C.bs ++ C.cs) : a ≠ C.ca := fun e => hC.chan (e ▸ ha)

/-- The index into the array. -/
lemma otherLabels_lab (hC : C.Ok) {eL eR wL wR : ℕ → ℕ} (hc : Compat C ds bn eL eR wL wR) (left : Bool) :
    ((Dims.of C ds).otherLabels bn left).map (lab C ds bn eL eR wL wR) = (List.range C.no).map fun j =>
      if j ∈ C.obs ++ C.ocs then (if left then eL else eR) ((C.bs ++ C.cs).getD ((C.obs ++ C.ocs).idxOf j) 0)
      else (if left then wL else wR) j := by
  rw [otherLabels_eq hC, List.map_map]
  refine List.map_congr_left fun j hj => ?_
  simp only [Function.comp]
  split_ifs with h1 h2 h2
  · rw [lab_kdim hC hc (hC.lt _ (pair_mem hC h1)) (pair_chan hC (pair_mem hC h1))]; simp [h2]
  · rw [lab_kdim hC hc (hC.lt _ (pair_mem hC h1)) (pair_chan hC (pair_mem hC h1))]; simp [h2]
  · rw [lab_neg hc (by simpa using hj) h1]; simp [h2]
  · rw [lab_neg hc (by simpa using hj) h1]; simp [h2]

lemma flatMap_interleave {β γ : Type} (l : List β) (f g : β → γ) : (l.flatMap fun a => [f a, g a]) = interleave (l.map f) (l.map g) := by
  induction l with
  | nil => rfl
  | cons a l ih => simp [interleave, ih]

lemma zipFlat_map {β γ : Type} (l : List β) (f g : β → γ) : zipFlat (l.map f) (l.map g) = interleave (l.map f) (l.map g) := by
  induction l with
  | nil => rfl
  | cons a l ih => simp [zipFlat, interleave] at ih ⊢; exact ih

lemma interleave_map {β γ : Type} (f : β → γ) (l m : List β) : (interleave l m).map f = interleave (l.map f) (m.map f) := by
  induction l generalizing m with
  | nil => simp [interleave]
  | cons a l ih =>
    cases m with
    | nil => simp [interleave]
    | cons b m => simp [interleave, ih]

lemma interleave_append {β : Type} (l l' m m' : List β) (h : l.length = m.length) :
    interleave (l ++ l') (m ++ m') = interleave l m ++ interleave l' m' := by
  induction l generalizing m with
  | nil => simp at h; obtain rfl := List.length_eq_zero_iff.1 h.symm; simp [interleave]
  | cons a l ih =>
    match m with
    | b :: m => simp [interleave, ih m (by simpa using h)]
    | [] => simp at h

/-- The axes of the inputs, other than the batch axis, that remain: the matched ones first. -/
def keepB (C : Contraction) : List ℕ := C.bs.filter (· ≠ C.ba)

def keepF (C : Contraction) : List ℕ := (List.range C.n).filter fun a => a ∉ C.cs ∧ a ∉ C.bs ∧ a ≠ C.ba ∧ a ≠ C.ca

def freeO (C : Contraction) : List ℕ := (List.range C.no).filter fun a => a ∉ C.ocs ∧ a ∉ C.obs

lemma outAxes_eq : C.outAxes = if C.isLhs then (keepB C).map Sum.inl ++ (freeO C).map Sum.inr ++ (keepF C).map Sum.inl
    else (keepB C).map Sum.inl ++ (keepF C).map Sum.inl ++ (freeO C).map Sum.inr := rfl

lemma erase_eq_filter (l : List ℕ) (a : ℕ) (h : l.Nodup) : l.erase a = l.filter (· ≠ a) := by
  rw [h.erase_eq_filter]
  refine List.filter_congr fun x _ => ?_
  by_cases e : x = a <;> simp [e]

lemma nonC_eq (hC : C.Ok) : (Dims.of C ds).nonC = C.ba :: (keepB C ++ keepF C) := by
  have hbs : C.bs.Nodup := (List.nodup_append.1 hC.nodup).1
  have hnd : (C.bs ++ (List.range C.n).filter fun i => i ∉ C.cs ++ C.bs ++ [C.ca]).Nodup := by
    rw [List.nodup_append]
    refine ⟨hbs, List.nodup_range.filter _, ?_⟩
    intro a ha b hb e
    subst e
    simp only [List.mem_filter, List.mem_append, decide_eq_true_eq] at hb
    exact hb.2 (.inl (.inr ha))
  have hmem : C.ba ∈ C.bs ++ (List.range C.n).filter fun i => i ∉ C.cs ++ C.bs ++ [C.ca] := by
    by_cases h : C.ba ∈ C.bs
    · exact List.mem_append_left _ h
    · refine List.mem_append_right _ (List.mem_filter.2 ⟨List.mem_range.2 hC.ba, ?_⟩)
      simp [h, hC.batch, hC.ne]
  unfold Dims.nonC Dims.of
  rw [if_pos hmem, erase_eq_filter _ _ hnd, List.filter_append, List.filter_filter]
  congr 2
  unfold keepF
  refine List.filter_congr fun a _ => ?_
  rw [Bool.eq_iff_iff]
  simp only [List.mem_append, List.mem_singleton, Bool.and_eq_true, decide_eq_true_eq]
  tauto

/-- One entry per axis, or one for each of the two inputs. -/
def sp2 {β : Type} (ds : Bool) (l r : List β) : List β := if ds then l else interleave l r

lemma sp2_map {β γ : Type} (f : β → γ) (l r : List β) : (sp2 ds l r).map f = sp2 ds (l.map f) (r.map f) := by
  cases ds <;> simp [sp2, interleave_map]

lemma sp2_append {β : Type} (l l' r r' : List β) (h : l.length = r.length) : sp2 ds (l ++ l') (r ++ r') = sp2 ds l r ++ sp2 ds l' r' := by
  cases ds <;> simp [sp2, interleave_append, h]

lemma mem_interleave {β : Type} {x : β} {l r : List β} (h : l.length = r.length) : x ∈ interleave l r ↔ x ∈ l ∨ x ∈ r := by
  induction l generalizing r with
  | nil => simp at h; obtain rfl := List.length_eq_zero_iff.1 h.symm; simp [interleave]
  | cons a l ih =>
    match r with
    | b :: r => simp [interleave, ih (by simpa using h)]; tauto
    | [] => simp at h

lemma sp2_length {β : Type} (l r : List β) (h : l.length = r.length) : (sp2 ds l r).length = (if ds then 1 else 2) * l.length := by
  cases ds
  · simp only [sp2, Bool.false_eq_true, if_false]
    rw [interleave_length h]
  · simp [sp2]

/-- The labels of the batch axes. -/
def batchLabels (bn : ℕ) : List ℤ := if bn = 1 then [0] else [0, 1]

lemma kdim_left_right (hbn : bn = 1 ∨ bn = 2) (a : ℕ) : (if (Dims.of C ds).kdim a bn true = (Dims.of C ds).kdim a bn false then
    [(Dims.of C ds).kdim a bn true] else [(Dims.of C ds).kdim a bn true, (Dims.of C ds).kdim a bn false]) =
    if a = C.ba then batchLabels bn else sp2 ds [(Dims.of C ds).kdim a bn true] [(Dims.of C ds).kdim a bn false] := by
  by_cases h : a = C.ba
  · subst h
    rw [kdim_batch, kdim_batch, if_pos rfl]
    rcases hbn with rfl | rfl <;> simp [batchLabels]
  · rw [kdim_spatial h, kdim_spatial h, if_neg h]
    cases ds <;> simp [sp2, interleave]

lemma flatMap_sp2 {β γ : Type} (l : List β) (f g : β → γ) : (l.flatMap fun a => sp2 ds [f a] [g a]) = sp2 ds (l.map f) (l.map g) := by
  cases ds
  · simp only [sp2, Bool.false_eq_true, if_false, interleave]
    exact flatMap_interleave l f g
  · simp only [sp2, if_true]
    induction l <;> simp_all

lemma keep_ne {a : ℕ} (h : a ∈ keepB C ++ keepF C) : a ≠ C.ba := by
  simp only [keepB, keepF, List.mem_append, List.mem_filter, decide_eq_true_eq] at h
  rcases h with h | h
  · exact h.2
  · exact h.2.2.2.1

lemma matNonC_eq (hC : C.Ok) (hbn : bn = 1 ∨ bn = 2) : (Dims.of C ds).matNonC bn = batchLabels bn ++
    sp2 ds ((keepB C ++ keepF C).map fun a => (Dims.of C ds).kdim a bn true) ((keepB C ++ keepF C).map fun a => (Dims.of C ds).kdim a bn false) := by
  unfold Dims.matNonC
  rw [nonC_eq hC, List.flatMap_cons]
  simp only [kdim_left_right hbn]
  rw [if_pos trivial]
  congr 1
  rw [← flatMap_sp2]
  refine List.flatMap_congr fun a ha => ?_
  rw [if_neg (keep_ne ha)]

lemma otherNonC_eq : (Dims.of C ds).otherNonC = sp2 ds ((freeO C).map fun a => neg C ds a true) ((freeO C).map fun a => neg C ds a false) := by
  unfold Dims.otherNonC
  have e : (List.range (Dims.of C ds).no).filter (fun i => i ∉ (Dims.of C ds).otherDims) = freeO C := by
    unfold freeO
    refine List.filter_congr fun a _ => ?_
    simp only [Dims.otherDims, Dims.of, List.mem_append]
    rw [Bool.eq_iff_iff]
    simp only [decide_eq_true_eq]
    tauto
  simp only [e]
  cases ds
  · simp only [Dims.of, Bool.false_eq_true, if_false, sp2]
    rw [zipFlat_eq_interleave]
    congr 1
    · refine List.map_congr_left fun a _ => by simp [neg]
  · simp only [Dims.of, if_true, sp2]
    refine List.map_congr_left fun a _ => by simp [neg]

/-- The label of a spatial axis of the result. -/
def olab (C : Contraction) (ds : Bool) (bn : ℕ) (left : Bool) : ℕ ⊕ ℕ → ℤ :=
  Sum.elim (fun a => (Dims.of C ds).kdim a bn left) fun j => neg C ds j left

lemma keepB_length (hC : C.Ok) : (keepB C).length = C.bs.length - (if C.ba ∈ C.bs then 1 else 0) := by
  have hbs : C.bs.Nodup := (List.nodup_append.1 hC.nodup).1
  unfold keepB
  rw [← erase_eq_filter _ _ hbs, List.length_erase]
  split_ifs <;> simp

lemma batchLabels_length (hbn : bn = 1 ∨ bn = 2) : (batchLabels bn).length = bn := by
  rcases hbn with rfl | rfl <;> rfl

lemma outLabels_eq (hC : C.Ok) (hbn : bn = 1 ∨ bn = 2) : (Dims.of C ds).outLabels bn =
    batchLabels bn ++ sp2 ds (C.outAxes.map (olab C ds bn true)) (C.outAxes.map (olab C ds bn false)) := by
  unfold Dims.outLabels
  rw [matNonC_eq hC hbn, otherNonC_eq, outAxes_eq]
  have o1 : ∀ left, olab C ds bn left ∘ Sum.inl = fun a => (Dims.of C ds).kdim a bn left := fun _ => rfl
  have o2 : ∀ left, olab C ds bn left ∘ Sum.inr = fun j => neg C ds j left := fun _ => rfl
  have p1 : (Dims.of C ds).isLhs = C.isLhs := rfl
  have p2 : (Dims.of C ds).inputB = C.bs := rfl
  have p3 : (Dims.of C ds).inputC = C.cs := rfl
  have p4 : (Dims.of C ds).ba = C.ba := rfl
  have p5 : (Dims.of C ds).ds = ds := rfl
  simp only [p1, p2, p3, p4, p5]
  generalize hKL : (fun a => (Dims.of C ds).kdim a bn true) = KL at *
  generalize hKR : (fun a => (Dims.of C ds).kdim a bn false) = KR at *
  cases hl : C.isLhs
  · simp only [Bool.not_false, if_true, List.take_length, List.drop_length, List.append_nil, Bool.false_eq_true, if_false]
    simp only [List.map_append, List.map_map, o1, o2]
    rw [sp2_append ((keepB C).map _ ++ _) _ _ _ (by simp), List.append_assoc, hKL, hKR]
  · simp only [Bool.not_true, Bool.false_eq_true, if_false, if_true, hC.batch]
    have e : bn + (if ds then 1 else 2) * (C.bs.length - if C.ba ∈ C.bs then 1 else 0) = (batchLabels bn ++
        sp2 ds ((keepB C).map KL) ((keepB C).map KR)).length := by
      rw [List.length_append, batchLabels_length hbn, sp2_length _ _ (by simp), List.length_map, keepB_length hC]
    have e2 : batchLabels bn ++ sp2 ds ((keepB C ++ keepF C).map KL) ((keepB C ++ keepF C).map KR) =
        (batchLabels bn ++ sp2 ds ((keepB C).map KL) ((keepB C).map KR)) ++ sp2 ds ((keepF C).map KL) ((keepF C).map KR) := by
      rw [List.map_append, List.map_append, sp2_append _ _ _ _ (by simp), List.append_assoc]
    rw [e2, e, List.take_left, List.drop_left]
    simp only [List.map_append, List.map_map, o1, o2]
    rw [sp2_append ((keepB C).map _ ++ _) _ _ _ (by simp), sp2_append ((keepB C).map _) _ _ _ (by simp), hKL, hKR]
    simp only [List.append_assoc]

lemma mem_outAxes {x : ℕ ⊕ ℕ} : x ∈ C.outAxes ↔ (∃ a ∈ keepB C ++ keepF C, x = .inl a) ∨ ∃ j ∈ freeO C, x = .inr j := by
  rw [outAxes_eq]
  split_ifs <;> simp only [List.mem_append, List.mem_map] <;> constructor
  all_goals
    rintro h
    rcases h with h | h
    all_goals aesop

lemma mem_keep (hC : C.Ok) {a : ℕ} : a ∈ keepB C ++ keepF C ↔ a < C.n ∧ a ≠ C.ba ∧ a ≠ C.ca ∧ a ∉ C.cs := by
  have h1 := hC.lt a
  have h2 : a ∈ C.bs → a ≠ C.ca := fun h e => hC.chan (by simp [← e, h])
  have h3 : a ∈ C.bs → a ∉ C.cs := fun h e => (List.nodup_append.1 hC.nodup).2.2 a h a e rfl
  simp only [keepB, keepF, List.mem_append, List.mem_filter, decide_eq_true_eq, List.mem_range] at h1 ⊢
  tauto

lemma mem_freeO {j : ℕ} : j ∈ freeO C ↔ j < C.no ∧ j ∉ C.obs ++ C.ocs := by
  simp only [freeO, List.mem_filter, List.mem_range, decide_eq_true_eq, List.mem_append]
  tauto

lemma lab_olab (hC : C.Ok) {eL eR wL wR : ℕ → ℕ} (hc : Compat C ds bn eL eR wL wR) {x : ℕ ⊕ ℕ} (hx : x ∈ C.outAxes) (left : Bool) :
    lab C ds bn eL eR wL wR (olab C ds bn left x) = if left then Sum.elim eL wL x else Sum.elim eR wR x := by
  rcases mem_outAxes.1 hx with ⟨a, ha, rfl⟩ | ⟨j, hj, rfl⟩
  · obtain ⟨h1, -, h3, -⟩ := (mem_keep hC).1 ha
    simp only [olab, Sum.elim_inl]
    exact lab_kdim hC hc h1 h3 left
  · obtain ⟨h1, h2⟩ := mem_freeO.1 hj
    simp only [olab, Sum.elim_inr]
    exact lab_neg hc h1 h2 left

/-- The values along the batch axes. -/
def batchVals (bn i j : ℕ) : List ℕ := if bn = 1 then [i] else [i, j]

lemma lab_batch {eL eR wL wR : ℕ → ℕ} (hbn : bn = 1 ∨ bn = 2) :
    (batchLabels bn).map (lab C ds bn eL eR wL wR) = batchVals bn (eL C.ba) (eR C.ba) := by
  rcases hbn with rfl | rfl <;> simp [batchLabels, batchVals, lab]

lemma outLabels_lab (hC : C.Ok) {eL eR wL wR : ℕ → ℕ} (hc : Compat C ds bn eL eR wL wR) :
    ((Dims.of C ds).outLabels bn).map (lab C ds bn eL eR wL wR) = batchVals bn (eL C.ba) (eR C.ba) ++
      sp2 ds (C.outAxes.map (Sum.elim eL wL)) (C.outAxes.map (Sum.elim eR wR)) := by
  rw [outLabels_eq hC hc.two, List.map_append, lab_batch hc.two, sp2_map, List.map_map, List.map_map]
  congr 2
  · refine List.map_congr_left fun x hx => ?_
    simpa using lab_olab hC hc hx true
  · refine List.map_congr_left fun x hx => ?_
    simpa using lab_olab hC hc hx false

lemma range_interleave (b d : ℕ) : (List.range (2 * d)).map (fun i => b + i) =
    interleave ((List.range d).map fun k => b + 2 * k) ((List.range d).map fun k => b + 2 * k + 1) := by
  induction d generalizing b with
  | zero => simp [interleave]
  | succ d ih =>
    have e : (List.range (2 * (d + 1))).map (fun i => b + i) = b :: (b + 1) :: (List.range (2 * d)).map (fun i => (b + 2) + i) := by
      rw [show 2 * (d + 1) = 2 * d + 1 + 1 by ring, List.range_succ_eq_map, List.range_succ_eq_map]
      simp only [List.map_cons, List.map_map]
      refine congrArg₂ _ (by simp) (congrArg₂ _ (by simp) (List.map_congr_left fun i _ => ?_))
      simp only [Function.comp]; omega
    rw [e, ih, List.range_succ_eq_map]
    simp only [List.map_cons, List.map_map, interleave]
    refine congrArg₂ _ (by simp) (congrArg₂ _ (by simp) ?_)
    congr 1 <;> refine List.map_congr_left fun i _ => ?_ <;> simp only [Function.comp] <;> omega

lemma matLabels_eq (hC : C.Ok) (hbn : bn = 1 ∨ bn = 2) :
    (List.range (bn + (if ds then 1 else 2) * (spatialAxes C.n C.ba C.ca).length)).map (fun i : ℕ => (i : ℤ)) = batchLabels bn ++
      sp2 ds ((spatialAxes C.n C.ba C.ca).map fun a => (Dims.of C ds).kdim a bn true)
        ((spatialAxes C.n C.ba C.ca).map fun a => (Dims.of C ds).kdim a bn false) := by
  have hm := map_spIdx (n := C.n) hC.ne
  have hk : ∀ left, (spatialAxes C.n C.ba C.ca).map (fun a => (Dims.of C ds).kdim a bn left) =
      (List.range (spatialAxes C.n C.ba C.ca).length).map fun k =>
        ((bn + (if ds then 1 else 2) * k + (if !left && !ds then 1 else 0) : ℕ) : ℤ) := by
    intro left
    rw [← hm, List.map_map]
    refine List.map_congr_left fun a ha => ?_
    rw [kdim_spatial (mem_spatialAxes.1 ha).2.1]
    rfl
  rw [hk, hk, List.range_add, List.map_append]
  generalize (spatialAxes C.n C.ba C.ca).length = d
  congr 1
  · rcases hbn with rfl | rfl <;> rfl
  · cases ds
    · simp only [sp2, Bool.false_eq_true, if_false, Bool.not_false, Bool.and_true, Bool.not_true, if_true, add_zero]
      have := congrArg (List.map (fun i : ℕ => (i : ℤ))) (range_interleave bn d)
      rw [interleave_map, List.map_map, List.map_map, List.map_map] at this
      rw [List.map_map]
      exact this
    · simp [sp2]

/-- The labels of the kernel array. -/
lemma matLabels_rev (hC : C.Ok) (hbn : bn = 1 ∨ bn = 2) (rev : Bool) (hr : rev = true → ds = false) {m : ℕ}
    (hm : m = bn + (if ds then 1 else 2) * (spatialAxes C.n C.ba C.ca).length) :
    (if rev then reverseZippedList ((List.range m).map fun i : ℕ => (i : ℤ)) bn else (List.range m).map fun i : ℕ => (i : ℤ)) =
      batchLabels bn ++ (if rev then interleave ((spatialAxes C.n C.ba C.ca).map fun a => (Dims.of C ds).kdim a bn true).reverse
        ((spatialAxes C.n C.ba C.ca).map fun a => (Dims.of C ds).kdim a bn false).reverse else
        sp2 ds ((spatialAxes C.n C.ba C.ca).map fun a => (Dims.of C ds).kdim a bn true)
        ((spatialAxes C.n C.ba C.ca).map fun a => (Dims.of C ds).kdim a bn false)) := by
  subst hm
  rw [matLabels_eq hC hbn]
  cases rev
  · simp
  · obtain rfl := hr rfl
    simp only [if_true, sp2, Bool.false_eq_true, if_false]
    have := reverseZippedList_eq (batchLabels bn) ((spatialAxes C.n C.ba C.ca).map fun a => (Dims.of C false).kdim a bn true)
      ((spatialAxes C.n C.ba C.ca).map fun a => (Dims.of C false).kdim a bn false) (by simp)
    rw [batchLabels_length hbn] at this
    exact this

lemma matLabels_lab (hC : C.Ok) {eL eR wL wR : ℕ → ℕ} (hc : Compat C ds bn eL eR wL wR) (rev : Bool) (hr : rev = true → ds = false) {m : ℕ}
    (hm : m = bn + (if ds then 1 else 2) * (spatialAxes C.n C.ba C.ca).length) :
    (if rev then reverseZippedList ((List.range m).map fun i : ℕ => (i : ℤ)) bn else (List.range m).map fun i : ℕ => (i : ℤ)).map
      (lab C ds bn eL eR wL wR) = batchVals bn (eL C.ba) (eR C.ba) ++
        pos ds rev ((spatialAxes C.n C.ba C.ca).map eL) ((spatialAxes C.n C.ba C.ca).map eR) := by
  rw [matLabels_rev hC hc.two rev hr hm, List.map_append, lab_batch hc.two]
  have e : ∀ left, ((spatialAxes C.n C.ba C.ca).map fun a => (Dims.of C ds).kdim a bn left).map (lab C ds bn eL eR wL wR) =
      (spatialAxes C.n C.ba C.ca).map fun a => if left then eL a else eR a := by
    intro left
    rw [List.map_map]
    refine List.map_congr_left fun a ha => ?_
    obtain ⟨h1, -, h3⟩ := mem_spatialAxes.1 ha
    exact lab_kdim hC hc h1 h3 left
  have e1 := e true
  have e2 := e false
  simp only [if_true, Bool.false_eq_true, if_false] at e1 e2
  congr 1
  cases rev
  · simp only [Bool.false_eq_true, if_false, sp2_map, e1, e2]
    cases ds <;> simp [sp2, pos]
  · obtain rfl := hr rfl
    simp only [if_true, interleave_map, List.map_reverse, e1, e2]
    simp [pos]

lemma mem_batchLabels (hbn : bn = 1 ∨ bn = 2) {l : ℤ} : l ∈ batchLabels bn ↔ ∃ left, l = (Dims.of C ds).kdim C.ba bn left := by
  simp only [kdim_batch]
  rcases hbn with rfl | rfl <;> simp [batchLabels, or_comm]

lemma mem_sp2_map {β : Type} (l : List β) (f : Bool → β → ℤ) (h : ds = true → ∀ a ∈ l, f false a = f true a) {x : ℤ} :
    x ∈ sp2 ds (l.map (f true)) (l.map (f false)) ↔ ∃ left, ∃ a ∈ l, x = f left a := by
  cases ds
  · simp only [sp2, Bool.false_eq_true, if_false]
    rw [mem_interleave (by simp)]
    simp only [List.mem_map, Bool.exists_bool]
    constructor
    · rintro (⟨a, ha, rfl⟩ | ⟨a, ha, rfl⟩)
      · exact .inr ⟨a, ha, rfl⟩
      · exact .inl ⟨a, ha, rfl⟩
    · rintro (⟨a, ha, rfl⟩ | ⟨a, ha, rfl⟩)
      · exact .inr ⟨a, ha, rfl⟩
      · exact .inl ⟨a, ha, rfl⟩
  · simp only [sp2, if_true, List.mem_map, Bool.exists_bool]
    constructor
    · rintro ⟨a, ha, rfl⟩
      exact .inr ⟨a, ha, rfl⟩
    · rintro (⟨a, ha, rfl⟩ | ⟨a, ha, rfl⟩)
      · exact ⟨a, ha, (h rfl a ha).symm⟩
      · exact ⟨a, ha, rfl⟩

lemma olab_same (h : ds = true) {x : ℕ ⊕ ℕ} (hx : x ∈ C.outAxes) : olab C ds bn false x = olab C ds bn true x := by
  subst h
  rcases mem_outAxes.1 hx with ⟨a, ha, rfl⟩ | ⟨j, hj, rfl⟩
  · simp [olab, kdim_spatial (keep_ne ha)]
  · simp [olab, neg]

lemma mem_outLabels (hC : C.Ok) (hbn : bn = 1 ∨ bn = 2) {l : ℤ} : l ∈ (Dims.of C ds).outLabels bn ↔
    (∃ left, ∃ a, a < C.n ∧ a ≠ C.ca ∧ a ∉ C.cs ∧ l = (Dims.of C ds).kdim a bn left) ∨
      ∃ left, ∃ j, j < C.no ∧ j ∉ C.obs ++ C.ocs ∧ l = neg C ds j left := by
  rw [outLabels_eq hC hbn, List.mem_append, mem_batchLabels (C := C) (ds := ds) hbn,
    mem_sp2_map C.outAxes (olab C ds bn) fun h x hx => olab_same h hx]
  constructor
  · rintro (⟨left, rfl⟩ | ⟨left, x, hx, rfl⟩)
    · exact .inl ⟨left, C.ba, hC.ba, hC.ne, hC.batch, rfl⟩
    · rcases mem_outAxes.1 hx with ⟨a, ha, rfl⟩ | ⟨j, hj, rfl⟩
      · obtain ⟨h1, -, h3, h4⟩ := (mem_keep hC).1 ha
        exact .inl ⟨left, a, h1, h3, h4, rfl⟩
      · obtain ⟨h1, h2⟩ := mem_freeO.1 hj
        exact .inr ⟨left, j, h1, h2, rfl⟩
  · rintro (⟨left, a, h1, h2, h3, rfl⟩ | ⟨left, j, h1, h2, rfl⟩)
    · by_cases e : a = C.ba
      · subst e; exact .inl ⟨left, rfl⟩
      · exact .inr ⟨left, .inl a, mem_outAxes.2 (.inl ⟨a, (mem_keep hC).2 ⟨h1, e, h2, h3⟩, rfl⟩), rfl⟩
    · exact .inr ⟨left, .inr j, mem_outAxes.2 (.inr ⟨j, mem_freeO.2 ⟨h1, h2⟩, rfl⟩), rfl⟩

lemma mem_matLabels (hC : C.Ok) (hbn : bn = 1 ∨ bn = 2) (rev : Bool) (hr : rev = true → ds = false) {m : ℕ}
    (hm : m = bn + (if ds then 1 else 2) * (spatialAxes C.n C.ba C.ca).length) {l : ℤ} :
    l ∈ (if rev then reverseZippedList ((List.range m).map fun i : ℕ => (i : ℤ)) bn else (List.range m).map fun i : ℕ => (i : ℤ)) ↔
      ∃ left, ∃ a, a < C.n ∧ a ≠ C.ca ∧ l = (Dims.of C ds).kdim a bn left := by
  rw [matLabels_rev hC hbn rev hr hm, List.mem_append, mem_batchLabels (C := C) (ds := ds) hbn]
  have key : l ∈ (if rev then interleave ((spatialAxes C.n C.ba C.ca).map fun a => (Dims.of C ds).kdim a bn true).reverse
        ((spatialAxes C.n C.ba C.ca).map fun a => (Dims.of C ds).kdim a bn false).reverse else
        sp2 ds ((spatialAxes C.n C.ba C.ca).map fun a => (Dims.of C ds).kdim a bn true)
        ((spatialAxes C.n C.ba C.ca).map fun a => (Dims.of C ds).kdim a bn false)) ↔
      ∃ left, ∃ a ∈ spatialAxes C.n C.ba C.ca, l = (Dims.of C ds).kdim a bn left := by
    have e := mem_sp2_map (ds := ds) (x := l) (spatialAxes C.n C.ba C.ca) (fun left a => (Dims.of C ds).kdim a bn left) (by
      intro h a ha
      subst h
      simp [kdim_spatial (mem_spatialAxes.1 ha).2.1])
    cases rev
    · simpa using e
    · obtain rfl := hr rfl
      simp only [if_true]
      rw [← e, mem_interleave (by simp)]
      simp only [sp2, Bool.false_eq_true, if_false]
      rw [mem_interleave (by simp)]
      simp
  rw [key]
  constructor
  · rintro (⟨left, rfl⟩ | ⟨left, a, ha, rfl⟩)
    · exact ⟨left, C.ba, hC.ba, hC.ne, rfl⟩
    · obtain ⟨h1, -, h3⟩ := mem_spatialAxes.1 ha
      exact ⟨left, a, h1, h3, rfl⟩
  · rintro ⟨left, a, h1, h2, rfl⟩
    by_cases e : a = C.ba
    · subst e; exact .inl ⟨left, rfl⟩
    · exact .inr ⟨left, a, mem_spatialAxes.2 ⟨h1, e, h2⟩, rfl⟩

lemma mem_otherLabels (hC : C.Ok) (left : Bool) {l : ℤ} (h : l ∈ (Dims.of C ds).otherLabels bn left) :
    (∃ a, a < C.n ∧ a ≠ C.ca ∧ l = (Dims.of C ds).kdim a bn left) ∨ ∃ j, j < C.no ∧ j ∉ C.obs ++ C.ocs ∧ l = neg C ds j left := by
  rw [otherLabels_eq hC, List.mem_map] at h
  obtain ⟨j, hj, rfl⟩ := h
  split_ifs with e
  · exact .inl ⟨_, hC.lt _ (pair_mem hC e), pair_chan hC (pair_mem hC e), rfl⟩
  · exact .inr ⟨j, by simpa using hj, e, rfl⟩

lemma neg_mem_otherLabels (hC : C.Ok) (left : Bool) {j : ℕ} (hj : j < C.no) (h : j ∉ C.obs ++ C.ocs) :
    neg C ds j left ∈ (Dims.of C ds).otherLabels bn left := by
  rw [otherLabels_eq hC, List.mem_map]
  exact ⟨j, by simpa using hj, by rw [if_neg h]⟩

lemma neg_inj {j j' : ℕ} (hj : j < C.no) (hj' : j' < C.no) {s s' : Bool} (h : neg C ds j s = neg C ds j' s') : j = j' ∧ (ds = false → s = s') := by
  unfold neg at h
  cases ds <;> cases s <;> cases s' <;> simp at h ⊢ <;> omega

lemma kdim_inj' (hC : C.Ok) (hbn : bn = 1 ∨ bn = 2) {a a' : ℕ} (ha : a < C.n) (hca : a ≠ C.ca) (ha' : a' < C.n) (hca' : a' ≠ C.ca)
    (hba : a ≠ C.ba) {s s' : Bool} (h : (Dims.of C ds).kdim a bn s = (Dims.of C ds).kdim a' bn s') : a = a' ∧ (ds = false → s = s') := by
  have e := kdim_inj hC hbn ha hca ha' hca' h
  subst e
  refine ⟨rfl, ?_⟩
  rintro rfl
  rw [kdim_spatial hba, kdim_spatial hba] at h
  cases s <;> cases s' <;> simp at h ⊢

lemma nodup_interleave {β : Type} {l r : List β} (hl : l.Nodup) (hr : r.Nodup) (h : ∀ x ∈ l, x ∉ r) (hlen : l.length = r.length) :
    (interleave l r).Nodup := by
  induction l generalizing r with
  | nil => simp at hlen; obtain rfl := List.length_eq_zero_iff.1 hlen.symm; simp [interleave]
  | cons a l ih =>
    match r with
    | b :: r =>
      rw [List.nodup_cons] at hl hr
      simp only [List.length_cons, add_left_inj] at hlen
      have hh : ∀ x ∈ l, x ∉ r := fun x hx hx' => h x (by simp [hx]) (by simp [hx'])
      simp only [interleave, List.nodup_cons, List.mem_cons, mem_interleave hlen, not_or]
      refine ⟨⟨?_, hl.1, ?_⟩, ⟨?_, hr.1⟩, ih hl.2 hr.2 hh hlen⟩
      · rintro rfl; exact h a (by simp) (by simp)
      · exact fun hx => h a (by simp) (by simp [hx])
      · exact fun hx => h b (by simp [hx]) (by simp)
    | [] => simp at hlen

lemma olab_inj (hC : C.Ok) (hbn : bn = 1 ∨ bn = 2) {x y : ℕ ⊕ ℕ} (hx : x ∈ C.outAxes) (hy : y ∈ C.outAxes) {s s' : Bool}
    (h : olab C ds bn s x = olab C ds bn s' y) : x = y ∧ (ds = false → s = s') := by
  rcases mem_outAxes.1 hx with ⟨a, ha, rfl⟩ | ⟨j, hj, rfl⟩ <;> rcases mem_outAxes.1 hy with ⟨a', ha', rfl⟩ | ⟨j', hj', rfl⟩
  · obtain ⟨h1, h2, h3, h4⟩ := (mem_keep hC).1 ha
    obtain ⟨g1, g2, g3, g4⟩ := (mem_keep hC).1 ha'
    obtain ⟨rfl, e⟩ := kdim_inj' hC hbn h1 h3 g1 g3 h2 h
    exact ⟨rfl, e⟩
  · have := kdim_nonneg (C := C) (ds := ds) (bn := bn) a s
    have h2 := neg_neg' (C := C) (ds := ds) j' s'
    simp only [olab, Sum.elim_inl, Sum.elim_inr] at h
    omega
  · have := kdim_nonneg (C := C) (ds := ds) (bn := bn) a' s'
    have h2 := neg_neg' (C := C) (ds := ds) j s
    simp only [olab, Sum.elim_inl, Sum.elim_inr] at h
    omega
  · obtain ⟨rfl, e⟩ := neg_inj (mem_freeO.1 hj).1 (mem_freeO.1 hj').1 h
    exact ⟨rfl, e⟩

lemma outAxes_nodup (hC : C.Ok) : C.outAxes.Nodup := by
  have hB : ((keepB C).map (Sum.inl (β := ℕ))).Nodup :=
    ((List.nodup_append.1 hC.nodup).1.filter _).map Sum.inl_injective
  have hF : ((keepF C).map (Sum.inl (β := ℕ))).Nodup := (List.nodup_range.filter _).map Sum.inl_injective
  have hO : ((freeO C).map (Sum.inr (α := ℕ))).Nodup := (List.nodup_range.filter _).map Sum.inr_injective
  have hBF : ∀ a ∈ keepB C, a ∉ keepF C := by
    intro a ha hb
    simp only [keepB, keepF, List.mem_filter, decide_eq_true_eq] at ha hb
    exact hb.2.2.1 ha.1
  rw [outAxes_eq]
  split_ifs
  · simp only [List.nodup_append, List.mem_append, List.mem_map]
    refine ⟨⟨hB, hO, ?_⟩, hF, ?_⟩
    · rintro _ ⟨a, -, rfl⟩ _ ⟨b, -, rfl⟩; simp
    · rintro _ (⟨a, ha, rfl⟩ | ⟨a, -, rfl⟩) _ ⟨b, hb, rfl⟩
      · simp only [ne_eq, Sum.inl.injEq]; rintro rfl; exact hBF a ha hb
      · simp
  · simp only [List.nodup_append, List.mem_append, List.mem_map]
    refine ⟨⟨hB, hF, ?_⟩, hO, ?_⟩
    · rintro _ ⟨a, ha, rfl⟩ _ ⟨b, hb, rfl⟩
      simp only [ne_eq, Sum.inl.injEq]; rintro rfl; exact hBF a ha hb
    · rintro _ (⟨a, ha, rfl⟩ | ⟨a, -, rfl⟩) _ ⟨b, hb, rfl⟩ <;> simp

lemma outLabels_nodup (hC : C.Ok) (hbn : bn = 1 ∨ bn = 2) : ((Dims.of C ds).outLabels bn).Nodup := by
  rw [outLabels_eq hC hbn, List.nodup_append]
  have inj : ∀ s, (C.outAxes.map (olab C ds bn s)).Nodup := fun s =>
    (outAxes_nodup hC).map_on fun x hx y hy h => (olab_inj hC hbn hx hy h).1
  refine ⟨by rcases hbn with rfl | rfl <;> simp [batchLabels], ?_, ?_⟩
  · cases hds : ds
    · subst hds
      simp only [sp2, Bool.false_eq_true, if_false]
      refine nodup_interleave (inj true) (inj false) ?_ (by simp)
      intro l h1 h2
      obtain ⟨x, hx, rfl⟩ := List.mem_map.1 h1
      obtain ⟨y, hy, e⟩ := List.mem_map.1 h2
      have := (olab_inj hC hbn hy hx e).2 rfl
      cases this
    · subst hds
      exact inj true
  · intro l h1 l' h2 e
    subst e
    rw [mem_batchLabels (C := C) (ds := ds) hbn] at h1
    rw [mem_sp2_map C.outAxes (olab C ds bn) fun h x hx => olab_same h hx] at h2
    obtain ⟨s, rfl⟩ := h1
    obtain ⟨s', x, hx, e⟩ := h2
    rcases mem_outAxes.1 hx with ⟨a, ha, rfl⟩ | ⟨j, hj, rfl⟩
    · obtain ⟨h1, h2, h3, h4⟩ := (mem_keep hC).1 ha
      exact h2 (kdim_inj hC hbn hC.ba hC.ne h1 h3 e).symm
    · have := kdim_nonneg (C := C) (ds := ds) (bn := bn) C.ba s
      have h2 := neg_neg' (C := C) (ds := ds) j s'
      simp only [olab, Sum.elim_inr] at e
      omega

end NT.KernelDot
