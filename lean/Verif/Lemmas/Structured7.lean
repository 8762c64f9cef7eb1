import Verif.Lemmas.Structured6
import Verif.Lemmas.Ntk2

/-!
# The tangent kernel by structured derivatives
-/

namespace NT.Emp
open NT NT.Spec NT.Rules NT.Structure
open NT.Arr
open scoped BigOperators

variable {α : Type} [Field α] {S1 S2 T D : List ℕ}

lemma reduced_congr {K K' : List ℕ → List ℕ → α} {x : Arr α} (hx : Reduced S1 S2 T D K x) (hT : sizesAt T S1 = sizesAt T S2)
    (h : ∀ i j, InRange i S1 → InRange j S2 → K i j = K' i j) : Reduced S1 S2 T D K' x := by
  refine ⟨hx.shape, fun i j hi hj hij => ?_⟩
  rw [hx.get i j hi hj hij, sumOver_eq_box, sumOver_eq_box]
  exact Finset.sum_congr rfl fun t ht => h _ _ (putAt_inRange hi (mem_box.1 ht)) (putAt_inRange hj (by rw [← hT]; exact mem_box.1 ht))

/-- An array, or the scalar zero, that holds the kernel `K`. -/
def OptReduced (S1 S2 T D : List ℕ) (K : List ℕ → List ℕ → α) : Option (Arr α) → Prop
  | none => ∀ i j, InRange i S1 → InRange j S2 → K i j = 0
  | some z => Reduced S1 S2 T D K z

lemma optReduced_congr {K K' : List ℕ → List ℕ → α} {x : Option (Arr α)} (hx : OptReduced S1 S2 T D K x) (hT : sizesAt T S1 = sizesAt T S2)
    (h : ∀ i j, InRange i S1 → InRange j S2 → K i j = K' i j) : OptReduced S1 S2 T D K' x := by
  cases x with
  | none => exact fun i j hi hj => (h i j hi hj).symm.trans (hx i j hi hj)
  | some z => exact reduced_congr hx hT h

lemma plus_ok (hT : sizesAt T S1 = sizesAt T S2) {K L : List ℕ → List ℕ → α} {a b : Option (Arr α)} (ha : OptReduced S1 S2 T D K a)
    (hb : OptReduced S1 S2 T D L b) : OptReduced S1 S2 T D (fun i j => K i j + L i j) (plus a b) := by
  cases a with
  | none => exact optReduced_congr hb hT fun i j hi hj => by rw [ha i j hi hj, zero_add]
  | some x =>
    cases b with
    | none => exact reduced_congr ha hT fun i j hi hj => by rw [hb i j hi hj, add_zero]
    | some y =>
      refine ⟨ha.shape, fun i j hi hj hij => ?_⟩
      show x.get _ + y.get _ = _
      rw [ha.get i j hi hj hij, hb.get i j hi hj hij, sumOver_eq_box, sumOver_eq_box, sumOver_eq_box, Finset.sum_add_distrib]

lemma foldl_plus (hT : sizesAt T S1 = sizesAt T S2) {β : Type} (P : List β) (K : β → List ℕ → List ℕ → α) (o : β → Option (Arr α))
    (h : ∀ p ∈ P, OptReduced S1 S2 T D (K p) (o p)) : ∀ (L : List ℕ → List ℕ → α) (a : Option (Arr α)), OptReduced S1 S2 T D L a →
    OptReduced S1 S2 T D (fun i j => L i j + (P.map fun p => K p i j).sum) ((P.map o).foldl plus a) := by
  induction P with
  | nil =>
    intro L a ha
    simpa using ha
  | cons p P ih =>
    intro L a ha
    rw [List.map_cons, List.foldl_cons]
    have := ih (fun q hq => h q (by simp [hq])) _ _ (plus_ok hT ha (h p (by simp)))
    refine optReduced_congr this hT fun i j _ _ => ?_
    rw [List.map_cons, List.sum_cons, add_assoc]

lemma forall₂_pairs {A B : Type} {R : A → B → Prop} {a : List A} {b : List B} (h : List.Forall₂ R a b) :
    ∃ P : List (A × B), a = P.map Prod.fst ∧ b = P.map Prod.snd ∧ ∀ p ∈ P, R p.1 p.2 := by
  induction h with
  | nil => exact ⟨[], rfl, rfl, by simp⟩
  | @cons x y l l' hxy _ ih =>
    obtain ⟨P, rfl, rfl, hP⟩ := ih
    refine ⟨(x, y) :: P, rfl, rfl, ?_⟩
    intro p hp
    rcases List.mem_cons.1 hp with rfl | hp
    · exact hxy
    · exact hP p hp

lemma sum_list_comm {A B : Type} (s : Finset B) (l : List A) (f : A → B → α) : ∑ w ∈ s, (l.map fun a => f a w).sum = (l.map fun a => ∑ w ∈ s, f a w).sum := by
  induction l with
  | nil => simp
  | cons a l ih => simp only [List.map_cons, List.sum_cons, Finset.sum_add_distrib, ih]

lemma sum_pairs {A B : Type} (l : List A) (m : List B) (f : A → α) (g : B → α) :
    ((l.flatMap fun a => m.map fun b => (a, b)).map fun ab => f ab.1 * g ab.2).sum = (l.map f).sum * (m.map g).sum := by
  induction l with
  | nil => simp
  | cons a l ih =>
    rw [List.flatMap_cons, List.map_append, List.sum_append, ih, List.map_cons, List.sum_cons, add_mul, List.map_map]
    congr 1
    rw [← List.sum_map_mul_left]
    rfl

lemma sorted_ext {l m : List ℕ} (hl : l.Pairwise (· < ·)) (hm : m.Pairwise (· < ·)) (h : ∀ a, a ∈ l ↔ a ∈ m) : l = m :=
  List.Pairwise.eq_of_mem_iff hl hm fun {a} => h a

/-- The uses of a leaf in two networks that match can be contracted. -/
lemma pair_ok {J1 J2 : Jaxpr α} {l : ℕ} {x1 x2 : Use α} {K1 K2 : List ℕ → List ℕ → α} (h1 : UseOk J1 S1 l x1 K1) (h2 : UseOk J2 S2 l x2 K2)
    (hp : J1.params = J2.params) (hl : (J1.params.getD l []).length ≤ 2000) (hn : S1.length ≤ 2000) (hS : S1.length = S2.length)
    (hm : Matching J1 J2 l) (hTn : T.Nodup) (hTl : ∀ a ∈ T, a < S1.length) (hDl : ∀ a ∈ D, a < S1.length) (hTD : ∀ a ∈ T, a ∉ D)
    (hT : sizesAt T S1 = sizesAt T S2) (hD : sizesAt D S1 = sizesAt D S2) :
    ∃ z, contractPair S1.length T D x1.1 x2.1 x1.2.1 x2.2.1 x1.2.2 x2.2.2 = .ok z ∧
      Reduced S1 S2 T D (fun i j => ∑ w ∈ box (J1.params.getD l []), K1 i w * K2 j w) z := by
  obtain ⟨k1, y1, M1, s1, e1, r1, g1, f1, c1, d1, p1⟩ := h1.ex
  obtain ⟨k2, y2, M2, s2, e2, r2, g2, f2, c2, d2, p2⟩ := h2.ex
  rw [← hp] at g2 f2 c2
  have ht : x1.2.2.inTrace = x2.2.2.inTrace := sorted_ext h1.sortedT h2.sortedT fun a => by rw [h1.memT, h2.memT]; exact hm.trace a
  have ho : x1.2.2.outDiagonal = x2.2.2.outDiagonal := sorted_ext h1.sortedD h2.sortedD fun a => by rw [h1.memD, h2.memD]; exact hm.diag a
  have hdiag : diagIns x1.2.2 k1 = diagIns x2.2.2 k2 := by
    have z1 := diagPairs_zip f1.diagFst
    have z2 := diagPairs_zip f2.diagFst
    have l1 := f1.diagLen
    have l2 := f2.diagLen
    have l3 := congrArg List.length ho
    refine List.ext_getElem (by omega) fun n hn1 hn2 => ?_
    refine hm.axes k1 s1 k2 s2 d1 d2 (x1.2.2.outDiagonal[n]'(by omega)) _ _ (p1 _ ?_) (p2 _ ?_)
    · rw [z1, List.mem_iff_getElem]
      exact ⟨n, by rw [List.length_zip]; omega, by rw [List.getElem_zip]⟩
    · rw [z2, List.mem_iff_getElem]
      refine ⟨n, by rw [List.length_zip]; omega, ?_⟩
      rw [List.getElem_zip]
      simp only [ho]
  obtain ⟨z, hz, hr⟩ := contractPair_ok (n := S1.length) (T := T) (D := D) ⟨rfl, hS.symm, hTn, hTl, hDl, hTD, hT, hD, f1, f2, ht, hdiag, by omega⟩ e1 e2 g1 g2
  refine ⟨z, hz, reduced_congr hr hT fun i j hi hj => ?_⟩
  refine Finset.sum_congr rfl fun w hw => ?_
  rw [c1 i w hi (mem_box.1 hw), c2 j w hj (mem_box.1 hw)]

lemma contractUses_ok {J1 J2 : Jaxpr α} {l : ℕ} {us1 us2 : List (Use α)} {Ks1 Ks2 : List (List ℕ → List ℕ → α)} (h1 : List.Forall₂ (UseOk J1 S1 l) us1 Ks1)
    (h2 : List.Forall₂ (UseOk J2 S2 l) us2 Ks2)
    (hp : J1.params = J2.params) (hl : (J1.params.getD l []).length ≤ 2000) (hn : S1.length ≤ 2000) (hS : S1.length = S2.length)
    (hm : (∃ k s, Declares J1 l k s) → (∃ k s, Declares J2 l k s) → Matching J1 J2 l)
    (hTn : T.Nodup) (hTl : ∀ a ∈ T, a < S1.length) (hDl : ∀ a ∈ D, a < S1.length) (hTD : ∀ a ∈ T, a ∉ D)
    (hT : sizesAt T S1 = sizesAt T S2) (hD : sizesAt D S1 = sizesAt D S2) :
    ∃ o, contractUses S1.length T D us1 us2 = .ok o ∧
      OptReduced S1 S2 T D (fun i j => ∑ w ∈ box (J1.params.getD l []), (Ks1.map fun K => K i w).sum * (Ks2.map fun K => K j w).sum) o := by
  obtain ⟨P1, rfl, rfl, g1⟩ := forall₂_pairs h1
  obtain ⟨P2, rfl, rfl, g2⟩ := forall₂_pairs h2
  have key : ∀ ab : (Use α × (List ℕ → List ℕ → α)) × (Use α × (List ℕ → List ℕ → α)), ∃ z, ab ∈ (P1.flatMap fun a => P2.map fun b => (a, b)) →
      contractPair S1.length T D ab.1.1.1 ab.2.1.1 ab.1.1.2.1 ab.2.1.2.1 ab.1.1.2.2 ab.2.1.2.2 = .ok z ∧
      Reduced S1 S2 T D (fun i j => ∑ w ∈ box (J1.params.getD l []), ab.1.2 i w * ab.2.2 j w) z := by
    intro ab
    by_cases hab : ab ∈ (P1.flatMap fun a => P2.map fun b => (a, b))
    · simp only [List.mem_flatMap, List.mem_map] at hab
      obtain ⟨a, ha, b, hb, rfl⟩ := hab
      obtain ⟨z, hz⟩ := pair_ok (g1 a ha) (g2 b hb) hp hl hn hS (hm (by
        obtain ⟨k, y, M, s, -, -, -, -, -, d, -⟩ := (g1 a ha).ex
        exact ⟨k, s, d⟩) (by
        obtain ⟨k, y, M, s, -, -, -, -, -, d, -⟩ := (g2 b hb).ex
        exact ⟨k, s, d⟩)) hTn hTl hDl hTD hT hD
      exact ⟨z, fun _ => hz⟩
    · exact ⟨⟨[], fun _ => 0⟩, fun h => absurd h hab⟩
  choose zOf hzOf using key
  set PP := P1.flatMap fun a => P2.map fun b => (a, b) with hPP
  have hpairs : ((P1.map Prod.fst).flatMap fun a => (P2.map Prod.fst).map fun b => (a, b)) = PP.map fun ab => (ab.1.1, ab.2.1) := by
    rw [hPP, List.map_flatMap, List.flatMap_map]
    simp only [List.map_map]
    rfl
  refine ⟨((PP.map fun ab => some (zOf ab)).foldl plus none), ?_, ?_⟩
  · unfold contractUses
    rw [hpairs, List.mapM_map]
    unfold Function.comp
    rw [mapM_ok' (g := zOf) PP fun ab hab => (hzOf ab hab).1, ok_bind, List.map_map]
    rfl
  · have := foldl_plus hT PP (fun ab i j => ∑ w ∈ box (J1.params.getD l []), ab.1.2 i w * ab.2.2 j w) (fun ab => some (zOf ab))
      (fun ab hab => (hzOf ab hab).2) (fun _ _ => 0) none (fun _ _ _ _ => rfl)
    refine optReduced_congr this hT fun i j _ _ => ?_
    rw [zero_add, ← sum_list_comm]
    refine Finset.sum_congr rfl fun w _ => ?_
    rw [List.map_map, List.map_map]
    exact sum_pairs P1 P2 (fun a => a.2 i w) fun b => b.2 j w

omit [Field α] in
lemma ntkShape_ok (hS : S1.length = S2.length) (hTs : sizesAt T S1 = sizesAt T S2) (hDs : sizesAt D S1 = sizesAt D S2) : ntkShape S1 S2 T D = .ok (pairIdx S1.length T D S1 S2) := by
  have hz : (S1.zip S2).zipIdx = (List.range S1.length).map fun a => ((S1.getD a 0, S2.getD a 0), a) := by
    refine List.ext_getElem (by simp [hS]) fun n h1 h2 => ?_
    have h1' : n < S1.length := by simpa [hS] using h2
    have h2' : n < S2.length := by omega
    simp [List.getElem?_eq_getElem h1', List.getElem?_eq_getElem h2']
  have hsz : ∀ {A : List ℕ}, sizesAt A S1 = sizesAt A S2 → ∀ a ∈ A, S1.getD a 0 = S2.getD a 0 := by
    intro A hA a ha
    obtain ⟨n, hn, rfl⟩ := List.mem_iff_getElem.1 ha
    have := congrArg (fun l => l[n]?) hA
    simpa [sizesAt, hn] using this
  unfold ntkShape
  rw [hz, if_pos]
  · rw [List.flatMap_map]
    rfl
  · intro x hx hmem
    obtain ⟨a, -, rfl⟩ := List.mem_map.1 hx
    rcases List.mem_append.1 hmem with h | h
    · exact hsz hTs a h
    · exact hsz hDs a h

/-- The kernel by structured derivatives is the sum over all parameters of the products of the entries of the Jacobians. -/
lemma structuredNtk_ok {J1 J2 : Jaxpr α} (t1 : Typed J1 S1) (t2 : Typed J2 S2) (hp : J1.params = J2.params) (r1 : RulesFor J1) (r2 : RulesFor J2)
    (k1 : SmallRanks J1 S1) (k2 : SmallRanks J2 S2)
    (hm : ∀ l, (∃ k s, Declares J1 l k s) → (∃ k s, Declares J2 l k s) → Matching J1 J2 l) (hS : S1.length = S2.length)
    {trace diagonal : List ℤ} (h : ReducedAxes S1.length trace diagonal T D) (hd : DistinctAxes S1.length trace)
    (hT : sizesAt T S1 = sizesAt T S2) (hD : sizesAt D S1 = sizesAt D S2) :
    ∃ z, structuredNtk J1 J2 S1 S2 trace diagonal = .ok z ∧ ReducedMean S1 S2 T D (fun i j =>
      ∑ l ∈ Finset.range J1.params.length, ∑ w ∈ box (J1.params.getD l []), jacobianEntry J1 l i w * jacobianEntry J2 l j w) z := by
  have hTl : ∀ a ∈ T, a < S1.length := fun a ha => ((h.trace.mem a).1 ha).1
  have hDl : ∀ a ∈ D, a < S1.length := fun a ha => ((h.diagonal.mem a).1 ha).1
  have hTn : T.Nodup := h.trace.increasing.imp fun hab => Nat.ne_of_lt hab
  have key : ∀ l, ∃ us1 us2 o, l < J1.params.length → J1.usesOf S1 l = .ok us1 ∧ J2.usesOf S2 l = .ok us2 ∧ contractUses S1.length T D us1 us2 = .ok o ∧
      OptReduced S1 S2 T D (fun i j => ∑ w ∈ box (J1.params.getD l []), jacobianEntry J1 l i w * jacobianEntry J2 l j w) o := by
    intro l
    by_cases hl : l < J1.params.length
    · obtain ⟨us1, Ks1, e1, f1, c1⟩ := usesOf_ok t1 r1 k1 hl
      obtain ⟨us2, Ks2, e2, f2, c2⟩ := usesOf_ok t2 r2 k2 (hp ▸ hl)
      have hpl : (J1.params.getD l []).length ≤ 2000 := by
        rw [List.getD_eq_getElem _ _ hl]
        exact k1.params _ (List.getElem_mem hl)
      obtain ⟨o, ho, hr⟩ := contractUses_ok f1 f2 hp hpl k1.out hS (hm l) hTn hTl hDl h.disjoint hT hD
      refine ⟨us1, us2, o, fun _ => ⟨e1, e2, ho, optReduced_congr hr hT fun i j hi hj => Finset.sum_congr rfl fun w hw => ?_⟩⟩
      rw [c1 i w hi (mem_box.1 hw), c2 j w hj (hp ▸ mem_box.1 hw)]
    · exact ⟨[], [], none, fun h => absurd h hl⟩
  choose u1 u2 o ho using key
  have hO := foldl_plus hT (List.range J1.params.length) (fun l i j => ∑ w ∈ box (J1.params.getD l []), jacobianEntry J1 l i w * jacobianEntry J2 l j w) o
    (fun l hl => (ho l (List.mem_range.1 hl)).2.2.2) (fun _ _ => 0) none fun _ _ _ _ => rfl
  have hO := optReduced_congr hO hT (K' := fun i j => ∑ l ∈ Finset.range J1.params.length, ∑ w ∈ box (J1.params.getD l []), jacobianEntry J1 l i w * jacobianEntry J2 l j w)
    fun i j _ _ => by rw [zero_add, sum_range_list]
  have ax := axesOk h
  have hstart : structuredNtk J1 J2 S1 S2 trace diagonal = (match ((List.range J1.params.length).map o).foldl plus none with
      | none => .ok ⟨pairIdx S1.length T D S1 S2, fun _ => 0⟩
      | some a => if a.shape = pairIdx S1.length T D S1 S2 then .ok (divBy a (((sizesAt T S1).prod : ℕ) : α)) else .error .valueError) := by
    unfold structuredNtk
    rw [← hp, mapM_ok' (g := u1) _ fun l hl => (ho l (List.mem_range.1 hl)).1, ok_bind, mapM_ok' (g := u2) _ fun l hl => (ho l (List.mem_range.1 hl)).2.1, ok_bind]
    unfold sumAndContract
    rw [sizeAtRaw_ok rfl h.trace hd, ok_bind, ax.diagonal, ok_bind, ax.trace, ok_bind, List.zip_map', List.mapM_map]
    unfold Function.comp
    rw [mapM_ok' (g := o) _ fun l hl => (ho l (List.mem_range.1 hl)).2.2.1, ok_bind, ntkShape_ok hS hT hD, ok_bind]
    cases ((List.range J1.params.length).map o).foldl plus none <;> rfl
  rw [hstart]
  cases hf : ((List.range J1.params.length).map o).foldl plus none with
  | none =>
    rw [hf] at hO
    refine ⟨_, rfl, rfl, fun i j hi hj hij => ?_⟩
    dsimp only
    rw [sumOver_eq_box, Finset.sum_congr rfl fun t ht => hO _ _ (putAt_inRange hi (mem_box.1 ht)) (putAt_inRange hj (by rw [← hT]; exact mem_box.1 ht))]
    simp
  | some a =>
    rw [hf] at hO
    dsimp only
    rw [if_pos hO.shape]
    exact ⟨_, rfl, divBy_reduced hO⟩

end NT.Emp
