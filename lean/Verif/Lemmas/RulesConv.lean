import Verif.Model.RulesConv
import Verif.Lemmas.Rules12

/-!
# `conv_general_dilated` is linear in the filter
-/

namespace NT.Rules
open NT Arr Spec ConvParams
open scoped BigOperators
variable {α : Type}

lemma place_eq (S v : List ℕ) : ConvParams.place S v = place S v S.length := rfl

lemma gather_spec {S : List ℕ} (hS : 2 ≤ S.length) (k : List ℕ) :
    gather S k = k.getD (S.getD 0 0) 0 :: k.getD (S.getD 1 0) 0 :: spatial S k := by
  match S, hS with
  | a :: b :: r, _ => rfl

/-- A spec of an array of rank `n`. -/
structure SpecOk (S : List ℕ) (n : ℕ) : Prop where
  perm : S.Perm (List.range n)
  two : 2 ≤ n

lemma SpecOk.length {S : List ℕ} {n : ℕ} (h : SpecOk S n) : S.length = n := by simpa using h.perm.length_eq

lemma SpecOk.nodup {S : List ℕ} {n : ℕ} (h : SpecOk S n) : S.Nodup := h.perm.nodup_iff.2 List.nodup_range

lemma SpecOk.mem {S : List ℕ} {n a : ℕ} (h : SpecOk S n) : a ∈ S ↔ a < n := by rw [h.perm.mem_iff, List.mem_range]

lemma SpecOk.cons {S : List ℕ} {n : ℕ} (h : SpecOk S n) : S = S.getD 0 0 :: S.getD 1 0 :: S.drop 2 := by
  have := h.length
  have := h.two
  match S with
  | a :: b :: r => rfl
  | [a] => simp at *; omega
  | [] => simp at *; omega

lemma SpecOk.zero {S : List ℕ} {n : ℕ} (h : SpecOk S n) : S.getD 0 0 < n := h.mem.1 (by rw [h.cons]; simp)

lemma SpecOk.one {S : List ℕ} {n : ℕ} (h : SpecOk S n) : S.getD 1 0 < n := h.mem.1 (by rw [h.cons]; simp)

lemma SpecOk.ne {S : List ℕ} {n : ℕ} (h : SpecOk S n) : S.getD 0 0 ≠ S.getD 1 0 := by
  have := h.nodup
  rw [h.cons, List.nodup_cons] at this
  exact fun e => this.1 (by rw [e]; simp)

lemma SpecOk.zero_notMem {S : List ℕ} {n : ℕ} (h : SpecOk S n) : S.getD 0 0 ∉ S.drop 2 := by
  have := h.nodup
  rw [h.cons, List.nodup_cons] at this
  exact fun e => this.1 (List.mem_cons_of_mem _ e)

lemma SpecOk.one_notMem {S : List ℕ} {n : ℕ} (h : SpecOk S n) : S.getD 1 0 ∉ S.drop 2 := by
  have := h.nodup
  rw [h.cons, List.nodup_cons, List.nodup_cons] at this
  exact this.2.1

lemma SpecOk.gather {S : List ℕ} {n : ℕ} (h : SpecOk S n) (k : List ℕ) :
    gather S k = k.getD (S.getD 0 0) 0 :: k.getD (S.getD 1 0) 0 :: spatial S k := gather_spec (by rw [h.length]; exact h.two) k

lemma SpecOk.gather_place {S v : List ℕ} {n : ℕ} (h : SpecOk S n) (hv : v.length = n) : Arr.gather S (ConvParams.place S v) = v := by
  rw [place_eq]
  exact Rules.gather_place h.nodup (fun a ha => by rw [h.length]; exact h.mem.1 ha) (by rw [hv, h.length])

lemma SpecOk.place_gather {S i : List ℕ} {n : ℕ} (h : SpecOk S n) (hi : i.length = n) : ConvParams.place S (Arr.gather S i) = i := by
  rw [place_eq]
  exact Rules.place_gather (by rw [hi, h.length]) fun a ha => h.mem.2 (by rwa [h.length] at ha)

lemma SpecOk.place_length {S v : List ℕ} {n : ℕ} (h : SpecOk S n) : (ConvParams.place S v).length = n := by
  rw [place_eq, length_place, h.length]

/-- The entries of an index by the spec. -/
lemma SpecOk.place_getD {S v : List ℕ} {n a b : ℕ} (h : SpecOk S n) (hv : v.length = n - 2) :
    (ConvParams.place S (a :: b :: v)).getD (S.getD 0 0) 0 = a ∧ (ConvParams.place S (a :: b :: v)).getD (S.getD 1 0) 0 = b ∧
      spatial S (ConvParams.place S (a :: b :: v)) = v := by
  have := h.gather_place (v := a :: b :: v) (by have := h.two; simp; omega)
  rw [h.gather] at this
  simp only [List.cons.injEq] at this
  exact this

lemma SpecOk.ext {S i j : List ℕ} {n : ℕ} (h : SpecOk S n) (hi : i.length = n) (hj : j.length = n) (h0 : i.getD (S.getD 0 0) 0 = j.getD (S.getD 0 0) 0)
    (h1 : i.getD (S.getD 1 0) 0 = j.getD (S.getD 1 0) 0) (h2 : spatial S i = spatial S j) : i = j := by
  rw [← h.place_gather hi, ← h.place_gather hj, h.gather, h.gather, h0, h1, h2]

/-- A sum over indices, by the spec. -/
lemma box_sum_place {M : Type} [AddCommMonoid M] {S s : List ℕ} (h : S.Perm (List.range s.length)) (f : List ℕ → M) :
    ∑ i ∈ box s, f i = ∑ v ∈ box (gather S s), f (ConvParams.place S v) := by
  have hl : S.length = s.length := by simpa using h.length_eq
  have hn : S.Nodup := h.nodup_iff.2 List.nodup_range
  have hm : ∀ a, a ∈ S ↔ a < s.length := fun a => by rw [h.mem_iff, List.mem_range]
  refine Finset.sum_nbij' (fun i => gather S i) (fun v => ConvParams.place S v) ?_ ?_ ?_ ?_ ?_
  · exact fun i hi => mem_box.2 (gather_inRange (mem_box.1 hi) fun k hk => (hm k).1 hk)
  · intro v hv
    rw [place_eq, hl]
    exact mem_box.2 (inRange_place (fun a ha => (hm a).2 ha) (mem_box.1 hv))
  · intro i hi
    rw [place_eq, hl]
    exact place_gather (mem_box.1 hi).length fun a ha => (hm a).2 ha
  · intro v hv
    rw [place_eq, hl]
    exact gather_place hn (fun a ha => (hm a).1 ha) (by simpa [gather] using (mem_box.1 hv).length)
  · intro i hi
    rw [place_eq, hl, place_gather (mem_box.1 hi).length fun a ha => (hm a).2 ha]

/-- What a valid call fixes. -/
structure ConvOk (p : ConvParams) (lhs inp : List ℕ) (n : ℕ) : Prop where
  L : SpecOk p.lhsSpec n
  R : SpecOk p.rhsSpec n
  O : SpecOk p.outSpec n
  lenL : lhs.length = n
  lenI : inp.length = n
  groups : (0 < p.featureGroups ∧ 0 < p.batchGroups) ∧ (p.featureGroups = 1 ∨ p.batchGroups = 1)
  channels : lhs.getD (p.lhsSpec.getD 1 0) 0 = p.featureGroups * inp.getD (p.rhsSpec.getD 1 0) 0
  fdvd : p.featureGroups ∣ inp.getD (p.rhsSpec.getD 0 0) 0
  bdvd : p.batchGroups ∣ inp.getD (p.rhsSpec.getD 0 0) 0
  ndvd : p.batchGroups ∣ lhs.getD (p.lhsSpec.getD 0 0) 0

lemma convOk_of {p : ConvParams} {lhs inp : List ℕ} (h : p.Valid lhs inp) : ConvOk p lhs inp inp.length := by
  obtain ⟨⟨h1, h2⟩, ⟨h3, h4, h5⟩, _, _, ⟨h6, h7, h8⟩, h9, h10, h11, h12⟩ := h
  exact ⟨⟨h3, h1⟩, ⟨h4, h1⟩, ⟨h5, h1⟩, h2, rfl, ⟨⟨h6, h7⟩, h8⟩, h9, h10, h11, h12⟩

/-- The Jacobian with respect to the filter. -/
def convJac [Zero α] (p : ConvParams) (lhs : Arr α) (inp o i : List ℕ) : α :=
  let f := o.getD (p.outSpec.getD 1 0) 0
  let features := inp.getD (p.rhsSpec.getD 0 0) 0
  if f = i.getD (p.rhsSpec.getD 0 0) 0 then
    p.read lhs (f / (features / p.batchGroups) * (lhs.shape.getD (p.lhsSpec.getD 0 0) 0 / p.batchGroups) + o.getD (p.outSpec.getD 0 0) 0)
      (f / (features / p.featureGroups) * inp.getD (p.rhsSpec.getD 1 0) 0 + i.getD (p.rhsSpec.getD 1 0) 0) (spatial p.outSpec o) (spatial p.rhsSpec i)
  else 0

lemma length_spatial (S k : List ℕ) : (spatial S k).length = S.length - 2 := by simp [spatial, Arr.gather]

lemma ConvOk.dims {p : ConvParams} {lhs inp : List ℕ} {n : ℕ} (h : ConvOk p lhs inp n) : p.dims = n - 2 := by
  unfold ConvParams.dims
  rw [h.R.length]

lemma ConvOk.outShape {p : ConvParams} {lhs inp : List ℕ} {n : ℕ} (h : ConvOk p lhs inp n) (b f : ℕ) (ks : List ℕ) :
    (p.outShape b f lhs ks).length = n ∧ (p.outShape b f lhs ks).getD (p.outSpec.getD 0 0) 0 = b ∧ (p.outShape b f lhs ks).getD (p.outSpec.getD 1 0) 0 = f ∧
      spatial p.outSpec (p.outShape b f lhs ks) = (List.range p.dims).map fun i => p.outSize i (lhs.getD (p.lhsSpec.getD (i + 2) 0) 0) (ks.getD i 0) :=
  ⟨h.O.place_length, h.O.place_getD (by simp [h.dims])⟩

lemma conv_jacobian [Field α] {p : ConvParams} (lhs : Arr α) {inp : List ℕ} (hv : p.Valid lhs.shape inp) :
    IsJacobian (fun w => p.conv lhs w) inp (convOut p lhs.shape inp) (convJac p lhs inp) := by
  have h := convOk_of hv
  refine ⟨fun _ => 0, fun w hw => ?_⟩
  subst hw
  refine ⟨_, if_pos hv, rfl, fun o ho => ?_⟩
  dsimp only
  rw [zero_add, box_sum_place h.R.perm, h.R.gather, box_sum_cons, sumOver_eq_box]
  have hlo : o.getD (p.outSpec.getD 1 0) 0 < w.shape.getD (p.rhsSpec.getD 0 0) 0 := by
    have := (inRange_iff.1 ho).2 (p.outSpec.getD 1 0) (by
      unfold convOut
      rw [(h.outShape ..).1]
      exact h.O.one)
    unfold convOut at this
    rwa [(h.outShape ..).2.2.1] at this
  rw [Finset.sum_eq_single (o.getD (p.outSpec.getD 1 0) 0)]
  · refine Finset.sum_congr rfl fun cq hcq => ?_
    have hl : cq.length = (w.shape.getD (p.rhsSpec.getD 1 0) 0 :: spatial p.rhsSpec w.shape).length := (mem_box.1 hcq).length
    rw [List.length_cons, length_spatial, h.R.length] at hl
    match cq, hl with
    | c :: q, hl =>
      obtain ⟨e1, e2, e3⟩ := h.R.place_getD (a := o.getD (p.outSpec.getD 1 0) 0) (b := c) (v := q) (by simpa using hl)
      unfold convJac
      dsimp only
      rw [if_pos e1.symm, e2, e3]
      rfl
  · intro a _ ha
    refine Finset.sum_eq_zero fun cq hcq => ?_
    have hl : cq.length = (w.shape.getD (p.rhsSpec.getD 1 0) 0 :: spatial p.rhsSpec w.shape).length := (mem_box.1 hcq).length
    rw [List.length_cons, length_spatial, h.R.length] at hl
    match cq, hl with
    | c :: q, hl =>
      obtain ⟨e1, e2, e3⟩ := h.R.place_getD (a := a) (b := c) (v := q) (by simpa using hl)
      unfold convJac
      dsimp only
      rw [if_neg (by rw [e1]; exact ha.symm), zero_mul]
  · intro h1
    exact absurd (Finset.mem_range.2 hlo) h1

end NT.Rules
