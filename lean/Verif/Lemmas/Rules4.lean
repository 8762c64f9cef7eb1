import Verif.Lemmas.Rules3

/-!
# The rules of `rev`, `pad` and `concatenate`
-/

namespace NT.Rules
open NT Arr Spec
variable {α : Type} [Field α]

/-- One where the indices agree on the axes and `c` holds. -/
noncomputable def deltaIf (c : Prop) (L R o i : List ℕ) : α := open Classical in if gather L o = gather R i ∧ c then 1 else 0

lemma deltaIf_iff {L R o i : List ℕ} {c d : Prop} [Decidable d] (h : gather L o = gather R i ∧ c ↔ d) : (if d then (1 : α) else 0) = deltaIf c L R o i := by
  unfold deltaIf
  by_cases hd : d
  · rw [if_pos hd, if_pos (h.2 hd)]
  · rw [if_neg hd, if_neg fun h2 => hd (h.1 h2)]

/-- Rules with no diagonal axes, for a Jacobian that is one where the traced axes agree and a condition on the other axes holds. -/
lemma rulesOk_if {f : Arr α → Except Err (Arr α)} {rule : List ℕ → Arr α → List ℕ → Except Err (Arr α)} {s : Structure} {idx : ℕ}
    {shapes : List (List ℕ)} {inp : List ℕ} {other : Arr α} {out : List ℕ} (C : List ℕ → List ℕ → List ℕ → Prop)
    (Extra : List ℕ → List ℕ → Prop)
    (hs : shapes.getD idx [] = inp) (hd : s.outDiagonal = []) (hd' : s.inDiagonal = []) (hf : Fits s inp out) (he : Extra inp out)
    (htrim : ∀ as bs cs, Cut (tracePairs s) s.outBroadcast as bs cs → Extra (trim bs inp) (trim (as ++ cs) out))
    (hrule : ∀ inp' out', Fits s inp' out' → inp'.length = inp.length → out'.length = out.length → Extra inp' out' →
      ∃ j, rule inp' other out' = .ok j ∧ j.shape = out' ++ inp' ∧
        ∀ o i, InRange o out' → InRange i inp' → j.get (o ++ i) = deltaIf (C inp' o i) s.outTrace s.inTrace o i)
    (hC : ∀ as bs cs o i, Cut (tracePairs s) s.outBroadcast as bs cs → InRange o out → InRange i inp →
      (C inp o i ↔ C (trim bs inp) (squash (as ++ cs) o) (squash bs i)))
    (hjac : IsJacobian f inp out (fun o i => deltaIf (C inp o i) s.outTrace s.inTrace o i)) :
    RulesOk f rule s idx shapes inp other out (fun o i => deltaIf (C inp o i) s.outTrace s.inTrace o i) := by
  classical
  have e : ∀ inp' o i, (if Agree (tracePairs s) o i then (if C inp' o i then (1 : α) else 0) else 0) = deltaIf (C inp' o i) s.outTrace s.inTrace o i := by
    intro inp' o i
    unfold deltaIf
    simp only [hf.agree, ite_and]
  have := rulesOk_of_trace (f := f) (rule := rule) (s := s) (idx := idx) (shapes := shapes) (inp := inp) (other := other) (out := out)
    (fun inp' _ o i => if C inp' o i then (1 : α) else 0) (fun inp' out' => Fits s inp' out' ∧ inp'.length = inp.length ∧ out'.length = out.length ∧ Extra inp' out') hd hf.oneToOne hf.disj
    (hf.checked hd hd' hs) ⟨hf, rfl, rfl, he⟩ (fun as bs cs hc => ⟨hf.trim hc, length_trim _ _, length_trim _ _, htrim _ _ _ hc⟩)
    (fun inp' out' ⟨h1, h2, h3, h4⟩ => by simpa only [e] using hrule inp' out' h1 h2 h3 h4)
    (fun as bs cs o i hc ho hi _ => by simp only [hC as bs cs o i hc ho hi])
    (by simpa only [e] using hjac)
  simpa only [e] using this

lemma jacobian_if {f : Arr α → Except Err (Arr α)} {inp out L R : List ℕ} {C : List ℕ → List ℕ → Prop} (c : List ℕ → α)
    (h : ∀ w : Arr α, w.shape = inp → ∃ y, f w = .ok y ∧ y.shape = out ∧ ∀ o, InRange o out →
      (∃ k, InRange k inp ∧ (∀ i, InRange i inp → (gather L o = gather R i ∧ C o i ↔ i = k)) ∧ y.get o = c o + w.get k) ∨
      ((∀ i, InRange i inp → ¬ (gather L o = gather R i ∧ C o i)) ∧ y.get o = c o)) :
    IsJacobian f inp out (fun o i => deltaIf (C o i) L R o i) := by
  refine isJacobian_of_read c fun w hw => ?_
  obtain ⟨y, e1, e2, e3⟩ := h w hw
  refine ⟨y, e1, e2, fun o ho => ?_⟩
  rcases e3 o ho with ⟨k, hk, h1, h2⟩ | ⟨h1, h2⟩
  · refine Or.inl ⟨k, hk, fun i hi hne => if_neg fun h3 => hne ((h1 i hi).1 h3), ?_⟩
    rw [h2, deltaIf, if_pos ((h1 k hk).2 rfl), one_mul]
  · exact Or.inr ⟨fun i hi => if_neg (h1 i hi), h2⟩

lemma gather_eq_iff {L o i : List ℕ} : gather L o = gather L i ↔ ∀ x ∈ L, o.getD x 0 = i.getD x 0 := by
  constructor
  · intro h x hx
    obtain ⟨k, hk, rfl⟩ := List.mem_iff_getElem.1 hx
    have := congrArg (fun l => l.getD k 0) h
    rwa [gather_getD _ _ _ hk, gather_getD _ _ _ hk] at this
  · exact fun h => List.map_congr_left h

/-! ### `rev` -/

/-- The index reversed at the axes `dims` of the shape `S`. -/
def revIdx (dims S k : List ℕ) : List ℕ := k.mapIdx fun x d => if x ∈ dims then S.getD x 0 - 1 - d else d

lemma getD_revIdx (dims S k : List ℕ) (x : ℕ) (h : x < k.length) :
    (revIdx dims S k).getD x 0 = if x ∈ dims then S.getD x 0 - 1 - k.getD x 0 else k.getD x 0 := getD_mapIdx _ _ _ h

lemma inRange_revIdx {dims S k : List ℕ} (h : InRange k S) : InRange (revIdx dims S k) S := by
  obtain ⟨h1, h2⟩ := inRange_iff.1 h
  refine inRange_iff.2 ⟨by simp [revIdx, h1], fun x hx => ?_⟩
  have := h2 x hx
  rw [getD_revIdx _ _ _ _ (by omega)]
  split <;> omega

lemma revIdx_append {dims S T o i : List ℕ} (ho : o.length = S.length) (hd : ∀ a ∈ dims, a < S.length) :
    revIdx dims (S ++ T) (o ++ i) = revIdx dims S o ++ i := by
  refine ext_getD (by simp [revIdx]) fun x hx => ?_
  have hx : x < (o ++ i).length := by simpa [revIdx] using hx
  rw [getD_revIdx _ _ _ _ hx]
  by_cases h : x < o.length
  · rw [List.getD_append _ _ _ _ h, List.getD_append _ _ _ _ (by rwa [← ho]), List.getD_append _ _ _ _ (by simpa [revIdx] using h), getD_revIdx _ _ _ _ h]
  · rw [if_neg fun h2 => h (by have := hd x h2; omega), List.getD_append_right _ _ _ _ (by omega),
      List.getD_append_right _ _ _ _ (by simp only [revIdx, List.length_mapIdx]; omega)]
    simp [revIdx]

/-- Reversal at some axes, as a relation between indices. -/
lemma revIdx_iff {dims S o i : List ℕ} (ho : InRange o S) (hi : InRange i S) :
    revIdx dims S o = i ↔ gather (freeAxes S.length dims) o = gather (freeAxes S.length dims) i ∧ ∀ x ∈ dims, x < S.length → o.getD x 0 + i.getD x 0 + 1 = S.getD x 0 := by
  obtain ⟨o1, o2⟩ := inRange_iff.1 ho
  obtain ⟨i1, i2⟩ := inRange_iff.1 hi
  rw [gather_eq_iff]
  constructor
  · rintro rfl
    refine ⟨fun x hx => ?_, fun x hx hl => ?_⟩
    · rw [getD_revIdx _ _ _ _ (by rw [o1]; exact (mem_free.1 hx).1), if_neg (mem_free.1 hx).2]
    · have := o2 x hl
      rw [getD_revIdx _ _ _ _ (by omega), if_pos hx]
      omega
  · rintro ⟨h1, h2⟩
    refine ext_getD (by simp [revIdx, o1, i1]) fun x hx => ?_
    have hx : x < o.length := by simpa [revIdx] using hx
    rw [getD_revIdx _ _ _ _ hx]
    split
    · rename_i h
      have := h2 x h (by omega)
      omega
    · rename_i h
      exact h1 x (mem_free.2 ⟨by omega, h⟩)

lemma fits_free (s : Structure) (S D : List ℕ) (h1 : s.outTrace = freeAxes S.length D) (h2 : s.inTrace = freeAxes S.length D) (h3 : s.outBroadcast = []) {out : List ℕ}
    (hl : out.length = S.length) (he : ∀ x, x < S.length → x ∉ D → out.getD x 0 = S.getD x 0) : Fits s S out := by
  refine ⟨by rw [h1, h2], by rw [h1]; exact nodup_free _ _, by rw [h2]; exact nodup_free _ _, ?_, ?_, ?_, by simp [h3]⟩
  · rw [h1, hl]
    exact fun a ha => (mem_free.1 ha).1
  · rw [h2]
    exact fun a ha => (mem_free.1 ha).1
  · rw [h1, h2, gather_eq_iff]
    exact fun x hx => he x (mem_free.1 hx).1 (mem_free.1 hx).2

/-- Axes that are neither traced nor broadcast are not cut. -/
lemma cut_off {s : Structure} {as bs cs : List ℕ} (hc : Cut (tracePairs s) s.outBroadcast as bs cs) (hl : s.outTrace.length = s.inTrace.length) {x : ℕ}
    (h1 : x ∉ s.outTrace) (h2 : x ∉ s.inTrace) (h3 : x ∉ s.outBroadcast) : x ∉ as ++ cs ∧ x ∉ bs := by
  refine ⟨fun h => ?_, fun h => ?_⟩
  · rcases List.mem_append.1 h with h | h
    · obtain ⟨p, hp, hpx⟩ := hc.out x h
      exact h1 ((mem_trace_left hl).2 ⟨p, hp, hpx⟩)
    · exact h3 (hc.sub x h)
  · obtain ⟨p, hp, hpx⟩ := hc.inp x h
    exact h2 ((mem_trace_right hl).2 ⟨p, hp, hpx⟩)

lemma mem_zip_self {l : List ℕ} {x : ℕ} (h : x ∈ l) : (x, x) ∈ l.zip l := by
  obtain ⟨k, hk, rfl⟩ := List.mem_iff_getElem.1 h
  exact List.mem_iff_getElem.2 ⟨k, by simpa using hk, by simp⟩

lemma cut_same {s : Structure} {inp out as bs cs : List ℕ} (hc : Cut (tracePairs s) s.outBroadcast as bs cs) (hf : Fits s inp out)
    (h : s.outTrace = s.inTrace) {x : ℕ} (hx : x ∈ s.outTrace) : x ∈ as ++ cs ↔ x ∈ bs := by
  have h2 := hc.both (x, x) (by unfold tracePairs; rw [← h]; exact mem_zip_self hx)
  have h3 : x ∉ cs := fun h => hf.off x hx (hc.sub x h)
  rw [List.mem_append, ← h2]
  tauto

lemma rules_rev {dims S : List ℕ} (hd : ∀ a ∈ dims, a < S.length) (other : Arr α) :
    ∃ J, RulesOk (fun w => .ok (w.rev dims)) (revJ dims) (revS 0 dims S) 0 [S] S other S J := by
  have hf : Fits (revS 0 dims S) S S := fits_free _ S dims rfl rfl rfl rfl fun _ _ _ => rfl
  have hoff : ∀ {as bs cs x}, Cut (tracePairs (revS 0 dims S)) (revS 0 dims S).outBroadcast as bs cs → x ∈ dims → x ∉ as ++ cs ∧ x ∉ bs := by
    intro as bs cs x hc hx
    exact cut_off hc hf.len (fun h => (mem_free.1 h).2 hx) (fun h => (mem_free.1 h).2 hx) (by simp [revS])
  have hrv : ∀ (a : Arr α) k, (a.rev dims).get k = a.get (revIdx dims a.shape k) := fun _ _ => rfl
  refine ⟨_, rulesOk_if (fun S' o i => ∀ x ∈ dims, x < S.length → o.getD x 0 + i.getD x 0 + 1 = S'.getD x 0)
    (fun inp' out' => out' = inp') rfl rfl rfl hf rfl ?_ ?_ ?_ ?_⟩
  · intro as bs cs hc
    refine ext_getD (by simp [length_trim]) fun x hx => ?_
    have hx : x < S.length := by simpa [length_trim] using hx
    rw [getD_trim _ _ _ hx, getD_trim _ _ _ hx]
    by_cases h : x ∈ dims
    · rw [if_neg (hoff hc h).1, if_neg (hoff hc h).2]
    · have hxF : x ∈ freeAxes S.length dims := mem_free.2 ⟨hx, h⟩
      simp only [cut_same hc hf rfl hxF]
  · intro inp' out' hf' h1 h2 he
    subst he
    obtain ⟨j, e1, e2, e3⟩ := eyeLike_ok (α := α) out'
    refine ⟨j.rev dims, ?_, e2, fun o i ho hi => ?_⟩
    · unfold revJ
      rw [e1]
      rfl
    · rw [hrv, e2, revIdx_append ho.length (by rwa [h1]), e3 _ _ (inRange_revIdx ho) hi]
      refine deltaIf_iff ?_
      rw [revIdx_iff ho hi, h1]
      rfl
  · intro as bs cs o i hc ho hi
    refine forall_congr' fun x => forall_congr' fun hx => forall_congr' fun hl => ?_
    rw [getD_squash, getD_squash, getD_trim _ _ _ hl, if_neg (hoff hc hx).1, if_neg (hoff hc hx).2, if_neg (hoff hc hx).2]
  · refine jacobian_if (fun _ => 0) fun w hw => ⟨_, rfl, hw, fun o ho => Or.inl ⟨revIdx dims S o, inRange_revIdx ho, fun i hi => ?_, ?_⟩⟩
    · rw [eq_comm (a := i)]
      exact (revIdx_iff ho hi).symm
    · rw [hrv, hw, zero_add]

/-! ### `pad` -/

/-- The size of an axis after padding. -/
def padSize (c : ℤ × ℤ × ℕ) (n : ℕ) : ℕ := (c.1 + c.2.1 + n + (n - 1 : ℕ) * c.2.2).toNat

omit [Field α] in
lemma padLax_shape (a : Arr α) (v : α) (cfg : List (ℤ × ℤ × ℕ)) : (a.padLax v cfg).shape = a.shape.mapIdx fun x n => padSize (cfg.getD x (0, 0, 0)) n := rfl

omit [Field α] in
/-- The entry at `k` of a padded array is the entry at `i` if `k` is `i` moved, and the padding value if there is no such `i`. -/
lemma padLax_get (a : Arr α) (v : α) (cfg : List (ℤ × ℤ × ℕ)) (k : List ℕ) :
    (∃ i, InRange i a.shape ∧ (∀ x, x < a.shape.length → (k.getD x 0 : ℤ) = (cfg.getD x (0, 0, 0)).1 + i.getD x 0 * ((cfg.getD x (0, 0, 0)).2.2 + 1)) ∧
      (a.padLax v cfg).get k = a.get i) ∨
    ((∀ i, InRange i a.shape → ¬ ∀ x, x < a.shape.length → (k.getD x 0 : ℤ) = (cfg.getD x (0, 0, 0)).1 + i.getD x 0 * ((cfg.getD x (0, 0, 0)).2.2 + 1)) ∧
      (a.padLax v cfg).get k = v) := by
  have hdiv : ∀ x (d : ℕ), (k.getD x 0 : ℤ) = (cfg.getD x (0, 0, 0)).1 + d * ((cfg.getD x (0, 0, 0)).2.2 + 1) ↔
      ((k.getD x 0 : ℤ) - (cfg.getD x (0, 0, 0)).1) % (((cfg.getD x (0, 0, 0)).2.2 : ℤ) + 1) = 0 ∧
      ((k.getD x 0 : ℤ) - (cfg.getD x (0, 0, 0)).1) / (((cfg.getD x (0, 0, 0)).2.2 : ℤ) + 1) = d := by
    intro x d
    have hpos : (0 : ℤ) < ((cfg.getD x (0, 0, 0)).2.2 : ℤ) + 1 := by positivity
    constructor
    · intro h
      have : (k.getD x 0 : ℤ) - (cfg.getD x (0, 0, 0)).1 = d * (((cfg.getD x (0, 0, 0)).2.2 : ℤ) + 1) := by linarith
      rw [this]
      exact ⟨Int.mul_emod_left _ _, Int.mul_ediv_cancel _ hpos.ne'⟩
    · rintro ⟨h1, h2⟩
      have := Int.mul_ediv_add_emod ((k.getD x 0 : ℤ) - (cfg.getD x (0, 0, 0)).1) (((cfg.getD x (0, 0, 0)).2.2 : ℤ) + 1)
      rw [h1, h2] at this
      linarith
  by_cases h : ∀ x, x < a.ndim → 0 ≤ (k.getD x 0 : ℤ) - (cfg.getD x (0, 0, 0)).1 ∧ ((k.getD x 0 : ℤ) - (cfg.getD x (0, 0, 0)).1) % (((cfg.getD x (0, 0, 0)).2.2 : ℤ) + 1) = 0 ∧
      ((k.getD x 0 : ℤ) - (cfg.getD x (0, 0, 0)).1) / (((cfg.getD x (0, 0, 0)).2.2 : ℤ) + 1) < a.shape.getD x 0
  · left
    have hnn : ∀ x, x < a.shape.length → 0 ≤ ((k.getD x 0 : ℤ) - (cfg.getD x (0, 0, 0)).1) / (((cfg.getD x (0, 0, 0)).2.2 : ℤ) + 1) := fun x hx =>
      Int.ediv_nonneg (h x hx).1 (by positivity)
    refine ⟨(List.range a.ndim).map fun x => (((k.getD x 0 : ℤ) - (cfg.getD x (0, 0, 0)).1) / (((cfg.getD x (0, 0, 0)).2.2 : ℤ) + 1)).toNat, ?_, ?_, if_pos h⟩
    · refine inRange_iff.2 ⟨by simp; rfl, fun x hx => ?_⟩
      rw [getD_map_range _ a.ndim _ hx]
      have := (h x hx).2.2
      have := hnn x hx
      omega
    · intro x hx
      rw [getD_map_range _ a.ndim _ hx, hdiv]
      exact ⟨(h x hx).2.1, (Int.toNat_of_nonneg (hnn x hx)).symm⟩
  · right
    refine ⟨fun i hi h2 => h fun x hx => ?_, if_neg h⟩
    have h3 := (hdiv x _).1 (h2 x hx)
    have h4 := (inRange_iff.1 hi).2 x hx
    refine ⟨?_, h3.1, by rw [h3.2]; exact_mod_cast h4⟩
    rw [h2 x hx]
    have : (0 : ℤ) ≤ (i.getD x 0 : ℤ) * (((cfg.getD x (0, 0, 0)).2.2 : ℤ) + 1) := by positivity
    linarith

/-- The axes that are padded. -/
def padAxes (cfg : List (ℤ × ℤ × ℕ)) (n : ℕ) : List ℕ := (List.range n).filter fun x => cfg.getD x (0, 0, 0) ≠ (0, 0, 0)

lemma padFree (cfg : List (ℤ × ℤ × ℕ)) (n : ℕ) : ((List.range n).filter fun x => cfg.getD x (0, 0, 0) = (0, 0, 0)) = freeAxes n (padAxes cfg n) := by
  unfold freeAxes
  refine List.filter_congr fun a ha => ?_
  rw [Bool.eq_iff_iff]
  simp only [decide_eq_true_eq, Bool.not_eq_true', ← Bool.not_eq_true, List.contains_iff_mem, padAxes, List.mem_filter, ha, true_and, not_not]

/-- The index `o` of a padded array holds the entry `i`, at the axis `x`. -/
def Moves (cfg : List (ℤ × ℤ × ℕ)) (o i : List ℕ) (x : ℕ) : Prop :=
  (o.getD x 0 : ℤ) = (cfg.getD x (0, 0, 0)).1 + i.getD x 0 * ((cfg.getD x (0, 0, 0)).2.2 + 1)

lemma moves_inj {cfg : List (ℤ × ℤ × ℕ)} {o i i' : List ℕ} {x : ℕ} (h : Moves cfg o i x) (h' : Moves cfg o i' x) : i.getD x 0 = i'.getD x 0 := by
  unfold Moves at h h'
  have hpos : (0 : ℤ) < ((cfg.getD x (0, 0, 0)).2.2 : ℤ) + 1 := by positivity
  have : (i.getD x 0 : ℤ) * (((cfg.getD x (0, 0, 0)).2.2 : ℤ) + 1) = (i'.getD x 0 : ℤ) * (((cfg.getD x (0, 0, 0)).2.2 : ℤ) + 1) := by linarith
  have := mul_right_cancel₀ hpos.ne' this
  exact_mod_cast this

lemma moves_zero {cfg : List (ℤ × ℤ × ℕ)} {o i : List ℕ} {x : ℕ} (h : cfg.getD x (0, 0, 0) = (0, 0, 0)) : Moves cfg o i x ↔ o.getD x 0 = i.getD x 0 := by
  unfold Moves
  rw [h]
  simp

lemma moves_iff (cfg : List (ℤ × ℤ × ℕ)) (n : ℕ) (o i : List ℕ) : (∀ x, x < n → Moves cfg o i x) ↔
    gather (freeAxes n (padAxes cfg n)) o = gather (freeAxes n (padAxes cfg n)) i ∧ ∀ x ∈ padAxes cfg n, Moves cfg o i x := by
  rw [gather_eq_iff]
  constructor
  · intro h
    refine ⟨fun x hx => ?_, fun x hx => h x (by simpa using (List.mem_filter.1 hx).1)⟩
    rw [← padFree, List.mem_filter] at hx
    exact (moves_zero (by simpa using hx.2)).1 (h x (by simpa using hx.1))
  · rintro ⟨h1, h2⟩ x hx
    by_cases h : cfg.getD x (0, 0, 0) = (0, 0, 0)
    · exact (moves_zero h).2 (h1 x (by rw [← padFree]; exact List.mem_filter.2 ⟨List.mem_range.2 hx, by simpa using h⟩))
    · exact h2 x (List.mem_filter.2 ⟨List.mem_range.2 hx, by simpa using h⟩)

lemma padSize_zero (n : ℕ) : padSize (0, 0, 0) n = n := by simp [padSize]

lemma padJ_ok {cfg : List (ℤ × ℤ × ℕ)} {inp : List ℕ} (hc : cfg.length = inp.length) (other : Arr α) (out : List ℕ) :
    ∃ j, padJ cfg inp other out = .ok j ∧ j.shape = (inp.mapIdx fun x n => padSize (cfg.getD x (0, 0, 0)) n) ++ inp ∧
      ∀ o i, o.length = inp.length → InRange i inp → j.get (o ++ i) = open Classical in if ∀ x, x < inp.length → Moves cfg o i x then 1 else 0 := by
  obtain ⟨j0, a1, a2, a3⟩ := eye_same (α := α) inp
  have hc1 : ∀ x, x < inp.length → (cfg ++ List.replicate inp.length (0, 0, 0)).getD x (0, 0, 0) = cfg.getD x (0, 0, 0) := fun x hx =>
    List.getD_append _ _ _ _ (by omega)
  have hc2 : ∀ x, (cfg ++ List.replicate inp.length ((0 : ℤ), (0 : ℤ), 0)).getD (inp.length + x) (0, 0, 0) = (0, 0, 0) := by
    intro x
    rw [List.getD_append_right _ _ _ _ (by omega), List.getD_eq_getElem?_getD, List.getElem?_replicate]
    split <;> rfl
  refine ⟨j0.padLax 0 (cfg ++ List.replicate inp.length (0, 0, 0)), by unfold padJ; rw [a1]; rfl, ?_, fun o i ho hi => ?_⟩
  · rw [padLax_shape, a2]
    refine ext_getD (by simp) fun x hx => ?_
    have hx : x < (inp ++ inp).length := by simpa using hx
    rw [getD_mapIdx (fun x n => padSize _ n) _ _ hx]
    rw [List.length_append] at hx
    by_cases h : x < inp.length
    · rw [hc1 x h, List.getD_append _ _ _ _ h, List.getD_append _ _ _ _ (by simpa using h), getD_mapIdx (fun x n => padSize _ n) _ _ h]
    · obtain ⟨y, rfl⟩ : ∃ y, x = inp.length + y := ⟨x - inp.length, by omega⟩
      rw [hc2, padSize_zero, List.getD_append_right _ _ _ _ (by omega), List.getD_append_right _ _ _ _ (by simp)]
      simp
  · have hmv1 : ∀ a b x, a.length = inp.length → x < inp.length → (Moves (cfg ++ List.replicate inp.length (0, 0, 0)) (o ++ i) (a ++ b) x ↔ Moves cfg o a x) := by
      intro a b x ha hx
      unfold Moves
      rw [hc1 x hx, List.getD_append _ _ _ _ (by omega), List.getD_append _ _ _ _ (by omega)]
    have hmv2 : ∀ a b x, a.length = inp.length → (Moves (cfg ++ List.replicate inp.length (0, 0, 0)) (o ++ i) (a ++ b) (inp.length + x) ↔ i.getD x 0 = b.getD x 0) := by
      intro a b x ha
      rw [moves_zero (hc2 x), List.getD_append_right _ _ _ _ (by omega), List.getD_append_right _ _ _ _ (by omega), ho, ha]
      simp
    rcases padLax_get j0 0 (cfg ++ List.replicate inp.length (0, 0, 0)) (o ++ i) with ⟨k, hk, h1, h2⟩ | ⟨h1, h2⟩
    · rw [a2] at hk h1
      obtain ⟨a, b, rfl, ha, hb⟩ := inRange_append_right hk
      have e1 : ∀ x, x < inp.length → Moves cfg o a x := fun x hx => (hmv1 a b x ha.length hx).1 (h1 x (by rw [List.length_append]; omega))
      have e2 : b = i := by
        refine ext_getD (by rw [hb.length, hi.length]) fun x hx => ?_
        exact ((hmv2 a b x ha.length).1 (h1 _ (by rw [List.length_append]; have := hb.length; omega))).symm
      rw [h2, a3 a b ha hb, e2]
      have : a = i ↔ ∀ x, x < inp.length → Moves cfg o i x := by
        constructor
        · rintro rfl
          exact e1
        · intro h
          refine ext_getD (by rw [ha.length, hi.length]) fun x hx => ?_
          rw [ha.length] at hx
          exact moves_inj (e1 x hx) (h x hx)
      by_cases h : a = i
      · rw [if_pos h, if_pos (this.1 h)]
      · rw [if_neg h, if_neg fun h3 => h (this.2 h3)]
    · rw [a2] at h1
      rw [h2, if_neg]
      intro h
      refine h1 (i ++ i) ((inRange_append hi.length).2 ⟨hi, hi⟩) fun x hx => ?_
      rw [List.length_append] at hx
      by_cases hxl : x < inp.length
      · exact (hmv1 i i x hi.length hxl).2 (h x hxl)
      · obtain ⟨y, rfl⟩ : ∃ y, x = inp.length + y := ⟨x - inp.length, by omega⟩
        exact (hmv2 i i y hi.length).2 rfl

lemma rules_pad {cfg : List (ℤ × ℤ × ℕ)} {inp : List ℕ} (hc : cfg.length = inp.length) (v : α) (shapes : List (List ℕ)) (hs : shapes.getD 0 [] = inp) (other : Arr α) :
    ∃ J, RulesOk (fun w => .ok (w.padLax v cfg)) (padJ cfg) (padS 0 cfg (inp.mapIdx fun x n => padSize (cfg.getD x (0, 0, 0)) n)) 0 shapes inp other
      (inp.mapIdx fun x n => padSize (cfg.getD x (0, 0, 0)) n) J := by
  set out := inp.mapIdx fun x n => padSize (cfg.getD x (0, 0, 0)) n with hout
  have hol : out.length = inp.length := by simp [hout]
  have hO : (padS 0 cfg out).outTrace = freeAxes inp.length (padAxes cfg inp.length) := by simp only [padS, hol]; exact padFree _ _
  have hI : (padS 0 cfg out).inTrace = freeAxes inp.length (padAxes cfg inp.length) := hO
  have hmem : ∀ x, x < inp.length → x ∉ padAxes cfg inp.length → cfg.getD x (0, 0, 0) = (0, 0, 0) := by
    intro x hx h
    by_contra h2
    exact h (List.mem_filter.2 ⟨List.mem_range.2 hx, by simpa using h2⟩)
  have hf : Fits (padS 0 cfg out) inp out := by
    refine fits_free _ inp (padAxes cfg inp.length) hO hI rfl hol fun x hx hn => ?_
    rw [hout, getD_mapIdx (fun x n => padSize _ n) _ _ hx, hmem x hx hn, padSize_zero]
  have hoff : ∀ {as bs cs x}, Cut (tracePairs (padS 0 cfg out)) (padS 0 cfg out).outBroadcast as bs cs → x ∈ padAxes cfg inp.length → x ∉ as ++ cs ∧ x ∉ bs := by
    intro as bs cs x hc hx
    refine cut_off hc hf.len ?_ ?_ (by simp [padS])
    · rw [hO]
      exact fun h => (mem_free.1 h).2 hx
    · rw [hI]
      exact fun h => (mem_free.1 h).2 hx
  refine ⟨_, rulesOk_if (fun _ o i => ∀ x ∈ padAxes cfg inp.length, Moves cfg o i x)
    (fun inp' out' => out' = inp'.mapIdx fun x n => padSize (cfg.getD x (0, 0, 0)) n) hs rfl rfl hf rfl ?_ ?_ ?_ ?_⟩
  · intro as bs cs hcut
    refine ext_getD (by simp [length_trim, hol]) fun x hx => ?_
    have hx : x < inp.length := by simpa [length_trim, hol] using hx
    rw [getD_trim _ _ _ (by omega), getD_mapIdx (fun x n => padSize (cfg.getD x (0, 0, 0)) n) (trim bs inp) _ (by rw [length_trim]; exact hx),
      getD_trim _ _ _ hx, hout, getD_mapIdx (fun x n => padSize (cfg.getD x (0, 0, 0)) n) inp _ hx]
    by_cases h : x ∈ padAxes cfg inp.length
    · rw [if_neg (hoff hcut h).1, if_neg (hoff hcut h).2]
    · have h2 := cut_same hcut hf rfl (x := x) (by rw [hO]; exact mem_free.2 ⟨hx, h⟩)
      rw [hmem x hx h, padSize_zero, padSize_zero]
      simp only [h2]
  · intro inp' out' hf' h1 h2 he
    subst he
    obtain ⟨j, e1, e2, e3⟩ := padJ_ok (cfg := cfg) (inp := inp') (by omega) other (inp'.mapIdx fun x n => padSize (cfg.getD x (0, 0, 0)) n)
    refine ⟨j, e1, e2, fun o i ho hi => ?_⟩
    rw [e3 o i (by rw [ho.length]; simp) hi]
    classical
    refine deltaIf_iff ?_
    rw [hO, hI, h1]
    exact (moves_iff _ _ _ _).symm
  · intro as bs cs o i hcut ho hi
    refine forall_congr' fun x => forall_congr' fun hx => ?_
    unfold Moves
    rw [getD_squash, getD_squash, if_neg (hoff hcut hx).1, if_neg (hoff hcut hx).2]
  · classical
    refine jacobian_if (fun o => if ∃ i, InRange i inp ∧ ∀ x, x < inp.length → Moves cfg o i x then 0 else v) fun w hw => ⟨_, rfl, by rw [padLax_shape, hw], fun o ho => ?_⟩
    have e : ∀ i, (gather (padS 0 cfg out).outTrace o = gather (padS 0 cfg out).inTrace i ∧ ∀ x ∈ padAxes cfg inp.length, Moves cfg o i x) ↔
        ∀ x, x < inp.length → Moves cfg o i x := fun i => by rw [hO, hI, moves_iff]
    rcases padLax_get w v cfg o with ⟨k, hk, h1, h2⟩ | ⟨h1, h2⟩
    · rw [hw] at hk h1
      refine Or.inl ⟨k, hk, fun i hi => ?_, ?_⟩
      · rw [e i]
        constructor
        · intro h
          refine ext_getD (by rw [hi.length, hk.length]) fun x hx => ?_
          rw [hi.length] at hx
          exact moves_inj (h x hx) (h1 x hx)
        · rintro rfl
          exact h1
      · rw [h2, if_pos ⟨k, hk, h1⟩, zero_add]
    · rw [hw] at h1
      refine Or.inr ⟨fun i hi h => h1 i hi ((e i).1 h), ?_⟩
      rw [h2, if_neg]
      rintro ⟨i, hi, h⟩
      exact h1 i hi h

/-! ### `concatenate` -/

omit [Field α] in
lemma catGet_list (axis : ℕ) (m : Arr α) (ms : List (Arr α)) (k : List ℕ) (r e : ℕ) (hr : r < (m :: ms).length)
    (he : e < ((m :: ms).map fun a => a.shape.getD axis 0).getD r 0) (hk : k.getD axis 0 = (((m :: ms).map fun a => a.shape.getD axis 0).take r).sum + e) :
    catGet axis m ms k = ((m :: ms)[r]).get (k.set axis e) := by
  have hset : ∀ (k : List ℕ) e, k.getD axis 0 = e → k.set axis e = k := by
    intro k e h
    by_cases hx : axis < k.length
    · rw [← h, List.getD_eq_getElem _ _ hx, List.set_getElem_self]
    · rw [List.set_eq_of_length_le (by omega)]
  induction ms generalizing m k r with
  | nil =>
    have : r = 0 := by simpa using hr
    subst this
    simp only [List.take_zero, List.sum_nil, zero_add] at hk
    rw [hset k e hk]
    rfl
  | cons m' ms ih =>
    cases r with
    | zero =>
      simp only [List.take_zero, List.sum_nil, zero_add] at hk
      have he : e < m.shape.getD axis 0 := he
      rw [hset k e hk]
      unfold catGet
      rw [if_pos (by omega)]
      rfl
    | succ r =>
      have h1 : k.getD axis 0 = m.shape.getD axis 0 + ((((m' :: ms).map fun a => a.shape.getD axis 0).take r).sum + e) := by
        rw [hk, List.map_cons, List.take_succ_cons, List.sum_cons, Nat.add_assoc]
      unfold catGet
      rw [if_neg (by omega)]
      by_cases hx : axis < k.length
      · rw [ih m' (k.set axis (k.getD axis 0 - m.shape.getD axis 0)) r (by simpa using hr) he ?_, List.set_set]
        · rfl
        · rw [List.getD_eq_getElem _ _ (by simpa using hx), List.getElem_set_self, h1]
          omega
      · have h2 : k.getD axis 0 = 0 := List.getD_eq_default _ _ (by omega)
        rw [ih m' (k.set axis (k.getD axis 0 - m.shape.getD axis 0)) r (by simpa using hr) he ?_]
        · rw [List.set_eq_of_length_le (by simp; omega), List.set_eq_of_length_le (by omega), List.set_eq_of_length_le (by omega)]
          rfl
        · rw [List.set_eq_of_length_le (by omega)]
          omega

/-- A position along the concatenated axis is in one block. -/
lemma block_exists (l : List ℕ) (p : ℕ) (h : p < l.sum) : ∃ r e, r < l.length ∧ e < l.getD r 0 ∧ p = (l.take r).sum + e := by
  induction l generalizing p with
  | nil => simp at h
  | cons n l ih =>
    by_cases hp : p < n
    · exact ⟨0, p, by simp, by simpa using hp, by simp⟩
    · obtain ⟨r, e, h1, h2, h3⟩ := ih (p - n) (by rw [List.sum_cons] at h; omega)
      refine ⟨r + 1, e, by simpa using h1, by simpa using h2, ?_⟩
      rw [List.take_succ_cons, List.sum_cons]
      omega

lemma block_unique (l : List ℕ) {r r' e e' : ℕ} (he : e < l.getD r 0) (he' : e' < l.getD r' 0) (h : (l.take r).sum + e = (l.take r').sum + e') : r = r' := by
  induction l generalizing r r' with
  | nil => simp at he
  | cons n l ih =>
    cases r with
    | zero =>
      cases r' with
      | zero => rfl
      | succ r' =>
        simp only [List.getD_cons_zero, List.take_zero, List.sum_nil, List.take_succ_cons, List.sum_cons] at he h
        omega
    | succ r =>
      cases r' with
      | zero =>
        simp only [List.getD_cons_zero, List.take_zero, List.sum_nil, List.take_succ_cons, List.sum_cons] at he' h
        omega
      | succ r' =>
        simp only [List.getD_cons_succ, List.take_succ_cons, List.sum_cons] at he he' h
        rw [ih he he' (by omega)]

omit [Field α] in
/-- The entries of a concatenation. -/
lemma concatE_list (ms : List (Arr α)) (S : List ℕ) (axis : ℕ) (sizes : List ℕ) (hne : sizes ≠ []) (hx : axis < S.length)
    (hs : ms.map (·.shape) = sizes.map fun n => S.set axis n) : ∃ y, concatE ms axis = .ok y ∧ y.shape = S.set axis sizes.sum ∧
      ∀ k r e (hr : r < ms.length), e < sizes.getD r 0 → k.getD axis 0 = (sizes.take r).sum + e → y.get k = (ms[r]).get (k.set axis e) := by
  have hlen : ms.length = sizes.length := by simpa using congrArg List.length hs
  have hsz : ms.map (fun a => a.shape.getD axis 0) = sizes := by
    have := congrArg (List.map fun l : List ℕ => l.getD axis 0) hs
    rw [List.map_map, List.map_map] at this
    refine this.trans ?_
    conv_rhs => rw [← List.map_id sizes]
    refine List.map_congr_left fun n _ => ?_
    simp only [Function.comp, id]
    rw [List.getD_eq_getElem _ _ (by simpa using hx), List.getElem_set_self]
  cases ms with
  | nil => exact absurd (List.length_eq_zero_iff.1 hlen.symm) hne
  | cons m ms =>
    have hall : ∀ a ∈ m :: ms, ∃ n, a.shape = S.set axis n := by
      intro a ha
      have : a.shape ∈ (m :: ms).map (·.shape) := List.mem_map.2 ⟨a, ha, rfl⟩
      rw [hs] at this
      obtain ⟨n, _, hn⟩ := List.mem_map.1 this
      exact ⟨n, hn.symm⟩
    obtain ⟨n0, hn0⟩ := hall m (by simp)
    refine ⟨⟨m.shape.set axis (((m :: ms).map fun m => m.shape.getD axis 0).sum), catGet axis m ms⟩, ?_, ?_, ?_⟩
    · unfold concatE
      simp only
      rw [if_pos]
      refine ⟨by show axis < m.shape.length; rw [hn0]; simpa using hx, fun a ha => ?_⟩
      obtain ⟨n, hn⟩ := hall a (by simp [ha])
      rw [hn, hn0, List.set_set, List.set_set]
    · simp only
      rw [hsz, hn0, List.set_set]
    · intro k r e hr he hk
      exact catGet_list axis m ms k r e hr (by rw [hsz]; exact he) (by rw [hsz]; exact hk)

lemma mapM_ok' {A B : Type} {f : A → Except Err B} {g : A → B} (l : List A) (h : ∀ a ∈ l, f a = .ok (g a)) : l.mapM f = .ok (l.map g) := by
  induction l with
  | nil => rfl
  | cons a l ih =>
    rw [List.mapM_cons, h a (by simp), ih fun b hb => h b (by simp [hb])]
    rfl

lemma set_append_left (A B : List ℕ) (d n : ℕ) (h : d < A.length) : (A ++ B).set d n = A.set d n ++ B := List.set_append_left _ _ h

lemma inRange_set_iff {S k : List ℕ} {d n e : ℕ} (h : InRange k (S.set d n)) (he : e < S.getD d 0) : InRange (k.set d e) S := by
  obtain ⟨h1, h2⟩ := inRange_iff.1 h
  rw [List.length_set] at h1 h2
  refine inRange_iff.2 ⟨by rw [List.length_set, h1], fun x hx => ?_⟩
  have := h2 x hx
  rw [List.getD_eq_getElem _ _ (by simp; omega), List.getElem_set]
  rw [List.getD_eq_getElem (S.set d n) _ (by simpa using hx), List.getElem_set, List.getD_eq_getElem _ _ (by omega)] at this
  split
  · rename_i hdx
    subst hdx
    exact he
  · rename_i hdx
    rw [if_neg hdx] at this
    rwa [List.getD_eq_getElem _ _ hx]

/-- An index with a coordinate replaced. -/
lemma set_eq_iff {S o i : List ℕ} {d e : ℕ} (hd : d < S.length) (ho : o.length = S.length) (hi : i.length = S.length) :
    o.set d e = i ↔ gather (freeAxes S.length [d]) o = gather (freeAxes S.length [d]) i ∧ e = i.getD d 0 := by
  rw [gather_eq_iff]
  constructor
  · rintro rfl
    refine ⟨fun x hx => ?_, ?_⟩
    · have := mem_free.1 hx
      have hne : d ≠ x := fun h => this.2 (by simp [h])
      rw [List.getD_eq_getElem _ _ (by omega), List.getD_eq_getElem _ _ (by simp; omega), List.getElem_set_ne hne]
    · rw [List.getD_eq_getElem _ _ (by simp; omega), List.getElem_set_self]
  · rintro ⟨h1, h2⟩
    refine ext_getD (by simp [ho, hi]) fun x hx => ?_
    have hx : x < o.length := by simpa using hx
    rw [List.getD_eq_getElem (o.set d e) _ (by simpa using hx), List.getElem_set]
    split
    · rename_i h
      rw [← h, h2]
    · rename_i h
      have := h1 x (mem_free.2 ⟨by omega, by simpa using fun h2 => h h2.symm⟩)
      rwa [List.getD_eq_getElem _ _ hx] at this

lemma getD_set_self {S : List ℕ} {d n : ℕ} (h : d < S.length) : (S.set d n).getD d 0 = n := by
  rw [List.getD_eq_getElem _ _ (by simpa using h), List.getElem_set_self]

lemma getD_set_ne {S : List ℕ} {d x n : ℕ} (h : x ≠ d) : (S.set d n).getD x 0 = S.getD x 0 := by
  rw [List.getD_eq_getElem?_getD, List.getElem?_set_ne (Ne.symm h), List.getD_eq_getElem?_getD]

lemma set_self {S : List ℕ} {d n : ℕ} (h : S.getD d 0 = n) : S.set d n = S := by
  by_cases hd : d < S.length
  · rw [← h, List.getD_eq_getElem _ _ hd, List.set_getElem_self]
  · rw [List.set_eq_of_length_le (by omega)]

lemma concatJ_ok {sizes inp : List ℕ} {idx dim : ℕ} (hd : dim < inp.length) (hi : idx < sizes.length) (hs : inp.getD dim 0 = sizes.getD idx 0) (other : Arr α) :
    ∃ j, concatJ sizes idx dim inp other (inp.set dim sizes.sum) = .ok j ∧ j.shape = inp.set dim sizes.sum ++ inp ∧
      ∀ o i, InRange o (inp.set dim sizes.sum) → InRange i inp →
        j.get (o ++ i) = deltaIf (o.getD dim 0 = (sizes.take idx).sum + i.getD dim 0) (freeAxes inp.length [dim]) (freeAxes inp.length [dim]) o i := by
  obtain ⟨jE, a1, a2, a3⟩ := eye_same (α := α) inp
  have hset : inp.set dim (sizes.getD idx 0) = inp := set_self hs
  let g : ℕ → Arr α := fun i => if i = idx then jE else ⟨inp.set dim (sizes.getD i 0) ++ inp, fun _ => 0⟩
  have hg : ∀ i ∈ List.range sizes.length, (if i = idx then (eye inp.prod).reshapeE (inp.set dim (sizes.getD i 0) ++ inp) else
      (⟨[(inp.set dim (sizes.getD i 0)).prod, inp.prod], fun _ => 0⟩ : Arr α).reshapeE (inp.set dim (sizes.getD i 0) ++ inp)) = .ok (g i) := by
    intro i _
    by_cases h : i = idx
    · simp only [g, h, if_true]
      rw [hset]
      exact a1
    · simp only [g, if_neg h]
      unfold reshapeE
      rw [if_pos (by simp)]
      rfl
  have hshape : ((List.range sizes.length).map g).map (·.shape) = sizes.map fun n => (inp ++ inp).set dim n := by
    refine List.ext_getElem (by simp) fun r h1 h2 => ?_
    have hr : r < sizes.length := by simpa using h2
    simp only [List.getElem_map, List.getElem_range, g]
    rw [set_append_left _ _ _ _ hd]
    split
    · rename_i h
      subst h
      rw [a2, ← List.getD_eq_getElem _ 0 hr, hset]
    · simp only [List.getD_eq_getElem _ _ hr]
  obtain ⟨y, b1, b2, b3⟩ := concatE_list ((List.range sizes.length).map g) (inp ++ inp) dim sizes (by intro h; simp [h] at hi) (by simp; omega) hshape
  rw [set_append_left _ _ _ _ hd] at b2
  obtain ⟨j, c1, c2⟩ := reshapeE_self y b2
  refine ⟨j, ?_, c2.1.trans b2, fun o i ho hi' => ?_⟩
  · unfold concatJ
    simp only [bind, Except.bind]
    rw [mapM_ok' _ hg]
    simp only
    rw [b1]
    exact c1
  · rw [c2.2 _ (by rw [c2.1, b2]; exact (inRange_append ho.length).2 ⟨ho, hi'⟩)]
    have hod : o.getD dim 0 < sizes.sum := by
      have := (inRange_iff.1 ho).2 dim (by simpa using hd)
      rwa [getD_set_self hd] at this
    have hol : o.length = inp.length := by rw [ho.length, List.length_set]
    obtain ⟨r, e, h1, h2, h3⟩ := block_exists sizes _ hod
    rw [b3 (o ++ i) r e (by simpa using h1) h2 (by rw [List.getD_append _ _ _ _ (by omega)]; exact h3), set_append_left _ _ _ _ (by omega)]
    simp only [List.getElem_map, List.getElem_range, g]
    have hid : i.getD dim 0 < sizes.getD idx 0 := by rw [← hs]; exact (inRange_iff.1 hi').2 dim hd
    split
    · rename_i h
      subst h
      rw [a3 _ _ (inRange_set_iff ho (by rw [hs]; exact h2)) hi']
      refine deltaIf_iff ?_
      rw [set_eq_iff hd hol hi'.length, h3]
      refine and_congr_right fun _ => ?_
      omega
    · rename_i h
      unfold deltaIf
      rw [if_neg]
      rintro ⟨_, h4⟩
      exact h (block_unique sizes h2 hid (h3 ▸ h4))

lemma rules_concat {sizes inp : List ℕ} {idx dim : ℕ} (hd : dim < inp.length) (hi : idx < sizes.length) (hs : inp.getD dim 0 = sizes.getD idx 0)
    (others : List (Arr α)) (ho : others.map (·.shape) = sizes.map fun n => inp.set dim n) (other : Arr α) :
    ∃ J, RulesOk (fun w => concatE (others.set idx w) dim) (concatJ sizes idx dim) (concatS sizes.length dim (inp.set dim sizes.sum)) idx
      (sizes.map fun n => inp.set dim n) inp other (inp.set dim sizes.sum) J := by
  set out := inp.set dim sizes.sum with hout
  have hol : out.length = inp.length := by simp [hout]
  have hO : (concatS sizes.length dim out).outTrace = freeAxes inp.length [dim] := by simp only [concatS, hol]
  have hI : (concatS sizes.length dim out).inTrace = freeAxes inp.length [dim] := hO
  have hsame : ∀ x, x < inp.length → x ≠ dim → out.getD x 0 = inp.getD x 0 := by
    intro x _ hne
    rw [hout, getD_set_ne hne]
  have hf : Fits (concatS sizes.length dim out) inp out := fits_free _ inp [dim] hO hI rfl hol fun x hx hn => hsame x hx (by simpa using hn)
  have hoff : ∀ {as bs cs}, Cut (tracePairs (concatS sizes.length dim out)) (concatS sizes.length dim out).outBroadcast as bs cs → dim ∉ as ++ cs ∧ dim ∉ bs := by
    intro as bs cs hc
    refine cut_off hc hf.len ?_ ?_ (by simp [concatS])
    · rw [hO]
      exact fun h => (mem_free.1 h).2 (by simp)
    · rw [hI]
      exact fun h => (mem_free.1 h).2 (by simp)
  have hshapes : (sizes.map fun n => inp.set dim n).getD idx [] = inp := by
    rw [List.getD_eq_getElem _ _ (by simpa using hi), List.getElem_map, ← List.getD_eq_getElem _ 0 hi]
    exact set_self hs
  refine ⟨_, rulesOk_if (fun _ o i => o.getD dim 0 = (sizes.take idx).sum + i.getD dim 0)
    (fun inp' out' => inp'.getD dim 0 = sizes.getD idx 0 ∧ out' = inp'.set dim sizes.sum) hshapes rfl rfl hf ⟨hs, rfl⟩ ?_ ?_ ?_ ?_⟩
  · intro as bs cs hcut
    refine ⟨by rw [getD_trim _ _ _ hd, if_neg (hoff hcut).2, hs], ?_⟩
    refine ext_getD (by simp [length_trim, hol]) fun x hx => ?_
    have hx : x < inp.length := by simpa [length_trim, hol] using hx
    rw [getD_trim _ _ _ (by omega)]
    by_cases h : x = dim
    · rw [h, if_neg (hoff hcut).1, hout, getD_set_self hd, getD_set_self (by rw [length_trim]; exact hd)]
    · have h2 := cut_same hcut hf rfl (x := x) (by rw [hO]; exact mem_free.2 ⟨hx, by simpa using h⟩)
      rw [hsame x hx h, getD_set_ne h, getD_trim _ _ _ hx]
      simp only [h2]
  · rintro inp' out' hf' h1 h2 ⟨he, rfl⟩
    obtain ⟨j, e1, e2, e3⟩ := concatJ_ok (inp := inp') (by omega) hi he other
    refine ⟨j, e1, e2, fun o i ho hi => ?_⟩
    rw [e3 o i ho hi, hO, hI, h1]
  · intro as bs cs o i hcut ho hi
    rw [getD_squash, getD_squash, if_neg (hoff hcut).1, if_neg (hoff hcut).2]
  · have hlo : others.length = sizes.length := by simpa using congrArg List.length ho
    have hne : sizes ≠ [] := by intro h; simp [h] at hi
    have hsh : ∀ w : Arr α, w.shape = inp → (others.set idx w).map (·.shape) = sizes.map fun n => inp.set dim n := by
      intro w hw
      rw [List.map_set, ho, hw]
      exact List.ext_getElem (by simp) fun r h1 h2 => by
        rw [List.getElem_set]
        split
        · rename_i h
          subst h
          rw [List.getElem_map, ← List.getD_eq_getElem _ 0 hi, set_self hs]
        · rfl
    obtain ⟨y0, d1, d2, d3⟩ := concatE_list others inp dim sizes hne hd ho
    classical
    refine jacobian_if (fun o => if ∃ e, e < sizes.getD idx 0 ∧ o.getD dim 0 = (sizes.take idx).sum + e then 0 else y0.get o) fun w hw => ?_
    obtain ⟨y, c1, c2, c3⟩ := concatE_list (others.set idx w) inp dim sizes hne hd (hsh w hw)
    refine ⟨y, c1, c2, fun o ho' => ?_⟩
    have hod : o.getD dim 0 < sizes.sum := by
      have := (inRange_iff.1 ho').2 dim (by omega)
      rwa [hout, getD_set_self hd] at this
    have holen : o.length = inp.length := by rw [ho'.length, hol]
    obtain ⟨r, e, h1, h2, h3⟩ := block_exists sizes _ hod
    by_cases hr : r = idx
    · subst hr
      refine Or.inl ⟨o.set dim e, inRange_set_iff ho' (by rw [hs]; exact h2), fun i hi' => ?_, ?_⟩
      · rw [eq_comm (a := i), set_eq_iff hd holen hi'.length, hO, hI, h3]
        refine and_congr_right fun _ => ?_
        omega
      · rw [c3 o r e (by simpa [hlo] using h1) h2 h3, if_pos ⟨e, h2, h3⟩, zero_add]
        simp
    · have hno : ∀ e', e' < sizes.getD idx 0 → o.getD dim 0 ≠ (sizes.take idx).sum + e' := fun e' he' h4 => hr (block_unique sizes h2 he' (h3 ▸ h4))
      refine Or.inr ⟨?_, ?_⟩
      · rintro i hi' ⟨_, h4⟩
        exact hno _ (by rw [← hs]; exact (inRange_iff.1 hi').2 dim hd) h4
      · rw [if_neg (by rintro ⟨e', h4, h5⟩; exact hno e' h4 h5), c3 o r e (by simpa [hlo] using h1) h2 h3, d3 o r e (by rw [hlo]; exact h1) h2 h3]
        rw [List.getElem_set_ne (Ne.symm hr)]

end NT.Rules
