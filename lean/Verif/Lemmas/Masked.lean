import Verif.Spec.Masked
import Verif.Lemmas.Semantics
import Verif.Lemmas.Pick
import Verif.Lemmas.GaussPair
import Verif.Tac

/-!
# Masks of padded examples, and windows over them
-/

namespace NT.Masked
open NT NT.Network Arr Spec

/-! ### Indices -/

lemma act_comm {β : Type} (B A : ℕ) (hne : B ≠ A) (x y : β) (S : List β) : actIdx B A x y S = actIdx A B y x S := by
  unfold actIdx
  split_ifs <;> first | rfl | omega

lemma act_setChannel (B A n c w : ℕ) (S : List ℕ) (hne : B ≠ A) (hB : B < S.length + 2) (hA : A < S.length + 2) :
    (actIdx B A n c S).set A w = actIdx B A n w S := by
  rw [act_comm B A hne, act_comm B A hne]
  exact Semantics.actIdx_setBatch A B c n w S (Ne.symm hne) hA hB

lemma act_getChannel (B A n c : ℕ) (S : List ℕ) (hne : B ≠ A) (hB : B < S.length + 2) (hA : A < S.length + 2) :
    (actIdx B A n c S).getD A 0 = c := (gather_act B A n c S hne hB hA).2.2

lemma act_getBatch (B A n c : ℕ) (S : List ℕ) (hne : B ≠ A) (hB : B < S.length + 2) (hA : A < S.length + 2) :
    (actIdx B A n c S).getD B 0 = n := (gather_act B A n c S hne hB hA).2.1

/-! ### Windows with padding `'SAME'` and unit strides -/

lemma outDims_same : ∀ (S : List ℕ) (ws : List (ℕ × ℕ)), (∀ v ∈ ws, v.2 = 1) → S.length = ws.length → outDims .same S ws = S
  | [], [], _, _ => rfl
  | n :: S, (w, s) :: ws, h, hl => by
    obtain rfl : s = 1 := h (w, s) (by simp)
    simp only [outDims, outDim]
    rw [outDims_same S ws (fun v hv => h v (by simp [hv])) (by simpa using hl)]
    simp
  | [], _ :: _, _, hl => by simp at hl
  | _ :: _, [], _, hl => by simp at hl

lemma leftPad_same (n w : ℕ) (hw : 0 < w) : leftPad .same n w 1 = ((w : ℤ) - 1) / 2 := by
  simp only [leftPad, outDim]
  congr 1
  simp only [Nat.add_sub_cancel, Nat.div_one, Nat.cast_one, mul_one]
  rw [max_eq_right (by omega)]
  ring

lemma readPos_len (n m w o f : ℕ) (hw : 0 < w) (h : m ≤ n) :
    readPos .same m w 1 o f = (readPos .same n w 1 o f).filter fun p => decide (p < m) := by
  simp only [readPos, leftPad_same _ _ hw]
  generalize hz : (o : ℤ) * ((1 : ℕ) : ℤ) + (f : ℤ) - ((w : ℤ) - 1) / 2 = z
  by_cases h1 : 0 ≤ z ∧ z < m
  · rw [if_pos h1, if_pos ⟨h1.1, by omega⟩, Option.filter_some, if_pos (by simp; omega)]
  · rw [if_neg h1]
    by_cases h2 : 0 ≤ z ∧ z < n
    · rw [if_pos h2, Option.filter_some, if_neg (by simp; omega)]
    · rw [if_neg h2]; rfl

/-- An example alone is read where the padded example is read inside the example. -/
lemma readIdx_len : ∀ (S T : List ℕ) (ws : List (ℕ × ℕ)) (o f : List ℕ), (∀ v ∈ ws, 0 < v.1 ∧ v.2 = 1) → List.Forall₂ (· ≤ ·) T S →
    readIdx .same T ws o f = (readIdx .same S ws o f).filter fun p => decide (InRange p T)
  | S, T, ws, o, f, hw, h => by
    induction h generalizing ws o f with
    | nil => cases ws <;> cases o <;> cases f <;> simp [readIdx, inRange_nil_right, Option.filter_some]
    | @cons m n T S hmn _ ih =>
      cases ws with
      | nil => simp [readIdx]
      | cons v ws =>
      obtain ⟨w, s⟩ := v
      obtain ⟨hw0, rfl⟩ := hw (w, s) (by simp)
      cases o with
      | nil => simp [readIdx]
      | cons o os =>
      cases f with
      | nil => simp [readIdx]
      | cons f fs =>
      simp only [readIdx]
      rw [ih ws os fs fun v hv => hw v (by simp [hv]), readPos_len n m w o f hw0 hmn]
      cases readPos .same n w 1 o f with
      | none => simp
      | some p =>
        cases readIdx .same S ws os fs with
        | none => by_cases hp : p < m <;> simp [Option.filter_some, hp]
        | some r => by_cases hp : p < m <;> by_cases hr : InRange r T <;> simp [Option.filter_some, hp, hr, inRange_cons]

/-- Reading two padded examples is reading the examples, if the padding is zero. -/
lemma read2_len {F F' : List ℕ → List ℕ → ℝ} {S T S' T' : List ℕ} {ws : List (ℕ × ℕ)} (hw : ∀ v ∈ ws, 0 < v.1 ∧ v.2 = 1)
    (hS : List.Forall₂ (· ≤ ·) S' S) (hT : List.Forall₂ (· ≤ ·) T' T) (hl : S.length = ws.length) (hl' : T.length = ws.length)
    (he : ∀ p q, InRange p S' → InRange q T' → F' p q = F p q)
    (hz : ∀ p q, InRange p S → InRange q T → ¬(InRange p S' ∧ InRange q T') → F p q = 0) {o o' : List ℕ} (ho : InRange o S)
    (ho' : InRange o' T) (f g : List ℕ) :
    read2 F' (readIdx .same S' ws o f) (readIdx .same T' ws o' g) = read2 F (readIdx .same S ws o f) (readIdx .same T ws o' g) := by
  have hp : PosWin ws := fun v hv => ⟨(hw v hv).1, by rw [(hw v hv).2]; exact Nat.one_pos⟩
  have h1 : ∀ v ∈ ws, v.2 = 1 := fun v hv => (hw v hv).2
  rw [readIdx_len S S' ws o f hw hS, readIdx_len T T' ws o' g hw hT]
  cases e1 : readIdx .same S ws o f with
  | none => rfl
  | some p =>
    have r1 := readIdx_inRange .same S ws o f p hp hl (by rw [outDims_same S ws h1 hl]; exact ho) e1
    cases e2 : readIdx .same T ws o' g with
    | none => by_cases h : InRange p S' <;> simp [Option.filter_some, h, read2]
    | some q =>
      have r2 := readIdx_inRange .same T ws o' g q hp hl' (by rw [outDims_same T ws h1 hl']; exact ho') e2
      by_cases hp' : InRange p S' <;> by_cases hq' : InRange q T' <;> simp only [Option.filter_some, hp', hq', decide_true, decide_false, if_true, Bool.false_eq_true, if_false]
      · exact he p q hp' hq'
      · exact (hz p q r1 r2 (by simp [hq'])).symm
      · exact (hz p q r1 r2 (by simp [hp'])).symm
      · exact (hz p q r1 r2 (by simp [hp'])).symm

lemma windowShape_same : ∀ (S : List ℕ) (ws : List (ℕ × ℕ)), (∀ v ∈ ws, 0 < v.1 ∧ v.2 = 1) → S.length = ws.length → windowShape .same S ws = S := by
  intro S ws h hl
  rw [windowShape_outDims .same (by decide) S ws (fun v hv => ⟨(h v hv).1, by rw [(h v hv).2]; exact Nat.one_pos⟩)]
  exact outDims_same S ws (fun v hv => (h v hv).2) hl

/-! ### Masks -/

/-- The mask of a batch of padded examples. -/
structure MaskOf (m : Arr Bool) (B A n mc : ℕ) (S : List ℕ) (len : ℕ → List ℕ) : Prop where
  shape : m.shape = actIdx B A n mc S
  get : ∀ i < n, ∀ c < mc, ∀ p, InRange p S → m.get (actIdx B A i c p) = padding len i p

lemma allKeep_ok {m : Arr Bool} {B A n mc : ℕ} {S : List ℕ} {len : ℕ → List ℕ} (h : MaskOf m B A n mc S len) (hne : B ≠ A) (hB : B < S.length + 2)
    (hA : A < S.length + 2) (hm : 0 < mc) : MaskOf (allKeep m A) B A n 1 S len where
  shape := by
    simp only [allKeep, h.shape]
    exact act_setChannel B A n mc 1 S hne hB hA
  get := by
    intro i hi c hc p hp
    have hl := hp.length
    simp only [allKeep, h.shape, act_getChannel B A n mc S hne hB hA]
    rw [Bool.eq_iff_iff, List.all_eq_true]
    have e : ∀ c', (actIdx B A i c p).set A c' = actIdx B A i c' p := fun c' => act_setChannel B A i c c' p hne (by omega) (by omega)
    constructor
    · intro g
      have := g 0 (by simpa using hm)
      rw [e, h.get i hi 0 hm p hp] at this
      exact this
    · intro g c' hc'
      rw [e, h.get i hi c' (by simpa using hc') p hp]
      exact g

lemma act_mem {β : Type} {B A : ℕ} {x y v : β} {S : List β} (h : v ∈ actIdx B A x y S) : v = x ∨ v = y ∨ v ∈ S := by
  unfold actIdx at h
  split_ifs at h
  · rcases List.eq_or_mem_of_mem_insertIdx h with h | h
    · exact .inr (.inl h)
    · rcases List.eq_or_mem_of_mem_insertIdx h with h | h
      · exact .inl h
      · exact .inr (.inr h)
  · rcases List.eq_or_mem_of_mem_insertIdx h with h | h
    · exact .inl h
    · rcases List.eq_or_mem_of_mem_insertIdx h with h | h
      · exact .inr (.inl h)
      · exact .inr (.inr h)

lemma poolMask_ok {m : Arr Bool} {B A n c : ℕ} {S : List ℕ} {ws : List (ℕ × ℕ)} (hs : m.shape = actIdx B A n c S) (hne : B ≠ A) (hB : B < S.length + 2)
    (hA : A < S.length + 2) (hw : ∀ v ∈ ws, 0 < v.1 ∧ v.2 = 1) (hl : S.length = ws.length) : poolMask m ws .same B A = .ok m := by
  unfold poolMask
  have e : windowShape .same m.shape (actIdx B A (1, 1) (1, 1) ws) = m.shape := by
    refine windowShape_same _ _ (fun v hv => ?_) ?_
    · rcases act_mem hv with rfl | rfl | hv
      · exact ⟨Nat.one_pos, rfl⟩
      · exact ⟨Nat.one_pos, rfl⟩
      · exact hw v hv
    · rw [hs, actIdx_length B A n c S hne hB hA, actIdx_length B A _ _ ws hne (by omega) (by omega), hl]
  simp only [e, if_true]

lemma mem_indices {S p : List ℕ} : p ∈ indices S ↔ InRange p S := by
  induction S generalizing p with
  | nil => simp [indices, inRange_nil_right]
  | cons n S ih =>
    simp only [indices, List.mem_flatMap, List.mem_range, List.mem_map, inRange_cons_right]
    constructor
    · rintro ⟨k, hk, r, hr, rfl⟩; exact ⟨k, r, rfl, hk, ih.1 hr⟩
    · rintro ⟨k, r, rfl, hk, hr⟩; exact ⟨k, hk, r, ih.2 hr, rfl⟩

lemma inRange_zero {T : List ℕ} (h : 0 ∉ T) : InRange (T.map fun _ => 0) T := by
  induction T with
  | nil => simp [inRange_nil_right]
  | cons a T ih =>
    simp only [List.mem_cons, not_or] at h
    simp only [List.map_cons, inRange_cons]
    exact ⟨by omega, ih h.2⟩

lemma inRange_le {p T S : List ℕ} (h : InRange p T) (hS : List.Forall₂ (· ≤ ·) T S) : InRange p S := by
  induction hS generalizing p with
  | nil => exact h
  | @cons a b T S hab _ ih =>
    obtain ⟨x, r, rfl, hx, hr⟩ := inRange_cons_right.1 h
    exact (inRange_cons).2 ⟨by omega, ih hr⟩

lemma globalMask_ok {d : GlobalPool} {m : Arr Bool} {B A n : ℕ} {S : List ℕ} {len : ℕ → List ℕ} (h : MaskOf m B A n 1 S len) (hne : B ≠ A)
    (hB : B < S.length + 2) (hA : A < S.length + 2) (hb : d.batchAxis % ((S.length + 2 : ℕ) : ℤ) = B)
    (ha : d.channelAxis % ((S.length + 2 : ℕ) : ℤ) = A) (hlen : ∀ i < n, List.Forall₂ (· ≤ ·) (len i) S) (hpos : ∀ i < n, 0 ∉ len i) {b a : ℕ}
    (hb' : b = if B < A then 0 else 1) (ha' : a = if B < A then 1 else 0) :
    ∃ m', globalMask d m = .ok m' ∧ MaskOf m' b a n 1 [] fun _ => [] := by
  have hnd : m.ndim = S.length + 2 := by unfold ndim; rw [h.shape, actIdx_length B A n 1 S hne hB hA]
  obtain ⟨g1, g2, g3⟩ := gather_act B A n 1 S hne hB hA
  have e1 : (d.batchAxis % (m.ndim : ℤ)).toNat = B := by rw [hnd, hb]; simp
  have e2 : (d.channelAxis % (m.ndim : ℤ)).toNat = A := by rw [hnd, ha]; simp
  have e3 : gather ((List.range m.ndim).filter fun i => !([B, A].contains i)) m.shape = S := by rw [hnd, h.shape]; exact g1
  unfold globalMask
  simp only [e1, e2, e3]
  rw [if_neg (by rw [h.shape, g3]; simp)]
  refine ⟨_, rfl, ?_, ?_⟩
  · simp only [h.shape, g2, g3]
    by_cases hlt : B < A <;> simp [hlt, hb', ha', actIdx]
  · intro i hi c hc p hp
    rw [inRange_nil_right] at hp
    subst hp
    obtain rfl : c = 0 := by omega
    have e : padding (fun _ => []) i [] = false := by simp [padding, inRange_nil_right]
    rw [e]
    rw [Bool.eq_false_iff]
    intro g
    rw [List.all_eq_true] at g
    have hz := inRange_zero (hpos i hi)
    have hzS := inRange_le hz (hlen i hi)
    have := g _ (mem_indices.2 hzS)
    have e4 : ((actIdx b a i 0 []).getD (if decide (B < A) = true then 0 else 1) 0) = i ∧
        ((actIdx b a i 0 []).getD (if decide (B < A) = true then 1 else 0) 0) = 0 := by
      by_cases hlt : B < A <;> simp [hlt, hb', ha', actIdx]
    rw [e4.1, e4.2, h.get i hi 0 Nat.one_pos _ hzS] at this
    rw [padding, decide_eq_true hz] at this
    simp at this

end NT.Masked
