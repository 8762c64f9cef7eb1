import Verif.Tac
import Verif.Spec.Rules
import Verif.Lemmas.Box
import Verif.Lemmas.Arr
import Mathlib.Data.List.GetD

/-!
# Lemmas about trimmed Jacobians
-/

namespace NT.Rules
open NT Arr Spec
variable {α : Type} [Field α]

lemma getD_mapIdx (f : ℕ → ℕ → ℕ) (l : List ℕ) (x : ℕ) (h : x < l.length) : (l.mapIdx f).getD x 0 = f x (l.getD x 0) := by
  rw [List.getD_eq_getElem?_getD, List.getElem?_mapIdx, List.getD_eq_getElem?_getD, List.getElem?_eq_getElem h]
  rfl

lemma getD_squash (as i : List ℕ) (x : ℕ) : (squash as i).getD x 0 = if x ∈ as then 0 else i.getD x 0 := by
  by_cases h : x < i.length
  · rw [squash, getD_mapIdx _ _ _ h]
  · rw [List.getD_eq_default _ _ (by simpa [squash] using h), List.getD_eq_default _ _ (by simpa using h)]
    split <;> rfl

lemma length_squash (as i : List ℕ) : (squash as i).length = i.length := by simp [squash]

lemma length_trim (as S : List ℕ) : (trim as S).length = S.length := by simp [trim]

lemma getD_trim (as S : List ℕ) (x : ℕ) (h : x < S.length) : (trim as S).getD x 0 = if x ∈ as then 1 else S.getD x 0 := by
  rw [trim, getD_mapIdx _ _ _ h]

lemma inRange_squash {as i S : List ℕ} (h : InRange i S) : InRange (squash as i) (trim as S) := by
  rw [inRange_iff] at h ⊢
  obtain ⟨h1, h2⟩ := h
  refine ⟨by rw [length_squash, length_trim, h1], fun k hk => ?_⟩
  rw [length_trim] at hk
  have := h2 k hk
  rw [getD_squash, getD_trim _ _ _ hk]
  split
  · exact Nat.one_pos
  · exact this

lemma ext_getD' {a b : List ℕ} (h : a.length = b.length) (h2 : ∀ x, x < a.length → a.getD x 0 = b.getD x 0) : a = b := by
  refine List.ext_getElem h fun x h3 h4 => ?_
  have := h2 x h3
  rwa [List.getD_eq_getElem _ _ h3, List.getD_eq_getElem _ _ h4] at this

lemma squash_congr {as bs i : List ℕ} (h : ∀ x, x < i.length → (x ∈ as ↔ x ∈ bs) ∨ i.getD x 0 = 0) : squash as i = squash bs i := by
  refine ext_getD' (by simp [length_squash]) fun x hx => ?_
  rw [length_squash] at hx
  rw [getD_squash, getD_squash]
  rcases h x hx with h | h
  · simp only [h]
  · rw [h]
    simp

lemma trim_congr {as bs S : List ℕ} (h : ∀ x, x < S.length → (x ∈ as ↔ x ∈ bs) ∨ S.getD x 0 = 1) : trim as S = trim bs S := by
  refine ext_getD' (by simp [length_trim]) fun x hx => ?_
  rw [length_trim] at hx
  rw [getD_trim _ _ _ hx, getD_trim _ _ _ hx]
  rcases h x hx with h | h
  · simp only [h]
  · rw [h]
    simp

/-- Distinct pairs have distinct axes on both sides. -/
structure OneToOne (P : List (ℕ × ℕ)) : Prop where
  left : ∀ p ∈ P, ∀ q ∈ P, p.1 = q.1 → p = q
  right : ∀ p ∈ P, ∀ q ∈ P, p.2 = q.2 → p = q

/-- Agreement on pairs of axes, when some of the pairs are squashed. -/
lemma agree_squash {P : List (ℕ × ℕ)} {as bs o i : List ℕ}
    (h : ∀ p ∈ P, (p.1 ∈ as ↔ p.2 ∈ bs)) {P' : List (ℕ × ℕ)} (h1 : ∀ p ∈ P', p ∈ P) (h2 : ∀ p ∈ P, p.1 ∈ as → p ∈ P' ∨ i.getD p.2 0 = o.getD p.1 0) :
    Agree P o i ↔ Agree P' o i ∧ Agree P (squash as o) (squash bs i) := by
  constructor
  · intro ha
    refine ⟨fun p hp => ha p (h1 p hp), fun p hp => ?_⟩
    rw [getD_squash, getD_squash, ha p hp]
    simp only [h p hp]
  · rintro ⟨ha, hb⟩ p hp
    by_cases hc : p.1 ∈ as
    · rcases h2 p hp hc with h2 | h2
      · exact ha p h2
      · exact h2.symm
    · have := hb p hp
      rwa [getD_squash, getD_squash, if_neg hc, if_neg (fun hd => hc ((h p hp).2 hd))] at this

lemma mem_trace_left {s : Structure} (h : s.outTrace.length = s.inTrace.length) {a : ℕ} : a ∈ s.outTrace ↔ ∃ p ∈ tracePairs s, p.1 = a := by
  unfold tracePairs
  have := List.map_fst_zip (l₁ := s.outTrace) (l₂ := s.inTrace) h.le
  conv_lhs => rw [← this]
  simp

lemma mem_trace_right {s : Structure} (h : s.outTrace.length = s.inTrace.length) {a : ℕ} : a ∈ s.inTrace ↔ ∃ p ∈ tracePairs s, p.2 = a := by
  unfold tracePairs
  have := List.map_snd_zip (l₁ := s.outTrace) (l₂ := s.inTrace) h.ge
  conv_lhs => rw [← this]
  simp

/-! ### Identity matrices -/

lemma eye_reshape {out inp : List ℕ} (h : out.prod = inp.prod) : ∃ j : Arr α, (eye out.prod).reshapeE (out ++ inp) = .ok j ∧ j.shape = out ++ inp ∧
    ∀ o i, InRange o out → InRange i inp → j.get (o ++ i) = if ravel out o = ravel inp i then 1 else 0 := by
  refine ⟨_, by unfold reshapeE; rw [if_pos (by simp [eye, h])], rfl, fun o i ho hi => ?_⟩
  have h1 := ravel_lt ho
  have h2 := ravel_lt hi
  rw [reshape_get (eye out.prod) (out ++ inp) (i := o ++ i) (j := [ravel out o, ravel inp i])]
  · simp [eye]
  · simp [eye, InRange, h1, h ▸ h2]
  · rw [ravel_append ho.length]
    simp [eye, ravel, h]

lemma eye_same (S : List ℕ) : ∃ j : Arr α, (eye S.prod).reshapeE (S ++ S) = .ok j ∧ j.shape = S ++ S ∧
    ∀ o i, InRange o S → InRange i S → j.get (o ++ i) = if o = i then 1 else 0 := by
  obtain ⟨j, h1, h2, h3⟩ := eye_reshape (α := α) (rfl : S.prod = S.prod)
  refine ⟨j, h1, h2, fun o i ho hi => ?_⟩
  rw [h3 o i ho hi]
  have : ravel S o = ravel S i ↔ o = i := ⟨fun h => ravel_inj ho hi h, fun h => h ▸ rfl⟩
  simp only [this]

/-! ### Rules without diagonal axes -/

/-- The output axes `as` and the input axes `bs` form pairs of `P`, and `cs` are axes of `B`. -/
structure Cut (P : List (ℕ × ℕ)) (B as bs cs : List ℕ) : Prop where
  out : ∀ a ∈ as, ∃ p ∈ P, p.1 = a
  inp : ∀ b ∈ bs, ∃ p ∈ P, p.2 = b
  both : ∀ p ∈ P, (p.1 ∈ as ↔ p.2 ∈ bs)
  sub : ∀ c ∈ cs, c ∈ B

lemma cut_of_part {s' s : Structure} {idx : ℕ} {inp : List ℕ} (h : Part s' s idx inp) (h1 : OneToOne (tracePairs s)) :
    Cut (tracePairs s) s.outBroadcast s'.outTrace s'.inTrace s'.outBroadcast := by
  refine ⟨fun a ha => ?_, fun b hb => ?_, fun p hp => ?_, h.broadcast⟩
  · obtain ⟨p, hp, rfl⟩ := (mem_trace_left h.traceLen).1 ha
    exact ⟨p, h.trace p hp, rfl⟩
  · obtain ⟨p, hp, rfl⟩ := (mem_trace_right h.traceLen).1 hb
    exact ⟨p, h.trace p hp, rfl⟩
  · constructor
    · intro ha
      obtain ⟨q, hq, hqp⟩ := (mem_trace_left h.traceLen).1 ha
      rw [← h1.left q (h.trace q hq) p hp hqp]
      exact (mem_trace_right h.traceLen).2 ⟨q, hq, rfl⟩
    · intro ha
      obtain ⟨q, hq, hqp⟩ := (mem_trace_right h.traceLen).1 ha
      rw [← h1.right q (h.trace q hq) p hp hqp]
      exact (mem_trace_left h.traceLen).2 ⟨q, hq, rfl⟩

lemma trimIn_eq {s' s : Structure} {idx : ℕ} {inp : List ℕ} (h : Part s' s idx inp) (bs : List ℕ) (hbs : ∀ x, x ∈ diagAxes s' idx ↔ x ∈ bs) :
    trimIn s' idx inp = trim (s'.inTrace ++ bs) inp := by
  refine trim_congr fun x hx => ?_
  simp only [List.mem_append, hbs]
  by_cases hi : idx = s'.inBroadcastIdx
  · rw [if_pos hi]
    by_cases hb : x ∈ s'.inBroadcast
    · rcases h.inBroadcast hi x hb with h2 | h2
      · left; tauto
      · right
        rwa [List.getD_eq_getElem _ _ hx] at h2 ⊢
    · left; tauto
  · rw [if_neg hi]
    left; simp

open Classical in
/-- The rules of a primitive with no diagonal axes. -/
lemma rulesOk_of_trace {f : Arr α → Except Err (Arr α)} {rule : List ℕ → Arr α → List ℕ → Except Err (Arr α)} {s : Structure} {idx : ℕ}
    {shapes : List (List ℕ)} {inp : List ℕ} {other : Arr α} {out : List ℕ}
    (V : List ℕ → List ℕ → List ℕ → List ℕ → α) (Ok : List ℕ → List ℕ → Prop)
    (hd : s.outDiagonal = []) (h1 : OneToOne (tracePairs s)) (hdis : ∀ p ∈ tracePairs s, p.1 ∉ s.outBroadcast)
    (hchk : checked s idx shapes out = .ok s) (hok : Ok inp out)
    (htrim : ∀ as bs cs, Cut (tracePairs s) s.outBroadcast as bs cs → Ok (trim bs inp) (trim (as ++ cs) out))
    (hrule : ∀ inp out, Ok inp out → ∃ j, rule inp other out = .ok j ∧ j.shape = out ++ inp ∧
      ∀ o i, InRange o out → InRange i inp → j.get (o ++ i) = if Agree (tracePairs s) o i then V inp out o i else 0)
    (hV : ∀ as bs cs o i, Cut (tracePairs s) s.outBroadcast as bs cs → InRange o out → InRange i inp → Agree (tracePairs s) o i →
      V inp out o i = V (trim bs inp) (trim (as ++ cs) out) (squash (as ++ cs) o) (squash bs i))
    (hjac : IsJacobian f inp out (fun o i => if Agree (tracePairs s) o i then V inp out o i else 0)) :
    RulesOk f rule s idx shapes inp other out (fun o i => if Agree (tracePairs s) o i then V inp out o i else 0) := by
  refine ⟨hchk, hjac, hrule inp out hok, fun s' hs => ?_⟩
  have hc := cut_of_part hs h1
  have hod : s'.outDiagonal = [] := by
    have := hs.diag
    rw [hd, List.zip_nil_left, List.sublist_nil, List.zip_eq_nil_iff] at this
    rcases this with h | h
    · exact h
    · exact List.length_eq_zero_iff.1 (by rw [hs.diagLen, h]; rfl)
  have hid : s'.inDiagonal = [] := List.length_eq_zero_iff.1 (by rw [← hs.diagLen, hod]; rfl)
  have e1 : trimIn s' idx inp = trim s'.inTrace inp := by
    rw [trimIn_eq hs [] (by simp [diagAxes, hid]), List.append_nil]
  have e2 : trimOut s' out = trim (s'.outTrace ++ s'.outBroadcast) out := by rw [trimOut, hod, List.append_nil]
  have e3 : diagPairs s' idx = [] := by simp [diagPairs, hod]
  have e4 : diagIns s' idx = [] := by simp [diagIns, e3]
  obtain ⟨j, hj1, hj2, hj3⟩ := hrule _ _ (htrim _ _ _ hc)
  have key : ∀ o i, Agree (tracePairs s) o i ↔ Agree (tracePairs s') o i ∧
      Agree (tracePairs s) (squash (s'.outTrace ++ s'.outBroadcast) o) (squash s'.inTrace i) := by
    intro o i
    refine agree_squash (fun p hp => ?_) hs.trace fun p hp hpa => Or.inl ?_
    · rw [List.mem_append, ← hc.both p hp]
      exact ⟨fun h => h.elim id fun h => absurd (hs.broadcast _ h) (hdis p hp), Or.inl⟩
    · rcases List.mem_append.1 hpa with h | h
      · obtain ⟨q, hq, hqp⟩ := (mem_trace_left hs.traceLen).1 h
        exact h1.left q (hs.trace q hq) p hp hqp ▸ hq
      · exact absurd (hs.broadcast _ h) (hdis p hp)
  refine ⟨j, ?_, ?_, ?_, ?_⟩
  · unfold compact
    rw [hid, e1, e2]
    exact hj1
  · rw [hj2, e4, List.append_nil]
  · intro o i ho hi hn
    have : ¬ Agree (tracePairs s) o i := fun h => hn ⟨((key o i).1 h).1, by rw [e3]; intro p hp; cases hp⟩
    exact if_neg this
  · intro o i ho hi ha _
    rw [e4, List.append_nil, hj3 _ _ (inRange_squash ho) (inRange_squash hi)]
    by_cases h : Agree (tracePairs s) o i
    · rw [if_pos h, if_pos ((key o i).1 h).2]
      exact hV _ _ _ o i hc ho hi h
    · rw [if_neg h, if_neg fun h2 => h ((key o i).2 ⟨ha, h2⟩)]

/-- The Jacobian of a function each of whose values reads one entry, or none. -/
lemma isJacobian_of_read {f : Arr α → Except Err (Arr α)} {inp out : List ℕ} {J : List ℕ → List ℕ → α} (c : List ℕ → α)
    (h : ∀ w : Arr α, w.shape = inp → ∃ y, f w = .ok y ∧ y.shape = out ∧ ∀ o, InRange o out →
      (∃ k, InRange k inp ∧ (∀ i, InRange i inp → i ≠ k → J o i = 0) ∧ y.get o = c o + J o k * w.get k) ∨
      ((∀ i, InRange i inp → J o i = 0) ∧ y.get o = c o)) : IsJacobian f inp out J := by
  refine ⟨c, fun w hw => ?_⟩
  obtain ⟨y, h1, h2, h3⟩ := h w hw
  refine ⟨y, h1, h2, fun o ho => ?_⟩
  rcases h3 o ho with ⟨k, hk, h4, h5⟩ | ⟨h4, h5⟩
  · rw [h5, Finset.sum_eq_single k]
    · intro i hi hne
      rw [h4 i (mem_box.1 hi) hne, zero_mul]
    · intro hn
      exact absurd (mem_box.2 hk) hn
  · rw [h5, Finset.sum_eq_zero, add_zero]
    intro i hi
    rw [h4 i (mem_box.1 hi), zero_mul]

end NT.Rules
