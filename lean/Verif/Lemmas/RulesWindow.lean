import Verif.Model.RulesWindow
import Verif.Lemmas.RulesConv5

/-!
# The rules of `reduce_window_sum`
-/

namespace NT.Rules
open NT Arr Spec
open scoped BigOperators
variable {α : Type}

/-- The default rule of a linear function gives its Jacobian. -/
lemma vanillaJ_ok [Field α] {f : Arr α → Except Err (Arr α)} {inp out : List ℕ} {J : List ℕ → List ℕ → α} (other : Arr α)
    (h : ∀ w : Arr α, w.shape = inp → ∃ y, f w = .ok y ∧ y.shape = out ∧ ∀ o, InRange o out → y.get o = ∑ i ∈ box inp, J o i * w.get i) :
    ∃ j, vanillaJ f inp other out = .ok j ∧ j.shape = out ++ inp ∧ ∀ o i, InRange o out → InRange i inp → j.get (o ++ i) = J o i := by
  obtain ⟨y, y1, y2, -⟩ := h ⟨inp, fun _ => 0⟩ rfl
  refine ⟨_, by unfold vanillaJ; rw [y1]; exact if_pos y2, rfl, fun o i ho hi => ?_⟩
  dsimp only
  rw [← ho.length, List.take_left, List.drop_left]
  obtain ⟨z, z1, -, z3⟩ := h ⟨inp, fun k => if k = i then 1 else 0⟩ rfl
  rw [z1]
  show z.get o = _
  rw [z3 o ho]
  simp only [mul_ite, mul_one, mul_zero, Finset.sum_ite_eq', mem_box, hi, if_true]

namespace WindowParams

/-- The offset `q` of the window at `o` reads the entry `i`, along the axis `a`. -/
def Reads (p : WindowParams) (o q i : List ℕ) (a : ℕ) : Prop := p.pos a (o.getD a 0) (q.getD a 0) = (i.getD a 0 : ℤ) * (p.baseDilation.getD a 0 : ℤ)

instance (p : WindowParams) (o q i : List ℕ) (a : ℕ) : Decidable (p.Reads o q i a) := by unfold Reads; infer_instance

lemma sum_eq [Field α] {p : WindowParams} {inp : List ℕ} (hv : p.Valid inp) (w : Arr α) (hw : w.shape = inp) :
    ∃ y, p.sum w = .ok y ∧ y.shape = p.outShape inp ∧
      ∀ o, InRange o (p.outShape inp) → y.get o = ∑ i ∈ box inp, (∑ q ∈ box p.window, if ∀ a, a < inp.length → p.Reads o q i a then (1 : α) else 0) * w.get i := by
  subst hw
  refine ⟨_, if_pos hv, rfl, fun o _ => ?_⟩
  dsimp only
  rw [sumOver_eq_box]
  simp only [Finset.sum_mul]
  rw [Finset.sum_comm]
  refine Finset.sum_congr rfl fun q _ => ?_
  have hbd : ∀ a, a < w.shape.length → 0 < p.baseDilation.getD a 0 := fun a ha => by
    have hl : a < p.baseDilation.length := by rw [hv.1.2.2.2.1]; exact ha
    rw [List.getD_eq_getElem _ _ hl]
    exact hv.2.2.2.1 _ (List.getElem_mem hl)
  have hread : ∀ i, InRange i w.shape → (∀ a, a < w.shape.length → p.Reads o q i a) →
      (∀ a, a < w.ndim → 0 ≤ p.pos a (o.getD a 0) (q.getD a 0) ∧ p.pos a (o.getD a 0) (q.getD a 0) % p.baseDilation.getD a 0 = 0 ∧
        p.pos a (o.getD a 0) (q.getD a 0) / p.baseDilation.getD a 0 < (w.shape.getD a 0 : ℕ)) ∧
      (List.range w.ndim).map (fun a => (p.pos a (o.getD a 0) (q.getD a 0) / p.baseDilation.getD a 0).toNat) = i := fun i hi hr => by
    constructor
    · intro a ha
      have h1 := hr a ha
      have h2 := hbd a ha
      have h3 := (inRange_iff.1 hi).2 a ha
      unfold Reads at h1
      rw [h1]
      refine ⟨by positivity, Int.mul_emod_left _ _, ?_⟩
      rw [Int.mul_ediv_cancel _ (by omega)]
      exact_mod_cast h3
    · refine ext_getD (by simp only [List.length_map, List.length_range]; exact hi.length.symm) fun a ha => ?_
      have ha : a < w.ndim := by simpa using ha
      rw [getD_map_range _ _ _ ha]
      have h1 := hr a ha
      have h2 := hbd a ha
      unfold Reads at h1
      rw [h1, Int.mul_ediv_cancel _ (by omega), Int.toNat_natCast]
  by_cases hc : ∀ a, a < w.ndim → 0 ≤ p.pos a (o.getD a 0) (q.getD a 0) ∧ p.pos a (o.getD a 0) (q.getD a 0) % p.baseDilation.getD a 0 = 0 ∧
      p.pos a (o.getD a 0) (q.getD a 0) / p.baseDilation.getD a 0 < (w.shape.getD a 0 : ℕ)
  · rw [if_pos hc]
    set i := (List.range w.ndim).map (fun a => (p.pos a (o.getD a 0) (q.getD a 0) / p.baseDilation.getD a 0).toNat) with hi
    have hiR : ∀ a, a < w.shape.length → p.Reads o q i a := fun a ha => by
      obtain ⟨c1, c2, c3⟩ := hc a ha
      have h2 := hbd a ha
      unfold Reads
      rw [hi, getD_map_range _ _ _ (show a < w.ndim from ha), Int.toNat_of_nonneg (Int.ediv_nonneg c1 (by omega))]
      exact (Int.ediv_mul_cancel (Int.dvd_of_emod_eq_zero c2)).symm
    have hin : InRange i w.shape := inRange_iff.2 ⟨by rw [hi]; simp [ndim], fun a ha => by
      obtain ⟨c1, c2, c3⟩ := hc a ha
      have h2 := hbd a ha
      rw [hi, getD_map_range _ _ _ (show a < w.ndim from ha)]
      have := Int.ediv_nonneg c1 (show (0 : ℤ) ≤ (p.baseDilation.getD a 0 : ℕ) by omega)
      omega⟩
    rw [Finset.sum_eq_single i]
    · rw [if_pos hiR, one_mul]
    · intro k hk hne
      rw [if_neg, zero_mul]
      exact fun hr => hne ((hread k (mem_box.1 hk) hr).2.symm.trans hi.symm)
    · exact fun h => absurd (mem_box.2 hin) h
  · rw [if_neg hc]
    refine (Finset.sum_eq_zero fun i hi => ?_).symm
    rw [if_neg, zero_mul]
    exact fun hr => hc (hread i (mem_box.1 hi) hr).1

end WindowParams

/-- The axes without a window. -/
def Plain (p : WindowParams) (a : ℕ) : Prop :=
  p.baseDilation.getD a 0 = 1 ∧ p.padding.getD a (0, 0) = (0, 0) ∧ p.windowDilation.getD a 0 = 1 ∧ p.window.getD a 0 = 1 ∧ p.strides.getD a 0 = 1

lemma mem_windowS {idx : ℕ} {p : WindowParams} {out : List ℕ} {a : ℕ} : a ∈ (windowS idx p out).outTrace ↔ a < out.length ∧ Plain p a := by
  show a ∈ (List.range out.length).filter _ ↔ _
  rw [List.mem_filter, List.mem_range, decide_eq_true_eq]
  rfl

lemma mem_windowPairs {idx : ℕ} {p : WindowParams} {out : List ℕ} {x : ℕ × ℕ} : x ∈ tracePairs (windowS idx p out) ↔ x.1 = x.2 ∧ x.1 < out.length ∧ Plain p x.1 := by
  have : tracePairs (windowS idx p out) = (windowS idx p out).outTrace.map fun a => (a, a) := by
    show ((windowS idx p out).outTrace.zip (windowS idx p out).outTrace) = _
    generalize (windowS idx p out).outTrace = l
    induction l with
    | nil => rfl
    | cons x t ih => rw [List.zip_cons_cons, List.map_cons, ih]
  rw [this, List.mem_map]
  constructor
  · rintro ⟨a, ha, rfl⟩
    exact ⟨rfl, mem_windowS.1 ha⟩
  · rintro ⟨h1, h2⟩
    exact ⟨x.1, mem_windowS.2 h2, Prod.ext rfl h1⟩

lemma outSize_plain {p : WindowParams} {a : ℕ} (h : Plain p a) (n : ℕ) : p.outSize a n = n := by
  obtain ⟨h1, h2, h3, h4, h5⟩ := h
  unfold WindowParams.outSize ConvParams.dilate
  rw [h1, h2, h3, h4, h5]
  dsimp only
  rcases Nat.eq_zero_or_pos n with h0 | h0
  · simp [h0]
  · rw [if_neg (show n ≠ 0 by omega), if_neg (show (1 : ℕ) ≠ 0 by omega)]
    split <;> omega

lemma reads_plain {p : WindowParams} {a : ℕ} (h : Plain p a) {o q i : List ℕ} (hq : InRange q p.window) (ha : a < p.window.length) :
    p.Reads o q i a ↔ o.getD a 0 = i.getD a 0 := by
  have hq0 := (inRange_iff.1 hq).2 a ha
  obtain ⟨h1, h2, h3, h4, h5⟩ := h
  unfold WindowParams.Reads WindowParams.pos
  rw [h1, h2, h3, h5]
  rw [h4] at hq0
  dsimp only
  omega

/-- The rules of `reduce_window_sum`. -/
lemma rules_window [Field α] {p : WindowParams} {inp : List ℕ} (hv : p.Valid inp) (other : Arr α) :
    ∃ J, RulesOk (fun w => p.sum w) (vanillaJ fun w => p.sum w) (windowS 0 p (p.outShape inp)) 0 [inp] inp other (p.outShape inp) J := by
  have hn : (p.outShape inp).length = inp.length := by simp [WindowParams.outShape]
  have hwl := hv.1.1
  have size : ∀ (S : List ℕ) a, a < S.length → (p.outShape S).getD a 0 = p.outSize a (S.getD a 0) := fun S a ha => by
    unfold WindowParams.outShape
    rw [getD_mapIdx (fun a n => p.outSize a n) _ _ ha]
  set out := p.outShape inp with hout
  set s := windowS 0 p out with hs
  have hP : ∀ {x : ℕ × ℕ}, x ∈ tracePairs s ↔ x.1 = x.2 ∧ x.1 < inp.length ∧ Plain p x.1 := fun {x} => by rw [hs, mem_windowPairs, hn]
  have cutP : ∀ {as bs cs : List ℕ}, Cut (tracePairs s) s.outBroadcast as bs cs → ∀ a, (a ∈ as ++ cs ↔ a ∈ bs) ∧ (a ∈ bs → a < inp.length ∧ Plain p a) := fun {as bs cs} hc a => by
    have hcs : cs = [] := List.eq_nil_iff_forall_not_mem.2 fun x hx => by simpa [hs, windowS] using hc.sub x hx
    rw [hcs, List.append_nil]
    have h1 : a ∈ as → a < inp.length ∧ Plain p a := fun ha => by
      obtain ⟨x, hx, rfl⟩ := hc.out a ha
      exact (hP.1 hx).2
    have h2 : a ∈ bs → a < inp.length ∧ Plain p a := fun ha => by
      obtain ⟨x, hx, rfl⟩ := hc.inp a ha
      have := hP.1 hx
      rw [← this.1]
      exact this.2
    refine ⟨⟨fun ha => ?_, fun ha => ?_⟩, h2⟩
    · exact (hc.both (a, a) (hP.2 ⟨rfl, h1 ha⟩)).1 ha
    · exact (hc.both (a, a) (hP.2 ⟨rfl, h2 ha⟩)).2 ha
  have vld : ∀ {S : List ℕ}, S.length = inp.length → p.Valid S := fun {S} h => by
    unfold WindowParams.Valid at hv ⊢
    rw [h]
    exact hv
  classical
  have split : ∀ o i q, InRange q p.window → ((∀ a, a < inp.length → p.Reads o q i a) ↔
      Agree (tracePairs s) o i ∧ ∀ a, a < inp.length → ¬ Plain p a → p.Reads o q i a) := fun o i q hq => by
    constructor
    · intro h
      refine ⟨fun x hx => ?_, fun a ha _ => h a ha⟩
      obtain ⟨h1, h2, h3⟩ := hP.1 hx
      rw [← h1]
      exact (reads_plain h3 hq (by omega)).1 (h _ h2)
    · rintro ⟨h1, h2⟩ a ha
      by_cases hp : Plain p a
      · exact (reads_plain hp hq (by omega)).2 (h1 (a, a) (hP.2 ⟨rfl, ha, hp⟩))
      · exact h2 a ha hp
  have ejac : ∀ o i, (∑ q ∈ box p.window, if ∀ a, a < inp.length → p.Reads o q i a then (1 : α) else 0) =
      if Agree (tracePairs s) o i then ∑ q ∈ box p.window, (if ∀ a, a < inp.length → ¬ Plain p a → p.Reads o q i a then (1 : α) else 0) else 0 := fun o i => by
    by_cases h : Agree (tracePairs s) o i
    · rw [if_pos h]
      refine Finset.sum_congr rfl fun q hq => ?_
      simp only [split o i q (mem_box.1 hq), h, true_and]
    · rw [if_neg h]
      refine Finset.sum_eq_zero fun q hq => if_neg fun h2 => h ((split o i q (mem_box.1 hq)).1 h2).1
  refine ⟨_, rulesOk_of_trace (fun _ _ o i => ∑ q ∈ box p.window, if ∀ a, a < inp.length → ¬ Plain p a → p.Reads o q i a then (1 : α) else 0)
    (fun inp' out' => inp'.length = inp.length ∧ out' = p.outShape inp') rfl ⟨?_, ?_⟩ (by simp [hs, windowS]) ?_ ⟨rfl, rfl⟩ ?_ ?_ ?_ ?_⟩
  · intro x hx y hy e
    exact Prod.ext e (by rw [← (hP.1 hx).1, ← (hP.1 hy).1, e])
  · intro x hx y hy e
    exact Prod.ext (by rw [(hP.1 hx).1, (hP.1 hy).1, e]) e
  · unfold checked
    have hT : ∀ a ∈ s.outTrace, a < inp.length ∧ Plain p a := fun a ha => by
      have := mem_windowS.1 ha
      rw [hn] at this
      exact this
    rw [if_neg (by simp [hs, windowS]), if_neg, if_neg, if_neg (by simp [hs, windowS]), if_pos (by simp [hs, windowS])]
    · rw [not_not]
      show (gather s.outTrace inp).prod = (gather s.outTrace out).prod
      congr 1
      refine List.map_congr_left fun a ha => ?_
      obtain ⟨h1, h2⟩ := hT a ha
      rw [hout, size inp a h1, outSize_plain h2]
    · rintro (⟨a, ha, h2⟩ | ⟨a, ha, h2⟩)
      · have := (hT a ha).1
        omega
      · have := (hT a ha).1
        have h2 : inp.length ≤ a := h2
        omega
  · intro as bs cs hc
    refine ⟨length_trim _ _, ext_getD (by simp [length_trim, hn, WindowParams.outShape]) fun a ha => ?_⟩
    have ha : a < inp.length := by rw [length_trim, hn] at ha; exact ha
    obtain ⟨h1, h2⟩ := cutP hc a
    rw [getD_trim _ _ _ (by omega), size (trim bs inp) a (by rw [length_trim]; exact ha), getD_trim _ _ _ ha, hout, size inp a ha]
    by_cases hb : a ∈ bs
    · rw [if_pos (h1.2 hb), if_pos hb, outSize_plain (h2 hb).2]
    · rw [if_neg fun h => hb (h1.1 h), if_neg hb]
  · rintro inp' out' ⟨h1, rfl⟩
    obtain ⟨j, j1, j2, j3⟩ := vanillaJ_ok (f := fun w : Arr α => p.sum w) other (fun w hw => WindowParams.sum_eq (vld h1) w hw)
    refine ⟨j, j1, j2, fun o i ho hi => ?_⟩
    rw [j3 o i ho hi, h1, ejac]
    congr!
  · intro as bs cs o i hc ho hi _
    refine Finset.sum_congr rfl fun q _ => ?_
    refine if_congr (forall_congr' fun a => forall_congr' fun ha => forall_congr' fun hp => ?_) rfl rfl
    obtain ⟨h1, h2⟩ := cutP hc a
    have hb : a ∉ bs := fun h => hp (h2 h).2
    unfold WindowParams.Reads
    rw [getD_squash, getD_squash, if_neg hb, if_neg fun h => hb (h1.1 h)]
  · refine ⟨fun _ => 0, fun w hw => ?_⟩
    obtain ⟨y, y1, y2, y3⟩ := WindowParams.sum_eq hv w hw
    refine ⟨y, y1, y2, fun o ho => ?_⟩
    rw [y3 o ho, zero_add]
    refine Finset.sum_congr rfl fun i _ => ?_
    rw [ejac]
    congr!

end NT.Rules
