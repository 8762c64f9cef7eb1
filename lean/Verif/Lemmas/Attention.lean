import Verif.Lemmas.Box
import Verif.Lemmas.Einsum
import Verif.Lemmas.Layout
import Verif.Spec.Attention
import Verif.Tac

/-! Auxiliary lemmas for C59: the `einsum` that averages covariances with attention weights. -/

namespace NT.Attn
open NT Arr Spec Einsum Attention

/-- `y` holds `F` if its batch axes, that may have size 1, are broadcast to `B`. -/
structure BHolds (y : Arr ℝ) (B S T : List ℕ) (rev : Bool) (F : List ℕ → List ℕ → List ℕ → ℝ) : Prop where
  rank : S.length = T.length
  shape : y.shape = B ++ pos false rev S T ∨ y.shape = List.replicate B.length 1 ++ pos false rev S T
  get : ∀ b p q, InRange b B → InRange p S → InRange q T → y.get (bcastIdx y.shape (b ++ pos false rev p q)) = F b p q

lemma Holds.b {y : Arr ℝ} {B S T : List ℕ} {rev : Bool} {F : List ℕ → List ℕ → List ℕ → ℝ} (h : Holds y B S T false rev F) :
    BHolds y B S T rev F where
  rank := h.rank
  shape := .inl h.shape
  get := fun b p q hb hp hq => by
    rw [h.shape, bcastIdx_self (by rw [inRange_append hb.length]; exact ⟨hb, pos_inRange h.rank hp hq⟩),
      h.get b p q hb hp hq (by simp)]

lemma BHolds.length {y : Arr ℝ} {B S T : List ℕ} {rev : Bool} {F : List ℕ → List ℕ → List ℕ → ℝ} (h : BHolds y B S T rev F) :
    y.shape.length = B.length + 2 * S.length := by
  have hr : (rv rev S).length = (rv rev T).length := by simpa using h.rank
  rcases h.shape with e | e <;> rw [e, pos_full, List.length_append, interleave_length hr] <;> simp

/-! ### Labels -/

lemma assign_sub (ls : List ℤ) (vs : List ℕ) (hn : ls.Nodup) {l : ℤ} {v : ℕ} (h : (l, v) ∈ ls.zip vs) : assign ls vs l = v := by
  induction ls generalizing vs with
  | nil => simp at h
  | cons a ls ih =>
    cases vs with
    | nil => simp at h
    | cons w vs =>
      rw [List.nodup_cons] at hn
      simp only [List.zip_cons_cons, List.mem_cons, Prod.mk.injEq] at h
      simp only [assign]
      rcases h with ⟨rfl, rfl⟩ | h
      · simp
      · have : l ≠ a := fun e => hn.1 (e ▸ (List.of_mem_zip h).1)
        rw [if_neg this, ih vs hn.2 h]

lemma map_assign_sub (ls : List ℤ) (vs : List ℕ) (hn : ls.Nodup) (A : List ℤ) (p : List ℕ) (hl : A.length = p.length)
    (h : ∀ x ∈ A.zip p, x ∈ ls.zip vs) : A.map (assign ls vs) = p := by
  induction A generalizing p with
  | nil => simp at hl; exact (List.length_eq_zero_iff.1 hl.symm).symm
  | cons a A ih =>
    cases p with
    | nil => simp at hl
    | cons w p =>
      rw [List.map_cons, assign_sub ls vs hn (h (a, w) (by simp)), ih p (by simpa using hl) fun x hx => h x (by simp [hx])]

lemma zip_interleave {β γ : Type} (A B : List β) (p q : List γ) (h1 : A.length = p.length) (h2 : B.length = q.length) :
    (interleave A B).zip (interleave p q) = interleave (A.zip p) (B.zip q) := by
  induction A generalizing B p q with
  | nil => cases p <;> simp_all [interleave]
  | cons a A ih =>
    cases p with
    | nil => simp at h1
    | cons x p =>
      cases B with
      | nil => cases q <;> simp_all [interleave]
      | cons b B =>
        cases q with
        | nil => simp at h2
        | cons y q => simp [interleave, ih B p q (by simpa using h1) (by simpa using h2)]

lemma mem_interleave {β : Type} (A B : List β) (h : A.length = B.length) (x : β) : x ∈ interleave A B ↔ x ∈ A ∨ x ∈ B := by
  induction A generalizing B with
  | nil => cases B <;> simp_all [interleave]
  | cons a A ih =>
    cases B with
    | nil => simp at h
    | cons b B => simp only [interleave, List.mem_cons, ih B (by simpa using h)]; tauto

lemma evens_interleave' {β : Type} (A B : List β) (h : A.length = B.length) : Attention.evens (interleave A B) = A := by
  induction A generalizing B with
  | nil => cases B <;> simp_all [interleave, Attention.evens]
  | cons a A ih =>
    cases B with
    | nil => simp at h
    | cons b B => simp [interleave, Attention.evens, ih B (by simpa using h)]

lemma odds_interleave' {β : Type} (A B : List β) (h : A.length = B.length) : Attention.odds (interleave A B) = B := by
  induction A generalizing B with
  | nil => cases B <;> simp_all [interleave, Attention.odds]
  | cons a A ih =>
    cases B with
    | nil => simp at h
    | cons b B => simp [interleave, Attention.odds, ih B (by simpa using h)]

/-- Every other label from `s`. -/
def lab (s m : ℕ) : List ℤ := (List.range' s m 2).map fun i : ℕ => (i : ℤ)

@[simp] lemma lab_length (s m : ℕ) : (lab s m).length = m := by simp [lab]

lemma mem_lab {s m : ℕ} {x : ℤ} : x ∈ lab s m ↔ ∃ i < m, x = s + 2 * i := by
  simp only [lab, List.mem_map, List.mem_range']
  constructor
  · rintro ⟨_, ⟨i, hi, rfl⟩, rfl⟩
    exact ⟨i, hi, by push_cast; ring⟩
  · rintro ⟨i, hi, rfl⟩
    exact ⟨s + 2 * i, ⟨i, hi, by ring⟩, by push_cast; ring⟩

lemma nodup_lab (s m : ℕ) : (lab s m).Nodup :=
  (nodup_range'_two s m).map fun _ _ h => by exact_mod_cast h

lemma labels_eq (s m : ℕ) : labels s (2 * m) = interleave (lab s m) (lab (s + 1) m) := by
  unfold labels lab
  rw [range'_interleave, interleave_map]

/-- All labels: batch labels, those of the result, those summed over. -/
def allLabels (bl : List ℤ) (m : ℕ) : List ℤ :=
  (bl ++ interleave (lab 1 m) (lab (1 + 2 * m) m)) ++ interleave (lab 2 m) (lab (2 + 2 * m) m)

lemma nodup_interleave {A B : List ℤ} (h : A.length = B.length) (hA : A.Nodup) (hB : B.Nodup) (hd : ∀ x ∈ A, x ∉ B) :
    (interleave A B).Nodup := by
  induction A generalizing B with
  | nil => cases B <;> simp_all [interleave]
  | cons a A ih =>
    cases B with
    | nil => simp at h
    | cons b B =>
      have hl : A.length = B.length := by simpa using h
      rw [List.nodup_cons] at hA hB
      simp only [interleave, List.nodup_cons, List.mem_cons, mem_interleave _ _ hl, not_or]
      have h1 := hd a (by simp)
      simp only [List.mem_cons, not_or] at h1
      refine ⟨⟨h1.1, hA.1, h1.2⟩, ⟨?_, hB.1⟩, ih hl hA.2 hB.2 ?_⟩
      · intro e
        have := hd b (by simp [e])
        simp at this
      · intro x hx
        have := hd x (by simp [hx])
        simp only [List.mem_cons, not_or] at this
        exact this.2

lemma nodup_all (bl : List ℤ) (m : ℕ) (hb : bl.Nodup) (hneg : ∀ l ∈ bl, l ≤ 0) : (allLabels bl m).Nodup := by
  unfold allLabels
  rw [List.nodup_append, List.nodup_append]
  refine ⟨⟨hb, ?_, ?_⟩, ?_, ?_⟩
  · refine nodup_interleave (by simp) (nodup_lab _ _) (nodup_lab _ _) fun x h1 h2 => ?_
    rw [mem_lab] at h1 h2
    obtain ⟨i, hi, rfl⟩ := h1
    obtain ⟨j, hj, e⟩ := h2
    push_cast at e
    omega
  · intro x h1 y h2 e
    subst e
    have := hneg x h1
    rw [mem_interleave _ _ (by simp), mem_lab, mem_lab] at h2
    rcases h2 with ⟨i, hi, e⟩ | ⟨i, hi, e⟩ <;> push_cast at e <;> omega
  · refine nodup_interleave (by simp) (nodup_lab _ _) (nodup_lab _ _) fun x h1 h2 => ?_
    rw [mem_lab] at h1 h2
    obtain ⟨i, hi, rfl⟩ := h1
    obtain ⟨j, hj, e⟩ := h2
    push_cast at e
    omega
  · intro x h1 y h2 e
    subst e
    rw [mem_interleave _ _ (by simp), mem_lab, mem_lab] at h2
    rw [List.mem_append, mem_interleave _ _ (by simp), mem_lab, mem_lab] at h1
    rcases h1 with h1 | ⟨j, hj, e'⟩ | ⟨j, hj, e'⟩
    · have := hneg x h1
      rcases h2 with ⟨i, hi, e⟩ | ⟨i, hi, e⟩ <;> push_cast at e <;> omega
    all_goals rcases h2 with ⟨i, hi, e⟩ | ⟨i, hi, e⟩ <;> push_cast at e e' <;> omega

variable {bl : List ℤ} {m : ℕ}

lemma zip_all (b p q u v : List ℕ) (hb : bl.length = b.length) (hp : p.length = m) (hq : q.length = m) (hu : u.length = m)
    (hv : v.length = m) : (allLabels bl m).zip ((b ++ interleave p q) ++ interleave u v) =
      (bl.zip b ++ interleave ((lab 1 m).zip p) ((lab (1 + 2 * m) m).zip q)) ++ interleave ((lab 2 m).zip u) ((lab (2 + 2 * m) m).zip v) := by
  unfold allLabels
  rw [List.zip_append, List.zip_append hb, zip_interleave _ _ _ _ (by simp [hp]) (by simp [hq]),
    zip_interleave _ _ _ _ (by simp [hu]) (by simp [hv])]
  simp [hb, interleave_length, hp, hq]

lemma assign_all (hbn : bl.Nodup) (hneg : ∀ l ∈ bl, l ≤ 0) (b p q u v : List ℕ) (hb : bl.length = b.length) (hp : p.length = m)
    (hq : q.length = m) (hu : u.length = m) (hv : v.length = m) :
    let f := assign (allLabels bl m) ((b ++ interleave p q) ++ interleave u v)
    bl.map f = b ∧ (lab 1 m).map f = p ∧ (lab (1 + 2 * m) m).map f = q ∧ (lab 2 m).map f = u ∧ (lab (2 + 2 * m) m).map f = v ∧
      ∀ x ∈ bl.zip b, f x.1 = x.2 := by
  have hn := nodup_all bl m hbn hneg
  have hz := zip_all (m := m) b p q u v hb hp hq hu hv
  have l1 : ((lab 1 m).zip p).length = ((lab (1 + 2 * m) m).zip q).length := by simp [hp, hq]
  have l2 : ((lab 2 m).zip u).length = ((lab (2 + 2 * m) m).zip v).length := by simp [hu, hv]
  have hm : ∀ x, x ∈ bl.zip b ∨ x ∈ (lab 1 m).zip p ∨ x ∈ (lab (1 + 2 * m) m).zip q ∨ x ∈ (lab 2 m).zip u ∨ x ∈ (lab (2 + 2 * m) m).zip v →
      x ∈ (allLabels bl m).zip ((b ++ interleave p q) ++ interleave u v) := by
    intro x hx
    rw [hz, List.mem_append, List.mem_append, mem_interleave _ _ l1, mem_interleave _ _ l2]
    tauto
  refine ⟨?_, ?_, ?_, ?_, ?_, ?_⟩
  · exact map_assign_sub _ _ hn _ _ hb fun x hx => hm x (.inl hx)
  · exact map_assign_sub _ _ hn _ _ (by simp [hp]) fun x hx => hm x (.inr (.inl hx))
  · exact map_assign_sub _ _ hn _ _ (by simp [hq]) fun x hx => hm x (.inr (.inr (.inl hx)))
  · exact map_assign_sub _ _ hn _ _ (by simp [hu]) fun x hx => hm x (.inr (.inr (.inr (.inl hx))))
  · exact map_assign_sub _ _ hn _ _ (by simp [hv]) fun x hx => hm x (.inr (.inr (.inr (.inr hx))))
  · intro x hx
    exact assign_sub _ _ hn (hm x (.inl hx))

/-! ### Broadcasting of operands -/

lemma stretch_shape (ops : List (Arr ℝ × List ℤ)) (sz : ℤ → ℕ)
    (h1 : ∀ o ∈ ops, ∀ x ∈ o.2.zip o.1.shape, x.2 = sz x.1 ∨ x.2 = 1)
    (h2 : ∀ o ∈ ops, ∀ l ∈ o.2, ∃ o' ∈ ops, (l, sz l) ∈ o'.2.zip o'.1.shape) (o : Arr ℝ × List ℤ) (ho : o ∈ ops)
    (hl : o.2.length = o.1.shape.length) : (stretch ops o).1.shape = o.2.map sz := by
  have key : ∀ l ∈ o.2, (((ops.flatMap fun o => o.2.zip o.1.shape).filter fun p => p.1 = l ∧ p.2 ≠ 1).map Prod.snd).headD 1 = sz l := by
    intro l hl
    set P := (((ops.flatMap fun o => o.2.zip o.1.shape).filter fun p => p.1 = l ∧ p.2 ≠ 1).map Prod.snd) with hP
    have a1 : ∀ s ∈ P, s = sz l ∧ s ≠ 1 := by
      intro s hs
      rw [hP, List.mem_map] at hs
      obtain ⟨x, hx, rfl⟩ := hs
      rw [List.mem_filter, List.mem_flatMap] at hx
      obtain ⟨⟨o', ho', hx'⟩, hx2⟩ := hx
      simp only [decide_eq_true_eq] at hx2
      have := h1 o' ho' x hx'
      rw [hx2.1] at this
      exact ⟨this.resolve_right hx2.2, hx2.2⟩
    by_cases e : sz l = 1
    · cases hc : P with
      | nil => simp [e]
      | cons s P' =>
        have := a1 s (by simp [hc])
        omega
    · obtain ⟨o', ho', hx⟩ := h2 o ho l hl
      have : sz l ∈ P := by
        rw [hP, List.mem_map]
        refine ⟨(l, sz l), ?_, rfl⟩
        rw [List.mem_filter, List.mem_flatMap]
        exact ⟨⟨o', ho', hx⟩, by simp [e]⟩
      cases hc : P with
      | nil => rw [hc] at this; simp at this
      | cons s P' => exact (a1 s (by simp [hc])).1
  have h3 := h1 o ho
  simp only [stretch]
  have : ∀ (ls : List ℤ) (ss : List ℕ), ls.length = ss.length → (∀ l ∈ ls, l ∈ o.2) → (∀ x ∈ ls.zip ss, x.2 = sz x.1 ∨ x.2 = 1) →
      List.zipWith (fun n l => if n = 1 then (((ops.flatMap fun o => o.2.zip o.1.shape).filter fun p => p.1 = l ∧ p.2 ≠ 1).map
        Prod.snd).headD 1 else n) ss ls = ls.map sz := by
    intro ls
    induction ls with
    | nil => intro ss _ _ _; simp
    | cons l ls ih =>
      intro ss hs hm hx
      cases ss with
      | nil => simp at hs
      | cons s ss =>
        rw [List.zipWith_cons_cons, List.map_cons, ih ss (by simpa using hs) (fun l hl => hm l (by simp [hl]))
          (fun x hx' => hx x (by simp [hx']))]
        congr 1
        split_ifs with e
        · exact key l (hm l (by simp))
        · exact (hx (l, s) (by simp)).resolve_right e
  exact this o.2 o.1.shape hl (fun _ h => h) h3

end NT.Attn
