import Verif.Model.Branching
import Verif.Lemmas.Arr
import Verif.Tac

/-!
# C41: masks of sums and concatenations
-/

namespace NT.C41
open NT Arr Masks

/-- The position `i` of the activations is masked by `m` (which broadcasts along its axes of size 1). -/
def MaskedAt (m : Arr Bool) (i : List ℕ) : Prop := m.get (clip i m.shape) = true

/-- The mask `m` can be applied to activations of shape `s`: each of its sizes is that of `s` or 1. -/
def FitsTo (m : Arr Bool) (s : List ℕ) : Prop := List.Forall₂ (fun n d => n = d ∨ n = 1) m.shape s

lemma clip_clip_of {i a s : List ℕ} (h : List.Forall₂ (fun n d => n = d ∨ n = 1) a s) :
    clip (clip i s) a = clip i a := by
  induction h generalizing i with
  | nil => simp [clip]
  | cons h _ ih =>
    cases i with
    | nil => simp [clip]
    | cons d i =>
      have := @ih i
      simp only [clip, List.zipWith_cons_cons] at this ⊢
      rw [this]
      rcases h with rfl | rfl
      · split <;> simp_all
      · simp

lemma bcast_fits : ∀ {a b s : List ℕ}, List.Forall₂ (fun n d => n = d ∨ n = 1) a s →
    List.Forall₂ (fun n d => n = d ∨ n = 1) b s → ∃ c, Masks.bcast a b = some c ∧
      List.Forall₂ (fun n d => n = d ∨ n = 1) c s ∧
      List.Forall₂ (fun n d => n = d ∨ n = 1) a c ∧ List.Forall₂ (fun n d => n = d ∨ n = 1) b c
  | [], [], [], _, _ => ⟨[], rfl, .nil, .nil, .nil⟩
  | m :: a, n :: b, d :: s, .cons h1 ha, .cons h2 hb => by
    obtain ⟨c, hc, h3, h4, h5⟩ := bcast_fits ha hb
    simp only [Masks.bcast, hc, Option.map_some]
    by_cases h : m = n ∨ n = 1
    · refine ⟨m :: c, by simp [h], .cons h1 h3, .cons (.inl rfl) h4, .cons ?_ h5⟩
      rcases h with rfl | rfl
      · exact .inl rfl
      · exact .inr rfl
    · obtain ⟨ha', hb'⟩ := not_or.1 h
      have hm : m = 1 := by
        rcases h1 with rfl | rfl
        · rcases h2 with rfl | rfl
          · exact absurd rfl ha'
          · exact absurd rfl hb'
        · rfl
      exact ⟨n :: c, by simp [hb', hm], .cons h2 h3, .cons (.inr hm) h4, .cons (.inl rfl) h5⟩
  | [], _ :: _, _, h1, h2 => by cases h1; cases h2
  | _ :: _, [], _, h1, h2 => by cases h2; cases h1

lemma andB_ok {a b : Arr Bool} {s : List ℕ} (ha : FitsTo a s) (hb : FitsTo b s) :
    ∃ c, andB a b = .ok c ∧ FitsTo c s ∧ ∀ i, MaskedAt c i ↔ MaskedAt a i ∧ MaskedAt b i := by
  obtain ⟨c, hc, h1, h2, h3⟩ := bcast_fits ha hb
  refine ⟨⟨c, fun i => a.get (clip i a.shape) && b.get (clip i b.shape)⟩, by simp [andB, hc], h1, ?_⟩
  intro i
  simp only [MaskedAt, Bool.and_eq_true, clip_clip_of h2, clip_clip_of h3]

/-- The claim about a sum of masks, of which `acc` summarises those seen before. -/
lemma sumFrom_ok {s : List ℕ} (ms : List (Option (Arr Bool))) (acc : Option (Arr Bool))
    (hacc : ∀ m, acc = some m → FitsTo m s) (hms : ∀ m, some m ∈ ms → FitsTo m s) :
    ∃ r, sumFrom acc ms = .ok r ∧ (r = none ↔ acc = none ∧ ∀ m ∈ ms, m = none) ∧
      ∀ m, r = some m → FitsTo m s ∧ ∀ i, MaskedAt m i ↔ ∀ m', some m' ∈ acc :: ms → MaskedAt m' i := by
  induction ms generalizing acc with
  | nil =>
    refine ⟨acc, rfl, by simp, ?_⟩
    rintro m rfl
    refine ⟨hacc m rfl, fun i => by simp⟩
  | cons m ms ih =>
    have hm : ∃ r, addTwo acc m = .ok r ∧ (r = none ↔ acc = none ∧ m = none) ∧
        ∀ m', r = some m' → FitsTo m' s ∧
          ∀ i, MaskedAt m' i ↔ ∀ m'', some m'' ∈ [acc, m] → MaskedAt m'' i := by
      cases acc with
      | none =>
        refine ⟨m, by cases m <;> rfl, by simp, ?_⟩
        rintro m' rfl
        exact ⟨hms m' (by simp), fun i => by simp⟩
      | some a =>
        cases m with
        | none =>
          refine ⟨some a, rfl, by simp, ?_⟩
          intro m' h
          cases h
          exact ⟨hacc a rfl, fun i => by simp⟩
        | some b =>
          obtain ⟨c, h1, h2, h3⟩ := andB_ok (hacc a rfl) (hms b (by simp))
          refine ⟨some c, by simp [addTwo, h1, Except.map], by simp, ?_⟩
          intro m' h
          cases h
          refine ⟨h2, fun i => ?_⟩
          rw [h3]
          simp [or_imp, forall_and]
    obtain ⟨r, h1, h2, h3⟩ := hm
    obtain ⟨r', g1, g2, g3⟩ := ih r (fun m' h => (h3 m' h).1) (fun m' h => hms m' (by simp [h]))
    refine ⟨r', by simp [sumFrom, h1, g1], ?_, ?_⟩
    · rw [g2, h2]
      simp [and_assoc]
    · intro m' h
      obtain ⟨g4, g5⟩ := g3 m' h
      refine ⟨g4, fun i => ?_⟩
      rw [g5]
      constructor
      · intro h4 m'' hm''
        simp only [List.mem_cons] at hm''
        rcases hm'' with h5 | h5 | h5
        · cases hr : r with
          | none => rw [(h2.1 hr).1] at h5; cases h5
          | some r0 => exact ((h3 r0 hr).2 i).1 (h4 r0 (by simp [hr])) m'' (by simp [h5])
        · cases hr : r with
          | none => rw [(h2.1 hr).2] at h5; cases h5
          | some r0 => exact ((h3 r0 hr).2 i).1 (h4 r0 (by simp [hr])) m'' (by simp [h5])
        · exact h4 m'' (by simp [h5])
      · intro h4 m'' hm''
        simp only [List.mem_cons] at hm''
        rcases hm'' with h5 | h5
        · refine ((h3 m'' h5.symm).2 i).2 fun m3 hm3 => h4 m3 ?_
          simp only [List.mem_cons, List.not_mem_nil, or_false] at hm3
          rcases hm3 with h6 | h6 <;> simp [h6]
        · exact h4 m'' (by simp [h5])

/-- The mask of a sum of branches whose masks all apply to activations of shape `s`: it is absent iff
all are, and otherwise it masks the positions that all masks present mask.  It applies to `s`. -/
theorem sum_masks {s : List ℕ} (ms : List (Option (Arr Bool))) (hms : ∀ m, some m ∈ ms → FitsTo m s) :
    ∃ r, Masks.sum ms = .ok r ∧ (r = none ↔ ∀ m ∈ ms, m = none) ∧
      ∀ m, r = some m → FitsTo m s ∧ ∀ i, MaskedAt m i ↔ ∀ m', some m' ∈ ms → MaskedAt m' i := by
  obtain ⟨r, h1, h2, h3⟩ := sumFrom_ok ms none (by simp) hms
  refine ⟨r, h1, by simpa using h2, ?_⟩
  intro m h
  obtain ⟨h4, h5⟩ := h3 m h
  refine ⟨h4, fun i => ?_⟩
  rw [h5]
  simp

/-- The order of the branches does not matter. -/
theorem sum_masks_perm {s : List ℕ} (ms ms' : List (Option (Arr Bool))) (hp : ms.Perm ms')
    (hms : ∀ m, some m ∈ ms → FitsTo m s) :
    ∃ r r', Masks.sum ms = .ok r ∧ Masks.sum ms' = .ok r' ∧ (r = none ↔ r' = none) ∧
      ∀ m m', r = some m → r' = some m' → ∀ i, MaskedAt m i ↔ MaskedAt m' i := by
  obtain ⟨r, h1, h2, h3⟩ := sum_masks ms hms
  obtain ⟨r', g1, g2, g3⟩ := sum_masks ms' (fun m h => hms m (hp.mem_iff.2 h))
  refine ⟨r, r', h1, g1, ?_, ?_⟩
  · rw [h2, g2]
    exact ⟨fun h m hm => h m (hp.mem_iff.2 hm), fun h m hm => h m (hp.mem_iff.1 hm)⟩
  · intro m m' hm hm' i
    rw [(h3 m hm).2, (g3 m' hm').2]
    exact ⟨fun h m hm => h m (hp.mem_iff.2 hm), fun h m hm => h m (hp.mem_iff.1 hm)⟩

/-- Summing some branches first does not matter. -/
theorem sum_masks_group {s : List ℕ} (ms ms' : List (Option (Arr Bool)))
    (hms : ∀ m, some m ∈ ms ++ ms' → FitsTo m s) :
    ∃ r q r', Masks.sum ms' = .ok q ∧ Masks.sum (ms ++ [q]) = .ok r ∧ Masks.sum (ms ++ ms') = .ok r' ∧
      (r = none ↔ r' = none) ∧
      ∀ m m', r = some m → r' = some m' → ∀ i, MaskedAt m i ↔ MaskedAt m' i := by
  obtain ⟨q, h1, h2, h3⟩ := sum_masks ms' (fun m h => hms m (by simp [h]))
  obtain ⟨r, g1, g2, g3⟩ := sum_masks (s := s) (ms ++ [q]) (by
    intro m h
    simp only [List.mem_append, List.mem_singleton] at h
    rcases h with h | h
    · exact hms m (by simp [h])
    · exact (h3 m h.symm).1)
  obtain ⟨r', k1, k2, k3⟩ := sum_masks (ms ++ ms') hms
  refine ⟨r, q, r', h1, g1, k1, ?_, ?_⟩
  · rw [g2, k2]
    simp only [List.mem_append, List.mem_singleton, or_imp, forall_and, forall_eq, h2]
  · intro m m' hm hm' i
    rw [(g3 m hm).2, (k3 m' hm').2]
    simp only [List.mem_append, List.mem_singleton, or_imp, forall_and]
    refine and_congr_right fun _ => ?_
    cases q with
    | none =>
      constructor
      · intro _ m'' h
        exact absurd (h2.1 rfl _ h) (by simp)
      · intro _ m'' h
        cases h
    | some q =>
      simp only [Option.some.injEq, forall_eq]
      exact (h3 q rfl).2 i

/-! ## Concatenation -/

lemma clip_set {i s : List ℕ} {axis d n : ℕ} :
    clip (i.set axis d) (s.set axis n) = (clip i s).set axis (if n = 1 then 0 else d) := by
  induction i generalizing s axis with
  | nil => simp [clip]
  | cons a i ih =>
    cases s with
    | nil => simp [clip]
    | cons b s =>
      cases axis with
      | zero => simp [clip]
      | succ axis => simpa [clip] using ih

lemma fits_length {m : Arr Bool} {s : List ℕ} (h : FitsTo m s) : m.shape.length = s.length :=
  List.Forall₂.length_eq h

lemma broadcastTo_ok {m : Arr Bool} {s : List ℕ} (h : FitsTo m s) :
    ∃ m', broadcastTo m s = .ok m' ∧ m'.shape = s ∧ ∀ i, MaskedAt m' i ↔ MaskedAt m i := by
  refine ⟨⟨s, fun i => m.get (clip i m.shape)⟩, ?_, rfl, ?_⟩
  · unfold broadcastTo
    rw [if_pos]
    exact h
  · intro i
    simp only [MaskedAt, clip_clip_of h]

lemma forall₂_set {R : ℕ → ℕ → Prop} {a b : List ℕ} (h : List.Forall₂ R a b) (axis m n : ℕ) (hr : R m n) :
    List.Forall₂ R (a.set axis m) (b.set axis n) := by
  induction h generalizing axis with
  | nil => simp
  | cons h _ ih =>
    cases axis with
    | zero => exact .cons hr (by assumption)
    | succ axis => exact .cons h (ih axis)

lemma set_getD_self (s : List ℕ) (axis : ℕ) (h : axis < s.length) : s.set axis (s.getD axis 0) = s := by
  rw [List.getD_eq_getElem?_getD, List.getElem?_eq_getElem h]
  simp

lemma mapE_ok {A B : Type} {f : A → Except Err B} {R : A → B → Prop} (l : List A)
    (h : ∀ a ∈ l, ∃ b, f a = .ok b ∧ R a b) : ∃ r, Kernel.mapE f l = .ok r ∧ List.Forall₂ R l r := by
  induction l with
  | nil => exact ⟨[], rfl, .nil⟩
  | cons a l ih =>
    obtain ⟨b, h1, h2⟩ := h a (by simp)
    obtain ⟨r, h3, h4⟩ := ih fun a ha => h a (by simp [ha])
    exact ⟨b :: r, by simp [Kernel.mapE, h1, h3], .cons h2 h4⟩

lemma allSome_map {A : Type} (l : List A) : Kernel.allSome (l.map some) = some l := by
  induction l with
  | nil => rfl
  | cons a l ih => simp [Kernel.allSome, ih]

/-- Where the index `d` along the concatenated axis falls: the branch and the index in that branch. -/
def locate : List ℕ → ℕ → ℕ × ℕ
  | [], d => (0, d)
  | n :: ns, d => if d < n then (0, d) else ((locate ns (d - n)).1 + 1, (locate ns (d - n)).2)

lemma locate_lt {ns : List ℕ} {d : ℕ} (h : d < ns.sum) :
    (locate ns d).1 < ns.length ∧ (locate ns d).2 < ns.getD (locate ns d).1 0 := by
  induction ns generalizing d with
  | nil => simp at h
  | cons n ns ih =>
    simp only [List.sum_cons] at h
    simp only [locate]
    split
    · simpa
    · have := ih (d := d - n) (by omega)
      simpa using this

lemma catGet_locate {α : Type} (axis : ℕ) (m : Arr α) (ms : List (Arr α)) (i : List ℕ)
    (hi : axis < i.length)
    (hd : i.getD axis 0 < ((m :: ms).map fun m => m.shape.getD axis 0).sum) (a : Arr α)
    (ha : (m :: ms)[(locate ((m :: ms).map fun m => m.shape.getD axis 0) (i.getD axis 0)).1]? = some a) :
    catGet axis m ms i =
      a.get (i.set axis (locate ((m :: ms).map fun m => m.shape.getD axis 0) (i.getD axis 0)).2) := by
  induction ms generalizing m i with
  | nil =>
    simp only [List.map_cons, List.map_nil, List.sum_cons, List.sum_nil, Nat.add_zero] at hd
    simp only [List.map_cons, List.map_nil, locate, if_pos hd, List.getElem?_cons_zero,
      Option.some.injEq] at ha ⊢
    subst ha
    simp only [catGet]
    rw [set_getD_self i axis hi]
  | cons m' ms ih =>
    rw [List.map_cons, List.sum_cons] at hd
    rw [List.map_cons] at ha ⊢
    simp only [locate] at ha ⊢
    simp only [catGet]
    by_cases h : i.getD axis 0 < m.shape.getD axis 0
    · simp only [if_pos h] at ha ⊢
      simp only [List.getElem?_cons_zero, Option.some.injEq] at ha
      subst ha
      rw [set_getD_self i axis hi]
    · simp only [if_neg h] at ha ⊢
      rw [List.getElem?_cons_succ] at ha
      have hg : (i.set axis (i.getD axis 0 - m.shape.getD axis 0)).getD axis 0 =
          i.getD axis 0 - m.shape.getD axis 0 := by
        rw [List.getD_eq_getElem?_getD, List.getElem?_set_self hi]
        rfl
      rw [ih m' _ (by simpa using hi) (by rw [hg]; omega) (by rw [hg]; exact ha), hg]
      rw [List.set_set]

lemma maxShape_spec (axis : ℕ) (s : List ℕ) (l : List (List ℕ)) (hne : l ≠ [])
    (h : ∀ a ∈ l, a.length = s.length ∧ List.Forall₂ (fun n d => n = d ∨ n = 1) (a.set axis 0) (s.set axis 0))
    (hl : ∀ a ∈ l, ∀ n ∈ a, 1 ≤ n) :
    (maxShape l).length = s.length ∧
    List.Forall₂ (fun n d => n = d ∨ n = 1) ((maxShape l).set axis 0) (s.set axis 0) ∧
    (∀ n ∈ maxShape l, 1 ≤ n) ∧
    ∀ a ∈ l, List.Forall₂ (fun n d => n = d ∨ n = 1) (a.set axis 0) ((maxShape l).set axis 0) := by
  induction l with
  | nil => exact absurd rfl hne
  | cons a l ih =>
    cases l with
    | nil =>
      refine ⟨(h a (by simp)).1, (h a (by simp)).2, hl a (by simp), ?_⟩
      intro b hb
      simp only [List.mem_singleton] at hb
      subst hb
      exact List.forall₂_same.2 fun _ _ => .inl rfl
    | cons b l =>
      obtain ⟨i1, i2, i3, i4⟩ := ih (by simp) (fun a ha => h a (by simp [ha])) (fun a ha => hl a (by simp [ha]))
      obtain ⟨a1, a2⟩ := h a (by simp)
      have a3 := hl a (by simp)
      revert i1 i2 i3 i4
      have hm : maxShape (a :: b :: l) = List.zipWith max a (maxShape (b :: l)) := rfl
      rw [hm]
      generalize maxShape (b :: l) = mx
      intro i1 i2 i3 i4
      -- compare `a` and `mx` entry by entry
      have key : ∀ (axis : ℕ) (a mx s : List ℕ), a.length = s.length → mx.length = s.length →
          (∀ n ∈ a, 1 ≤ n) → (∀ n ∈ mx, 1 ≤ n) →
          List.Forall₂ (fun n d => n = d ∨ n = 1) (a.set axis 0) (s.set axis 0) →
          List.Forall₂ (fun n d => n = d ∨ n = 1) (mx.set axis 0) (s.set axis 0) →
          List.Forall₂ (fun n d => n = d ∨ n = 1) ((List.zipWith max a mx).set axis 0) (s.set axis 0) ∧
          List.Forall₂ (fun n d => n = d ∨ n = 1) (a.set axis 0) ((List.zipWith max a mx).set axis 0) ∧
          List.Forall₂ (fun n d => n = d ∨ n = 1) (mx.set axis 0) ((List.zipWith max a mx).set axis 0) ∧
          ∀ n ∈ List.zipWith max a mx, 1 ≤ n := by
        have step : ∀ x y z : ℕ, 1 ≤ x → 1 ≤ y → (x = z ∨ x = 1) → (y = z ∨ y = 1) →
            (max x y = z ∨ max x y = 1) ∧ (x = max x y ∨ x = 1) ∧ (y = max x y ∨ y = 1) := by
          intro x y z hx hy h1 h2
          omega
        intro axis a
        induction a generalizing axis with
        | nil =>
          intro mx s h1 h2
          have : s = [] := List.length_eq_zero_iff.1 h1.symm
          subst this
          have : mx = [] := List.length_eq_zero_iff.1 h2
          subst this
          simp
        | cons x a iha =>
          intro mx s h1 h2 p1 p2 f1 f2
          cases s with
          | nil => simp at h1
          | cons z s =>
            cases mx with
            | nil => simp at h2
            | cons y mx =>
              have hx := p1 x (by simp)
              have hy := p2 y (by simp)
              cases axis with
              | zero =>
                simp only [List.set_cons_zero, List.forall₂_cons, true_or, true_and, List.zipWith_cons_cons] at f1 f2 ⊢
                have := iha (a.length + 1) mx s (by simpa using h1) (by simpa using h2)
                  (fun n hn => p1 n (by simp [hn])) (fun n hn => p2 n (by simp [hn]))
                have l1 : a.length = s.length := by simpa using h1
                have l2 : mx.length = s.length := by simpa using h2
                rw [List.set_eq_of_length_le (by omega), List.set_eq_of_length_le (by omega),
                  List.set_eq_of_length_le (by omega), List.set_eq_of_length_le (by simp)] at this
                obtain ⟨t1, t2, t3, t4⟩ := this f1 f2
                refine ⟨t1, t2, t3, ?_⟩
                intro n hn
                rcases List.mem_cons.1 hn with rfl | hn
                · exact le_trans hx (le_max_left _ _)
                · exact t4 n hn
              | succ axis =>
                simp only [List.set_cons_succ, List.forall₂_cons, List.zipWith_cons_cons] at f1 f2 ⊢
                obtain ⟨t1, t2, t3, t4⟩ := iha axis mx s (by simpa using h1) (by simpa using h2)
                  (fun n hn => p1 n (by simp [hn])) (fun n hn => p2 n (by simp [hn])) f1.2 f2.2
                obtain ⟨u1, u2, u3⟩ := step x y z hx hy f1.1 f2.1
                refine ⟨⟨u1, t1⟩, ⟨u2, t2⟩, ⟨u3, t3⟩, ?_⟩
                intro n hn
                rcases List.mem_cons.1 hn with rfl | hn
                · exact le_trans hx (le_max_left _ _)
                · exact t4 n hn
      obtain ⟨k1, k2, k3, k4⟩ := key axis a mx s a1 i1 a3 i3 a2 i2
      refine ⟨by simp [a1, i1], k1, k4, ?_⟩
      intro c hc
      rcases List.mem_cons.1 hc with rfl | hc
      · exact k2
      · have h4 := i4 c hc
        -- transitivity of broadcasting
        have trans : ∀ (a b c : List ℕ), List.Forall₂ (fun n d => n = d ∨ n = 1) a b →
            List.Forall₂ (fun n d => n = d ∨ n = 1) b c → List.Forall₂ (fun n d => n = d ∨ n = 1) a c := by
          intro a b c hab
          induction hab generalizing c with
          | nil => exact id
          | cons h _ ih =>
            intro hbc
            cases hbc with
            | cons h' hbc =>
              refine .cons ?_ (ih _ hbc)
              omega
        exact trans _ _ _ h4 k3

lemma getElem?_of_forall₂ {A B : Type} {R : A → B → Prop} {l : List A} {r : List B}
    (h : List.Forall₂ R l r) {j : ℕ} {a : A} (ha : l[j]? = some a) : ∃ b, r[j]? = some b ∧ R a b := by
  induction h generalizing j with
  | nil => simp at ha
  | cons hab _ ih =>
    cases j with
    | zero =>
      simp only [List.getElem?_cons_zero, Option.some.injEq] at ha
      subst ha
      exact ⟨_, by simp, hab⟩
    | succ j => simpa using ih (by simpa using ha)

lemma getD_set_self {s : List ℕ} {axis n : ℕ} (h : axis < s.length) : (s.set axis n).getD axis 0 = n := by
  rw [List.getD_eq_getElem?_getD, List.getElem?_set_self h]
  rfl

lemma fits_getD {a s : List ℕ} (h : List.Forall₂ (fun n d => n = d ∨ n = 1) a s) (axis : ℕ)
    (hx : axis < s.length) : a.getD axis 0 = s.getD axis 0 ∨ a.getD axis 0 = 1 := by
  induction h generalizing axis with
  | nil => simp at hx
  | cons h _ ih =>
    cases axis with
    | zero => simpa using h
    | succ axis => simpa using ih axis (by simpa using hx)

/-- The mask of a concatenation along `axis` of branches of shapes `shapes` (equal but at `axis`), each
with a mask: it applies to the concatenation, and the position `i` of the concatenation, which is the
position `d` along `axis` of branch `j`, is masked iff the mask of that branch masks it. -/
theorem concat_masks (ms : List (Arr Bool)) (shapes : List (List ℕ)) (axis : ℕ) (s : List ℕ)
    (hne : ms ≠ []) (hax : axis < s.length) (hsh : ∀ sh ∈ shapes, sh.set axis 0 = s.set axis 0)
    (hpos : ∀ sh ∈ shapes, ∀ n ∈ sh, 1 ≤ n) (hfit : List.Forall₂ FitsTo ms shapes) :
    ∃ m, Masks.concat (ms.map some) shapes axis = .ok (some m) ∧
      FitsTo m (s.set axis (shapes.map fun sh => sh.getD axis 0).sum) ∧
      ∀ i, InRange i (s.set axis (shapes.map fun sh => sh.getD axis 0).sum) →
        ∃ mj, ms[(locate (shapes.map fun sh => sh.getD axis 0) (i.getD axis 0)).1]? = some mj ∧
          (MaskedAt m i ↔
            MaskedAt mj (i.set axis (locate (shapes.map fun sh => sh.getD axis 0) (i.getD axis 0)).2)) := by
  have hlen : ms.length = shapes.length := hfit.length_eq
  have hslen : ∀ sh ∈ shapes, sh.length = s.length := fun sh h => by
    simpa using congrArg List.length (hsh sh h)
  have hzip : ∀ p ∈ ms.zip shapes, FitsTo p.1 p.2 ∧ p.2 ∈ shapes := by
    rintro ⟨m, sh⟩ hp
    exact ⟨(List.forall₂_iff_zip.1 hfit).2 hp, (List.of_mem_zip hp).2⟩
  obtain ⟨ms1, e1, r1⟩ := mapE_ok (f := fun p : Arr Bool × List ℕ => expand axis p.1 p.2)
    (R := fun p m1 => m1.shape = p.1.shape.set axis (p.2.getD axis 0) ∧
      ∀ i, MaskedAt m1 i ↔ MaskedAt p.1 i) (ms.zip shapes) (by
    rintro ⟨m, sh⟩ hp
    obtain ⟨h1, h2⟩ := hzip _ hp
    have hml : m.shape.length = s.length := (fits_length h1).trans (hslen _ h2)
    refine broadcastTo_ok ?_
    have h3 := forall₂_set (R := fun n d => n = d ∨ n = 1)
      (List.forall₂_same.2 fun n (_ : n ∈ m.shape) => .inl rfl) axis (m.shape.getD axis 0)
      (sh.getD axis 0) (fits_getD h1 axis (by rw [hslen _ h2]; exact hax))
    rw [set_getD_self _ _ (by omega)] at h3
    exact h3)
  have hms1 : ∀ m1 ∈ ms1, ∃ p ∈ ms.zip shapes, m1.shape = p.1.shape.set axis (p.2.getD axis 0) := by
    intro m1 hm1
    obtain ⟨j, hj, rfl⟩ := List.getElem_of_mem hm1
    have hjl : j < (ms.zip shapes).length := by rw [r1.length_eq]; exact hj
    obtain ⟨b, hb1, hb2⟩ := getElem?_of_forall₂ r1 (List.getElem?_eq_getElem hjl)
    rw [List.getElem?_eq_getElem hj] at hb1
    cases hb1
    exact ⟨_, List.getElem_mem hjl, hb2.1⟩
  have hms1ne : ms1 ≠ [] := by
    intro h
    have := r1.length_eq
    rw [h] at this
    simp [hlen] at this
    exact hne (List.length_eq_zero_iff.1 (by rw [hlen, this]; rfl))
  obtain ⟨x1, x2, x3, x4⟩ := maxShape_spec axis (s.set axis 1) (ms1.map (·.shape)) (by simpa using hms1ne)
    (by
      intro a ha
      obtain ⟨m1, hm1, rfl⟩ := List.mem_map.1 ha
      obtain ⟨p, hp, hs⟩ := hms1 m1 hm1
      obtain ⟨h1, h2⟩ := hzip p hp
      have hml : p.1.shape.length = s.length := (fits_length h1).trans (hslen _ h2)
      rw [hs, List.set_set, List.set_set, ← hsh _ h2]
      exact ⟨by simp [hml], forall₂_set h1 axis 0 0 (.inl rfl)⟩)
    (by
      intro a ha
      obtain ⟨m1, hm1, rfl⟩ := List.mem_map.1 ha
      obtain ⟨p, hp, hs⟩ := hms1 m1 hm1
      obtain ⟨h1, h2⟩ := hzip p hp
      intro n hn
      rw [hs] at hn
      rcases List.mem_or_eq_of_mem_set hn with h | h
      · obtain ⟨j, hj, rfl⟩ := List.getElem_of_mem h
        have := fits_getD h1 j (by rw [← fits_length h1]; exact hj)
        rw [List.getD_eq_getElem?_getD, List.getElem?_eq_getElem hj, List.getD_eq_getElem?_getD,
          List.getElem?_eq_getElem (by rw [← fits_length h1]; exact hj)] at this
        have hp2 := hpos _ h2 (p.2[j]'(by rw [← fits_length h1]; exact hj)) (List.getElem_mem _)
        simp only [Option.getD_some] at this
        omega
      · have hx : axis < p.2.length := by rw [hslen _ h2]; exact hax
        rw [h, List.getD_eq_getElem?_getD, List.getElem?_eq_getElem hx]
        exact hpos _ h2 _ (List.getElem_mem _))
  revert x1 x2 x3 x4
  generalize hmx : maxShape (ms1.map (·.shape)) = mx
  intro x1 x2 x3 x4
  rw [List.length_set] at x1
  rw [List.set_set] at x2
  have hms1len : ∀ m1 ∈ ms1, m1.shape.length = s.length := by
    intro m1 hm1
    obtain ⟨p, hp, hs⟩ := hms1 m1 hm1
    obtain ⟨h1, h2⟩ := hzip p hp
    rw [hs, List.length_set]
    exact (fits_length h1).trans (hslen _ h2)
  obtain ⟨ms2, e2, r2⟩ := mapE_ok (f := widen axis mx)
    (R := fun m1 m2 => m2.shape = mx.set axis (m1.shape.getD axis 0) ∧
      ∀ i, MaskedAt m2 i ↔ MaskedAt m1 i) ms1 (by
    intro m1 hm1
    refine broadcastTo_ok ?_
    have h3 := forall₂_set (x4 m1.shape (List.mem_map_of_mem hm1)) axis (m1.shape.getD axis 0)
      (m1.shape.getD axis 0) (.inl rfl)
    rw [List.set_set, List.set_set, set_getD_self _ _ (by rw [hms1len _ hm1]; exact hax)] at h3
    exact h3)
  -- the branches, from the input to the last step
  have chain : ∀ (j : ℕ) (mj : Arr Bool) (sh : List ℕ), ms[j]? = some mj → shapes[j]? = some sh →
      ∃ m2, ms2[j]? = some m2 ∧ m2.shape = mx.set axis (sh.getD axis 0) ∧
        ∀ i, MaskedAt m2 i ↔ MaskedAt mj i := by
    intro j mj sh h1 h2
    have h3 : (ms.zip shapes)[j]? = some (mj, sh) := by
      rw [List.getElem?_zip_eq_some]
      exact ⟨h1, h2⟩
    obtain ⟨m1, h4, h5, h6⟩ := getElem?_of_forall₂ r1 h3
    obtain ⟨m2, h7, h8, h9⟩ := getElem?_of_forall₂ r2 h4
    refine ⟨m2, h7, ?_, fun i => (h9 i).trans (h6 i)⟩
    rw [h8, h5]
    have : mj.shape.length = s.length :=
      (fits_length (hzip _ (List.mem_of_getElem? h3)).1).trans
        (hslen _ (List.mem_of_getElem? h2))
    rw [getD_set_self (by rw [this]; exact hax)]
  have hl2 : ms2.length = ms.length := by
    rw [← r2.length_eq, ← r1.length_eq]
    simp [hlen]
  have sizes : (ms2.map fun m => m.shape.getD axis 0) = shapes.map fun sh => sh.getD axis 0 := by
    apply List.ext_getElem?
    intro j
    rw [List.getElem?_map, List.getElem?_map]
    by_cases hj : j < ms.length
    · obtain ⟨m2, h1, h2, -⟩ := chain j ms[j] (shapes[j]'(by omega)) (List.getElem?_eq_getElem hj)
        (List.getElem?_eq_getElem (by omega))
      rw [h1, List.getElem?_eq_getElem (by omega : j < shapes.length)]
      simp only [Option.map_some, h2]
      rw [getD_set_self (by omega)]
    · rw [List.getElem?_eq_none (by omega), List.getElem?_eq_none (by omega)]
      rfl
  have hsz2 : ∀ m2 ∈ ms2, m2.shape.set axis 0 = mx.set axis 0 := by
    intro m2 hm2
    obtain ⟨j, hj, rfl⟩ := List.getElem_of_mem hm2
    obtain ⟨m2, h1, h2, -⟩ := chain j (ms[j]'(by omega)) (shapes[j]'(by omega))
      (List.getElem?_eq_getElem (by omega)) (List.getElem?_eq_getElem (by omega))
    rw [List.getElem?_eq_getElem hj] at h1
    cases h1
    rw [h2, List.set_set]
  cases ms2 with
  | nil =>
    simp only [List.length_nil] at hl2
    exact absurd (List.length_eq_zero_iff.1 hl2.symm) hne
  | cons a2 rest2 =>
    have ha2 : axis < a2.shape.length := by
      have := congrArg List.length (hsz2 a2 (by simp))
      simp at this
      omega
    refine ⟨⟨a2.shape.set axis (((a2 :: rest2).map fun m => m.shape.getD axis 0).sum),
      catGet axis a2 rest2⟩, ?_, ?_, ?_⟩
    · unfold Masks.concat
      rw [if_neg (by simpa using hlen), if_neg, allSome_map]
      · simp only [e1, hmx, e2]
        simp only [concatE]
        rw [if_pos]
        · rfl
        · refine ⟨ha2, fun m' hm' => ?_⟩
          rw [hsz2 m' (by simp [hm']), hsz2 a2 (by simp)]
      · intro h
        obtain ⟨m0, hm0⟩ := List.exists_mem_of_ne_nil ms hne
        exact absurd (h (some m0) (List.mem_map_of_mem hm0)) (by simp)
    · simp only [FitsTo, sizes]
      have h1 : a2.shape.set axis (shapes.map fun sh => sh.getD axis 0).sum =
          mx.set axis (shapes.map fun sh => sh.getD axis 0).sum := by
        have := congrArg (fun l => l.set axis (shapes.map fun sh => sh.getD axis 0).sum)
          (hsz2 a2 (by simp))
        simpa [List.set_set] using this
      rw [h1]
      have := forall₂_set x2 axis (shapes.map fun sh => sh.getD axis 0).sum _ (.inl rfl)
      simpa [List.set_set] using this
    · intro i hi
      have hil : i.length = s.length := by simpa using hi.length_eq
      have hid : i.getD axis 0 < (shapes.map fun sh => sh.getD axis 0).sum := by
        have := (inRange_iff.1 hi).2 axis (by simpa using hax)
        rwa [getD_set_self hax] at this
      obtain ⟨hj1, hj2⟩ := locate_lt hid
      generalize hj : (locate (shapes.map fun sh => sh.getD axis 0) (i.getD axis 0)).1 = j at *
      generalize hd : (locate (shapes.map fun sh => sh.getD axis 0) (i.getD axis 0)).2 = d at *
      rw [List.length_map] at hj1
      have hjm : j < ms.length := by omega
      refine ⟨ms[j], List.getElem?_eq_getElem hjm, ?_⟩
      obtain ⟨m2, h1, h2, h3⟩ := chain j ms[j] shapes[j] (List.getElem?_eq_getElem hjm)
        (List.getElem?_eq_getElem hj1)
      rw [← h3]
      have hN : d < (shapes[j]).getD axis 0 := by
        rw [List.getD_eq_getElem?_getD, List.getElem?_map, List.getElem?_eq_getElem hj1] at hj2
        simpa using hj2
      have hclip : ∀ n : ℕ, i.getD axis 0 < n →
          clip i (a2.shape.set axis n) = (clip i mx).set axis (i.getD axis 0) := by
        intro n hn
        have e : a2.shape.set axis n = mx.set axis n := by
          have := congrArg (fun l => l.set axis n) (hsz2 a2 (by simp))
          simpa [List.set_set] using this
        rw [e]
        conv_lhs => rw [← set_getD_self i axis (by omega)]
        rw [clip_set]
        split
        · rw [show i.getD axis 0 = 0 by omega]
        · rfl
      have hcl : axis < (clip i mx).length := by simp [clip]; omega
      simp only [MaskedAt]
      rw [hclip _ (by rw [sizes]; exact hid)]
      have hg : ((clip i mx).set axis (i.getD axis 0)).getD axis 0 = i.getD axis 0 := getD_set_self hcl
      rw [catGet_locate axis a2 rest2 _ (by simpa using hcl) (by rw [hg, sizes]; exact hid) m2
        (by rw [hg, sizes, hj]; exact h1), hg, sizes, hd, List.set_set, h2, clip_set]
      rw [show (if (shapes[j]).getD axis 0 = 1 then 0 else d) = d by split <;> omega]

/-- There is no mask iff no branch has one. -/
theorem concat_none (ms : List (Option (Arr Bool))) (shapes : List (List ℕ)) (axis : ℕ)
    (h : ms.length = shapes.length) :
    Masks.concat ms shapes axis = .ok none ↔ ∀ m ∈ ms, m = none := by
  constructor
  · intro h1
    by_contra h2
    simp only [Masks.concat, if_neg (not_not.2 h), if_neg h2] at h1
    split at h1
    · cases h1
    · split at h1
      · cases h1
      · split at h1
        · cases h1
        · rename_i ms2 _
          cases hc : concatE ms2 axis with
          | error e => rw [hc] at h1; cases h1
          | ok a => rw [hc] at h1; cases h1
  · intro h1
    simp only [Masks.concat, if_neg (not_not.2 h), if_pos h1]

lemma allSome_none {A : Type} {l : List (Option A)} (h : none ∈ l) : Kernel.allSome l = none := by
  induction l with
  | nil => simp at h
  | cons a l ih =>
    cases a with
    | none => rfl
    | some a => simp [Kernel.allSome, ih (by simpa using h)]

/-- A branch without a mask beside one with a mask is not concatenated: the call raises, because the
replacement mask is built from a tuple. -/
theorem concat_mixed_raises (ms : List (Option (Arr Bool))) (shapes : List (List ℕ)) (axis : ℕ)
    (h : ms.length = shapes.length) (h1 : none ∈ ms) (h2 : ∃ m, some m ∈ ms) :
    Masks.concat ms shapes axis = .error .typeError := by
  obtain ⟨m, hm⟩ := h2
  have h3 : ¬ ∀ m ∈ ms, m = none := fun h => absurd (h _ hm) (by simp)
  simp only [Masks.concat, if_neg (not_not.2 h), if_neg h3, allSome_none h1]

/-! ## Examples -/

/-- A mask of shape (2, 3, 1) and one of shape (2, 1, 1), and a branch without a mask, on activations of
shape (2, 3, 5). -/
example : ∃ m1 m2 : Arr Bool, ∃ r, FitsTo m1 [2, 3, 5] ∧ FitsTo m2 [2, 3, 5] ∧
    Masks.sum [some m1, none, some m2] = .ok (some r) ∧ MaskedAt r [1, 0, 4] ∧ ¬ MaskedAt r [0, 0, 4] ∧
      ¬ MaskedAt r [1, 1, 4] := by
  refine ⟨⟨[2, 3, 1], fun i => i.getD 1 0 = 0⟩, ⟨[2, 1, 1], fun i => i.getD 0 0 = 1⟩, _, ?_, ?_, rfl, ?_⟩
  · simp [FitsTo]
  · simp [FitsTo]
  · simp only [MaskedAt]
    decide

/-- Concatenation along axis 1 of masks of shapes (2, 1, 1) and (1, 2, 1) of branches of shapes (2, 3, 5)
and (2, 2, 5). -/
example : ∃ m1 m2 : Arr Bool, ∃ r, List.Forall₂ FitsTo [m1, m2] [[2, 3, 5], [2, 2, 5]] ∧
    Masks.concat [some m1, some m2] [[2, 3, 5], [2, 2, 5]] 1 = .ok (some r) ∧
    MaskedAt r [1, 2, 3] ∧ ¬ MaskedAt r [0, 2, 3] ∧ ¬ MaskedAt r [1, 3, 3] ∧ MaskedAt r [1, 4, 3] := by
  refine ⟨⟨[2, 1, 1], fun i => i.getD 0 0 = 1⟩, ⟨[1, 2, 1], fun i => i.getD 1 0 = 1⟩, _, ?_, rfl, ?_⟩
  · simp [FitsTo]
  · simp only [MaskedAt]
    decide

end NT.C41
