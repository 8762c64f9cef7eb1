import Mathlib.Data.List.Forall2
import Verif.Model.Tree
import Verif.Tac

/-!
# C17: tree mapping preserves structure and rejects mismatched structure
-/

namespace NT.C17
open NT NT.Tree

variable {α β γ : Type}

/-! ## Specification: trees seen through paths -/

/-- The subtree at a path (child numbers from the root). -/
def sub : Tree α → List ℕ → Option (Tree α)
  | t, [] => some t
  | .leaf _, _ :: _ => none
  | .node _ cs, k :: p =>
    match cs[k]? with
    | some c => sub c p
    | none => none

/-- What is found at a path: nothing, a leaf (`some none`), or a list / tuple. -/
def kindAt (t : Tree α) (p : List ℕ) : Option (Option Bool) :=
  (sub t p).map fun
    | .leaf _ => none
    | .node b _ => some b

/-- The leaf at a path. -/
def leafAt (t : Tree α) (p : List ℕ) : Option α :=
  match sub t p with
  | some (.leaf a) => some a
  | _ => none

/-- Same structure: the same paths exist and carry the same kinds of nodes. -/
def SameStructure (t : Tree α) (u : Tree β) : Prop := ∀ p, kindAt t p = kindAt u p

/-- The leaves of all trees at a path. -/
def LeavesAt (ts : List (Tree α)) (p : List ℕ) (as : List α) : Prop :=
  List.Forall₂ (fun t a => leafAt t p = some a) ts as

/-! ## Helper lemmas -/

@[simp] lemma sub_nil (t : Tree α) : sub t [] = some t := by cases t <;> rfl
@[simp] lemma sub_leaf_cons (a : α) (k : ℕ) (p : List ℕ) : sub (.leaf a) (k :: p) = none := rfl
lemma sub_node_cons (b : Bool) (cs : List (Tree α)) (k : ℕ) (p : List ℕ) :
    sub (.node b cs) (k :: p) = (cs[k]?).bind (sub · p) := by
  simp only [sub]; cases cs[k]? <;> rfl

lemma kindAt_node_cons (b : Bool) (cs : List (Tree α)) (k : ℕ) (p : List ℕ) :
    kindAt (.node b cs) (k :: p) = (cs[k]?).bind (kindAt · p) := by
  unfold kindAt; rw [sub_node_cons]; cases cs[k]? <;> rfl

lemma leafAt_node_cons (b : Bool) (cs : List (Tree α)) (k : ℕ) (p : List ℕ) :
    leafAt (.node b cs) (k :: p) = (cs[k]?).bind (leafAt · p) := by
  unfold leafAt; rw [sub_node_cons]; cases cs[k]? <;> rfl

lemma same_leaf {a : α} {u : Tree β} (h : SameStructure (.leaf a) u) : ∃ b, u = .leaf b := by
  cases u with
  | leaf b => exact ⟨b, rfl⟩
  | node b cs => have := h []; simp [kindAt] at this

lemma same_node {b : Bool} {cs : List (Tree α)} {u : Tree β} (h : SameStructure (.node b cs) u) :
    ∃ ds, u = .node b ds ∧ List.Forall₂ SameStructure cs ds := by
  cases u with
  | leaf b => have := h []; simp [kindAt] at this
  | node b' ds =>
    have hb : b = b' := by have := h []; simpa [kindAt] using this
    subst hb
    refine ⟨ds, rfl, ?_⟩
    have hk : ∀ (k : ℕ) (p : List ℕ), (cs[k]?).bind (kindAt · p) = (ds[k]?).bind (kindAt · p) := by
      intro k p
      rw [← kindAt_node_cons b, ← kindAt_node_cons b]
      exact h (k :: p)
    have hlen : cs.length = ds.length := by
      have h0 : ∀ k : ℕ, (cs[k]?).isSome = (ds[k]?).isSome := by
        intro k
        have := hk k []
        cases e1 : cs[k]? <;> cases e2 : ds[k]? <;> simp [e1, e2, kindAt] at this ⊢
      rcases lt_trichotomy cs.length ds.length with h1 | h1 | h1
      · have := h0 cs.length; simp [h1] at this
      · exact h1
      · have := h0 ds.length; simp [h1] at this
    rw [List.forall₂_iff_get]
    refine ⟨hlen, ?_⟩
    intro k h1 h2 p
    have := hk k p
    simpa [h1, h2] using this

lemma same_of_forall₂ {b : Bool} {cs : List (Tree α)} {ds : List (Tree β)}
    (h : List.Forall₂ SameStructure cs ds) : SameStructure (.node b cs) (.node b ds) := by
  intro p
  cases p with
  | nil => simp [kindAt]
  | cons k p =>
    rw [kindAt_node_cons, kindAt_node_cons]
    rw [List.forall₂_iff_get] at h
    by_cases hk : k < cs.length
    · have := h.2 k hk (h.1 ▸ hk) p
      simpa [hk, h.1 ▸ hk] using this
    · simp [hk, show ¬ k < ds.length from h.1 ▸ hk]

lemma SameStructure.symm {t : Tree α} {u : Tree β} (h : SameStructure t u) : SameStructure u t :=
  fun p => (h p).symm

lemma leavesOf_all {ts : List (Tree α)} {t : Tree β} {a : β} (ht : t = .leaf a)
    (h : ∀ u ∈ ts, SameStructure u t) : ∃ as, leavesOf ts = some as ∧ LeavesAt ts [] as := by
  induction ts with
  | nil => exact ⟨[], rfl, .nil⟩
  | cons u ts ih =>
    subst ht
    obtain ⟨b, rfl⟩ := same_leaf (h u (by simp)).symm
    obtain ⟨as, h1, h2⟩ := ih (fun v hv => h v (by simp [hv]))
    exact ⟨b :: as, by simp [leavesOf, h1], .cons (by simp [leafAt]) h2⟩

lemma childrenOf_all {ts : List (Tree α)} {b : Bool} {cs : List (Tree β)}
    (h : ∀ u ∈ ts, SameStructure u (.node b cs)) :
    ∃ css, childrenOf b ts = some css ∧ List.Forall₂ (fun u l => u = .node b l) ts css ∧
      ∀ l ∈ css, List.Forall₂ SameStructure l cs := by
  induction ts with
  | nil => exact ⟨[], rfl, .nil, by simp⟩
  | cons u ts ih =>
    obtain ⟨ds, rfl, hds⟩ := same_node (h u (by simp)).symm
    obtain ⟨css, h1, h2, h3⟩ := ih (fun v hv => h v (by simp [hv]))
    refine ⟨ds :: css, by simp [childrenOf, h1], .cons rfl h2, ?_⟩
    intro l hl
    rcases List.mem_cons.1 hl with rfl | hl
    · exact hds.flip.imp (fun _ _ h => SameStructure.symm h)
    · exact h3 l hl

lemma unconsAll_all {css : List (List (Tree α))} {c : Tree β} {cs : List (Tree β)}
    (h : ∀ l ∈ css, List.Forall₂ SameStructure l (c :: cs)) :
    ∃ hs tls, unconsAll css = some (hs, tls) ∧ css = List.zipWith List.cons hs tls ∧
      hs.length = tls.length ∧
      (∀ u ∈ hs, SameStructure u c) ∧ ∀ l ∈ tls, List.Forall₂ SameStructure l cs := by
  induction css with
  | nil => exact ⟨[], [], rfl, rfl, rfl, by simp, by simp⟩
  | cons l css ih =>
    obtain ⟨hs, tls, h1, h2, h3, h4, h5⟩ := ih (fun v hv => h v (by simp [hv]))
    have hl := h l (by simp)
    cases l with
    | nil => cases hl
    | cons u l =>
      cases hl with
      | cons ha hb =>
        refine ⟨u :: hs, l :: tls, by simp [unconsAll, h1], by simp [h2], by simp [h3], ?_, ?_⟩
        · simpa using ⟨ha, h4⟩
        · simpa using ⟨hb, h5⟩

lemma leavesAt_cons_zip {c : Tree α} {hs : List (Tree α)} {p : List ℕ} {as : List α} {b : Bool}
    {cs : List (Tree α)} {tls : List (List (Tree α))} (hlen : hs.length = tls.length) :
    LeavesAt (.node b (c :: cs) :: (List.zipWith List.cons hs tls).map (.node b)) (0 :: p) as ↔
      LeavesAt (c :: hs) p as := by
  unfold LeavesAt
  rw [← List.map_cons (f := Tree.node b) (a := c :: cs), List.forall₂_map_left_iff]
  have : ((c :: cs) :: List.zipWith List.cons hs tls) =
      List.zipWith List.cons (c :: hs) (cs :: tls) := rfl
  rw [this]
  have hl : (c :: hs).length = (cs :: tls).length := by simp [hlen]
  generalize c :: hs = hs' at *
  generalize cs :: tls = tls' at *
  clear this
  induction hs' generalizing tls' as with
  | nil => simp
  | cons h hs' ih =>
    cases tls' with
    | nil => simp at hl
    | cons tl tls' =>
      cases as with
      | nil => simp
      | cons a as =>
        simp only [List.zipWith_cons_cons, List.forall₂_cons, leafAt_node_cons]
        have hih := ih (as := as) (tls' := tls') (by simpa using hl)
        simp only [leafAt_node_cons] at hih
        exact and_congr (by simp) hih

lemma leavesAt_succ_zip {c : Tree α} {hs : List (Tree α)} {k : ℕ} {p : List ℕ} {as : List α}
    {b : Bool} {cs : List (Tree α)} {tls : List (List (Tree α))} (hlen : hs.length = tls.length) :
    LeavesAt (.node b (c :: cs) :: (List.zipWith List.cons hs tls).map (.node b)) ((k + 1) :: p) as ↔
      LeavesAt (.node b cs :: tls.map (.node b)) (k :: p) as := by
  unfold LeavesAt
  rw [← List.map_cons (f := Tree.node b) (a := c :: cs), List.forall₂_map_left_iff,
    ← List.map_cons (f := Tree.node b) (a := cs), List.forall₂_map_left_iff]
  have : ((c :: cs) :: List.zipWith List.cons hs tls) =
      List.zipWith List.cons (c :: hs) (cs :: tls) := rfl
  rw [this]
  have hl : (c :: hs).length = (cs :: tls).length := by simp [hlen]
  generalize c :: hs = hs' at *
  generalize cs :: tls = tls' at *
  clear this
  induction hs' generalizing tls' as with
  | nil =>
    have : tls' = [] := by simpa using hl.symm
    subst this; simp
  | cons h hs' ih =>
    cases tls' with
    | nil => simp at hl
    | cons tl tls' =>
      cases as with
      | nil => simp
      | cons a as =>
        simp only [List.zipWith_cons_cons, List.forall₂_cons, leafAt_node_cons]
        have hih := ih (as := as) (tls' := tls') (by simpa using hl)
        simp only [leafAt_node_cons] at hih
        exact and_congr (by simp) hih

/-- `r` is what mapping `fn` over the trees should give. -/
def MapsTo (fn : List α → Except Err β) (ts : List (Tree α)) (r : Tree β) : Prop :=
  (∀ t ∈ ts, SameStructure r t) ∧
  ∀ p as, LeavesAt ts p as → ∃ y, fn as = .ok y ∧ leafAt r p = some y

mutual
lemma run_spec (fn : List α → Except Err β) : ∀ (t : Tree α) (ts : List (Tree α)),
    (∀ u ∈ ts, SameStructure u t) →
    (∀ p as, LeavesAt (t :: ts) p as → ∃ y, fn as = .ok y) →
    check t ts = .ok () ∧ ∃ r, run fn t ts = .ok r ∧ SameStructure r t ∧
      ∀ p as, LeavesAt (t :: ts) p as → ∃ y, fn as = .ok y ∧ leafAt r p = some y
  | .leaf a, ts, hs, hfn => by
    obtain ⟨as, h1, h2⟩ := leavesOf_all rfl hs
    obtain ⟨y, hy⟩ := hfn [] (a :: as) (.cons rfl h2)
    refine ⟨by simp [check, h1], .leaf y, by simp [run, h1, hy], ?_, ?_⟩
    · intro p; cases p <;> simp [kindAt]
    · intro p as' h
      cases p with
      | nil =>
        cases h with
        | cons ha hb =>
          have e1 := (Option.some.inj ha)
          have e2 : ∀ {l l'}, LeavesAt ts [] l → LeavesAt ts [] l' → l = l' := by
            intro l l' h h'
            unfold LeavesAt at h h'
            clear * - h h'
            induction h generalizing l' with
            | nil => cases h'; rfl
            | cons ha _ ih =>
              cases h' with
              | cons hb h' => rw [ih h']; rw [ha] at hb; cases hb; rfl
          rw [← e1, ← e2 h2 hb]
          exact ⟨y, hy, rfl⟩
      | cons k p =>
        cases h with
        | cons ha _ => simp [leafAt] at ha
  | .node b cs, ts, hs, hfn => by
    obtain ⟨css, h1, h2, h3⟩ := childrenOf_all hs
    have hts : ts = css.map (.node b) := by
      clear * - h2
      induction h2 with
      | nil => rfl
      | cons ha _ ih => simp [ha, ih]
    subst hts
    obtain ⟨h4, ys, h5, h6, h7⟩ := runAll_spec fn b cs css h3 (fun p as h => hfn p as h)
    refine ⟨by simp [check, h1, h4], .node b ys, by simp [run, h1, h5], same_of_forall₂ h6, h7⟩
lemma runAll_spec (fn : List α → Except Err β) (b : Bool) : ∀ (cs : List (Tree α))
    (css : List (List (Tree α))),
    (∀ l ∈ css, List.Forall₂ SameStructure l cs) →
    (∀ p as, LeavesAt (.node b cs :: css.map (.node b)) p as → ∃ y, fn as = .ok y) →
    checkAll cs css = .ok () ∧ ∃ ys, runAll fn cs css = .ok ys ∧ List.Forall₂ SameStructure ys cs ∧
      ∀ p as, LeavesAt (.node b cs :: css.map (.node b)) p as →
        ∃ y, fn as = .ok y ∧ leafAt (.node b ys) p = some y
  | [], css, _, _ => by
    refine ⟨by simp [checkAll], [], by simp [runAll], .nil, ?_⟩
    intro p as h
    cases h with
    | cons ha _ =>
      cases p with
      | nil => simp [leafAt] at ha
      | cons k p => rw [leafAt_node_cons] at ha; simp at ha
  | c :: cs, css, hs, hfn => by
    obtain ⟨hs', tls, h1, h2, h3, h4, h5⟩ := unconsAll_all hs
    subst h2
    obtain ⟨g1, y, g2, g3, g4⟩ := run_spec fn c hs' h4
      (fun p as h => hfn (0 :: p) as ((leavesAt_cons_zip h3).2 h))
    obtain ⟨k1, ys, k2, k3, k4⟩ := runAll_spec fn b cs tls h5 (fun p as h => by
      cases p with
      | nil => cases h with | cons ha _ => simp [leafAt] at ha
      | cons k p => exact hfn ((k + 1) :: p) as ((leavesAt_succ_zip h3).2 h))
    refine ⟨by simp [checkAll, h1, g1, k1], y :: ys, by simp [runAll, h1, g2, k2], .cons g3 k3, ?_⟩
    intro p as h
    cases p with
    | nil => cases h with | cons ha _ => simp [leafAt] at ha
    | cons k p =>
      cases k with
      | zero =>
        obtain ⟨z, hz, hz'⟩ := g4 p as ((leavesAt_cons_zip h3).1 h)
        exact ⟨z, hz, by rw [leafAt_node_cons]; simpa using hz'⟩
      | succ k =>
        obtain ⟨z, hz, hz'⟩ := k4 (k :: p) as ((leavesAt_succ_zip h3).1 h)
        exact ⟨z, hz, by rw [leafAt_node_cons] at hz' ⊢; simpa using hz'⟩
end

/-- Mapping over trees of the same structure gives a tree of that structure whose leaf at each path
is the function of the leaves of the arguments at that path. -/
theorem map_structure (fn : List α → Except Err β) (t : Tree α) (ts : List (Tree α))
    (hs : ∀ u ∈ ts, SameStructure u t)
    (hfn : ∀ p as, LeavesAt (t :: ts) p as → ∃ y, fn as = .ok y) :
    ∃ r, call fn (t :: ts) = .ok r ∧ MapsTo fn (t :: ts) r := by
  obtain ⟨h1, r, h2, h3, h4⟩ := run_spec fn t ts hs hfn
  refine ⟨r, by simp [call, h1, h2], ?_, h4⟩
  intro u hu
  rcases List.mem_cons.1 hu with rfl | hu
  · exact h3
  · exact fun p => (h3 p).trans (hs u hu p).symm

/-! ## Mismatches -/

lemma childrenOf_some {b : Bool} {ts : List (Tree α)} {css : List (List (Tree α))}
    (h : childrenOf b ts = some css) : ts = css.map (.node b) := by
  induction ts generalizing css with
  | nil => simp [childrenOf] at h; simp [← h]
  | cons u ts ih =>
    cases u with
    | leaf a => simp [childrenOf] at h
    | node b' cs =>
      simp only [childrenOf] at h
      split_ifs at h with hb
      cases e : childrenOf b ts with
      | none => simp [e] at h
      | some l => simp [e] at h; subst hb; simp [← h, ih e]

lemma leavesOf_some {ts : List (Tree α)} {as : List α}
    (h : leavesOf ts = some as) : ts = as.map .leaf := by
  induction ts generalizing as with
  | nil => simp [leavesOf] at h; simp [← h]
  | cons u ts ih =>
    cases u with
    | node a => simp [leavesOf] at h
    | leaf b =>
      simp only [leavesOf] at h
      cases e : leavesOf ts with
      | none => simp [e] at h
      | some l => simp [e] at h; simp [← h, ih e]

lemma unconsAll_some {css : List (List (Tree α))} {hs : List (Tree α)} {tls : List (List (Tree α))}
    (h : unconsAll css = some (hs, tls)) :
    css = List.zipWith List.cons hs tls ∧ hs.length = tls.length := by
  induction css generalizing hs tls with
  | nil => simp [unconsAll] at h; simp [h]
  | cons l css ih =>
    cases l with
    | nil => simp [unconsAll] at h
    | cons c cs =>
      simp only [unconsAll] at h
      cases e : unconsAll css with
      | none => simp [e] at h
      | some p =>
        obtain ⟨a, b⟩ := p
        simp [e] at h
        obtain ⟨rfl, rfl⟩ := h
        obtain ⟨h1, h2⟩ := ih e
        exact ⟨by simp [← h1], by simp [h2]⟩

lemma unconsAll_none {css : List (List (Tree α))} (h : unconsAll css = none) : [] ∈ css := by
  induction css with
  | nil => simp [unconsAll] at h
  | cons l css ih =>
    cases l with
    | nil => simp
    | cons c cs =>
      simp only [unconsAll] at h
      cases e : unconsAll css with
      | none => simp [ih e]
      | some p => simp [e] at h

lemma mem_zip_cons {hs : List (Tree α)} {tls : List (List (Tree α))} (h : hs.length = tls.length) :
    (∀ u ∈ hs, ∃ l, u :: l ∈ List.zipWith List.cons hs tls) ∧
    (∀ l ∈ tls, ∃ u, u :: l ∈ List.zipWith List.cons hs tls) := by
  induction hs generalizing tls with
  | nil =>
    have : tls = [] := by simpa using h.symm
    subst this; simp
  | cons a hs ih =>
    cases tls with
    | nil => simp at h
    | cons l tls =>
      obtain ⟨h1, h2⟩ := ih (tls := tls) (by simpa using h)
      refine ⟨?_, ?_⟩
      · intro u hu
        rcases List.mem_cons.1 hu with rfl | hu
        · exact ⟨l, by simp⟩
        · obtain ⟨l', hl'⟩ := h1 u hu
          exact ⟨l', by simp [hl']⟩
      · intro u hu
        rcases List.mem_cons.1 hu with rfl | hu
        · exact ⟨a, by simp⟩
        · obtain ⟨l', hl'⟩ := h2 u hu
          exact ⟨l', by simp [hl']⟩

mutual
lemma check_ok : ∀ (t : Tree α) (ts : List (Tree α)) (p : List ℕ), check t ts = .ok () →
    (kindAt t p).isSome → (∀ u ∈ ts, (kindAt u p).isSome) → ∀ u ∈ ts, kindAt u p = kindAt t p
  | .leaf a, ts, p, hc, h1, h2 => by
    have hp : p = [] := by cases p with
      | nil => rfl
      | cons k p => simp [kindAt] at h1
    subst hp
    simp only [check] at hc
    cases e : leavesOf ts with
    | none => simp [e] at hc
    | some as =>
      intro u hu
      rw [leavesOf_some e] at hu
      obtain ⟨b, _, rfl⟩ := List.mem_map.1 hu
      simp [kindAt]
  | .node b cs, ts, p, hc, h1, h2 => by
    simp only [check] at hc
    cases e : childrenOf b ts with
    | none => simp [e] at hc
    | some css =>
      simp only [e] at hc
      have hts := childrenOf_some e
      subst hts
      intro u hu
      obtain ⟨l, hl, rfl⟩ := List.mem_map.1 hu
      cases p with
      | nil => simp [kindAt]
      | cons k p =>
        rw [kindAt_node_cons] at h1 ⊢
        rw [kindAt_node_cons]
        exact checkAll_ok cs css k p hc h1 (fun l hl => by
          have := h2 (.node b l) (List.mem_map.2 ⟨l, hl, rfl⟩)
          rwa [kindAt_node_cons] at this) l hl
lemma checkAll_ok : ∀ (cs : List (Tree α)) (css : List (List (Tree α))) (k : ℕ) (p : List ℕ),
    checkAll cs css = .ok () → ((cs[k]?).bind (kindAt · p)).isSome →
    (∀ l ∈ css, ((l[k]?).bind (kindAt · p)).isSome) →
    ∀ l ∈ css, (l[k]?).bind (kindAt · p) = (cs[k]?).bind (kindAt · p)
  | [], css, k, p, _, h1, _ => by simp at h1
  | c :: cs, css, k, p, hc, h1, h2 => by
    simp only [checkAll] at hc
    cases e : unconsAll css with
    | none =>
      have := h2 [] (unconsAll_none e)
      simp at this
    | some q =>
      obtain ⟨hs, tls⟩ := q
      obtain ⟨e1, e2⟩ := unconsAll_some e
      simp only [e] at hc
      cases e3 : check c hs with
      | error x => simp [e3] at hc
      | ok x =>
        simp only [e3] at hc
        obtain ⟨m1, m2⟩ := mem_zip_cons e2
        subst e1
        intro l hl
        obtain ⟨u, hu, l', hl', rfl⟩ : ∃ u ∈ hs, ∃ l' ∈ tls, l = u :: l' := by
          rw [List.zipWith_eq_zipWith_take_min, List.mem_iff_getElem] at hl
          obtain ⟨i, hi, rfl⟩ := hl
          simp only [List.length_zipWith, List.length_take] at hi
          refine ⟨hs[i]'(by omega), List.getElem_mem _, tls[i]'(by omega), List.getElem_mem _, ?_⟩
          simp
        cases k with
        | zero =>
          have := check_ok c hs p e3 (by simpa using h1) (fun v hv => by
            obtain ⟨l2, hl2⟩ := m1 v hv
            simpa using h2 _ hl2) u hu
          simpa using this
        | succ k =>
          have := checkAll_ok cs tls k p hc (by simpa using h1) (fun v hv => by
            obtain ⟨l2, hl2⟩ := m2 v hv
            simpa using h2 _ hl2) l' hl'
          simpa using this
end

mutual
lemma check_err : ∀ (t : Tree α) (ts : List (Tree α)) (e : Err), check t ts = .error e →
    e = .typeError
  | .leaf a, ts, e, h => by
    simp only [check] at h
    split at h <;> simp_all
  | .node b cs, ts, e, h => by
    simp only [check] at h
    split at h
    · exact checkAll_err cs _ e h
    · simp_all
lemma checkAll_err : ∀ (cs : List (Tree α)) (css : List (List (Tree α))) (e : Err),
    checkAll cs css = .error e → e = .typeError
  | [], _, e, h => by simp [checkAll] at h
  | c :: cs, css, e, h => by
    simp only [checkAll] at h
    split at h
    · simp at h
    · rename_i hs tls _
      split at h
      · exact checkAll_err cs tls e h
      · rename_i e' he'
        cases h
        exact check_err c hs _ he'
end

/-- Arguments which at some path common to all have nodes of different types (a list and a tuple, or
a leaf and a node) raise a `TypeError`, whatever the function. -/
theorem mismatch_raises (fn : List α → Except Err β) (t : Tree α) (ts : List (Tree α)) (p : List ℕ)
    (hp : ∀ u ∈ t :: ts, (kindAt u p).isSome) (u : Tree α) (hu : u ∈ ts)
    (hne : kindAt u p ≠ kindAt t p) : call fn (t :: ts) = .error .typeError := by
  simp only [call]
  cases e : check t ts with
  | ok x =>
    exact absurd (check_ok t ts p e (hp t (by simp)) (fun v hv => hp v (by simp [hv])) u hu) hne
  | error x => simp [check_err t ts x e]

/-! ## Composition -/

mutual
lemma run_comp (f : List α → Except Err β) (g : List β → Except Err γ) : ∀ (t : Tree α) (r : Tree β),
    run f t [] = .ok r →
    check r [] = .ok () ∧ run g r [] = run (fun l => (f l).bind fun y => g [y]) t []
  | .leaf a, r, h => by
    simp only [run, leavesOf] at h
    cases e : f [a] with
    | error x => simp [e] at h
    | ok y =>
      simp [e] at h
      subst h
      simp [check, run, leavesOf, e, Except.bind]
  | .node b cs, r, h => by
    simp only [run, childrenOf] at h
    cases e : runAll f cs [] with
    | error x => simp [e] at h
    | ok ys =>
      simp [e] at h
      subst h
      obtain ⟨h1, h2⟩ := runAll_comp f g cs ys e
      simp [check, run, childrenOf, h1, h2]
lemma runAll_comp (f : List α → Except Err β) (g : List β → Except Err γ) : ∀ (cs : List (Tree α))
    (ys : List (Tree β)), runAll f cs [] = .ok ys →
    checkAll ys [] = .ok () ∧ runAll g ys [] = runAll (fun l => (f l).bind fun y => g [y]) cs []
  | [], ys, h => by simp [runAll] at h; subst h; simp [checkAll, runAll]
  | c :: cs, ys, h => by
    simp only [runAll, unconsAll] at h
    cases e : run f c [] with
    | error x => simp [e] at h
    | ok y =>
      cases e2 : runAll f cs [] with
      | error x => simp [e, e2] at h
      | ok ys' =>
        simp [e, e2] at h
        subst h
        obtain ⟨h1, h2⟩ := run_comp f g c y e
        obtain ⟨h3, h4⟩ := runAll_comp f g cs ys' e2
        simp [checkAll, runAll, unconsAll, h1, h2, h3, h4]
end

mutual
lemma check_single : ∀ (t : Tree α), check t [] = .ok ()
  | .leaf a => by simp [check, leavesOf]
  | .node b cs => by simp [check, childrenOf, checkAll_single cs]
lemma checkAll_single : ∀ (cs : List (Tree α)), checkAll cs [] = .ok ()
  | [] => by simp [checkAll]
  | c :: cs => by simp [checkAll, unconsAll, check_single c, checkAll_single cs]
end

/-- Mapping `f` and then `g` over a tree is mapping their composition. -/
theorem map_comp (f : List α → Except Err β) (g : List β → Except Err γ) (t : Tree α) (r : Tree β)
    (h : call f [t] = .ok r) :
    call g [r] = call (fun l => (f l).bind fun y => g [y]) [t] := by
  simp only [call, check_single] at h ⊢
  exact (run_comp f g t r h).2

/-- What is *not* rejected: nodes of the same type but of different lengths are silently cut to the
shortest. -/
theorem lengths_not_checked : ∃ (t u : Tree ℕ) (r : Tree ℕ), ¬ SameStructure t u ∧
    call (fun l => .ok l.sum) [t, u] = .ok r := by
  refine ⟨.node true [.leaf 1, .leaf 2], .node true [.leaf 10], .node true [.leaf 11], ?_, rfl⟩
  intro h
  have := h [1]
  simp [kindAt, sub] at this

section Examples
/-- `[1, (2, 3)]` and `[10, (20, 30)]` -/
example : call (fun l => .ok l.sum)
    [.node true [.leaf 1, .node false [.leaf 2, .leaf 3]],
      .node true [.leaf 10, .node false [.leaf 20, .leaf 30]]] =
    .ok (.node true [.leaf 11, .node false [.leaf 22, .leaf 33]]) := rfl
example : SameStructure (.node true [.leaf 10, .node false [.leaf 20, .leaf 30]] : Tree ℕ)
    (.node true [.leaf 1, .node false [.leaf 2, .leaf 3]] : Tree ℕ) := by
  refine same_of_forall₂ (.cons ?_ (.cons (same_of_forall₂ (.cons ?_ (.cons ?_ .nil))) .nil)) <;>
  · intro p; cases p <;> simp [kindAt]
/-- A list against a tuple. -/
example : call (β := ℕ) (fun l => .ok l.sum) [.node true [.leaf 1], .node false [.leaf 1]] =
    .error .typeError := rfl
end Examples

end NT.C17
