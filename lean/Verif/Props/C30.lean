import Verif.Lemmas.Combinators
import Verif.Props.C31

/-!
# C30: the diagonal-only layout never loses information
-/

namespace NT.C30
open NT NT.Comb

variable {K D : Type}

mutual
/-- All kernels of a tree have a property. -/
def AllLeaves {A : Type} (p : A → Prop) : Tree A → Prop
  | .leaf a => p a
  | .node _ ts => AllLeavesList p ts
/-- All kernels of a list of trees. -/
def AllLeavesList {A : Type} (p : A → Prop) : List (Tree A) → Prop
  | [] => True
  | t :: ts => AllLeaves p t ∧ AllLeavesList p ts
end

/-- How the two spatial layouts are related: `K` are kernels with all entries, `D` kernels with the
entries of equal positions only, `diag` selects these.  `offZero` says that the other entries are zero,
`flat` that there are no spatial positions left. -/
structure Layouts (K D : Type) where
  diag : K → D
  offZero : K → Prop
  flat : K → Prop
  flat_offZero : ∀ k, flat k → offZero k

/-- A layer with its declared requirement and its kernel function in both layouts. -/
structure LayerL (K D : Type) where
  req : Req
  full : Tree K → Except Err (Tree K)
  only : Tree D → Except Err (Tree D)

/-- The diagonal-only kernel function agrees with the full one on `k`. -/
def Agrees (S : Layouts K D) (l : LayerL K D) (k : Tree K) : Prop :=
  ∀ k', l.full k = .ok k' → l.only (treeMap S.diag k) = .ok (treeMap S.diag k')

/-- The layer meets the requirement `d`, as documented in the class `Diagonal`. -/
structure Meets (S : Layouts K D) (l : LayerL K D) (d : Diagonal) : Prop where
  input_yes : d.input = .yes → ∀ k, Agrees S l k
  input_maybe : d.input = .maybe → ∀ k, AllLeaves S.offZero k → Agrees S l k
  output_maybe : d.output = .maybe → ∀ k k', l.full k = .ok k' → AllLeaves S.offZero k'
  output_yes : d.output = .yes → ∀ k k', l.full k = .ok k' → AllLeaves S.flat k'
  flat : ∀ k, AllLeaves S.flat k → Agrees S l k ∧ ∀ k', l.full k = .ok k' → AllLeaves S.flat k'

/-- What is expected of a layer that declares no requirement (`Identity`, `FanOut`, `FanInSum`, ...): it
acts on each pair of positions separately and keeps zeros. -/
structure Neutral (S : Layouts K D) (l : LayerL K D) : Prop where
  agrees : ∀ k, Agrees S l k
  offZero : ∀ k, AllLeaves S.offZero k → ∀ k', l.full k = .ok k' → AllLeaves S.offZero k'
  flat : ∀ k, AllLeaves S.flat k → ∀ k', l.full k = .ok k' → AllLeaves S.flat k'

/-- The layer is what it declares to be. -/
def Honest (S : Layouts K D) (l : LayerL K D) : Prop :=
  match l.req.diagonalSpatial with
  | some d => Meets S l d
  | none => Neutral S l

/-- `serial` of layers, in both layouts. -/
def serialL (ls : List (LayerL K D)) (r : Req) : LayerL K D :=
  ⟨r, runAll (ls.map (·.full)), runAll (ls.map (·.only))⟩

/-- `parallel` of layers, in both layouts. -/
def parallelL (ls : List (LayerL K D)) (r : Req) : LayerL K D :=
  ⟨r, onBranches (zipRun (ls.map (·.full))), onBranches (zipRun (ls.map (·.only)))⟩

/-- Networks built of the given layers by `serial` and `parallel` in any nesting, with the requirements
computed as in `combinators.py`.  In each `parallel` all branches declare a layout requirement or none
does. -/
inductive Built (prim : LayerL K D → Prop) : LayerL K D → Prop
  | layer (l : LayerL K D) : prim l → Built prim l
  | serial (ls : List (LayerL K D)) (r : Req) : (∀ l ∈ ls, Built prim l) → ls ≠ [] →
      Req.combine false (ls.map (·.req)) = .ok r → Built prim (serialL ls r)
  | parallel (ls : List (LayerL K D)) (r : Req) : (∀ l ∈ ls, Built prim l) → ls ≠ [] →
      Req.combine true (ls.map (·.req)) = .ok r →
      ((∀ l ∈ ls, l.req.diagonalSpatial ≠ none) ∨ (∀ l ∈ ls, l.req.diagonalSpatial = none)) →
      Built prim (parallelL ls r)

/-! ## Composition of two layers -/

/-- `m` after `l`. -/
def comp (l m : LayerL K D) (r : Req) : LayerL K D :=
  ⟨r, fun k => (l.full k).bind m.full, fun k => (l.only k).bind m.only⟩

lemma bind_ok {A B : Type} {x : Except Err A} {f : A → Except Err B} {b : B} :
    x.bind f = .ok b ↔ ∃ a, x = .ok a ∧ f a = .ok b := by
  cases x <;> simp [Except.bind]

lemma agrees_comp {S : Layouts K D} {l m : LayerL K D} {r : Req} {k : Tree K} (h1 : Agrees S l k)
    (h2 : ∀ k1, l.full k = .ok k1 → Agrees S m k1) : Agrees S (comp l m r) k := by
  intro k' h
  obtain ⟨k1, e1, e2⟩ := bind_ok.1 h
  exact bind_ok.2 ⟨_, h1 k1 e1, h2 k1 e1 k' e2⟩

mutual
lemma allLeaves_mono {A : Type} {p q : A → Prop} (h : ∀ a, p a → q a) : ∀ t : Tree A, AllLeaves p t → AllLeaves q t
  | .leaf a, ht => h a ht
  | .node _ ts, ht => by
    simp only [AllLeaves] at ht ⊢
    exact allLeavesList_mono h ts ht
lemma allLeavesList_mono {A : Type} {p q : A → Prop} (h : ∀ a, p a → q a) :
    ∀ ts : List (Tree A), AllLeavesList p ts → AllLeavesList q ts
  | [], _ => trivial
  | t :: ts, ht => ⟨allLeaves_mono h t ht.1, allLeavesList_mono h ts ht.2⟩
end

lemma meets_comp {S : Layouts K D} {l m : LayerL K D} {r : Req} {d e : Diagonal} (hl : Meets S l d)
    (hm : Meets S m e) : Meets S (comp l m r) (d.seq e) := by
  have hflat : ∀ k, AllLeaves S.flat k → Agrees S (comp l m r) k ∧
      ∀ k', (comp l m r).full k = .ok k' → AllLeaves S.flat k' := by
    intro k hk
    obtain ⟨h1, h2⟩ := hl.flat k hk
    refine ⟨agrees_comp h1 fun k1 e1 => (hm.flat k1 (h2 k1 e1)).1, ?_⟩
    intro k' h
    obtain ⟨k1, e1, e2⟩ := bind_ok.1 h
    exact (hm.flat k1 (h2 k1 e1)).2 k' e2
  have hoff : ∀ k, AllLeaves S.flat k → AllLeaves S.offZero k := fun k => allLeaves_mono S.flat_offZero k
  by_cases hd : d.output = .yes
  · rw [C29.seq_yes d e hd]
    have hm1 : ∀ k k1, l.full k = .ok k1 → AllLeaves S.flat k1 := hl.output_yes hd
    have hout : ∀ k k', (comp l m r).full k = .ok k' → AllLeaves S.flat k' := by
      intro k k' h
      obtain ⟨k1, e1, e2⟩ := bind_ok.1 h
      exact (hm.flat k1 (hm1 k k1 e1)).2 k' e2
    exact {
      input_yes := fun h k => agrees_comp (hl.input_yes h k) fun k1 e1 => (hm.flat k1 (hm1 k k1 e1)).1
      input_maybe := fun h k hk =>
        agrees_comp (hl.input_maybe h k hk) fun k1 e1 => (hm.flat k1 (hm1 k k1 e1)).1
      output_maybe := fun _ k k' h => hoff k' (hout k k' h)
      output_yes := fun _ k k' h => hout k k' h
      flat := hflat }
  · have hseq : (d.seq e).output = e.output := by
      simp [Diagonal.seq, hd]
    -- the second layer agrees on what the first one makes of `k`
    have hmid : (d.seq e).input ≠ .no → (d.seq e).input = d.input ∧
        ∀ k k1, l.full k = .ok k1 → Agrees S m k1 := by
      obtain ⟨di, dO⟩ := d
      obtain ⟨ei, eO⟩ := e
      intro hne
      cases dO with
      | yes => exact absurd rfl hd
      | no =>
        cases ei with
        | no => cases di <;> simp [Diagonal.seq, Tri.val] at hne
        | maybe => cases di <;> simp [Diagonal.seq, Tri.val] at hne
        | yes => exact ⟨by cases di <;> rfl, fun k k1 _ => hm.input_yes rfl k1⟩
      | maybe =>
        cases ei with
        | no => cases di <;> simp [Diagonal.seq, Tri.val, Tri.and] at hne
        | maybe =>
          exact ⟨by cases di <;> rfl, fun k k1 e1 => hm.input_maybe rfl k1 (hl.output_maybe rfl k k1 e1)⟩
        | yes => exact ⟨by cases di <;> rfl, fun k k1 _ => hm.input_yes rfl k1⟩
    exact {
      input_yes := fun h k => by
        obtain ⟨h1, h2⟩ := hmid (by rw [h]; decide)
        exact agrees_comp (hl.input_yes (by rw [← h1, h]) k) (h2 k)
      input_maybe := fun h k hk => by
        obtain ⟨h1, h2⟩ := hmid (by rw [h]; decide)
        exact agrees_comp (hl.input_maybe (by rw [← h1, h]) k hk) (h2 k)
      output_maybe := fun h k k' hk => by
        obtain ⟨k1, e1, e2⟩ := bind_ok.1 hk
        exact hm.output_maybe (by rw [← hseq, h]) k1 k' e2
      output_yes := fun h k k' hk => by
        obtain ⟨k1, e1, e2⟩ := bind_ok.1 hk
        exact hm.output_yes (by rw [← hseq, h]) k1 k' e2
      flat := hflat }

lemma meets_neutral {S : Layouts K D} {l m : LayerL K D} {r : Req} {d : Diagonal} (hl : Meets S l d)
    (hm : Neutral S m) : Meets S (comp l m r) d where
  input_yes h k := agrees_comp (hl.input_yes h k) fun k1 _ => hm.agrees k1
  input_maybe h k hk := agrees_comp (hl.input_maybe h k hk) fun k1 _ => hm.agrees k1
  output_maybe h k k' hk := by
    obtain ⟨k1, e1, e2⟩ := bind_ok.1 hk
    exact hm.offZero k1 (hl.output_maybe h k k1 e1) k' e2
  output_yes h k k' hk := by
    obtain ⟨k1, e1, e2⟩ := bind_ok.1 hk
    exact hm.flat k1 (hl.output_yes h k k1 e1) k' e2
  flat k hk := by
    obtain ⟨h1, h2⟩ := hl.flat k hk
    refine ⟨agrees_comp h1 fun k1 _ => hm.agrees k1, fun k' hk' => ?_⟩
    obtain ⟨k1, e1, e2⟩ := bind_ok.1 hk'
    exact hm.flat k1 (h2 k1 e1) k' e2

lemma neutral_meets {S : Layouts K D} {l m : LayerL K D} {r : Req} {d : Diagonal} (hl : Neutral S l)
    (hm : Meets S m d) : Meets S (comp l m r) d where
  input_yes h k := agrees_comp (hl.agrees k) fun k1 _ => hm.input_yes h k1
  input_maybe h k hk := agrees_comp (hl.agrees k) fun k1 e1 => hm.input_maybe h k1 (hl.offZero k hk k1 e1)
  output_maybe h k k' hk := by
    obtain ⟨k1, e1, e2⟩ := bind_ok.1 hk
    exact hm.output_maybe h k1 k' e2
  output_yes h k k' hk := by
    obtain ⟨k1, e1, e2⟩ := bind_ok.1 hk
    exact hm.output_yes h k1 k' e2
  flat k hk := by
    refine ⟨agrees_comp (hl.agrees k) fun k1 e1 => (hm.flat k1 (hl.flat k hk k1 e1)).1, fun k' hk' => ?_⟩
    obtain ⟨k1, e1, e2⟩ := bind_ok.1 hk'
    exact (hm.flat k1 (hl.flat k hk k1 e1)).2 k' e2

lemma neutral_neutral {S : Layouts K D} {l m : LayerL K D} {r : Req} (hl : Neutral S l)
    (hm : Neutral S m) : Neutral S (comp l m r) where
  agrees k := agrees_comp (hl.agrees k) fun k1 _ => hm.agrees k1
  offZero k hk k' hk' := by
    obtain ⟨k1, e1, e2⟩ := bind_ok.1 hk'
    exact hm.offZero k1 (hl.offZero k hk k1 e1) k' e2
  flat k hk k' hk' := by
    obtain ⟨k1, e1, e2⟩ := bind_ok.1 hk'
    exact hm.flat k1 (hl.flat k hk k1 e1) k' e2

/-! ## Chains -/

lemma honest_comp {S : Layouts K D} {l m : LayerL K D} {r : Req} (hl : Honest S l) (hm : Honest S m)
    (hr : r.diagonalSpatial = Req.foldKey Diagonal.seq l.req.diagonalSpatial m.req.diagonalSpatial) :
    Honest S (comp l m r) := by
  unfold Honest at hl hm ⊢
  simp only [comp, hr]
  cases h1 : l.req.diagonalSpatial with
  | none =>
    simp only [h1] at hl
    cases h2 : m.req.diagonalSpatial with
    | none =>
      simp only [h2] at hm
      exact neutral_neutral hl hm
    | some e =>
      simp only [h2] at hm
      exact neutral_meets hl hm
  | some d =>
    simp only [h1] at hl
    cases h2 : m.req.diagonalSpatial with
    | none =>
      simp only [h2] at hm
      exact meets_neutral hl hm
    | some e =>
      simp only [h2] at hm
      exact meets_comp hl hm

lemma add_spatial {p : Bool} {a b r : Req} (h : Req.add p a b = .ok r) :
    r.diagonalSpatial = Req.foldKey (if p then Diagonal.par else Diagonal.seq) a.diagonalSpatial
      b.diagonalSpatial := by
  unfold Req.add at h
  split at h
  · simp at h
  · split at h
    · simp at h
    · simp only [Except.ok.injEq] at h
      rw [← h]

lemma honest_congr {S : Layouts K D} {l m : LayerL K D} (h : l.full = m.full) (h' : l.only = m.only)
    (hr : l.req.diagonalSpatial = m.req.diagonalSpatial) (hl : Honest S l) : Honest S m := by
  obtain ⟨lr, lf, lo⟩ := l
  obtain ⟨mr, mf, mo⟩ := m
  simp only at h h' hr
  subst h h'
  unfold Honest at hl ⊢
  simp only [← hr]
  simp only at hl
  cases hh : lr.diagonalSpatial with
  | none =>
    simp only [hh] at hl
    exact ⟨hl.agrees, hl.offZero, hl.flat⟩
  | some d =>
    simp only [hh] at hl
    exact ⟨hl.input_yes, hl.input_maybe, hl.output_maybe, hl.output_yes, hl.flat⟩

lemma honest_chain {S : Layouts K D} (ls : List (LayerL K D)) (l0 : LayerL K D) (h0 : Honest S l0)
    (h : ∀ l ∈ ls, Honest S l) (r : Req)
    (hr : Req.combineFrom false l0.req (ls.map (·.req)) = .ok r) :
    Honest S ⟨r, fun k => (l0.full k).bind (runAll (ls.map (·.full))),
      fun k => (l0.only k).bind (runAll (ls.map (·.only)))⟩ := by
  induction ls generalizing l0 with
  | nil =>
    simp only [List.map_nil, Req.combineFrom, Except.ok.injEq] at hr
    subst hr
    refine honest_congr (l := l0) ?_ ?_ rfl h0
    · funext k
      cases h : l0.full k <;> simp [Except.bind, runAll, h]
    · funext k
      cases h : l0.only k <;> simp [Except.bind, runAll, h]
  | cons l ls ih =>
    simp only [List.map_cons, Req.combineFrom] at hr
    cases ha : Req.add false l0.req l.req with
    | error e => simp [ha] at hr
    | ok r1 =>
      simp only [ha] at hr
      have h1 : Honest S (comp l0 l r1) :=
        honest_comp h0 (h l (by simp)) (by simpa using add_spatial ha)
      have h2 := ih (comp l0 l r1) h1 (fun l hl => h l (by simp [hl])) hr
      refine honest_congr ?_ ?_ ?_ h2
      · funext k
        simp only [comp, List.map_cons]
        cases l0.full k with
        | error e => rfl
        | ok k1 =>
          simp only [Except.bind, runAll]
          cases l.full k1 <;> rfl
      · funext k
        simp only [comp, List.map_cons]
        cases l0.only k with
        | error e => rfl
        | ok k1 =>
          simp only [Except.bind, runAll]
          cases l.only k1 <;> rfl
      · rfl

/-- The identity is neutral. -/
lemma neutral_id (S : Layouts K D) (r : Req) : Neutral S ⟨r, .ok, .ok⟩ where
  agrees k k' h := by
    simp only [Except.ok.injEq] at h
    subst h
    rfl
  offZero k hk k' h := by
    simp only [Except.ok.injEq] at h
    subst h
    exact hk
  flat k hk k' h := by
    simp only [Except.ok.injEq] at h
    subst h
    exact hk

lemma honest_serial {S : Layouts K D} (ls : List (LayerL K D)) (h : ∀ l ∈ ls, Honest S l) (r : Req)
    (hr : Req.combine false (ls.map (·.req)) = .ok r) : Honest S (serialL ls r) := by
  have h0 : Honest S (⟨{}, .ok, .ok⟩ : LayerL K D) := neutral_id S {}
  exact honest_congr rfl rfl rfl (honest_chain ls _ h0 h r hr)

/-! ## Branches -/

lemma zipRun_ok_cons {A : Type} {f : A → Except Err A} {fs : List (A → Except Err A)} {a : A} {as bs : List A} :
    zipRun (f :: fs) (a :: as) = .ok bs ↔ ∃ b bs', f a = .ok b ∧ zipRun fs as = .ok bs' ∧ bs = b :: bs' := by
  simp only [zipRun]
  cases f a with
  | error e => simp
  | ok b =>
    cases zipRun fs as with
    | error e => simp
    | ok bs' => simp [eq_comm]

lemma agrees_branches {S : Layouts K D} (ls : List (LayerL K D)) (ts : List (Tree K))
    (Q : Tree K → Prop) (hQ' : ∀ t ∈ ts, Q t)
    (h : ∀ l ∈ ls, ∀ t, Q t → Agrees S l t) (ts' : List (Tree K))
    (hz : zipRun (ls.map (·.full)) ts = .ok ts') :
    zipRun (ls.map (·.only)) (treeMapList S.diag ts) = .ok (treeMapList S.diag ts') := by
  induction ls generalizing ts ts' with
  | nil =>
    simp only [List.map_nil, zipRun, Except.ok.injEq] at hz
    subst hz
    simp [zipRun, treeMapList]
  | cons l ls ih =>
    cases ts with
    | nil =>
      simp only [List.map_cons, zipRun, Except.ok.injEq] at hz
      subst hz
      simp [zipRun, treeMapList]
    | cons t ts =>
      simp only [List.map_cons] at hz ⊢
      obtain ⟨b, bs', e1, e2, rfl⟩ := zipRun_ok_cons.1 hz
      simp only [treeMapList]
      exact zipRun_ok_cons.2 ⟨_, _, h l (by simp) t (hQ' t (by simp)) b e1,
        ih ts (fun t ht => hQ' t (by simp [ht])) (fun l hl => h l (by simp [hl])) bs' e2, rfl⟩

lemma allLeaves_branches (p : K → Prop) (ls : List (LayerL K D)) (ts : List (Tree K))
    (h : ∀ l ∈ ls, ∀ t ∈ ts, ∀ t', l.full t = .ok t' → AllLeaves p t') (ts' : List (Tree K))
    (hz : zipRun (ls.map (·.full)) ts = .ok ts') : AllLeavesList p ts' := by
  induction ls generalizing ts ts' with
  | nil =>
    simp only [List.map_nil, zipRun, Except.ok.injEq] at hz
    subst hz
    trivial
  | cons l ls ih =>
    cases ts with
    | nil =>
      simp only [List.map_cons, zipRun, Except.ok.injEq] at hz
      subst hz
      trivial
    | cons t ts =>
      simp only [List.map_cons] at hz
      obtain ⟨b, bs', e1, e2, rfl⟩ := zipRun_ok_cons.1 hz
      exact ⟨h l (by simp) t (by simp) b e1,
        ih ts (fun l hl t ht => h l (by simp [hl]) t (by simp [ht])) bs' e2⟩

lemma allLeavesList_mem {A : Type} {p : A → Prop} {ts : List (Tree A)} (h : AllLeavesList p ts) :
    ∀ t ∈ ts, AllLeaves p t := by
  induction ts with
  | nil => simp
  | cons t ts ih =>
    intro u hu
    rcases List.mem_cons.1 hu with rfl | hu
    · exact h.1
    · exact ih h.2 u hu

lemma onBranches_agrees {S : Layouts K D} (ls : List (LayerL K D)) (r : Req) (k : Tree K)
    (Q : Tree K → Prop) (hQ : ∀ b ts, k = .node b ts → ∀ t ∈ ts, Q t)
    (h : ∀ l ∈ ls, ∀ t, Q t → Agrees S l t) : Agrees S (parallelL ls r) k := by
  intro k' hk
  cases k with
  | leaf a => simp [parallelL, onBranches] at hk
  | node b ts =>
    simp only [parallelL, onBranches] at hk ⊢
    cases hz : zipRun (ls.map (·.full)) ts with
    | error e => simp [hz, Except.map] at hk
    | ok ts' =>
      simp only [hz, Except.map, Except.ok.injEq] at hk
      subst hk
      simp only [treeMap, agrees_branches ls ts Q (hQ b ts rfl) h ts' hz, Except.map]

lemma onBranches_all (p : K → Prop) (ls : List (LayerL K D)) (r : Req) (k k' : Tree K)
    (h : ∀ l ∈ ls, ∀ b ts, k = .node b ts → ∀ t ∈ ts, ∀ t', l.full t = .ok t' → AllLeaves p t')
    (hk : (parallelL ls r).full k = .ok k') : AllLeaves p k' := by
  cases k with
  | leaf a => simp [parallelL, onBranches] at hk
  | node b ts =>
    simp only [parallelL, onBranches] at hk
    cases hz : zipRun (ls.map (·.full)) ts with
    | error e => simp [hz, Except.map] at hk
    | ok ts' =>
      simp only [hz, Except.map, Except.ok.injEq] at hk
      subst hk
      exact allLeaves_branches p ls ts (fun l hl t ht t' => h l hl b ts rfl t ht t') ts' hz

lemma neutral_parallel {S : Layouts K D} (ls : List (LayerL K D)) (r : Req)
    (h : ∀ l ∈ ls, Neutral S l) : Neutral S (parallelL ls r) where
  agrees k := onBranches_agrees ls r k (fun _ => True) (fun _ _ _ _ _ => trivial)
    (fun l hl t _ => (h l hl).agrees t)
  offZero k hk k' hk' := onBranches_all _ ls r k k' (by
    rintro l hl b ts rfl t ht t' e
    exact (h l hl).offZero t (allLeavesList_mem hk t ht) t' e) hk'
  flat k hk k' hk' := onBranches_all _ ls r k k' (by
    rintro l hl b ts rfl t ht t' e
    exact (h l hl).flat t (allLeavesList_mem hk t ht) t' e) hk'

lemma tri_and_yes {a b : Tri} : a.and b = .yes ↔ a = .yes ∧ b = .yes := by
  cases a <;> cases b <;> simp [Tri.and, Tri.val]

lemma tri_and_no {a b : Tri} : a.and b = .no ↔ a = .no ∨ b = .no := by
  cases a <;> cases b <;> simp [Tri.and, Tri.val]

lemma meets_parallel {S : Layouts K D} (ls : List (LayerL K D)) (r : Req) (dOf : LayerL K D → Diagonal)
    (h : ∀ l ∈ ls, Meets S l (dOf l)) (d : Diagonal)
    (hi : d.input ≠ .no → ∀ l ∈ ls, (dOf l).input ≠ .no)
    (hiy : d.input = .yes → ∀ l ∈ ls, (dOf l).input = .yes)
    (ho : d.output ≠ .no → ∀ l ∈ ls, (dOf l).output ≠ .no)
    (hoy : d.output = .yes → ∀ l ∈ ls, (dOf l).output = .yes) : Meets S (parallelL ls r) d where
  input_yes e k := onBranches_agrees ls r k (fun _ => True) (fun _ _ _ _ _ => trivial)
    (fun l hl t _ => (h l hl).input_yes (hiy e l hl) t)
  input_maybe e k hk := onBranches_agrees ls r k (AllLeaves S.offZero)
    (by rintro b ts rfl t ht; exact allLeavesList_mem hk t ht)
    (fun l hl t ht => by
      have h1 := hi (by rw [e]; decide) l hl
      cases h2 : (dOf l).input with
      | no => exact absurd h2 h1
      | maybe => exact (h l hl).input_maybe h2 t ht
      | yes => exact (h l hl).input_yes h2 t)
  output_maybe e k k' hk' := onBranches_all _ ls r k k' (by
    rintro l hl b ts rfl t ht t' e'
    have h1 := ho (by rw [e]; decide) l hl
    cases h2 : (dOf l).output with
    | no => exact absurd h2 h1
    | maybe => exact (h l hl).output_maybe h2 t t' e'
    | yes => exact allLeaves_mono S.flat_offZero t' ((h l hl).output_yes h2 t t' e')) hk'
  output_yes e k k' hk' := onBranches_all _ ls r k k' (by
    rintro l hl b ts rfl t ht t' e'
    exact (h l hl).output_yes (hoy e l hl) t t' e') hk'
  flat k hk := ⟨onBranches_agrees ls r k (AllLeaves S.flat)
      (by rintro b ts rfl t ht; exact allLeavesList_mem hk t ht)
      (fun l hl t ht => ((h l hl).flat t ht).1), fun k' hk' => onBranches_all _ ls r k k' (by
        rintro l hl b ts rfl t ht t' e'
        exact ((h l hl).flat t (allLeavesList_mem hk t ht)).2 t' e') hk'⟩

lemma foldl_par (ds : List Diagonal) (d : Diagonal) :
    ((ds.foldl Diagonal.par d).input = .no ↔ ∃ e ∈ d :: ds, e.input = .no) ∧
    ((ds.foldl Diagonal.par d).input = .yes ↔ ∀ e ∈ d :: ds, e.input = .yes) ∧
    ((ds.foldl Diagonal.par d).output = .no ↔ ∃ e ∈ d :: ds, e.output = .no) ∧
    ((ds.foldl Diagonal.par d).output = .yes ↔ ∀ e ∈ d :: ds, e.output = .yes) := by
  induction ds generalizing d with
  | nil => simp
  | cons e ds ih =>
    obtain ⟨h1, h2, h3, h4⟩ := ih (d.par e)
    simp only [List.foldl_cons, h1, h2, h3, h4]
    simp only [List.mem_cons, exists_eq_or_imp, forall_eq_or_imp,
      Diagonal.par, tri_and_yes, tri_and_no]
    refine ⟨?_, ?_, ?_, ?_⟩ <;> tauto

lemma honest_parallel {S : Layouts K D} (ls : List (LayerL K D)) (hne : ls ≠ [])
    (h : ∀ l ∈ ls, Honest S l) (r : Req) (hr : Req.combine true (ls.map (·.req)) = .ok r)
    (hall : (∀ l ∈ ls, l.req.diagonalSpatial ≠ none) ∨ (∀ l ∈ ls, l.req.diagonalSpatial = none)) :
    Honest S (parallelL ls r) := by
  have hd := (C31.parallel_req _ r hr).1
  rcases hall with hall | hall
  · have hm : ∀ l ∈ ls, Meets S l (l.req.diagonalSpatial.getD {}) := by
      intro l hl
      have h1 := h l hl
      unfold Honest at h1
      cases h2 : l.req.diagonalSpatial with
      | none => exact absurd h2 (hall l hl)
      | some d =>
        simp only [h2] at h1
        simpa using h1
    have hf : (ls.map (·.req)).filterMap (·.diagonalSpatial) =
        ls.map fun l => l.req.diagonalSpatial.getD {} := by
      clear hne h hr hd hm
      induction ls with
      | nil => rfl
      | cons l ls ih =>
        have h1 := hall l (by simp)
        cases h2 : l.req.diagonalSpatial with
        | none => exact absurd h2 h1
        | some d => simp [h2, ih (fun l hl => hall l (by simp [hl]))]
    rw [hf] at hd
    cases ls with
    | nil => exact absurd rfl hne
    | cons l ls =>
      simp only [List.map_cons, C31.reduce] at hd
      unfold Honest
      simp only [parallelL, hd]
      obtain ⟨h1, h2, h3, h4⟩ := foldl_par (ls.map fun l => l.req.diagonalSpatial.getD {})
        (l.req.diagonalSpatial.getD {})
      have mem : ∀ m ∈ l :: ls, m.req.diagonalSpatial.getD {} ∈ l.req.diagonalSpatial.getD {} ::
          ls.map fun l => l.req.diagonalSpatial.getD {} := fun m hm =>
        List.mem_map_of_mem (f := fun l : LayerL K D => l.req.diagonalSpatial.getD {}) hm
      refine meets_parallel (l :: ls) r (fun l => l.req.diagonalSpatial.getD {}) hm _ ?_ ?_ ?_ ?_
      · intro hno m hm hmn
        exact hno (h1.2 ⟨_, mem m hm, hmn⟩)
      · intro hy m hm
        exact h2.1 hy _ (mem m hm)
      · intro hno m hm hmn
        exact hno (h3.2 ⟨_, mem m hm, hmn⟩)
      · intro hy m hm
        exact h4.1 hy _ (mem m hm)
  · have hf : (ls.map (·.req)).filterMap (·.diagonalSpatial) = [] := by
      rw [List.filterMap_eq_nil_iff]
      intro q hq
      obtain ⟨l, hl, rfl⟩ := List.mem_map.1 hq
      exact hall l hl
    rw [hf] at hd
    simp only [C31.reduce] at hd
    unfold Honest
    simp only [parallelL, hd]
    refine neutral_parallel ls r fun l hl => ?_
    have h1 := h l hl
    unfold Honest at h1
    rw [hall l hl] at h1
    exact h1

/-- A network built of layers that are what they declare to be is itself what its combined requirement
says. -/
theorem built_honest_partial {S : Layouts K D} {prim : LayerL K D → Prop} (hprim : ∀ l, prim l → Honest S l)
    {net : LayerL K D} (hnet : Built prim net) : Honest S net := by
  induction hnet with
  | layer l h => exact hprim l h
  | serial ls r _ _ hr ih => exact honest_serial ls ih r hr
  | parallel ls r _ hne hr hall ih => exact honest_parallel ls hne ih r hr hall

/-- If the combined requirement of a network selects the diagonal-only layout, then running the network
in that layout gives exactly the entries of equal positions of the run in the full layout, and the
remaining entries of the full result are zero: nothing is lost.

The full statement would have no condition on the branches of `parallel` (see `Built`); it is false
without it (`skip_branch_wrong`). -/
theorem diagonal_run_exact_partial {S : Layouts K D} {prim : LayerL K D → Prop}
    (hprim : ∀ l, prim l → Honest S l) {net : LayerL K D} (hnet : Built prim net) (d : Diagonal)
    (hd : net.req.diagonalSpatial = some d) (hb : d.toBool = true) (k k' : Tree K)
    (hk : net.full k = .ok k') :
    net.only (treeMap S.diag k) = .ok (treeMap S.diag k') ∧ AllLeaves S.offZero k' := by
  have h := built_honest_partial hprim hnet
  unfold Honest at h
  simp only [hd] at h
  simp only [Diagonal.toBool, Bool.and_eq_true, decide_eq_true_eq] at hb
  refine ⟨h.input_yes hb.1 k k' hk, ?_⟩
  cases ho : d.output with
  | no => simp [ho] at hb
  | maybe => exact h.output_maybe ho k k' hk
  | yes => exact allLeaves_mono S.flat_offZero k' (h.output_yes ho k k' hk)

/-! ### Examples

Kernels of one pair of inputs: a number of positions and a matrix of covariances (zero outside). -/

/-- `n` positions and the covariances of pairs of positions. -/
structure Mat where
  n : ℕ
  e : ℕ → ℕ → ℤ

/-- `n` positions and their variances. -/
structure Vec where
  n : ℕ
  e : ℕ → ℤ

/-- Matrices and their diagonals. -/
def mats : Layouts Mat Vec where
  diag k := ⟨k.n, fun i => k.e i i⟩
  offZero k := ∀ i j, i ≠ j → k.e i j = 0
  flat k := k.n = 1 ∧ ∀ i j, i ≠ j → k.e i j = 0
  flat_offZero _ h := h.2

/-- A layer on single kernels. -/
def single (d : Option Diagonal) (f : Mat → Mat) (g : Vec → Vec) : LayerL Mat Vec where
  req := { diagonalSpatial := d }
  full t := match t with
    | .leaf k => .ok (.leaf (f k))
    | .node _ _ => .error .typeError
  only t := match t with
    | .leaf k => .ok (.leaf (g k))
    | .node _ _ => .error .typeError

/-- `Dense`: scale and bias each entry. -/
def denseL : LayerL Mat Vec := single (some {})
  (fun k => ⟨k.n, fun i j => if i < k.n ∧ j < k.n then 2 * k.e i j + 1 else 0⟩)
  (fun v => ⟨v.n, fun i => if i < v.n then 2 * v.e i + 1 else 0⟩)

/-- `ConvLocal` with a filter of size 1: different positions become independent. -/
def convLocalL : LayerL Mat Vec := single (some { output := .maybe })
  (fun k => ⟨k.n, fun i j => if i = j ∧ i < k.n then 2 * k.e i j + 1 else 0⟩)
  (fun v => ⟨v.n, fun i => if i < v.n then 2 * v.e i + 1 else 0⟩)

/-- `GlobalSumPool`. -/
def globalPoolL : LayerL Mat Vec := single (some ⟨.maybe, .yes⟩)
  (fun k => ⟨1, fun i j => if i = 0 ∧ j = 0 then ∑ a ∈ Finset.range k.n, ∑ b ∈ Finset.range k.n, k.e a b else 0⟩)
  (fun v => ⟨1, fun i => if i = 0 then ∑ a ∈ Finset.range v.n, v.e a else 0⟩)

/-- `FanOut(2)` -/
def fanOutL : LayerL Mat Vec where
  req := {}
  full k := .ok (.node true [k, k])
  only k := .ok (.node true [k, k])

/-- `FanInSum` of two branches of the same size. -/
def fanInL : LayerL Mat Vec where
  req := {}
  full k := match k with
    | .node _ [.leaf a, .leaf b] =>
      if a.n = b.n then .ok (.leaf ⟨a.n, fun i j => a.e i j + b.e i j⟩) else .error .valueError
    | _ => .error .valueError
  only k := match k with
    | .node _ [.leaf a, .leaf b] =>
      if a.n = b.n then .ok (.leaf ⟨a.n, fun i => a.e i + b.e i⟩) else .error .valueError
    | _ => .error .valueError

/-- `Identity` -/
def identityL : LayerL Mat Vec where
  req := {}
  full := .ok
  only := .ok

lemma single_agrees {d : Option Diagonal} {f : Mat → Mat} {g : Vec → Vec} {P : Mat → Prop}
    (h : ∀ k, P k → g (mats.diag k) = mats.diag (f k)) (t : Tree Mat) (ht : AllLeaves P t) :
    Agrees mats (single d f g) t := by
  intro k' hk
  cases t with
  | node b ts => simp [single] at hk
  | leaf k =>
    simp only [single, Except.ok.injEq] at hk
    subst hk
    simp [single, treeMap, h k ht]

lemma single_all {d : Option Diagonal} {f : Mat → Mat} {g : Vec → Vec} {P Q : Mat → Prop}
    (h : ∀ k, P k → Q (f k)) (t t' : Tree Mat) (ht : AllLeaves P t)
    (hk : (single d f g).full t = .ok t') : AllLeaves Q t' := by
  cases t with
  | node b ts => simp [single] at hk
  | leaf k =>
    simp only [single, Except.ok.injEq] at hk
    subst hk
    exact h k ht

lemma allLeaves_true {A : Type} : ∀ t : Tree A, AllLeaves (fun _ => True) t := by
  have hl : ∀ n : ℕ, (∀ t : Tree A, sizeOf t < n → AllLeaves (fun _ => True) t) ∧
      (∀ ts : List (Tree A), sizeOf ts < n → AllLeavesList (fun _ => True) ts) := by
    intro n
    induction n with
    | zero => exact ⟨fun t h => absurd h (by omega), fun t h => absurd h (by omega)⟩
    | succ n ih =>
      constructor
      · intro t ht
        cases t with
        | leaf a => trivial
        | node b ts =>
          simp only [Tree.node.sizeOf_spec] at ht
          exact ih.2 ts (by omega)
      · intro ts hts
        cases ts with
        | nil => trivial
        | cons t ts =>
          simp only [List.cons.sizeOf_spec] at hts
          exact ⟨ih.1 t (by omega), ih.2 ts (by omega)⟩
  exact fun t => (hl (sizeOf t + 1)).1 t (by omega)

lemma single_meets {d : Diagonal} {f : Mat → Mat} {g : Vec → Vec}
    (h1 : d.input = .yes → ∀ k, g (mats.diag k) = mats.diag (f k))
    (h2 : d.input = .maybe → ∀ k, mats.offZero k → g (mats.diag k) = mats.diag (f k))
    (h3 : d.output = .maybe → ∀ k, mats.offZero (f k))
    (h4 : d.output = .yes → ∀ k, mats.flat (f k))
    (h5 : ∀ k, mats.flat k → g (mats.diag k) = mats.diag (f k) ∧ mats.flat (f k)) :
    Meets mats (single (some d) f g) d where
  input_yes h k := single_agrees (P := fun _ => True) (fun k _ => h1 h k) k (allLeaves_true k)
  input_maybe h k hk := single_agrees (h2 h) k hk
  output_maybe h k k' hk := single_all (P := fun _ => True) (fun k _ => h3 h k) k k' (allLeaves_true k) hk
  output_yes h k k' hk := single_all (P := fun _ => True) (fun k _ => h4 h k) k k' (allLeaves_true k) hk
  flat k hk := ⟨single_agrees (fun k h => (h5 k h).1) k hk,
    fun k' hk' => single_all (fun k h => (h5 k h).2) k k' hk hk'⟩

example : Honest mats denseL := by
  refine single_meets (fun _ k => ?_) (fun h => by simp at h) (fun h => by simp at h)
    (fun h => by simp at h) (fun k hk => ⟨?_, hk.1, ?_⟩)
  · simp only [mats, and_self]
    rfl
  · simp only [mats, and_self]
    rfl
  · intro i j hij
    have h1 := hk.1
    by_cases h : i < k.n ∧ j < k.n
    · omega
    · simp [h]

lemma convLocal_honest : Honest mats convLocalL := by
  refine single_meets (fun _ k => ?_) (fun h => by simp at h) (fun _ k i j hij => ?_)
    (fun h => by simp at h) (fun k hk => ⟨?_, hk.1, ?_⟩)
  · simp only [mats, true_and]
    rfl
  · simp [hij]
  · simp only [mats, true_and]
    rfl
  · intro i j hij
    simp [hij]

lemma globalPool_honest : Honest mats globalPoolL := by
  have hd : ∀ k : Mat, mats.offZero k →
      ∑ a ∈ Finset.range k.n, k.e a a = ∑ a ∈ Finset.range k.n, ∑ b ∈ Finset.range k.n, k.e a b := by
    intro k hk
    refine Finset.sum_congr rfl fun a ha => ?_
    rw [Finset.sum_eq_single_of_mem a ha]
    intro b _ hb
    exact hk a b (Ne.symm hb)
  refine single_meets (fun h => by simp at h) (fun _ k hk => ?_) (fun h => by simp at h)
    (fun _ k => ⟨rfl, ?_⟩) (fun k hk => ⟨?_, rfl, ?_⟩)
  · simp [mats, hd k hk]
  · intro i j hij
    have : ¬ (i = 0 ∧ j = 0) := by omega
    simp [this]
  · simp [mats, hd k hk.2]
  · intro i j hij
    have : ¬ (i = 0 ∧ j = 0) := by omega
    simp [this]

/-- `serial(ConvLocal, GlobalSumPool)` is built of honest layers and selects the diagonal-only layout. -/
example : ∃ net : LayerL Mat Vec, Built (fun l => Honest mats l) net ∧
    ∃ d, net.req.diagonalSpatial = some d ∧ d.toBool = true ∧
      ∃ k, net.full (.leaf ⟨2, fun i j => i + j⟩) = .ok k :=
  ⟨serialL [convLocalL, globalPoolL] { diagonalSpatial := some { input := .yes, output := .yes } },
    .serial _ _ (by
      intro l hl
      simp only [List.mem_cons, List.not_mem_nil, or_false] at hl
      rcases hl with rfl | rfl
      · exact .layer _ convLocal_honest
      · exact .layer _ globalPool_honest) (by simp) (by decide), _, rfl, rfl, _, rfl⟩

/-! ### A branch that declares nothing -/

/-- `serial(FanOut(2), parallel(ConvLocal, Identity), FanInSum, GlobalSumPool)` -/
def skipNet : LayerL Mat Vec :=
  let p := parallelL [convLocalL, identityL] { diagonalSpatial := some { output := .maybe } }
  serialL [fanOutL, p, fanInL, globalPoolL] { diagonalSpatial := some { input := .yes, output := .yes } }

/-- A network with a skip connection around `ConvLocal`, followed by a pooling over all positions: the
`Identity` branch declares no requirement, so that the combined requirement selects the diagonal-only
layout.  But its covariances of different positions are not zero, and the result is wrong: the layers
are what they declare to be, the requirement is the one computed by `combinators.py`, and the
diagonal-only run differs from the full one. -/
theorem skip_branch_wrong :
    Req.combine true [convLocalL.req, identityL.req] = .ok { diagonalSpatial := some { output := .maybe } } ∧
    Req.combine false [fanOutL.req, { diagonalSpatial := some { output := .maybe } }, fanInL.req,
      globalPoolL.req] = .ok skipNet.req ∧
    (∃ d, skipNet.req.diagonalSpatial = some d ∧ d.toBool = true) ∧
    Honest mats convLocalL ∧ Honest mats identityL ∧ Honest mats globalPoolL ∧
    ∃ k k' v, skipNet.full (.leaf k) = .ok (.leaf k') ∧ skipNet.only (.leaf (mats.diag k)) = .ok (.leaf v) ∧
      k'.e 0 0 = 14 ∧ v.e 0 = 8 := by
  refine ⟨by decide, by decide, ⟨_, rfl, rfl⟩, convLocal_honest, neutral_id mats {}, globalPool_honest,
    ⟨2, fun i j => if i < 2 ∧ j < 2 then if i = j then 1 else 3 else 0⟩, _, _, rfl, rfl, ?_, ?_⟩
  · rfl
  · rfl

end NT.C30
