import Verif.Model.Combinators
import Verif.Tac

/-!
# Lemmas on layers and combinators
-/

namespace NT.Comb
open NT

variable {Key S P X K A : Type}

lemma runAll_append (fs gs : List (A → Except Err A)) (a : A) :
    runAll (fs ++ gs) a = (runAll fs a).bind (runAll gs) := by
  induction fs generalizing a with
  | nil => rfl
  | cons f fs ih =>
    simp only [List.cons_append, runAll]
    cases f a with
    | error e => rfl
    | ok b => exact ih b

lemma runAll_ok (fs : List (A → Except Err A)) (a b : A) :
    runAll fs a = .ok b ↔ ∃ t : ℕ → A, t 0 = a ∧ t fs.length = b ∧
      ∀ i (h : i < fs.length), fs[i] (t i) = .ok (t (i + 1)) := by
  induction fs generalizing a with
  | nil =>
    simp only [runAll, Except.ok.injEq, List.length_nil]
    constructor
    · rintro rfl
      exact ⟨fun _ => a, rfl, rfl, by simp⟩
    · rintro ⟨t, rfl, rfl, -⟩
      rfl
  | cons f fs ih =>
    simp only [runAll]
    constructor
    · intro h
      cases hf : f a with
      | error e => simp [hf] at h
      | ok c =>
        simp only [hf] at h
        obtain ⟨t, h0, hn, ht⟩ := (ih c).1 h
        refine ⟨fun i => if i = 0 then a else t (i - 1), by simp, by simp [hn], ?_⟩
        intro i hi
        cases i with
        | zero => simp [hf, h0]
        | succ i => simpa using ht i (by simpa using hi)
    · rintro ⟨t, rfl, hn, ht⟩
      have h0 := ht 0 (by simp)
      simp only [List.getElem_cons_zero, Nat.zero_add] at h0
      rw [h0]
      simp only
      rw [ih]
      refine ⟨fun i => t (i + 1), rfl, hn, ?_⟩
      intro i hi
      exact ht (i + 1) (by simpa using hi)

/-- Laws of the shapes carried by kernels. -/
structure Shaped.Lawful (sh : Shaped K S) : Prop where
  get1 : ∀ k s t k', sh.withShapes k s t = .ok k' → sh.shape1 k' = s
  get2 : ∀ k s t k', sh.withShapes k s t = .ok k' → sh.shape2 k' = t
  set_set : ∀ k s t k', sh.withShapes k s t = .ok k' → sh.withShapes k' s t = .ok k'

mutual
lemma treeSet_get {D Sh : Type} (f : D → Sh) (g : D → Sh → Sh → D) (first : Bool)
    (h : ∀ k s t, f (g k s t) = if first then s else t) :
    ∀ (k k' : Tree D) (s t : Tree Sh), treeSet g k s t = .ok k' →
      treeMap f k' = if first then s else t
  | .leaf k, k', .leaf s, .leaf t, e => by
    simp only [treeSet, Except.ok.injEq] at e
    subst e
    simp only [treeMap, h]
    cases first <;> rfl
  | .node b ks, k', .node b1 ss, .node b2 ts, e => by
    simp only [treeSet] at e
    split at e
    · rename_i hb
      obtain ⟨rfl, rfl⟩ := hb
      cases hr : treeSetList g ks ss ts with
      | error e' => simp [hr] at e
      | ok r =>
        simp only [hr, Except.ok.injEq] at e
        subst e
        simp only [treeMap, treeSetList_get f g first h ks r ss ts hr]
        cases first <;> rfl
    · simp at e
  | .leaf _, _, .node _ _, _, e => by simp [treeSet] at e
  | .leaf _, _, .leaf _, .node _ _, e => by simp [treeSet] at e
  | .node _ _, _, .leaf _, _, e => by simp [treeSet] at e
  | .node _ _, _, .node _ _, .leaf _, e => by simp [treeSet] at e
lemma treeSetList_get {D Sh : Type} (f : D → Sh) (g : D → Sh → Sh → D) (first : Bool)
    (h : ∀ k s t, f (g k s t) = if first then s else t) :
    ∀ (ks ks' : List (Tree D)) (ss ts : List (Tree Sh)), treeSetList g ks ss ts = .ok ks' →
      treeMapList f ks' = if first then ss else ts
  | [], ks', [], [], e => by
    simp only [treeSetList, Except.ok.injEq] at e
    subst e
    simp [treeMapList]
  | k :: ks, ks', s :: ss, t :: ts, e => by
    simp only [treeSetList] at e
    cases hr : treeSet g k s t with
    | error e' => simp [hr] at e
    | ok r =>
      cases hrs : treeSetList g ks ss ts with
      | error e' => simp [hr, hrs] at e
      | ok rs =>
        simp only [hr, hrs, Except.ok.injEq] at e
        subst e
        simp only [treeMapList, treeSet_get f g first h k r s t hr, treeSetList_get f g first h ks rs ss ts hrs]
        cases first <;> rfl
  | [], _, [], _ :: _, e => by simp [treeSetList] at e
  | [], _, _ :: _, _, e => by simp [treeSetList] at e
  | _ :: _, _, [], _, e => by simp [treeSetList] at e
  | _ :: _, _, _ :: _, [], e => by simp [treeSetList] at e
end

mutual
lemma treeSet_set {D Sh : Type} (g : D → Sh → Sh → D) (h : ∀ k s t, g (g k s t) s t = g k s t) :
    ∀ (k k' : Tree D) (s t : Tree Sh), treeSet g k s t = .ok k' → treeSet g k' s t = .ok k'
  | .leaf k, k', .leaf s, .leaf t, e => by
    simp only [treeSet, Except.ok.injEq] at e
    subst e
    simp only [treeSet, h]
  | .node b ks, k', .node b1 ss, .node b2 ts, e => by
    simp only [treeSet] at e
    split at e
    · rename_i hb
      cases hr : treeSetList g ks ss ts with
      | error e' => simp [hr] at e
      | ok r =>
        simp only [hr, Except.ok.injEq] at e
        subst e
        simp only [treeSet, if_pos hb, treeSetList_set g h ks r ss ts hr]
    · simp at e
  | .leaf _, _, .node _ _, _, e => by simp [treeSet] at e
  | .leaf _, _, .leaf _, .node _ _, e => by simp [treeSet] at e
  | .node _ _, _, .leaf _, _, e => by simp [treeSet] at e
  | .node _ _, _, .node _ _, .leaf _, e => by simp [treeSet] at e
lemma treeSetList_set {D Sh : Type} (g : D → Sh → Sh → D) (h : ∀ k s t, g (g k s t) s t = g k s t) :
    ∀ (ks ks' : List (Tree D)) (ss ts : List (Tree Sh)), treeSetList g ks ss ts = .ok ks' →
      treeSetList g ks' ss ts = .ok ks'
  | [], ks', [], [], e => by
    simp only [treeSetList, Except.ok.injEq] at e
    subst e
    simp [treeSetList]
  | k :: ks, ks', s :: ss, t :: ts, e => by
    simp only [treeSetList] at e
    cases hr : treeSet g k s t with
    | error e' => simp [hr] at e
    | ok r =>
      cases hrs : treeSetList g ks ss ts with
      | error e' => simp [hr, hrs] at e
      | ok rs =>
        simp only [hr, hrs, Except.ok.injEq] at e
        subst e
        simp only [treeSetList, treeSet_set g h k r s t hr, treeSetList_set g h ks rs ss ts hrs]
  | [], _, [], _ :: _, e => by simp [treeSetList] at e
  | [], _, _ :: _, _, e => by simp [treeSetList] at e
  | _ :: _, _, [], _, e => by simp [treeSetList] at e
  | _ :: _, _, _ :: _, [], e => by simp [treeSetList] at e
end

/-- Shapes on trees of kernels are lawful if they are on kernels. -/
lemma treeShaped_lawful {D Sh : Type} (s1 s2 : D → Sh) (g : D → Sh → Sh → D)
    (h1 : ∀ k s t, s1 (g k s t) = s) (h2 : ∀ k s t, s2 (g k s t) = t)
    (h3 : ∀ k s t, g (g k s t) s t = g k s t) : (treeShaped s1 s2 g).Lawful where
  get1 k s t k' e := treeSet_get s1 g true (by simpa using h1) k k' s t e
  get2 k s t k' e := treeSet_get s2 g false (by simpa using h2) k k' s t e
  set_set k s t k' e := treeSet_set g h3 k k' s t e

/-- `apply_fn` is implemented. -/
def Implemented (outShape : S → Except Err S) : Prop := ∀ s, outShape s ≠ .error .notImplemented

lemma propagate_implemented {o : S → Except Err S} (h : Implemented o) : propagate o = o := by
  funext s
  unfold propagate
  have := h s
  split
  · rename_i h'
    exact absurd h' this
  · rfl

/-- The kernel function comes from the decorator `layer`. -/
def Decorated (sh : Shaped K S) (l : Layer Key S P X K) : Prop :=
  ∃ f, ∀ k, l.kernel k = decorate sh l.outShape f k

lemma implemented_runAll (ls : List (S → Except Err S)) (h : ∀ o ∈ ls, Implemented o) :
    Implemented (runAll ls) := by
  induction ls with
  | nil => intro s; simp [runAll]
  | cons o ls ih =>
    intro s hs
    simp only [runAll] at hs
    cases ho : o s with
    | error e =>
      simp only [ho, Except.error.injEq] at hs
      exact h o (by simp) s (by rw [ho, hs])
    | ok t =>
      simp only [ho] at hs
      exact ih (fun o ho => h o (by simp [ho])) t hs

lemma decorate_ok {sh : Shaped K S} {o : S → Except Err S} {f : K → Except Err K} {k k' : K}
    (ho : Implemented o) : decorate sh o f k = .ok k' ↔ ∃ kr s1 s2, f k = .ok kr ∧
      o (sh.shape1 k) = .ok s1 ∧ o (sh.shape2 k) = .ok s2 ∧ sh.withShapes kr s1 s2 = .ok k' := by
  unfold decorate setShapes
  rw [propagate_implemented ho]
  cases hf : f k with
  | error e => simp
  | ok kr =>
    cases h1 : o (sh.shape1 k) with
    | error e => simp
    | ok s1 =>
      cases h2 : o (sh.shape2 k) with
      | error e => simp
      | ok s2 =>
        constructor
        · intro h
          exact ⟨kr, s1, s2, rfl, rfl, rfl, h⟩
        · rintro ⟨_, _, _, e1, e2, e3, h⟩
          cases e1
          cases e2
          cases e3
          exact h

/-- The shapes after a chain of decorated layers are those of the composed shape function. -/
lemma runAll_shapes {sh : Shaped K S} (hsh : sh.Lawful) (ls : List (Layer Key S P X K))
    (himp : ∀ l ∈ ls, Implemented l.outShape) (hdec : ∀ l ∈ ls, Decorated sh l) (k k' : K)
    (h : runAll (ls.map (·.kernel)) k = .ok k') :
    runAll (ls.map (·.outShape)) (sh.shape1 k) = .ok (sh.shape1 k') ∧
    runAll (ls.map (·.outShape)) (sh.shape2 k) = .ok (sh.shape2 k') ∧
    (ls ≠ [] → sh.withShapes k' (sh.shape1 k') (sh.shape2 k') = .ok k') := by
  induction ls generalizing k with
  | nil =>
    simp only [List.map_nil, runAll, Except.ok.injEq] at h ⊢
    subst h
    simp
  | cons l ls ih =>
    simp only [List.map_cons, runAll] at h ⊢
    cases hk : l.kernel k with
    | error e => simp [hk] at h
    | ok k1 =>
      simp only [hk] at h
      obtain ⟨f, hf⟩ := hdec l (by simp)
      have h1 := hf k
      rw [hk] at h1
      obtain ⟨kr, s1, s2, -, e1, e2, e3⟩ := (decorate_ok (himp l (by simp))).1 h1.symm
      obtain ⟨i1, i2, i3⟩ := ih (fun l hl => himp l (by simp [hl])) (fun l hl => hdec l (by simp [hl])) k1 h
      have g1 : sh.shape1 k1 = s1 := hsh.get1 _ _ _ _ e3
      have g2 : sh.shape2 k1 = s2 := hsh.get2 _ _ _ _ e3
      rw [e1, e2]
      simp only
      rw [← g1, ← g2]
      refine ⟨i1, i2, fun _ => ?_⟩
      cases ls with
      | nil =>
        simp only [List.map_nil, runAll, Except.ok.injEq] at h
        subst h
        rw [g1, g2]
        exact hsh.set_set _ _ _ _ e3
      | cons l' ls' => exact i3 (by simp)

/-- Decorating a chain of decorated layers once more changes nothing. -/
lemma decorate_runAll {sh : Shaped K S} (hsh : sh.Lawful) (ls : List (Layer Key S P X K)) (hne : ls ≠ [])
    (himp : ∀ l ∈ ls, Implemented l.outShape) (hdec : ∀ l ∈ ls, Decorated sh l) (k : K) :
    decorate sh (runAll (ls.map (·.outShape))) (runAll (ls.map (·.kernel))) k =
      runAll (ls.map (·.kernel)) k := by
  unfold decorate
  cases h : runAll (ls.map (·.kernel)) k with
  | error e => rfl
  | ok k' =>
    obtain ⟨h1, h2, h3⟩ := runAll_shapes hsh ls himp hdec k k' h
    simp only
    unfold setShapes
    rw [propagate_implemented (implemented_runAll _ (by
      intro o ho
      obtain ⟨l, hl, rfl⟩ := List.mem_map.1 ho
      exact himp l hl)), h1, h2]
    simp only
    rw [h3 hne]

lemma serialApply_append (ls ls' : List (Layer Key S P X K)) (ps ps' : List (Params P))
    (rs rs' : List (Option Key)) (x : X) (hp : ps.length = ls.length) (hr : rs.length = ls.length) :
    serialApply (ls ++ ls') (ps ++ ps') (rs ++ rs') x =
      (serialApply ls ps rs x).bind (serialApply ls' ps' rs') := by
  induction ls generalizing ps rs x with
  | nil =>
    have : ps = [] := List.length_eq_zero_iff.1 hp
    have : rs = [] := List.length_eq_zero_iff.1 hr
    subst_vars
    simp only [List.nil_append]
    cases ls' <;> simp [serialApply, Except.bind]
  | cons l ls ih =>
    cases ps with
    | nil => simp at hp
    | cons p ps =>
      cases rs with
      | nil => simp at hr
      | cons r rs =>
        simp only [List.cons_append, serialApply]
        cases l.apply p x r with
        | error e => rfl
        | ok y => exact ih ps rs y (by simpa using hp) (by simpa using hr)

lemma serialApply_eq (ls : List (Layer Key S P X K)) (ps : List (Params P)) (rs : List (Option Key)) (x : X)
    (hp : ps.length = ls.length) (hr : rs.length = ls.length) :
    serialApply ls ps rs x =
      runAll ((ls.zip (ps.zip rs)).map fun q y => q.1.apply q.2.1 y q.2.2) x := by
  induction ls generalizing ps rs x with
  | nil => simp [serialApply, runAll]
  | cons l ls ih =>
    cases ps with
    | nil => simp at hp
    | cons p ps =>
      cases rs with
      | nil => simp at hr
      | cons r rs =>
        simp only [serialApply, List.zip_cons_cons, List.map_cons, runAll]
        cases l.apply p x r with
        | error e => rfl
        | ok y => exact ih ps rs y (by simpa using hp) (by simpa using hr)

end NT.Comb
