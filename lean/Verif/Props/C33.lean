import Verif.Props.C32

/-!
# C33: `parallel` acts branch by branch
-/

namespace NT.C33
open NT NT.Comb NT.C32

variable {Key P A D Sh : Type}

lemma parallelInit_ok (ls : List (Layer Key (Tree Sh) P (Tree A) (Tree D))) (rs : List Key)
    (ss ss' : List (Tree Sh)) (ps : List (Params P)) (hr : rs.length = ls.length)
    (hs : ss.length = ls.length) : parallelInit ls rs ss = .ok (ss', ps) ↔
    ss'.length = ls.length ∧ ps.length = ls.length ∧
      ∀ i (h : i < ls.length) (_ : i < rs.length) (_ : i < ss.length) (_ : i < ss'.length)
        (_ : i < ps.length), ls[i].init rs[i] ss[i] = .ok (ss'[i], ps[i]) := by
  induction ls generalizing rs ss ss' ps with
  | nil =>
    simp only [parallelInit, Except.ok.injEq, Prod.mk.injEq, List.length_nil, List.length_eq_zero_iff]
    constructor
    · rintro ⟨rfl, rfl⟩
      simp
    · rintro ⟨rfl, rfl, -⟩
      simp
  | cons l ls ih =>
    cases rs with
    | nil => simp at hr
    | cons r rs =>
      cases ss with
      | nil => simp at hs
      | cons s ss =>
        simp only [List.length_cons, Nat.add_right_cancel_iff] at hr hs
        simp only [parallelInit]
        constructor
        · intro h
          cases h1 : l.init r s with
          | error e => simp [h1] at h
          | ok q =>
            obtain ⟨s1, p⟩ := q
            cases h2 : parallelInit ls rs ss with
            | error e => simp [h1, h2] at h
            | ok q =>
              obtain ⟨ss1, ps1⟩ := q
              simp only [h1, h2, Except.ok.injEq, Prod.mk.injEq] at h
              obtain ⟨rfl, rfl⟩ := h
              obtain ⟨e1, e2, e3⟩ := (ih rs ss ss1 ps1 hr hs).1 h2
              refine ⟨by simp [e1], by simp [e2], ?_⟩
              intro i a b c d e
              cases i with
              | zero => exact h1
              | succ i =>
                exact e3 i (by simpa using a) (by simpa using b) (by simpa using c) (by simpa using d)
                  (by simpa using e)
        · rintro ⟨e1, e2, e3⟩
          cases ss' with
          | nil => simp at e1
          | cons s1 ss1 =>
            cases ps with
            | nil => simp at e2
            | cons p ps =>
              have h0 := e3 0 (by simp) (by simp) (by simp) (by simp) (by simp)
              simp only [List.getElem_cons_zero] at h0
              rw [h0]
              simp only
              rw [(ih rs ss ss1 ps hr hs).2 ⟨by simpa using e1, by simpa using e2, ?_⟩]
              intro i a b c d e
              exact e3 (i + 1) (by simpa using a) (by simpa using b) (by simpa using c)
                (by simpa using d) (by simpa using e)

/-- `init_fn` of `parallel(*layers)` on as many shapes as layers initialises layer `i` on shape `i` with
the `i`-th of the keys split off `rng`. -/
theorem parallel_init (sh : Shaped (Tree D) (Tree Sh)) (splitN : Key → ℕ → List Key)
    (hsplit : ∀ r n, (splitN r n).length = n)
    (ls : List (Layer Key (Tree Sh) P (Tree A) (Tree D))) (net : Layer Key (Tree Sh) P (Tree A) (Tree D))
    (hnet : parallel sh splitN ls = .ok net) (rng : Key) (b : Bool) (ss : List (Tree Sh))
    (hss : ss.length = ls.length) (s' : Tree Sh) (prm : Params P) :
    net.init rng (.node b ss) = .ok (s', prm) ↔
      ∃ ss' ps, s' = .node false ss' ∧ prm = .node ps ∧ ss'.length = ls.length ∧ ps.length = ls.length ∧
        ∀ i (_ : i < ls.length) (_ : i < (splitN rng ls.length).length) (_ : i < ss.length)
          (_ : i < ss'.length) (_ : i < ps.length),
          ls[i].init (splitN rng ls.length)[i] ss[i] = .ok (ss'[i], ps[i]) := by
  have hne : ls ≠ [] := by
    rintro rfl
    simp [parallel] at hnet
  unfold parallel at hnet
  split at hnet
  · simp at hnet
  · simp only [Except.ok.injEq] at hnet
    subst hnet
    simp only
    have key := fun ss' ps => parallelInit_ok ls (splitN rng ls.length) ss ss' ps (hsplit _ _) hss
    constructor
    · intro h
      cases h1 : parallelInit ls (splitN rng ls.length) ss with
      | error e => simp [h1, unzipInit] at h
      | ok q =>
        obtain ⟨ss', ps⟩ := q
        have h2 := (key ss' ps).1 h1
        cases ss' with
        | nil =>
          exact absurd (List.length_eq_zero_iff.1 h2.1.symm) hne
        | cons s1 ss1 =>
          simp only [h1, unzipInit, Except.ok.injEq, Prod.mk.injEq] at h
          exact ⟨_, _, h.1.symm, h.2.symm, h2⟩
    · rintro ⟨ss', ps, rfl, rfl, h⟩
      rw [(key ss' ps).2 h]
      cases ss' with
      | nil => exact absurd (List.length_eq_zero_iff.1 h.1.symm) hne
      | cons s1 ss1 => rfl

lemma parallelApply_ok {S K : Type} (ls : List (Layer Key S P (Tree A) K)) (ps : List (Params P))
    (xs ys : List (Tree A)) (rs : List (Option Key)) (hp : ps.length = ls.length)
    (hx : xs.length = ls.length) (hr : rs.length = ls.length) :
    parallelApply ls ps xs rs = .ok ys ↔ ys.length = ls.length ∧
      ∀ i (_ : i < ls.length) (_ : i < ps.length) (_ : i < xs.length) (_ : i < rs.length)
        (_ : i < ys.length), ls[i].apply ps[i] xs[i] rs[i] = .ok ys[i] := by
  induction ls generalizing ps xs ys rs with
  | nil =>
    simp only [parallelApply, Except.ok.injEq, List.length_nil, List.length_eq_zero_iff]
    constructor
    · rintro rfl
      simp
    · rintro ⟨rfl, -⟩
      rfl
  | cons l ls ih =>
    cases ps with
    | nil => simp at hp
    | cons p ps =>
      cases xs with
      | nil => simp at hx
      | cons x xs =>
        cases rs with
        | nil => simp at hr
        | cons r rs =>
          simp only [List.length_cons, Nat.add_right_cancel_iff] at hp hx hr
          simp only [parallelApply]
          constructor
          · intro h
            cases h1 : l.apply p x r with
            | error e => simp [h1] at h
            | ok y =>
              cases h2 : parallelApply ls ps xs rs with
              | error e => simp [h1, h2] at h
              | ok ys1 =>
                simp only [h1, h2, Except.ok.injEq] at h
                subst h
                obtain ⟨e1, e2⟩ := (ih ps xs ys1 rs hp hx hr).1 h2
                refine ⟨by simp [e1], ?_⟩
                intro i a b c d e
                cases i with
                | zero => exact h1
                | succ i =>
                  exact e2 i (by simpa using a) (by simpa using b) (by simpa using c) (by simpa using d)
                    (by simpa using e)
          · rintro ⟨e1, e2⟩
            cases ys with
            | nil => simp at e1
            | cons y ys =>
              have h0 := e2 0 (by simp) (by simp) (by simp) (by simp) (by simp)
              simp only [List.getElem_cons_zero] at h0
              rw [h0]
              simp only
              rw [(ih ps xs ys rs hp hx hr).2 ⟨by simpa using e1, ?_⟩]
              intro i a b c d e
              exact e2 (i + 1) (by simpa using a) (by simpa using b) (by simpa using c)
                (by simpa using d) (by simpa using e)

/-- `apply_fn` of `parallel(*layers)` applies layer `i` with parameters `i` and key `i` to branch `i`; the
result has the type (list or tuple) of the input. -/
theorem parallel_apply (sh : Shaped (Tree D) (Tree Sh)) (splitN : Key → ℕ → List Key)
    (hsplit : ∀ r n, (splitN r n).length = n)
    (ls : List (Layer Key (Tree Sh) P (Tree A) (Tree D))) (net : Layer Key (Tree Sh) P (Tree A) (Tree D))
    (hnet : parallel sh splitN ls = .ok net) (ps : List (Params P)) (hps : ps.length = ls.length)
    (b : Bool) (xs : List (Tree A)) (hxs : xs.length = ls.length) (rng : Option Key) (y : Tree A) :
    net.apply (.node ps) (.node b xs) rng = .ok y ↔
      ∃ ys, y = .node b ys ∧ ys.length = ls.length ∧
        ∀ i (_ : i < ls.length) (_ : i < ps.length) (_ : i < xs.length) (_ : i < ys.length),
          ls[i].apply ps[i] xs[i] (applyKey splitN ls.length rng i) = .ok ys[i] := by
  unfold parallel at hnet
  split at hnet
  · simp at hnet
  · simp only [Except.ok.injEq] at hnet
    subst hnet
    simp only [onBranches]
    have hr : (rngs splitN ls.length rng).length = ls.length := by cases rng <;> simp [rngs, hsplit]
    have hk : ∀ i (h : i < (rngs splitN ls.length rng).length),
        (rngs splitN ls.length rng)[i] = applyKey splitN ls.length rng i := by
      intro i h
      have h' : i < ls.length := by omega
      cases rng with
      | none => simp [rngs, applyKey]
      | some r => simp [rngs, applyKey, hsplit, h']
    have key := fun ys => parallelApply_ok ls ps xs ys (rngs splitN ls.length rng) hps hxs hr
    constructor
    · intro h
      cases h1 : parallelApply ls ps xs (rngs splitN ls.length rng) with
      | error e => simp [h1, Except.map] at h
      | ok ys =>
        simp only [h1, Except.map, Except.ok.injEq] at h
        obtain ⟨e1, e2⟩ := (key ys).1 h1
        refine ⟨ys, h.symm, e1, ?_⟩
        intro i a c d e
        have := e2 i a c d (by omega) e
        rwa [hk] at this
    · rintro ⟨ys, rfl, e1, e2⟩
      rw [(key ys).2 ⟨e1, ?_⟩]
      · rfl
      · intro i a c d e f
        rw [hk]
        exact e2 i a c d f

/-- A single (not list or tuple) input is a `TypeError`. -/
theorem parallel_leaf_raises (sh : Shaped (Tree D) (Tree Sh)) (splitN : Key → ℕ → List Key)
    (ls : List (Layer Key (Tree Sh) P (Tree A) (Tree D))) (net : Layer Key (Tree Sh) P (Tree A) (Tree D))
    (hnet : parallel sh splitN ls = .ok net) (ps : List (Params P)) (x : A) (k : D) (rng : Option Key) :
    net.apply (.node ps) (.leaf x) rng = .error .typeError ∧ net.kernel (.leaf k) = .error .typeError := by
  unfold parallel at hnet
  split at hnet
  · simp at hnet
  · simp only [Except.ok.injEq] at hnet
    subst hnet
    exact ⟨rfl, rfl⟩

lemma zipRun_ok {B : Type} (fs : List (B → Except Err B)) (as bs : List B) (ha : as.length = fs.length) :
    zipRun fs as = .ok bs ↔ bs.length = fs.length ∧
      ∀ i (_ : i < fs.length) (_ : i < as.length) (_ : i < bs.length), fs[i] as[i] = .ok bs[i] := by
  induction fs generalizing as bs with
  | nil =>
    simp only [zipRun, Except.ok.injEq, List.length_nil, List.length_eq_zero_iff]
    constructor
    · rintro rfl
      simp
    · rintro ⟨rfl, -⟩
      rfl
  | cons f fs ih =>
    cases as with
    | nil => simp at ha
    | cons a as =>
      simp only [List.length_cons, Nat.add_right_cancel_iff] at ha
      simp only [zipRun]
      constructor
      · intro h
        cases h1 : f a with
        | error e => simp [h1] at h
        | ok b =>
          cases h2 : zipRun fs as with
          | error e => simp [h1, h2] at h
          | ok bs1 =>
            simp only [h1, h2, Except.ok.injEq] at h
            subst h
            obtain ⟨e1, e2⟩ := (ih as bs1 ha).1 h2
            refine ⟨by simp [e1], ?_⟩
            intro i a b c
            cases i with
            | zero => exact h1
            | succ i => exact e2 i (by simpa using a) (by simpa using b) (by simpa using c)
      · rintro ⟨e1, e2⟩
        cases bs with
        | nil => simp at e1
        | cons b bs =>
          have h0 := e2 0 (by simp) (by simp) (by simp)
          simp only [List.getElem_cons_zero] at h0
          rw [h0]
          simp only
          rw [(ih as bs ha).2 ⟨by simpa using e1, ?_⟩]
          intro i a b c
          exact e2 (i + 1) (by simpa using a) (by simpa using b) (by simpa using c)

lemma treeMapList_eq {α β : Type} (f : α → β) (l : List (Tree α)) : treeMapList f l = l.map (treeMap f) := by
  induction l with
  | nil => rfl
  | cons a l ih => simp [treeMapList, ih]

lemma treeSetList_ok {g : D → Sh → Sh → D} (ks ks' : List (Tree D)) (ss ts : List (Tree Sh))
    (h1 : ss.length = ks.length) (h2 : ts.length = ks.length) (h3 : ks'.length = ks.length)
    (h : ∀ i (_ : i < ks.length) (_ : i < ks'.length) (_ : i < ss.length) (_ : i < ts.length),
      treeSet g ks[i] ss[i] ts[i] = .ok ks'[i]) : treeSetList g ks ss ts = .ok ks' := by
  induction ks generalizing ks' ss ts with
  | nil =>
    obtain rfl := List.length_eq_zero_iff.1 h1
    obtain rfl := List.length_eq_zero_iff.1 h2
    obtain rfl := List.length_eq_zero_iff.1 h3
    rfl
  | cons k ks ih =>
    cases ks' with
    | nil => simp at h3
    | cons k' ks' =>
      cases ss with
      | nil => simp at h1
      | cons s ss =>
        cases ts with
        | nil => simp at h2
        | cons t ts =>
          have h0 := h 0 (by simp) (by simp) (by simp) (by simp)
          simp only [List.getElem_cons_zero] at h0
          simp only [treeSetList, h0]
          rw [ih ks' ss ts (by simpa using h1) (by simpa using h2) (by simpa using h3)]
          intro i a b c d
          exact h (i + 1) (by simpa using a) (by simpa using b) (by simpa using c) (by simpa using d)

/-- `kernel_fn` of `parallel(*layers)` applies the kernel function of layer `i` to kernel `i`, if every
layer has an `apply_fn`. -/
theorem parallel_kernel_partial (s1 s2 : D → Sh) (g : D → Sh → Sh → D)
    (hlaw : (treeShaped s1 s2 g).Lawful) (splitN : Key → ℕ → List Key)
    (ls : List (Layer Key (Tree Sh) P (Tree A) (Tree D))) (net : Layer Key (Tree Sh) P (Tree A) (Tree D))
    (hnet : parallel (treeShaped s1 s2 g) splitN ls = .ok net)
    (himp : ∀ l ∈ ls, Implemented l.outShape) (hdec : ∀ l ∈ ls, Decorated (treeShaped s1 s2 g) l)
    (b : Bool) (ks : List (Tree D)) (hks : ks.length = ls.length) (k' : Tree D) :
    net.kernel (.node b ks) = .ok k' ↔
      ∃ ks', k' = .node b ks' ∧ ks'.length = ls.length ∧
        ∀ i (_ : i < ls.length) (_ : i < ks.length) (_ : i < ks'.length),
          ls[i].kernel ks[i] = .ok ks'[i] := by
  unfold parallel at hnet
  split at hnet
  · simp at hnet
  · simp only [Except.ok.injEq] at hnet
    subst hnet
    simp only [decorate, onBranches]
    have key := fun ks' => zipRun_ok (ls.map (·.kernel)) ks ks' (by simp [hks])
    simp only [List.length_map, List.getElem_map] at key
    have main : ∀ ks', zipRun (ls.map (·.kernel)) ks = .ok ks' →
        setShapes (treeShaped s1 s2 g) (onBranches (zipRun (ls.map (·.outShape)))) (.node b ks)
          (.node b ks') = .ok (.node b ks') := by
      intro ks' h
      obtain ⟨hl, hk⟩ := (key ks').1 h
      have hdata : ∀ i (_ : i < ls.length) (_ : i < ks.length) (_ : i < ks'.length),
          ls[i].outShape (treeMap s1 ks[i]) = .ok (treeMap s1 ks'[i]) ∧
          ls[i].outShape (treeMap s2 ks[i]) = .ok (treeMap s2 ks'[i]) ∧
          treeSet g ks'[i] (treeMap s1 ks'[i]) (treeMap s2 ks'[i]) = .ok ks'[i] := by
        intro i a c d
        have hm : ls[i] ∈ ls := List.getElem_mem a
        obtain ⟨f, hf⟩ := hdec _ hm
        have h1 := hf ks[i]
        rw [hk i a c d] at h1
        obtain ⟨kr, t1, t2, -, e1, e2, e3⟩ := (decorate_ok (himp _ hm)).1 h1.symm
        have g1 : treeMap s1 ks'[i] = t1 := hlaw.get1 _ _ _ _ e3
        have g2 : treeMap s2 ks'[i] = t2 := hlaw.get2 _ _ _ _ e3
        rw [g1, g2]
        exact ⟨e1, e2, hlaw.set_set _ _ _ _ e3⟩
      have hz1 : zipRun (ls.map (·.outShape)) (ks.map (treeMap s1)) = .ok (ks'.map (treeMap s1)) := by
        rw [zipRun_ok _ _ _ (by simp [hks])]
        refine ⟨by simp [hl], ?_⟩
        intro i a c d
        simp only [List.length_map] at a c d
        simpa using (hdata i a c d).1
      have hz2 : zipRun (ls.map (·.outShape)) (ks.map (treeMap s2)) = .ok (ks'.map (treeMap s2)) := by
        rw [zipRun_ok _ _ _ (by simp [hks])]
        refine ⟨by simp [hl], ?_⟩
        intro i a c d
        simp only [List.length_map] at a c d
        simpa using (hdata i a c d).2.1
      unfold setShapes propagate
      simp only [treeShaped, treeMap, treeMapList_eq, onBranches, hz1, hz2, Except.map, treeSet,
        and_self, if_true]
      rw [treeSetList_ok ks' ks' _ _ (by simp) (by simp) rfl]
      intro i a c d e
      simpa using (hdata i (by omega) (by omega) a).2.2
    constructor
    · intro h
      cases h1 : zipRun (ls.map (·.kernel)) ks with
      | error e => simp [h1, Except.map] at h
      | ok ks' =>
        simp only [h1, Except.map] at h
        rw [main ks' h1] at h
        simp only [Except.ok.injEq] at h
        exact ⟨ks', h.symm, (key ks').1 h1⟩
    · rintro ⟨ks', rfl, h⟩
      have h1 := (key ks').2 h
      rw [h1]
      simp only [Except.map]
      exact main ks' h1

/-! ### Examples and limits -/

/-- A dense layer on a single kernel (a triple), see `C32`. -/
def leafDense (w : ℕ) : Layer (List Bool) (Tree ℕ) (List Bool) (Tree ℕ) (Tree (ℕ × ℕ × ℕ)) where
  init r s := match s with
    | .leaf s => .ok (.leaf w, .leaf (r ++ List.replicate s true))
    | .node _ _ => .error .typeError
  apply p x r := match p, x with
    | .leaf p, .leaf x => .ok (.leaf (x * 10 + p.length + r.elim 0 List.length))
    | _, _ => .error .typeError
  outShape _ := .ok (.leaf w)
  kernel := decorate (treeShaped (fun k => k.2.1) (fun k => k.2.2) fun k s t => (k.1, s, t))
    (fun _ => .ok (.leaf w)) fun k => match k with
      | .leaf k => .ok (.leaf (w * k.1, k.2))
      | .node _ _ => .error .typeError

/-- The shapes of trees of triples. -/
abbrev tsh : Shaped (Tree (ℕ × ℕ × ℕ)) (Tree ℕ) :=
  treeShaped (fun k => k.2.1) (fun k => k.2.2) fun k s t => (k.1, s, t)

example : tsh.Lawful := treeShaped_lawful _ _ _ (fun _ _ _ => rfl) (fun _ _ _ => rfl) (fun _ _ _ => rfl)

example : Implemented (leafDense 3).outShape ∧ Decorated tsh (leafDense 3) :=
  ⟨fun s => by simp [leafDense], ⟨_, fun _ => rfl⟩⟩

example : ∃ net, parallel tsh pathSplitN [leafDense 3, leafDense 4] = .ok net ∧
    net.init [true] (.node true [.leaf 1, .leaf 2]) = .ok (.node false [.leaf 3, .leaf 4],
      .node [.leaf [true, true], .leaf [true, false, true, true]]) ∧
    net.apply (.node [.leaf [true, true], .leaf [true, false, true, true]])
      (.node true [.leaf 7, .leaf 8]) (some []) = .ok (.node true [.leaf 72, .leaf 85]) ∧
    net.kernel (.node true [.leaf (5, 1, 1), .leaf (6, 2, 2)]) =
      .ok (.node true [.leaf (15, 3, 3), .leaf (24, 4, 4)]) := ⟨_, rfl, rfl, rfl, rfl⟩

/-- Fewer inputs than branches are not rejected: the superfluous layers are dropped silently. -/
theorem missing_branch_dropped : ∃ net, parallel tsh pathSplitN [leafDense 3, leafDense 4] = .ok net ∧
    net.apply (.node [.leaf [], .leaf []]) (.node true [.leaf 7]) none = .ok (.node true [.leaf 70]) :=
  ⟨_, rfl, rfl⟩

end NT.C33
