import Verif.Model.PredictCache
import Verif.Lemmas.Ensemble3

/-!
# Memoised computations
-/

namespace NT.Predict
open NT Arr

variable {κ σ α β γ : Type}

/-- Every entry of a cache is the value of `f`. -/
def Lru.Of [DecidableEq κ] (l : Lru κ α) (f : κ → Except Err α) : Prop := ∀ e ∈ l, f e.1 = .ok e.2

lemma lookup_mem [DecidableEq κ] {l : Lru κ α} {k : κ} {a : α} (h : l.find k = some a) : (k, a) ∈ l := by
  unfold Lru.find at h
  obtain ⟨e, h1, h2⟩ := Option.map_eq_some_iff.1 h
  have h3 := List.find?_some h1
  have h4 := List.mem_of_find?_eq_some h1
  simp only [decide_eq_true_eq] at h3
  rw [← h3, ← h2]
  exact h4

lemma run_bind_ok {x : Run σ α} {f : α → Run σ β} {s s' : σ} {a : α} (h : x s = (.ok a, s')) : (x >>= f) s = f a s' := by
  show (match x s with
    | (.ok a, s') => f a s'
    | (.error e, s') => (.error e, s')) = _
  rw [h]

lemma Lru.call_of [DecidableEq κ] {l : Lru κ α} {f : κ → Except Err α} (h : l.Of f) (cap : ℕ) (k : κ) :
    (Lru.call cap l k (f k)).1 = f k ∧ Lru.Of (Lru.call cap l k (f k)).2 f := by
  unfold Lru.call
  cases hl : Lru.find l k with
  | some a =>
    have hm := h _ (lookup_mem hl)
    refine ⟨hm.symm, fun e he => ?_⟩
    rcases List.mem_cons.1 he with rfl | he
    · exact hm
    · exact h _ (List.mem_filter.1 he).1
  | none =>
    cases hf : f k with
    | error e => exact ⟨rfl, h⟩
    | ok a =>
      refine ⟨rfl, fun e he => ?_⟩
      rcases List.mem_cons.1 (List.mem_of_mem_take he) with rfl | he
      · exact hf
      · exact h _ he

/-- From every state with the invariant the computation gives `r`, and the invariant is kept. -/
def Sound (I : σ → Prop) (x : Run σ α) (r : Except Err α) : Prop := ∀ s, I s → (x s).1 = r ∧ I (x s).2

lemma Sound.lift {I : σ → Prop} (r : Except Err α) : Sound I (Run.lift r) r := fun _ hs => ⟨rfl, hs⟩

lemma Sound.pure {I : σ → Prop} (a : α) : Sound I (Pure.pure a) (.ok a) := fun _ hs => ⟨rfl, hs⟩

lemma Sound.bind {I : σ → Prop} {x : Run σ α} {r : Except Err α} {f : α → Run σ β} {g : α → Except Err β} (hx : Sound I x r)
    (hf : ∀ a, r = .ok a → Sound I (f a) (g a)) : Sound I (x >>= f) (r >>= g) := by
  intro s hs
  obtain ⟨h1, h2⟩ := hx s hs
  show (match x s with
    | (.ok a, s') => f a s'
    | (.error e, s') => (.error e, s')).1 = _ ∧ I (match x s with
    | (.ok a, s') => f a s'
    | (.error e, s') => (.error e, s')).2
  revert h1 h2
  generalize x s = y
  intro h1 h2
  obtain ⟨y, s'⟩ := y
  cases y with
  | error e =>
    dsimp only at h1 h2 ⊢
    rw [← h1]
    exact ⟨rfl, h2⟩
  | ok a =>
    dsimp only at h1 h2 ⊢
    obtain ⟨h3, h4⟩ := hf a h1.symm s' h2
    rw [← h1]
    exact ⟨h3, h4⟩

lemma Sound.liftBind {I : σ → Prop} {r : Except Err α} {f : α → Run σ β} {g : α → Except Err β}
    (hf : ∀ a, r = .ok a → Sound I (f a) (g a)) : Sound I (Run.lift r >>= f) (r >>= g) := (Sound.lift r).bind hf

lemma Sound.skip {I : σ → Prop} {x : Run σ α} {a : α} {f : α → Run σ β} {r : Except Err β} (hx : Sound I x (.ok a))
    (hf : Sound I (f a) r) : Sound I (x >>= f) r :=
  hx.bind (g := fun _ => r) fun b hb => by cases hb; exact hf

lemma Sound.each {I : σ → Prop} {f : α → Run σ β} {g : α → Except Err β} (h : ∀ a, Sound I (f a) (g a)) (l : List α) :
    Sound I (Run.each f l) (l.mapM g) := by
  induction l with
  | nil => exact Sound.pure _
  | cons a l ih =>
    rw [List.mapM_cons]
    exact (h a).bind fun b _ => ih.bind fun bs _ => Sound.pure _

lemma Sound.each_mem {I : σ → Prop} {f : α → Run σ β} {g : α → Except Err β} (l : List α) (h : ∀ a ∈ l, Sound I (f a) (g a)) :
    Sound I (Run.each f l) (l.mapM g) := by
  induction l with
  | nil => exact Sound.pure _
  | cons a l ih =>
    rw [List.mapM_cons]
    exact (h a List.mem_cons_self).bind fun b _ => (ih fun a ha => h a (List.mem_cons_of_mem _ ha)).bind fun bs _ => Sound.pure _

lemma after_keeps {I : σ → Prop} {run : γ → Run σ α} (h : ∀ q s, I s → I (run q s).2) (s : σ) (hs : I s) (qs : List γ) :
    I (after run s qs) := by
  induction qs generalizing s with
  | nil => exact hs
  | cons q qs ih => exact ih _ (h q s hs)

/-! ### `gp_inference` -/

variable {bk : Backend} {m : Gp} {n : ℕ} {T : List ℕ}

/-- What `k_inv_y(g)` evaluates to. -/
noncomputable def Gp.invYFn (bk : Backend) (m : Gp) (T : List ℕ) (g : Field) : Except Err (Arr ℝ) := do
  let f ← m.solveFn bk g
  f m.yTrain (T.map fun a : ℕ => (a : Int))

/-- The caches hold values of the memoised functions. -/
structure GpCache.Inv (bk : Backend) (m : Gp) (T : List ℕ) (s : GpCache) : Prop where
  solve : s.solve.Of (m.solveFn bk)
  invY : s.invY.Of (m.invYFn bk T)

lemma solveM_sound (g : Field) : Sound (GpCache.Inv bk m T) (m.solveM bk g) (m.solveFn bk g) := by
  intro s hs
  obtain ⟨h1, h2⟩ := Lru.call_of hs.solve 2 g
  exact ⟨h1, h2, hs.invY⟩

lemma invYM_sound (g : Field) : Sound (GpCache.Inv bk m T) (m.invYM bk T g) (m.invYFn bk T g) := by
  intro s hs
  unfold Gp.invYM
  cases hl : Lru.find s.invY g with
  | some a =>
    have hm := hs.invY _ (lookup_mem hl)
    dsimp only at hm ⊢
    have := (Lru.call_of hs.invY 2 g).2
    rw [hm] at this
    exact ⟨hm.symm, hs.solve, this⟩
  | none =>
    obtain ⟨h1, h2⟩ := solveM_sound (T := T) g s hs
    revert h1 h2
    generalize hy : m.solveM bk g s = y
    intro h1 h2
    obtain ⟨y, s'⟩ := y
    cases y with
    | error e =>
      dsimp only at h1 h2 ⊢
      refine ⟨?_, h2⟩
      unfold Gp.invYFn
      rw [← h1]
      rfl
    | ok f =>
      dsimp only at h1 h2 ⊢
      have hv : m.invYFn bk T g = f m.yTrain (T.map fun a : ℕ => (a : Int)) := by
        unfold Gp.invYFn
        rw [← h1]
        rfl
      obtain ⟨h3, h4⟩ := Lru.call_of h2.invY 2 g
      rw [hv] at h3 h4
      exact ⟨by rw [h3, hv], h2.solve, h4⟩

lemma oneM_sound (kTestTrain kTestTest : Option KArg) (g : Mode) :
    Sound (GpCache.Inv bk m T) (m.oneM bk n T kTestTrain kTestTest g) (do
      let r ← m.one bk n T g kTestTrain kTestTest
      return (g, r)) := by
  unfold Gp.oneM Gp.one
  rw [bind_assoc]
  refine Sound.liftBind fun kdd hkdd => ?_
  cases kTestTrain with
  | none =>
    dsimp only
    rw [bind_assoc]
    exact Sound.liftBind fun k _ => Sound.pure _
  | some K =>
    dsimp only
    rw [bind_assoc]
    refine Sound.liftBind fun o _ => ?_
    cases o with
    | none =>
      dsimp only
      rw [bind_assoc]
      exact Sound.liftBind fun k _ => Sound.pure _
    | some ktd =>
      dsimp only
      have hinv : m.invYFn bk T g.field = (need kdd >>= fun k =>
          choSolve bk k m.diagReg m.absolute m.yTrain (T.map fun a : ℕ => (a : Int))) := by
        unfold Gp.invYFn Gp.solveFn
        rw [hkdd]
        cases kdd <;> rfl
      have hsol : ∀ k, need kdd = .ok k → m.solveFn bk g.field = .ok fun b axes => choSolve bk k m.diagReg m.absolute b axes := by
        intro k hk
        unfold Gp.solveFn
        rw [hkdd]
        show (need kdd >>= _) = _
        rw [hk]
        rfl
      cases hk : need kdd with
      | error e =>
        intro s hs
        have h := invYM_sound (m := m) (bk := bk) (T := T) g.field
        have hr : m.invYFn bk T g.field = .error e := by rw [hinv, hk]; rfl
        rw [hr] at h
        exact h.bind (g := fun _ => .error e) (fun a ha => by cases ha) s hs
      | ok k =>
        have hr : m.invYFn bk T g.field = choSolve bk k m.diagReg m.absolute m.yTrain (T.map fun a : ℕ => (a : Int)) := by
          rw [hinv, hk]; rfl
        have hi := invYM_sound (m := m) (bk := bk) (T := T) g.field
        rw [hr] at hi
        have hso := solveM_sound (m := m) (bk := bk) (T := T) g.field
        rw [hsol k hk] at hso
        unfold Gp.mean
        rw [show ∀ {β : Type} (f : Arr ℝ → Except Err β), ((Except.ok k : Except Err (Arr ℝ)) >>= f) = f k from fun f => rfl]
        simp only [bind_assoc, pure_bind]
        refine hi.bind fun x _ => Sound.liftBind fun d _ => ?_
        cases kTestTest with
        | none => exact Sound.pure _
        | some tt =>
          dsimp only
          split_ifs with hc
          · exact Sound.lift _
          · simp only [bind_assoc]
            refine Sound.liftBind fun ki _ => Sound.liftBind fun kInit _ => ?_
            refine hso.skip (Sound.liftBind fun kt _ => Sound.liftBind fun ktt _ => ?_)
            cases g with
            | ntk =>
              dsimp only
              unfold Gp.covNtk
              simp only [bind_assoc, pure_bind]
              have hso' : Sound (GpCache.Inv bk m T) (m.solveM bk .ntk) _ := hso
              exact Sound.liftBind fun _ _ => Sound.liftBind fun _ _ => Sound.liftBind fun _ _ => hso'.skip <|
                Sound.liftBind fun _ _ => Sound.liftBind fun _ _ => Sound.liftBind fun _ _ => Sound.liftBind fun _ _ =>
                Sound.liftBind fun _ _ => Sound.liftBind fun _ _ => Sound.liftBind fun _ _ => Sound.liftBind fun _ _ => Sound.pure _
            | nngp =>
              dsimp only
              unfold Gp.covGp
              simp only [bind_assoc, pure_bind]
              exact Sound.liftBind fun _ _ => Sound.liftBind fun _ _ => Sound.liftBind fun _ _ => Sound.liftBind fun _ _ => Sound.pure _
            | ntkgp =>
              dsimp only
              unfold Gp.covGp
              simp only [bind_assoc, pure_bind]
              exact Sound.liftBind fun _ _ => Sound.liftBind fun _ _ => Sound.liftBind fun _ _ => Sound.liftBind fun _ _ => Sound.pure _

end NT.Predict
