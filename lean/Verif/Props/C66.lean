import Verif.Lemmas.PredictCache
import Verif.Props.C65

/-!
# C66: the caches of the predictors do not show

A call gives the same answer whatever calls preceded it.
-/

namespace NT.C66
open NT Arr Spec Predict

/-- **C66.** The function returned by `gp_inference` gives the same answer after any sequence of calls, whether they succeeded or
raised, as when it is called first. -/
theorem gp_history_independent (bk : Backend) (m : Gp) (n : ℕ) (T : List ℕ) (qs : List GpQuery) (q : GpQuery) :
    (m.run bk n T q (after (m.run bk n T) .empty qs)).1 = (m.run bk n T q .empty).1 := by
  have hs : ∀ q, Sound (GpCache.Inv bk m T) (m.run bk n T q) _ := fun q => Sound.each (fun g => oneM_sound _ _ g) q.get
  have h0 : GpCache.Inv bk m T .empty := ⟨fun _ h => by simp [GpCache.empty] at h, fun _ h => by simp [GpCache.empty] at h⟩
  have h1 := after_keeps (fun q s hI => (hs q s hI).2) _ h0 qs
  rw [(hs q _ h1).1, (hs q _ h0).1]

/-- **C66.** The answer for several modes is that of each of them, computed without caches. -/
theorem gp_is_uncached (bk : Backend) (m : Gp) (k : Arr ℝ) (T : List ℕ) (hk : m.kTrainTrain.first = .ok k)
    (hT : axesOf bk m.traceAxes m.yTrain.ndim = .ok T) (qs : List GpQuery) (q : GpQuery) :
    (m.run bk k.ndim T q (after (m.run bk k.ndim T) .empty qs)).1 = q.get.mapM fun g => do
      let r ← m.predict bk g q.kTestTrain q.kTestTest
      return (g, r) := by
  have hs : ∀ q, Sound (GpCache.Inv bk m T) (m.run bk k.ndim T q) _ := fun q => Sound.each (fun g => oneM_sound _ _ g) q.get
  have h0 : GpCache.Inv bk m T .empty := ⟨fun _ h => by simp [GpCache.empty] at h, fun _ h => by simp [GpCache.empty] at h⟩
  have h1 := after_keeps (fun q s hI => (hs q s hI).2) _ h0 qs
  rw [(hs q _ h1).1]
  congr 1
  funext g
  unfold Gp.predict
  rw [hk, hT]
  rfl

variable {bk : Backend} {m : Ens} {T S : List ℕ}

lemma finite_cache (hS : ∀ g, (m.kdd g).shape = S) (es : Arr ℝ × Arr ℝ) (g : Field) (t : Arr ℝ) (q : EnsQuery) (hg : g ∈ q.get)
    (c : Field → Bool) (hc : ∀ f, needs q.get q.cov f = true → c f = true) :
    m.finite T es g t (m.kddArg c) (q.x.map fun x => x.ktdArg q.get q.cov) (testTest q.x q.cov) =
      m.finite T es g t (m.kddArg (needs q.get q.cov)) (q.x.map fun x => x.ktdArg q.get q.cov) (testTest q.x q.cov) := by
  have hself := needs_self hg q.cov
  obtain ⟨f1, e1⟩ := kddArg_first (m := m) c g (hc g hself)
  obtain ⟨f2, e2⟩ := kddArg_first (m := m) (needs q.get q.cov) g hself
  have hr : ∀ k k' mean, k.shape = k'.shape → m.reshapeMean T t k mean = m.reshapeMean T t k' mean := by
    intro k k' mean h
    have h' : k.ndim = k'.ndim := congrArg List.length h
    unfold Ens.reshapeMean
    rw [h', h]
  have hr' : ∀ k k' cov, k.shape = k'.shape → reshapeCov t k cov = reshapeCov t k' cov := by
    intro k k' mean h
    have h' : k.ndim = k'.ndim := congrArg List.length h
    unfold reshapeCov
    rw [h', h]
  have hsh : (m.kdd f1).shape = (m.kdd f2).shape := by rw [hS, hS]
  obtain ⟨qt, qx, qg, qc⟩ := q
  dsimp only at *
  cases qc with
  | false =>
    unfold Ens.finite
    simp only [testTest, Bool.false_eq_true, if_false]
    cases qx with
    | none => simp only [Option.map_none, Option.getD_none, e1, e2, bind, Except.bind, hr _ _ _ hsh]
    | some x => rfl
  | true =>
    have hn : needs qg true .nngp = true := needs_nngp hg
    unfold Ens.finite
    cases qx with
    | none =>
      simp only [testTest, if_true, Option.map_none, Option.getD_none, e1, e2, bind, Except.bind, hr _ _ _ hsh, hr' _ _ _ hsh, kddArg_attr, hn,
        hc _ hn]
    | some x =>
      simp only [testTest, if_true, Option.map_some, kddArg_attr, hn, hc _ hn, Option.getD_some]

lemma inf_cache (hS : ∀ g, (m.kdd g).shape = S) (g : Field) (q : EnsQuery) (hg : g ∈ q.get) (c : Field → Bool) (hc : ∀ f ∈ q.get, c f = true)
    (hn : q.cov = true → q.x.isSome → c .nngp = true) :
    (m.gp T (m.kddArg c)).predict bk g.mode (q.x.map fun x => x.ktdArg q.get q.cov) ((testTest q.x q.cov).map ttArg) =
      (m.gp T (m.kddArg (needs q.get q.cov))).predict bk g.mode (q.x.map fun x => x.ktdArg q.get q.cov)
        ((testTest q.x q.cov).map ttArg) := by
  have hself := needs_self hg q.cov
  obtain ⟨f1, e1⟩ := kddArg_first (m := m) c g (hc g hg)
  obtain ⟨f2, e2⟩ := kddArg_first (m := m) (needs q.get q.cov) g hself
  have e1' : (m.gp T (m.kddArg c)).kTrainTrain.first = .ok (m.kdd f1) := e1
  have e2' : (m.gp T (m.kddArg (needs q.get q.cov))).kTrainTrain.first = .ok (m.kdd f2) := e2
  have hsh : (m.kdd f1).ndim = (m.kdd f2).ndim := by rw [ndim, ndim, hS, hS]
  have hf : g.mode.field = g := by cases g <;> rfl
  have a1 : (m.gp T (m.kddArg c)).kTrainTrain.attr g = .ok (some (m.kdd g)) := by
    show (m.kddArg _).attr _ = _
    rw [kddArg_attr, if_pos (hc g hg)]
  have a2 : (m.gp T (m.kddArg (needs q.get q.cov))).kTrainTrain.attr g = .ok (some (m.kdd g)) := by
    show (m.kddArg _).attr _ = _
    rw [kddArg_attr, if_pos hself]
  unfold Gp.predict Gp.one
  simp only [hf, e1', e2', a1, a2, bind, Except.bind, hsh]
  obtain ⟨qt, qx, qg, qc⟩ := q
  dsimp only at *
  cases qx with
  | none => rfl
  | some x =>
    cases qc with
    | false => rfl
    | true =>
      have hb : needs qg true .nngp = true := needs_nngp hg
      have b1 : (m.gp T (m.kddArg c)).kTrainTrain.attr .nngp = .ok (some (m.kdd .nngp)) := by
        show (m.kddArg _).attr _ = _
        rw [kddArg_attr, if_pos (hn rfl rfl)]
      have b2 : (m.gp T (m.kddArg (needs qg true))).kTrainTrain.attr .nngp = .ok (some (m.kdd .nngp)) := by
        show (m.kddArg _).attr _ = _
        rw [kddArg_attr, if_pos hb]
      have n1 : (m.gp T (m.kddArg c)).kTrainTrain.hasNngp = (m.gp T (m.kddArg (needs qg true))).kTrainTrain.hasNngp := rfl
      simp only [b1, b2, n1]
      rfl

/-- What the caches of the ensemble predictor hold. -/
structure Inv (bk : Backend) (m : Ens) (s : EnsCache) : Prop where
  eig : s.eig.Of fun g => eigenspace bk (m.kdd g) m.diagReg m.absolute
  inf : ∀ e ∈ s.inf, ∀ g ∈ e.1, e.2 g = true

lemma inv_train {s : EnsCache} (hs : Inv bk m s) (l : List Field) : Inv bk m (s.train l) := ⟨hs.eig, hs.inf⟩

lemma eigM_sound (g : Field) : Sound (Inv bk m) (m.eigM bk g) (eigenspace bk (m.kdd g) m.diagReg m.absolute) := by
  intro s hs
  unfold Ens.eigM
  cases hl : Lru.find s.eig g with
  | some a =>
    have hm := hs.eig _ (lookup_mem hl)
    dsimp only at hm ⊢
    have := (Lru.call_of hs.eig 2 g).2
    rw [hm] at this
    exact ⟨hm.symm, this, hs.inf⟩
  | none =>
    obtain ⟨h1, h2⟩ := Lru.call_of (inv_train hs [g]).eig 2 g
    exact ⟨h1, h2, hs.inf⟩

lemma infM_ok (get : List Field) (s : EnsCache) (hs : Inv bk m s) :
    ∃ c s', infM get s = (.ok c, s') ∧ (∀ g ∈ get, c g = true) ∧ Inv bk m s' := by
  unfold infM
  cases hl : Lru.find s.inf get with
  | some a =>
    have hm := lookup_mem hl
    refine ⟨a, _, rfl, fun g hg => hs.inf _ hm g hg, hs.eig, fun e he => ?_⟩
    simp only [Lru.call, hl] at he
    rcases List.mem_cons.1 he with rfl | he
    · exact hs.inf _ hm
    · exact hs.inf _ (List.mem_filter.1 he).1
  | none =>
    have hl' : Lru.find (s.train get).inf get = none := hl
    simp only [Lru.call, hl']
    have hc : ∀ g ∈ get, (s.train get).kdd g = true := fun g hg => by simp [EnsCache.train, hg]
    refine ⟨_, _, rfl, hc, hs.eig, fun e he => ?_⟩
    rcases List.mem_cons.1 (List.mem_of_mem_take he) with rfl | he
    · exact hc
    · exact hs.inf _ he

/-- The queries for which the predictor can depend on the history: the covariance on a test set at infinite time for `get = 'ntk'`
alone. -/
def Excluded (q : EnsQuery) : Prop := q.t = none ∧ q.x.isSome ∧ q.cov = true ∧ q.get = [.ntk]

/-- What a query returns, without caches. -/
noncomputable def answer (bk : Backend) (m : Ens) (q : EnsQuery) : Except Err (List (Field × Arr ℝ × Option (Arr ℝ))) :=
  if q.get = [] ∨ ¬ q.get.Nodup then .error .valueError
  else q.get.mapM fun g => do
    let r ← m.fresh bk q.get g q.t q.x q.cov
    return (g, r)

lemma nodup_fields {l : List Field} (h : l.Nodup) (hne : l ≠ []) (h1 : l ≠ [.ntk]) : .nngp ∈ l := by
  match l, h with
  | [], _ => exact absurd rfl hne
  | [.ntk], _ => exact absurd rfl h1
  | .nngp :: _, _ => exact List.mem_cons_self
  | .ntk :: .nngp :: _, _ => simp
  | .ntk :: .ntk :: _, h => simp at h

lemma run_keeps (q : EnsQuery) (s : EnsCache) (hs : Inv bk m s) : Inv bk m (m.run bk T q s).2 := by
  unfold Ens.run
  split_ifs with h0
  · exact hs
  have h1 : Inv bk m (depM q s).2 := inv_train hs _
  cases ht : q.t with
  | some t =>
    exact (Sound.each_mem (g := fun g => do
        let es ← eigenspace bk (m.kdd g) m.diagReg m.absolute
        let r ← m.finite T es g t (m.kddArg (depM q s).2.kdd) (q.x.map fun x => x.ktdArg q.get q.cov) (testTest q.x q.cov)
        return (g, r)) q.get (fun g _ => (eigM_sound g).bind fun es _ => Sound.liftBind fun _ _ => Sound.pure _) _ h1).2
  | none =>
    obtain ⟨c, s', e1, e2, e3⟩ := infM_ok (bk := bk) (m := m) q.get _ h1
    have h := (Sound.each_mem (I := Inv bk m) (g := fun g => do
        let r ← (m.gp T (m.kddArg c)).predict bk g.mode (q.x.map fun x => x.ktdArg q.get q.cov) ((testTest q.x q.cov).map ttArg)
        return (g, r)) q.get (fun g _ => Sound.liftBind fun _ _ => Sound.pure _) s' e3).2
    rw [run_bind_ok (show depM q s = (.ok (depM q s).2.kdd, (depM q s).2) from rfl)]
    dsimp only
    rw [run_bind_ok e1]
    exact h

lemma run_answer (hT : axesOf bk m.traceAxes m.yTrain.ndim = .ok T) (hS : ∀ g, (m.kdd g).shape = S) (q : EnsQuery) (s : EnsCache)
    (hs : Inv bk m s) (hq : Excluded q → (s = .empty)) : (m.run bk T q s).1 = answer bk m q := by
  unfold Ens.run answer
  split_ifs with h0
  · rfl
  push Not at h0
  have h1 : Inv bk m (depM q s).2 := inv_train hs _
  have hdep : ∀ f, needs q.get q.cov f = true → (depM q s).2.kdd f = true := by
    intro f hf
    have : f ∈ [Field.nngp, .ntk].filter (needs q.get q.cov) := List.mem_filter.2 ⟨by cases f <;> simp, hf⟩
    simp only [depM, EnsCache.train, Bool.or_eq_true, List.contains_iff_mem]
    exact Or.inr this
  cases ht : q.t with
  | some t =>
    refine (Sound.each_mem (I := Inv bk m) (g := _) q.get (fun g hg => ?_) _ h1).1
    have hf : m.fresh bk q.get g (some t) q.x q.cov = (do
        let es ← eigenspace bk (m.kdd g) m.diagReg m.absolute
        m.finite T es g t (m.kddArg (depM q s).2.kdd) (q.x.map fun x => x.ktdArg q.get q.cov) (testTest q.x q.cov)) := by
      unfold Ens.fresh
      rw [hT]
      simp only [finite_cache hS _ g t q hg _ hdep]
      rfl
    rw [hf, bind_assoc]
    exact (eigM_sound g).bind fun es _ => Sound.liftBind fun _ _ => Sound.pure _
  | none =>
    obtain ⟨c, s', e1, e2, e3⟩ := infM_ok (bk := bk) (m := m) q.get _ h1
    have hcn : q.cov = true → q.x.isSome → c .nngp = true := by
      intro hc hx
      by_cases hg : q.get = [.ntk]
      · obtain rfl := hq ⟨ht, hx, hc, hg⟩
        have : infM q.get (depM q .empty).2 = (.ok ((depM q .empty).2.train q.get).kdd, _) := rfl
        rw [this] at e1
        have hc' := congrArg Prod.fst e1
        simp only [Except.ok.injEq] at hc'
        rw [← hc']
        have := hdep .nngp (by simp [needs, hg, hc])
        simp only [EnsCache.train, this, Bool.true_or]
      · exact e2 _ (nodup_fields h0.2 h0.1 hg)
    have h := (Sound.each_mem (I := Inv bk m) (g := fun g => do
        let r ← m.fresh bk q.get g none q.x q.cov
        return (g, r)) q.get (fun g hg => by
          have hf : m.fresh bk q.get g none q.x q.cov = (m.gp T (m.kddArg c)).predict bk g.mode
              (q.x.map fun x => x.ktdArg q.get q.cov) ((testTest q.x q.cov).map ttArg) := by
            unfold Ens.fresh
            rw [hT]
            exact (inf_cache hS g q hg c e2 hcn).symm
          rw [hf]
          exact Sound.liftBind fun _ _ => Sound.pure _) s' e3).1
    rw [run_bind_ok (show depM q s = (.ok (depM q s).2.kdd, (depM q s).2) from rfl)]
    dsimp only
    rw [run_bind_ok e1]
    exact h

lemma inv_empty : Inv bk m .empty := ⟨fun _ h => by simp [EnsCache.empty] at h, fun _ h => by simp [EnsCache.empty] at h⟩

/-- **C66.** The first call of the function returned by `gradient_descent_mse_ensemble` returns, for every entry of `get`, what is
computed without caches. -/
theorem first_call (hT : axesOf bk m.traceAxes m.yTrain.ndim = .ok T) (hS : ∀ g, (m.kdd g).shape = S) (q : EnsQuery) :
    (m.run bk T q .empty).1 = answer bk m q := run_answer hT hS q _ inv_empty fun _ => rfl

/-- **C66.** The function returned by `gradient_descent_mse_ensemble` gives the same answer after any sequence of calls, whether they
succeeded or raised, as when it is called first, unless the call asks for the covariance on a test set at infinite time with
`get = 'ntk'` alone.  The two train kernels are assumed to have the same shape. -/
theorem history_independent_partial (hT : axesOf bk m.traceAxes m.yTrain.ndim = .ok T) (hS : ∀ g, (m.kdd g).shape = S)
    (qs : List EnsQuery) (q : EnsQuery) (hq : ¬ Excluded q) :
    (m.run bk T q (after (m.run bk T) .empty qs)).1 = (m.run bk T q .empty).1 := by
  rw [first_call hT hS, run_answer hT hS q _ (after_keeps (fun q s => run_keeps q s) _ inv_empty qs) fun h => absurd h hq]

/-- **C66, a departure.** After a call at infinite time with `get = 'ntk'` for the mean alone, the call for the covariance raises a
`TypeError`, although it succeeds if it comes first: the stored predictor lacks the NNGP kernel. -/
theorem history_dependent {R s' S' : List ℕ} (hb : bk.Correct) (h : m.Fits bk T S R) (hK : (C65.driving m S .ntk).PosDef) (x : TestSet)
    (ht : m.TestFits T S R x s' S') :
    (∃ mean C, (m.run bk T ⟨none, some x, [.ntk], true⟩ .empty).1 = .ok [(.ntk, mean, some C)]) ∧
      (m.run bk T ⟨none, some x, [.ntk], true⟩ (after (m.run bk T) .empty [⟨none, some x, [.ntk], false⟩])).1 = .error .typeError := by
  constructor
  · rw [first_call h.axes h.kernel]
    obtain ⟨mean, C, c1, -, -, -, c2⟩ := ens_inf hb h .ntk hK [.ntk] (by decide) true x s' S' ht (needs [.ntk] true) (by decide)
      (fun _ => by decide)
    obtain ⟨c, rfl, -⟩ := c2 rfl
    refine ⟨mean, c, ?_⟩
    have hf : m.fresh bk [.ntk] .ntk none (some x) true = .ok (mean, some c) := by
      unfold Ens.fresh
      rw [h.axes]
      exact c1
    simp [answer, hf, bind, Except.bind, pure, Except.pure]
  · set c0 : Field → Bool := fun f => (false || [Field.ntk].contains f) || [Field.ntk].contains f with hc0
    have hst : (after (m.run bk T) .empty [⟨none, some x, [.ntk], false⟩]).inf = [([.ntk], c0)] := by
      show ((m.run bk T ⟨none, some x, [.ntk], false⟩) .empty).2.inf = _
      unfold Ens.run
      rw [if_neg (by simp)]
      exact (Sound.each (I := fun s : EnsCache => s.inf = [([.ntk], c0)]) (g := fun g : Field => do
        let r ← (m.gp T (m.kddArg c0)).predict bk g.mode (some (x.ktdArg [.ntk] false)) none
        return (g, r)) (fun g => Sound.liftBind fun _ _ => Sound.pure _) [.ntk] _ rfl).2
    revert hst
    generalize after (m.run bk T) .empty [⟨none, some x, [.ntk], false⟩] = s
    intro hst
    unfold Ens.run
    rw [if_neg (by simp), run_bind_ok (show depM _ s = (.ok (depM _ s).2.kdd, (depM _ s).2) from rfl)]
    dsimp only
    have hinf : ∃ s', infM [.ntk] (depM ⟨none, some x, [.ntk], true⟩ s).2 = (.ok c0, s') := by
      have h1 : (depM ⟨none, some x, [.ntk], true⟩ s).2.inf = [([.ntk], c0)] := hst
      have h2 : Lru.find (depM ⟨none, some x, [.ntk], true⟩ s).2.inf [.ntk] = some c0 := by rw [h1]; rfl
      unfold infM
      simp only [h2]
      exact ⟨_, rfl⟩
    obtain ⟨s2, hinf⟩ := hinf
    rw [run_bind_ok hinf]
    have hp : (m.gp T (m.kddArg c0)).predict bk .ntk (some (x.ktdArg [.ntk] true)) (some (.arr x.ktt)) = .error .typeError := by
      have hfit : (m.gp T (m.kddArg c0)).Fits bk .ntk T S R (m.kdd .ntk) :=
        ⟨axesOf_neg hb h.axes, h.rows, h.cols, h.nonempty, rfl, h.kernel _, ⟨m.kdd .ntk, rfl, by rw [ndim, h.kernel, interleave_length rfl]⟩,
          h.order⟩
      obtain ⟨y, y1, -⟩ := mean_ok hb hfit hK (s' := s') (S' := S') (ktd := x.ktd .ntk) ⟨ht.rank, ht.rows, ht.cols, ht.kernel _⟩
      have k1 : (m.gp T (m.kddArg c0)).kTrainTrain.first = .ok (m.kdd .ntk) := rfl
      have k2 : (m.gp T (m.kddArg c0)).kTrainTrain.attr Mode.ntk.field = .ok (some (m.kdd .ntk)) := rfl
      have k3 : (m.gp T (m.kddArg c0)).kTrainTrain.attr .nngp = .ok none := rfl
      have k4 : (x.ktdArg [.ntk] true).attr Mode.ntk.field = .ok (some (x.ktd .ntk)) := rfl
      have k5 : (x.ktdArg [.ntk] true).attr Mode.ntk.init = .ok (some (x.ktd .nngp)) := rfl
      have k7 : (KArg.arr x.ktt).attr Mode.ntk.init = .ok (some x.ktt) := rfl
      have hr : (m.kdd .ntk).ndim = 2 * S.length := by rw [ndim, h.kernel, interleave_length rfl]
      unfold Gp.predict Gp.one
      simp only [bind, Except.bind, k1, k2, k3, k4, k5, k7, hfit.axes, need, needArr, hr, y1]
      rfl
    show (Run.each _ [Field.ntk] s2).1 = _
    have := (Sound.each (I := fun _ : EnsCache => True) (g := fun g : Field => do
        let r ← (m.gp T (m.kddArg c0)).predict bk g.mode (some (x.ktdArg [.ntk] true)) (some (.arr x.ktt))
        return (g, r)) (fun g => Sound.liftBind fun _ _ => Sound.pure _) [.ntk] s2 trivial).1
    refine this.trans ?_
    have hm : Field.ntk.mode = .ntk := rfl
    simp [List.mapM_cons, hm, hp, bind, Except.bind]

/-! Cases that meet the hypotheses. -/

example := gp_is_uncached exact C64.exG C64.exK [1] rfl C61.exM_fits.axes
  [⟨[.nngp, .ntkgp], some (.arr C64.exTd), none⟩, ⟨[.ntk], none, none⟩] ⟨[.nngp], some (.arr C64.exTd), some (.arr C64.exTt)⟩

example := history_independent_partial C65.exE_fits.axes C65.exE_fits.kernel
  [⟨none, none, [.nngp], false⟩, ⟨some ⟨[2], fun i => i.getD 0 0⟩, some C65.exX, [.ntk], true⟩] ⟨none, some C65.exX, [.nngp, .ntk], true⟩
  (by simp [Excluded])

example := history_dependent exact_correct C65.exE_fits (C65.exE_posDef .ntk) C65.exX C65.exX_fits

end NT.C66
