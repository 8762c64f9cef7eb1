import Verif.Model.Ensemble

/-!
# Caches of the predictors, `neural_tangents/_src/predict.py`

`gp_inference` memoises `solve` and `k_inv_y` (629-636); `gradient_descent_mse_ensemble` keeps the train kernels in `k_dd_cache` (852-876)
and memoises `eigenspace` (878-885) and `predict_inf` (887-892).  Calls are run in a monad in which the state survives an exception.
-/

namespace NT.Predict
open NT Arr

/-- The content of a `functools.lru_cache`, most recently used first. -/
abbrev Lru (κ α : Type) := List (κ × α)

/-- The stored value for a key. -/
def Lru.find {κ α : Type} [DecidableEq κ] (l : Lru κ α) (k : κ) : Option α := (List.find? (fun e => decide (e.1 = k)) l).map (·.2)

/-- A call of a function decorated with `lru_cache(cap)`: `v` is what the function returns if it has to be evaluated; exceptions are
not stored. -/
def Lru.call {κ α : Type} [DecidableEq κ] (cap : ℕ) (l : Lru κ α) (k : κ) (v : Except Err α) : Except Err α × Lru κ α :=
  match Lru.find l k with
  | some a => (.ok a, (k, a) :: l.filter fun e => e.1 ≠ k)
  | none =>
    match v with
    | .ok a => (.ok a, ((k, a) :: l).take cap)
    | .error e => (.error e, l)

/-- Computations with a state that survives exceptions. -/
def Run (σ α : Type) := σ → Except Err α × σ

namespace Run
variable {σ α β : Type}

instance : Monad (Run σ) where
  pure a := fun s => (.ok a, s)
  bind x f := fun s => match x s with
    | (.ok a, s') => f a s'
    | (.error e, s') => (.error e, s')

/-- A computation without effect on the state. -/
def lift (x : Except Err α) : Run σ α := fun s => (x, s)

/-- Evaluate a list of computations in turn. -/
def each (f : α → Run σ β) : List α → Run σ (List β)
  | [] => pure []
  | a :: l => do
    let b ← f a
    let bs ← each f l
    pure (b :: bs)

end Run

noncomputable section

/-- The caches of one `gp_inference`: `solve`, whose values are functions, and `k_inv_y`. -/
structure GpCache where
  solve : Lru Field (Arr ℝ → List Int → Except Err (Arr ℝ))
  invY : Lru Field (Arr ℝ)

/-- The caches of a new `gp_inference`. -/
def GpCache.empty : GpCache := ⟨[], []⟩

variable (bk : Backend)

/-- What `solve(g)` evaluates to, predict.py:629-632. -/
def Gp.solveFn (m : Gp) (g : Field) : Except Err (Arr ℝ → List Int → Except Err (Arr ℝ)) := do
  let k ← m.kTrainTrain.attr g
  let k ← need k
  return fun b axes => choSolve bk k m.diagReg m.absolute b axes

/-- `solve(g)`, predict.py:629-632. -/
def Gp.solveM (m : Gp) (g : Field) : Run GpCache (Arr ℝ → List Int → Except Err (Arr ℝ)) := fun s =>
  let r := Lru.call 2 s.solve g (m.solveFn bk g)
  (r.1, { s with solve := r.2 })

/-- `k_inv_y(g)`, predict.py:634-636: `solve` is called only if the value is not stored. -/
def Gp.invYM (m : Gp) (T : List ℕ) (g : Field) : Run GpCache (Arr ℝ) := fun s =>
  match Lru.find s.invY g with
  | some a => (.ok a, { s with invY := (Lru.call 2 s.invY g (.ok a)).2 })
  | none =>
    match m.solveM bk g s with
    | (.error e, s') => (.error e, s')
    | (.ok f, s') =>
      let r := Lru.call 2 s'.invY g (f m.yTrain (T.map fun a : ℕ => (a : Int)))
      (r.1, { s' with invY := r.2 })

/-- One mode of `predict_fn` of `gp_inference` with its caches, predict.py:688-743. -/
def Gp.oneM (m : Gp) (n : ℕ) (T : List ℕ) (kTestTrain kTestTest : Option KArg) (g : Mode) :
    Run GpCache (Mode × Arr ℝ × Option (Arr ℝ)) := do
  let kdd ← Run.lift (m.kTrainTrain.attr g.field)
  match kTestTrain with
  | none => do
    let kdd ← Run.lift (need kdd)
    pure (g, m.yTrain, kTestTest.map fun _ => ⟨kdd.shape, fun _ => 0⟩)
  | some K => do
    match ← Run.lift (K.attr g.field) with
    | none => do
      let kdd ← Run.lift (need kdd)
      pure (g, m.yTrain, kTestTest.map fun _ => ⟨kdd.shape, fun _ => 0⟩)
    | some ktd => do
      let x ← m.invYM bk T g.field
      let d ← Run.lift (dotGeneral ktd x (getAxes n).2.1 (getAxes n).2.2.1 [] [])
      let y := d.moveaxis (lastAxes d.ndim T.length) T
      match kTestTest with
      | none => pure (g, y, none)
      | some tt =>
        if g = .ntk ∧ (¬ m.kTrainTrain.hasNngp ∨ ¬ K.hasNngp) then Run.lift (.error .valueError)
        else do
          let kInit ← Run.lift (K.attr g.init)
          let kInit ← Run.lift (needArr kInit)
          let sol ← m.solveM bk g.field
          let ktt ← Run.lift (tt.attr g.init)
          let ktt ← Run.lift (needArr ktt)
          match g with
          | .ntk => do
            let nngpDd ← Run.lift (m.kTrainTrain.attr .nngp)
            let nngpDd ← Run.lift (needArr nngpDd)
            let w ← Run.lift (sol kInit ((getAxes n).1.map fun a : ℕ => (a : Int)))
            let sol ← m.solveM bk .ntk
            let t1 ← Run.lift (sol ktd ((getAxes n).1.map fun a : ℕ => (a : Int)))
            let c ← Run.lift (dotGeneral nngpDd t1 (getAxes n).2.1 (getAxes n).2.2.1 [] [])
            let c ← Run.lift (dotGeneral t1 c (getAxes n).2.2.1 (getAxes n).2.2.1 [] [])
            let t2 ← Run.lift (dotGeneral ktd w (getAxes n).2.1 (getAxes n).2.2.1 [] [])
            let t2 ← Run.lift (zipB (fun a b => a + b) t2 (t2.moveaxis (getAxes n).2.2.1 (getAxes n).2.2.2))
            let c ← Run.lift (zipB (fun a b => a - b) c t2)
            let c ← Run.lift (zipAxes c)
            let c ← Run.lift (zipB (fun a b => a + b) c ktt)
            pure (g, y, some c)
          | _ => do
            let w ← Run.lift (sol kInit ((getAxes n).1.map fun a : ℕ => (a : Int)))
            let c ← Run.lift (dotGeneral ktd w (getAxes n).2.1 (getAxes n).2.2.1 [] [])
            let c ← Run.lift (zipAxes c)
            let c ← Run.lift (zipB (fun a b => a - b) ktt c)
            pure (g, y, some c)

/-- A call of the function returned by `gp_inference`: modes, `k_test_train`, `k_test_test`. -/
structure GpQuery where
  get : List Mode
  kTestTrain : Option KArg
  kTestTest : Option KArg

/-- A call of the function returned by `gp_inference`, predict.py:638-743, given what `gp_inference` computed when it was called: the rank
`n` of the train kernel and the trace axes. -/
def Gp.run (m : Gp) (n : ℕ) (T : List ℕ) (q : GpQuery) : Run GpCache (List (Mode × Arr ℝ × Option (Arr ℝ))) :=
  Run.each (m.oneM bk n T q.kTestTrain q.kTestTest) q.get

/-- The caches of `gradient_descent_mse_ensemble`: which train kernels are in `k_dd_cache`; the stored decompositions; and for each `get`
which train kernels the stored predictor holds.  The caches inside a stored predictor are left out. -/
structure EnsCache where
  kdd : Field → Bool
  eig : Lru Field (Arr ℝ × Arr ℝ)
  inf : Lru (List Field) (Field → Bool)

/-- The caches of a new `predict_fn`. -/
def EnsCache.empty : EnsCache := ⟨fun _ => false, [], []⟩

/-- `get_k_train_train(get)`, predict.py:854-876: the missing kernels are computed. -/
def EnsCache.train (s : EnsCache) (get : List Field) : EnsCache := { s with kdd := fun f => s.kdd f || get.contains f }

/-- `eigenspace(g)`, predict.py:878-885: on a miss the train kernel is looked up first. -/
def Ens.eigM (m : Ens) (g : Field) : Run EnsCache (Arr ℝ × Arr ℝ) := fun s =>
  match Lru.find s.eig g with
  | some a => (.ok a, { s with eig := (Lru.call 2 s.eig g (.ok a)).2 })
  | none =>
    let s := s.train [g]
    let r := Lru.call 2 s.eig g (eigenspace bk (m.kdd g) m.diagReg m.absolute)
    (r.1, { s with eig := r.2 })

/-- `predict_inf(get)`, predict.py:887-892: the result stands for the predictor that holds these train kernels. -/
def infM (get : List Field) : Run EnsCache (Field → Bool) := fun s =>
  match Lru.find s.inf get with
  | some a => (.ok a, { s with inf := (Lru.call 4 s.inf get (.ok a)).2 })
  | none =>
    let s := s.train get
    let r := Lru.call 4 s.inf get (.ok s.kdd)
    (r.1, { s with inf := r.2 })

/-- A call of the function returned by `gradient_descent_mse_ensemble`. -/
structure EnsQuery where
  t : Option (Arr ℝ)
  x : Option TestSet
  get : List Field
  cov : Bool

/-- The value of `get_k_train_train(_get_dependency(get, compute_cov))`, predict.py:854-876, 896-897: the dictionary as it is at that
point. -/
def depM (q : EnsQuery) : Run EnsCache (Field → Bool) := fun s =>
  let s := s.train ([.nngp, .ntk].filter (needs q.get q.cov))
  (.ok s.kdd, s)

/-- A call of the function returned by `gradient_descent_mse_ensemble`, predict.py:945-1098; an empty `get` and repetitions are refused
by the decorator (utils.py:139-155). -/
def Ens.run (m : Ens) (T : List ℕ) (q : EnsQuery) : Run EnsCache (List (Field × Arr ℝ × Option (Arr ℝ))) :=
  if q.get = [] ∨ ¬ q.get.Nodup then Run.lift (.error .valueError)
  else do
    let kdd ← depM q
    match q.t with
    | none => do
      let snap ← infM q.get
      Run.each (fun g => do
        let r ← Run.lift ((m.gp T (m.kddArg snap)).predict bk g.mode (q.x.map fun x => x.ktdArg q.get q.cov)
          ((testTest q.x q.cov).map ttArg))
        pure (g, r)) q.get
    | some t =>
      Run.each (fun g => do
        let es ← m.eigM bk g
        let r ← Run.lift (m.finite T es g t (m.kddArg kdd) (q.x.map fun x => x.ktdArg q.get q.cov) (testTest q.x q.cov))
        pure (g, r)) q.get

/-- The state after a sequence of calls; exceptions are caught by the caller. -/
def after {σ α γ : Type} (run : γ → Run σ α) (s : σ) : List γ → σ
  | [] => s
  | q :: qs => after run (run q s).2 qs

end

end NT.Predict
