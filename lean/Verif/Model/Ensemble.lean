import Verif.Model.Gp

/-!
# `gradient_descent_mse_ensemble`, `neural_tangents/_src/predict.py:753-1100`

`kernel_fn` is a parameter: the values it returns for the training set and for a test set are given.  Keyword arguments of `kernel_fn`
are not modelled.
-/

namespace NT.Predict
open NT Arr

/-- Arguments of `gradient_descent_mse_ensemble`, predict.py:753-762: `kdd g` is `kernel_fn(x_train, None, g)`. -/
structure Ens where
  kdd : Field → Arr ℝ
  yTrain : Arr ℝ
  learningRate : ℝ
  diagReg : ℝ
  absolute : Bool
  traceAxes : List Int

/-- A test set `x_test`: `ktd g` is `kernel_fn(x_test, x_train, g)`, `ktt` is `kernel_fn(x_test, None, 'nngp')`. -/
structure TestSet where
  ktd : Field → Arr ℝ
  ktt : Arr ℝ

noncomputable section

/-- `jnp.einsum('ji,ti,ki->tjk', evecs, fn(evals, t), evecs)`, predict.py:1030-1036, 1039-1044. -/
def eigFn (es : Arr ℝ × Arr ℝ) (fn : ℝ → ℝ → ℝ) (t : Arr ℝ) : Arr ℝ :=
  let n := es.2.shape.getD 0 0
  ⟨[t.shape.getD 0 0, n, n], fun ix => ∑ i ∈ Finset.range n,
    es.2.get [ix.getD 1 0, i] * fn (es.1.get [i]) (t.get [ix.getD 0 0]) * es.2.get [ix.getD 2 0, i]⟩

/-- `jnp.einsum('lj,tj...->tl...', a, d)`: the contraction with the test-train kernel in predict.py:1011-1014. -/
def leftE (a d : Arr ℝ) : Except Err (Arr ℝ) :=
  let n := a.shape.getD 1 0
  if d.shape.getD 1 0 = n then
    .ok ⟨d.shape.set 1 (a.shape.getD 0 0), fun ix => ∑ j ∈ Finset.range n, a.get [ix.getD 1 0, j] * d.get (ix.getD 0 0 :: j :: ix.drop 2)⟩
  else .error .valueError

/-- `jnp.einsum('tmk,lk->tml', d, b)`: the contraction with the test-train kernel in predict.py:1066-1069. -/
def rightE (d b : Arr ℝ) : Except Err (Arr ℝ) :=
  let n := b.shape.getD 1 0
  if d.shape.getD 2 0 = n then
    .ok ⟨[d.shape.getD 0 0, d.shape.getD 1 0, b.shape.getD 0 0], fun ix =>
      ∑ k ∈ Finset.range n, d.get [ix.getD 0 0, ix.getD 1 0, k] * b.get [ix.getD 2 0, k]⟩
  else .error .valueError

/-- `jnp.einsum('tmk,kl,tnl->tmn', x, a, x)`, predict.py:1045-1050. -/
def outerE (x a : Arr ℝ) : Except Err (Arr ℝ) :=
  let n := x.shape.getD 2 0
  if a.shape = [n, n] then
    .ok ⟨[x.shape.getD 0 0, x.shape.getD 1 0, x.shape.getD 1 0], fun ix => ∑ k ∈ Finset.range n, ∑ l ∈ Finset.range n,
      x.get [ix.getD 0 0, ix.getD 1 0, k] * a.get [k, l] * x.get [ix.getD 0 0, ix.getD 2 0, l]⟩
  else .error .valueError

/-- `jnp.einsum('tji,jk,tkl->til', x, a, x)`, predict.py:1075-1078. -/
def innerE (x a : Arr ℝ) : Except Err (Arr ℝ) :=
  let n := x.shape.getD 1 0
  if a.shape = [n, n] then
    .ok ⟨[x.shape.getD 0 0, x.shape.getD 2 0, x.shape.getD 2 0], fun ix => ∑ j ∈ Finset.range n, ∑ k ∈ Finset.range n,
      x.get [ix.getD 0 0, j, ix.getD 1 0] * a.get [j, k] * x.get [ix.getD 0 0, k, ix.getD 2 0]⟩
  else .error .valueError

/-- `jnp.expand_dims(a, 0) + d` for `a` of rank 2 and `d` of rank 3, predict.py:1055, 1057, 1079. -/
def addE (a d : Arr ℝ) : Except Err (Arr ℝ) :=
  if d.shape.tail = a.shape then .ok ⟨d.shape, fun ix => a.get ix.tail + d.get ix⟩ else .error .valueError

variable (bk : Backend) (m : Ens)

/-- `t = jnp.array(t) * learning_rate; t.reshape((-1, 1))`, predict.py:987-989. -/
def Ens.times (t : Arr ℝ) : Arr ℝ := (t.map fun v => v * m.learningRate).reshape [t.shape.prod]

/-- `reshape_mean`, predict.py:991-995. -/
def Ens.reshapeMean (T : List ℕ) (t k mean : Arr ℝ) : Except Err (Arr ℝ) := do
  let d ← reshapeE mean (t.shape ++ gather (pyRange 0 k.ndim 2) k.shape ++ gather T m.yTrain.shape)
  return d.moveaxis (lastAxes d.ndim T.length) (T.map fun a => d.ndim - m.yTrain.ndim + a)

/-- `reshape_cov`, predict.py:997-1000. -/
def reshapeCov (t k cov : Arr ℝ) : Except Err (Arr ℝ) := do
  let d ← reshapeE cov (t.shape ++ gather (pyRange 0 k.ndim 2) k.shape ++ gather (pyRange 0 k.ndim 2) k.shape)
  zipAxes d t.shape.length

/-- The mean on the training or test set at finite time, predict.py:1004-1019; the contraction with the test-train kernel is done as
a second step. -/
def Ens.meanFlat (es : Arr ℝ × Arr ℝ) (g : Field) (tt y : Arr ℝ) (ktd : Option KArg) : Except Err (Arr ℝ) :=
  match ktd with
  | none => einsumEig es.1 es.2 (fun e t => -expm1Fn m.yTrain.shape.prod e t) y tt
  | some K => do
    let k ← K.attr g
    let k ← needArr k
    let k ← make2d k
    let d ← einsumEig es.1 es.2 (fun e t => -invExpm1Fn m.yTrain.shape.prod e t) y tt
    leftE k d

/-- The covariance on the training set at finite time, predict.py:1027-1050. -/
def Ens.covTrain (es : Arr ℝ × Arr ℝ) (g : Field) (tt nngpDd : Arr ℝ) : Except Err (Arr ℝ) :=
  match g with
  | .nngp => .ok (eigFn es (fun e t => max e 0 * Real.exp (-2 * max e 0 * t / m.yTrain.shape.prod)) tt)
  | .ntk => outerE (eigFn es (fun e t => Real.exp (-(max e 0) * t / m.yTrain.shape.prod)) tt) nngpDd

/-- The covariance on the test set at finite time, predict.py:1055-1082; the products of more than two factors are done in steps. -/
def Ens.covTest (es : Arr ℝ × Arr ℝ) (g : Field) (tt nngpDd : Arr ℝ) (K : KArg) (ktt : Arr ℝ) : Except Err (Arr ℝ) := do
  let k ← K.attr g
  let k ← needArr k
  let k ← make2d k
  let ktt ← make2d ktt
  match g with
  | .nngp => do
    let d ← rightE (eigFn es (fun e t => -invExpm1Fn m.yTrain.shape.prod e (2 * t)) tt) k
    let d ← leftE k d
    addE ktt (d.map fun v => -v)
  | .ntk => do
    let F := eigFn es (fun e t => -invExpm1Fn m.yTrain.shape.prod e t) tt
    let t1 ← rightE F k
    let k0 ← K.attr .nngp
    let k0 ← needArr k0
    let k0 ← make2d k0
    let t2 ← rightE F k0
    let t2 ← leftE k t2
    let t2 ← zipB (fun a b => a + b) t2 (t2.moveaxis [1] [2])
    let c ← innerE t1 nngpDd
    let s ← addE ktt (t2.map fun v => -v)
    zipB (fun a b => a + b) c s

/-- One mode of `predict_fn` at finite time, predict.py:985-1098: `kdd`, `ktd`, `tt` are the results of `get_kernels`, with `tt` being
`None`, `True` or an array. -/
def Ens.finite (T : List ℕ) (es : Arr ℝ × Arr ℝ) (g : Field) (t : Arr ℝ) (kdd : KArg) (ktd : Option KArg)
    (tt : Option (Option (Arr ℝ))) : Except Err (Arr ℝ × Option (Arr ℝ)) := do
  let y ← reshapeHead (m.yTrain.moveaxis T (lastAxes m.yTrain.ndim T.length)) (gather T m.yTrain.shape)
  let mean ← m.meanFlat es g (m.times t) y ktd
  let first ← (ktd.getD kdd).first
  let mean ← m.reshapeMean T t first mean
  match tt with
  | none => return (mean, none)
  | some ktt => do
    let k0 ← kdd.attr .nngp
    let k0 ← need k0
    let k0 ← make2d k0
    let cov ← match ktd, ktt with
      | none, _ => m.covTrain es g (m.times t) k0
      | some K, some ktt => m.covTest es g (m.times t) k0 K ktt
      | some _, none => .error .attributeError
    let cov ← reshapeCov t first cov
    return (mean, some cov)

/-- The mode of `gp_inference` for an entry of `get`. -/
def Field.mode : Field → Mode
  | .nngp => .nngp
  | .ntk => .ntk

/-- `_get_dependency`, predict.py:1165-1177: which kernels a query needs. -/
def needs (get : List Field) (cov : Bool) (f : Field) : Bool :=
  match f with
  | .nngp => get.contains .nngp || (get.contains .ntk && cov)
  | .ntk => get.contains .ntk

/-- `k_td = kernel_fn(x_test, x_train, get)`, predict.py:935: a namedtuple with the fields in `get`. -/
def TestSet.ktdArg (x : TestSet) (get : List Field) (cov : Bool) : KArg :=
  .obj (if needs get cov .nngp then some (some (x.ktd .nngp)) else none) (if needs get cov .ntk then some (some (x.ktd .ntk)) else none)

/-- `nngp_tt`, predict.py:899-901, 937-941. -/
def testTest (x : Option TestSet) (cov : Bool) : Option (Option (Arr ℝ)) :=
  if cov then some (x.map (·.ktt)) else none

/-- `k_test_test` as an argument of `gp_inference`: `True` has no attributes. -/
def ttArg : Option (Arr ℝ) → KArg
  | some a => .arr a
  | none => .obj none none

/-- The arguments of the call of `gp_inference` in `predict_inf`, predict.py:887-892; `trace_axes` have been made negative
(lines 843-844). -/
def Ens.gp (T : List ℕ) (kdd : KArg) : Gp where
  kTrainTrain := kdd
  yTrain := m.yTrain
  diagReg := m.diagReg
  absolute := m.absolute
  traceAxes := T.map fun a : ℕ => (a : Int) - m.yTrain.ndim

/-- The body of `predict_fn`, predict.py:945-1098, for one entry of `get`, given the train kernel `kdd` returned by `get_kernels`, the
train kernel `snap` that `predict_inf` holds, and the decomposition `es`. -/
def Ens.body (T : List ℕ) (es : Except Err (Arr ℝ × Arr ℝ)) (snap kdd : KArg) (get : List Field) (g : Field) (t : Option (Arr ℝ))
    (x : Option TestSet) (cov : Bool) : Except Err (Arr ℝ × Option (Arr ℝ)) :=
  match t with
  | none => (m.gp T snap).predict bk g.mode (x.map fun x => x.ktdArg get cov) ((testTest x cov).map ttArg)
  | some t => do
    let es ← es
    m.finite T es g t kdd (x.map fun x => x.ktdArg get cov) (testTest x cov)

/-- `_Kernel(**k_dd_cache)` when the entries `c` have been computed, predict.py:876. -/
def Ens.kddArg (c : Field → Bool) : KArg :=
  .obj (some (if c .nngp then some (m.kdd .nngp) else none)) (some (if c .ntk then some (m.kdd .ntk) else none))

/-- The first call of a fresh `predict_fn`: the caches hold nothing but what this call needs. -/
def Ens.fresh (get : List Field) (g : Field) (t : Option (Arr ℝ)) (x : Option TestSet) (cov : Bool) :
    Except Err (Arr ℝ × Option (Arr ℝ)) := do
  let T ← axesOf bk m.traceAxes m.yTrain.ndim
  m.body bk T (eigenspace bk (m.kdd g) m.diagReg m.absolute) (m.kddArg (needs get cov)) (m.kddArg (needs get cov)) get g t x cov

end

end NT.Predict
