import Verif.Lemmas.Combinators

/-!
# C32: `serial` composes init, apply and kernel functions
-/

namespace NT.C32
open NT NT.Comb

variable {Key S P X K : Type}

/-- The key `jax.random.split` hands to layer `i`, if each layer splits the key once and passes on the
first half. -/
def layerKey (split : Key → Key × Key) (rng : Key) (i : ℕ) : Key :=
  (split ((fun r => (split r).1)^[i] rng)).2

lemma serialInit_ok (split : Key → Key × Key) (ls : List (Layer Key S P X K)) (rng : Key) (s s' : S)
    (ps : List (Params P)) : serialInit split ls rng s = .ok (s', ps) ↔
    ps.length = ls.length ∧ ∃ t : ℕ → S, t 0 = s ∧ t ls.length = s' ∧
      ∀ i (h : i < ls.length) (h' : i < ps.length),
        ls[i].init (layerKey split rng i) (t i) = .ok (t (i + 1), ps[i]) := by
  induction ls generalizing rng s ps with
  | nil =>
    simp only [serialInit, Except.ok.injEq, Prod.mk.injEq, List.length_nil]
    constructor
    · rintro ⟨rfl, rfl⟩
      exact ⟨rfl, fun _ => s, rfl, rfl, by simp⟩
    · rintro ⟨h, t, rfl, rfl, -⟩
      exact ⟨rfl, (List.length_eq_zero_iff.1 h).symm⟩
  | cons l ls ih =>
    simp only [serialInit]
    constructor
    · intro h
      cases h1 : l.init (split rng).2 s with
      | error e => simp [h1] at h
      | ok r =>
        obtain ⟨s1, p⟩ := r
        simp only [h1] at h
        cases h2 : serialInit split ls (split rng).1 s1 with
        | error e => simp [h2] at h
        | ok r =>
          obtain ⟨s2, qs⟩ := r
          simp only [h2, Except.ok.injEq, Prod.mk.injEq] at h
          obtain ⟨rfl, rfl⟩ := h
          obtain ⟨hl, t, t0, tn, ht⟩ := (ih _ _ _).1 h2
          refine ⟨by simp [hl], fun i => if i = 0 then s else t (i - 1), by simp, by simp [tn], ?_⟩
          intro i hi hi'
          cases i with
          | zero => simpa [layerKey, t0] using h1
          | succ i =>
            have := ht i (by simpa using hi) (by simpa using hi')
            simpa [layerKey] using this
    · rintro ⟨hl, t, rfl, rfl, ht⟩
      cases ps with
      | nil => simp at hl
      | cons p ps =>
        have h0 := ht 0 (by simp) (by simp)
        simp only [layerKey, Function.iterate_zero, id_eq, List.getElem_cons_zero, Nat.zero_add] at h0
        rw [h0]
        simp only
        have : serialInit split ls (split rng).1 (t 1) = .ok (t (l :: ls).length, ps) := by
          rw [ih]
          refine ⟨by simpa using hl, fun i => t (i + 1), rfl, rfl, ?_⟩
          intro i hi hi'
          have := ht (i + 1) (by simpa using hi) (by simpa using hi')
          simpa [layerKey] using this
        rw [this]

/-- `init_fn` of `serial(*layers)` threads the shape through the layers in order, and returns the list
of the parameters of the layers, layer `i` being initialised with its own key. -/
theorem serial_init (sh : Shaped K S) (split : Key → Key × Key) (splitN : Key → ℕ → List Key)
    (ls : List (Layer Key S P X K)) (net : Layer Key S P X K) (hnet : serial sh split splitN ls = .ok net)
    (rng : Key) (s s' : S) (prm : Params P) : net.init rng s = .ok (s', prm) ↔
    ∃ ps : List (Params P), prm = .node ps ∧ ps.length = ls.length ∧
      ∃ t : ℕ → S, t 0 = s ∧ t ls.length = s' ∧
        ∀ i (h : i < ls.length) (h' : i < ps.length),
          ls[i].init (layerKey split rng i) (t i) = .ok (t (i + 1), ps[i]) := by
  unfold serial at hnet
  split at hnet
  · simp at hnet
  · simp only [Except.ok.injEq] at hnet
    subst hnet
    simp only
    constructor
    · intro h
      cases h1 : serialInit split ls rng s with
      | error e => simp [h1, Except.map] at h
      | ok r =>
        obtain ⟨s1, ps⟩ := r
        simp only [h1, Except.map, Except.ok.injEq, Prod.mk.injEq] at h
        obtain ⟨rfl, rfl⟩ := h
        exact ⟨ps, rfl, (serialInit_ok split ls rng s s1 ps).1 h1⟩
    · rintro ⟨ps, rfl, h⟩
      rw [(serialInit_ok split ls rng s s' ps).2 h]
      rfl

/-- The key layer `i` of `n` receives in `apply_fn`: the `i`-th of `jax.random.split(rng, n)`, or `None`. -/
def applyKey (splitN : Key → ℕ → List Key) (n : ℕ) (rng : Option Key) (i : ℕ) : Option Key :=
  rng.bind fun r => (splitN r n)[i]?

/-- `apply_fn` of `serial(*layers)` passes the input through the layers in order, each with its own
parameters and key. -/
theorem serial_apply (sh : Shaped K S) (split : Key → Key × Key) (splitN : Key → ℕ → List Key)
    (hsplit : ∀ r n, (splitN r n).length = n)
    (ls : List (Layer Key S P X K)) (net : Layer Key S P X K) (hnet : serial sh split splitN ls = .ok net)
    (ps : List (Params P)) (hps : ps.length = ls.length) (x y : X) (rng : Option Key) :
    net.apply (.node ps) x rng = .ok y ↔
      ∃ t : ℕ → X, t 0 = x ∧ t ls.length = y ∧ ∀ i (h : i < ls.length) (h' : i < ps.length),
        ls[i].apply ps[i] (t i) (applyKey splitN ls.length rng i) = .ok (t (i + 1)) := by
  unfold serial at hnet
  split at hnet
  · simp at hnet
  · simp only [Except.ok.injEq] at hnet
    subst hnet
    simp only
    have hr : (rngs splitN ls.length rng).length = ls.length := by
      cases rng <;> simp [rngs, hsplit]
    have hk : ∀ i (h : i < (rngs splitN ls.length rng).length),
        (rngs splitN ls.length rng)[i] = applyKey splitN ls.length rng i := by
      intro i h
      have h' : i < ls.length := by omega
      cases rng with
      | none => simp [rngs, applyKey]
      | some r => simp [rngs, applyKey, hsplit, h']
    rw [serialApply_eq _ _ _ _ hps hr, runAll_ok]
    have hl : ((ls.zip (ps.zip (rngs splitN ls.length rng))).map fun q y =>
        q.1.apply q.2.1 y q.2.2).length = ls.length := by simp [hps, hr]
    refine exists_congr fun t => and_congr Iff.rfl (and_congr (by rw [hl]) ?_)
    constructor
    · intro h i hi hi'
      have := h i (by rw [hl]; exact hi)
      simpa [hk] using this
    · intro h i hi
      have := h i (by rw [hl] at hi; exact hi) (by rw [hl] at hi; omega)
      simpa [hk] using this

/-- `kernel_fn` of `serial(*layers)` is the composition of the kernel functions of the layers, errors
included, if every layer has an `apply_fn`. -/
theorem serial_kernel_partial (sh : Shaped K S) (hsh : sh.Lawful) (split : Key → Key × Key)
    (splitN : Key → ℕ → List Key) (ls : List (Layer Key S P X K)) (net : Layer Key S P X K)
    (hnet : serial sh split splitN ls = .ok net)
    (himp : ∀ l ∈ ls, Implemented l.outShape) (hdec : ∀ l ∈ ls, Decorated sh l) (k : K) :
    net.kernel k = ls.foldl (fun r l => r.bind l.kernel) (.ok k) := by
  have hne : ls ≠ [] := by
    rintro rfl
    simp [serial] at hnet
  unfold serial at hnet
  split at hnet
  · simp at hnet
  · simp only [Except.ok.injEq] at hnet
    subst hnet
    simp only
    rw [decorate_runAll hsh ls hne himp hdec]
    clear hne himp hdec
    have key : ∀ (ls : List (Layer Key S P X K)) (r : Except Err K),
        ls.foldl (fun r l => r.bind l.kernel) r = r.bind (runAll (ls.map (·.kernel))) := by
      intro ls
      induction ls with
      | nil => intro r; cases r <;> rfl
      | cons l ls ih =>
        intro r
        simp only [List.foldl_cons, List.map_cons, runAll]
        rw [ih]
        cases r with
        | error e => rfl
        | ok k =>
          show (l.kernel k).bind _ = _
          cases h : l.kernel k <;> simp [Except.bind, h]
    rw [key]
    rfl

lemma serial_eq (sh : Shaped K S) (split : Key → Key × Key) (splitN : Key → ℕ → List Key)
    {ls : List (Layer Key S P X K)} {net : Layer Key S P X K} (h : serial sh split splitN ls = .ok net) :
    ls ≠ [] ∧ net.outShape = runAll (ls.map (·.outShape)) ∧
      net.kernel = decorate sh net.outShape (runAll (ls.map (·.kernel))) ∧
      ∀ ps x rng, net.apply (.node ps) x rng = serialApply ls ps (rngs splitN ls.length rng) x := by
  have hne : ls ≠ [] := by
    rintro rfl
    simp [serial] at h
  unfold serial at h
  split at h
  · simp at h
  · simp only [Except.ok.injEq] at h
    subst h
    exact ⟨hne, rfl, rfl, fun _ _ _ => rfl⟩

/-- Nesting `serial` in `serial` does not change `kernel_fn` (errors included), if every layer has an
`apply_fn`. -/
theorem kernel_nesting_partial (sh : Shaped K S) (hsh : sh.Lawful) (split : Key → Key × Key)
    (splitN : Key → ℕ → List Key) (xs ys zs : List (Layer Key S P X K))
    (inner nested flat : Layer Key S P X K) (hin : serial sh split splitN ys = .ok inner)
    (hnest : serial sh split splitN (xs ++ [inner] ++ zs) = .ok nested)
    (hflat : serial sh split splitN (xs ++ ys ++ zs) = .ok flat)
    (himp : ∀ l ∈ xs ++ ys ++ zs, Implemented l.outShape)
    (hdec : ∀ l ∈ xs ++ ys ++ zs, Decorated sh l) (k : K) :
    nested.kernel k = flat.kernel k := by
  obtain ⟨hne, hio, hik, -⟩ := serial_eq sh split splitN hin
  have himpI : Implemented inner.outShape := by
    rw [hio]
    refine implemented_runAll _ ?_
    intro o ho
    obtain ⟨l, hl, rfl⟩ := List.mem_map.1 ho
    exact himp l (by simp [hl])
  have hi : ∀ k, inner.kernel k = runAll (ys.map (·.kernel)) k := by
    intro k
    rw [hik, hio]
    exact decorate_runAll hsh ys hne (fun l hl => himp l (by simp [hl])) (fun l hl => hdec l (by simp [hl])) k
  obtain ⟨hn1, ho1, hk1, -⟩ := serial_eq sh split splitN hnest
  obtain ⟨hn2, ho2, hk2, -⟩ := serial_eq sh split splitN hflat
  rw [hk1, ho1, hk2, ho2, decorate_runAll hsh _ hn1, decorate_runAll hsh _ hn2 himp hdec]
  · simp only [List.map_append, List.map_cons, List.map_nil, runAll_append]
    cases runAll (xs.map (·.kernel)) k with
    | error e => rfl
    | ok k1 =>
      simp only [Except.bind, runAll, hi]
      cases runAll (ys.map (·.kernel)) k1 <;> rfl
  · intro l hl
    simp only [List.mem_append, List.mem_singleton] at hl
    rcases hl with (hl | rfl) | hl
    · exact himp l (by simp [hl])
    · exact himpI
    · exact himp l (by simp [hl])
  · intro l hl
    simp only [List.mem_append, List.mem_singleton] at hl
    rcases hl with (hl | rfl) | hl
    · exact hdec l (by simp [hl])
    · exact ⟨runAll (ys.map (·.kernel)), fun k => by rw [hik]⟩
    · exact hdec l (by simp [hl])

/-- Nesting `serial` in `serial` does not change a deterministic `apply_fn` (`rng=None`): the parameters
of the inner network are a list inside the list of parameters. -/
theorem apply_nesting (sh : Shaped K S) (split : Key → Key × Key)
    (splitN : Key → ℕ → List Key) (xs ys zs : List (Layer Key S P X K))
    (inner nested flat : Layer Key S P X K) (hin : serial sh split splitN ys = .ok inner)
    (hnest : serial sh split splitN (xs ++ [inner] ++ zs) = .ok nested)
    (hflat : serial sh split splitN (xs ++ ys ++ zs) = .ok flat)
    (px py pz : List (Params P)) (hx : px.length = xs.length) (hy : py.length = ys.length) (x : X) :
    nested.apply (.node (px ++ [.node py] ++ pz)) x none = flat.apply (.node (px ++ py ++ pz)) x none := by
  obtain ⟨-, -, -, hi⟩ := serial_eq sh split splitN hin
  obtain ⟨-, -, -, h1⟩ := serial_eq sh split splitN hnest
  obtain ⟨-, -, -, h2⟩ := serial_eq sh split splitN hflat
  rw [h1, h2]
  simp only [rngs, List.length_append, List.replicate_add]
  rw [serialApply_append _ _ _ _ _ _ _ (by simp [hx]) (by simp),
    serialApply_append _ _ _ _ _ _ _ hx (by simp),
    serialApply_append _ _ _ _ _ _ _ (by simp [hx, hy]) (by simp),
    serialApply_append _ _ _ _ _ _ _ hx (by simp)]
  cases serialApply xs px (List.replicate xs.length none) x with
  | error e => rfl
  | ok x1 =>
    simp only [Except.bind, List.length_singleton, List.replicate_one, serialApply, hi, rngs]
    cases serialApply ys py (List.replicate ys.length none) x1 <;> rfl

/-- `serial` of one layer is that layer, up to a list around the parameters. -/
theorem serial_singleton (sh : Shaped K S) (hsh : sh.Lawful) (split : Key → Key × Key)
    (splitN : Key → ℕ → List Key) (l : Layer Key S P X K) (himp : Implemented l.outShape)
    (hdec : Decorated sh l) : ∃ net, serial sh split splitN [l] = .ok net ∧
      (∀ k, net.kernel k = l.kernel k) ∧
      (∀ p x, net.apply (.node [p]) x none = l.apply p x none) := by
  refine ⟨_, rfl, ?_, ?_⟩
  · intro k
    simp only
    rw [decorate_runAll hsh [l] (by simp) (by simpa using himp) (by simpa using hdec)]
    simp only [List.map_cons, List.map_nil, runAll]
    cases l.kernel k <;> rfl
  · intro p x
    simp only [serialApply, rngs, List.length_singleton, List.replicate_one]
    cases l.apply p x none <;> rfl

/-- `serial()` of no layers raises. -/
theorem serial_empty_raises (sh : Shaped K S) (split : Key → Key × Key) (splitN : Key → ℕ → List Key) :
    serial (P := P) (X := X) sh split splitN [] = .error .valueError := rfl

/-! ### Examples

Kernels are triples (value, shape 1, shape 2), shapes are numbers, keys are paths. -/

/-- Kernels that are a value and two shapes. -/
def triple : Shaped (ℕ × ℕ × ℕ) ℕ where
  shape1 k := k.2.1
  shape2 k := k.2.2
  withShapes k s t := .ok (k.1, s, t)

lemma triple_lawful : triple.Lawful := by
  constructor <;> · intro k s t k' h; simp only [triple, Except.ok.injEq] at h; subst h; rfl

/-- A dense layer of width `w`. -/
def dense (w : ℕ) : Layer (List Bool) ℕ (List Bool) ℕ (ℕ × ℕ × ℕ) where
  init r s := .ok (w, .leaf (r ++ List.replicate s true))
  apply p x r := match p with
    | .leaf p => .ok (x * 10 + p.length + r.elim 0 List.length)
    | .node _ => .error .typeError
  outShape _ := .ok w
  kernel := decorate triple (fun _ => .ok w) fun k => .ok (2 * k.1 + 1, k.2)

/-- A layer without `apply_fn`. -/
def noApply : Layer (List Bool) ℕ (List Bool) ℕ (ℕ × ℕ × ℕ) where
  init _ s := .ok (s, .node [])
  apply _ _ _ := .error .notImplemented
  outShape _ := .error .notImplemented
  kernel := decorate triple (fun _ => .error .notImplemented) fun k => .ok (3 * k.1, k.2)

/-- Splitting of path keys. -/
def pathSplit (r : List Bool) : List Bool × List Bool := (r ++ [false], r ++ [true])

/-- Splitting of path keys into `n`. -/
def pathSplitN (r : List Bool) (n : ℕ) : List (List Bool) :=
  (List.range n).map fun i => r ++ List.replicate i false

example : ∀ r n, (pathSplitN r n).length = n := by simp [pathSplitN]

example : Implemented (dense 3).outShape ∧ Decorated triple (dense 3) :=
  ⟨fun s => by simp [dense], ⟨fun k => .ok (2 * k.1 + 1, k.2), fun _ => rfl⟩⟩

example : ∃ net, serial triple pathSplit pathSplitN [dense 3, dense 4] = .ok net ∧
    net.init [] 2 = .ok (4, .node [.leaf [true, true, true], .leaf [false, true, true, true, true]]) ∧
    net.apply (.node [.leaf [true, true, true], .leaf [false, true, true, true, true]]) 1 none = .ok 135 ∧
    net.kernel (5, 2, 2) = .ok (23, 4, 4) := ⟨_, rfl, rfl, rfl, rfl⟩

example : ∃ inner nested flat, serial triple pathSplit pathSplitN [dense 4] = .ok inner ∧
    serial triple pathSplit pathSplitN ([dense 3] ++ [inner] ++ []) = .ok nested ∧
    serial triple pathSplit pathSplitN ([dense 3] ++ [dense 4] ++ []) = .ok flat ∧
    nested.kernel (5, 2, 2) = .ok (23, 4, 4) ∧ flat.kernel (5, 2, 2) = .ok (23, 4, 4) :=
  ⟨_, _, _, rfl, rfl, rfl, rfl, rfl⟩

/-- With a layer that has no `apply_fn` the shapes carried by the kernel depend on nesting: the network
as a whole keeps the shape of its input, not that of its last implemented layer.  This is why
`serial_kernel_partial` and `kernel_nesting_partial` need `Implemented`. -/
theorem shape_depends_on_nesting : ∃ inner nested flat,
    serial triple pathSplit pathSplitN [dense 3, dense 4] = .ok inner ∧
    serial triple pathSplit pathSplitN [dense 3, dense 4, noApply] = .ok flat ∧
    serial triple pathSplit pathSplitN [inner] = .ok nested ∧
    flat.kernel (5, 2, 2) = .ok (69, 2, 2) ∧
    (nested.kernel (5, 2, 2)).bind noApply.kernel = .ok (69, 4, 4) :=
  ⟨_, _, _, rfl, rfl, rfl, rfl, rfl⟩

/-- With keys, nesting changes the randomness: the inner layers get other keys. -/
theorem keys_depend_on_nesting : ∃ inner nested flat,
    serial triple pathSplit pathSplitN [dense 4] = .ok inner ∧
    serial triple pathSplit pathSplitN [dense 3, inner] = .ok nested ∧
    serial triple pathSplit pathSplitN [dense 3, dense 4] = .ok flat ∧
    nested.init [] 2 = .ok (4, .node [.leaf [true, true, true],
      .node [.leaf [false, true, true, true, true, true]]]) ∧
    flat.init [] 2 = .ok (4, .node [.leaf [true, true, true],
      .leaf [false, true, true, true, true]]) :=
  ⟨_, _, _, rfl, rfl, rfl, rfl, rfl⟩

end NT.C32
