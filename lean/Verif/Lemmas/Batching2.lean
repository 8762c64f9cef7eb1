import Verif.Lemmas.Batching

/-! Stacking of kernels and the tile grid. -/

namespace NT.Batching
open NT Arr Spec

variable {α β γ : Type}

theorem optEntries2_iff {a : Option (Arr γ)} {n1 n2 : Nat} {T : List Nat}
    {g : Option (Nat → Nat → List Nat → γ)} :
    OptEntries2 a n1 n2 T g ↔ a.map (·.shape) = g.map (fun _ => n1 :: n2 :: T) ∧
      ∀ i j t, i < n1 → j < n2 → InRange t T →
        a.map (·.get (i :: j :: t)) = g.map fun g => g i j t := by
  cases a <;> cases g <;> simp [OptEntries2, Entries2]

theorem optEntries1_iff {a : Option (Arr γ)} {n : Nat} {T : List Nat}
    {g : Option (Nat → List Nat → γ)} :
    OptEntries1 a n T g ↔ a.map (·.shape) = g.map (fun _ => n :: T) ∧
      ∀ i t, i < n → InRange t T → a.map (·.get (i :: t)) = g.map fun g => g i t := by
  cases a <;> cases g <;> simp [OptEntries1, Entries1]

theorem stackOpt_range (n : Nat) (hn : 0 < n) (s : Option (List Nat)) (A : Nat → Option (Arr α))
    (hA : ∀ t, t < n → (A t).map (·.shape) = s) :
    ∃ z, stackOpt ((List.range n).map A) = .ok z ∧ z.map (·.shape) = s.map (n :: ·) ∧
      ∀ t i, t < n → z.map (·.get (t :: i)) = (A t).map (·.get i) := by
  cases s with
  | none =>
    have h : ∀ t, t < n → A t = none := fun t ht => by simpa using hA t ht
    have e : (List.range n).map A = (List.range n).map fun _ => none :=
      List.map_congr_left fun t ht => h t (by simpa using ht)
    refine ⟨none, ?_, rfl, ?_⟩
    · rw [e]; exact stackOpt_none n hn
    · intro t i ht; rw [h t ht]; rfl
  | some s =>
    have h : ∀ t, t < n → ∃ a, A t = some a ∧ a.shape = s := fun t ht => by
      simpa [Option.map_eq_some_iff] using hA t ht
    obtain ⟨a0, _, _⟩ := h 0 hn
    have e : (List.range n).map A = (List.range n).map fun t => some ((A t).getD a0) :=
      List.map_congr_left fun t ht => by
        obtain ⟨a, ha, _⟩ := h t (by simpa using ht)
        simp [ha]
    obtain ⟨z, h1, h2, h3⟩ := stackOpt_some n hn s (fun t => (A t).getD a0) fun t ht => by
      obtain ⟨a, ha, hs⟩ := h t ht
      simp [ha, hs]
    refine ⟨some z, ?_, by simp [h2], ?_⟩
    · rw [e]; exact h1
    · intro t i ht
      obtain ⟨a, ha, hs⟩ := h t ht
      simp [h3 t i ht, ha]

/-- Shapes of all leaves of a kernel, and the static fields. -/
structure Skel where
  nngp : List Nat
  ntk : Option (List Nat)
  cov1 : List Nat
  cov2 : Option (List Nat)
  x1IsX2 : List Nat
  mask1 : Option (List Nat)
  mask2 : Option (List Nat)
  static : Kernel.Static

def skel (k : Kernel α) : Skel :=
  ⟨k.nngp.shape, k.ntk.map (·.shape), k.cov1.shape, k.cov2.map (·.shape), k.x1IsX2.shape,
    k.mask1.map (·.shape), k.mask2.map (·.shape), k.static⟩

def Skel.cons (n : Nat) (S : Skel) : Skel :=
  ⟨n :: S.nngp, S.ntk.map (n :: ·), n :: S.cov1, S.cov2.map (n :: ·), n :: S.x1IsX2,
    S.mask1.map (n :: ·), S.mask2.map (n :: ·), S.static⟩

/-- Leaf values at a given index. -/
structure SameAt (z k : Kernel α) (i' i : List Nat) : Prop where
  nngp : z.nngp.get i' = k.nngp.get i
  ntk : z.ntk.map (·.get i') = k.ntk.map (·.get i)
  cov1 : z.cov1.get i' = k.cov1.get i
  cov2 : z.cov2.map (·.get i') = k.cov2.map (·.get i)
  x1IsX2 : z.x1IsX2.get i' = k.x1IsX2.get i
  mask1 : z.mask1.map (·.get i') = k.mask1.map (·.get i)
  mask2 : z.mask2.map (·.get i') = k.mask2.map (·.get i)

theorem stackKernels_range (n : Nat) (hn : 0 < n) (S : Skel) (K : Nat → Kernel α)
    (hK : ∀ t, t < n → skel (K t) = S) :
    ∃ z, stackKernels ((List.range n).map K) = .ok z ∧ skel z = S.cons n ∧
      ∀ t i, t < n → SameAt z (K t) (t :: i) i := by
  obtain ⟨a, a1, a2, a3⟩ := stackE_range n hn S.nngp (fun t => (K t).nngp)
    fun t ht => by rw [← hK t ht]; rfl
  obtain ⟨b, b1, b2, b3⟩ := stackOpt_range n hn S.ntk (fun t => (K t).ntk)
    fun t ht => by rw [← hK t ht]; rfl
  obtain ⟨c, c1, c2, c3⟩ := stackE_range n hn S.cov1 (fun t => (K t).cov1)
    fun t ht => by rw [← hK t ht]; rfl
  obtain ⟨d, d1, d2, d3⟩ := stackOpt_range n hn S.cov2 (fun t => (K t).cov2)
    fun t ht => by rw [← hK t ht]; rfl
  obtain ⟨e, e1, e2, e3⟩ := stackE_range n hn S.x1IsX2 (fun t => (K t).x1IsX2)
    fun t ht => by rw [← hK t ht]; rfl
  obtain ⟨f, f1, f2, f3⟩ := stackOpt_range n hn S.mask1 (fun t => (K t).mask1)
    fun t ht => by rw [← hK t ht]; rfl
  obtain ⟨g, g1, g2, g3⟩ := stackOpt_range n hn S.mask2 (fun t => (K t).mask2)
    fun t ht => by rw [← hK t ht]; rfl
  refine ⟨⟨a, b, c, d, e, (K 0).isGaussian, (K 0).isReversed, (K 0).isInput, (K 0).diagonalBatch,
    (K 0).diagonalSpatial, (K 0).shape1, (K 0).shape2, (K 0).batchAxis, (K 0).channelAxis, f, g⟩,
    ?_, ?_, ?_⟩
  · obtain ⟨m, rfl⟩ : ∃ m, n = m + 1 := ⟨n - 1, by omega⟩
    rw [List.range_succ_eq_map, List.map_cons] at a1 b1 c1 d1 e1 f1 g1 ⊢
    unfold stackKernels
    simp only
    rw [if_pos]
    · simp only [List.map_cons, List.map_map, Function.comp_def] at a1 b1 c1 d1 e1 f1 g1 ⊢
      simp only [a1, b1, c1, d1, e1, f1, g1]
      rfl
    · intro k' hk'
      simp only [List.map_map, List.mem_map, List.mem_range] at hk'
      obtain ⟨t, ht, rfl⟩ := hk'
      have h0 := congrArg Skel.static (hK 0 (by omega))
      have h1 := congrArg Skel.static (hK (t + 1) (by omega))
      exact h1.trans h0.symm
  · have h0 := congrArg Skel.static (hK 0 hn)
    simp only [skel, Skel.cons, a2, b2, c2, d2, e2, f2, g2]
    congr 1
  · intro t i ht
    exact ⟨a3 t i ht, b3 t i ht, c3 t i ht, d3 t i ht, e3 t i ht, f3 t i ht, g3 t i ht⟩

/-- The tile grid: stack of stacks. -/
theorem stackKernels_grid (n1 n2 : Nat) (h1 : 0 < n1) (h2 : 0 < n2) (S : Skel)
    (Z : Nat → Nat → Kernel α) (hZ : ∀ p q, p < n1 → q < n2 → skel (Z p q) = S) :
    ∃ R : Nat → Kernel α, ∃ z,
      (∀ p, p < n1 → stackKernels ((List.range n2).map (Z p)) = .ok (R p)) ∧
      stackKernels ((List.range n1).map R) = .ok z ∧ skel z = (S.cons n2).cons n1 ∧
      ∀ p q i, p < n1 → q < n2 → SameAt z (Z p q) (p :: q :: i) i := by
  have hR : ∀ p, ∃ r, p < n1 → stackKernels ((List.range n2).map (Z p)) = .ok r ∧
      skel r = S.cons n2 ∧ ∀ q i, q < n2 → SameAt r (Z p q) (q :: i) i := by
    intro p
    by_cases hp : p < n1
    · obtain ⟨r, hr⟩ := stackKernels_range n2 h2 S (Z p) (fun q hq => hZ p q hp hq)
      exact ⟨r, fun _ => hr⟩
    · exact ⟨Z 0 0, fun h => absurd h hp⟩
  choose R hR using hR
  obtain ⟨z, z1, z2, z3⟩ := stackKernels_range n1 h1 (S.cons n2) R (fun p hp => (hR p hp).2.1)
  refine ⟨R, z, fun p hp => (hR p hp).1, z1, z2, ?_⟩
  intro p q i hp hq
  have u := z3 p (q :: i) hp
  have v := (hR p hp).2.2 q i hq
  exact ⟨u.1.trans v.1, u.2.trans v.2, u.3.trans v.3, u.4.trans v.4, u.5.trans v.5,
    u.6.trans v.6, u.7.trans v.7⟩

theorem stackE_grid (n1 n2 : Nat) (h1 : 0 < n1) (h2 : 0 < n2) (s : List Nat)
    (Z : Nat → Nat → Arr α) (hZ : ∀ p q, p < n1 → q < n2 → (Z p q).shape = s) :
    ∃ R : Nat → Arr α, ∃ z,
      (∀ p, p < n1 → stackE ((List.range n2).map (Z p)) = .ok (R p)) ∧
      stackE ((List.range n1).map R) = .ok z ∧ z.shape = n1 :: n2 :: s ∧
      ∀ p q i, p < n1 → q < n2 → z.get (p :: q :: i) = (Z p q).get i := by
  have hR : ∀ p, ∃ r, p < n1 → stackE ((List.range n2).map (Z p)) = .ok r ∧
      r.shape = n2 :: s ∧ ∀ q i, q < n2 → r.get (q :: i) = (Z p q).get i := by
    intro p
    by_cases hp : p < n1
    · obtain ⟨r, hr⟩ := stackE_range n2 h2 s (Z p) (fun q hq => hZ p q hp hq)
      exact ⟨r, fun _ => hr⟩
    · exact ⟨Z 0 0, fun h => absurd h hp⟩
  choose R hR using hR
  obtain ⟨z, z1, z2, z3⟩ := stackE_range n1 h1 (n2 :: s) R (fun p hp => (hR p hp).2.1)
  refine ⟨R, z, fun p hp => (hR p hp).1, z1, z2, ?_⟩
  intro p q i hp hq
  rw [z3 p _ hp, (hR p hp).2.2 q i hq]

/-- `serial_fn_x1` once tiles and stacks are known. -/
theorem serialX1_eq {K : Type} [BatchOut K] (f : Arr β → Arr β → Except Err K)
    {bs d n1b n1bs n2b n2bs : Nat} {x1 : Arr β} {x2? : Option (Arr β)} {s : List Nat}
    (hx1 : x1.shape = (n1b * n1bs) :: s) (hx2 : (x2?.getD x1).shape = (n2b * n2bs) :: s)
    (hb : nBatches (n1b * n1bs) (n2b * n2bs) bs d = .ok (n1b, n1bs, n2b, n2bs))
    (Z : Nat → Nat → K) (R : Nat → K) (z : K)
    (hZ : ∀ p q, p < n1b → q < n2b → f ((x1.reshape (n1b :: n1bs :: s)).lead p)
      (((x2?.getD x1).reshape (n2b :: n2bs :: s)).lead q) = .ok (Z p q))
    (hR : ∀ p, p < n1b → BatchOut.stack ((List.range n2b).map (Z p)) = .ok (R p))
    (hz : BatchOut.stack ((List.range n1b).map R) = .ok z) :
    serialX1 f bs d x1 x2? = BatchOut.flatten z x2?.isNone false := by
  unfold serialX1
  simp only [hx1, hx2, hb]
  have hcol : ∀ p, p < n1b → scan (fun c y => (f c y).map fun k => (c, k))
      ((x1.reshape (n1b :: n1bs :: s)).lead p)
      ((List.range n2b).map fun q => ((x2?.getD x1).reshape (n2b :: n2bs :: s)).lead q)
      = .ok ((x1.reshape (n1b :: n1bs :: s)).lead p, R p) := by
    intro p hp
    have hl : scanLoop (fun c y => (f c y).map fun k => (c, k))
        ((x1.reshape (n1b :: n1bs :: s)).lead p)
        ((List.range n2b).map fun q => ((x2?.getD x1).reshape (n2b :: n2bs :: s)).lead q)
        = .ok ((x1.reshape (n1b :: n1bs :: s)).lead p, (List.range n2b).map (Z p)) := by
      have : ∀ l : List Nat, (∀ q ∈ l, q < n2b) →
          scanLoop (fun c y => (f c y).map fun k => (c, k))
          ((x1.reshape (n1b :: n1bs :: s)).lead p)
          (l.map fun q => ((x2?.getD x1).reshape (n2b :: n2bs :: s)).lead q)
          = .ok ((x1.reshape (n1b :: n1bs :: s)).lead p, l.map (Z p)) := by
        intro l hl
        induction l with
        | nil => rfl
        | cons q l ih =>
          have e := hZ p q hp (hl q (by simp))
          simp only [List.map_cons, scanLoop, e]
          have := ih fun q' hq' => hl q' (by simp [hq'])
          simp only [Except.map] at this ⊢
          rw [this]
      exact this _ fun q hq => by simpa using hq
    unfold scan
    simp only [hl, hR p hp]
  have hrow : ∀ l : List Nat, (∀ p ∈ l, p < n1b) →
      scanLoop (fun (u : Nat) c => (scan (fun c y => (f c y).map fun k => (c, k)) c
        ((List.range n2b).map fun q => ((x2?.getD x1).reshape (n2b :: n2bs :: s)).lead q)).map
          fun p => (u, p.2)) 0
        (l.map fun p => (x1.reshape (n1b :: n1bs :: s)).lead p) = .ok (0, l.map R) := by
    intro l hl
    induction l with
    | nil => rfl
    | cons p l ih =>
      have e := hcol p (hl p (by simp))
      have := ih fun q' hq' => hl q' (by simp [hq'])
      simp only [List.map_cons, scanLoop, e]
      simp only [Except.map] at this ⊢
      rw [this]
  have hscan : scan (fun (u : Nat) c => (scan (fun c y => (f c y).map fun k => (c, k)) c
        ((List.range n2b).map fun q => ((x2?.getD x1).reshape (n2b :: n2bs :: s)).lead q)).map
          fun p => (u, p.2)) 0
        ((List.range n1b).map fun p => (x1.reshape (n1b :: n1bs :: s)).lead p) = .ok (0, z) := by
    unfold scan
    have := hrow (List.range n1b) fun p hp => by simpa using hp
    unfold scan at this
    simp only [this, hz]
  simp only [bind, Except.bind]
  simp only [reshapeE_ok _ _ _ _ hx1, reshapeE_ok _ _ _ _ hx2, rows_reshape]
  rw [hscan]

theorem mapM_ok {ε X Y : Type} {f : X → Except ε Y} {g : X → Y} {l : List X}
    (h : ∀ x ∈ l, f x = .ok (g x)) : l.mapM f = .ok (l.map g) := by
  induction l with
  | nil => rfl
  | cons x l ih =>
    rw [List.mapM_cons, h x (by simp), ih fun y hy => h y (by simp [hy])]
    rfl

theorem pmap_eq {K : Type} [BatchOut K] (f : Arr β → Arr β → Except Err K) (x x2 : Arr β)
    (d b : Nat) (s : List Nat) (Z : Nat → K) (z : K)
    (hZ : ∀ p, p < d → f ((x.reshape (d :: b :: s)).lead p) x2 = .ok (Z p))
    (hz : BatchOut.stack ((List.range d).map Z) = .ok z) :
    pmap f (x.reshape (d :: b :: s)) x2 = .ok z := by
  unfold pmap
  have : ((rows (x.reshape (d :: b :: s))).mapM fun x => f x x2) = .ok ((List.range d).map Z) := by
    rw [rows_reshape, List.mapM_map]
    exact mapM_ok fun p hp => hZ p (by simpa using hp)
  rw [this]
  exact hz

end NT.Batching
