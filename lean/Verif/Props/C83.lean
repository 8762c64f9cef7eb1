import Verif.Tac
import Verif.Props.C82
import Verif.Props.C01

/-!
# C83: batching the kernel function of a network
-/

namespace NT.C83
open NT NT.Network NT.Spec NT.Semantics NT.Arr NT.Kernel

/-- `kernel_fn(x1, x2)` of a network with one output: the input kernel, then the layers.  requirements.py:912-1054 (the preprocessing of the inputs),
with examples along axis 0 and a channel axis `ca`; `same` is the comparison of the two inputs (utils.py:255-282). -/
noncomputable def kernelFn (net : Net) (ds ntk : Bool) (ca : ℤ) (same : Arr ℝ → Arr ℝ → Bool) (x1 x2 : Arr ℝ) : Except Err (Kernel ℝ) :=
  match Inputs.inputsToKernel x1 (some x2) true ds ntk 0 (some ca) none (same x1 x2) with
  | .error e => .error e
  | .ok k => match net.run (.one k) with
    | .error e => .error e
    | .ok (.one k') => .ok k'
    | .ok (.many _) => .error .valueError

/-- The network applies to inputs of spatial shape `S` and `C` channels (at axis `a + 1`), treats the examples one by one, and the static fields of its
output are the given ones; outputs for the two inputs have the same spatial shape. -/
structure Batchable (net : Net) (a C : ℕ) (S : List ℕ) (ds ntk : Bool) (isGaussian isReversed isInput ds' : Bool) (pre post : List ℕ) (ca : ℕ) : Prop where
  sem : ∀ (m1 m2 : ℕ) (x1 x2 : Arr ℝ) (same : Bool), x1.shape = m1 :: S.insertIdx a C → x2.shape = m2 :: S.insertIdx a C →
    ∃ t : State, (∀ σ, PerExample σ net (.one (C80.inputState x1 (some x2) true ds ntk same 0 (a + 1) C m1 m2 S S)) (.one t)) ∧ t.full = true ∧ t.L.S1 = t.L.S2 ∧
      t.info = ⟨isGaussian, isReversed, isInput, true, ds', pre ++ [m1] ++ post, pre ++ [m2] ++ post, pre.length, ca⟩

variable {net : Net} {a C : ℕ} {S : List ℕ} {ds ntk : Bool} {isGaussian isReversed isInput ds' : Bool} {pre post : List ℕ} {ca' : ℕ}
  {ca : ℤ} {same : Arr ℝ → Arr ℝ → Bool}

lemma act_cons (a n C : ℕ) (S : List ℕ) : actIdx 0 (a + 1) n C S = n :: S.insertIdx a C := by
  simp [actIdx]

/-- The kernels of a batch and of a selection from it. -/
lemma select (h : Batchable net a C S ds ntk isGaussian isReversed isInput ds' pre post ca') (hca : ((a + 1 : ℕ) : ℤ) = ca % (S.length + 2))
    (x1 x2 x1' x2' : Arr ℝ) (n1 n2 m1 m2 : ℕ) (f g : ℕ → ℕ) (h1 : x1.shape = n1 :: S.insertIdx a C) (h2 : x2.shape = n2 :: S.insertIdx a C)
    (hn2 : 0 < n2) (hf : ∀ i, i < m1 → f i < n1) (hg : ∀ i, i < m2 → g i < n2) (t1 : Takes m1 f 0 x1 x1') (t2 : Takes m2 g 0 x2 x2') :
    ∃ k k', kernelFn net ds ntk ca same x1 x2 = .ok k ∧ kernelFn net ds ntk ca same x1' x2' = .ok k' ∧
      Picked ⟨m1, m2, f, g, same x1' x2'⟩ k k' ∧ (∃ Q, k.nngp.shape = n1 :: n2 :: Q ∧ ∀ b, k.ntk = some b → b.shape = n1 :: n2 :: Q) ∧ (∀ b, k'.ntk = some b → b.shape ≠ []) ∧ k'.mask1 = none ∧
      k'.mask2 = none ∧ k'.x1IsX2.shape = [] ∧ (∃ c P, k.cov2 = some c ∧ c.shape = n2 :: P ∧ k.cov1.shape = n1 :: P) ∧
      k.static = ⟨isGaussian, isReversed, isInput, true, ds', pre ++ [n1] ++ post, pre ++ [n2] ++ post, pre.length, ca'⟩ := by
  obtain ⟨t, ht, hfull, hS, hi⟩ := h.sem n1 n2 x1 x2 (same x1 x2) h1 h2
  have hp := ht ⟨m1, m2, f, g, same x1' x2'⟩
  obtain ⟨k, k', y, y', w', e1, e2, r1, r2, d1, d2, hw⟩ := C82.inputs_aux (σ := ⟨m1, m2, f, g, same x1' x2'⟩) x1 x1' (some x2) (some x2') true ds ntk (same x1 x2)
    0 ca n1 n2 C S S 0 (a + 1) (by simp) hca (by omega) rfl (fun _ => rfl) (by rw [h1, act_cons]) (by rw [Option.getD_some, h2, act_cons]) hf hg (by simp) t1 t2 hp
  cases d1 with
  | one y _ d1 =>
    cases hw with
    | one _ t' hw =>
      cases d2 with
      | one y' _ d2 =>
        have g1 : t.L.n1 = n1 := by
          have e1 := hw.2.far1 m1 (lt_irrefl m1)
          have e2 : (extend ⟨m1, m2, f, g, same x1' x2'⟩ n1 n2).f m1 = n1 + m1 := if_neg (lt_irrefl m1)
          omega
        have g2 : t.L.n2 = n2 := by
          have e1 := hw.2.far2 m2 (lt_irrefl m2)
          have e2 : (extend ⟨m1, m2, f, g, same x1' x2'⟩ n1 n2).g m2 = n2 + m2 := if_neg (lt_irrefl m2)
          omega
        have hpk := C82.picked_of hw.2 d1 (hw.1 ▸ d2)
        refine ⟨y, y', ?_, ?_, hpk, ⟨pos y.diagonalSpatial y.isReversed t.L.S1 t.L.S2, ?_, ?_⟩, d2.full (by rw [hw.1]; exact hfull), d2.mask1, d2.mask2, d2.same.1, ?_, ?_⟩
        · simp only [kernelFn, e1, r1]
        · simp only [kernelFn, e2, r2]
        · have := d1.stores.nngp.shape
          rw [g1, g2] at this
          exact this
        · intro b hb
          have h3 := d1.stores.ntk
          rw [hb] at h3
          cases hn : t.L.ntk with
          | none => rw [hn] at h3; exact h3.elim
          | some F =>
            rw [hn] at h3
            rcases h3 with h3 | h3
            · exact absurd h3.1 (d1.full hfull b hb)
            · have := h3.shape
              rw [g1, g2] at this
              exact this
        · have hk : t.L.k22 ≠ none := by
            intro h22
            obtain ⟨-, -, -, -, w', -, -, -, -, -, -, hw⟩ := C82.inputs_aux (σ := ⟨0, n2, id, id, true⟩) x1 ⟨0 :: S.insertIdx a C, x1.get⟩ (some x2) (some x2)
              true ds ntk (same x1 x2) 0 ca n1 n2 C S S 0 (a + 1) (by simp) hca (by omega) rfl (fun _ => rfl) (by rw [h1, act_cons])
              (by rw [Option.getD_some, h2, act_cons]) (by simp) (by simp) (by simp) ⟨by simp [h1], fun i hi => by cases i <;> simp [InRange] at hi⟩
              ⟨by simp [h2], fun i hi => by cases i <;> simp⟩ (ht _)
            cases hw with
            | one _ _ hw =>
              have := (hw.2.closed h22).1
              simp [extend] at this
              omega
          have h22 := d1.stores.cov2
          have h11 := d1.stores.cov1.shape
          have hdb : y.diagonalBatch = true := (congrArg Static.diagonalBatch d1.static).trans (by rw [hi])
          cases hc : y.cov2 with
          | none =>
            rw [hc] at h22
            cases hk' : t.L.k22 <;> rw [hk'] at h22 <;> simp [OptRel] at h22
            exact absurd hk' hk
          | some c =>
            cases hk' : t.L.k22 with
            | none => exact absurd hk' hk
            | some F =>
              rw [hc, hk'] at h22
              have h22 := Holds.shape h22
              rw [hdb] at h11 h22
              rw [g1] at h11
              rw [g2] at h22
              refine ⟨c, _, rfl, h22, ?_⟩
              rw [h11, hS]
              rfl
        · rw [d1.static, hi]

/-- The tangent kernel of the network is not the number 0. -/
lemma Batchable.nonscalar (h : Batchable net a C S ds ntk isGaussian isReversed isInput ds' pre post ca') (hca : ((a + 1 : ℕ) : ℤ) = ca % (S.length + 2))
    (x1 x2 : Arr ℝ) (n1 n2 : ℕ) (h1 : x1.shape = n1 :: S.insertIdx a C) (h2 : x2.shape = n2 :: S.insertIdx a C) {k : Kernel ℝ}
    (hk : kernelFn net ds ntk ca same x1 x2 = .ok k) : ∀ b, k.ntk = some b → b.shape ≠ [] := by
  obtain ⟨t, ht, hfull, -⟩ := h.sem n1 n2 x1 x2 (same x1 x2) h1 h2
  obtain ⟨ki, e, f, g⟩ := C35.second_moment none true ds ntk (same x1 x2) x1 (some x2) 0 ca n1 n2 C S S 0 (a + 1) (by simp) hca (by omega) rfl (fun _ => rfl)
    (by rw [h1, act_cons]) (by rw [Option.getD_some, h2, act_cons])
  obtain ⟨y, r, d⟩ := net_sound (perExample_sem (ht ⟨0, 0, id, id, true⟩)) (.one _ _ (C80.input_describes f g))
  cases d with
  | one k' _ d =>
    simp only [kernelFn, e, r] at hk
    cases hk
    exact d.full hfull

/-- A row as a batch of one example. -/
noncomputable def single (s : List ℕ) (r : Arr ℝ) : Arr ℝ :=
  ⟨1 :: s, fun i => if InRange i.tail r.shape then r.get i.tail else 0⟩

lemma single_congr (s : List ℕ) {r r' : Arr ℝ} (h : r ≋ r') : single s r = single s r' := by
  unfold single
  rw [h.1]
  congr 1
  funext i
  split
  · rename_i hi
    exact h.2 _ (by rw [h.1]; exact hi)
  · rfl

/-- A batch preceded by an example of zeros. -/
def withZero (n : ℕ) (s : List ℕ) (x : Arr ℝ) : Arr ℝ :=
  ⟨(n + 1) :: s, fun i => match i with
    | (j + 1) :: t => x.get (j :: t)
    | _ => 0⟩

/-- The example of zeros. -/
def zeroRow (s : List ℕ) : Arr ℝ := ⟨s, fun _ => 0⟩

lemma takes_all (n : ℕ) (s : List ℕ) (x : Arr ℝ) (hx : x.shape = n :: s) : Takes n (· + 1) 0 (withZero n s x) x := by
  refine ⟨by simp [withZero, hx], fun i hi => ?_⟩
  rw [hx] at hi
  cases i with
  | nil => simp [InRange] at hi
  | cons j t => simp [withZero]

lemma takes_row (n : ℕ) (s : List ℕ) (x : Arr ℝ) (hx : x.shape = n :: s) (j : ℕ) :
    Takes 1 (fun _ => j + 1) 0 (withZero n s x) (single s (x.lead j)) := by
  refine ⟨by simp [withZero, single], fun i hi => ?_⟩
  cases i with
  | nil => simp [InRange, single] at hi
  | cons b t =>
    have ht : InRange t s := by
      rcases hi with ⟨⟩ | ⟨-, ht⟩
      exact ht
    have : InRange (b :: t).tail (x.lead j).shape := by simpa [lead, hx] using ht
    simp only [single, withZero, List.set_cons_zero]
    rw [if_pos this]
    rfl

lemma takes_zero (n : ℕ) (s : List ℕ) (x : Arr ℝ) : Takes 1 (fun _ => 0) 0 (withZero n s x) (single s (zeroRow s)) := by
  refine ⟨by simp [withZero, single], fun i hi => ?_⟩
  cases i with
  | nil => simp [InRange, single] at hi
  | cons b t =>
    simp only [single, withZero, List.set_cons_zero]
    split <;> rfl

/-- The kernel of two single examples. -/
noncomputable def pairKernel (net : Net) (ds ntk : Bool) (ca : ℤ) (same : Arr ℝ → Arr ℝ → Bool) (s : List ℕ) (r1 r2 : Arr ℝ) : Kernel ℝ :=
  match kernelFn net ds ntk ca same (single s r1) (single s r2) with
  | .ok k => k
  | .error _ => ⟨⟨[], fun _ => 0⟩, none, ⟨[], fun _ => 0⟩, none, ⟨[], fun _ => false⟩, false, false, false, false, false, [], [], 0, 0, none, none⟩

lemma pairKernel_congr (s : List ℕ) {r1 r1' r2 r2' : Arr ℝ} (h1 : r1 ≋ r1') (h2 : r2 ≋ r2') :
    pairKernel net ds ntk ca same s r1 r2 = pairKernel net ds ntk ca same s r1' r2' := by
  unfold pairKernel
  rw [single_congr s h1, single_congr s h2]

lemma pairKernel_eq {s : List ℕ} {r1 r2 : Arr ℝ} {k : Kernel ℝ} (h : kernelFn net ds ntk ca same (single s r1) (single s r2) = .ok k) :
    pairKernel net ds ntk ca same s r1 r2 = k := by
  unfold pairKernel
  rw [h]

/-- The kernel function of the network, by pairs of examples: the kernels of single examples. -/
noncomputable def pairFn (net : Net) (ds ntk : Bool) (ca : ℤ) (same : Arr ℝ → Arr ℝ → Bool) (s : List ℕ) (isGaussian isReversed isInput ds' : Bool)
    (pre post : List ℕ) (ca' : ℕ) : PairKernelFn ℝ ℝ where
  T := (pairKernel net ds ntk ca same s (zeroRow s) (zeroRow s)).nngp.shape.drop 2
  Tc := (pairKernel net ds ntk ca same s (zeroRow s) (zeroRow s)).cov1.shape.drop 1
  Tm := []
  nngp r1 r2 t := (pairKernel net ds ntk ca same s r1 r2).nngp.get (0 :: 0 :: t)
  ntk := (pairKernel net ds ntk ca same s (zeroRow s) (zeroRow s)).ntk.map fun _ r1 r2 t =>
    ((pairKernel net ds ntk ca same s r1 r2).ntk.getD (zeroRow [])).get (0 :: 0 :: t)
  cov1 r t := (pairKernel net ds ntk ca same s r (zeroRow s)).cov1.get (0 :: t)
  cov2 r t := ((pairKernel net ds ntk ca same s (zeroRow s) r).cov2.getD (zeroRow [])).get (0 :: t)
  mask1 := none
  pre := pre
  post := post
  isGaussian := isGaussian
  isReversed := isReversed
  isInput := isInput
  diagonalSpatial := ds'
  channelAxis := ca'
  nngp_congr r1 r1' r2 r2' h1 h2 := by rw [pairKernel_congr s h1 h2]
  ntk_congr f hf r1 r1' r2 r2' h1 h2 := by
    simp only [Option.map_eq_some_iff] at hf
    obtain ⟨b, -, rfl⟩ := hf
    simp only [pairKernel_congr s h1 h2]
  cov1_congr r r' h := by rw [pairKernel_congr s h ⟨rfl, fun _ _ => rfl⟩]
  cov2_congr r r' h := by rw [pairKernel_congr (r1 := zeroRow s) s ⟨rfl, fun _ _ => rfl⟩ h]
  mask1_congr f hf := by simp at hf

lemma picked2_shape {m1 m2 n1 n2 : ℕ} {f g : ℕ → ℕ} {b b' : Arr ℝ} {P : List ℕ} (h : PickedArr2 m1 m2 f g b b') (hb : b.shape = n1 :: n2 :: P) :
    b'.shape = m1 :: m2 :: P ∧ ∀ i j t, i < m1 → j < m2 → InRange t P → b'.get (i :: j :: t) = b.get (f i :: g j :: t) := by
  obtain ⟨n1', n2', P', h1, h2, h3⟩ := h.shapes
  rw [h1] at hb
  simp only [List.cons.injEq] at hb
  obtain ⟨-, -, rfl⟩ := hb
  exact ⟨h2, h3⟩

lemma picked1_shape {m n : ℕ} {f : ℕ → ℕ} {b b' : Arr ℝ} {P : List ℕ} (h : PickedArr1 m f b b') (hb : b.shape = n :: P) :
    b'.shape = m :: P ∧ ∀ i t, i < m → InRange t P → b'.get (i :: t) = b.get (f i :: t) := by
  obtain ⟨n', P', h1, h2, h3⟩ := h.shapes
  rw [h1] at hb
  simp only [List.cons.injEq] at hb
  obtain ⟨-, rfl⟩ := hb
  exact ⟨h2, h3⟩

lemma picked_ntk {σ : Pick} {k k' : Kernel ℝ} (h : Picked σ k k') (h1 : ∀ b, k.ntk = some b → b.shape ≠ []) (h2 : ∀ b, k'.ntk = some b → b.shape ≠ []) :
    OptRel (PickedArr2 σ.m1 σ.m2 σ.f σ.g) k.ntk k'.ntk := by
  have h3 := h.ntk
  cases hk : k.ntk <;> cases hk' : k'.ntk <;> rw [hk, hk'] at h3
  · trivial
  · exact h3
  · exact h3
  · rcases h3 with ⟨h3 | h3, -⟩ | h3
    · exact absurd h3 (h1 _ hk)
    · exact absurd h3 (h2 _ hk')
    · exact h3

/-- The kernel function of the network is that of pairs of single examples. -/
lemma implemented (h : Batchable net a C S ds ntk isGaussian isReversed isInput ds' pre post ca')
    (hca : ((a + 1 : ℕ) : ℤ) = ca % (S.length + 2)) (m1 m2 : ℕ) :
    (pairFn net ds ntk ca same (S.insertIdx a C) isGaussian isReversed isInput ds' pre post ca').ImplementedBy (kernelFn net ds ntk ca same)
      (S.insertIdx a C) m1 m2 := by
  intro x1 x2 hx1 hx2
  set s := S.insertIdx a C with hs
  have X1 : (withZero m1 s x1).shape = (m1 + 1) :: s := rfl
  have X2 : (withZero m2 s x2).shape = (m2 + 1) :: s := rfl
  obtain ⟨K, k, eK, ek, pk, ⟨Q, hQ, hQ'⟩, nk, k1, k2, k3, ⟨c, P, hc, hcs, h1s⟩, stK⟩ := select (same := same) h hca (withZero m1 s x1) (withZero m2 s x2) x1 x2 (m1 + 1) (m2 + 1) m1 m2
    (· + 1) (· + 1) X1 X2 (by omega) (by simp) (by simp) (takes_all m1 s x1 hx1) (takes_all m2 s x2 hx2)
  -- any pair of rows of the extended batches
  have row : ∀ (y1 y2 : Arr ℝ) (i j : ℕ), i < m1 + 1 → j < m2 + 1 → Takes 1 (fun _ => i) 0 (withZero m1 s x1) (single s y1) →
      Takes 1 (fun _ => j) 0 (withZero m2 s x2) (single s y2) →
      Picked ⟨1, 1, fun _ => i, fun _ => j, same (single s y1) (single s y2)⟩ K (pairKernel net ds ntk ca same s y1 y2) ∧
        ∀ b, (pairKernel net ds ntk ca same s y1 y2).ntk = some b → b.shape ≠ [] := by
    intro y1 y2 i j hi hj t1 t2
    obtain ⟨K', k', eK', ek', pk', nK', nk', -⟩ := select (same := same) h hca (withZero m1 s x1) (withZero m2 s x2) (single s y1) (single s y2)
      (m1 + 1) (m2 + 1) 1 1 (fun _ => i) (fun _ => j) X1 X2 (by omega) (fun _ _ => hi) (fun _ _ => hj) t1 t2
    rw [eK] at eK'
    cases eK'
    rw [pairKernel_eq ek']
    exact ⟨pk', nk'⟩
  have rows : ∀ i j, i < m1 → j < m2 → _ := fun i j hi hj =>
    row (x1.lead i) (x2.lead j) (i + 1) (j + 1) (by omega) (by omega) (takes_row m1 s x1 hx1 i) (takes_row m2 s x2 hx2 j)
  have zz := row (zeroRow s) (zeroRow s) 0 0 (by omega) (by omega) (takes_zero m1 s x1) (takes_zero m2 s x2)
  have hdb : K.diagonalBatch = true := congrArg Static.diagonalBatch stK
  have cov := pk.cov1
  rw [hdb] at cov
  have hT : (pairKernel net ds ntk ca same s (zeroRow s) (zeroRow s)).nngp.shape = 1 :: 1 :: Q := (picked2_shape zz.1.nngp hQ).1
  have zcov := zz.1.cov1
  rw [hdb] at zcov
  have hTc : (pairKernel net ds ntk ca same s (zeroRow s) (zeroRow s)).cov1.shape = 1 :: P := (picked1_shape zcov h1s).1
  refine ⟨k, ek, ⟨⟨?_, ?_⟩, ?_, ⟨?_, ?_⟩, ?_, ?_, k2, ?_⟩, k3⟩
  · rw [(picked2_shape pk.nngp hQ).1]
    simp [PairKernelFn.desc, pairFn, hT]
  · intro i j t hi hj ht
    have ht : InRange t Q := by simpa [PairKernelFn.desc, pairFn, hT] using ht
    rw [(picked2_shape pk.nngp hQ).2 i j t hi hj ht]
    exact ((picked2_shape (rows i j hi hj).1.nngp hQ).2 0 0 t Nat.zero_lt_one Nat.zero_lt_one ht).symm
  · have hne : ∀ b, K.ntk = some b → b.shape ≠ [] := fun b hb => by rw [hQ' b hb]; simp
    have q := picked_ntk pk hne nk
    have qz := picked_ntk zz.1 hne zz.2
    cases hK : K.ntk with
    | none =>
      rw [hK] at q qz
      cases hk : k.ntk with
      | some _ => rw [hk] at q; exact q.elim
      | none =>
        cases hz : (pairKernel net ds ntk ca same s (zeroRow s) (zeroRow s)).ntk with
        | some _ => rw [hz] at qz; exact qz.elim
        | none => simp [PairKernelFn.desc, pairFn, hz, OptEntries2]
    | some B =>
      rw [hK] at q qz
      cases hk : k.ntk with
      | none => rw [hk] at q; exact q.elim
      | some b =>
        cases hz : (pairKernel net ds ntk ca same s (zeroRow s) (zeroRow s)).ntk with
        | none => rw [hz] at qz; exact qz.elim
        | some z =>
          rw [hk] at q
          have q : PickedArr2 m1 m2 (· + 1) (· + 1) B b := q
          have hD : ((pairFn net ds ntk ca same s isGaussian isReversed isInput ds' pre post ca').desc x1 x2).ntk = some fun i j t =>
              ((pairKernel net ds ntk ca same s (x1.lead i) (x2.lead j)).ntk.getD (zeroRow [])).get (0 :: 0 :: t) := by
            simp only [PairKernelFn.desc, pairFn, hz, Option.map_some]
          rw [hD]
          refine ⟨?_, ?_⟩
          · rw [(picked2_shape q (hQ' B hK)).1]
            simp [PairKernelFn.desc, pairFn, hT]
          · intro i j t hi hj ht
            have ht : InRange t Q := by simpa [PairKernelFn.desc, pairFn, hT] using ht
            rw [(picked2_shape q (hQ' B hK)).2 i j t hi hj ht]
            have r := picked_ntk (rows i j hi hj).1 hne (rows i j hi hj).2
            rw [hK] at r
            cases hr : (pairKernel net ds ntk ca same s (x1.lead i) (x2.lead j)).ntk with
            | none => rw [hr] at r; exact r.elim
            | some b' =>
              rw [hr] at r
              simp only [hr, Option.getD_some]
              have r : PickedArr2 1 1 (fun _ => i + 1) (fun _ => j + 1) B b' := r
              exact ((picked2_shape r (hQ' B hK)).2 0 0 t Nat.zero_lt_one Nat.zero_lt_one ht).symm
  · rw [(picked1_shape cov h1s).1]
    simp [PairKernelFn.desc, pairFn, hTc]
  · intro i t hi ht
    have ht : InRange t P := by simpa [PairKernelFn.desc, pairFn, hTc] using ht
    rw [(picked1_shape cov h1s).2 i t hi ht]
    have r := (row (x1.lead i) (zeroRow s) (i + 1) 0 (by omega) (by omega) (takes_row m1 s x1 hx1 i) (takes_zero m2 s x2)).1.cov1
    rw [hdb] at r
    exact ((picked1_shape r h1s).2 0 t Nat.zero_lt_one ht).symm
  · have cov' := pk.cov2
    rw [hdb, hc] at cov'
    cases hkc : k.cov2 with
    | none => rw [hkc] at cov'; exact cov'.elim
    | some c' =>
      rw [hkc] at cov'
      have cov' : PickedArr1 m2 (· + 1) c c' := cov'
      refine ⟨?_, ?_⟩
      · rw [(picked1_shape cov' hcs).1]
        simp [PairKernelFn.desc, pairFn, hTc]
      · intro i t hi ht
        have ht : InRange t P := by simpa [PairKernelFn.desc, pairFn, hTc] using ht
        rw [(picked1_shape cov' hcs).2 i t hi ht]
        have r := (row (zeroRow s) (x2.lead i) 0 (i + 1) (by omega) (by omega) (takes_zero m1 s x1) (takes_row m2 s x2 hx2 i)).1.cov2
        rw [hdb, hc] at r
        show _ = ((pairKernel net ds ntk ca same s (zeroRow s) (x2.lead i)).cov2.getD (zeroRow [])).get (0 :: t)
        cases hpc : (pairKernel net ds ntk ca same s (zeroRow s) (x2.lead i)).cov2 with
        | none => rw [hpc] at r; exact r.elim
        | some c'' =>
          rw [hpc] at r
          have r : PickedArr1 1 (fun _ => i + 1) c c'' := r
          exact ((picked1_shape r hcs).2 0 t (by omega) ht).symm
  · rw [k1]
    trivial
  · rw [pk.static]
    have : K.shape1 = _ := congrArg Static.shape1 stK
    have h2 : K.shape2 = _ := congrArg Static.shape2 stK
    have h3 : K.batchAxis = _ := congrArg Static.batchAxis stK
    rw [stK, this, h2, h3]
    simp [PairKernelFn.desc, pairFn]

/-- Serial batching of the kernel function of a network whose layers treat the examples one by one: when the batched call returns, its result is that of
the call without batching, whatever the batch size and the number of devices. -/
theorem network_serial_transparent_partial (h : Batchable net a C S ds ntk isGaussian isReversed isInput ds' pre post ca')
    (hca : ((a + 1 : ℕ) : ℤ) = ca % (S.length + 2)) (bs d n1 n2 : ℕ) (hd : 0 < d) (x1 : Arr ℝ) (x2 : Option (Arr ℝ)) (hx1 : x1.shape = n1 :: S.insertIdx a C)
    (hx2 : (x2.getD x1).shape = n2 :: S.insertIdx a C) (k : Kernel ℝ) (hk : Batching.serialX1 (kernelFn net ds ntk ca same) bs d x1 x2 = .ok k) :
    ∃ k0, kernelFn net ds ntk ca same x1 (x2.getD x1) = .ok k0 ∧ SameKernel k k0 x2.isSome ∧ (k.cov2 = none ↔ x2 = none) :=
  C01.serial_kernel_transparent _ _ _ (implemented h hca) bs d n1 n2 hd x1 x2 hx1 hx2 k hk

/-- The batched call returns, when the batch sizes divide the numbers of examples. -/
theorem network_serial_returns_partial (h : Batchable net a C S ds ntk isGaussian isReversed isInput ds' pre post ca')
    (hca : ((a + 1 : ℕ) : ℤ) = ca % (S.length + 2)) (bs d n1 n2 : ℕ) (hd : 0 < d) (h1 : 0 < n1) (h2 : 0 < n2) (hb0 : 0 < min bs (Nat.gcd n1 n2 / d))
    (hb1 : min bs (Nat.gcd n1 n2 / d) * d ∣ n1) (hb2 : min bs (Nat.gcd n1 n2 / d) ∣ n2) (x1 : Arr ℝ) (x2 : Option (Arr ℝ))
    (hx1 : x1.shape = n1 :: S.insertIdx a C) (hx2 : (x2.getD x1).shape = n2 :: S.insertIdx a C) :
    ∃ k, Batching.serialX1 (kernelFn net ds ntk ca same) bs d x1 x2 = .ok k :=
  C01.serial_kernel_returns _ _ _ (implemented h hca) bs d n1 n2 hd h1 h2 hb0 hb1 hb2 x1 x2 hx1 hx2

/-! ### A concrete case: the residual network of C80, 12 and 8 inputs with 5 features, in batches of 2 -/

lemma resnet_batchable (ds ntk : Bool) : Batchable C80.resnet 0 5 [] ds ntk true false false ds [] [8] 1 where
  sem m1 m2 x1 x2 same h1 h2 := by
    obtain ⟨t, ht, hf, hS, hi⟩ := C82.resnet_per (C80.input_good x1 x2 true ds ntk same m1 m2 5 h1 h2) rfl rfl
    exact ⟨t, ht, hf, by rw [hS.1, hS.2]; rfl, hi⟩

example (x1 x2 : Arr ℝ) (ds : Bool) (h1 : x1.shape = [12, 5]) (h2 : x2.shape = [8, 5]) (same : Arr ℝ → Arr ℝ → Bool) :
    ∃ k k0, Batching.serialX1 (kernelFn C80.resnet ds true (-1) same) 2 1 x1 (some x2) = .ok k ∧ kernelFn C80.resnet ds true (-1) same x1 x2 = .ok k0 ∧
      SameKernel k k0 true := by
  obtain ⟨k, hk⟩ := network_serial_returns_partial (ca := -1) (same := same) (resnet_batchable ds true) (by simp) 2 1 12 8 (by omega) (by omega) (by omega)
    (by decide) (by decide) (by decide) x1 (some x2) h1 h2
  obtain ⟨k0, h0, hs, -⟩ := network_serial_transparent_partial (ca := -1) (same := same) (resnet_batchable ds true) (by simp) 2 1 12 8 (by omega)
    x1 (some x2) h1 h2 k hk
  exact ⟨k, k0, hk, h0, hs⟩

end NT.C83
