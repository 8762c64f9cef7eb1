import Verif.Lemmas.Batching3

/-! From descriptions to equality of kernels; example kernel functions. -/

namespace NT.Batching
open NT Arr Spec

variable {β γ : Type}

theorem OptEntries2.eqv {a b : Option (Arr γ)} {n1 n2 : Nat} {T : List Nat}
    {g : Option (Nat → Nat → List Nat → γ)}
    (ha : OptEntries2 a n1 n2 T g) (hb : OptEntries2 b n1 n2 T g) : OptEqv a b := by
  cases a <;> cases b <;> cases g <;> simp_all [OptEntries2, OptEqv]
  exact Entries2.eqv ha hb

theorem OptEntries1.eqv {a b : Option (Arr γ)} {n : Nat} {T : List Nat}
    {g : Option (Nat → List Nat → γ)}
    (ha : OptEntries1 a n T g) (hb : OptEntries1 b n T g) : OptEqv a b := by
  cases a <;> cases b <;> cases g <;> simp_all [OptEntries1, OptEqv]
  exact Entries1.eqv ha hb

theorem sameKernel_of_describes {D : KDesc γ} {m1 m2 : Nat} {w : Bool} {k k0 : Kernel γ}
    (h : D.Describes m1 m2 w k) (h0 : D.Describes m1 m2 true k0) : SameKernel k k0 w where
  nngp := Entries2.eqv h.nngp h0.nngp
  ntk := OptEntries2.eqv h.ntk h0.ntk
  cov1 := Entries1.eqv h.cov1 h0.cov1
  cov2_some hw := by subst hw; exact OptEntries1.eqv h.cov2 h0.cov2
  cov2_none hw := by
    subst hw
    have := h.cov2
    cases hk : k.cov2 with
    | none => rfl
    | some a => simp [hk, OptEntries1] at this
  mask1 := OptEntries1.eqv h.mask1 h0.mask1
  static := h.static.trans h0.static.symm

/-- Inner products of rows of length two. -/
def dotG (r1 r2 : Arr Int) (_ : List Nat) : Int :=
  if r1.shape = [2] ∧ r2.shape = [2] then r1.get [0] * r2.get [0] + r1.get [1] * r2.get [1] else 0

theorem dotG_congr (r1 r1' r2 r2' : Arr Int) (h1 : Arr.Eqv r1 r1') (h2 : Arr.Eqv r2 r2') :
    dotG r1 r2 = dotG r1' r2' := by
  funext t
  unfold dotG
  rw [← h1.1, ← h2.1]
  split
  · rename_i h
    rw [h1.2 [0] (by rw [h.1]; decide), h2.2 [0] (by rw [h.2]; decide),
      h1.2 [1] (by rw [h.1]; decide), h2.2 [1] (by rw [h.2]; decide)]
  · rfl

/-- The linear kernel `x1 @ x2.T` as a pairwise function. -/
def dotPair : PairFn Int Int := ⟨[], dotG, dotG_congr⟩

/-- The linear kernel `x1 @ x2.T`. -/
def dotFn (x1 x2 : Arr Int) : Except Err (Arr Int) :=
  .ok ⟨[x1.shape.headD 0, x2.shape.headD 0], fun
    | [i, j] => dotG (x1.lead i) (x2.lead j) []
    | _ => 0⟩

theorem dotPair_implementedBy (m1 m2 : Nat) : dotPair.ImplementedBy dotFn [2] m1 m2 := by
  intro x1 x2 h1 h2
  refine ⟨_, rfl, by simp [dotPair, h1, h2], ?_⟩
  intro i j t _ _ ht
  cases ht
  rfl

/-- A kernel function with a `Kernel` output: linear kernel as nngp, its double as ntk. -/
def dotKernelPair : PairKernelFn Int Int where
  T := []
  Tc := []
  Tm := []
  nngp := dotG
  ntk := some fun r1 r2 t => 2 * dotG r1 r2 t
  cov1 r := dotG r r
  cov2 r := dotG r r
  mask1 := none
  pre := []
  post := [2]
  isGaussian := true
  isReversed := false
  isInput := false
  diagonalSpatial := true
  channelAxis := 1
  nngp_congr := dotG_congr
  ntk_congr := by
    intro f hf r1 r1' r2 r2' h1 h2
    cases hf
    funext t
    simp only [dotG_congr _ _ _ _ h1 h2]
  cov1_congr := fun r r' h => dotG_congr _ _ _ _ h h
  cov2_congr := fun r r' h => dotG_congr _ _ _ _ h h
  mask1_congr := by intro f hf; cases hf

/-- See `dotKernelPair`.  `x1_is_x2` says whether the two arrays have the same entries, as
`utils.x1_is_x2` does for arrays. -/
def dotKernelFn (x1 x2 : Arr Int) : Except Err (Kernel Int) :=
  let n1 := x1.shape.headD 0
  let n2 := x2.shape.headD 0
  .ok {
    nngp := ⟨[n1, n2], fun | [i, j] => dotG (x1.lead i) (x2.lead j) [] | _ => 0⟩
    ntk := some ⟨[n1, n2], fun | [i, j] => 2 * dotG (x1.lead i) (x2.lead j) [] | _ => 0⟩
    cov1 := ⟨[n1], fun | [i] => dotG (x1.lead i) (x1.lead i) [] | _ => 0⟩
    cov2 := some ⟨[n2], fun | [i] => dotG (x2.lead i) (x2.lead i) [] | _ => 0⟩
    x1IsX2 := ⟨[], fun _ => decide (x1.shape = x2.shape ∧ x1.toList = x2.toList)⟩
    isGaussian := true
    isReversed := false
    isInput := false
    diagonalBatch := true
    diagonalSpatial := true
    shape1 := [n1, 2]
    shape2 := [n2, 2]
    batchAxis := 0
    channelAxis := 1
    mask1 := none
    mask2 := none }

theorem dotKernelPair_implementedBy (m1 m2 : Nat) :
    dotKernelPair.ImplementedBy dotKernelFn [2] m1 m2 := by
  intro x1 x2 h1 h2
  refine ⟨_, rfl, ⟨⟨?_, ?_⟩, ⟨?_, ?_⟩, ⟨?_, ?_⟩, ⟨?_, ?_⟩, trivial, rfl, ?_⟩, rfl⟩
  · simp [PairKernelFn.desc, dotKernelPair, h1, h2]
  · intro i j t _ _ ht; cases ht; rfl
  · simp [PairKernelFn.desc, dotKernelPair, h1, h2]
  · intro i j t _ _ ht; cases ht; rfl
  · simp [PairKernelFn.desc, dotKernelPair, h1]
  · intro i t _ ht; cases ht; rfl
  · simp [PairKernelFn.desc, dotKernelPair, h2]
  · intro i t _ ht; cases ht; rfl
  · simp [Kernel.static, PairKernelFn.desc, dotKernelPair, h1, h2]

end NT.Batching
