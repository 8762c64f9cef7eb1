import Verif.Lemmas.Axes2
import Verif.Model.KernelOps
import Verif.Spec.Layout
import Verif.Tac

/-!
Lemmas about layouts (`pos`, `Holds`).
-/

namespace NT
open Arr Spec

variable {α : Type}

/-- A spatial index in storage order. -/
def rv (rev : Bool) (p : List Nat) : List Nat := if rev then p.reverse else p

@[simp] lemma rv_length (rev : Bool) (p : List Nat) : (rv rev p).length = p.length := by
  unfold rv; split_ifs <;> simp

@[simp] lemma rv_rv (rev : Bool) (p : List Nat) : rv rev (rv rev p) = p := by
  unfold rv; split_ifs <;> simp

lemma rv_not (rev : Bool) (p : List Nat) : rv (!rev) p = (rv rev p).reverse := by
  unfold rv; cases rev <;> simp

lemma inRange_reverse {p S : List Nat} : InRange p.reverse S.reverse ↔ InRange p S := by
  unfold InRange
  rw [List.forall₂_reverse_iff]

lemma inRange_rv {rev : Bool} {p S : List Nat} : InRange (rv rev p) (rv rev S) ↔ InRange p S := by
  unfold rv; split_ifs
  · exact inRange_reverse
  · rfl

lemma inRange_rv' {rev : Bool} {p S : List Nat} : InRange p (rv rev S) ↔ InRange (rv rev p) S := by
  conv_lhs => rw [← rv_rv rev p]
  exact inRange_rv

lemma pos_full (rev : Bool) (p q : List Nat) : pos false rev p q = interleave (rv rev p) (rv rev q) := by
  unfold pos rv; cases rev <;> simp

lemma pos_diag (rev : Bool) (p q : List Nat) : pos true rev p q = rv rev p := by
  unfold pos rv; cases rev <;> simp

lemma pos_length (diag rev : Bool) {p q : List Nat} (h : p.length = q.length) :
    (pos diag rev p q).length = if diag then p.length else 2 * p.length := by
  cases diag
  · rw [pos_full, interleave_length (by simpa using h)]; simp
  · rw [pos_diag]; simp

/-- Splitting an in-range index. -/
lemma inRange_pos {diag rev : Bool} {S T m : List Nat} (hST : S.length = T.length) :
    (InRange m (pos diag rev S T)) →
    ∃ p q, m = pos diag rev p q ∧ InRange p S ∧ (diag = true → p = q) ∧ (diag = false → InRange q T) := by
  intro h
  cases diag
  · rw [pos_full] at h
    obtain ⟨p, q, hp, hq, rfl⟩ := exists_interleave S.length (x := m) (by
      rw [h.length, interleave_length (by simpa using hST)]; simp)
    rw [inRange_interleave (by simpa using hp) (by simpa [hST] using hq) (by simpa using hST)] at h
    refine ⟨rv rev p, rv rev q, by simp [pos_full], ?_, by simp, fun _ => ?_⟩
    · exact inRange_rv'.1 h.1
    · exact inRange_rv'.1 h.2
  · rw [pos_diag] at h
    exact ⟨rv rev m, rv rev m, by simp [pos_diag], inRange_rv'.1 h, fun _ => rfl, by simp⟩

lemma pos_inRange {diag rev : Bool} {S T p q : List Nat} (hST : S.length = T.length)
    (hp : InRange p S) (hq : InRange q T) : InRange (pos diag rev p q) (pos diag rev S T) := by
  cases diag
  · rw [pos_full, pos_full, inRange_interleave (by simp [hp.length]) (by simp [hq.length])
      (by simpa using hST)]
    exact ⟨inRange_rv.2 hp, inRange_rv.2 hq⟩
  · rw [pos_diag, pos_diag]; exact inRange_rv.2 hp

/-- Two arrays that hold the same are equal. -/
lemma Holds.eqv {a b : Arr α} {B S T : List Nat} {diag rev : Bool}
    {F : List Nat → List Nat → List Nat → α} (ha : Holds a B S T diag rev F)
    (hb : Holds b B S T diag rev F) : a ≋ b := by
  refine ⟨by rw [ha.shape, hb.shape], ?_⟩
  intro i hi
  rw [ha.shape] at hi
  obtain ⟨l, m, rfl, hl, hm⟩ := inRange_append_right hi
  obtain ⟨p, q, rfl, hp, hpq, hq⟩ := inRange_pos ha.rank hm
  have hq' : InRange q T := by
    cases diag
    · exact hq rfl
    · rw [← hpq rfl, ← ha.square rfl]; exact hp
  rw [ha.get l p q hl hp hq' hpq, hb.get l p q hl hp hq' hpq]

lemma Holds.of_eqv {a b : Arr α} {B S T : List Nat} {diag rev : Bool}
    {F : List Nat → List Nat → List Nat → α} (ha : Holds a B S T diag rev F) (h : a ≋ b) :
    Holds b B S T diag rev F := by
  refine ⟨ha.rank, ha.square, by rw [← h.1, ha.shape], ?_⟩
  intro l p q hl hp hq hpq
  rw [← ha.get l p q hl hp hq hpq]
  refine (h.2 _ ?_).symm
  rw [ha.shape, inRange_append hl.length]
  exact ⟨hl, pos_inRange ha.rank hp hq⟩

lemma Holds.map {a : Arr α} {B S T : List Nat} {diag rev : Bool}
    {F : List Nat → List Nat → List Nat → α} (ha : Holds a B S T diag rev F) (f : α → α) :
    Holds (a.map f) B S T diag rev (fun b p q => f (F b p q)) :=
  ⟨ha.rank, ha.square, ha.shape, fun b p q hb hp hq h => by
    show f (a.get _) = _
    rw [ha.get b p q hb hp hq h]⟩

lemma Holds.congr {a : Arr α} {B S T : List Nat} {diag rev : Bool}
    {F G : List Nat → List Nat → List Nat → α} (ha : Holds a B S T diag rev F)
    (h : ∀ b p q, InRange b B → InRange p S → InRange q T → F b p q = G b p q) :
    Holds a B S T diag rev G :=
  ⟨ha.rank, ha.square, ha.shape, fun b p q hb hp hq h' => by
    rw [ha.get b p q hb hp hq h', h b p q hb hp hq]⟩

lemma Holds.reverse {a : Arr α} {B S T : List Nat} {rev : Bool}
    {F : List Nat → List Nat → List Nat → α} (ha : Holds a B S T false rev F) :
    ∃ z, reverseZipped a B.length = .ok z ∧ Holds z B S T false (!rev) F := by
  have hs := ha.shape
  rw [pos_full] at hs
  obtain ⟨z, h1, h2, h3⟩ := reverseZipped_ok a B (rv rev S) (rv rev T) hs (by simpa using ha.rank)
  refine ⟨z, h1, ha.rank, by simp, ?_, ?_⟩
  · rw [h2, pos_full, rv_not, rv_not]
  · intro b p q hb hp hq h
    have := h3 b (rv rev p) (rv rev q) hb.length (by simp [hp.length]) (by simp [hq.length])
    rw [pos_full, rv_not, rv_not, this, ← ha.get b p q hb hp hq h, pos_full]

lemma batchShape_length (d : Bool) (n : Nat) : (batchShape d n).length = if d then 1 else 2 := by
  unfold batchShape; cases d <;> rfl

/-- Two kernels that store the same in the same layout are equal. -/
lemma stores_eqv {k k' : Kernel α} {L : Logical α} (h : k.Stores L) (h' : k'.Stores L)
    (hs : k.static = k'.static) (hn : ∀ a, k.ntk = some a → a.shape ≠ [])
    (hn' : ∀ a, k'.ntk = some a → a.shape ≠ []) :
    k.nngp ≋ k'.nngp ∧ k.cov1 ≋ k'.cov1 ∧ OptRel (· ≋ ·) k.cov2 k'.cov2 ∧
      OptRel (· ≋ ·) k.ntk k'.ntk := by
  have hr : k.isReversed = k'.isReversed := congrArg Kernel.Static.isReversed hs
  have hd : k.diagonalSpatial = k'.diagonalSpatial := congrArg Kernel.Static.diagonalSpatial hs
  have hb : k.diagonalBatch = k'.diagonalBatch := congrArg Kernel.Static.diagonalBatch hs
  refine ⟨?_, ?_, ?_, ?_⟩
  · have := h.nngp
    rw [hr, hd] at this
    exact this.eqv h'.nngp
  · have := h.cov1
    rw [hr, hd, hb] at this
    exact this.eqv h'.cov1
  · have a := h.cov2
    have b := h'.cov2
    rw [hr, hd, hb] at a
    cases e1 : k.cov2 <;> cases e2 : k'.cov2 <;> cases e3 : L.k22 <;> rw [e1, e3] at a <;>
      rw [e2, e3] at b <;> simp only [OptRel] at a b ⊢
    exact a.eqv b
  · have a := h.ntk
    have b := h'.ntk
    rw [hr, hd] at a
    cases e1 : k.ntk <;> cases e2 : k'.ntk <;> cases e3 : L.ntk <;> rw [e1, e3] at a <;>
      rw [e2, e3] at b <;> simp only [OptRel] at a b ⊢
    rcases a with ⟨a0, -⟩ | a
    · exact absurd a0 (hn _ e1)
    · rcases b with ⟨b0, -⟩ | b
      · exact absurd b0 (hn' _ e2)
      · exact a.eqv b

/-! ### Every logical content is stored by some kernel -/

/-- Elements at even positions. -/
def evens : List Nat → List Nat
  | a :: _ :: t => a :: evens t
  | _ => []

/-- Elements at odd positions. -/
def odds : List Nat → List Nat
  | _ :: b :: t => b :: odds t
  | _ => []

lemma evens_interleave : ∀ {p q : List Nat}, p.length = q.length → evens (interleave p q) = p
  | [], [], _ => rfl
  | a :: p, b :: q, h => by simp [interleave, evens, evens_interleave (p := p) (q := q) (by simpa using h)]

lemma odds_interleave : ∀ {p q : List Nat}, p.length = q.length → odds (interleave p q) = q
  | [], [], _ => rfl
  | a :: p, b :: q, h => by simp [interleave, odds, odds_interleave (p := p) (q := q) (by simpa using h)]

/-- The array that holds `F`. -/
def holdArr (B S T : List Nat) (diag rev : Bool) (F : List Nat → List Nat → List Nat → α) : Arr α :=
  ⟨B ++ pos diag rev S T, fun i =>
    let b := i.take B.length
    let m := i.drop B.length
    if diag then F b (rv rev m) (rv rev m) else F b (rv rev (evens m)) (rv rev (odds m))⟩

lemma holdArr_holds (B S T : List Nat) (diag rev : Bool) (F : List Nat → List Nat → List Nat → α)
    (h : S.length = T.length) (hd : diag = true → S = T) :
    Holds (holdArr B S T diag rev F) B S T diag rev F := by
  refine ⟨h, hd, rfl, ?_⟩
  intro b p q hb hp hq hpq
  have hl := hb.length
  unfold holdArr
  simp only [← hl, List.take_left', List.drop_left']
  cases diag
  · have : (rv rev p).length = (rv rev q).length := by simp [hp.length, hq.length, h]
    simp [pos_full, evens_interleave this, odds_interleave this]
  · have := hpq rfl
    subst this
    simp [pos_diag]

/-- A kernel with the given layout that stores `L`. -/
def Logical.encode (L : Logical α) (db ds rev : Bool) : Kernel α where
  nngp := holdArr [L.n1, L.n2] L.S1 L.S2 ds rev L.k12
  ntk := L.ntk.map (holdArr [L.n1, L.n2] L.S1 L.S2 ds rev)
  cov1 := holdArr (batchShape db L.n1) L.S1 L.S1 ds rev (fun b => L.k11 (dbl b))
  cov2 := L.k22.map fun F => holdArr (batchShape db L.n2) L.S2 L.S2 ds rev (fun b => F (dbl b))
  x1IsX2 := ⟨[], fun _ => false⟩
  isGaussian := false
  isReversed := rev
  isInput := false
  diagonalBatch := db
  diagonalSpatial := ds
  shape1 := L.n1 :: L.S1 ++ [1]
  shape2 := L.n2 :: L.S2 ++ [1]
  batchAxis := 0
  channelAxis := L.S1.length + 1
  mask1 := none
  mask2 := none

lemma Logical.encode_stores (L : Logical α) (db ds rev : Bool) (hd : ds = true → L.S1 = L.S2)
    (h : L.S1.length = L.S2.length) : (L.encode db ds rev).Stores L := by
  refine ⟨holdArr_holds _ _ _ _ _ _ h hd,
    holdArr_holds (batchShape db L.n1) L.S1 L.S1 ds rev (fun b => L.k11 (dbl b)) rfl (fun _ => rfl),
    ?_, ?_⟩
  · unfold encode
    cases L.k22 with
    | none => trivial
    | some F => exact holdArr_holds _ _ _ _ _ _ rfl (fun _ => rfl)
  · unfold encode
    cases L.ntk with
    | none => trivial
    | some F => exact .inr (holdArr_holds _ _ _ _ _ _ h hd)

end NT
