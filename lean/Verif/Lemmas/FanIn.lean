import Verif.Model.Branching
import Verif.Lemmas.Layout
import Verif.Props.C12Kernel
import Verif.Tac
import Mathlib.Algebra.BigOperators.Fin

/-!
# Lemmas about fan-in layers
-/

namespace NT
open Arr Kernel
variable {α : Type}

/-- A scalar standing for a constant, or an array holding `F`. -/
def HoldsS (a : Arr α) (B S T : List ℕ) (diag rev : Bool) (F : List ℕ → List ℕ → List ℕ → α) : Prop :=
  (a.shape = [] ∧ ∀ b p q, F b p q = a.get []) ∨ Holds a B S T diag rev F

lemma Holds.ne_nil {a : Arr α} {B S T : List ℕ} {diag rev : Bool}
    {F : List ℕ → List ℕ → List ℕ → α} (h : Holds a B S T diag rev F) (hB : B ≠ []) : a.shape ≠ [] := by
  rw [h.shape]
  simp [hB]

lemma HoldsS.map {β : Type} {a : Arr α} {B S T : List ℕ} {diag rev : Bool} {F : List ℕ → List ℕ → List ℕ → α}
    (h : HoldsS a B S T diag rev F) (f : α → β) :
    HoldsS (a.map f) B S T diag rev (fun b p q => f (F b p q)) := by
  rcases h with ⟨h1, h2⟩ | h
  · exact .inl ⟨h1, fun b p q => congrArg f (h2 b p q)⟩
  · exact .inr ⟨h.rank, h.square, h.shape, fun b p q hb hp hq hd => congrArg f (h.get b p q hb hp hq hd)⟩

lemma zipB_holdsS {β γ : Type} {op : α → β → γ} {a : Arr α} {b : Arr β} {B S T : List ℕ} {diag rev : Bool}
    {F : List ℕ → List ℕ → List ℕ → α} {G : List ℕ → List ℕ → List ℕ → β} (hB : B ≠ [])
    (ha : HoldsS a B S T diag rev F) (hb : HoldsS b B S T diag rev G) :
    ∃ c, zipB op a b = .ok c ∧ HoldsS c B S T diag rev (fun b p q => op (F b p q) (G b p q)) ∧
      (Holds a B S T diag rev F ∨ Holds b B S T diag rev G →
        Holds c B S T diag rev (fun b p q => op (F b p q) (G b p q))) := by
  rcases ha with ⟨ha1, ha2⟩ | ha
  · rcases hb with ⟨hb1, hb2⟩ | hb
    · refine ⟨⟨[], fun i => op (a.get i) (b.get i)⟩, by simp [zipB, ha1, hb1], .inl ⟨rfl, ?_⟩, ?_⟩
      · intro b p q
        simp only [ha2, hb2]
      · rintro (h | h)
        · exact absurd ha1 (h.ne_nil hB)
        · exact absurd hb1 (h.ne_nil hB)
    · have hne := hb.ne_nil hB
      have : Holds (⟨b.shape, fun i => op (a.get []) (b.get i)⟩ : Arr γ) B S T diag rev
          (fun b p q => op (F b p q) (G b p q)) :=
        ⟨hb.rank, hb.square, hb.shape, fun x p q hx hp hq hd => by
          rw [ha2, ← hb.get x p q hx hp hq hd]⟩
      refine ⟨_, ?_, .inr this, fun _ => this⟩
      unfold zipB
      rw [if_neg (by rw [ha1]; exact fun h => hne h.symm), if_pos ha1]
  · rcases hb with ⟨hb1, hb2⟩ | hb
    · have hne := ha.ne_nil hB
      have : Holds (⟨a.shape, fun i => op (a.get i) (b.get [])⟩ : Arr γ) B S T diag rev
          (fun b p q => op (F b p q) (G b p q)) :=
        ⟨ha.rank, ha.square, ha.shape, fun x p q hx hp hq hd => by
          rw [hb2, ← ha.get x p q hx hp hq hd]⟩
      refine ⟨_, ?_, .inr this, fun _ => this⟩
      unfold zipB
      rw [if_neg (by rw [hb1]; exact hne), if_neg hne, if_pos hb1]
    · have : Holds (⟨a.shape, fun i => op (a.get i) (b.get i)⟩ : Arr γ) B S T diag rev
          (fun b p q => op (F b p q) (G b p q)) :=
        ⟨ha.rank, ha.square, ha.shape, fun x p q hx hp hq hd => by
          rw [← ha.get x p q hx hp hq hd, ← hb.get x p q hx hp hq hd]⟩
      refine ⟨_, ?_, .inr this, fun _ => this⟩
      unfold zipB
      rw [if_pos (by rw [ha.shape, hb.shape])]

lemma foldB_holdsS {op : α → α → α} {B S T : List ℕ} {diag rev : Bool} (hB : B ≠ [])
    (l : List (Arr α × (List ℕ → List ℕ → List ℕ → α))) (acc : Arr α)
    (G : List ℕ → List ℕ → List ℕ → α) (hacc : HoldsS acc B S T diag rev G)
    (hl : ∀ x ∈ l, HoldsS x.1 B S T diag rev x.2) :
    ∃ c, foldB op acc (l.map (·.1)) = .ok c ∧
      HoldsS c B S T diag rev (fun b p q => (l.map fun x => x.2 b p q).foldl op (G b p q)) ∧
      (Holds acc B S T diag rev G ∨ (∃ x ∈ l, Holds x.1 B S T diag rev x.2) →
        Holds c B S T diag rev (fun b p q => (l.map fun x => x.2 b p q).foldl op (G b p q))) := by
  induction l generalizing acc G with
  | nil => exact ⟨acc, rfl, hacc, by simp⟩
  | cons x l ih =>
    obtain ⟨c, h1, h2, h3⟩ := zipB_holdsS (op := op) hB hacc (hl x (by simp))
    obtain ⟨c', g1, g2, g3⟩ := ih c _ h2 (fun y hy => hl y (by simp [hy]))
    refine ⟨c', by simp [foldB, h1, g1], g2, ?_⟩
    intro h
    apply g3
    rcases h with h | ⟨y, hy, h⟩
    · exact .inl (h3 (.inl h))
    · rcases List.mem_cons.1 hy with rfl | hy
      · exact .inl (h3 (.inr h))
      · exact .inr ⟨y, hy, h⟩

lemma mapE_ok' {A B : Type} {f : A → Except Err B} {m : ℕ} (a : Fin m → A) (b : Fin m → B)
    (h : ∀ r, f (a r) = .ok (b r)) : mapE f (List.ofFn a) = .ok (List.ofFn b) := by
  induction m with
  | zero => simp [mapE]
  | succ m ih =>
    rw [List.ofFn_succ, List.ofFn_succ]
    simp only [mapE, h, ih (fun r => a r.succ) (fun r => b r.succ) fun r => h r.succ]

lemma allSome_map_some {A : Type} (l : List A) : allSome (l.map some) = some l := by
  induction l with
  | nil => rfl
  | cons a l ih => simp [allSome, ih]

/-- Everything but the covariances and the order of the spatial axes is equal. -/
def SameMeta (k k' : Kernel α) : Prop :=
  k'.diagonalBatch = k.diagonalBatch ∧ k'.diagonalSpatial = k.diagonalSpatial ∧
  k'.batchAxis = k.batchAxis ∧ k'.channelAxis = k.channelAxis ∧ k'.shape1 = k.shape1 ∧
  k'.shape2 = k.shape2 ∧ k'.isGaussian = k.isGaussian ∧ k'.isInput = k.isInput ∧ k'.x1IsX2 = k.x1IsX2

lemma orient_ok' {k : Kernel α} {L : Logical α} (hk : k.Stores L) (rev : Bool)
    (hd : k.diagonalSpatial = true → k.isReversed = rev) :
    ∃ k', orient rev k = .ok k' ∧ k'.Stores L ∧ k'.isReversed = rev ∧ SameMeta k k' ∧
      k'.ntk.map Arr.ndim = k.ntk.map Arr.ndim := by
  unfold orient
  by_cases h : k.isReversed = rev
  · exact ⟨k, by rw [if_pos h], hk, h, by simp [SameMeta], rfl⟩
  · rw [if_neg h]
    have hd' : k.diagonalSpatial = false := by
      cases hs : k.diagonalSpatial
      · rfl
      · exact absurd (hd hs) h
    obtain ⟨k', h1, h2, h3, h5, h4⟩ := C12.kernel_reverse_aux k L hk hd'
    refine ⟨k', h1, h2, ?_, ?_, h5⟩
    · rw [h3]
      cases hr : k.isReversed <;> cases rev <;> simp_all
    · refine ⟨?_, ?_, ?_, ?_, ?_, ?_, ?_, ?_, ?_⟩ <;> rw [← h4]

lemma countP_zero {m : ℕ} (k : Fin m → Kernel α) (h : ∀ r, (k r).isReversed = false) :
    (List.ofFn k).countP (·.isReversed) = 0 := by
  rw [List.countP_eq_zero]
  intro a ha
  obtain ⟨r, rfl⟩ := (List.mem_ofFn).1 ha
  simp [h r]

/-- Branches of a fan-in layer that can be combined. -/
structure Combinable {m : ℕ} (k : Fin (m + 1) → Kernel α) (L : Fin (m + 1) → Logical α) : Prop where
  stores : ∀ r, (k r).Stores (L r)
  diagonalBatch : ∀ r, (k r).diagonalBatch = (k 0).diagonalBatch
  diagonalSpatial : ∀ r, (k r).diagonalSpatial = (k 0).diagonalSpatial
  batchAxis : ∀ r, (k r).batchAxis = (k 0).batchAxis
  channelAxis : ∀ r, (k r).channelAxis = (k 0).channelAxis
  /-- Reversed kernels always store all pairs of positions (an invariant of the layers). -/
  notReversed : (k 0).diagonalSpatial = true → ∀ r, (k r).isReversed = false
  sizes : ∀ r, (L r).n1 = (L 0).n1 ∧ (L r).n2 = (L 0).n2 ∧ (L r).S1 = (L 0).S1 ∧ (L r).S2 = (L 0).S2

/-- `Combinable` without the agreement of the sizes. -/
structure Aligned {m : ℕ} (k : Fin (m + 1) → Kernel α) (L : Fin (m + 1) → Logical α) : Prop where
  stores : ∀ r, (k r).Stores (L r)
  diagonalBatch : ∀ r, (k r).diagonalBatch = (k 0).diagonalBatch
  diagonalSpatial : ∀ r, (k r).diagonalSpatial = (k 0).diagonalSpatial
  batchAxis : ∀ r, (k r).batchAxis = (k 0).batchAxis
  channelAxis : ∀ r, (k r).channelAxis = (k 0).channelAxis
  /-- Reversed kernels always store all pairs of positions (an invariant of the layers). -/
  notReversed : (k 0).diagonalSpatial = true → ∀ r, (k r).isReversed = false

lemma Combinable.aligned {m : ℕ} {k : Fin (m + 1) → Kernel α} {L : Fin (m + 1) → Logical α}
    (h : Combinable k L) : Aligned k L :=
  ⟨h.stores, h.diagonalBatch, h.diagonalSpatial, h.batchAxis, h.channelAxis, h.notReversed⟩

lemma preprocess_ok' {m : ℕ} {k : Fin (m + 1) → Kernel α} {L : Fin (m + 1) → Logical α}
    (h : Aligned k L) :
    ∃ (k' : Fin (m + 1) → Kernel α) (rev : Bool),
      preprocessFanIn (k 0) (List.ofFn fun r : Fin m => k r.succ) = .ok (List.ofFn k', rev) ∧
      ∀ r, (k' r).Stores (L r) ∧ (k' r).isReversed = rev ∧ SameMeta (k r) (k' r) ∧
        (k' r).ntk.map Arr.ndim = (k r).ntk.map Arr.ndim := by
  have hlist : k 0 :: List.ofFn (fun r : Fin m => k r.succ) = List.ofFn k := (List.ofFn_succ).symm
  set rev : Bool := decide (2 * (List.ofFn k).countP (·.isReversed) > (List.ofFn k).length) with hrev
  have hd : ∀ r, (k r).diagonalSpatial = true → (k r).isReversed = rev := by
    intro r hr
    rw [h.diagonalSpatial r] at hr
    rw [h.notReversed hr r, hrev, countP_zero k (h.notReversed hr)]
    simp
  choose k' h1 h2 h3 h4 h5 using fun r => orient_ok' (h.stores r) rev (hd r)
  refine ⟨k', rev, ?_, fun r => ⟨h2 r, h3 r, h4 r, h5 r⟩⟩
  unfold preprocessFanIn
  rw [if_pos, hlist]
  · simp only [← hrev, mapE_ok' k k' h1]
  · intro x hx
    obtain ⟨r, rfl⟩ := List.mem_ofFn.1 hx
    exact ⟨h.diagonalBatch _, h.diagonalSpatial _, h.batchAxis _, h.channelAxis _⟩

lemma preprocess_ok {m : ℕ} {k : Fin (m + 1) → Kernel α} {L : Fin (m + 1) → Logical α}
    (h : Combinable k L) :
    ∃ (k' : Fin (m + 1) → Kernel α) (rev : Bool),
      preprocessFanIn (k 0) (List.ofFn fun r : Fin m => k r.succ) = .ok (List.ofFn k', rev) ∧
      ∀ r, (k' r).Stores (L r) ∧ (k' r).isReversed = rev ∧ SameMeta (k r) (k' r) := by
  obtain ⟨k', rev, h1, h2⟩ := preprocess_ok' h.aligned
  exact ⟨k', rev, h1, fun r => ⟨(h2 r).1, (h2 r).2.1, (h2 r).2.2.1⟩⟩

lemma foldl_add_ofFn [AddCommMonoid α] {m : ℕ} (f : Fin m → α) :
    (List.ofFn f).foldl (· + ·) 0 = ∑ r, f r := by
  rw [← List.sum_eq_foldl, List.sum_ofFn]

lemma optRel_none {A B : Type} {R : A → B → Prop} {o : Option A} (h : OptRel R o none) : o = none := by
  cases o with
  | none => rfl
  | some a => exact absurd h (by simp [OptRel])

lemma optRel_some {A B : Type} {R : A → B → Prop} {o : Option A} {b : B} (h : OptRel R o (some b)) :
    ∃ a, o = some a ∧ R a b := by
  cases o with
  | none => exact absurd h (by simp [OptRel])
  | some a => exact ⟨a, rfl, h⟩

end NT
