import Verif.Model.Diagonal

/-!
# C29: laws of the layout requirements
-/

namespace NT.C29
open NT Diagonal

/-! ## Laws -/

/-- Parallel combination is commutative. -/
theorem par_comm (a b : Diagonal) : a.par b = b.par a := by
  obtain ⟨a, b⟩ := a
  rename_i c
  obtain ⟨c, d⟩ := c
  cases a <;> cases b <;> cases c <;> cases d <;> rfl

/-- Parallel combination is associative. -/
theorem par_assoc (a b c : Diagonal) : (a.par b).par c = a.par (b.par c) := by
  obtain ⟨a, b⟩ := a
  rename_i e
  obtain ⟨e, f⟩ := e
  obtain ⟨c, d⟩ := c
  cases a <;> cases b <;> cases c <;> cases d <;> cases e <;> cases f <;> rfl

/-- Parallel combination is idempotent. -/
theorem par_idem (a : Diagonal) : a.par a = a := by
  obtain ⟨a, b⟩ := a
  cases a <;> cases b <;> rfl

/-- The parallel combination allows no more than either branch, and is the largest such. -/
theorem par_greatest (a b c : Diagonal) :
    (c.input.val ≤ (a.par b).input.val ∧ c.output.val ≤ (a.par b).output.val) ↔
      (c.input.val ≤ a.input.val ∧ c.output.val ≤ a.output.val) ∧
      (c.input.val ≤ b.input.val ∧ c.output.val ≤ b.output.val) := by
  obtain ⟨a, b⟩ := a
  rename_i e
  obtain ⟨e, f⟩ := e
  obtain ⟨c, d⟩ := c
  cases a <;> cases b <;> cases c <;> cases d <;> cases e <;> cases f <;> decide

/-- Serial composition is associative. -/
theorem seq_assoc (a b c : Diagonal) : (a.seq b).seq c = a.seq (b.seq c) := by
  obtain ⟨a, b⟩ := a
  rename_i e
  obtain ⟨e, f⟩ := e
  obtain ⟨c, d⟩ := c
  cases a <;> cases b <;> cases c <;> cases d <;> cases e <;> cases f <;> rfl

/-- `<<` is `>>` with the operands exchanged, so it is associative as well. -/
theorem lshift_assoc (a b c : Diagonal) : (a.lshift b).lshift c = a.lshift (b.lshift c) := by
  simp only [lshift, seq_assoc]

/-! ## When a chain of layers runs with diagonals only -/

/-- What the documentation asks of a chain; `prevZero` says that the entries outside of the diagonal
are zero before the first layer (they are not for the inputs of a network).  Up to the first layer after which everything is allowed to be diagonal (`output = YES`), every layer
can work from the diagonal: always (`input = YES`), or because the previous layer made the off-diagonal
entries zero (`input = MAYBE` after `output = MAYBE`); and the last outputs have zero or no
off-diagonal entries. -/
def ChainOk (prevZero : Bool) : List Diagonal → Prop
  | [] => prevZero = true
  | d :: ds =>
    (d.input = .yes ∨ d.input = .maybe ∧ prevZero = true) ∧
      (d.output = .yes ∨ ChainOk (d.output = .maybe) ds)

lemma seq_yes (a b : Diagonal) (h : a.output = .yes) : a.seq b = a := by
  simp [seq, h]

lemma foldl_yes (a : Diagonal) (h : a.output = .yes) (ds : List Diagonal) : ds.foldl seq a = a := by
  induction ds with
  | nil => rfl
  | cons d ds ih => simpa [seq_yes a d h] using ih

lemma foldl_not_yes : ∀ (ds : List Diagonal) (a : Diagonal), a.input ≠ .yes →
    (ds.foldl seq a).input ≠ .yes
  | [], _, h => h
  | d :: ds, a, h => foldl_not_yes ds _ (by
      obtain ⟨a, b⟩ := a
      obtain ⟨c, e⟩ := d
      revert h
      cases a <;> cases b <;> cases c <;> cases e <;> decide)

lemma foldl_toBool : ∀ (ds : List Diagonal) (a : Diagonal), a.input = .yes →
    ((ds.foldl seq a).toBool = true ↔ a.output = .yes ∨ ChainOk (a.output = .maybe) ds)
  | [], ⟨i, o⟩, h => by
    subst h
    cases o <;> simp [Diagonal.toBool, ChainOk, Tri.val]
  | d :: ds, ⟨i, o⟩, h => by
    simp only at h
    subst h
    rw [List.foldl_cons]
    by_cases ho : o = .yes
    · subst ho
      rw [seq_yes _ _ rfl, foldl_yes _ rfl]
      simp [Diagonal.toBool, Tri.val]
    · have key : (seq ⟨.yes, o⟩ d).input = .yes ↔ (d.input = .yes ∨ d.input = .maybe ∧ o = .maybe) := by
        obtain ⟨c, e⟩ := d
        revert ho
        cases o <;> cases c <;> cases e <;> decide
      have hout : (seq ⟨.yes, o⟩ d).output = d.output := by
        simp [seq, ho]
      simp only [ho, false_or, ChainOk, decide_eq_true_eq]
      by_cases hk : (seq ⟨.yes, o⟩ d).input = .yes
      · rw [foldl_toBool ds _ hk, hout]
        simp [key.1 hk]
      · have h1 := foldl_not_yes ds _ hk
        have h2 : ¬ (d.input = .yes ∨ d.input = .maybe ∧ o = .maybe) := fun h => hk (key.2 h)
        simp [Diagonal.toBool, h1, h2]

/-- A chain of layers runs with the diagonal-only layout exactly if diagonals are enough for each of
its layers and its outputs have no other non-zero entries. -/
theorem chain_diagonal_iff (d : Diagonal) (ds : List Diagonal) :
    (ds.foldl seq d).toBool = true ↔ ChainOk false (d :: ds) := by
  by_cases h : d.input = .yes
  · rw [foldl_toBool ds d h]
    simp [ChainOk, h]
  · have := foldl_not_yes ds d h
    simp [Diagonal.toBool, this, ChainOk, h]

/-- Parallel branches run with the diagonal-only layout exactly if each of them would. -/
theorem par_diagonal_iff (d : Diagonal) (ds : List Diagonal) :
    (ds.foldl par d).toBool = true ↔ ∀ e ∈ d :: ds, e.toBool = true := by
  induction ds generalizing d with
  | nil => simp
  | cons e ds ih =>
    rw [List.foldl_cons, ih]
    have : (d.par e).toBool = true ↔ d.toBool = true ∧ e.toBool = true := by
      obtain ⟨a, b⟩ := d
      obtain ⟨c, f⟩ := e
      cases a <;> cases b <;> cases c <;> cases f <;> decide
    simp [this, and_assoc]

section Examples
/-- `Dense`, elementwise -/
def pointwise : Diagonal := {}
/-- `ConvLocal` -/
def convLocal : Diagonal := { output := .maybe }
/-- `GlobalAvgPool` -/
def globalPool : Diagonal := ⟨.maybe, .yes⟩
/-- `Flatten` -/
def flatten : Diagonal := { output := .yes }

example : ChainOk false [pointwise, convLocal, globalPool, ⟨.no, .no⟩] := by
  simp [ChainOk, pointwise, convLocal, globalPool]
example : ([convLocal, globalPool, ⟨.no, .no⟩].foldl seq pointwise).toBool = true := rfl
example : ([pointwise, globalPool].foldl seq convLocal).toBool = false := rfl
example : ([pointwise, flatten].foldl seq pointwise).toBool = true := rfl
example : seq pointwise convLocal ≠ seq convLocal pointwise := by decide
end Examples

end NT.C29
