import Verif.Model.Utils
import Verif.Tac

/-!
# C22: axis tracking through `dot_general`
-/

namespace NT.C22
open NT Utils

/-- Where an output axis of `lax.dot_general` comes from. -/
inductive Origin where
  | batch (k : ℕ)
  | lhs (axis : ℕ)
  | rhs (axis : ℕ)
  deriving DecidableEq

/-- The axes of an operand that are neither contracted nor batch axes, in order. -/
def free (ndim : ℕ) (contracting batch : List ℕ) : List ℕ :=
  (List.range ndim).filter fun a => decide (a ∉ contracting ∧ a ∉ batch)

/-- The documented output layout of `dot_general`: batch axes in the order given, then the free axes
of the left operand in order, then those of the right operand. -/
def outputAxes (nl nr : ℕ) (cl bl cr br : List ℕ) : List Origin :=
  (List.range bl.length).map .batch ++ (free nl cl bl).map .lhs ++ (free nr cr br).map .rhs

/-- An axis list is admissible: distinct axes of the operand. -/
def Admissible (n : ℕ) (c b : List ℕ) : Prop := (c ++ b).Nodup ∧ ∀ a ∈ c ++ b, a < n

lemma countP_lt (l : List ℕ) (axis : ℕ) (hl : l.Nodup) :
    (l.filter (· < axis)).length = ((List.range axis).filter (· ∈ l)).length := by
  rw [← List.toFinset_card_of_nodup (hl.filter _),
    ← List.toFinset_card_of_nodup (List.nodup_range.filter _)]
  congr 1
  ext a
  simp [and_comm]

lemma free_take (n axis : ℕ) (c b : List ℕ) (h : axis < n) (hc : axis ∉ c) (hb : axis ∉ b) :
    (free n c b)[(free axis c b).length]? = some axis := by
  have e : List.range n = List.range axis ++ axis :: (List.range (n - axis - 1)).map (· + (axis + 1)) := by
    have : n = axis + (1 + (n - axis - 1)) := by omega
    rw [this, List.range_add, List.range_add]
    simp [List.range_succ, add_comm, add_left_comm, Function.comp_def]
  unfold free
  rw [e, List.filter_append, List.getElem?_append_right le_rfl]
  simp [hc, hb]

lemma free_length (axis : ℕ) (c b : List ℕ) (hnd : (c ++ b).Nodup) (hb : axis ∉ b) :
    (free axis c b).length + (c.filter (· < axis)).length + b.length =
      axis + (b.filter (axis < ·)).length := by
  have h1 : (b.filter (axis < ·)).length + (b.filter (· < axis)).length = b.length := by
    have := List.length_eq_length_filter_add (l := b) (fun a => decide (axis < a))
    rw [this]
    have e : b.filter (· < axis) = b.filter (fun a => !decide (axis < a)) := by
      apply List.filter_congr
      intro a ha
      have : a ≠ axis := fun h => hb (h ▸ ha)
      rw [Bool.eq_iff_iff]
      simp only [decide_eq_true_eq, Bool.not_eq_true', decide_eq_false_iff_not, not_lt]
      omega
    rw [e]
  have hcn := (List.nodup_append.1 hnd).1
  have hbn := (List.nodup_append.1 hnd).2.1
  have hd := (List.nodup_append.1 hnd).2.2
  have h2 : (free axis c b).length + ((c ++ b).filter (· < axis)).length = axis := by
    rw [countP_lt _ _ hnd, free]
    have := List.length_eq_length_filter_add (l := List.range axis)
      (fun a => decide (a ∉ c ∧ a ∉ b))
    rw [List.length_range] at this
    have e : (List.range axis).filter (fun a => decide (a ∈ c ++ b)) =
        (List.range axis).filter (fun a => !decide (a ∉ c ∧ a ∉ b)) := by
      apply List.filter_congr
      intro a _
      rw [Bool.eq_iff_iff]
      simp only [List.mem_append, decide_eq_true_eq, Bool.not_eq_true', decide_eq_false_iff_not]
      tauto
    rw [e]
    exact this.symm
  rw [List.filter_append, List.length_append] at h2
  omega

lemma free_total (n : ℕ) (c b : List ℕ) (h : Admissible n c b) :
    (free n c b).length = n - b.length - c.length := by
  obtain ⟨hnd, hlt⟩ := h
  have hb : n ∉ b := fun hn => by have := hlt n (by simp [hn]); omega
  have := free_length n c b hnd hb
  have h1 : c.filter (· < n) = c := by
    rw [List.filter_eq_self]; intro a ha; simpa using hlt a (by simp [ha])
  have h2 : b.filter (n < ·) = [] := by
    rw [List.filter_eq_nil_iff]; intro a ha; have := hlt a (by simp [ha]); simp; omega
  rw [h1, h2] at this
  simp at this
  omega

/-- A non-contracted axis of the left operand is found in the output at the position computed: a
batch axis at its place among the batch axes, any other at its place among the left free axes. -/
theorem axisAfterDot_lhs (nl nr : ℕ) (cl bl cr br : List ℕ) (hl : Admissible nl cl bl) (axis : ℕ)
    (ha : axis < nl) (hc : axis ∉ cl) :
    (outputAxes nl nr cl bl cr br)[axisAfterDot axis cl bl none]? =
      some (if axis ∈ bl then .batch (bl.idxOf axis) else .lhs axis) := by
  unfold axisAfterDot outputAxes
  split_ifs with hb
  · have := List.idxOf_lt_length_iff.2 hb
    rw [List.append_assoc, List.getElem?_append_left (by simpa using this)]
    simp [this]
  · have h := free_length axis cl bl hl.1 hb
    have h3 : (cl.filter (· < axis)).length ≤ axis := by
      rw [countP_lt _ _ (List.nodup_append.1 hl.1).1]
      exact (List.length_filter_le _ _).trans (by simp)
    have e : axis - (cl.filter (· < axis)).length + (bl.filter (axis < ·)).length + 0 =
        bl.length + (free axis cl bl).length := by omega
    have hf := free_take nl axis cl bl ha hc hb
    have hlen := (List.getElem?_eq_some_iff.1 hf).1
    rw [e, List.append_assoc, List.getElem?_append_right (by simp)]
    rw [List.getElem?_append_left (by simpa using hlen)]
    simp [hf]

/-- A non-contracted axis of the right operand likewise, given the number of axes of the left
one. -/
theorem axisAfterDot_rhs (nl nr : ℕ) (cl bl cr br : List ℕ) (hl : Admissible nl cl bl)
    (hr : Admissible nr cr br) (hlen : bl.length = br.length) (hlen' : cl.length = cr.length)
    (axis : ℕ) (ha : axis < nr) (hc : axis ∉ cr) :
    (outputAxes nl nr cl bl cr br)[axisAfterDot axis cr br (some nl)]? =
      some (if axis ∈ br then .batch (br.idxOf axis) else .rhs axis) := by
  unfold axisAfterDot outputAxes
  split_ifs with hb
  · have := List.idxOf_lt_length_iff.2 hb
    rw [List.append_assoc, List.getElem?_append_left (by simpa [hlen] using this)]
    simp [hlen, this]
  · have h := free_length axis cr br hr.1 hb
    have h3 : (cr.filter (· < axis)).length ≤ axis := by
      rw [countP_lt _ _ (List.nodup_append.1 hr.1).1]
      exact (List.length_filter_le _ _).trans (by simp)
    have ht := free_total nl cl bl hl
    have e : axis - (cr.filter (· < axis)).length + (br.filter (axis < ·)).length +
        (nl - br.length - cr.length) =
        (bl.length + (free nl cl bl).length) + (free axis cr br).length := by omega
    have hf := free_take nr axis cr br ha hc hb
    rw [e, List.getElem?_append_right (by simp)]
    simp [hf]

section Examples
/-- Left operand of rank 4 with batch axis 2 and contracting axis 0: axis 3 ends up at 2. -/
example : Admissible 4 [0] [2] := by unfold Admissible; decide
example : axisAfterDot 3 [0] [2] none = 2 := by decide
example : outputAxes 4 3 [0] [2] [1] [0] = [.batch 0, .lhs 1, .lhs 3, .rhs 2] := by decide
example : axisAfterDot 2 [1] [0] (some 4) = 3 := by decide
end Examples

end NT.C22
