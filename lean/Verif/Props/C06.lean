import Mathlib.Tactic.Lemma
import Verif.Model.JitCache
import Mathlib.Data.List.Basic
import Mathlib.Data.List.Nodup
import Mathlib.Data.List.Induction
import Mathlib.Tactic.Common

/-!
# C06: compiled-function cache

The full property (history independence for all histories) is false of the code, see
`not_history_independent`.  It holds when every function is always called with the same number of
positional arguments.
-/

namespace NT.C06
open NT JitCache

variable {F X A O R : Type}

/-- The full property: the result of a call after any history is the result of the function on the
arguments of that call. -/
def HistoryIndependent [DecidableEq F] [DecidableEq O] (exec : Exec F X A O R) : Prop :=
  ∀ (h : List (Call F X A O)) (c : Call F X A O),
    (call exec (after exec h) c).2 = (call exec [] c).2

lemma foldr_insertIdx_ne (p : Nat × Arg A O) (l : List (Nat × Arg A O)) :
    (∀ q ∈ l, p.1 ≤ q.1) → insertIdx p l = p :: l := by
  intro h
  cases l with
  | nil => rfl
  | cons q l => simp [insertIdx, h q (by simp)]

/-- Inserting an entry with a position above a sorted list puts it last. -/
lemma insertIdx_perm (p : Nat × Arg A O) (l : List (Nat × Arg A O)) :
    (insertIdx p l).Perm (p :: l) := by
  induction l with
  | nil => exact List.Perm.refl _
  | cons q l ih =>
    unfold insertIdx
    split
    · exact List.Perm.refl _
    · exact (List.Perm.cons q ih).trans (List.Perm.swap _ _ _)

lemma insertIdx_sorted (p : Nat × Arg A O) (l : List (Nat × Arg A O))
    (h : l.Pairwise fun a b => a.1 ≤ b.1) :
    (insertIdx p l).Pairwise fun a b => a.1 ≤ b.1 := by
  induction l with
  | nil => simp [insertIdx]
  | cons q l ih =>
    unfold insertIdx
    split
    · rename_i hle
      refine List.pairwise_cons.2 ⟨?_, h⟩
      intro a ha
      rcases List.mem_cons.1 ha with rfl | ha
      · exact hle
      · exact Nat.le_trans hle ((List.pairwise_cons.1 h).1 a ha)
    · rename_i hle
      refine List.pairwise_cons.2 ⟨?_, ih (List.pairwise_cons.1 h).2⟩
      intro a ha
      rcases List.mem_cons.1 ((insertIdx_perm p l).mem_iff.1 ha) with rfl | ha
      · omega
      · exact (List.pairwise_cons.1 h).1 a ha

lemma sort_perm (l : List (Nat × Arg A O)) : (l.foldr insertIdx []).Perm l := by
  induction l with
  | nil => exact List.Perm.refl _
  | cons p l ih => exact (insertIdx_perm p _).trans (List.Perm.cons p ih)

lemma sort_sorted (l : List (Nat × Arg A O)) :
    (l.foldr insertIdx []).Pairwise fun a b => a.1 ≤ b.1 := by
  induction l with
  | nil => simp
  | cons p l ih => exact insertIdx_sorted p _ ih

/-- The arguments with their positions. -/
def indexed (n : Nat) : List (Arg A O) → List (Nat × Arg A O)
  | [] => []
  | a :: l => (n, a) :: indexed (n + 1) l

lemma indexed_snd (n : Nat) (args : List (Arg A O)) : (indexed n args).map (·.2) = args := by
  induction args generalizing n with
  | nil => rfl
  | cons a l ih => simp [indexed, ih]

lemma le_of_mem_indexed {n : Nat} {args : List (Arg A O)} {p : Nat × Arg A O}
    (h : p ∈ indexed n args) : n ≤ p.1 := by
  induction args generalizing n with
  | nil => simp [indexed] at h
  | cons a l ih =>
    rcases List.mem_cons.1 h with rfl | h
    · exact Nat.le_refl _
    · have := ih h; omega

lemma indexed_lt (n : Nat) (args : List (Arg A O)) :
    (indexed n args).Pairwise fun a b => a.1 < b.1 := by
  induction args generalizing n with
  | nil => exact List.Pairwise.nil
  | cons a l ih =>
    refine List.pairwise_cons.2 ⟨?_, ih _⟩
    intro b hb
    have := le_of_mem_indexed hb
    simp only
    omega

/-- Array and other arguments together are the arguments. -/
lemma split_perm (args : List (Arg A O)) (n : Nat) :
    (((npIdxsFrom n args).zip (npArgs args)).map (fun p : Nat × A => (p.1, (Arg.arr p.2 : Arg A O))) ++
      (otherArgsFrom n args).map fun p : Nat × O => (p.1, (Arg.other p.2 : Arg A O))).Perm
      (indexed n args) := by
  induction args generalizing n with
  | nil => exact List.Perm.refl _
  | cons a args ih =>
    cases a with
    | arr a => exact List.Perm.cons _ (ih (n + 1))
    | other o =>
      simp only [npIdxsFrom, npArgs, otherArgsFrom, List.map_cons, indexed]
      exact List.perm_middle.trans (List.Perm.cons _ (ih (n + 1)))

/-- A fresh closure receives exactly the positional arguments of the call. -/
lemma mergeArgs_self (args : List (Arg A O)) :
    mergeArgs (npIdxs args) (npArgs args) (otherArgs args) = args := by
  unfold mergeArgs npIdxs otherArgs
  simp only
  have hp := (sort_perm _).trans (split_perm args 0)
  have hs := sort_sorted (((npIdxsFrom 0 args).zip (npArgs args)).map (fun p => (p.1, Arg.arr p.2)) ++
      (otherArgsFrom 0 args).map fun p => (p.1, Arg.other p.2))
  have hm := indexed_lt 0 args
  have hm' := hm.imp (S := fun a b : Nat × Arg A O => a.1 ≤ b.1) (fun h => Nat.le_of_lt h)
  have hnd : ((indexed 0 args).map (·.1)).Nodup := by
    rw [List.Nodup, List.pairwise_map]
    exact hm.imp (fun h => Nat.ne_of_lt h)
  have := List.Perm.eq_of_pairwise (le := fun a b : Nat × Arg A O => a.1 ≤ b.1)
    (l₁ := _) (l₂ := _) (fun a b ha hb h1 h2 =>
      List.inj_on_of_nodup_map hnd (hp.mem_iff.1 ha) hb (Nat.le_antisymm h1 h2)) hs hm' hp
  rw [this, indexed_snd]

/-- Equal non-array arguments (with positions) and equal number of positional arguments force equal
positions of the array arguments. -/
lemma npIdxs_eq {a b : List (Arg A O)} (hl : a.length = b.length) (n : Nat)
    (ho : otherArgsFrom n a = otherArgsFrom n b) : npIdxsFrom n a = npIdxsFrom n b := by
  have hlt : ∀ (m : Nat) (l : List (Arg A O)) p, p ∈ otherArgsFrom m l → m ≤ p.1 := by
    intro m l
    induction l generalizing m with
    | nil => intro p hp; simp [otherArgsFrom] at hp
    | cons x l ih =>
      intro p hp
      cases x with
      | arr x => have := ih (m + 1) p hp; omega
      | other o =>
        rcases List.mem_cons.1 hp with rfl | hp
        · exact Nat.le_refl _
        · have := ih (m + 1) p hp; omega
  induction a generalizing b n with
  | nil => cases b with
    | nil => rfl
    | cons y b => simp at hl
  | cons x a ih => cases b with
    | nil => simp at hl
    | cons y b =>
      simp only [List.length_cons, Nat.add_right_cancel_iff] at hl
      cases x with
      | arr x => cases y with
        | arr y => simp only [npIdxsFrom]; rw [ih hl (n + 1) ho]
        | other o =>
          simp only [otherArgsFrom] at ho
          have := hlt (n + 1) a (n, o) (by rw [ho]; simp)
          simp only at this
          omega
      | other o => cases y with
        | arr y =>
          simp only [otherArgsFrom] at ho
          have := hlt (n + 1) b (n, o) (by rw [← ho]; simp)
          simp only at this
          omega
        | other o' =>
          simp only [otherArgsFrom, List.cons.injEq] at ho
          simp only [npIdxsFrom]
          exact ih hl (n + 1) ho.2

/-- A call with an empty cache runs the function on exactly the call's positional arguments, and on
its keyword arguments (array ones first). -/
theorem fresh_call [DecidableEq F] [DecidableEq O] (exec : Exec F X A O R) (c : Call F X A O) :
    (call exec [] c).2 = exec c.f c.deviceCount c.x c.args
      (mergeKwargs (npKwargs c.kwargs) (otherKwargs c.kwargs)) := by
  simp only [call, List.lookup, runClosure, mergeArgs_self]

/-- Every closure stored was created by an earlier call with the same key. -/
lemma after_inv [DecidableEq F] [DecidableEq O] (exec : Exec F X A O R)
    (h : List (Call F X A O)) (k : Key F O) (cl : Closure F O)
    (hk : (after exec h).lookup k = some cl) :
    ∃ c ∈ h, key c = k ∧ cl = ⟨c.f, c.deviceCount, npIdxs c.args, otherArgs c.args,
      otherKwargs c.kwargs⟩ := by
  induction h using List.reverseRecOn generalizing k cl with
  | nil => simp [after] at hk
  | append_singleton h c ih =>
    have e : after exec (h ++ [c]) = (call exec (after exec h) c).1 := by simp [after]
    rw [e] at hk
    unfold call at hk
    cases hl : (after exec h).lookup (key c) with
    | some cl' =>
      rw [hl] at hk
      obtain ⟨c', hc', r⟩ := ih k cl hk
      exact ⟨c', by simp [hc'], r⟩
    | none =>
      rw [hl] at hk
      simp only [List.lookup_cons] at hk
      by_cases hkey : k = key c
      · simp only [hkey, beq_self_eq_true] at hk
        cases hk
        exact ⟨c, by simp, hkey.symm, rfl⟩
      · have hb : (k == key c) = false := by simpa using hkey
        simp only [hb] at hk
        obtain ⟨c', hc', r⟩ := ih k cl hk
        exact ⟨c', by simp [hc'], r⟩

/-- Part of the property that holds: if all earlier calls of the same function pass as many
positional arguments as this one, the result does not depend on the history.
Missing: histories mixing numbers of positional arguments, for which it is false. -/
theorem history_independent_partial [DecidableEq F] [DecidableEq O] (exec : Exec F X A O R)
    (h : List (Call F X A O)) (c : Call F X A O)
    (harity : ∀ c' ∈ h, c'.f = c.f → c'.args.length = c.args.length) :
    (call exec (after exec h) c).2 = (call exec [] c).2 := by
  unfold call
  simp only [List.lookup]
  cases hl : (after exec h).lookup (key c) with
  | none => rfl
  | some cl =>
    obtain ⟨c', hc', hkey, rfl⟩ := after_inv exec h _ _ hl
    simp only [key, Key.mk.injEq] at hkey
    obtain ⟨h1, h2, h3, h4⟩ := hkey
    have h5 : npIdxs c'.args = npIdxs c.args := npIdxs_eq (harity c' hc' h1) 0 h3
    simp only [h1, h2, h3, h4, h5]

/-- The full property fails: after a call without positional array arguments (this is what a call
on a `Kernel` does, batching.py:629) a call with one (`x2`, batching.py:606) loses it. -/
theorem not_history_independent :
    ¬ HistoryIndependent (F := Unit) (X := Nat) (A := Nat) (O := Nat)
      fun _ _ x args _ => (x, args) := by
  intro h
  have := h [⟨(), 2, 1, [], []⟩] ⟨(), 2, 3, [.arr 4], []⟩
  revert this
  decide +kernel

section Examples
/-- Same arity throughout, with array, non-array and keyword arguments in different places. -/
example : (call (F := Nat) (X := Nat) (A := Nat) (O := String)
      (fun f d x args kw => (f, d, x, args, kw))
      (after (fun f d x args kw => (f, d, x, args, kw))
        [⟨0, 2, 1, [.arr 5, .other "ntk"], []⟩, ⟨0, 2, 1, [.other "nngp", .arr 3], []⟩])
      ⟨0, 2, 7, [.arr 9, .other "ntk"], [("p", .other "q")]⟩).2 =
    (0, 2, 7, [.arr 9, .other "ntk"], [("p", .other "q")]) := by
  rw [history_independent_partial _ _ _ (by decide), fresh_call]
  rfl
end Examples

end NT.C06
