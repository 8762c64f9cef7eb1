import Verif.Lemmas.MaskedBranch
import Verif.Lemmas.NoneSelfNet
import Verif.Lemmas.Rules5

/-!
# C100: what the fan-in layers of finite networks compute
-/

namespace NT.C100
open NT NT.Network Arr Masked

lemma fold_entries (op : ℝ → ℝ → ℝ) (s : List ℕ) : ∀ (xs : List (Arr ℝ)) (x : Arr ℝ), x.shape = s → (∀ y ∈ xs, y.shape = s) →
    ∃ z, foldArrs op x xs = .ok z ∧ z.shape = s ∧ ∀ i, InRange i s → z.get i = (xs.map fun y => y.get i).foldl op (x.get i)
  | [], x, hx, _ => ⟨x, rfl, hx, fun _ _ => rfl⟩
  | y :: ys, x, hx, h => by
    have hy : y.shape = s := h y (by simp)
    have e : binary op x y = .ok ⟨s, fun i => op (x.get (Masks.clip i s)) (y.get (Masks.clip i s))⟩ := by
      simp only [binary, hx, hy, bcast_self]
    obtain ⟨z, f1, f2, f3⟩ := fold_entries op s ys ⟨s, fun i => op (x.get (Masks.clip i s)) (y.get (Masks.clip i s))⟩ rfl fun w hw => h w (by simp [hw])
    refine ⟨z, by simp only [foldArrs, e, f1], f2, fun i hi => ?_⟩
    rw [f3 i hi]
    have c : Masks.clip i s = i := by rw [clip_eq, Rules.bcastIdx_self hi]
    simp only [c, List.map_cons, List.foldl_cons]

lemma foldl_add (l : List ℝ) (a : ℝ) : l.foldl (· + ·) a = a + l.sum := by
  induction l generalizing a with
  | nil => simp
  | cons b l ih => rw [List.foldl_cons, ih, List.sum_cons, add_assoc]

lemma foldl_mul (l : List ℝ) (a : ℝ) : l.foldl (· * ·) a = a * l.prod := by
  induction l generalizing a with
  | nil => simp
  | cons b l ih => rw [List.foldl_cons, ih, List.prod_cons, mul_assoc]

lemma apply_plain (f : AFan) {xs : List (Arr ℝ)} {z : Arr ℝ} (h : f.apply xs = .ok z) : f.applyWithMasking none (xs.map .array) = .ok (.array z) := by
  have e1 : ((xs.map Arg.array).map (getMaskedArray none)).map (·.value) = xs := by
    rw [List.map_map, List.map_map]
    exact (List.map_congr_left fun x _ => rfl).trans (List.map_id xs)
  have e2 : Masks.sum (((xs.map Arg.array).map (getMaskedArray none)).map (·.mask)) = .ok none := by
    refine NoneSelf.sum_none _ fun m hm => ?_
    simp only [List.mem_map] at hm
    obtain ⟨_, ⟨_, ⟨x, -, rfl⟩, rfl⟩, rfl⟩ := hm
    rfl
  simp only [AFan.applyWithMasking]
  rw [e1, e2, h]
  rfl

/-- Branches without masks, of the same shape: `FanInSum` adds their outputs, `FanInProd` multiplies them, entry by entry and for any number of branches. -/
theorem fan_in_entries (s : List ℕ) (x : Arr ℝ) (xs : List (Arr ℝ)) (h : ∀ y ∈ x :: xs, y.shape = s) :
    (∃ z, AFan.sum.applyWithMasking none ((x :: xs).map .array) = .ok (.array z) ∧ z.shape = s ∧
      ∀ i, InRange i s → z.get i = ((x :: xs).map fun y => y.get i).sum) ∧
    ∃ z, AFan.prod.applyWithMasking none ((x :: xs).map .array) = .ok (.array z) ∧ z.shape = s ∧
      ∀ i, InRange i s → z.get i = ((x :: xs).map fun y => y.get i).prod := by
  have hx : x.shape = s := h x (by simp)
  have hxs : ∀ y ∈ xs, y.shape = s := fun y hy => h y (by simp [hy])
  constructor
  · obtain ⟨z, e, q, r⟩ := fold_entries (· + ·) s xs x hx hxs
    refine ⟨z, apply_plain .sum e, q, fun i hi => ?_⟩
    rw [r i hi, foldl_add, List.map_cons, List.sum_cons]
  · obtain ⟨z, e, q, r⟩ := fold_entries (· * ·) s xs x hx hxs
    refine ⟨z, apply_plain .prod e, q, fun i hi => ?_⟩
    rw [r i hi, foldl_mul, List.map_cons, List.prod_cons]

/-- Three branches. -/
example : ∃ z, AFan.prod.applyWithMasking none ([⟨[2], fun _ => 2⟩, ⟨[2], fun _ => 3⟩, ⟨[2], fun i => i.getD 0 0⟩].map .array) = .ok (.array z) ∧
    z.get [1] = 6 := by
  obtain ⟨z, e, q, r⟩ := (fan_in_entries [2] ⟨[2], fun _ => 2⟩ [⟨[2], fun _ => 3⟩, ⟨[2], fun i => i.getD 0 0⟩] (by simp)).2
  refine ⟨z, e, ?_⟩
  rw [r [1] (.cons (by decide) .nil)]
  norm_num

end NT.C100
