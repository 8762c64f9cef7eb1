import Verif.Model.KernelDot
import Verif.Lemmas.Box
import Verif.Tac

/-!
# Sums over labelled axes
-/

namespace NT.Einsum
open NT Arr Spec

section
variable {ι : Type} [DecidableEq ι]

lemma assign_map (ls : List ι) (f : ι → ℕ) {l : ι} (h : l ∈ ls) : assign ls (ls.map f) l = f l := by
  induction ls with
  | nil => cases h
  | cons a ls ih =>
    simp only [List.map_cons, assign]
    split_ifs with e
    · rw [e]
    · exact ih ((List.mem_cons.1 h).resolve_left e)

lemma assign_not_mem (ls : List ι) (vs : List ℕ) {l : ι} (h : l ∉ ls) : assign ls vs l = 0 := by
  induction ls generalizing vs with
  | nil => rfl
  | cons a ls ih =>
    cases vs with
    | nil => rfl
    | cons v vs =>
      simp only [assign]
      rw [if_neg fun e => h (by simp [e]), ih vs fun e => h (by simp [e])]

lemma map_assign (ls : List ι) (vs : List ℕ) (hn : ls.Nodup) (hl : ls.length = vs.length) : ls.map (assign ls vs) = vs := by
  induction ls generalizing vs with
  | nil => simp at hl; exact (List.length_eq_zero_iff.1 hl.symm).symm
  | cons a ls ih =>
    match vs with
    | v :: vs =>
      rw [List.nodup_cons] at hn
      simp only [List.map_cons, assign, if_true, List.cons.injEq, true_and]
      refine Eq.trans (List.map_congr_left fun l hm => ?_) (ih vs hn.2 (by simpa using hl))
      have : l ≠ a := fun e => hn.1 (e ▸ hm)
      simp [this]
    | [] => simp at hl

lemma assign_append (l1 l2 : List ι) (v1 v2 : List ℕ) (h : l1.length = v1.length) (x : ι) :
    assign (l1 ++ l2) (v1 ++ v2) x = if x ∈ l1 then assign l1 v1 x else assign l2 v2 x := by
  induction l1 generalizing v1 with
  | nil =>
    obtain rfl := List.length_eq_zero_iff.1 h.symm
    simp
  | cons a l1 ih =>
    match v1 with
    | v :: v1 =>
      simp only [List.cons_append, assign]
      by_cases e : x = a
      · simp [e]
      · simp [e, ih v1 (by simpa using h)]
    | [] => simp at h

/-- The order of the labels that are summed over does not matter. -/
lemma sum_perm {M : Type} [AddCommMonoid M] (sz : ι → ℕ) (F : (ι → ℕ) → M) {N N' : List ι} (h : N.Perm N') (hn : N.Nodup) :
    ∑ c ∈ box (N.map sz), F (assign N c) = ∑ c ∈ box (N'.map sz), F (assign N' c) := by
  induction h generalizing F with
  | nil => rfl
  | cons a h ih =>
    rename_i l1 l2
    simp only [List.map_cons]
    rw [box_sum_cons, box_sum_cons]
    refine Finset.sum_congr rfl fun t _ => ?_
    exact ih (fun f => F fun x => if x = a then t else f x) (List.nodup_cons.1 hn).2
  | swap a b l =>
    have hab : b ≠ a := by
      intro e
      subst e
      simp at hn
    simp only [List.map_cons]
    rw [box_sum_cons, box_sum_cons]
    simp only [box_sum_cons]
    rw [Finset.sum_comm]
    refine Finset.sum_congr rfl fun t _ => Finset.sum_congr rfl fun u _ => Finset.sum_congr rfl fun c _ => ?_
    congr 1
    funext x
    simp only [assign]
    by_cases e1 : x = a <;> by_cases e2 : x = b <;> simp [e1, e2]
    · exact absurd (e2.symm.trans e1) hab
    · intro e; exact absurd e hab.symm
    · intro e; exact absurd e hab
  | trans h1 h2 ih1 ih2 => exact (ih1 F hn).trans (ih2 F (h1.nodup_iff.1 hn))

end

variable {α : Type} [CommSemiring α]

omit [CommSemiring α] in
lemma size_eq (ops : List (Arr α × List ℤ)) (sz : ℤ → ℕ) (h : ∀ o ∈ ops, o.1.shape = o.2.map sz) {l : ℤ}
    (hl : l ∈ ops.flatMap fun o => o.2) : size ops l = sz l := by
  have e : (ops.flatMap fun o => o.1.shape) = (ops.flatMap fun o => o.2).map sz := by
    rw [List.map_flatMap]
    exact List.flatMap_congr h
  rw [size, e, assign_map _ _ hl]

/-- The value of an `einsum`, for consistent sizes `sz` and any order `N` of the labels summed over. -/
lemma einsum_ok (ops : List (Arr α × List ℤ)) (out : List ℤ) (sz : ℤ → ℕ) (h : ∀ o ∈ ops, o.1.shape = o.2.map sz)
    (hout : ∀ l ∈ out, l ∈ ops.flatMap fun o => o.2) (hn : out.Nodup) (N : List ℤ) (hN : N.Nodup)
    (hmem : ∀ l, l ∈ N ↔ (l ∈ ops.flatMap fun o => o.2) ∧ l ∉ out) :
    ∃ y, einsum ops out = .ok y ∧ y.shape = out.map sz ∧ ∀ i, i.length = out.length →
      y.get i = ∑ c ∈ box (N.map sz), (ops.map fun o => o.1.get (o.2.map (assign (out ++ N) (i ++ c)))).prod := by
  have hs : ∀ o ∈ ops, o.1.shape = o.2.map (size ops) := by
    intro o ho
    rw [h o ho]
    refine List.map_congr_left fun l hl => ?_
    rw [size_eq ops sz h (List.mem_flatMap.2 ⟨o, ho, hl⟩)]
  have hsum : ∀ l, l ∈ summed ops out ↔ (l ∈ ops.flatMap fun o => o.2) ∧ l ∉ out := by
    intro l
    simp [summed]
  have hnd : (summed ops out).Nodup := (List.nodup_dedup _).filter _
  have hperm : (summed ops out).Perm N := by
    rw [List.perm_ext_iff_of_nodup hnd hN]
    intro l
    rw [hsum, hmem]
  refine ⟨_, by rw [einsum, if_pos ⟨hs, hout, hn⟩], ?_, ?_⟩
  · exact List.map_congr_left fun l hl => size_eq ops sz h (hout l hl)
  · intro i hi
    show sumOver ((summed ops out).map (size ops)) _ = _
    rw [show (summed ops out).map (size ops) = (summed ops out).map sz from
      List.map_congr_left fun l hl => size_eq ops sz h ((hsum l).1 hl).1, sumOver_eq_box]
    have key : ∀ M : List ℤ, ∀ c, (ops.map fun o => o.1.get (o.2.map (assign (out ++ M) (i ++ c)))).prod =
        (fun f : ℤ → ℕ => (ops.map fun o => o.1.get (o.2.map fun x => if x ∈ out then assign out i x else f x)).prod) (assign M c) := by
      intro M c
      beta_reduce
      congr 1
      refine List.map_congr_left fun o _ => ?_
      congr 1
      refine List.map_congr_left fun x _ => ?_
      exact assign_append out M i c hi.symm x
    simp only [key]
    exact sum_perm sz (fun f : ℤ → ℕ => (ops.map fun o => o.1.get (o.2.map fun x => if x ∈ out then assign out i x else f x)).prod)
      hperm hnd

end NT.Einsum
