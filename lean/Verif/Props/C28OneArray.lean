import Verif.Tac
import Verif.Props.C28

/-!
# C28: `Kernel.dot_general` with one array
-/

namespace NT.C28
open NT Arr Spec KernelDot Einsum

/-- Some axis of the array is neither contracted nor matched. -/
def FreeAxis (no : ℕ) (otherC otherB : List ℤ) : Prop := ∃ j < no, ∀ a ∈ otherB ++ otherC, (a % (no : ℤ)).toNat ≠ j

lemma kdim_nonneg (D : Dims) (i bn : ℕ) (left : Bool) : 0 ≤ D.kdim i bn left := by
  unfold Dims.kdim
  dsimp only
  split_ifs <;> first | exact le_refl _ | exact Int.natCast_nonneg _

lemma mem_foldl_set {β γ : Type} (f : γ → β) (g : γ → ℕ) (l : List γ) (x : List β) {b : β} (h : b ∈ l.foldl (fun x p => x.set (g p) (f p)) x) :
    b ∈ x ∨ ∃ p ∈ l, b = f p := by
  induction l generalizing x with
  | nil => exact .inl h
  | cons p l ih =>
    rcases ih (x.set (g p) (f p)) h with h | ⟨q, hq, e⟩
    · rcases List.mem_or_eq_of_mem_set h with h | h
      · exact .inl h
      · exact .inr ⟨p, by simp, h⟩
    · exact .inr ⟨q, by simp [hq], e⟩

lemma otherLabels_range (D : Dims) (hds : D.ds = false) (bn : ℕ) (left : Bool) {l : ℤ} (h : l ∈ D.otherLabels bn left) :
    0 ≤ l ∨ if left then -(D.no : ℤ) ≤ l else l < -(D.no : ℤ) := by
  rcases mem_foldl_set (fun p : ℕ × ℕ => D.kdim p.1 bn left) (fun p => p.2) _ _ h with h | ⟨p, -, rfl⟩
  · obtain ⟨i, hi, rfl⟩ := List.mem_map.1 h
    have := List.mem_range.1 hi
    right
    cases left <;> simp [hds] <;> omega
  · exact .inl (kdim_nonneg _ _ _ _)

lemma matLabels_nonneg (rev : Bool) (n bn : ℕ) {l : ℤ} (h : l ∈ (if rev then reverseZippedList ((List.range n).map fun i : ℕ => (i : ℤ)) bn
    else (List.range n).map fun i : ℕ => (i : ℤ))) : 0 ≤ l := by
  have base : ∀ x ∈ (List.range n).map fun i : ℕ => (i : ℤ), 0 ≤ x := by simp
  cases rev
  · exact base l h
  · rcases List.mem_append.1 h with h | h
    · exact base l (List.mem_of_mem_take h)
    · obtain ⟨i, -, rfl⟩ := List.mem_map.1 h
      rw [List.getD_eq_getElem?_getD]
      rcases e : ((List.range n).map fun i : ℕ => (i : ℤ))[i]? with _ | x
      · exact le_refl (0 : ℤ)
      · exact base x (List.mem_of_getElem? e)

lemma free_out (D : Dims) (hds : D.ds = false) (bn : ℕ) {j : ℕ} (hj : j < D.no) (hf : j ∉ D.otherDims) :
    -(j : ℤ) - 1 ∈ D.outLabels bn ∧ -(j : ℤ) - 1 - (D.no : ℤ) ∈ D.outLabels bn := by
  have hz : (j, j) ∈ ((List.range D.no).filter fun i => i ∉ D.otherDims).zip ((List.range D.no).filter fun i => i ∉ D.otherDims) := by
    have hm : j ∈ (List.range D.no).filter fun i => i ∉ D.otherDims := by simp [hj, hf]
    generalize (List.range D.no).filter (fun i => i ∉ D.otherDims) = l at hm ⊢
    induction l with
    | nil => simp at hm
    | cons x l ih =>
      rcases List.mem_cons.1 hm with rfl | h
      · simp
      · simp [ih h]
  have h : ∀ l ∈ D.otherNonC, l ∈ D.outLabels bn := fun l hl => by
    unfold Dims.outLabels
    exact List.mem_append_left _ (List.mem_append_right _ hl)
  have hm : ∀ l, l = -(j : ℤ) - 1 ∨ l = -(j : ℤ) - 1 - (D.no : ℤ) → l ∈ D.otherNonC := by
    intro l hl
    unfold Dims.otherNonC
    simp only [hds, Bool.false_eq_true, if_false]
    unfold zipFlat
    rw [List.zip_map]
    refine List.mem_flatMap.2 ⟨(-(j : ℤ) - 1, -(j : ℤ) - 1 - (D.no : ℤ)), List.mem_map.2 ⟨(j, j), hz, rfl⟩, ?_⟩
    simpa using hl
  exact ⟨h _ (hm _ (.inl rfl)), h _ (hm _ (.inr rfl))⟩

lemma dot_error (D : Dims) (rev : Bool) (bn : ℕ) (mat : Arr ℝ) (o1 o2 : Option (Arr ℝ)) {e : Err} (h : D.dot rev bn mat o1 o2 = .error e) : e = .valueError := by
  unfold Dims.dot einsum at h
  dsimp only at h
  split_ifs at h <;> cases h <;> rfl

lemma dot?_error (D : Dims) (rev : Bool) (bn : ℕ) (mat : Option (Arr ℝ)) (o1 o2 : Option (Arr ℝ)) {e : Err} (h : D.dot? rev bn mat o1 o2 = .error e) :
    e = .valueError := by
  cases mat with
  | none => cases h
  | some m =>
    have h : (D.dot rev bn m o1 o2).map some = .error e := h
    cases hm : D.dot rev bn m o1 o2 with
    | error e' =>
      rw [hm] at h
      cases h
      exact dot_error _ _ _ _ _ _ hm
    | ok c =>
      rw [hm] at h
      cases h

lemma bind_value {β γ : Type} {X : Except Err β} (hX : ∀ e, X = .error e → e = .valueError) {f : β → Except Err γ} (hf : ∀ x, f x = .error .valueError) :
    (X >>= f) = .error .valueError := by
  cases X with
  | error e => rw [hX e rfl]; rfl
  | ok x => exact hf x

/-- With only one of the arrays, an axis of it that is neither contracted nor matched would belong to one of the two inputs only. -/
lemma dot_one (D : Dims) (hds : D.ds = false) (rev : Bool) (bn : ℕ) (mat o : Arr ℝ) (hm : mat.ndim ≠ 0) {j : ℕ} (hj : j < D.no) (hf : j ∉ D.otherDims) :
    D.dot rev bn mat (some o) none = .error .valueError ∧ D.dot rev bn mat none (some o) = .error .valueError := by
  obtain ⟨h1, h2⟩ := free_out D hds bn hj hf
  constructor
  · unfold Dims.dot
    simp only [hm, Option.isNone_some, Option.isNone_none, Bool.false_eq_true, false_and, or_self, if_false]
    unfold einsum
    rw [if_neg]
    rintro ⟨-, h, -⟩
    have := h _ h2
    simp only [List.append_nil, List.singleton_append, List.flatMap_cons, List.flatMap_nil, List.mem_append] at this
    rcases this with h | h
    · have := otherLabels_range D hds bn true h
      simp at this
      omega
    · have := matLabels_nonneg rev mat.ndim bn h
      omega
  · unfold Dims.dot
    simp only [hm, Option.isNone_some, Option.isNone_none, Bool.false_eq_true, and_false, or_self, if_false]
    unfold einsum
    rw [if_neg]
    rintro ⟨-, h, -⟩
    have := h _ h1
    simp only [List.nil_append, List.singleton_append, List.flatMap_cons, List.flatMap_nil, List.mem_append, List.append_nil] at this
    rcases this with h | h
    · have := matLabels_nonneg rev mat.ndim bn h
      omega
    · have := otherLabels_range D hds bn false h
      simp at this
      omega

/-- With exactly one of the two arrays, `dot_general` of a kernel with all pairs of positions raises `ValueError` if some axis of the array is neither
contracted nor matched: the documented `None` for one of the arrays does not mean that this input is left as it is. -/
theorem one_array_raises (k : Kernel ℝ) (hds : k.diagonalSpatial = false) (hn : k.nngp.ndim ≠ 0) (o : Arr ℝ) (isLhs : Bool)
    (inputC otherC inputB otherB : List ℤ) (hf : FreeAxis o.ndim otherC otherB) :
    dotGeneral k (some o) none isLhs inputC otherC inputB otherB = .error .valueError ∧
      dotGeneral k none (some o) isLhs inputC otherC inputB otherB = .error .valueError := by
  obtain ⟨j, hj, hfree⟩ := hf
  have hfree' : ∀ D : Dims, D.otherC = otherC.map (fun a => (a % (o.ndim : ℤ)).toNat) → D.otherB = otherB.map (fun a => (a % (o.ndim : ℤ)).toNat) → j ∉ D.otherDims := by
    intro D e1 e2
    unfold Dims.otherDims
    rw [e1, e2, ← List.map_append]
    intro h
    obtain ⟨a, ha, e⟩ := List.mem_map.1 h
    exact hfree a ha e
  constructor
  all_goals
    unfold KernelDot.dotGeneral
    dsimp only
    split
    · rfl
    · generalize hD : (Dims.mk _ _ _ _ _ _ _ _ _ _) = D
      have d1 : D.ds = false := by rw [← hD]; exact hds
      have d2 : j < D.no := by rw [← hD]; exact hj
      have d3 : j ∉ D.otherDims := hfree' D (by rw [← hD]) (by rw [← hD])
      obtain ⟨m1, m2⟩ := dot_one D d1 k.isReversed 2 k.nngp o hn d2 d3
      simp only [m1, m2]
      exact bind_value (fun _ => dot_error _ _ _ _ _ _) fun _ => bind_value (fun _ => dot?_error _ _ _ _ _ _) fun _ => rfl

example (a b : ℕ → ℕ → List ℕ → ℝ) (db rev : Bool) :
    dotGeneral ((lin1L 2 a b 2 1 [2, 3] [2, 3]).encode db false rev) (some (exO [3, 5])) none false [-2] [0] [] [] = .error .valueError ∧
      dotGeneral ((lin1L 2 a b 2 1 [2, 3] [2, 3]).encode db false rev) none (some (exO [3, 5])) false [-2] [0] [] [] = .error .valueError := by
  refine one_array_raises _ rfl ?_ _ false _ _ _ _ ⟨1, by decide, by decide⟩
  have := (Logical.encode_stores (lin1L 2 a b 2 1 [2, 3] [2, 3]) db false rev (by simp) rfl).nngp.shape
  rw [Arr.ndim, this]
  simp

end NT.C28
