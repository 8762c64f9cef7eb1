import Verif.Lemmas.Empirical

/-!
# C74: the order-preserving dot product of empirical kernels
-/

namespace NT.C74

open NT.Arr NT.Spec NT.Emp

variable {α : Type} [NonUnitalNonAssocSemiring α]

/-- For all ranks, sizes and (possibly negative) axis lists: the result has every batch axis at its original
place, every other axis twice, side by side, and its entries are sums over the contracted axes. -/
theorem ordered_dot (x y : Arr α) (contracting batch : List ℤ) (T D : List ℕ) (hn : x.ndim = y.ndim)
    (h : ReducedAxes x.ndim contracting batch T D) (hT : sizesAt T x.shape = sizesAt T y.shape) (hD : sizesAt D x.shape = sizesAt D y.shape) :
    ∃ z, dot x y contracting batch = .ok z ∧
      z.shape = pairIdx x.ndim T D x.shape y.shape ∧
      ∀ i j, InRangeOff T i x.shape → InRangeOff T j y.shape → (∀ a ∈ D, i.getD a 0 = j.getD a 0) →
        z.get (pairIdx x.ndim T D i j) = sumOver (sizesAt T x.shape) fun t => x.get (putAt T t i) * y.get (putAt T t j) := by
  obtain ⟨z, hz, h1, h2⟩ := dot_reduced x y rfl hn.symm (axesOk h) hT hD
  exact ⟨z, hz, h1, h2⟩

/-- Every entry of the result is one of those described by `ordered_dot`. -/
theorem all_entries (S1 S2 T D : List ℕ) (hS : S1.length = S2.length) (hD : sizesAt D S1 = sizesAt D S2) (hd : ∀ a ∈ D, a < S1.length)
    (k : List ℕ) (hk : InRange k (pairIdx S1.length T D S1 S2)) :
    ∃ i j, InRangeOff T i S1 ∧ InRangeOff T j S2 ∧ (∀ a ∈ D, i.getD a 0 = j.getD a 0) ∧ k = pairIdx S1.length T D i j :=
  pairIdx_all hS hD hd hk

/-- Non-vacuity: contracting the last axis and keeping axis 1 of arrays of shapes `(2, 3, 5)` and `(4, 3, 5)` gives shape `(2, 4, 3)`. -/
example : ReducedAxes 3 [-1] [1] [2] [1] ∧ sizesAt [2] [2, 3, 5] = sizesAt [2] [4, 3, 5] ∧ sizesAt [1] [2, 3, 5] = sizesAt [1] [4, 3, 5] ∧
    pairIdx 3 [2] [1] [2, 3, 5] [4, 3, 5] = [2, 4, 3] := by
  refine ⟨⟨⟨by decide, by decide, fun a => ?_⟩, ⟨by decide, by decide, fun a => ?_⟩, by decide⟩, by decide, by decide, by decide⟩
  · simp only [List.mem_singleton]; omega
  · simp only [List.mem_singleton]; omega

/-- Ranks must agree. -/
theorem rank_mismatch (x y : Arr α) (contracting batch : List ℤ) (hn : x.ndim ≠ y.ndim) :
    dot x y contracting batch = .error .valueError := by
  unfold dot; rw [if_pos hn]; rfl

/-- Axes outside of the array are rejected. -/
theorem out_of_range (x y : Arr α) (contracting batch : List ℤ) (hn : x.ndim = y.ndim)
    (h : ∃ r ∈ contracting ++ batch, r < -(x.ndim : ℤ) ∨ (x.ndim : ℤ) ≤ r) : dot x y contracting batch = .error .indexError := by
  unfold dot
  rw [if_neg (by simpa using hn)]
  by_cases hc : ∀ r ∈ contracting, -(x.ndim : ℤ) ≤ r ∧ r < x.ndim
  · obtain ⟨T, hT⟩ := exists_axes hc
    have hb : ¬ ∀ r ∈ batch, -(x.ndim : ℤ) ≤ r ∧ r < x.ndim := by
      intro hb
      obtain ⟨r, hr, h⟩ := h
      rcases List.mem_append.1 hr with hr | hr
      · have := hc r hr; omega
      · have := hb r hr; omega
    simp only [bind, Except.bind, axesList_ok hT, axesList_err hb]
  · simp only [bind, Except.bind, axesList_err hc]

/-- An axis cannot be both contracted and kept. -/
theorem overlap_raises (x y : Arr α) (contracting batch : List ℤ) (T D : List ℕ) (hn : x.ndim = y.ndim)
    (hT : IsAxes x.ndim contracting T) (hD : IsAxes x.ndim batch D) (a : ℕ) (h1 : a ∈ T) (h2 : a ∈ D) :
    dot x y contracting batch = .error .typeError := by
  have hany : (T.any (D.contains ·)) = true := by
    rw [List.any_eq_true]; exact ⟨a, h1, by simpa using h2⟩
  unfold dot
  rw [if_neg (by simpa using hn)]
  simp only [bind, Except.bind, pure, Except.pure, axesList_ok hT, axesList_ok hD, hany, if_true]
  rfl

/-- Contracted and batch axes must have equal sizes. -/
theorem size_mismatch (x y : Arr α) (contracting batch : List ℤ) (T D : List ℕ) (hn : x.ndim = y.ndim)
    (h : ReducedAxes x.ndim contracting batch T D) (hs : sizesAt T x.shape ≠ sizesAt T y.shape ∨ sizesAt D x.shape ≠ sizesAt D y.shape) :
    dot x y contracting batch = .error .typeError := by
  have hany : (T.any (D.contains ·)) = false := by
    rw [List.any_eq_false]
    intro a ha
    simpa using h.disjoint a ha
  have hd : dotGeneral x y T T D D = .error .typeError := by
    unfold dotGeneral
    rw [if_neg]
    rintro ⟨h1, h2⟩
    rcases hs with hs | hs
    · exact hs h1
    · exact hs h2
  unfold dot
  rw [if_neg (by simpa using hn)]
  simp only [bind, Except.bind, axesList_ok h.trace, axesList_ok h.diagonal, hany, Bool.false_eq_true, if_false, hd]

end NT.C74
