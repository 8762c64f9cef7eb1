import Verif.Spec.Psd
import Verif.Lemmas.Box
import Mathlib.Analysis.Matrix.Order
import Mathlib.Algebra.Order.Star.Real
import Verif.Tac

/-!
Positive semidefinite kernels are the Gram matrices of finitely many features.
-/

namespace NT
open Spec Matrix
open scoped MatrixOrder ComplexOrder

/-- The rows. -/
abbrev Row (n : ℕ) (S : List ℕ) : Type := {x : ℕ × List ℕ // x ∈ Finset.range n ×ˢ box S}

/-- The matrix. -/
def rowMat (n : ℕ) (S : List ℕ) (F : List ℕ → List ℕ → List ℕ → ℝ) : Matrix (Row n S) (Row n S) ℝ :=
  fun x y => F [x.1.1, y.1.1] x.1.2 y.1.2

lemma sum_rows (n : ℕ) (S : List ℕ) (f : ℕ → List ℕ → ℝ) :
    ∑ x : Row n S, f x.1.1 x.1.2 = ∑ i ∈ Finset.range n, ∑ p ∈ box S, f i p := by
  rw [← Finset.sum_product', ← Finset.sum_coe_sort (Finset.range n ×ˢ box S)]

lemma mem_row {n : ℕ} {S : List ℕ} (x : Row n S) : x.1.1 < n ∧ InRange x.1.2 S := by
  have := Finset.mem_product.1 x.2
  exact ⟨Finset.mem_range.1 this.1, mem_box.1 this.2⟩

lemma psdOn_iff {n : ℕ} {S : List ℕ} {F : List ℕ → List ℕ → List ℕ → ℝ} : PsdOn n S F ↔ (rowMat n S F).PosSemidef := by
  rw [posSemidef_iff_dotProduct_mulVec]
  have e : ∀ c : Row n S → ℝ, star c ⬝ᵥ (rowMat n S F *ᵥ c) = ∑ x : Row n S, ∑ y : Row n S, c x * c y * F [x.1.1, y.1.1] x.1.2 y.1.2 := by
    intro c
    simp only [dotProduct, mulVec, Finset.mul_sum, Pi.star_apply, star_trivial, rowMat]
    exact Finset.sum_congr rfl fun x _ => Finset.sum_congr rfl fun y _ => by ring
  have e2 : ∀ c : ℕ → List ℕ → ℝ, ∑ i ∈ Finset.range n, ∑ p ∈ box S, ∑ j ∈ Finset.range n, ∑ q ∈ box S, c i p * c j q * F [i, j] p q =
      ∑ x : Row n S, ∑ y : Row n S, c x.1.1 x.1.2 * c y.1.1 y.1.2 * F [x.1.1, y.1.1] x.1.2 y.1.2 := by
    intro c
    rw [← sum_rows n S fun i p => ∑ j ∈ Finset.range n, ∑ q ∈ box S, c i p * c j q * F [i, j] p q]
    exact Finset.sum_congr rfl fun x _ => (sum_rows n S fun j q => c x.1.1 x.1.2 * c j q * F [x.1.1, j] x.1.2 q).symm
  constructor
  · intro h
    refine ⟨?_, fun c => ?_⟩
    · ext x y
      obtain ⟨h1, h2⟩ := mem_row x
      obtain ⟨h3, h4⟩ := mem_row y
      simpa [rowMat] using h.symm _ _ _ _ h3 h1 h4 h2
    · rw [e]
      have := h.nonneg fun i p => if hx : (i, p) ∈ Finset.range n ×ˢ box S then c ⟨_, hx⟩ else 0
      rw [e2] at this
      refine le_of_le_of_eq this (Finset.sum_congr rfl fun x _ => Finset.sum_congr rfl fun y _ => ?_)
      rw [dif_pos x.2, dif_pos y.2]
  · rintro ⟨h1, h2⟩
    refine ⟨fun i j p q hi hj hp hq => ?_, fun c => ?_⟩
    · have hx : (i, p) ∈ Finset.range n ×ˢ box S := by simp [mem_box, hi, hp]
      have hy : (j, q) ∈ Finset.range n ×ˢ box S := by simp [mem_box, hj, hq]
      have := congrFun (congrFun h1 ⟨_, hy⟩) ⟨_, hx⟩
      simpa [rowMat] using this
    · rw [e2, ← e fun x => c x.1.1 x.1.2]
      exact h2 _

/-- Gram matrices of features. -/
def GramOn (n : ℕ) (S : List ℕ) (F : List ℕ → List ℕ → List ℕ → ℝ) : Prop :=
  ∃ (ι : Type) (_ : Fintype ι) (g : ι → ℕ → List ℕ → ℝ), ∀ i j p q, i < n → j < n → InRange p S → InRange q S →
    F [i, j] p q = ∑ r, g r i p * g r j q

lemma GramOn.psd {n : ℕ} {S : List ℕ} {F : List ℕ → List ℕ → List ℕ → ℝ} (h : GramOn n S F) : PsdOn n S F := by
  obtain ⟨ι, _, g, hg⟩ := h
  rw [psdOn_iff]
  have : rowMat n S F = (Matrix.of fun (r : ι) (x : Row n S) => g r x.1.1 x.1.2)ᴴ * Matrix.of fun (r : ι) (x : Row n S) => g r x.1.1 x.1.2 := by
    ext x y
    obtain ⟨h1, h2⟩ := mem_row x
    obtain ⟨h3, h4⟩ := mem_row y
    simp [rowMat, hg _ _ _ _ h1 h3 h2 h4, Matrix.mul_apply]
  rw [this]
  exact posSemidef_conjTranspose_mul_self _

lemma PsdOn.gram {n : ℕ} {S : List ℕ} {F : List ℕ → List ℕ → List ℕ → ℝ} (h : PsdOn n S F) : GramOn n S F := by
  rw [psdOn_iff] at h
  have hs := CFC.sqrt_mul_sqrt_self (rowMat n S F) h.nonneg
  have hh : (CFC.sqrt (rowMat n S F)).IsHermitian := (CFC.sqrt_nonneg (rowMat n S F)).isSelfAdjoint
  generalize CFC.sqrt (rowMat n S F) = B at hs hh
  refine ⟨Row n S, inferInstance, fun r i p => if hx : (i, p) ∈ Finset.range n ×ˢ box S then B r ⟨_, hx⟩ else 0, ?_⟩
  intro i j p q hi hj hp hq
  have hx : (i, p) ∈ Finset.range n ×ˢ box S := by simp [mem_box, hi, hp]
  have hy : (j, q) ∈ Finset.range n ×ˢ box S := by simp [mem_box, hj, hq]
  have e : F [i, j] p q = (B * B) ⟨_, hx⟩ ⟨_, hy⟩ := by rw [hs]; rfl
  rw [e, Matrix.mul_apply]
  refine Finset.sum_congr rfl fun r _ => ?_
  simp only [dif_pos hx, dif_pos hy]
  congr 1
  have := congrFun (congrFun hh r) ⟨_, hx⟩
  simpa using this

lemma psd_gram {n : ℕ} {S : List ℕ} {F : List ℕ → List ℕ → List ℕ → ℝ} : PsdOn n S F ↔ GramOn n S F := ⟨PsdOn.gram, GramOn.psd⟩

variable {n : ℕ} {S : List ℕ} {F G : List ℕ → List ℕ → List ℕ → ℝ}

lemma GramOn.congr (h : GramOn n S F) (e : ∀ i j p q, i < n → j < n → InRange p S → InRange q S → G [i, j] p q = F [i, j] p q) :
    GramOn n S G := by
  obtain ⟨ι, _, g, hg⟩ := h
  exact ⟨ι, inferInstance, g, fun i j p q hi hj hp hq => (e i j p q hi hj hp hq).trans (hg i j p q hi hj hp hq)⟩

lemma GramOn.zero : GramOn n S fun _ _ _ => 0 := ⟨Empty, inferInstance, fun _ _ _ => 0, by simp⟩

lemma GramOn.const {c : ℝ} (hc : 0 ≤ c) : GramOn n S fun _ _ _ => c :=
  ⟨Unit, inferInstance, fun _ _ _ => √c, by simp [Real.mul_self_sqrt hc]⟩

lemma GramOn.add (hF : GramOn n S F) (hG : GramOn n S G) : GramOn n S fun b p q => F b p q + G b p q := by
  obtain ⟨ι, _, g, hg⟩ := hF
  obtain ⟨κ, _, h, hh⟩ := hG
  refine ⟨ι ⊕ κ, inferInstance, Sum.elim g h, fun i j p q hi hj hp hq => ?_⟩
  simp [Fintype.sum_sum_type, hg i j p q hi hj hp hq, hh i j p q hi hj hp hq]

/-- The product of the features: the Schur product theorem. -/
lemma GramOn.mul (hF : GramOn n S F) (hG : GramOn n S G) : GramOn n S fun b p q => F b p q * G b p q := by
  obtain ⟨ι, _, g, hg⟩ := hF
  obtain ⟨κ, _, h, hh⟩ := hG
  refine ⟨ι × κ, inferInstance, fun r i p => g r.1 i p * h r.2 i p, fun i j p q hi hj hp hq => ?_⟩
  simp only [hg i j p q hi hj hp hq, hh i j p q hi hj hp hq, Fintype.sum_prod_type, Finset.sum_mul_sum]
  exact Finset.sum_congr rfl fun r _ => Finset.sum_congr rfl fun s _ => by ring

lemma GramOn.smul {c : ℝ} (hc : 0 ≤ c) (hF : GramOn n S F) : GramOn n S fun b p q => c * F b p q := (GramOn.const hc).mul hF

lemma GramOn.div {c : ℝ} (hc : 0 ≤ c) (hF : GramOn n S F) : GramOn n S fun b p q => F b p q / c :=
  (hF.smul (inv_nonneg.2 hc)).congr fun _ _ _ _ _ _ _ _ => by ring

lemma GramOn.sum {κ : Type} (s : Finset κ) {F : κ → List ℕ → List ℕ → List ℕ → ℝ} (h : ∀ u ∈ s, GramOn n S (F u)) :
    GramOn n S fun b p q => ∑ u ∈ s, F u b p q := by
  classical
  induction s using Finset.induction_on with
  | empty => simpa using GramOn.zero
  | insert a s ha ih =>
    have := (h a (by simp)).add (ih fun u hu => h u (by simp [hu]))
    exact this.congr fun i j p q _ _ _ _ => Finset.sum_insert ha

lemma GramOn.prod {κ : Type} (s : Finset κ) {F : κ → List ℕ → List ℕ → List ℕ → ℝ} (h : ∀ u ∈ s, GramOn n S (F u)) :
    GramOn n S fun b p q => ∏ u ∈ s, F u b p q := by
  classical
  induction s using Finset.induction_on with
  | empty => simpa using GramOn.const zero_le_one
  | insert a s ha ih =>
    have := (h a (by simp)).mul (ih fun u hu => h u (by simp [hu]))
    exact this.congr fun i j p q _ _ _ _ => Finset.prod_insert ha

/-- Scaling the rows and columns. -/
lemma GramOn.scale (a : ℕ → List ℕ → ℝ) (hF : GramOn n S F) :
    GramOn n S fun b p q => a (b.getD 0 0) p * a (b.getD 1 0) q * F b p q := by
  obtain ⟨ι, _, g, hg⟩ := hF
  refine ⟨ι, inferInstance, fun r i p => a i p * g r i p, fun i j p q hi hj hp hq => ?_⟩
  simp only [hg i j p q hi hj hp hq, List.getD_cons_zero, List.getD_cons_succ, Finset.mul_sum]
  exact Finset.sum_congr rfl fun r _ => by ring

/-- Nonnegative diagonal matrices. -/
lemma GramOn.diag (a : ℕ → List ℕ → ℝ) (ha : ∀ i p, i < n → InRange p S → 0 ≤ a i p) :
    GramOn n S fun b p q => if b.getD 0 0 = b.getD 1 0 ∧ p = q then a (b.getD 0 0) p else 0 := by
  classical
  refine ⟨Row n S, inferInstance, fun r i p => if r.1 = (i, p) then √(a i p) else 0, fun i j p q hi hj hp hq => ?_⟩
  have hx : (i, p) ∈ Finset.range n ×ˢ box S := by simp [mem_box, hi, hp]
  rw [Finset.sum_eq_single ⟨_, hx⟩]
  · simp only [List.getD_cons_zero, List.getD_cons_succ, if_true, Prod.mk.injEq]
    by_cases h : i = j ∧ p = q
    · obtain ⟨rfl, rfl⟩ := h
      simp [Real.mul_self_sqrt (ha _ _ hi hp)]
    · simp [h]
  · intro r _ hr
    have : r.1 ≠ (i, p) := fun e => hr (Subtype.ext e)
    simp [this]
  · simp

/-- Only rows with the same label `c` are related. -/
lemma GramOn.block {κ : Type} [DecidableEq κ] (c : ℕ → List ℕ → κ) (hF : GramOn n S F) :
    GramOn n S fun b p q => if c (b.getD 0 0) p = c (b.getD 1 0) q then F b p q else 0 := by
  classical
  obtain ⟨ι, _, g, hg⟩ := hF
  let T : Finset κ := (Finset.range n ×ˢ box S).image fun x => c x.1 x.2
  refine ⟨ι × T, inferInstance, fun r i p => if r.2.1 = c i p then g r.1 i p else 0, fun i j p q hi hj hp hq => ?_⟩
  have hx : c i p ∈ T := Finset.mem_image.2 ⟨(i, p), by simp [mem_box, hi, hp], rfl⟩
  simp only [Fintype.sum_prod_type, List.getD_cons_zero, List.getD_cons_succ]
  have : ∀ r, ∑ t : T, ((if t.1 = c i p then g r i p else 0) * if t.1 = c j q then g r j q else 0) =
      if c i p = c j q then g r i p * g r j q else 0 := by
    intro r
    rw [Finset.sum_eq_single ⟨_, hx⟩]
    · simp
    · intro t _ ht
      have : t.1 ≠ c i p := fun e => ht (Subtype.ext e)
      simp [this]
    · simp
  simp only [this]
  by_cases h : c i p = c j q
  · simp [h, hg i j p q hi hj hp hq]
  · simp [h]

/-- Linear combinations of rows, the same for rows and columns. -/
lemma GramOn.pull {κ : Type} {n' : ℕ} {S' : List ℕ} (s : Finset κ) (w : ℕ → List ℕ → κ → ℝ) (ρ : ℕ → List ℕ → κ → ℕ) (t : ℕ → List ℕ → κ → List ℕ)
    (hr : ∀ i p u, i < n' → InRange p S' → u ∈ s → w i p u ≠ 0 → ρ i p u < n ∧ InRange (t i p u) S) (hF : GramOn n S F) :
    GramOn n' S' fun b p q => ∑ u ∈ s, ∑ v ∈ s, w (b.getD 0 0) p u * w (b.getD 1 0) q v *
      F [ρ (b.getD 0 0) p u, ρ (b.getD 1 0) q v] (t (b.getD 0 0) p u) (t (b.getD 1 0) q v) := by
  obtain ⟨ι, _, g, hg⟩ := hF
  refine ⟨ι, inferInstance, fun r i p => ∑ u ∈ s, w i p u * g r (ρ i p u) (t i p u), fun i j p q hi hj hp hq => ?_⟩
  simp only [List.getD_cons_zero, List.getD_cons_succ, Finset.sum_mul_sum]
  conv_rhs => rw [Finset.sum_comm]
  refine Finset.sum_congr rfl fun u hu => ?_
  conv_rhs => rw [Finset.sum_comm]
  refine Finset.sum_congr rfl fun v hv => ?_
  by_cases h1 : w i p u = 0
  · simp [h1]
  by_cases h2 : w j q v = 0
  · simp [h2]
  obtain ⟨a1, a2⟩ := hr i p u hi hp hu h1
  obtain ⟨b1, b2⟩ := hr j q v hj hq hv h2
  rw [hg _ _ _ _ a1 b1 a2 b2, Finset.mul_sum]
  exact Finset.sum_congr rfl fun r _ => by ring

lemma GramOn.nonneg_diag (hF : GramOn n S F) {i : ℕ} {p : List ℕ} (hi : i < n) (hp : InRange p S) : 0 ≤ F [i, i] p p := by
  obtain ⟨ι, _, g, hg⟩ := hF
  rw [hg i i p p hi hi hp hp]
  exact Finset.sum_nonneg fun r _ => mul_self_nonneg _

end NT
