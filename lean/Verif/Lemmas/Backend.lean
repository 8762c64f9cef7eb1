import Verif.Tac
import Verif.Spec.Predict
import Verif.Lemmas.Spectral
import Mathlib.Analysis.Matrix.Spectrum
import Mathlib.LinearAlgebra.Matrix.NonsingularInverse
import Mathlib.Data.Finset.Sort

/-!
# A backend with exact arithmetic

Shows that the assumptions on the library calls can be met.
-/

namespace NT.Predict
open NT Arr Spec Matrix

noncomputable section

/-- `f` as a two-dimensional array. -/
def ofMat {n m : ℕ} (M : Matrix (Fin n) (Fin m) ℝ) : Arr ℝ :=
  ⟨[n, m], fun ix => if h : ix.getD 0 0 < n ∧ ix.getD 1 0 < m then M ⟨_, h.1⟩ ⟨_, h.2⟩ else 0⟩

lemma mat_ofMat {n m : ℕ} (M : Matrix (Fin n) (Fin m) ℝ) : mat n m (ofMat M) = M := by
  ext i j
  simp [mat, ofMat]

/-- Spectral theorem for a real symmetric matrix. -/
lemma exists_diag {n : ℕ} (A : Matrix (Fin n) (Fin n) ℝ) (h : A.IsSymm) :
    ∃ V : Matrix (Fin n) (Fin n) ℝ, ∃ lam : Fin n → ℝ, Vᵀ * V = 1 ∧ A = V * diagonal lam * Vᵀ := by
  have hA : A.IsHermitian := by
    rw [IsHermitian, conjTranspose_eq_transpose_of_trivial]
    exact h
  refine ⟨hA.eigenvectorUnitary, hA.eigenvalues, ?_, ?_⟩
  · have := mem_unitaryGroup_iff'.1 hA.eigenvectorUnitary.2
    rwa [star_eq_conjTranspose, conjTranspose_eq_transpose_of_trivial] at this
  · have := hA.spectral_theorem
    rw [Unitary.conjStarAlgAut_apply] at this
    rw [star_eq_conjTranspose, conjTranspose_eq_transpose_of_trivial] at this
    simpa using this

/-- Exact linear algebra; sets iterated in increasing order. -/
def exact : Backend where
  eigh A :=
    if h : (mat (A.shape.getD 0 0) (A.shape.getD 0 0) A).IsSymm then
      (⟨[A.shape.getD 0 0], fun ix => if hi : ix.getD 0 0 < A.shape.getD 0 0 then (exists_diag _ h).choose_spec.choose ⟨_, hi⟩ else 0⟩,
        ofMat (exists_diag _ h).choose)
    else (A, A)
  choSolve A b := ofMat ((mat (A.shape.getD 0 0) (A.shape.getD 0 0) A)⁻¹ * mat (A.shape.getD 0 0) (b.shape.getD 1 0) b)
  setIter F := F.sort

lemma exact_correct : exact.Correct where
  evecs_shape n A h := by
    unfold exact
    dsimp only
    split_ifs with h1
    · simp [ofMat, h]
    · exact h
  orthogonal n A h hs := by
    have hn : A.shape.getD 0 0 = n := by rw [h]; rfl
    subst hn
    unfold exact
    dsimp only
    rw [dif_pos hs, mat_ofMat]
    exact (exists_diag _ hs).choose_spec.choose_spec.1
  diagonalises n A h hs := by
    have hn : A.shape.getD 0 0 = n := by rw [h]; rfl
    subst hn
    unfold exact
    dsimp only
    rw [dif_pos hs, mat_ofMat]
    have := (exists_diag _ hs).choose_spec.choose_spec.2
    conv_lhs => rw [this]
    congr 2
    congr 1
    funext i
    have hi : [i.1].getD 0 0 < A.shape.getD 0 0 := i.2
    dsimp only
    rw [dif_pos hi]
    rfl
  solve_shape n m A b h hb := by
    simp [exact, ofMat, h, hb]
  solves n m A b h hb hp := by
    have hn : A.shape.getD 0 0 = n := by rw [h]; rfl
    have hm : b.shape.getD 1 0 = m := by rw [hb]; rfl
    subst hn hm
    unfold exact
    dsimp only
    rw [mat_ofMat, ← Matrix.mul_assoc, mul_nonsing_inv _ ((isUnit_iff_isUnit_det _).1 hp.isUnit), Matrix.one_mul]
  iter_nodup F := Finset.sort_nodup _ _
  iter_mem F k := Finset.mem_sort _

end

/-- Orthogonal diagonalisation over any finite index type. -/
lemma exists_fc {ι : Type} [Fintype ι] [DecidableEq ι] (A : Matrix ι ι ℝ) (h : A.IsSymm) :
    ∃ V : Matrix ι (Fin (Fintype.card ι)) ℝ, ∃ lam, Spectral.Orth V ∧ A = Spectral.fc V lam := by
  let e := Fintype.equivFin ι
  obtain ⟨V, lam, h1, h2⟩ := exists_diag (A.submatrix e.symm e.symm) (h.submatrix _)
  refine ⟨V.submatrix e id, lam, ⟨?_, ?_⟩, ?_⟩
  · rw [transpose_submatrix, submatrix_mul_equiv, submatrix_id_id]
    exact h1
  · rw [transpose_submatrix]
    have h := submatrix_mul_equiv V Vᵀ e (Equiv.refl _) e
    rw [mul_eq_one_comm.1 h1, submatrix_one_equiv] at h
    exact h
  · have h3 : A = (A.submatrix e.symm e.symm).submatrix e e := by
      ext i j
      simp
    rw [h3, h2]
    unfold Spectral.fc
    rw [transpose_submatrix]
    have h := submatrix_mul_equiv V (diagonal lam) e (Equiv.refl _) (Equiv.refl _)
    have h' := submatrix_mul_equiv (V * diagonal lam) Vᵀ e (Equiv.refl _) e
    rw [← h', ← h]
    rfl

end NT.Predict
