import Verif.Props.C72

/-!
# C75: NTK-vector products
-/

namespace NT.C75

open NT.Arr NT.Spec NT.Emp

variable {m : ℕ} {P : Fin (m + 1) → List ℕ} (f1 f2 : Params P → Arr ℝ) (θ : Params P)

/-- The NTK-vector product has the shape of the first output; its entries are sums of inner products of gradients times
the cotangents. -/
theorem entries (v : Arr ℝ) : (ntkVp f1 f2 θ v).shape = (f1 θ).shape ∧
    ∀ i, (ntkVp f1 f2 θ v).get i = ∑ j ∈ box (f2 θ).shape, tangentAt f1 f2 θ i j * v.get j :=
  ⟨rfl, ntkVp_get v⟩

/-- It is the full NTK (no traced and no diagonal axes) applied to the cotangents, for all networks, parameters and inputs. -/
theorem matrix_vector (v : Arr ℝ) (hn : (f1 θ).ndim = (f2 θ).ndim) :
    ∃ z, ntkJacobian f1 f2 θ [] [] = .ok z ∧ ∀ i, InRange i (f1 θ).shape →
      (ntkVp f1 f2 θ v).get i = ∑ j ∈ box (f2 θ).shape, z.get (interleave i j) * v.get j := by
  have ha : IsAxes (f1 θ).ndim [] [] := ⟨by simp, by simp, by simp⟩
  obtain ⟨z, hz, hr⟩ := C72.jacobian_contraction f1 f2 θ [] [] [] [] hn ⟨ha, ha, by simp⟩ (by simp [DistinctAxes]) rfl rfl
  refine ⟨z, hz, fun i hi => ?_⟩
  rw [ntkVp_get]
  refine Finset.sum_congr rfl fun j hj => ?_
  replace hj := mem_box.1 hj
  have h1 := hr.get i j ⟨hi.length, fun a ha _ => (inRange_iff.1 hi).2 a ha⟩ ⟨hj.length, fun a ha _ => (inRange_iff.1 hj).2 a ha⟩ (by simp)
  have h2 : pairIdx (f1 θ).shape.length [] [] i j = interleave i j := by
    unfold pairIdx
    simp only [List.not_mem_nil, if_false]
    have hl : i.length = j.length := by rw [hi.length, hj.length]; exact hn
    rw [← hi.length]
    clear h1 hi hj hr hz
    induction i generalizing j with
    | nil => cases j with
      | nil => rfl
      | cons => simp at hl
    | cons x i ih =>
      cases j with
      | nil => simp at hl
      | cons y j =>
        rw [List.length_cons, List.range_succ_eq_map, List.flatMap_cons, List.flatMap_map]
        simp only [List.getD_cons_zero, List.getD_cons_succ]
        rw [ih j (by simpa using hl)]
        rfl
  rw [h2] at h1
  rw [h1, show sizesAt [] (f1 θ).shape = [] from rfl, sumOver_nil, putAt_nil, putAt_nil]
  simp

/-- It is linear in the cotangents. -/
theorem linear (u v : Arr ℝ) (a b : ℝ) (i : List ℕ) :
    (ntkVp f1 f2 θ ⟨(f2 θ).shape, fun j => a * u.get j + b * v.get j⟩).get i = a * (ntkVp f1 f2 θ u).get i + b * (ntkVp f1 f2 θ v).get i := by
  simp only [ntkVp_get, Finset.mul_sum, ← Finset.sum_add_distrib]
  refine Finset.sum_congr rfl fun j _ => ?_
  ring

/-- Only the entries of the cotangents at positions of the second output matter. -/
theorem local_in_cotangents (u v : Arr ℝ) (h : ∀ j, InRange j (f2 θ).shape → u.get j = v.get j) (i : List ℕ) :
    (ntkVp f1 f2 θ u).get i = (ntkVp f1 f2 θ v).get i := by
  simp only [ntkVp_get]
  exact Finset.sum_congr rfl fun j hj => by rw [h j (mem_box.1 hj)]

/-- Swapping the inputs transposes the operator. -/
theorem adjoint (u v : Arr ℝ) :
    ∑ i ∈ box (f1 θ).shape, u.get i * (ntkVp f1 f2 θ v).get i = ∑ j ∈ box (f2 θ).shape, (ntkVp f2 f1 θ u).get j * v.get j := by
  simp only [ntkVp_get, Finset.mul_sum, Finset.sum_mul]
  rw [Finset.sum_comm]
  refine Finset.sum_congr rfl fun j _ => Finset.sum_congr rfl fun i _ => ?_
  rw [show tangentAt f1 f2 θ i j = tangentAt f2 f1 θ j i from real_inner_comm _ _]
  ring

/-- Non-vacuity: the bias network of C72 sends the cotangents `(1, 1)` to `(2, 2)`. -/
example (θ : Params C72.oneP) : (ntkVp C72.bias C72.bias θ ⟨[1, 2], fun _ => 1⟩).get [0, 1] = 2 := by
  rw [(entries C72.bias C72.bias θ _).2]
  simp only [C72.bias_tangent, mul_one]
  rw [Finset.sum_const, box_card]
  show ([1, 2] : List ℕ).prod • (1 : ℝ) = 2
  norm_num

end NT.C75
