import Verif.Lemmas.Gp2
import Verif.Model.Ensemble

/-!
# The matrix products of `gradient_descent_mse_ensemble`
-/

namespace NT.Predict
open NT Arr Spec Matrix

/-- A stack of `N` matrices over positions, flattened. -/
structure Rep (N : ℕ) (A B : List ℕ) (F : Arr ℝ) (M : ℕ → Matrix (box A) (box B) ℝ) : Prop where
  shape : F.shape = [N, A.prod, B.prod]
  get : ∀ k, k < N → ∀ p q, F.get [k, ravel A p.1, ravel B q.1] = M k p q

/-- A flattened matrix over positions. -/
structure Rep2 (A B : List ℕ) (F : Arr ℝ) (M : Matrix (box A) (box B) ℝ) : Prop where
  shape : F.shape = [A.prod, B.prod]
  get : ∀ p q, F.get [ravel A p.1, ravel B q.1] = M p q

lemma sum_ravel (S : List ℕ) (f : ℕ → ℝ) : ∑ k ∈ Finset.range S.prod, f k = ∑ p : box S, f (ravel S p.1) := by
  have h := box_sum_ravel S (fun p => f (ravel S p))
  rw [← sum_box S (fun p => f (ravel S p)), ← h]
  exact Finset.sum_congr rfl fun k hk => by rw [ravel_unravel (Finset.mem_range.1 hk)]

lemma rep2_make2d (K : Arr ℝ) (A B : List ℕ) (hK : K.shape = interleave A B) (hAB : A.length = B.length) :
    ∃ F, make2d K = .ok F ∧ Rep2 A B F (pairMat A B K) := by
  have hKn : K.ndim = 2 * A.length := by rw [ndim, hK, interleave_length hAB]
  obtain ⟨F, h1, h2, h3⟩ := make2d_ok K [] A B [] (by simpa using hK) hAB
  have e1 : make2d K = make2d K 0 (some (0 + 2 * A.length)) := by simp [make2d, hKn]
  refine ⟨F, e1.trans h1, by simpa using h2, fun p q => ?_⟩
  have := h3 [] p.1 q.1 [] (by simp) (mem_box.1 p.2) (mem_box.1 q.2) (by simp)
  simpa [pairMat] using this

lemma rep_eigFn (S : List ℕ) (es : Arr ℝ × Arr ℝ) (V : Matrix (box S) (Fin S.prod) ℝ) (lam : Fin S.prod → ℝ)
    (hes : es.2.shape = [S.prod, S.prod]) (hV : ∀ (p : box S) i, V p i = es.2.get [ravel S p.1, i.1])
    (hlam : ∀ i, lam i = es.1.get [i.1]) (fn : ℝ → ℝ → ℝ) (t : Arr ℝ) (N : ℕ) (ht : t.shape = [N]) :
    Rep N S S (eigFn es fn t) fun k => Spectral.fc V fun i => fn (lam i) (t.get [k]) := by
  refine ⟨by simp [eigFn, hes, ht], fun k _ p q => ?_⟩
  rw [Spectral.fc_apply]
  simp only [eigFn, hes, List.getD_cons_zero, List.getD_cons_succ]
  rw [Finset.sum_range]
  exact Finset.sum_congr rfl fun i _ => by rw [hV, hV, hlam]

lemma rep_right {N : ℕ} {A B C : List ℕ} {d b : Arr ℝ} {M : ℕ → Matrix (box A) (box B) ℝ} {W : Matrix (box C) (box B) ℝ}
    (hd : Rep N A B d M) (hb : Rep2 C B b W) : ∃ o, rightE d b = .ok o ∧ Rep N A C o fun k => M k * Wᵀ := by
  refine ⟨_, by
    unfold rightE
    simp only [hd.shape, hb.shape, List.getD_cons_zero, List.getD_cons_succ, if_true]
    rfl, rfl, fun k hk p q => ?_⟩
  simp only [List.getD_cons_zero, List.getD_cons_succ]
  rw [sum_ravel, mul_apply]
  exact Finset.sum_congr rfl fun r _ => by rw [hd.get k hk, hb.get, transpose_apply]

lemma rep_left {N : ℕ} {A B C : List ℕ} {d a : Arr ℝ} {M : ℕ → Matrix (box A) (box B) ℝ} {W : Matrix (box C) (box A) ℝ}
    (ha : Rep2 C A a W) (hd : Rep N A B d M) : ∃ o, leftE a d = .ok o ∧ Rep N C B o fun k => W * M k := by
  refine ⟨_, by
    unfold leftE
    simp only [hd.shape, ha.shape, List.getD_cons_zero, List.getD_cons_succ, if_true]
    rfl, rfl, fun k hk p q => ?_⟩
  simp only [List.getD_cons_zero, List.getD_cons_succ, List.drop_succ_cons, List.drop_zero]
  rw [sum_ravel, mul_apply]
  exact Finset.sum_congr rfl fun r _ => by rw [hd.get k hk, ha.get]

lemma rep_outer {N : ℕ} {A B : List ℕ} {x a : Arr ℝ} {M : ℕ → Matrix (box A) (box B) ℝ} {W : Matrix (box B) (box B) ℝ}
    (hx : Rep N A B x M) (ha : Rep2 B B a W) : ∃ o, outerE x a = .ok o ∧ Rep N A A o fun k => M k * W * (M k)ᵀ := by
  refine ⟨_, by
    unfold outerE
    simp only [hx.shape, ha.shape, List.getD_cons_zero, List.getD_cons_succ, if_true]
    rfl, rfl, fun k hk p q => ?_⟩
  simp only [List.getD_cons_zero, List.getD_cons_succ]
  rw [Finset.sum_comm, sum_ravel, mul_apply]
  refine Finset.sum_congr rfl fun r _ => ?_
  rw [sum_ravel, mul_apply, Finset.sum_mul]
  exact Finset.sum_congr rfl fun r' _ => by rw [hx.get k hk, hx.get k hk, ha.get, transpose_apply]

lemma rep_inner {N : ℕ} {A B : List ℕ} {x a : Arr ℝ} {M : ℕ → Matrix (box A) (box B) ℝ} {W : Matrix (box A) (box A) ℝ}
    (hx : Rep N A B x M) (ha : Rep2 A A a W) : ∃ o, innerE x a = .ok o ∧ Rep N B B o fun k => (M k)ᵀ * W * M k := by
  refine ⟨_, by
    unfold innerE
    simp only [hx.shape, ha.shape, List.getD_cons_zero, List.getD_cons_succ, if_true]
    rfl, rfl, fun k hk p q => ?_⟩
  simp only [List.getD_cons_zero, List.getD_cons_succ]
  rw [Finset.sum_comm, sum_ravel, mul_apply]
  refine Finset.sum_congr rfl fun r _ => ?_
  rw [sum_ravel, mul_apply, Finset.sum_mul]
  exact Finset.sum_congr rfl fun r' _ => by rw [hx.get k hk, hx.get k hk, ha.get, transpose_apply]

lemma rep_add {N : ℕ} {A B : List ℕ} {d a : Arr ℝ} {M : ℕ → Matrix (box A) (box B) ℝ} {W : Matrix (box A) (box B) ℝ}
    (ha : Rep2 A B a W) (hd : Rep N A B d M) : ∃ o, addE a d = .ok o ∧ Rep N A B o fun k => W + M k := by
  refine ⟨_, by
    unfold addE
    simp only [hd.shape, ha.shape, List.tail_cons, if_true]
    rfl, rfl, fun k hk p q => ?_⟩
  simp only [List.tail_cons]
  rw [hd.get k hk, ha.get, Matrix.add_apply]

lemma rep_neg {N : ℕ} {A B : List ℕ} {d : Arr ℝ} {M : ℕ → Matrix (box A) (box B) ℝ} (hd : Rep N A B d M) :
    Rep N A B (d.map fun v => -v) fun k => -M k :=
  ⟨hd.shape, fun k hk p q => by rw [Arr.map]; exact congrArg _ (hd.get k hk p q)⟩

lemma rep_zip {N : ℕ} {A B : List ℕ} {d e : Arr ℝ} {M M' : ℕ → Matrix (box A) (box B) ℝ} (hd : Rep N A B d M) (he : Rep N A B e M') :
    ∃ o, zipB (fun a b => a + b) d e = .ok o ∧ Rep N A B o fun k => M k + M' k :=
  ⟨_, zipB_same d e (by rw [hd.shape, he.shape]), hd.shape, fun k hk p q => by
    dsimp only
    rw [hd.get k hk, he.get k hk, Matrix.add_apply]⟩

lemma rep_transpose {N : ℕ} {A B : List ℕ} {d : Arr ℝ} {M : ℕ → Matrix (box A) (box B) ℝ} (hd : Rep N A B d M) :
    Rep N B A (d.moveaxis [1] [2]) fun k => (M k)ᵀ := by
  have hn : d.ndim = 3 := by rw [ndim, hd.shape]; rfl
  have hp : moveaxisPerm 3 [1] [2] = [0, 2, 1] := by
    unfold moveaxisPerm
    rw [show ([2].zip [1] : List (ℕ × ℕ)) = [(2, 1)] from rfl, List.mergeSort_singleton]
    decide
  unfold moveaxis
  rw [hn, hp]
  refine ⟨by simp [Arr.transpose, gather, hd.shape], fun k hk p q => ?_⟩
  rw [transpose_apply, ← hd.get k hk]
  simp only [Arr.transpose, scatter, hn]
  rfl

/-- `reshape_cov`. -/
lemma reshapeCov_ok {t k d : Arr ℝ} {P : List ℕ} {Q : List ℕ} (hk : k.shape = interleave P Q) (hPQ : P.length = Q.length)
    {M : ℕ → Matrix (box P) (box P) ℝ} (hd : Rep t.shape.prod P P d M) :
    ∃ o, reshapeCov t k d = .ok o ∧ o.shape = t.shape ++ interleave P P ∧
      ∀ tj, InRange tj t.shape → ∀ p q : box P, o.get (tj ++ interleave p.1 q.1) = M (ravel t.shape tj) p q := by
  have hkn : k.ndim = 2 * P.length := by rw [ndim, hk, interleave_length hPQ]
  have hev : gather (pyRange 0 k.ndim 2) k.shape = P := by
    rw [hkn, even_axes, hk]
    have := gather_even [] P Q [] hPQ
    simpa using this
  have hsh : d.shape.prod = (t.shape ++ P ++ P).prod := by rw [hd.shape]; simp
  obtain ⟨z, z1, z2, z3⟩ := zipAxes_ok (d.reshape (t.shape ++ P ++ P)) t.shape P P [] (by simp [reshape]) rfl
  refine ⟨z, ?_, by simpa using z2, fun tj htj p q => ?_⟩
  · unfold reshapeCov
    simp only [hev, bind, Except.bind, reshapeE]
    rw [if_pos hsh.symm, ← z1]
    have hn : (d.reshape (t.shape ++ P ++ P)).ndim = t.shape.length + 2 * P.length := by
      simp [ndim, reshape]
      omega
    simp only [zipAxes, zipAxesCore, hn, Option.getD_none, Option.getD_some]
  · have h := z3 tj p.1 q.1 [] htj.length (mem_box.1 p.2).length (mem_box.1 q.2).length rfl
    rw [List.append_nil, List.append_nil] at h
    rw [h, ← hd.get _ (ravel_lt htj)]
    refine reshape_get d _ (by
      rw [hd.shape]
      exact List.Forall₂.cons (ravel_lt htj) (List.Forall₂.cons (ravel_lt (mem_box.1 p.2)) (List.Forall₂.cons (ravel_lt (mem_box.1 q.2)) .nil))) ?_
    rw [hd.shape, List.append_assoc, List.append_assoc, ravel_append htj.length, ravel_append (mem_box.1 p.2).length]
    simp [ravel]

end NT.Predict
