import Verif.Lemmas.Ensemble2
import Verif.Props.C64

/-!
# Moments of the trained ensemble
-/

namespace NT.Predict
open NT Arr Spec Matrix MeasureTheory ProbabilityTheory

/-- Mean and covariance of `v - A u + c` for every column. -/
lemma ens_moments {Ω : Type} [MeasurableSpace Ω] {ι ι' κ : Type} [Fintype ι] {P : Measure Ω} [IsProbabilityMeasure P]
    {u : Ω → Matrix ι κ ℝ} {v : Ω → Matrix ι' κ ℝ} {K : Matrix ι ι ℝ} {K' : Matrix ι' ι ℝ} {K'' : Matrix ι' ι' ℝ}
    (h : RandomInit P u v K K' K'') (A : Matrix ι' ι ℝ) (c : Matrix ι' κ ℝ) :
    (∀ j r, ∫ ω, (v ω - A * u ω + c) j r ∂P = c j r) ∧
    ∀ j j' r, cov[fun ω => (v ω - A * u ω + c) j r, fun ω => (v ω - A * u ω + c) j' r; P] =
      (K'' - A * K'ᵀ - K' * Aᵀ + A * K * Aᵀ) j j' := by
  have hX : ∀ j r, (fun ω => (v ω - A * u ω + c) j r) = fun ω => (v ω j r - (A *ᵥ fun i => u ω i r) j) + c j r := fun j r => rfl
  have hA : ∀ j r, MemLp (fun ω => (A *ᵥ fun i => u ω i r) j) 2 P := by
    intro j r
    simp only [mulVec, dotProduct]
    exact memLp_finsetSum _ fun i _ => (h.memLp_u i r).const_mul _
  have hs : ∀ j r, MemLp (fun ω => v ω j r - (A *ᵥ fun i => u ω i r) j) 2 P := fun j r => (h.memLp_v j r).sub (hA j r)
  refine ⟨fun j r => ?_, fun j j' r => ?_⟩
  · rw [hX, integral_add ((hs j r).integrable (by norm_num)) (integrable_const _),
      integral_sub ((h.memLp_v j r).integrable (by norm_num)) ((hA j r).integrable (by norm_num)), h.mean_v]
    simp only [mulVec, dotProduct]
    rw [integral_finsetSum _ fun i _ => ((h.memLp_u i r).integrable (by norm_num)).const_mul _]
    simp [integral_const_mul, h.mean_u]
  · rw [hX, hX, covariance_add_const_left ((hs j r).integrable (by norm_num)),
      covariance_add_const_right ((hs j' r).integrable (by norm_num))]
    exact (cov_resid (u := fun i ω => u ω i r) (v := fun j ω => v ω j r) (fun i => h.memLp_u i r) (fun j => h.memLp_v j r)
      (fun i i' => h.cov_uu i i' r) (fun j i => h.cov_vu j i r) (fun j j' => h.cov_vv j j' r) A).2 j j'

variable {bk : Backend} {m : Ens} {T S R : List ℕ}

lemma negInv_eq {N lam t : ℝ} (hl : 0 < lam) : -invExpm1Fn N lam t = (1 - Real.exp (-lam * t / N)) / lam := by
  unfold invExpm1Fn expm1Fn
  rw [max_eq_left hl.le, abs_of_pos hl, ← neg_div]
  ring

/-- The ensemble on a test set at infinite time. -/
lemma ens_inf (hb : bk.Correct) (h : m.Fits bk T S R) (g : Field)
    (hK : (regMat m.diagReg m.absolute (pairMat S S (m.kdd g))).PosDef) (get : List Field) (hg : g ∈ get) (cov : Bool) (x : TestSet)
    (s' S' : List ℕ) (ht : m.TestFits T S R x s' S') (c : Field → Bool) (hcg : c g = true) (hc0 : cov = true → c .nngp = true) :
    ∃ mean C, (m.gp T (m.kddArg c)).predict bk g.mode (some (x.ktdArg get cov)) ((testTest (some x) cov).map ttArg) = .ok (mean, C) ∧
      mean.shape = s' ∧
      viewAt [] m.yTrain.ndim T S' R mean = pairMat S' S (x.ktd g) * ((regMat m.diagReg m.absolute (pairMat S S (m.kdd g)))⁻¹ *
        viewAt [] m.yTrain.ndim T S R m.yTrain) ∧
      (cov = false → C = none) ∧ (cov = true → ∃ a, C = some a ∧ a.shape = interleave S' S' ∧
        pairMat S' S' a = match g with
          | .nngp => pairMat S' S' x.ktt - pairMat S' S (x.ktd .nngp) * ((regMat m.diagReg m.absolute (pairMat S S (m.kdd .nngp)))⁻¹ *
              (pairMat S' S (x.ktd .nngp))ᵀ)
          | .ntk =>
            let B := pairMat S' S (x.ktd .ntk) * (regMat m.diagReg m.absolute (pairMat S S (m.kdd .ntk)))⁻¹
            B * pairMat S S (m.kdd .nngp) * Bᵀ - (B * (pairMat S' S (x.ktd .nngp))ᵀ + pairMat S' S (x.ktd .nngp) * Bᵀ) +
              pairMat S' S' x.ktt) := by
  have hf : g.mode.field = g := by cases g <;> rfl
  obtain ⟨f, f1⟩ := kddArg_first (m := m) c g hcg
  have hfit : (m.gp T (m.kddArg c)).Fits bk g.mode T S R (m.kdd g) := by
    refine ⟨axesOf_neg hb h.axes, h.rows, h.cols, h.nonempty, ?_, h.kernel g, ⟨_, f1, by rw [ndim, h.kernel, interleave_length rfl]⟩, h.order⟩
    show (m.kddArg c).attr _ = _
    rw [hf, kddArg_attr, if_pos hcg]
  have htf : (m.gp T (m.kddArg c)).TestFits T S R (x.ktd g) s' S' := ⟨ht.rank, ht.rows, ht.cols, ht.kernel g⟩
  have hSS := h.test_length hb ht
  obtain ⟨-, -, -, -, -, hS0⟩ := h.lengths hb
  obtain ⟨y, y1, y2, y3⟩ := mean_ok hb hfit hK htf
  have ha := ktdArg_attr x get cov g (needs_self hg cov)
  have hk : ∃ k, (m.gp T (m.kddArg c)).kTrainTrain.first = .ok k ∧ k.ndim = 2 * S.length := hfit.rank
  obtain ⟨k, k1, k2⟩ := hk
  have hfa := hfit.field
  rw [hf] at hfa
  have hax := hfit.axes
  cases cov with
  | false =>
    refine ⟨y, none, ?_, y2, y3, fun _ => rfl, by simp⟩
    unfold Gp.predict Gp.one
    simp only [bind, Except.bind, k1, k2, hax, hf, hfa, ha, need, y1, testTest]
    rfl
  | true =>
    have hcn := hc0 rfl
    have h0 := ktdArg_attr x get true .nngp (needs_nngp hg)
    have hh : (x.ktdArg get true).hasNngp = true := by simp [TestSet.ktdArg, needs_nngp hg, KArg.hasNngp]
    cases g with
    | nngp =>
      obtain ⟨C, c1, c2, c3⟩ := covGp_ok (m := m.gp T (m.kddArg c)) (ktd := x.ktd .nngp) (kInit := x.ktd .nngp) hb hSS hS0 (h.kernel .nngp)
        (ht.kernel .nngp) (ht.kernel .nngp) ht.test hK h.order
      refine ⟨y, some C, ?_, y2, y3, by simp, fun _ => ⟨C, rfl, c2, c3⟩⟩
      unfold Gp.predict Gp.one
      have hi : Field.nngp.mode.init = .nngp := rfl
      simp only [bind, Except.bind, k1, k2, hax, hf, hfa, ha, need, needArr, y1, testTest, if_true, Option.map_some, ttArg, hi]
      simp only [KArg.attr, Field.mode, reduceCtorEq, false_and, if_false, c1]
      rfl
    | ntk =>
      obtain ⟨C, c1, c2, c3⟩ := covNtk_ok (m := m.gp T (m.kddArg c)) (ktd := x.ktd .ntk) (kInit := x.ktd .nngp) (nngpDd := m.kdd .nngp)
        hb hSS hS0 (h.kernel .ntk) (ht.kernel .ntk) (ht.kernel .nngp) ht.test (h.kernel .nngp) hK h.order
      refine ⟨y, some C, ?_, y2, y3, by simp, fun _ => ⟨C, rfl, c2, c3 _ rfl⟩⟩
      unfold Gp.predict Gp.one
      have hi : Field.ntk.mode.init = .nngp := rfl
      have hnn : (m.gp T (m.kddArg c)).kTrainTrain.hasNngp = true := rfl
      have hdd : (m.gp T (m.kddArg c)).kTrainTrain.attr .nngp = .ok (some (m.kdd .nngp)) := by
        show (m.kddArg c).attr _ = _
        rw [kddArg_attr, if_pos hcn]
      simp only [bind, Except.bind, k1, k2, hax, hf, hfa, ha, need, needArr, y1, testTest, if_true, Option.map_some, ttArg, hi, h0,
        hnn, hh, not_true, or_self, and_false, if_false, hdd]
      simp only [KArg.attr, Field.mode, c1]
      rfl

end NT.Predict
