import Verif.Tac
import Verif.Lemmas.PsdLayers
import Verif.Props.C80

/-!
# C81: kernels of a batch with itself are positive semidefinite
-/

namespace NT.C81
open NT NT.Network NT.Spec NT.Semantics NT.Arr NT.Kernel

lemma psdArr {a : Arr ℝ} {n : ℕ} {S : List ℕ} {ds rev : Bool} {F : List ℕ → List ℕ → List ℕ → ℝ} (h : Holds a [n, n] S S ds rev F) (hF : PsdOn n S F) :
    PsdArr ds rev a := by
  have key : ∀ i j p q, i < n → j < n → InRange p S → InRange q S → (ds = true → p = q) → a.get (i :: j :: pos ds rev p q) = F [i, j] p q :=
    fun i j p q hi hj hp hq hd => h.get [i, j] p q (by simp [InRange, hi, hj]) hp hq hd
  refine ⟨n, S, h.shape, fun i j p q hi hj hp hq hd => ?_, fun c => ?_⟩
  · rw [key i j p q hi hj hp hq hd, key j i q p hj hi hq hp fun h => (hd h).symm]
    exact hF.symm i j p q hi hj hp hq
  · have hG : PsdOn n S fun b p q => if ds = true → p = q then F b p q else 0 := by
      cases ds
      · simpa using hF
      · simpa using ((psd_gram.1 hF).block fun _ p => p).psd
    refine (hG.nonneg c).trans_eq ?_
    refine Finset.sum_congr rfl fun i hi => Finset.sum_congr rfl fun p hp => Finset.sum_congr rfl fun j hj => Finset.sum_congr rfl fun q hq => ?_
    rw [Finset.mem_range] at hi hj
    rw [mem_box] at hp hq
    split
    · rename_i hd
      rw [key i j p q hi hj hp hq hd]
    · simp

lemma psdOut {s : State} {k : Kernel ℝ} (h : Describes s k) (hs : PsdState s) : PsdOut k := by
  have hp := hs.2
  have h1 := h.stores.nngp
  have h2 := h.stores.ntk
  rw [hp.batch, hp.shape] at h1 h2
  refine ⟨psdArr h1 hp.nngp, fun a ha => ?_⟩
  rw [ha] at h2
  cases e : s.L.ntk with
  | none => rw [e] at h2; simp [OptRel] at h2
  | some F =>
    rw [e] at h2
    simp only [OptRel] at h2
    rcases h2 with ⟨g, -⟩ | g
    · exact .inl ⟨g, h.zero a ha g⟩
    · exact .inr (psdArr g (hp.ntk F e))

lemma every_out {y : Vals (Kernel ℝ)} {w : Vals State} (h : Rel (fun k s => Describes s k ∧ PsdState s) y w) : Every PsdOut y := by
  induction h with
  | one a b h => exact .one _ (psdOut h.1 h.2)
  | many l m hl h ih => 
    refine .many _ fun x hx => ?_
    obtain ⟨i, p, rfl⟩ := List.mem_iff_getElem.1 hx
    exact ih i p (by rw [← hl]; exact p)

/-- A network of the modelled layers applied as documented (`NetSem`) to positive semidefinite kernels of a batch with itself computes positive
semidefinite kernels.  Missing for the full property: `Aggregate` and masked inputs. -/
theorem network_psd_partial {net : Net} {v w : Vals State} (h : NetSem net v w) (hv : Every PsdState v) {x : Vals (Kernel ℝ)}
    (hx : Rel (fun k s => Describes s k) x v) : ∃ y, net.run x = .ok y ∧ Every PsdOut y := by
  obtain ⟨y, e, f⟩ := net_sound h hx
  exact ⟨y, e, every_out (rel_every f (net_psd h hv))⟩

lemma input_psd (x : Arr ℝ) (db ds ntk : Bool) (B A C n : ℕ) (S : List ℕ) : PsdState (C80.inputState x none db ds ntk true B A C n n S S) := by
  have hg : GramOn n S (C35.meanProd none x x B A C) := by
    refine ⟨Fin C, inferInstance, fun c i p => x.get (actIdx B A i c p) * (√(C : ℝ))⁻¹, fun i j p q _ _ _ _ => ?_⟩
    simp only [C35.meanProd, C35.value, List.getD_cons_zero, List.getD_cons_succ, Finset.sum_range, Finset.sum_div]
    refine Finset.sum_congr rfl fun c _ => ?_
    have : (√(C : ℝ))⁻¹ * (√(C : ℝ))⁻¹ = (C : ℝ)⁻¹ := by rw [← mul_inv, Real.mul_self_sqrt (Nat.cast_nonneg _)]
    rw [div_eq_mul_inv, ← this]
    ring
  refine ⟨rfl, rfl, rfl, rfl, fun i j p q _ _ _ _ => rfl, hg.psd, fun F hF => ?_⟩
  cases ntk
  · simp [C80.inputState, C35.second] at hF
  · simp only [C80.inputState, C35.second, if_true, Option.some.injEq] at hF
    subst hF
    exact GramOn.zero.psd

/-- The whole computation, from one batch of inputs: `kernel_fn(x)` of a network gives positive semidefinite `nngp` and `ntk`. -/
theorem inputs_psd_partial (x : Arr ℝ) (db ds ntk : Bool) (ba ca : ℤ) (n C : ℕ) (S : List ℕ) (B A : ℕ)
    (hB : (B : ℤ) = ba % (S.length + 2)) (hA : (A : ℤ) = ca % (S.length + 2)) (hne : B ≠ A) (hx : x.shape = actIdx B A n C S) {net : Net}
    {w : Vals State} (h : NetSem net (.one (C80.inputState x none db ds ntk true B A C n n S S)) w) :
    ∃ k y, Inputs.inputsToKernel x none db ds ntk ba (some ca) none true = .ok k ∧ PsdOut k ∧ net.run (.one k) = .ok y ∧ Every PsdOut y := by
  obtain ⟨k, e1, f1, g1⟩ := C35.second_moment none db ds ntk true x none ba ca n n C S S B A hB hA hne rfl (fun _ => rfl) hx hx
  have hd := C80.input_describes f1 g1
  have hp := input_psd x db ds ntk B A C n S
  obtain ⟨y, e2, f2⟩ := network_psd_partial h (.one _ hp) (.one _ _ hd)
  exact ⟨k, y, e1, psdOut hd hp, e2, f2⟩

/-! ### A concrete case: the residual network of C80 for a batch with itself -/

lemma input_good (x : Arr ℝ) (db ds ntk same : Bool) (n C : ℕ) (h1 : x.shape = [n, C]) :
    C80.Good n n C (C80.inputState x none db ds ntk same 0 1 C n n [] []) := by
  have key : ∀ (x : Arr ℝ) i p, 0 ≤ C35.meanProd none x x 0 1 C [i, i] p p := by
    intro x i p
    unfold C35.meanProd
    exact div_nonneg (Finset.sum_nonneg fun c _ => mul_self_nonneg _) (Nat.cast_nonneg _)
  refine ⟨h1, h1, by simp [Logical.Closed, C80.inputState, C35.second], fun i p hi hp => key _ _ _, fun F hF i p hi hp => ?_⟩
  simp [C80.inputState, C35.second] at hF

example (x : Arr ℝ) (db ds : Bool) (h : x.shape = [5, 3]) :
    ∃ k y, Inputs.inputsToKernel x none db ds true 0 (some (-1)) none true = .ok k ∧ PsdOut k ∧ C80.resnet.run (.one k) = .ok y ∧ Every PsdOut y := by
  obtain ⟨t, ht, -⟩ := C80.resnet_sem (input_good x db ds true true 5 3 h) rfl
  exact inputs_psd_partial x db ds true 0 (-1) 5 3 [] 0 1 (by simp) (by simp) (by simp) h ht

/-- Without the hypothesis the conclusion is not automatic: a kernel that is not positive semidefinite stays so through `Identity`. -/
example : ¬ PsdArr false false (⟨[1, 1], fun _ => -1⟩ : Arr ℝ) := by
  rintro ⟨n, S, h, -, h2⟩
  have := h2 fun _ _ => 1
  rcases n with _ | _ | n
  · simp at h
  · have hS : S = [] := by
      cases S with
      | nil => rfl
      | cons a S => simp [pos, interleave] at h
    subst hS
    norm_num [box, indices] at this
  · simp at h

end NT.C81
