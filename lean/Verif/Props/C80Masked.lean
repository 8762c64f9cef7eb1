import Verif.Lemmas.MaskedSwap
import Verif.Lemmas.MaskedNorm
import Verif.Props.C80
import Verif.Props.C99Branches

/-!
# C80, masked inputs: swapping the two inputs of a network
-/

namespace NT.C80
open NT NT.Network NT.Spec NT.Semantics NT.Arr NT.Kernel NT.Masked

lemma core_swapped {s : State} {k k' : Kernel ℝ} (hc : s.L.Closed) (h : Core s k) (h' : Core s.swap k') : Swapped k k' := by
  have d : ∀ {s : State} {k : Kernel ℝ}, Core s k → Describes s { k with mask1 := none, mask2 := none, x1IsX2 := ⟨[], fun _ => s.same⟩ } := fun h =>
    ⟨⟨h.stores.nngp, h.stores.cov1, h.stores.cov2, h.stores.ntk⟩, h.static, ⟨rfl, rfl⟩, rfl, rfl, h.full, h.zero⟩
  have := swapped_of hc (d h) (d h')
  exact ⟨this.nngp, this.ntk, this.cov1, this.cov2, this.static⟩

lemma mask_eqv {m m' : Arr Bool} {B A n mc : ℕ} {S : List ℕ} {len : ℕ → List ℕ} (hne : B ≠ A) (hB : B < S.length + 2) (hA : A < S.length + 2)
    (h : MaskOf m B A n mc S len) (h' : MaskOf m' B A n mc S len) : m ≋ m' := by
  refine ⟨h.shape.trans h'.shape.symm, fun i hi => ?_⟩
  rw [h.shape] at hi
  obtain ⟨b, c, p, rfl, hb, hc, hp⟩ := act_of_inRange hne hB hA hi
  rw [h.get b hb c hc p hp, h'.get b hb c hc p hp]

lemma padded_swap (m : ℝ) (x1 x2 : Arr ℝ) (db ntk same : Bool) (B A C n1 n2 : ℕ) (S1 S2 : List ℕ) (len1 len2 : ℕ → List ℕ) :
    (paddedInputs m x1 x2 db ntk same B A C n1 n2 S1 S2 len1 len2).swap = paddedInputs m x2 x1 db ntk same B A C n2 n1 S2 S1 len2 len1 := by
  refine padded_ext (state_ext (logical_ext rfl rfl rfl rfl ?_ rfl rfl ?_) rfl rfl rfl) rfl rfl rfl rfl
  · funext b p q
    simp only [Padded.swap, State.swap, Logical.swap, swap2, paddedInputs, C35.second, C35.meanProd, Option.getD_some]
    congr 1
    exact Finset.sum_congr rfl fun c _ => mul_comm _ _
  · cases ntk <;> rfl

/-- As `inputs_swap_partial`, for batches of examples of different sizes, padded with the value `m`, and `mask_constant=m`: `kernel_fn(x2, x1)` is
`kernel_fn(x1, x2)` with the two inputs swapped, and so are the masks. For networks of the layers of C99. -/
theorem masked_swap_partial (m : ℝ) (x1 x2 : Arr ℝ) (db ntk same : Bool) (ba ca : ℤ) (n1 n2 C : ℕ) (S1 S2 : List ℕ) (len1 len2 : ℕ → List ℕ)
    (B A : ℕ) (hB : (B : ℤ) = ba % (S1.length + 2)) (hA : (A : ℤ) = ca % (S1.length + 2)) (hne : B ≠ A) (hr : S1.length = S2.length) (hC : 0 < C)
    (h1 : PaddedWith m x1 B A n1 C S1 len1) (h2 : PaddedWith m x2 B A n2 C S2 len2) {net : MNet} {t : Padded}
    (h : Tree net (.one (paddedInputs m x1 x2 db ntk same B A C n1 n2 S1 S2 len1 len2)) (.one t)) :
    ∃ k k' K K', Inputs.inputsToKernel x1 (some x2) db false ntk ba (some ca) (some m) same = .ok k ∧
      Inputs.inputsToKernel x2 (some x1) db false ntk ba (some ca) (some m) same = .ok k' ∧
      net.run (.one k) = .ok (.one K) ∧ net.run (.one k') = .ok (.one K') ∧ Swapped K K' ∧
      OptRel (· ≋ ·) K'.mask1 K.mask2 ∧ OptRel (· ≋ ·) K'.mask2 K.mask1 := by
  have hBl : B < S1.length + 2 := by
    have := Int.emod_lt_of_pos ba (b := (S1.length : ℤ) + 2) (by omega)
    omega
  have hAl : A < S1.length + 2 := by
    have := Int.emod_lt_of_pos ca (b := (S1.length : ℤ) + 2) (by omega)
    omega
  have hok := inputs_ok (db := db) (ntk := ntk) (same := same) hne hBl hAl hr hC h1 h2
  have hok' := inputs_ok (db := db) (ntk := ntk) (same := same) hne (hr ▸ hBl) (hr ▸ hAl) hr.symm hC h2 h1
  obtain ⟨w', h', hw⟩ := tree_swap h (v' := .one (paddedInputs m x2 x1 db ntk same B A C n2 n1 S2 S1 len2 len1)) (.one _ _ ⟨hok, (padded_swap ..).symm⟩)
  cases hw with
  | one _ t' ht =>
  obtain ⟨-, rfl⟩ := ht
  obtain ⟨k, e1, e2, e3⟩ := C35.second_moment (some m) db false ntk same x1 (some x2) ba ca n1 n2 C S1 S2 B A hB hA hne hr (by simp) h1.shape h2.shape
  obtain ⟨y, e4, hy⟩ := tree_batch (n1 := n1) (n2 := n2) h (.one k _ ⟨hok, rfl, rfl, inputs_batch h1 h2 e2 e3⟩)
  obtain ⟨k', f1, f2, f3⟩ := C35.second_moment (some m) db false ntk same x2 (some x1) ba ca n2 n1 C S2 S1 B A (by rw [hB, hr]) (by rw [hA, hr]) hne hr.symm (by simp)
    h2.shape h1.shape
  obtain ⟨y', f4, hy'⟩ := tree_batch (n1 := n2) (n2 := n1) h' (.one k' _ ⟨hok', rfl, rfl, inputs_batch h2 h1 f2 f3⟩)
  cases hy with
  | one K _ hK =>
  cases hy' with
  | one K' _ hK' =>
  obtain ⟨tok, -, -, e5⟩ := hK
  obtain ⟨-, -, -, f5⟩ := hK'
  obtain ⟨a1, a2, a3⟩ := tok.axes
  obtain ⟨m1, g1, g2⟩ := e5.mask1
  obtain ⟨m2, g3, g4⟩ := e5.mask2
  obtain ⟨m1', g5, g6⟩ := f5.mask1
  obtain ⟨m2', g7, g8⟩ := f5.mask2
  refine ⟨k, k', K, K', e1, f1, e4, f4, core_swapped (closed_of tok) e5.core f5.core, ?_, ?_⟩
  · rw [g5, g3]
    exact mask_eqv a1 (a2.trans_eq (congrArg (· + 2) tok.rank.symm)) (a3.trans_eq (congrArg (· + 2) tok.rank.symm)) g6 g4
  · rw [g7, g1]
    exact mask_eqv a1 a2 a3 g8 g2

/-! ### A concrete case: a dense block on sentences of different lengths -/

/-- A sentence of one word, without padding. -/
def word : Arr ℝ := ⟨[1, 1, 2], fun _ => 1⟩

lemma word_padded : PaddedWith 100 word 0 2 1 2 [1] fun _ => [1] := by
  refine ⟨rfl, fun i hi => by simp, fun i hi c hc p hp => ?_⟩
  simp only [word, not_true_eq_false, hp, iff_false]
  norm_num

example : ∃ k k' K K', Inputs.inputsToKernel C99.exX (some word) true false true 0 (some (-1)) (some 100) false = .ok k ∧
    Inputs.inputsToKernel word (some C99.exX) true false true 0 (some (-1)) (some 100) false = .ok k' ∧
    C99.denseBlock.run (.one k) = .ok (.one K) ∧ C99.denseBlock.run (.one k') = .ok (.one K') ∧ Swapped K K' := by
  obtain ⟨t, ht, -⟩ := C99.denseBlock_tree 100 C99.exX word true true false 2 1 2 3 1 C99.exLen (fun _ => [1]) (by decide) C99.exX_padded word_padded
  obtain ⟨k, k', K, K', e1, e2, e3, e4, e5, -⟩ := masked_swap_partial 100 C99.exX word true true false 0 (-1) 2 1 2 [3] [1] C99.exLen (fun _ => [1]) 0 2 (by simp)
    (by simp) (by decide) rfl (by decide) C99.exX_padded word_padded ht
  exact ⟨k, k', K, K', e1, e2, e3, e4, e5⟩

end NT.C80
