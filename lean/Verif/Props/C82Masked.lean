import Verif.Props.C99Branches

/-!
# C82, masked inputs: kernels treat examples independently
-/

namespace NT.C82
open NT NT.Network Arr Spec Semantics Masked

/-- `K` and `K'` say the same about two examples of sizes `S` and `T`, which are examples `i` and `j` for `K` and `i'` and `j'` for `K'`. -/
structure SameAbout (K K' : Kernel ℝ) (i j i' j' : ℕ) (S T : List ℕ) : Prop where
  flags : K'.isGaussian = K.isGaussian ∧ K'.isReversed = K.isReversed ∧ K'.isInput = K.isInput ∧ K'.diagonalBatch = K.diagonalBatch ∧
    K'.batchAxis = K.batchAxis ∧ K'.channelAxis = K.channelAxis
  nngp : ∀ p q, InRange p S → InRange q T → K'.nngp.get ([i', j'] ++ pos false K.isReversed p q) = K.nngp.get ([i, j] ++ pos false K.isReversed p q)
  cov1 : ∀ p q, InRange p S → InRange q S → K'.cov1.get ((if K.diagonalBatch then [i'] else [i', i']) ++ pos false K.isReversed p q) =
    K.cov1.get ((if K.diagonalBatch then [i] else [i, i]) ++ pos false K.isReversed p q)
  ntk : OptRel (fun a a' => ∀ p q, InRange p S → InRange q T →
    (spread a').get ([i', j'] ++ pos false K.isReversed p q) = (spread a).get ([i, j] ++ pos false K.isReversed p q)) K.ntk K'.ntk

lemma same_about {K K' E : Kernel ℝ} {i j i' j' : ℕ} {S T : List ℕ} (h : SameExamples K E i j S T) (h' : SameExamples K' E i' j' S T) :
    SameAbout K K' i j i' j' S T := by
  obtain ⟨a1, a2, a3, a4, -, -, a5, a6⟩ := h.flags
  obtain ⟨b1, b2, b3, b4, -, -, b5, b6⟩ := h'.flags
  have rv : K'.isReversed = K.isReversed := b2.symm.trans a2
  have db : K'.diagonalBatch = K.diagonalBatch := b4.symm.trans a4
  have n' := h'.nngp
  have c' := h'.cov1
  have t := h.ntk
  have t' := h'.ntk
  rw [rv] at n' c' t'
  rw [db] at c'
  refine ⟨⟨b1.symm.trans a1, rv, b3.symm.trans a3, db, b5.symm.trans a5, b6.symm.trans a6⟩, fun p q hp hq => (n' p q hp hq).symm.trans (h.nngp p q hp hq),
    fun p q hp hq => (c' p q hp hq).symm.trans (h.cov1 p q hp hq), ?_⟩
  cases e1 : K.ntk <;> cases e2 : K'.ntk <;> cases e3 : E.ntk <;> rw [e1, e3] at t <;> rw [e2, e3] at t' <;> simp only [OptRel] at t t' ⊢
  exact fun p q hp hq => (t' p q hp hq).symm.trans (t p q hp hq)

/-- Example `i` of `s` has the sizes of example `i'` of `s'`, and likewise for the second inputs. -/
def SameLen (i j i' j' : ℕ) (s s' : Padded) : Prop := s'.len1 i' = s.len1 i ∧ s'.len2 j' = s.len2 j

lemma step_len {l : MLayer} {out out' : List ℕ → List ℕ} {s t s' t' : Padded} {i j i' j' : ℕ} (h : Step l out s t) (h' : Step l out' s' t')
    (hs : SameLen i j i' j' s s') : SameLen i j i' j' t t' := by
  cases h <;> cases h'
  case globalPool.globalPool => exact ⟨rfl, rfl⟩
  all_goals exact hs

lemma first_rel {R : Padded → Padded → Prop} {m m' : ℕ} {s : Fin (m + 1) → Padded} {s' : Fin (m' + 1) → Padded}
    (h : Rel R (.many (List.ofFn fun r => .one (s r))) (.many (List.ofFn fun r => .one (s' r)))) : R (s 0) (s' 0) := by
  cases h with
  | many _ _ hl h =>
    have := h 0 (by simp) (by simp)
    simp only [List.getElem_ofFn] at this
    cases this with
    | one _ _ h => exact h

lemma tree_len {net : MNet} {v w : Vals Padded} {i j i' j' : ℕ} (h : Tree net v w) : ∀ {v' w' : Vals Padded}, Tree net v' w' →
    Rel (SameLen i j i' j') v v' → Rel (SameLen i j i' j') w w' := by
  induction h with
  | layer hs =>
    intro v' w' h' hv
    cases h' with
    | layer hs' =>
      cases hv with
      | one _ _ hv => exact .one _ _ (step_len hs hs' hv)
  | fanOut =>
    intro v' w' h' hv
    cases h' with
    | fanOut => exact rel_replicate hv _
  | fanIn hf =>
    intro v' w' h' hv
    cases h' with
    | fanIn => exact .one _ _ (first_rel hv)
    | concat => simp at hf
  | concat =>
    intro v' w' h' hv
    cases h' with
    | fanIn hf => simp at hf
    | concat => exact .one _ _ (first_rel hv)
  | seq _ _ ih1 ih2 =>
    intro v' w' h' hv
    cases h' with
    | seq a b => exact ih2 b (ih1 a hv)
  | @par n branches u v h ih =>
    intro v' w' h' hv
    cases h' with
    | par h' =>
      obtain ⟨u', e, hu⟩ := Semantics.rel_ofFn hv
      refine rel_many fun r => ih r (h' r) ?_
      injection e with e
      rw [List.ofFn_injective e]
      exact hu r

lemma example_len {y x x' : Arr ℝ} {B A i i' C : ℕ} {len len' : ℕ → List ℕ} {n : ℕ} (hne : B ≠ A) (hB : B < n + 2) (hA : A < n + 2)
    (hl : (len i).length = n) (hl' : (len' i').length = n) (h : ExampleOf y x B A i C len) (h' : ExampleOf y x' B A i' C len') : len' i' = len i := by
  have e := h.shape.symm.trans h'.shape
  have a := (gather_act B A 1 C (len i) hne (by omega) (by omega)).1
  have b := (gather_act B A 1 C (len' i') hne (by omega) (by omega)).1
  rw [hl] at a
  rw [hl', ← e] at b
  exact b.symm.trans a

/-- The kernel between two examples depends neither on the other examples in their batches nor on how far they are padded: if example `i` of `x1` is
example `i'` of `x1'`, and example `j` of `x2` is example `j'` of `x2'`, then `kernel_fn(x1, x2, mask_constant=m)` and
`kernel_fn(x1', x2', mask_constant=m')` say the same about them. For networks of the layers of C99. -/
theorem masked_examples_partial (m m' : ℝ) (x1 x2 x1' x2' : Arr ℝ) (db ntk same same' : Bool) (ba ca : ℤ) (n1 n2 n1' n2' C : ℕ) (S1 S2 S1' S2' : List ℕ)
    (len1 len2 len1' len2' : ℕ → List ℕ) (B A : ℕ) (hB : (B : ℤ) = ba % (S1.length + 2)) (hA : (A : ℤ) = ca % (S1.length + 2)) (hne : B ≠ A)
    (hr : S1.length = S2.length) (hr' : S1'.length = S2'.length) (hrr : S1'.length = S1.length) (hC : 0 < C)
    (h1 : PaddedWith m x1 B A n1 C S1 len1) (h2 : PaddedWith m x2 B A n2 C S2 len2)
    (h1' : PaddedWith m' x1' B A n1' C S1' len1') (h2' : PaddedWith m' x2' B A n2' C S2' len2') {net : MNet} {t t' : Padded}
    (h : Tree net (.one (paddedInputs m x1 x2 db ntk same B A C n1 n2 S1 S2 len1 len2)) (.one t))
    (h' : Tree net (.one (paddedInputs m' x1' x2' db ntk same' B A C n1' n2' S1' S2' len1' len2')) (.one t'))
    (i j i' j' : ℕ) (hi : i < n1) (hj : j < n2) (hi' : i' < n1') (hj' : j' < n2') (y1 y2 : Arr ℝ)
    (g1 : ExampleOf y1 x1 B A i C len1) (g2 : ExampleOf y2 x2 B A j C len2) (g1' : ExampleOf y1 x1' B A i' C len1') (g2' : ExampleOf y2 x2' B A j' C len2') :
    ∃ k k' K K', Inputs.inputsToKernel x1 (some x2) db false ntk ba (some ca) (some m) same = .ok k ∧
      Inputs.inputsToKernel x1' (some x2') db false ntk ba (some ca) (some m') same' = .ok k' ∧
      net.run (.one k) = .ok (.one K) ∧ net.run (.one k') = .ok (.one K') ∧ SameAbout K K' i j i' j' (t.len1 i) (t.len2 j) := by
  obtain ⟨k, K, e1, e2, -, -, e3⟩ := C99.branched_padding_invisible_partial m x1 x2 db ntk same ba ca n1 n2 C S1 S2 len1 len2 B A hB hA hne hr hC h1 h2 h
  obtain ⟨k', K', f1, f2, -, -, f3⟩ := C99.branched_padding_invisible_partial m' x1' x2' db ntk same' ba ca n1' n2' C S1' S2' len1' len2' B A (by rw [hB, hrr])
    (by rw [hA, hrr]) hne hr' hC h1' h2' h'
  obtain ⟨a, b, a1, a2, a3⟩ := e3 i hi j hj y1 y2 false g1 g2
  obtain ⟨a', b', b1, b2, b3⟩ := f3 i' hi' j' hj' y1 y2 false g1' g2'
  rw [a1] at b1
  cases b1
  rw [a2] at b2
  cases b2
  have q1 := (h1.fits i hi).length_eq
  have q2 := (h2.fits j hj).length_eq
  have q1' := (h1'.fits i' hi').length_eq
  have q2' := (h2'.fits j' hj').length_eq
  have hB' : B < S1.length + 2 := by
    have := Int.emod_lt_of_pos ba (show (0 : ℤ) < S1.length + 2 by omega)
    omega
  have hA' : A < S1.length + 2 := by
    have := Int.emod_lt_of_pos ca (show (0 : ℤ) < S1.length + 2 by omega)
    omega
  have w1 : len1' i' = len1 i := example_len hne hB' hA' q1 (q1'.trans hrr) g1 g1'
  have w2 : len2' j' = len2 j := example_len hne hB' hA' (q2.trans hr.symm) (q2'.trans (hr'.symm.trans hrr)) g2 g2'
  have hl : Rel (SameLen i j i' j') (.one t) (.one t') := tree_len h h' (.one _ _ ⟨w1, w2⟩)
  cases hl with
  | one _ _ hl =>
  rw [hl.1, hl.2] at b3
  exact ⟨k, k', K, K', e1, f1, e2, f2, same_about a3 b3⟩

lemma exY_padded : PaddedWith 100 C99.exY 0 2 1 2 [1] fun _ => [1] := by
  refine ⟨rfl, fun _ _ => by simp, fun i hi c hc p hp => ?_⟩
  obtain ⟨a, rfl⟩ : ∃ a, p = [a] := List.length_eq_one_iff.mp (by simpa using hp.length_eq)
  have ha : a = 0 := by simpa using hp
  subst ha
  have : (c : ℝ) < 2 := by exact_mod_cast hc
  have : (0 : ℝ) ≤ c := Nat.cast_nonneg c
  have e : C99.exY.get (actIdx 0 2 i c [0]) = 0 - c := by simp [C99.exY, actIdx]
  rw [e]
  simp only [hp, not_true_eq_false, iff_false]
  intro h
  linarith

lemma exY_self : ExampleOf C99.exY C99.exY 0 2 0 2 fun _ => [1] := ⟨rfl, fun _ _ _ _ => rfl⟩

/-- The second example of `exX`, which is padded from length 1 to 3, against itself in a batch of one without padding. -/
example : ∃ (t : Padded) (k k' K K' : _), Inputs.inputsToKernel C99.exX (some C99.exX) false false true 0 (some (-1)) (some 100) true = .ok k ∧
    Inputs.inputsToKernel C99.exY (some C99.exX) false false true 0 (some (-1)) (some 100) false = .ok k' ∧
    C99.denseBlock.run (.one k) = .ok (.one K) ∧ C99.denseBlock.run (.one k') = .ok (.one K') ∧ SameAbout K K' 1 1 0 1 (t.len1 1) (t.len2 1) ∧
    t.len1 1 = [1] := by
  obtain ⟨t, h, -, e, -⟩ := C99.denseBlock_tree 100 C99.exX C99.exX false true true 2 2 2 3 3 C99.exLen C99.exLen (by decide) C99.exX_padded C99.exX_padded
  obtain ⟨t', h', -⟩ := C99.denseBlock_tree 100 C99.exY C99.exX false true false 1 2 2 1 3 (fun _ => [1]) C99.exLen (by decide) exY_padded C99.exX_padded
  obtain ⟨k, k', K, K', a, b, c, d, q⟩ := masked_examples_partial 100 100 C99.exX C99.exX C99.exY C99.exX false true true false 0 (-1) 2 2 1 2 2 [3] [3] [1] [3]
    C99.exLen C99.exLen (fun _ => [1]) C99.exLen 0 2 (by simp) (by simp) (by decide) rfl rfl rfl (by decide) C99.exX_padded C99.exX_padded exY_padded
    C99.exX_padded h h' 1 1 0 1 (by decide) (by decide) (by decide) (by decide) C99.exY C99.exY C99.exY_example C99.exY_example exY_self C99.exY_example
  exact ⟨t, k, k', K, K', a, b, c, d, q, by rw [e]; rfl⟩

end NT.C82
