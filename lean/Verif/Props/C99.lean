import Verif.Lemmas.MaskedInput
import Verif.Lemmas.ConvNet

/-!
# C99: padding and masking examples does not change their kernels

Examples of different spatial sizes are padded to a common shape with the value `mask_constant`.  `kernel_fn(x1, x2, mask_constant=m)` then contains, for every
pair of examples, the kernel of these two examples computed alone and without padding.
-/

namespace NT.C99
open NT NT.Network Arr Spec Semantics Masked

lemma steps_sizes {net : List (MLayer × (List ℕ → List ℕ))} {s t : Padded} (h : Steps net s t) : t.L.n1 = s.L.n1 ∧ t.L.n2 = s.L.n2 := by
  induction h with
  | nil => exact ⟨rfl, rfl⟩
  | cons h1 _ ih =>
    have : ∀ {l out s t}, Step l out s t → t.L.n1 = s.L.n1 ∧ t.L.n2 = s.L.n2 := by
      intro l out s t h1
      cases h1 with
      | dense _ hl _ => exact ⟨(kept_dense hl).sizes.1, (kept_dense hl).sizes.2.1⟩
      | conv hp hw _ hb hax hl _ => exact ⟨(kept_conv hl hp hw hb hax).sizes.1, (kept_conv hl hp hw hb hax).sizes.2.1⟩
      | pool hp hw _ _ _ _ hl _ => exact ⟨(kept_pool hl hp hw).sizes.1, (kept_pool hl hp hw).sizes.2.1⟩
      | act => exact ⟨rfl, rfl⟩
      | dropout => exact ⟨rfl, rfl⟩
      | identity => exact ⟨rfl, rfl⟩
      | globalPool => exact ⟨rfl, rfl⟩
    exact ⟨ih.1.trans (this h1).1, ih.2.trans (this h1).2⟩

/-- For batches of examples of any rank and any sizes, padded to common shapes, any positions of the batch and channel axes, and a network of any depth of `Dense`,
`Conv` and local pooling with padding `'SAME'`, nonlinearities, `Dropout` in test mode, `Identity` and global pooling (`Steps`): the kernel of the padded
batches is computed, its entries for padding are zero, its masks mark exactly the padding, and its entries for examples `i` and `j` are those of the kernel of these
examples alone, without padding and masks. -/
theorem padding_invisible_partial (m : ℝ) (x1 x2 : Arr ℝ) (db ntk same : Bool) (ba ca : ℤ) (n1 n2 C : ℕ) (S1 S2 : List ℕ) (len1 len2 : ℕ → List ℕ) (B A : ℕ)
    (hB : (B : ℤ) = ba % (S1.length + 2)) (hA : (A : ℤ) = ca % (S1.length + 2)) (hne : B ≠ A) (hr : S1.length = S2.length) (hC : 0 < C)
    (h1 : PaddedWith m x1 B A n1 C S1 len1) (h2 : PaddedWith m x2 B A n2 C S2 len2) {net : List (MLayer × (List ℕ → List ℕ))} {t : Padded}
    (h : Steps net (paddedInputs m x1 x2 db ntk same B A C n1 n2 S1 S2 len1 len2) t) :
    ∃ k K, Inputs.inputsToKernel x1 (some x2) db false ntk ba (some ca) (some m) same = .ok k ∧ run net k = .ok K ∧ Batch t K ∧
      (∀ i < n1, ∀ j < n2, ∀ p q, InRange p t.L.S1 → InRange q t.L.S2 → ¬(InRange p (t.len1 i) ∧ InRange q (t.len2 j)) →
        K.nngp.get ([i, j] ++ pos false K.isReversed p q) = 0) ∧
      ∀ i < n1, ∀ j < n2, ∀ y1 y2 same', ExampleOf y1 x1 B A i C len1 → ExampleOf y2 x2 B A j C len2 →
        ∃ k' K', Inputs.inputsToKernel y1 (some y2) db false ntk ba (some ca) none same' = .ok k' ∧ run net k' = .ok K' ∧
          SameExamples K K' i j (t.len1 i) (t.len2 j) := by
  have hBl : B < S1.length + 2 := by
    have := Int.emod_lt_of_pos ba (b := (S1.length : ℤ) + 2) (by omega)
    omega
  have hAl : A < S1.length + 2 := by
    have := Int.emod_lt_of_pos ca (b := (S1.length : ℤ) + 2) (by omega)
    omega
  have hok := inputs_ok (db := db) (ntk := ntk) (same := same) hne hBl hAl hr hC h1 h2
  obtain ⟨k, e1, e2, e3⟩ := C35.second_moment (some m) db false ntk same x1 (some x2) ba ca n1 n2 C S1 S2 B A hB hA hne hr (by simp) h1.shape h2.shape
  obtain ⟨tok, hrun⟩ := steps_batch hok h
  obtain ⟨K, e4, e5⟩ := hrun k (inputs_batch h1 h2 e2 e3)
  obtain ⟨z1, z2⟩ := steps_sizes h
  refine ⟨k, K, e1, e4, e5, fun i hi j hj p q hp hq hz => ?_, fun i hi j hj y1 y2 same' g1 g2 => ?_⟩
  · have hst := e5.core.stores.nngp
    rw [e5.core.fields.2.2.2.1, tok.pairs] at hst
    have hi' : i < t.L.n1 := by rw [z1]; exact hi
    have hj' : j < t.L.n2 := by rw [z2]; exact hj
    rw [hst.get [i, j] p q (.cons hi' (.cons hj' .nil)) hp hq (by simp)]
    exact tok.zero.k12 i hi' j hj' p q hp hq hz
  · have l1 := (h1.fits i hi).length_eq
    have l2 := (h2.fits j hj).length_eq
    obtain ⟨k', f1, f2, f3⟩ := C35.second_moment none db false ntk same' y1 (some y2) ba ca 1 1 C (len1 i) (len2 j) B A (by rw [hB, l1]) (by rw [hA, l1]) hne
      (by omega) (by simp) g1.shape g2.shape
    obtain ⟨t', K', f4, f5, f6⟩ := steps_alone h hok hi hj (inputs_alone hi hj h1 h2 g1 g2) k' (C80.input_describes f2 f3)
    exact ⟨k', K', f1, f4, same_kernel tok (by rw [z1]; exact hi) (by rw [z2]; exact hj) e5 f5 f6⟩

/-! ### A concrete case: sentences of different lengths -/

/-- `Conv(8, (3,), padding='SAME', W_std=2, b_std=1)` on sentences. -/
noncomputable def conv8 : Conv := ⟨8, [(3, 1)], .same, 2, some 1, .ntk, (1, 1), true, 0, 2⟩

/-- `AvgPool((2,), padding='SAME')`. -/
def avg2 : Pool := ⟨.avg, [(2, 1)], .same, false, 0, -1⟩

/-- The output shape of global pooling. -/
def pooledShape (s : List ℕ) : List ℕ := [s.getD 0 0, s.getD 2 0]

/-- `serial(Conv, Relu, AvgPool, GlobalAvgPool, Dense)`. -/
noncomputable def sentences : List (MLayer × (List ℕ → List ℕ)) :=
  [(.conv conv8, fun s => s.set 2 8), (.act (abReluDual 0 1).kernelFn false, id), (.pool avg2, id), (.globalPool ⟨.avg, 0, -1⟩, pooledShape),
   (.dense C80.dense8, fun s => s.set 1 8)]

lemma vars_mask {L : Logical ℝ} {f g : ℕ → List ℕ → Bool} (h : L.Vars (0 ≤ ·)) : (C25.maskL L f g).Vars (0 ≤ ·) := by
  refine ⟨fun i p hi hp => ?_, fun F hF i p hi hp => ?_⟩
  · simp only [C25.maskL]
    split
    · exact le_rfl
    · exact h.one i p hi hp
  · simp only [C25.maskL, Option.map_eq_some_iff] at hF
    obtain ⟨G, hG, rfl⟩ := hF
    dsimp only
    split
    · exact le_rfl
    · exact h.two G hG i p hi hp

lemma pooled_out {n c : ℕ} {T : List ℕ} (h : T.length = 1) : pooledShape (actIdx 0 2 n c T) = actIdx 0 1 n c [] := by
  obtain ⟨a, rfl⟩ := List.length_eq_one_iff.1 h
  rfl

lemma sentences_steps (m : ℝ) (x1 x2 : Arr ℝ) (db ntk same : Bool) (n1 n2 C l1 l2 : ℕ) (len1 len2 : ℕ → List ℕ) (h1 : PaddedWith m x1 0 2 n1 C [l1] len1)
    (h2 : PaddedWith m x2 0 2 n2 C [l2] len2) (p1 : ∀ i < n1, 0 ∉ len1 i) (p2 : ∀ j < n2, 0 ∉ len2 j) :
    ∃ t, Steps sentences (paddedInputs m x1 x2 db ntk same 0 2 C n1 n2 [l1] [l2] len1 len2) t ∧ t.len1 = (fun _ => []) ∧ t.len2 = fun _ => [] := by
  obtain ⟨D, dφ, N, T, hD, hf⟩ := abRelu_nonlinearity 0 1
  have ch : ∀ n c, ∀ T : List ℕ, T.length = 1 → (actIdx 0 2 n c T).set 2 8 = actIdx 0 2 n 8 T := fun n c T hT =>
    act_setChannel 0 2 n c 8 T (by decide) (by omega) (by omega)
  have hv0 : (paddedInputs m x1 x2 db ntk same 0 2 C n1 n2 [l1] [l2] len1 len2).L.Vars (0 ≤ ·) := by
    have key : ∀ (x : Arr ℝ) i p, 0 ≤ C35.meanProd (some m) x x 0 2 C [i, i] p p := fun x i p =>
      div_nonneg (Finset.sum_nonneg fun c _ => mul_self_nonneg _) (Nat.cast_nonneg _)
    refine ⟨fun i p _ _ => key _ _ _, fun F hF i p _ _ => ?_⟩
    obtain rfl : C35.meanProd (some m) x2 x2 0 2 C = F := by simpa [paddedInputs, C35.second] using hF
    exact key _ _ _
  have hw : ∀ v ∈ conv8.filter, 0 < v.1 ∧ 0 < v.2 := by simp [conv8]
  have hv1 := vars_mask (f := padding len1) (g := padding len2) (ConvNet.vars_conv (d := conv8) (C := C) hw rfl rfl hv0)
  refine ⟨_, .cons (.conv (c := 8) rfl (by simp [conv8]) rfl rfl rfl
    ⟨by simp [conv8], by simp [conv8], hw, rfl, rfl, by simp [paddedInputs], by simp [conv8], ?_, rfl⟩ ?_)
    (.cons (.act (.inr ⟨by simp, ?_⟩) (fun h => by simp at h) rfl hf ?_ ?_)
    (.cons (.pool rfl (by simp [avg2]) (.inr rfl) rfl rfl rfl ⟨by simp [avg2], rfl, rfl, ?_, rfl⟩ ?_)
    (.cons (.globalPool (b := 0) (a := 1) rfl rfl rfl rfl p1 p2 rfl rfl ?_)
    (.cons (.dense (c := 8) rfl ⟨by simp [C80.dense8], by simp [C80.dense8], 8, ?_, ?_, rfl⟩ ?_) .nil)))), rfl, rfl⟩
  · simp only [paddedInputs, h1.shape, h2.shape]; rfl
  · exact fun n T hT => ch n _ T hT
  · exact hv1
  · exact ⟨fun i p hi hp => hD _ (hv1.one i p hi hp), fun F hF i p hi hp => hD _ (hv1.two F hF i p hi hp)⟩
  · exact fun n T _ => rfl
  · intro h; simp [Padded.next, State.withShapes, paddedInputs] at h
  · exact fun n T _ => rfl
  · exact fun n T hT => pooled_out hT
  · simp [Padded.next, State.withShapes, paddedInputs, h1.shape, pooledShape, pyGetNat, C80.dense8, actIdx]
  · simp [Padded.next, State.withShapes, paddedInputs, h2.shape, pooledShape, pyGetNat, C80.dense8, actIdx]
  · intro n T hT
    rw [List.length_eq_zero_iff.1 hT]
    rfl

/-- For sentences of any lengths at least 1, padded in any way, and one channel or more: after `Conv`, `Relu`, `AvgPool`, `GlobalAvgPool` and `Dense` the kernel of
sentences `i` and `j` is that of the two sentences alone. -/
example (m : ℝ) (x1 x2 : Arr ℝ) (db same same' : Bool) (n1 n2 C l1 l2 : ℕ) (len1 len2 : ℕ → List ℕ) (hC : 0 < C) (h1 : PaddedWith m x1 0 2 n1 C [l1] len1)
    (h2 : PaddedWith m x2 0 2 n2 C [l2] len2) (p1 : ∀ i < n1, 0 ∉ len1 i) (p2 : ∀ j < n2, 0 ∉ len2 j) (i j : ℕ) (hi : i < n1) (hj : j < n2) (y1 y2 : Arr ℝ)
    (g1 : ExampleOf y1 x1 0 2 i C len1) (g2 : ExampleOf y2 x2 0 2 j C len2) :
    ∃ k K k' K', Inputs.inputsToKernel x1 (some x2) db false true 0 (some (-1)) (some m) same = .ok k ∧ run sentences k = .ok K ∧
      Inputs.inputsToKernel y1 (some y2) db false true 0 (some (-1)) none same' = .ok k' ∧ run sentences k' = .ok K' ∧
      K'.nngp.get [0, 0] = K.nngp.get [i, j] := by
  obtain ⟨t, ht, t1, t2⟩ := sentences_steps m x1 x2 db true same n1 n2 C l1 l2 len1 len2 h1 h2 p1 p2
  obtain ⟨k, K, e1, e2, -, -, e3⟩ := padding_invisible_partial m x1 x2 db true same 0 (-1) n1 n2 C [l1] [l2] len1 len2 0 2 (by simp) (by simp) (by decide) rfl hC h1 h2 ht
  obtain ⟨k', K', f1, f2, f3⟩ := e3 i hi j hj y1 y2 same' g1 g2
  refine ⟨k, K, k', K', e1, e2, f1, f2, ?_⟩
  have := f3.nngp [] [] (by rw [t1]; exact .nil) (by rw [t2]; exact .nil)
  simpa [pos, interleave] using this

/-- Two sentences of lengths 3 and 1 with two channels, padded to length 3 with 100. -/
def exX : Arr ℝ := ⟨[2, 3, 2], fun i => if i.getD 0 0 = 1 ∧ 1 ≤ i.getD 1 0 then 100 else (i.getD 1 0 : ℝ) - i.getD 2 0⟩

/-- Their lengths. -/
def exLen (i : ℕ) : List ℕ := if i = 0 then [3] else [1]

lemma exX_padded : PaddedWith 100 exX 0 2 2 2 [3] exLen := by
  refine ⟨rfl, fun i hi => ?_, fun i hi c hc p hp => ?_⟩
  · unfold exLen
    split <;> simp
  · obtain ⟨a, r, rfl, ha, hr⟩ := inRange_cons_right.1 hp
    rw [inRange_nil_right] at hr
    subst hr
    have e : actIdx 0 2 i c [a] = [i, a, c] := rfl
    simp only [e, exX, exLen, List.getD_cons_zero, List.getD_cons_succ]
    have hs : ((a : ℝ) - (c : ℝ)) ≠ 100 := by
      have : (a : ℝ) < 3 := by exact_mod_cast ha
      have : (0 : ℝ) ≤ c := Nat.cast_nonneg c
      intro h; linarith
    interval_cases i <;> simp [inRange_cons, inRange_nil_right, hs]; omega

/-- The second sentence alone. -/
def exY : Arr ℝ := ⟨[1, 1, 2], fun i => (i.getD 1 0 : ℝ) - i.getD 2 0⟩

lemma exY_example : ExampleOf exY exX 0 2 1 2 exLen := by
  refine ⟨rfl, fun c hc p hp => ?_⟩
  obtain ⟨a, r, rfl, ha, hr⟩ := inRange_cons_right.1 hp
  rw [inRange_nil_right] at hr
  subst hr
  have : a = 0 := by simpa [exLen] using ha
  subst this
  simp [exX, exY, actIdx]

example : ∃ t, Steps sentences (paddedInputs 100 exX exX true true true 0 2 2 2 2 [3] [3] exLen exLen) t :=
  (sentences_steps 100 exX exX true true true 2 2 2 3 3 exLen exLen exX_padded exX_padded (by intro i _; unfold exLen; split <;> simp)
    (by intro i _; unfold exLen; split <;> simp)).imp fun _ h => h.1

end NT.C99
