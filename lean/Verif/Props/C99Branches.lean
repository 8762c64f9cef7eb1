import Verif.Props.C99
import Verif.Lemmas.MaskedTree

/-!
# C99, branched networks: padding and masking examples does not change their kernels
-/

namespace NT.C99
open NT NT.Network Arr Spec Semantics Masked

/-- As `padding_invisible_partial`, for networks with branches: `FanOut`, `parallel` and `serial` in any arrangement and of any depth, with sums and
products of branches and concatenations of their channels (`Tree`), among them residual networks and dense blocks. The kernel of the padded batches is computed, its entries for padding are zero, its masks mark
exactly the padding, and its entries for examples `i` and `j` are those of the kernel of these examples alone, without padding and masks. -/
theorem branched_padding_invisible_partial (m : ℝ) (x1 x2 : Arr ℝ) (db ntk same : Bool) (ba ca : ℤ) (n1 n2 C : ℕ) (S1 S2 : List ℕ) (len1 len2 : ℕ → List ℕ)
    (B A : ℕ) (hB : (B : ℤ) = ba % (S1.length + 2)) (hA : (A : ℤ) = ca % (S1.length + 2)) (hne : B ≠ A) (hr : S1.length = S2.length) (hC : 0 < C)
    (h1 : PaddedWith m x1 B A n1 C S1 len1) (h2 : PaddedWith m x2 B A n2 C S2 len2) {net : MNet} {t : Padded}
    (h : Tree net (.one (paddedInputs m x1 x2 db ntk same B A C n1 n2 S1 S2 len1 len2)) (.one t)) :
    ∃ k K, Inputs.inputsToKernel x1 (some x2) db false ntk ba (some ca) (some m) same = .ok k ∧ net.run (.one k) = .ok (.one K) ∧ Batch t K ∧
      (∀ i < n1, ∀ j < n2, ∀ p q, InRange p t.L.S1 → InRange q t.L.S2 → ¬(InRange p (t.len1 i) ∧ InRange q (t.len2 j)) →
        K.nngp.get ([i, j] ++ pos false K.isReversed p q) = 0) ∧
      ∀ i < n1, ∀ j < n2, ∀ y1 y2 same', ExampleOf y1 x1 B A i C len1 → ExampleOf y2 x2 B A j C len2 →
        ∃ k' K', Inputs.inputsToKernel y1 (some y2) db false ntk ba (some ca) none same' = .ok k' ∧ net.run (.one k') = .ok (.one K') ∧
          SameExamples K K' i j (t.len1 i) (t.len2 j) := by
  have hBl : B < S1.length + 2 := by
    have := Int.emod_lt_of_pos ba (b := (S1.length : ℤ) + 2) (by omega)
    omega
  have hAl : A < S1.length + 2 := by
    have := Int.emod_lt_of_pos ca (b := (S1.length : ℤ) + 2) (by omega)
    omega
  have hok := inputs_ok (db := db) (ntk := ntk) (same := same) hne hBl hAl hr hC h1 h2
  obtain ⟨k, e1, e2, e3⟩ := C35.second_moment (some m) db false ntk same x1 (some x2) ba ca n1 n2 C S1 S2 B A hB hA hne hr (by simp) h1.shape h2.shape
  obtain ⟨y, e4, hy⟩ := tree_batch (n1 := n1) (n2 := n2) h (.one k _ ⟨hok, rfl, rfl, inputs_batch h1 h2 e2 e3⟩)
  cases hy with
  | one K _ hK =>
  obtain ⟨tok, z1, z2, e5⟩ := hK
  refine ⟨k, K, e1, e4, e5, fun i hi j hj p q hp hq hz => ?_, fun i hi j hj y1 y2 same' g1 g2 => ?_⟩
  · have hst := e5.core.stores.nngp
    rw [e5.core.fields.2.2.2.1, tok.pairs] at hst
    have hi' : i < t.L.n1 := by rw [z1]; exact hi
    have hj' : j < t.L.n2 := by rw [z2]; exact hj
    rw [hst.get [i, j] p q (.cons hi' (.cons hj' .nil)) hp hq (by simp)]
    exact tok.zero.k12 i hi' j hj' p q hp hq hz
  · have l1 := (h1.fits i hi).length_eq
    have l2 := (h2.fits j hj).length_eq
    obtain ⟨k', f1, f2, f3⟩ := C35.second_moment none db false ntk same' y1 (some y2) ba ca 1 1 C (len1 i) (len2 j) B A (by rw [hB, l1]) (by rw [hA, l1]) hne
      (by omega) (by simp) g1.shape g2.shape
    obtain ⟨y, f4, hy⟩ := tree_alone (i := i) (j := j) h (.one k' _ ⟨hok, hi, hj, _, inputs_alone hi hj h1 h2 g1 g2, C80.input_describes f2 f3⟩)
    cases hy with
    | one K' _ hK' =>
    obtain ⟨-, -, -, t', f5, f6⟩ := hK'
    exact ⟨k', K', f1, f4, same_kernel tok (by rw [z1]; exact hi) (by rw [z2]; exact hj) e5 f5 f6⟩

/-! ### A concrete case: a residual network on sentences of different lengths -/

/-- The output shape of `FanInSum`. -/
def firstShape (l : List (List ℕ)) : List ℕ := l.headD []

/-- `serial(FanOut(2), parallel(a, b))`. -/
def twice (a b : MNet) : MNet := .seq (.fanOut 2) (.par 2 fun r => if r = 0 then a else b)

/-- `serial(Conv, FanOut(2), parallel(Identity, serial(Relu, Conv)), FanInSum, GlobalAvgPool)`. -/
noncomputable def residual : MNet :=
  .seq (.layer (.conv conv8) fun s => s.set 2 8) (.seq
    (twice (.layer .identity id) (.seq (.layer (.act (abReluDual 0 1).kernelFn false) id) (.layer (.conv conv8) fun s => s.set 2 8)))
    (.seq (.fanIn .sum firstShape) (.layer (.globalPool ⟨.avg, 0, -1⟩) pooledShape)))

lemma twice_tree {a b : MNet} {s t u : Padded} (ha : Tree a (.one s) (.one t)) (hb : Tree b (.one s) (.one u)) :
    Tree (twice a b) (.one s) (.many (List.ofFn fun r : Fin 2 => .one (if r = 0 then t else u))) := by
  refine .seq .fanOut ?_
  have := Tree.par (n := 2) (branches := fun r => if r = 0 then a else b) (u := fun _ => .one s) (v := fun r => .one (if r = 0 then t else u))
    (Fin.forall_fin_two.2 ⟨ha, hb⟩)
  rwa [List.ofFn_const] at this

/-- Sentences after the convolution. -/
noncomputable def afterConv (s : Padded) : Padded :=
  s.next { s.toState with
    L := C53.after conv8 (s.info.shape1.getD 2 0) s.L
    info := { s.info with isGaussian := true, isInput := false, isReversed := convRev conv8 s.info, batchAxis := 0, channelAxis := 2 }
    full := true } (fun l => l.set 2 8) 8 1

/-- Sentences after the nonlinearity. -/
noncomputable def afterRelu (N T : ℝ → ℝ → ℝ → ℝ) (s : Padded) : Padded :=
  s.next { s.toState with L := entrywise N T s.L, info := { s.info with isGaussian := false }, full := true } id s.c s.mc

lemma conv_sem {s : Padded} (h1 : s.L.S1.length = 1) (h2 : s.L.S2.length = 1) (hb : s.info.batchAxis = 0) (ha : s.info.channelAxis = 2)
    (hd : s.info.diagonalSpatial = false) (hs : s.info.shape1.getD 2 0 = s.info.shape2.getD 2 0) :
    Step (.conv conv8) (fun l => l.set 2 8) s (afterConv s) ∧ (afterConv s).L.n1 = s.L.n1 ∧ (afterConv s).L.n2 = s.L.n2 ∧
      (afterConv s).L.S1 = s.L.S1 ∧ (afterConv s).L.S2 = s.L.S2 ∧ (afterConv s).L.k22.isSome = s.L.k22.isSome ∧ (afterConv s).L.ntk.isSome = s.L.ntk.isSome := by
  have hl : LayerSem (.conv conv8) s.toState _ := ⟨by simp [conv8], by simp [conv8], by simp [conv8], h1, h2, by simp [hd], by simp [conv8], hs, rfl⟩
  have hk := kept_conv (s := s) hl rfl (by simp [conv8]) hb.symm ha.symm
  refine ⟨.conv (c := 8) rfl (by simp [conv8]) rfl hb.symm ha.symm hl fun n T hT => ?_, hk.sizes.1, hk.sizes.2.1, hk.sizes.2.2.1, hk.sizes.2.2.2, ?_, ?_⟩
  · rw [hb, ha]
    exact act_setChannel 0 2 n s.c 8 T (by decide) (by omega) (by omega)
  · simp [afterConv, Padded.next, State.withShapes, C25.maskL, C53.after]
  · simp [afterConv, Padded.next, State.withShapes, C25.maskL, C53.after]

/-- The sum of two branches. -/
lemma sum_tree {a b : Padded} (hi : b.info = { a.info with isReversed := b.info.isReversed }) (hd : a.info.diagonalSpatial = false)
    (hg : a.info.isGaussian = true) (hf : a.full = true ∧ b.full = true) (hs : b.same = a.same)
    (hz : b.L.n1 = a.L.n1 ∧ b.L.n2 = a.L.n2 ∧ b.L.S1 = a.L.S1 ∧ b.L.S2 = a.L.S2) (hl : b.len1 = a.len1 ∧ b.len2 = a.len2) (hc : b.c = a.c)
    (hm : a.mc = 1 ∧ b.mc = 1) (h2 : b.L.k22.isSome = a.L.k22.isSome) (hn : b.L.ntk.isSome = a.L.ntk.isSome) :
    ∃ t, Tree (.fanIn .sum firstShape) (.many (List.ofFn fun r : Fin 2 => .one (if r = 0 then a else b))) (.one t) ∧ t.mc = 1 ∧ t.full = true ∧ t.len1 = a.len1 ∧
      t.len2 = a.len2 ∧ t.info.batchAxis = a.info.batchAxis ∧ t.info.channelAxis = a.info.channelAxis ∧ t.L.S1 = a.L.S1 ∧ t.L.n1 = a.L.n1 ∧ t.L.n2 = a.L.n2 := by
  have e : ∀ r : Fin 2, (if r = 0 then a else b).info = { a.info with isReversed := (if r = 0 then a else b).info.isReversed } := Fin.forall_fin_two.2 ⟨rfl, hi⟩
  refine ⟨_, .fanIn (m := 1) (.inl rfl) ⟨?_, ?_, ?_, ?_⟩ ⟨⟨?_, ?_, ?_, ?_, ?_, ?_, ?_, ?_⟩, .inl ?_, ?_, a.L.k22.isSome, a.L.ntk.isSome, ?_, ?_, rfl⟩ fun x => rfl,
    ?_, hf.1, rfl, rfl, rfl, rfl, rfl, rfl, rfl⟩
  · exact Fin.forall_fin_two.2 ⟨rfl, hl.1⟩
  · exact Fin.forall_fin_two.2 ⟨rfl, hl.2⟩
  · exact Fin.forall_fin_two.2 ⟨rfl, hc⟩
  · exact Fin.forall_fin_two.2 ⟨.inl hm.1, .inl hm.2⟩
  · exact fun r => by have := congrArg Kernel.Static.diagonalBatch (e r); exact this
  · exact fun r => by have := congrArg Kernel.Static.diagonalSpatial (e r); exact this
  · exact fun r => by have := congrArg Kernel.Static.batchAxis (e r); exact this
  · exact fun r => by have := congrArg Kernel.Static.channelAxis (e r); exact this
  · intro h
    exact absurd (hd.symm.trans h) (by simp)
  · exact Fin.forall_fin_two.2 ⟨⟨rfl, rfl, rfl, rfl⟩, hz⟩
  · exact Fin.forall_fin_two.2 ⟨rfl, hs⟩
  · exact Fin.forall_fin_two.2 hf
  · exact fun r => (congrArg Kernel.Static.isGaussian (e r)).trans hg
  · exact fun r => ⟨by have := congrArg Kernel.Static.shape1 (e r); exact this, by have := congrArg Kernel.Static.shape2 (e r); exact this⟩
  · exact Fin.forall_fin_two.2 ⟨rfl, h2⟩
  · exact Fin.forall_fin_two.2 ⟨rfl, hn⟩
  · show max a.mc b.mc = 1
    rw [hm.1, hm.2]; rfl

lemma residual_tree (m : ℝ) (x1 x2 : Arr ℝ) (db ntk same : Bool) (n1 n2 C l1 l2 : ℕ) (len1 len2 : ℕ → List ℕ) (h1 : PaddedWith m x1 0 2 n1 C [l1] len1)
    (h2 : PaddedWith m x2 0 2 n2 C [l2] len2) (p1 : ∀ i < n1, 0 ∉ len1 i) (p2 : ∀ j < n2, 0 ∉ len2 j) :
    ∃ t, Tree residual (.one (paddedInputs m x1 x2 db ntk same 0 2 C n1 n2 [l1] [l2] len1 len2)) (.one t) ∧ t.len1 = (fun _ => []) ∧ t.len2 = fun _ => [] := by
  obtain ⟨D, dφ, N, T, hD, hf⟩ := abRelu_nonlinearity 0 1
  have hv0 : (paddedInputs m x1 x2 db ntk same 0 2 C n1 n2 [l1] [l2] len1 len2).L.Vars (0 ≤ ·) := by
    have key : ∀ (x : Arr ℝ) i p, 0 ≤ C35.meanProd (some m) x x 0 2 C [i, i] p p := fun x i p =>
      div_nonneg (Finset.sum_nonneg fun c _ => mul_self_nonneg _) (Nat.cast_nonneg _)
    refine ⟨fun i p _ _ => key _ _ _, fun F hF i p _ _ => ?_⟩
    obtain rfl : C35.meanProd (some m) x2 x2 0 2 C = F := by simpa [paddedInputs, C35.second] using hF
    exact key _ _ _
  have hw : ∀ v ∈ conv8.filter, 0 < v.1 ∧ 0 < v.2 := by simp [conv8]
  generalize hs0 : paddedInputs m x1 x2 db ntk same 0 2 C n1 n2 [l1] [l2] len1 len2 = s at hv0 ⊢
  have q1 : s.L.S1.length = 1 := by rw [← hs0]; rfl
  have q2 : s.L.S2.length = 1 := by rw [← hs0]; rfl
  have q3 : s.info.batchAxis = 0 := by rw [← hs0]; rfl
  have q4 : s.info.channelAxis = 2 := by rw [← hs0]; rfl
  have q5 : s.info.diagonalSpatial = false := by rw [← hs0]; rfl
  have q6 : s.info.shape1 = [n1, l1, C] := by rw [← hs0]; exact h1.shape
  have q7 : s.info.shape2 = [n2, l2, C] := by rw [← hs0]; exact h2.shape
  have q8 : (∀ i < s.L.n1, 0 ∉ s.len1 i) ∧ ∀ j < s.L.n2, 0 ∉ s.len2 j := by rw [← hs0]; exact ⟨p1, p2⟩
  obtain ⟨a1, z1, z2, z3, z4, z5, z6⟩ := conv_sem q1 q2 q3 q4 q5 (by rw [q6, q7]; rfl)
  have hv1 : (afterConv s).L.Vars (0 ≤ ·) :=
    vars_mask (f := padding s.len1) (g := padding s.len2) (ConvNet.vars_conv (d := conv8) (C := s.info.shape1.getD 2 0) hw q1 q2 hv0)
  have a2 : Step .identity id (afterConv s) _ := .identity fun n T _ => rfl
  have a3 : Step (.act (abReluDual 0 1).kernelFn false) id (afterConv s) (afterRelu N T (afterConv s)) := .act (.inr ⟨by simp, hv1⟩) (fun h => by simp at h) rfl hf
    ⟨fun i p hi hp => hD _ (hv1.one i p hi hp), fun F hF i p hi hp => hD _ (hv1.two F hF i p hi hp)⟩ fun n T _ => rfl
  obtain ⟨a4, y1, y2, y3, y4, y5, y6⟩ := conv_sem (s := afterRelu N T (afterConv s))
    ((congrArg List.length z3).trans q1) ((congrArg List.length z4).trans q2) rfl rfl q5 (by simp [afterRelu, afterConv, Padded.next, State.withShapes, q6, q7])
  obtain ⟨t, ht, t1, t2, t3, t4, t5, t6, t7, t8, t9⟩ := sum_tree (a := (afterConv s).next (afterConv s).toState id (afterConv s).c (afterConv s).mc)
    (b := afterConv (afterRelu N T (afterConv s))) (by simp [afterRelu, afterConv, Padded.next, State.withShapes, q6, q7]) q5 rfl
    ⟨rfl, rfl⟩ rfl ⟨y1, y2, y3, y4⟩ ⟨rfl, rfl⟩ rfl ⟨rfl, rfl⟩ (y5.trans (by simp [afterRelu, Padded.next, State.withShapes, C25.maskL, entrywise]))
    (y6.trans (by simp [afterRelu, Padded.next, State.withShapes, C25.maskL, entrywise]))
  refine ⟨_, .seq (.layer a1) (.seq (twice_tree (.layer a2) (.seq (.layer a3) (.layer a4))) (.seq ht (.layer (.globalPool (b := 0) (a := 1) t1 t2 ?_ ?_ ?_ ?_ ?_ ?_ ?_)))),
    rfl, rfl⟩
  · rw [t5, t7]; rfl
  · have hl : ((afterConv s).next (afterConv s).toState id (afterConv s).c (afterConv s).mc).L.S1.length = 1 := (congrArg List.length z3).trans q1
    rw [t6, t7, hl]; rfl
  · rw [t8, t3]; exact fun i hi => q8.1 i (by rw [← z1]; exact hi)
  · rw [t9, t4]; exact fun i hi => q8.2 i (by rw [← z2]; exact hi)
  · rw [t5, t6]; rfl
  · rw [t5, t6]; rfl
  · rw [t5, t6, t7]
    exact fun n T hT => pooled_out (hT.trans ((congrArg List.length z3).trans q1))

/-- The output shape of `FanInConcat(-1)` on sentences. -/
def joinedShape (l : List (List ℕ)) : List ℕ := (l.headD []).set 2 ((l.map fun s => s.getD 2 0).sum)

/-- The concatenation of the channels of two branches. -/
lemma concat_tree {a b : Padded} (ao : a.Ok) (bo : b.Ok) (h1 : a.L.S1.length = 1) (hb : a.info.batchAxis = 0) (ha : a.info.channelAxis = 2)
    (hi : b.info = { a.info with isReversed := b.info.isReversed, isGaussian := b.info.isGaussian, shape1 := b.info.shape1, shape2 := b.info.shape2 })
    (hf : a.full = true ∧ b.full = true) (hs : b.same = a.same)
    (hz : b.L.n1 = a.L.n1 ∧ b.L.n2 = a.L.n2 ∧ b.L.S1 = a.L.S1 ∧ b.L.S2 = a.L.S2) (hl : b.len1 = a.len1 ∧ b.len2 = a.len2) (hc : 0 < a.c ∧ 0 < b.c)
    (hm : a.mc = 1 ∧ b.mc = 1) (h2 : b.L.k22.isSome = a.L.k22.isSome) (hn : b.L.ntk.isSome = a.L.ntk.isSome) :
    ∃ t, Tree (.fanIn (.concat (-1)) joinedShape) (.many (List.ofFn fun r : Fin 2 => .one (if r = 0 then a else b))) (.one t) ∧ t.c = a.c + b.c ∧
      t.len1 = a.len1 ∧ t.len2 = a.len2 ∧ t.L.S1 = a.L.S1 := by
  have e : ∀ r : Fin 2, (if r = 0 then a else b).info = { a.info with
      isReversed := (if r = 0 then a else b).info.isReversed, isGaussian := (if r = 0 then a else b).info.isGaussian
      shape1 := (if r = 0 then a else b).info.shape1, shape2 := (if r = 0 then a else b).info.shape2 } := Fin.forall_fin_two.2 ⟨rfl, hi⟩
  have h2' : a.L.S2.length = 1 := ao.rank.trans h1
  obtain ⟨u, hu⟩ := List.length_eq_one_iff.1 h1
  obtain ⟨v, hv⟩ := List.length_eq_one_iff.1 h2'
  have bb : b.info.batchAxis = 0 := by rw [hi]; exact hb
  have ba : b.info.channelAxis = 2 := by rw [hi]; exact ha
  have sa1 : a.info.shape1 = [a.L.n1, u, a.c] := by rw [ao.shape1, hb, ha, hu]; rfl
  have sa2 : a.info.shape2 = [a.L.n2, v, a.c] := by rw [ao.shape2, hb, ha, hv]; rfl
  have sb1 : b.info.shape1 = [a.L.n1, u, b.c] := by rw [bo.shape1, bb, ba, hz.1, hz.2.2.1, hu]; rfl
  have sb2 : b.info.shape2 = [a.L.n2, v, b.c] := by rw [bo.shape2, bb, ba, hz.2.1, hz.2.2.2, hv]; rfl
  refine ⟨_, .concat (m := 1) ⟨?_, ?_, ?_, ?_⟩ ⟨⟨?_, ?_, ?_, ?_, ?_, ?_, ?_, ?_⟩, ?_, ?_, ?_, ?_, fun r => if r = 0 then a.c else b.c, ?_, ?_, ?_, a.L.k22.isSome, a.L.ntk.isSome, ?_, ?_, rfl⟩
    ?_, ?_, rfl, rfl, rfl⟩
  · exact Fin.forall_fin_two.2 ⟨rfl, hl.1⟩
  · exact Fin.forall_fin_two.2 ⟨rfl, hl.2⟩
  · exact Fin.forall_fin_two.2 hc
  · exact Fin.forall_fin_two.2 ⟨.inl hm.1, .inl hm.2⟩
  · exact fun r => by have := congrArg Kernel.Static.diagonalBatch (e r); exact this
  · exact fun r => by have := congrArg Kernel.Static.diagonalSpatial (e r); exact this
  · exact fun r => by have := congrArg Kernel.Static.batchAxis (e r); exact this
  · exact fun r => by have := congrArg Kernel.Static.channelAxis (e r); exact this
  · intro h
    exact absurd (ao.pairs.symm.trans h) (by simp)
  · exact Fin.forall_fin_two.2 ⟨⟨rfl, rfl, rfl, rfl⟩, hz⟩
  · exact Fin.forall_fin_two.2 ⟨rfl, hs⟩
  · exact Fin.forall_fin_two.2 hf
  · show a.info.shape1 ≠ []
    rw [sa1]; simp
  · show a.info.shape2.length = a.info.shape1.length
    rw [sa1, sa2]; rfl
  · show (-1 : ℤ) % (a.info.shape1.length : ℤ) = (a.info.channelAxis : ℕ)
    rw [sa1, ha]; rfl
  · show ∀ r : Fin 2, (if r = 0 then a else b).info.shape1.eraseIdx a.info.channelAxis = a.info.shape1.eraseIdx a.info.channelAxis ∧
      (if r = 0 then a else b).info.shape2.eraseIdx a.info.channelAxis = a.info.shape2.eraseIdx a.info.channelAxis
    exact Fin.forall_fin_two.2 ⟨⟨rfl, rfl⟩, by simp [sa1, sa2, sb1, sb2, ha]⟩
  · exact Fin.forall_fin_two.2 hc
  · exact Fin.forall_fin_two.2 ⟨by simp [sa1, ha], by simp [sb1, ba]⟩
  · exact Fin.forall_fin_two.2 ⟨by simp [sa2, ha], by simp [sb2, ba]⟩
  · exact Fin.forall_fin_two.2 ⟨rfl, h2⟩
  · exact Fin.forall_fin_two.2 ⟨rfl, hn⟩
  · show ∀ n T, T.length = a.L.S1.length → joinedShape (List.ofFn fun r : Fin 2 => actIdx a.info.batchAxis a.info.channelAxis n (if r = 0 then a else b).c T) =
      actIdx a.info.batchAxis a.info.channelAxis n (∑ r : Fin 2, (if r = 0 then a else b).c) T
    intro n T hT
    obtain ⟨x, rfl⟩ := List.length_eq_one_iff.1 (hT.trans h1)
    rw [hb, ha, Fin.sum_univ_two]
    rfl
  · show ∑ r : Fin 2, (if r = 0 then a else b).c = _
    rw [Fin.sum_univ_two]
    rfl

/-- For sentences of any lengths at least 1, padded in any way: the residual network has for sentences `i` and `j` the kernel of the two sentences alone. -/
example (m : ℝ) (x1 x2 : Arr ℝ) (db same same' : Bool) (n1 n2 C l1 l2 : ℕ) (len1 len2 : ℕ → List ℕ) (hC : 0 < C) (h1 : PaddedWith m x1 0 2 n1 C [l1] len1)
    (h2 : PaddedWith m x2 0 2 n2 C [l2] len2) (p1 : ∀ i < n1, 0 ∉ len1 i) (p2 : ∀ j < n2, 0 ∉ len2 j) (i j : ℕ) (hi : i < n1) (hj : j < n2) (y1 y2 : Arr ℝ)
    (g1 : ExampleOf y1 x1 0 2 i C len1) (g2 : ExampleOf y2 x2 0 2 j C len2) :
    ∃ k K k' K', Inputs.inputsToKernel x1 (some x2) db false true 0 (some (-1)) (some m) same = .ok k ∧ residual.run (.one k) = .ok (.one K) ∧
      Inputs.inputsToKernel y1 (some y2) db false true 0 (some (-1)) none same' = .ok k' ∧ residual.run (.one k') = .ok (.one K') ∧
      K'.nngp.get [0, 0] = K.nngp.get [i, j] := by
  obtain ⟨t, ht, t1, t2⟩ := residual_tree m x1 x2 db true same n1 n2 C l1 l2 len1 len2 h1 h2 p1 p2
  obtain ⟨k, K, e1, e2, -, -, e3⟩ :=
    branched_padding_invisible_partial m x1 x2 db true same 0 (-1) n1 n2 C [l1] [l2] len1 len2 0 2 (by simp) (by simp) (by decide) rfl hC h1 h2 ht
  obtain ⟨k', K', f1, f2, f3⟩ := e3 i hi j hj y1 y2 same' g1 g2
  refine ⟨k, K, k', K', e1, e2, f1, f2, ?_⟩
  have := f3.nngp [] [] (by rw [t1]; exact .nil) (by rw [t2]; exact .nil)
  simpa [pos, interleave] using this

/-- `serial(Conv, FanOut(2), parallel(Identity, Relu), FanInConcat(-1))`. -/
noncomputable def denseBlock : MNet :=
  .seq (.layer (.conv conv8) fun s => s.set 2 8) (.seq (twice (.layer .identity id) (.layer (.act (abReluDual 0 1).kernelFn false) id))
    (.fanIn (.concat (-1)) joinedShape))

lemma denseBlock_tree (m : ℝ) (x1 x2 : Arr ℝ) (db ntk same : Bool) (n1 n2 C l1 l2 : ℕ) (len1 len2 : ℕ → List ℕ) (hC : 0 < C)
    (h1 : PaddedWith m x1 0 2 n1 C [l1] len1) (h2 : PaddedWith m x2 0 2 n2 C [l2] len2) :
    ∃ t, Tree denseBlock (.one (paddedInputs m x1 x2 db ntk same 0 2 C n1 n2 [l1] [l2] len1 len2)) (.one t) ∧ t.c = 16 ∧ t.len1 = len1 ∧ t.len2 = len2 ∧
      t.L.S1 = [l1] := by
  obtain ⟨D, dφ, N, T, hD, hf⟩ := abRelu_nonlinearity 0 1
  have hv0 : (paddedInputs m x1 x2 db ntk same 0 2 C n1 n2 [l1] [l2] len1 len2).L.Vars (0 ≤ ·) := by
    have key : ∀ (x : Arr ℝ) i p, 0 ≤ C35.meanProd (some m) x x 0 2 C [i, i] p p := fun x i p =>
      div_nonneg (Finset.sum_nonneg fun c _ => mul_self_nonneg _) (Nat.cast_nonneg _)
    refine ⟨fun i p _ _ => key _ _ _, fun F hF i p _ _ => ?_⟩
    obtain rfl : C35.meanProd (some m) x2 x2 0 2 C = F := by simpa [paddedInputs, C35.second] using hF
    exact key _ _ _
  have hw : ∀ v ∈ conv8.filter, 0 < v.1 ∧ 0 < v.2 := by simp [conv8]
  have hok := inputs_ok (db := db) (ntk := ntk) (same := same) (by decide) (by simp) (by simp) (show [l1].length = [l2].length from rfl) hC h1 h2
  generalize hs0 : paddedInputs m x1 x2 db ntk same 0 2 C n1 n2 [l1] [l2] len1 len2 = s at hv0 hok ⊢
  have q0 : s.L.S1 = [l1] := by rw [← hs0]; rfl
  have q1 : s.L.S1.length = 1 := by rw [← hs0]; rfl
  have q2 : s.L.S2.length = 1 := by rw [← hs0]; rfl
  have q3 : s.info.batchAxis = 0 := by rw [← hs0]; rfl
  have q4 : s.info.channelAxis = 2 := by rw [← hs0]; rfl
  have q5 : s.info.diagonalSpatial = false := by rw [← hs0]; rfl
  have q6 : s.info.shape1 = [n1, l1, C] := by rw [← hs0]; exact h1.shape
  have q7 : s.info.shape2 = [n2, l2, C] := by rw [← hs0]; exact h2.shape
  have q8 : s.len1 = len1 ∧ s.len2 = len2 := by rw [← hs0]; exact ⟨rfl, rfl⟩
  obtain ⟨a1, z1, z2, z3, z4, z5, z6⟩ := conv_sem q1 q2 q3 q4 q5 (by rw [q6, q7]; rfl)
  have hv1 : (afterConv s).L.Vars (0 ≤ ·) :=
    vars_mask (f := padding s.len1) (g := padding s.len2) (ConvNet.vars_conv (d := conv8) (C := s.info.shape1.getD 2 0) hw q1 q2 hv0)
  have a2 : Step .identity id (afterConv s) _ := .identity fun n T _ => rfl
  have a3 : Step (.act (abReluDual 0 1).kernelFn false) id (afterConv s) (afterRelu N T (afterConv s)) := .act (.inr ⟨by simp, hv1⟩) (fun h => by simp at h) rfl hf
    ⟨fun i p hi hp => hD _ (hv1.one i p hi hp), fun F hF i p hi hp => hD _ (hv1.two F hF i p hi hp)⟩ fun n T _ => rfl
  have o1 := (step_batch hok a1).1
  obtain ⟨t, ht, t1, t2, t3, t4⟩ := concat_tree (step_batch o1 a2).1 (step_batch o1 a3).1 ((congrArg List.length z3).trans q1) rfl rfl rfl ⟨rfl, rfl⟩ rfl
    ⟨rfl, rfl, rfl, rfl⟩ ⟨rfl, rfl⟩ ⟨Nat.succ_pos 7, Nat.succ_pos 7⟩ ⟨rfl, rfl⟩ (by simp [afterRelu, Padded.next, State.withShapes, C25.maskL, entrywise])
    (by simp [afterRelu, Padded.next, State.withShapes, C25.maskL, entrywise])
  exact ⟨t, .seq (.layer a1) (.seq (twice_tree (.layer a2) (.layer a3)) ht), t1, t2.trans q8.1, t3.trans q8.2, t4.trans (z3.trans q0)⟩

example : ∃ t, Tree denseBlock (.one (paddedInputs 100 exX exX true true true 0 2 2 2 2 [3] [3] exLen exLen)) (.one t) ∧ t.c = 16 ∧ t.len1 = exLen :=
  (denseBlock_tree 100 exX exX true true true 2 2 2 3 3 exLen exLen (by decide) exX_padded exX_padded).imp fun _ h => ⟨h.1, h.2.1, h.2.2.1⟩

example : ∃ t, Tree residual (.one (paddedInputs 100 exX exX true true true 0 2 2 2 2 [3] [3] exLen exLen)) (.one t) :=
  (residual_tree 100 exX exX true true true 2 2 2 3 3 exLen exLen exX_padded exX_padded (by intro i _; unfold exLen; split <;> simp)
    (by intro i _; unfold exLen; split <;> simp)).imp fun _ h => h.1

end NT.C99
