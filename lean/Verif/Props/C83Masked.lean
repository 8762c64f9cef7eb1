import Verif.Tac
import Verif.Props.C83
import Verif.Props.C99Branches
import Verif.Lemmas.NoneSelfNet

/-!
# C83, limits: batching with masks and a second input
-/

namespace NT.C83
open NT NT.Batching NT.Network Arr Masked

lemma stackOpt_some {γ : Type} {l : List (Option (Arr γ))} {o : Option (Arr γ)} (h : stackOpt l = .ok o) (hl : ∀ a ∈ l, a.isSome) : o.isSome := by
  match l with
  | [] => simp [stackOpt] at h
  | none :: l => simp at hl
  | some a :: l =>
    simp only [stackOpt] at h
    split at h
    · split at h
      · cases h; rfl
      · cases h
    · cases h

lemma stack_mask2 {l : List (Kernel ℝ)} {k : Kernel ℝ} (h : stackKernels l = .ok k) (hl : ∀ a ∈ l, a.mask2.isSome) : k.mask2.isSome := by
  match l with
  | [] => simp [stackKernels] at h
  | k0 :: ks =>
    simp only [stackKernels] at h
    split at h
    · simp only [bind, Except.bind, pure, Except.pure] at h
      repeat' split at h
      all_goals try cases h
      rename_i m2 hm
      exact stackOpt_some hm (by
        intro a ha
        obtain ⟨b, hb, rfl⟩ := List.mem_map.1 ha
        exact hl b hb)
    · cases h

lemma scanLoop_all {C X Y : Type} (Q : Y → Prop) (f : C → X → Except Err (C × Y)) (hf : ∀ c x c' y, f c x = .ok (c', y) → Q y) :
    ∀ (xs : List X) (c c' : C) (ys : List Y), scanLoop f c xs = .ok (c', ys) → ∀ y ∈ ys, Q y := by
  intro xs
  induction xs with
  | nil => intro c c' ys h; cases h; simp
  | cons x xs ih =>
    intro c c' ys h
    simp only [scanLoop] at h
    split at h
    · cases h
    · rename_i c1 y e1
      split at h
      · cases h
      · rename_i c2 ys' e2
        cases h
        intro z hz
        rcases List.mem_cons.1 hz with rfl | hz
        · exact hf _ _ _ _ e1
        · exact ih _ _ _ e2 z hz

lemma scan_mask2 {C X : Type} (f : C → X → Except Err (C × Kernel ℝ)) (hf : ∀ c x c' y, f c x = .ok (c', y) → y.mask2.isSome)
    (xs : List X) (c c' : C) (k : Kernel ℝ) (h : scan f c xs = .ok (c', k)) : k.mask2.isSome := by
  simp only [scan] at h
  split at h
  · cases h
  · rename_i c1 ys e1
    split at h
    · cases h
    · rename_i y e2
      cases h
      exact stack_mask2 e2 (scanLoop_all _ f hf _ _ _ _ e1)

lemma flatten_raises {k : Kernel ℝ} (h : k.mask2.isSome) (p : Bool) : ∃ e, flattenKernel k false p = .error e := by
  unfold flattenKernel
  split
  · exact ⟨_, rfl⟩
  · obtain ⟨m, hm⟩ := Option.isSome_iff_exists.1 h
    simp only [hm]
    exact ⟨_, rfl⟩

lemma map_ok {A B : Type} {f : A → B} {x : Except Err A} {b : B} (h : x.map f = .ok b) : ∃ a, x = .ok a ∧ f a = b := by
  cases x with
  | error e => cases h
  | ok a => cases h; exact ⟨a, rfl, rfl⟩

/-- A batched kernel function whose kernels have a second mask raises for a second input. -/
lemma serial_raises (kernelFn : Arr ℝ → Arr ℝ → Except Err (Kernel ℝ)) (hm : ∀ a b k, kernelFn a b = .ok k → k.mask2.isSome) (bs d : ℕ) (x1 x2 : Arr ℝ) :
    ∃ e, serialX1 kernelFn bs d x1 (some x2) = .error e := by
  cases h : serialX1 kernelFn bs d x1 (some x2) with
  | error e => exact ⟨e, rfl⟩
  | ok k =>
    exfalso
    simp only [serialX1, Option.getD_some, Option.isNone_some] at h
    split at h
    · simp only [bind, Except.bind] at h
      repeat' split at h
      all_goals try cases h
      rename_i r hr
      obtain ⟨u, K⟩ := r
      have hK : K.mask2.isSome := by
        refine scan_mask2 _ ?_ _ _ _ _ hr
        intro c x c' y hy
        obtain ⟨q, hq, e⟩ := map_ok hy
        cases e
        obtain ⟨c2, y2⟩ := q
        refine scan_mask2 _ ?_ _ _ _ _ hq
        intro c x c' y hy
        obtain ⟨q, hq, e⟩ := map_ok hy
        cases e
        exact hm _ _ _ hq
      obtain ⟨e, he⟩ := flatten_raises hK false
      have h' : flattenKernel K false false = .ok k := h
      rw [he] at h'
      cases h'
    · cases h

lemma mapM_mem {A B : Type} {f : A → Except Err B} : ∀ {l : List A} {r : List B}, l.mapM f = .ok r → ∀ b ∈ r, ∃ a ∈ l, f a = .ok b := by
  intro l
  induction l with
  | nil => intro r h; cases h; simp
  | cons a l ih =>
    intro r h b hb
    rw [List.mapM_cons] at h
    simp only [bind, Except.bind, pure, Except.pure] at h
    split at h
    · cases h
    · rename_i c hc
      split at h
      · cases h
      · rename_i r' hr
        cases h
        rcases List.mem_cons.1 hb with rfl | hb
        · exact ⟨a, by simp, hc⟩
        · obtain ⟨x, hx, e⟩ := ih hr b hb
          exact ⟨x, by simp [hx], e⟩

/-- Batching over devices: the same. -/
lemma parallel_raises (kernelFn : Arr ℝ → Arr ℝ → Except Err (Kernel ℝ)) (hm : ∀ a b k, kernelFn a b = .ok k → k.mask2.isSome) (d : ℕ) (x1 x2 : Arr ℝ) :
    ∃ e, parallelX1 kernelFn d x1 (some x2) = .error e := by
  cases h : parallelX1 kernelFn d x1 (some x2) with
  | error e => exact ⟨e, rfl⟩
  | ok k =>
    exfalso
    simp only [parallelX1, Option.getD_some, Option.isNone_some] at h
    split at h
    · simp only [bind, Except.bind] at h
      repeat' split at h
      all_goals try cases h
      rename_i K hK
      have hK' : K.mask2.isSome := by
        simp only [pmap] at hK
        split at hK
        · cases hK
        · rename_i ks hks
          refine stack_mask2 hK fun a ha => ?_
          obtain ⟨x, -, hx⟩ := mapM_mem hks a ha
          exact hm _ _ _ hx
      obtain ⟨e, he⟩ := flatten_raises hK' true
      have h' : flattenKernel K false true = .ok k := h
      rw [he] at h'
      cases h'
    · cases h

lemma scan_raises {C X : Type} (f : C → X → Except Err (C × Kernel ℝ)) (hf : ∀ c x r, f c x ≠ .ok r) (xs : List X) (c : C) (r : C × Kernel ℝ) : scan f c xs ≠ .ok r := by
  intro h
  simp only [scan] at h
  split at h
  · cases h
  · rename_i c1 ys e1
    have hy : ys = [] := List.eq_nil_iff_forall_not_mem.2 (scanLoop_all (fun _ => False) f (fun c x c' y e => hf c x _ e) _ _ _ _ e1)
    subst hy
    cases h

/-- Serial batching of a function that always raises. -/
lemma serial_of_raises (kernelFn : Arr ℝ → Arr ℝ → Except Err (Kernel ℝ)) (hf : ∀ a b, ∃ e, kernelFn a b = .error e) (bs d : ℕ) (x1 : Arr ℝ) (x2 : Option (Arr ℝ)) :
    ∃ e, serialX1 kernelFn bs d x1 x2 = .error e := by
  cases h : serialX1 kernelFn bs d x1 x2 with
  | error e => exact ⟨e, rfl⟩
  | ok k =>
    exfalso
    simp only [serialX1] at h
    split at h
    · simp only [bind, Except.bind] at h
      repeat' split at h
      all_goals try cases h
      rename_i r hr
      refine scan_raises _ ?_ _ _ _ hr
      intro c x r hy
      obtain ⟨q, hq, -⟩ := map_ok hy
      refine scan_raises _ ?_ _ _ _ hq
      intro c x r hy
      obtain ⟨q, hq, -⟩ := map_ok hy
      obtain ⟨e, he⟩ := hf c x
      rw [he] at hq
      cases hq
    · cases h

/-- `kernel_fn(x1, x2, mask_constant=mc)` of a network with one output, with examples along axis 0 and a channel axis `ca`. -/
noncomputable def maskedKernelFn (net : MNet) (ds ntk : Bool) (ca : ℤ) (mc : ℝ) (same : Arr ℝ → Arr ℝ → Bool) (x1 x2 : Arr ℝ) : Except Err (Kernel ℝ) :=
  match Inputs.inputsToKernel x1 (some x2) true ds ntk 0 (some ca) (some mc) (same x1 x2) with
  | .error e => .error e
  | .ok k => match net.run (.one k) with
    | .error e => .error e
    | .ok (.one k') => .ok k'
    | .ok (.many _) => .error .valueError

lemma inputs_mask2 {x1 x2 : Arr ℝ} {db ds ntk same : Bool} {ba : ℤ} {ca : Option ℤ} {mc : ℝ} {k : Kernel ℝ}
    (h : Inputs.inputsToKernel x1 (some x2) db ds ntk ba ca (some mc) same = .ok k) : k.mask2.isSome := by
  have key : ∀ (x1 x2 : Arr ℝ) (ds : Bool) (ba ca : ℕ), Inputs.build x1 (some x2) db ds ntk ba ca (some mc) same = .ok k → k.mask2.isSome := by
    intro x1 x2 ds ba ca h
    simp only [Inputs.build] at h
    split at h
    · cases h
    · cases h
    · rename_i r2 e1 e2
      obtain ⟨q, hq, rfl⟩ := map_ok e2
      split at h
      · cases h
      · cases h
        simp only [Inputs.getXCovMask, Inputs.maskedArray] at hq
        split at hq
        · cases hq
        · split at hq
          · cases hq
          · cases hq
            rfl
  simp only [Inputs.inputsToKernel] at h
  split at h
  · cases h
  · split at h
    · exact key _ _ _ _ _ h
    · exact key _ _ _ _ _ h

lemma withMasking_mask2 (l : MLayer) (k k' : Kernel ℝ) (h : l.withMasking k = .ok k') (hk : k.mask2.isSome) : k'.mask2.isSome := by
  obtain ⟨m, hm⟩ := Option.isSome_iff_exists.1 hk
  simp only [MLayer.withMasking, bind, Except.bind, hm, onMask] at h
  split at h
  · cases h
  · split at h
    · cases h
    · rename_i m2 e2
      obtain ⟨q, -, rfl⟩ := map_ok e2
      split at h
      · cases h
      · split at h
        · simp only [Kernel.mask, bind, Except.bind, pure, Except.pure] at h
          repeat' split at h
          all_goals try cases h
          rfl
        · cases h
          rfl

lemma sumFrom_some : ∀ (ms : List (Option (Arr Bool))) (acc r : Option (Arr Bool)), Masks.sumFrom acc ms = .ok r → (acc.isSome ∨ ∃ m ∈ ms, m.isSome) → r.isSome := by
  intro ms
  induction ms with
  | nil => intro acc r h h2; cases h; simpa using h2
  | cons m ms ih =>
    intro acc r h h2
    simp only [Masks.sumFrom] at h
    split at h
    · cases h
    · rename_i q hq
      refine ih q r h ?_
      by_cases hm : acc.isSome ∨ m.isSome
      · left
        cases acc <;> cases m <;> simp [Masks.addTwo] at hq hm ⊢
        · subst hq; rfl
        · subst hq; rfl
        · obtain ⟨a, -, rfl⟩ := map_ok hq
          rfl
      · right
        push Not at hm
        rcases h2 with h2 | ⟨m', hm', h3⟩
        · exact absurd h2 hm.1
        · rcases List.mem_cons.1 hm' with rfl | hm'
          · exact absurd h3 hm.2
          · exact ⟨m', hm', h3⟩

lemma fanMask_some (f : Fan) (ms : List (Option (Arr Bool))) (ss : List (List ℕ)) (r : Option (Arr Bool)) (h : fanMask f ms ss = .ok r) (hm : ∃ m ∈ ms, m.isSome) :
    r.isSome := by
  cases f with
  | sum => exact sumFrom_some ms none r h (.inr hm)
  | prod => exact sumFrom_some ms none r h (.inr hm)
  | concat axis =>
    cases ss with
    | nil => cases h
    | cons s ss =>
      simp only [fanMask, Masks.concat] at h
      have hn : ¬ ∀ m ∈ ms, m = none := by
        obtain ⟨m, h1, h2⟩ := hm
        intro h3
        rw [h3 m h1] at h2
        cases h2
      rw [if_neg hn] at h
      repeat' split at h
      all_goals try cases h
      obtain ⟨q, -, rfl⟩ := map_ok h
      rfl

lemma fan_mask2 (f : Fan) (ks : List (Kernel ℝ)) (k' : Kernel ℝ) (h : fanWithMasking f ks = .ok k') (hk : ∀ k ∈ ks, k.mask2.isSome) : k'.mask2.isSome := by
  simp only [fanWithMasking, bind, Except.bind] at h
  split at h
  · cases h
  · split at h
    · cases h
    · rename_i m2 hm2
      split at h
      · cases h
      · rename_i k0 h0
        cases h
        refine fanMask_some f _ _ m2 hm2 ?_
        match ks with
        | [] => cases f <;> simp [Fan.kernelFn, Kernel.fanInSum, Kernel.fanInProd, Kernel.fanInConcat] at h0
        | k :: ks => exact ⟨k.mask2, by simp, hk k (by simp)⟩

/-- All kernels have a second mask. -/
inductive AllMasked : Vals (Kernel ℝ) → Prop
  | one (k : Kernel ℝ) (h : k.mask2.isSome) : AllMasked (.one k)
  | many (l : List (Vals (Kernel ℝ))) (h : ∀ v ∈ l, AllMasked v) : AllMasked (.many l)

lemma ones_masked : ∀ {l : List (Vals (Kernel ℝ))} {ks : List (Kernel ℝ)}, Vals.ones l = some ks → (∀ v ∈ l, AllMasked v) → ∀ k ∈ ks, k.mask2.isSome := by
  intro l
  induction l with
  | nil => intro ks h _; simp [Vals.ones] at h; subst h; simp
  | cons v l ih =>
    intro ks h hl
    cases v with
    | many _ => simp [Vals.ones] at h
    | one a =>
      simp only [Vals.ones, Option.map_eq_some_iff] at h
      obtain ⟨as, h1, rfl⟩ := h
      intro k hk
      rcases List.mem_cons.1 hk with rfl | hk
      · cases hl (.one k) (by simp) with
        | one _ h => exact h
      · exact ih h1 (fun v hv => hl v (by simp [hv])) k hk

lemma run_mask2 (net : MNet) : ∀ (v v' : Vals (Kernel ℝ)), net.run v = .ok v' → AllMasked v → AllMasked v' := by
  induction net with
  | layer l out =>
    intro v v' h hv
    cases hv with
    | many => cases h
    | one k hk =>
      simp only [MNet.run] at h
      split at h
      · cases h
      · rename_i k1 h1
        cases h
        exact .one _ (withMasking_mask2 l k k1 h1 hk)
  | fanOut n =>
    intro v v' h hv
    cases h
    refine .many _ fun w hw => ?_
    rw [List.eq_of_mem_replicate hw]
    exact hv
  | fanIn f out =>
    intro v v' h hv
    cases hv with
    | one => cases h
    | many l hl =>
      simp only [MNet.run] at h
      split at h
      · cases h
      · rename_i ks hks
        split at h
        · cases h
        · rename_i k1 h1
          cases h
          exact .one _ (fan_mask2 f ks k1 h1 (ones_masked hks hl))
  | seq a b iha ihb =>
    intro v v' h hv
    simp only [MNet.run] at h
    split at h
    · cases h
    · rename_i v1 h1
      exact ihb _ _ h (iha _ _ h1 hv)
  | par n branches ih =>
    intro v v' h hv
    cases hv with
    | one => cases h
    | many l hl =>
      simp only [MNet.run] at h
      split at h
      · split at h
        · cases h
        · rename_i r hr
          cases h
          obtain ⟨g, rfl, hg⟩ := NoneSelf.collect_inv hr
          refine .many _ fun w hw => ?_
          obtain ⟨i, rfl⟩ := (List.mem_ofFn' _ _).1 hw
          exact ih i _ _ (hg i) (hl _ (List.getElem_mem _))
      · cases h

/-- With `mask_constant`, a batched kernel function of any network that is asked for a `Kernel` (`get=None`) never returns for a second input, whatever the inputs, the network, the batch size and the number of
devices: the second mask is negated with unary minus, which booleans do not have (batching.py:232).  With both a batch size and several devices it does not even
return without a second input. -/
theorem masked_batching_raises (net : MNet) (ds ntk : Bool) (ca : ℤ) (mc : ℝ) (same : Arr ℝ → Arr ℝ → Bool) (bs d : ℕ) (x1 x2 : Arr ℝ)
    (x2? : Option (Arr ℝ)) :
    (∃ e, serialX1 (maskedKernelFn net ds ntk ca mc same) bs d x1 (some x2) = .error e) ∧
      (∃ e, parallelX1 (maskedKernelFn net ds ntk ca mc same) d x1 (some x2) = .error e) ∧
      ∃ e, serialParallelX1 (maskedKernelFn net ds ntk ca mc same) bs d x1 x2? = .error e := by
  have hm : ∀ a b k, maskedKernelFn net ds ntk ca mc same a b = .ok k → k.mask2.isSome := by
    intro a b k h
    simp only [maskedKernelFn] at h
    split at h
    · cases h
    · rename_i k0 h0
      split at h
      · cases h
      · rename_i k1 h1
        cases h
        cases run_mask2 net _ _ h1 (.one k0 (inputs_mask2 h0)) with
        | one _ h => exact h
      · cases h
  exact ⟨serial_raises _ hm bs d x1 x2, parallel_raises _ hm d x1 x2, serial_of_raises _ (fun a b => parallel_raises _ hm d a b) _ _ _ _⟩

/-- Two padded sentences: `kernel_fn` of the residual network returns, in batches of one it raises. -/
example (same : Arr ℝ → Arr ℝ → Bool) : (∃ k, maskedKernelFn C99.residual false true (-1) 100 same C99.exX C99.exX = .ok k) ∧
    ∃ e, serialX1 (maskedKernelFn C99.residual false true (-1) 100 same) 1 1 C99.exX (some C99.exX) = .error e := by
  refine ⟨?_, (masked_batching_raises _ _ _ _ _ _ 1 1 _ _ none).1⟩
  obtain ⟨t, ht, -⟩ := C99.residual_tree 100 C99.exX C99.exX true true (same C99.exX C99.exX) 2 2 2 3 3 C99.exLen C99.exLen C99.exX_padded C99.exX_padded
    (by intro i _; unfold C99.exLen; split <;> simp) (by intro i _; unfold C99.exLen; split <;> simp)
  obtain ⟨k, K, e1, e2, -⟩ := C99.branched_padding_invisible_partial 100 C99.exX C99.exX true true (same C99.exX C99.exX) 0 (-1) 2 2 2 [3] [3] C99.exLen
    C99.exLen 0 2 (by simp) (by simp) (by decide) rfl (by decide) C99.exX_padded C99.exX_padded ht
  exact ⟨K, by simp only [maskedKernelFn, e1, e2]⟩

end NT.C83
