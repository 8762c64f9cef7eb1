import Verif.Model.Network
import Verif.Spec.Gaussian
import Verif.Tac

/-!
# The Gaussian mark of kernels through layers and networks
-/

set_option linter.unusedSectionVars false

namespace NT.Network
open NT NT.Spec

variable {α : Type}

lemma bind_ok {A B : Type} {x : Except Err A} {f : A → Except Err B} {b : B} (h : (x >>= f) = .ok b) :
    ∃ a, x = .ok a ∧ f a = .ok b := by
  cases x with
  | error e => simp [bind, Except.bind] at h
  | ok a => exact ⟨a, rfl, h⟩

lemma map_ok {A B : Type} {x : Except Err A} {f : A → B} {b : B} (h : x.map f = .ok b) : ∃ a, x = .ok a ∧ f a = b := by
  cases x with
  | error e => simp [Except.map] at h
  | ok a => exact ⟨a, rfl, by simpa [Except.map] using h⟩

lemma pure_ok {A : Type} {a b : A} (h : (pure a : Except Err A) = .ok b) : a = b := by
  simpa [pure, Except.pure] using h

lemma reverse_gaussian {k k' : Kernel α} (h : k.reverse = .ok k') : k'.isGaussian = k.isGaussian := by
  obtain ⟨_, -, h⟩ := bind_ok h
  obtain ⟨_, -, h⟩ := bind_ok h
  obtain ⟨_, -, h⟩ := bind_ok h
  obtain ⟨_, -, h⟩ := bind_ok h
  rw [← pure_ok h]

lemma mapE_gaussian {f : Kernel α → Except Err (Kernel α)} (hf : ∀ k k', f k = .ok k' → k'.isGaussian = k.isGaussian) :
    ∀ {l l' : List (Kernel α)}, Kernel.mapE f l = .ok l' → l'.map (·.isGaussian) = l.map (·.isGaussian)
  | [], l', h => by
    obtain rfl : [] = l' := by simpa [Kernel.mapE] using h
    rfl
  | a :: as, l', h => by
    rw [Kernel.mapE] at h
    cases e1 : f a with
    | error e => simp [e1] at h
    | ok b =>
      cases e2 : Kernel.mapE f as with
      | error e => simp [e1, e2] at h
      | ok bs =>
        obtain rfl : b :: bs = l' := by simpa [e1, e2] using h
        simp [hf a b e1, mapE_gaussian hf e2]

lemma preprocess_gaussian {k0 : Kernel α} {ks r : List (Kernel α)} {rev : Bool} (h : Kernel.preprocessFanIn k0 ks = .ok (r, rev)) :
    r.map (·.isGaussian) = (k0 :: ks).map (·.isGaussian) := by
  rw [Kernel.preprocessFanIn] at h
  split at h
  · simp only at h
    split at h
    · simp at h
    · rename_i r' e
      obtain ⟨h1, -⟩ := Prod.mk.inj (Except.ok.inj h)
      rw [← h1]
      refine mapE_gaussian (fun k k' hk => ?_) e
      rw [Kernel.orient] at hk
      split at hk
      · rw [Except.ok.inj hk]
      · exact reverse_gaussian hk
  · simp at h

lemma all_gaussian {r ks : List (Kernel α)} (h : r.map (·.isGaussian) = ks.map (·.isGaussian)) :
    r.all (·.isGaussian) = ks.all (·.isGaussian) := by
  have := congrArg (fun l => l.all id) h
  simpa [List.all_map] using this

/-- A fan-in layer marks its output Gaussian only if all its inputs are (and it does not multiply several). -/
lemma fan_mark {f : Fan} {ks : List (Kernel ℝ)} {k' : Kernel ℝ} (h : f.kernelFn ks = .ok k') :
    ks ≠ [] ∧ (k'.isGaussian = true → (f = .prod → ks.length = 1) ∧ ∀ k ∈ ks, k.isGaussian = true) := by
  cases ks with
  | nil => cases f <;> simp [Fan.kernelFn, Kernel.fanInSum, Kernel.fanInProd, Kernel.fanInConcat] at h
  | cons k0 rest =>
    refine ⟨by simp, fun hg => ?_⟩
    cases f with
    | sum =>
      refine ⟨by simp, ?_⟩
      simp only [Fan.kernelFn, Kernel.fanInSum] at h
      split at h
      · simp at h
      · rename_i r rev e
        split at h
        · simp at h
        · split at h
          · simp at h
          · split at h <;> first | (simp at h; done) | skip
            rw [← Except.ok.inj h] at hg
            simp only [Kernel.fanInResult] at hg
            rw [all_gaussian (preprocess_gaussian e)] at hg
            simpa using hg
    | prod =>
      simp only [Fan.kernelFn, Kernel.fanInProd] at h
      split at h
      · simp at h
      · rename_i r rev e
        split at h
        · simp at h
        · split at h <;> first | (simp at h; done) | skip
          rw [← Except.ok.inj h] at hg
          simp only [Kernel.fanInResult, Bool.and_eq_true, beq_iff_eq] at hg
          have hl := congrArg List.length (preprocess_gaussian e)
          simp only [List.length_map, hg.1] at hl
          refine ⟨fun _ => hl.symm, ?_⟩
          have : rest = [] := by simpa using hl
          subst this
          simpa using hg.2
    | concat axis =>
      refine ⟨by simp, ?_⟩
      simp only [Fan.kernelFn, Kernel.fanInConcat] at h
      split at h
      · simp at h
      · rename_i r rev e
        split at h
        · simp at h
        · split at h
          · simp at h
          · split at h
            · simp at h
            · rename_i hn
              split at h <;> first | (simp at h; done) | skip
              rw [← Except.ok.inj h] at hg
              simp only [Kernel.fanInResult, decide_eq_true_eq] at hg
              have : r.all (·.isGaussian) = true := by
                by_contra hc
                exact hn ⟨hg, by simpa using hc⟩
              rw [all_gaussian (preprocess_gaussian e)] at this
              simpa using this

lemma dot_gaussian {k k' : Kernel ℝ} {o : Arr ℝ} {b : Bool} {l1 l2 l3 l4 : List ℤ}
    (h : KernelDot.dotGeneral k (some o) (some o) b l1 l2 l3 l4 = .ok k') : k'.isGaussian = k.isGaussian := by
  simp only [KernelDot.dotGeneral, ne_eq, not_true_eq_false, if_false] at h
  split at h
  · simp at h
  · obtain ⟨_, -, h⟩ := bind_ok h
    obtain ⟨_, -, h⟩ := bind_ok h
    obtain ⟨_, -, h⟩ := bind_ok h
    obtain ⟨_, -, h⟩ := bind_ok h
    rw [← pure_ok h]

lemma getItem_gaussian {k k' : Kernel ℝ} {i : Utils.Idx} (h : k.getItem i = .ok k') : k'.isGaussian = k.isGaussian := by
  rw [Kernel.getItem] at h
  simp only at h
  split at h
  · split at h
    · simp at h
    · split at h
      · simp at h
      · obtain ⟨_, -, h⟩ := bind_ok h
        obtain ⟨_, -, h⟩ := bind_ok h
        obtain ⟨_, -, h⟩ := bind_ok h
        obtain ⟨_, -, h⟩ := bind_ok h
        obtain ⟨_, -, h⟩ := bind_ok h
        obtain ⟨_, -, h⟩ := bind_ok h
        obtain ⟨_, -, h⟩ := bind_ok h
        obtain ⟨_, -, h⟩ := bind_ok h
        rw [← pure_ok h]
  · simp at h

lemma layerNorm_gaussian {k k' : Kernel ℝ} {axis : List ℤ} {eps : ℝ} {ba ca : ℤ}
    (h : layerNormKernelFn axis eps ba ca k = .ok k') : k.isGaussian = true ∧ k'.isGaussian = k.isGaussian := by
  rw [layerNormKernelFn] at h
  split at h
  · simp at h
  · rename_i hg
    refine ⟨by simpa using hg, ?_⟩
    obtain ⟨_, -, h⟩ := bind_ok h
    split at h
    · simp at h
    · obtain ⟨_, -, h⟩ := bind_ok h
      obtain ⟨_, -, h⟩ := bind_ok h
      split at h
      · obtain ⟨⟨_, _, _⟩, -, h⟩ := bind_ok h
        obtain ⟨_, -, h⟩ := bind_ok h
        obtain ⟨_, -, h⟩ := bind_ok h
        obtain ⟨_, -, h⟩ := bind_ok h
        obtain ⟨_, -, h⟩ := bind_ok h
        rw [← pure_ok h]
      · simp at h

lemma dense_gaussian {d : Dense} {k k' : Kernel ℝ} (h : d.kernelFn k = .ok k') : k'.isGaussian = true := by
  simp only [Dense.kernelFn] at h
  split at h
  · obtain ⟨_, -, h⟩ := map_ok h
    rw [← h]
  · split at h
    · simp at h
    · obtain ⟨_, -, h⟩ := map_ok h
      rw [← h]
  · simp at h

lemma conv_gaussian {d : Conv} {k k' : Kernel ℝ} (h : d.kernelFn k = .ok k') : k'.isGaussian = true := by
  simp only [Conv.kernelFn] at h
  split at h
  · obtain ⟨_, -, h⟩ := bind_ok h
    obtain ⟨_, -, h⟩ := bind_ok h
    obtain ⟨_, -, h⟩ := bind_ok h
    obtain ⟨_, -, h⟩ := bind_ok h
    rw [← pure_ok h]
    rfl
  · obtain ⟨_, -, h⟩ := bind_ok h
    obtain ⟨_, -, h⟩ := bind_ok h
    obtain ⟨_, -, h⟩ := bind_ok h
    obtain ⟨_, -, h⟩ := bind_ok h
    rw [← pure_ok h]
    rfl
  · simp at h

lemma convTranspose_gaussian {d : ConvTranspose} {k k' : Kernel ℝ} (h : d.kernelFn k = .ok k') : k'.isGaussian = true := by
  simp only [ConvTranspose.kernelFn] at h
  split at h
  · obtain ⟨_, -, h⟩ := bind_ok h
    rw [← pure_ok h]
    rfl
  · obtain ⟨_, -, h⟩ := bind_ok h
    rw [← pure_ok h]
    rfl
  · simp at h

lemma act_gaussian {f : Kernel ℝ → Except Err (Kernel ℝ)} {k k' : Kernel ℝ} (h : elementwise f k = .ok k') :
    k.isGaussian = true ∧ k'.isGaussian = false := by
  rw [elementwise] at h
  split at h
  · simp at h
  · rename_i hg
    refine ⟨by simpa using hg, ?_⟩
    split at h
    · simp at h
    · rw [← Except.ok.inj h]

lemma flatten_gaussian {d : Flatten} {k k' : Kernel ℝ} (h : d.kernelFn k = .ok k') : k'.isGaussian = false := by
  rw [Flatten.kernelFn] at h
  split at h
  · simp at h
  · rw [← Except.ok.inj h]

lemma dropout_gaussian {d : Dropout} {k k' : Kernel ℝ} (h : d.kernelFn k = .ok k') :
    (d.mode = .test ∧ k' = k) ∨ (d.mode ≠ .test ∧ k'.isGaussian = false) := by
  rw [Dropout.kernelFn] at h
  split at h
  · simp at h
  · split at h
    · rename_i hm
      exact .inl ⟨hm, (Except.ok.inj h).symm⟩
    · rename_i hm
      refine .inr ⟨hm, ?_⟩
      rw [Dropout.kernelFnTrain] at h
      split at h
      · simp at h
      · simp only at h
        split at h
        · simp at h
        · split at h
          · simp at h
          · split at h
            · simp at h
            · split at h
              · simp at h
              · rw [← Except.ok.inj h]

lemma resize_gaussian {d : ImageResize} {k k' : Kernel ℝ} (h : d.kernelFn k = .ok k') : k'.isGaussian = k.isGaussian := by
  rw [ImageResize.kernelFn] at h
  split at h
  · simp at h
  · split at h
    · simp at h
    · split at h
      · simp at h
      · obtain ⟨_, -, h⟩ := bind_ok h
        obtain ⟨_, -, h⟩ := bind_ok h
        obtain ⟨_, -, h⟩ := bind_ok h
        obtain ⟨_, -, h⟩ := bind_ok h
        obtain ⟨_, -, h⟩ := bind_ok h
        obtain ⟨_, -, h⟩ := bind_ok h
        rw [← Except.ok.inj h]

lemma attention_gaussian {d : Attention} {k k' : Kernel ℝ} (h : d.kernelFn k = .ok k') : k'.isGaussian = true := by
  rw [Attention.kernelFn] at h
  split at h
  · rw [Attention.kernelLinear] at h
    obtain ⟨⟨_, _, _⟩, -, h⟩ := bind_ok h
    obtain ⟨_, -, h⟩ := bind_ok h
    obtain ⟨_, -, h⟩ := bind_ok h
    obtain ⟨_, -, h⟩ := bind_ok h
    dsimp only at h
    split at h
    all_goals
      obtain ⟨_, -, h⟩ := bind_ok h
      obtain ⟨_, -, h⟩ := bind_ok h
      obtain ⟨_, -, h⟩ := bind_ok h
      rw [← Except.ok.inj h]
  · split at h
    · rw [Attention.kernelSqrt] at h
      obtain ⟨⟨_, _, _⟩, -, h⟩ := bind_ok h
      obtain ⟨_, -, h⟩ := bind_ok h
      obtain ⟨_, -, h⟩ := bind_ok h
      obtain ⟨_, -, h⟩ := bind_ok h
      obtain ⟨_, -, h⟩ := bind_ok h
      rw [← Except.ok.inj h]
    · simp at h

/-- What a layer does to the mark. -/
lemma layer_mark {l : Layer} {k k' : Kernel ℝ} (h : l.kernelFn k = .ok k') :
    (NeedsGaussian l → k.isGaussian = true) ∧ (Parametrised l → k'.isGaussian = true) ∧
    (Keeps l → k'.isGaussian = k.isGaussian) ∧ (¬ Parametrised l → ¬ Keeps l → k'.isGaussian = false) := by
  cases l with
  | dense d => simpa [NeedsGaussian, Parametrised, Keeps] using dense_gaussian h
  | conv d => simpa [NeedsGaussian, Parametrised, Keeps] using conv_gaussian h
  | convTranspose d => simpa [NeedsGaussian, Parametrised, Keeps] using convTranspose_gaussian h
  | pool d =>
    rw [← Except.ok.inj h]
    simp [NeedsGaussian, Parametrised, Keeps, Pool.kernelFn]
  | globalPool d =>
    rw [← Except.ok.inj h]
    simp [NeedsGaussian, Parametrised, Keeps, GlobalPool.kernelFn]
  | flatten d => simpa [NeedsGaussian, Parametrised, Keeps] using flatten_gaussian h
  | dropout d =>
    rcases dropout_gaussian h with ⟨h1, rfl⟩ | ⟨h1, h2⟩
    · simp [NeedsGaussian, Parametrised, Keeps, h1]
    · simpa [NeedsGaussian, Parametrised, Keeps, h1] using h2
  | layerNorm axis eps ba ca => simpa [NeedsGaussian, Parametrised, Keeps] using layerNorm_gaussian h
  | act f => simpa [NeedsGaussian, Parametrised, Keeps] using act_gaussian h
  | dotGeneral o b l1 l2 l3 l4 => simpa [NeedsGaussian, Parametrised, Keeps] using dot_gaussian h
  | index i => simpa [NeedsGaussian, Parametrised, Keeps] using getItem_gaussian h
  | resize d => simpa [NeedsGaussian, Parametrised, Keeps] using resize_gaussian h
  | attention d => simpa [NeedsGaussian, Parametrised, Keeps] using attention_gaussian h
  | identity =>
    rw [← Except.ok.inj h]
    simp [NeedsGaussian, Parametrised, Keeps]

/-! ### Values related entry by entry -/

/-- Values of the same structure with related entries. -/
inductive Rel {A B : Type} (R : A → B → Prop) : Vals A → Vals B → Prop
  | one (a : A) (b : B) : R a b → Rel R (.one a) (.one b)
  | many (l : List (Vals A)) (m : List (Vals B)) (hl : l.length = m.length)
      (h : ∀ (i : ℕ) (h1 : i < l.length) (h2 : i < m.length), Rel R (l[i]'h1) (m[i]'h2)) : Rel R (.many l) (.many m)

variable {A B : Type} {R : A → B → Prop}

lemma rel_ones : ∀ {l : List (Vals A)} {m : List (Vals B)} (_ : l.length = m.length)
    (_ : ∀ (i : ℕ) (h1 : i < l.length) (h2 : i < m.length), Rel R (l[i]'h1) (m[i]'h2)) {as : List A},
    Vals.ones l = some as → ∃ bs, Vals.ones m = some bs ∧ List.Forall₂ R as bs
  | [], [], _, _, as, h => by
    obtain rfl : [] = as := by simpa [Vals.ones] using h
    exact ⟨[], rfl, .nil⟩
  | a :: l, b :: m, hl, hr, as, h => by
    have h0 := hr 0 (by simp) (by simp)
    simp only [List.getElem_cons_zero] at h0
    cases h0 with
    | one x y hxy =>
      simp only [Vals.ones, Option.map_eq_some_iff] at h
      obtain ⟨as', h1, rfl⟩ := h
      obtain ⟨bs, h2, h3⟩ := rel_ones (l := l) (m := m) (by simpa using hl)
        (fun i p q => hr (i + 1) (by simpa using p) (by simpa using q)) h1
      exact ⟨y :: bs, by simp [Vals.ones, h2], .cons hxy h3⟩
    | many l1 m1 _ _ => simp [Vals.ones] at h

lemma rel_replicate {a : Vals A} {b : Vals B} (h : Rel R a b) (n : ℕ) :
    Rel R (.many (List.replicate n a)) (.many (List.replicate n b)) :=
  .many _ _ (by simp) fun i _ _ => by simpa only [List.getElem_replicate] using h

/-- The loop over branches succeeds in the specification when it does for kernels. -/
lemma collect_rel {A B : Type} {Q : A → B → Prop} : ∀ {n : ℕ} {f : Fin n → Except Err A} {g : Fin n → Option B}
    (_ : ∀ i a, f i = .ok a → ∃ b, g i = some b ∧ Q a b) {r : List A}, collect n f = .ok r →
    ∃ s, collectO n g = some s ∧ List.Forall₂ Q r s
  | 0, f, g, h, r, hr => by
    obtain rfl : [] = r := by simpa [collect] using hr
    exact ⟨[], rfl, .nil⟩
  | n + 1, f, g, h, r, hr => by
    rw [collect] at hr
    cases e1 : f 0 with
    | error e => simp [e1] at hr
    | ok a =>
      cases e2 : collect n (fun i => f i.succ) with
      | error e => simp [e1, e2] at hr
      | ok as =>
        obtain rfl : a :: as = r := by simpa [e1, e2] using hr
        obtain ⟨b, h1, h2⟩ := h 0 a e1
        obtain ⟨s, h3, h4⟩ := collect_rel (fun i a => h i.succ a) e2
        exact ⟨b :: s, by simp [collectO, h1, h3], .cons h2 h4⟩

/-- The kernel is only marked Gaussian if the value is. -/
def Marked (k : Kernel ℝ) (h : Hist) : Prop := k.isGaussian = true → FromLinear h

lemma forall2_rel {l : List (Vals A)} {m : List (Vals B)} (h : List.Forall₂ (Rel R) l m) : Rel R (.many l) (.many m) :=
  .many l m h.length_eq fun i h1 h2 => by
    have := List.forall₂_iff_get.1 h
    exact this.2 i h1 h2

/-- All nonlinearities of a network that accepts its input are applied to Gaussian values. -/
lemma run_hist (n : Net) : ∀ {v : Vals (Kernel ℝ)} {e : Vals Hist} (_ : Rel Marked v e) {v' : Vals (Kernel ℝ)}, n.run v = .ok v' →
    ∃ e' log, hist n e = some (e', log) ∧ Rel Marked v' e' ∧ ∀ x ∈ log, NeedsGaussian x.1 → FromLinear x.2 := by
  induction n with
  | layer l out =>
    intro v e hv v' hr
    cases hv with
    | many => simp [Net.run] at hr
    | one k h hk =>
      simp only [Net.run] at hr
      split at hr
      · simp at hr
      · rename_i k' e'
        obtain rfl := Except.ok.inj hr
        obtain ⟨m1, m2, m3, m4⟩ := layer_mark e'
        refine ⟨_, _, rfl, .one _ _ fun hg => ?_, ?_⟩
        · by_cases hp : Parametrised l
          · exact .param _ _ hp
          · by_cases hq : Keeps l
            · exact .keep _ _ hq (hk (by rw [← m3 hq]; exact hg))
            · have := m4 hp hq
              simp [setShapes, this] at hg
        · intro x hx hn
          obtain rfl : x = (l, h) := by simpa using hx
          exact hk (m1 hn)
  | fanOut n =>
    intro v e hv v' hr
    obtain rfl := Except.ok.inj hr
    exact ⟨_, _, rfl, rel_replicate hv n, by simp⟩
  | fanIn f out =>
    intro v e hv v' hr
    cases hv with
    | one => simp [Net.run] at hr
    | many l m hl hlm =>
      simp only [Net.run] at hr
      split at hr
      · simp at hr
      · rename_i ks eks
        obtain ⟨hs, h1, h2⟩ := rel_ones hl hlm eks
        split at hr
        · simp at hr
        · rename_i k' ek
          obtain rfl := Except.ok.inj hr
          obtain ⟨m1, m2⟩ := fan_mark ek
          refine ⟨.one (.fan f hs), [], by simp [hist, h1], .one _ _ fun hg => ?_, by simp⟩
          obtain ⟨m3, m4⟩ := m2 hg
          refine .fan f hs ?_ ?_ ?_
          · rintro rfl
            exact m1 (List.forall₂_nil_right_iff.1 h2)
          · intro hf
            rw [← h2.length_eq]
            exact m3 hf
          · intro h hh
            obtain ⟨i, hi, rfl⟩ := List.mem_iff_getElem.1 hh
            have hi' : i < ks.length := by rw [h2.length_eq]; exact hi
            exact (List.forall₂_iff_get.1 h2).2 i hi' hi (m4 _ (List.getElem_mem hi'))
  | seq a b iha ihb =>
    intro v e hv v' hr
    simp only [Net.run] at hr
    split at hr
    · simp at hr
    · rename_i v1 e1
      obtain ⟨x, lx, h1, h2, h3⟩ := iha hv e1
      obtain ⟨y, ly, h4, h5, h6⟩ := ihb h2 hr
      refine ⟨y, lx ++ ly, by simp [hist, h1, h4], h5, fun z hz => ?_⟩
      rcases List.mem_append.1 hz with hz | hz
      · exact h3 z hz
      · exact h6 z hz
  | par n bs ih =>
    intro v e hv v' hr
    cases hv with
    | one => simp [Net.run] at hr
    | many l m hl hlm =>
      simp only [Net.run] at hr
      split at hr
      · rename_i hn
        split at hr
        · simp at hr
        · rename_i r er
          obtain rfl := Except.ok.inj hr
          have hm : m.length = n := by rw [← hl, hn]
          obtain ⟨s, h1, h2⟩ := collect_rel (g := fun i => hist (bs i) (m[i]'(by rw [hm]; exact i.2)))
            (Q := fun v (p : Vals Hist × List (Layer × Hist)) => Rel Marked v p.1 ∧ ∀ x ∈ p.2, NeedsGaussian x.1 → FromLinear x.2)
            (fun i a hi => by
              obtain ⟨e', log, p1, p2, p3⟩ := ih i (hlm i (by rw [hn]; exact i.2) (by rw [hm]; exact i.2)) hi
              exact ⟨_, p1, p2, p3⟩) er
          refine ⟨.many (s.map (·.1)), (s.map (·.2)).flatten, by rw [hist, dif_pos hm, h1]; rfl, forall2_rel ?_, ?_⟩
          · rw [List.forall₂_map_right_iff]
            exact h2.imp fun _ _ h => h.1
          · intro x hx
            simp only [List.mem_flatten, List.mem_map] at hx
            obtain ⟨_, ⟨p, hp, rfl⟩, hx⟩ := hx
            obtain ⟨i, hi, rfl⟩ := List.mem_iff_getElem.1 hp
            exact ((List.forall₂_iff_get.1 h2).2 i (by rw [h2.length_eq]; exact hi) hi).2 x hx
      · simp at hr

end NT.Network
