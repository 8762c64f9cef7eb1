import Verif.Spec.AttentionRandom
import Verif.Lemmas.RandomLinear2
import Verif.Tac

/-! Attention with square root scaling for random parameters of finite width. -/

namespace NT.Attn
open NT Spec MeasureTheory C52

variable {E : Type} [NormedAddCommGroup E] [InnerProductSpace ℝ E] [CompleteSpace E] [MeasurableSpace E] {ι : Type} [Fintype ι]

/-- Random functions with finite second moments, differentiable, with integrable products of gradients. -/
structure Nice (μ : Measure E) (s : Set (E → ℝ)) : Prop where
  memLp : ∀ f ∈ s, MemLp f 2 μ
  diff : ∀ f ∈ s, ∀ᵐ θ ∂μ, DifferentiableAt ℝ f θ
  grad : ∀ f ∈ s, ∀ g ∈ s, Integrable (fun θ => inner ℝ (gradient f θ) (gradient g θ)) μ

def consts (E : Type) : Set (E → ℝ) := {f | ∃ a : ℝ, f = fun _ => a}
def lin (ι : Type) [Fintype ι] (s : Set (E → ℝ)) : Set (Ext E ι → ℝ) := {f | ∃ g : ι → E → ℝ, (∀ k, g k ∈ s) ∧ f = linOut g}

lemma nice_consts (μ : Measure E) [IsProbabilityMeasure μ] : Nice μ (consts E) where
  memLp := by rintro _ ⟨a, rfl⟩; exact memLp_const a
  diff := by rintro _ ⟨a, rfl⟩; exact Filter.Eventually.of_forall fun _ => differentiableAt_const _
  grad := by rintro _ ⟨a, rfl⟩ _ ⟨b, rfl⟩; simp

lemma Nice.add_consts {μ : Measure E} [IsProbabilityMeasure μ] {s : Set (E → ℝ)} (h : Nice μ s) : Nice μ (s ∪ consts E) where
  memLp := by rintro f (hf | hf); exacts [h.memLp f hf, (nice_consts μ).memLp f hf]
  diff := by rintro f (hf | hf); exacts [h.diff f hf, (nice_consts μ).diff f hf]
  grad := by
    rintro f (hf | ⟨a, rfl⟩) g (hg | ⟨b, rfl⟩)
    · exact h.grad f hf g hg
    all_goals simp

lemma Nice.lin {μ : Measure E} [IsProbabilityMeasure μ] {s : Set (E → ℝ)} (h : Nice μ s) {ν : Measure (EuclideanSpace ℝ ι)} {v : ι → ℝ} (hν : Uncorrelated ν v) :
    Nice (extMeasure μ ν) (lin ι s) where
  memLp := by rintro _ ⟨g, hg, rfl⟩; exact linOut_memLp μ ν hν g fun k => h.memLp _ (hg k)
  diff := by
    rintro _ ⟨g, hg, rfl⟩
    have := hν.prob
    exact linOut_diff μ ν g fun k => h.diff _ (hg k)
  grad := by
    rintro _ ⟨g, hg, rfl⟩ _ ⟨g', hg', rfl⟩
    exact linOut_grad μ ν hν g g' (fun k => (h.memLp _ (hg k)).integrable_mul (h.memLp _ (hg' k))) (fun k => h.diff _ (hg k)) (fun k => h.diff _ (hg' k))
      fun k l => h.grad _ (hg k) _ (hg' l)

lemma Nice.second {μ : Measure E} [IsProbabilityMeasure μ] {s : Set (E → ℝ)} (h : Nice μ s) {ν : Measure (EuclideanSpace ℝ ι)} (hν : Uncorrelated ν fun _ => 1)
    {g g' : ι → E → ℝ} (hg : ∀ k, g k ∈ s) (hg' : ∀ k, g' k ∈ s) :
    secondMoment (extMeasure μ ν) (linOut g) (linOut g') = ∑ k, secondMoment μ (g k) (g' k) := by
  rw [secondMoment_linOut μ ν (fun _ => 1) hν g g' fun k l => (h.memLp _ (hg k)).integrable_mul (h.memLp _ (hg' l))]
  simp

lemma Nice.tangent {μ : Measure E} [IsProbabilityMeasure μ] {s : Set (E → ℝ)} (h : Nice μ s) {ν : Measure (EuclideanSpace ℝ ι)} (hν : Uncorrelated ν fun _ => 1)
    {g g' : ι → E → ℝ} (hg : ∀ k, g k ∈ s) (hg' : ∀ k, g' k ∈ s) :
    Spec.tangent (extMeasure μ ν) (linOut g) (linOut g') = ∑ k, secondMoment μ (g k) (g' k) + ∑ k, Spec.tangent μ (g k) (g' k) := by
  rw [tangent_linOut μ ν (fun _ => 1) hν g g' (fun k => (h.memLp _ (hg k)).integrable_mul (h.memLp _ (hg' k))) (fun k => h.diff _ (hg k)) (fun k => h.diff _ (hg' k))
      fun k l => h.grad _ (hg k) _ (hg' l)]
  simp

omit [NormedAddCommGroup E] [CompleteSpace E] [InnerProductSpace ℝ E] in
lemma second_const (μ : Measure E) [IsProbabilityMeasure μ] (a b : ℝ) : secondMoment μ (fun _ => a) (fun _ => b) = a * b := by simp [secondMoment]

lemma tangent_const (μ : Measure E) (a b : ℝ) : Spec.tangent μ (fun _ => a) (fun _ => b) = 0 := by simp [Spec.tangent]

/-! ### Four matrices -/

section Tensor
variable {Q K V W B : Type} [Fintype Q] [Fintype K] [Fintype V] [Fintype W] [Fintype B]

/-- A function of degree one in each of four independent sets of parameters, plus a function of degree one in a fifth. -/
noncomputable def tensorOut (A : W → V → K → Q → ℝ) (β : B → ℝ) : Ext (Ext (Ext (Ext E Q) K) V) (W ⊕ B) → ℝ :=
  linOut (Sum.elim (fun w => linOut fun v => linOut fun k => linOut fun q => fun _ : E => A w v k q) fun b => fun _ => β b)

variable (μ : Measure E) [IsProbabilityMeasure μ] {νQ : Measure (EuclideanSpace ℝ Q)} {νK : Measure (EuclideanSpace ℝ K)} {νV : Measure (EuclideanSpace ℝ V)}
  {νW : Measure (EuclideanSpace ℝ (W ⊕ B))}

lemma tensor_kernels (hQ : Uncorrelated νQ fun _ => 1) (hK : Uncorrelated νK fun _ => 1) (hV : Uncorrelated νV fun _ => 1) (hW : Uncorrelated νW fun _ => 1)
    (A A' : W → V → K → Q → ℝ) (β β' : B → ℝ) :
    secondMoment (extMeasure (extMeasure (extMeasure (extMeasure μ νQ) νK) νV) νW) (tensorOut A β) (tensorOut A' β') =
      ∑ w, ∑ v, ∑ k, ∑ q, A w v k q * A' w v k q + ∑ b, β b * β' b ∧
    Spec.tangent (extMeasure (extMeasure (extMeasure (extMeasure μ νQ) νK) νV) νW) (tensorOut A β) (tensorOut A' β') =
      4 * ∑ w, ∑ v, ∑ k, ∑ q, A w v k q * A' w v k q + ∑ b, β b * β' b := by
  have pQ := hQ.prob
  have pK := hK.prob
  have pV := hV.prob
  have p1 : IsProbabilityMeasure (extMeasure μ νQ) := ext_prob μ νQ
  have p2 : IsProbabilityMeasure (extMeasure (extMeasure μ νQ) νK) := ext_prob _ νK
  have p3 : IsProbabilityMeasure (extMeasure (extMeasure (extMeasure μ νQ) νK) νV) := ext_prob _ νV
  have n0 := nice_consts μ
  have n1 := n0.lin hQ
  have n2 := n1.lin hK
  have n3 := (n2.lin hV).add_consts
  have m0 : ∀ a : ℝ, (fun _ : E => a) ∈ consts E := fun a => ⟨a, rfl⟩
  have m1 : ∀ f : Q → ℝ, linOut (fun q => fun _ : E => f q) ∈ lin Q (consts E) := fun f => ⟨_, fun q => m0 _, rfl⟩
  have m2 : ∀ f : K → Q → ℝ, linOut (fun k => linOut (fun q => fun _ : E => f k q)) ∈ lin K (lin Q (consts E)) := fun f => ⟨_, fun k => m1 _, rfl⟩
  have m3 : ∀ f : V → K → Q → ℝ, linOut (fun v => linOut (fun k => linOut (fun q => fun _ : E => f v k q))) ∈ lin V (lin K (lin Q (consts E))) := fun f => ⟨_, fun v => m2 _, rfl⟩
  have m4 : ∀ (A : W → V → K → Q → ℝ) (β : B → ℝ) (k : W ⊕ B), (Sum.elim (fun w => linOut fun v => linOut fun k => linOut fun q => fun _ : E => A w v k q) fun b => fun _ => β b) k ∈
      lin V (lin K (lin Q (consts E))) ∪ consts (Ext (Ext (Ext E Q) K) V) := by
    rintro A β (w | b)
    · exact .inl (m3 _)
    · exact .inr ⟨_, rfl⟩
  have s1 : ∀ f f' : Q → ℝ, secondMoment (extMeasure μ νQ) (linOut fun q => fun _ : E => f q) (linOut fun q => fun _ : E => f' q) = ∑ q, f q * f' q := fun f f' => by
    rw [n0.second hQ (fun q => m0 _) fun q => m0 _]
    simp only [second_const]
  have s2 : ∀ f f' : K → Q → ℝ, secondMoment (extMeasure (extMeasure μ νQ) νK) (linOut fun k => linOut fun q => fun _ : E => f k q) (linOut fun k => linOut fun q => fun _ : E => f' k q) =
      ∑ k, ∑ q, f k q * f' k q := fun f f' => by
    rw [n1.second hK (fun q => m1 _) fun q => m1 _]
    simp only [s1]
  have s3 : ∀ f f' : V → K → Q → ℝ, secondMoment (extMeasure (extMeasure (extMeasure μ νQ) νK) νV) (linOut fun v => linOut fun k => linOut fun q => fun _ : E => f v k q)
      (linOut fun v => linOut fun k => linOut fun q => fun _ : E => f' v k q) = ∑ v, ∑ k, ∑ q, f v k q * f' v k q := fun f f' => by
    rw [n2.second hV (fun q => m2 _) fun q => m2 _]
    simp only [s2]
  have t1 : ∀ f f' : Q → ℝ, Spec.tangent (extMeasure μ νQ) (linOut fun q => fun _ : E => f q) (linOut fun q => fun _ : E => f' q) = ∑ q, f q * f' q := fun f f' => by
    rw [n0.tangent hQ (fun q => m0 _) fun q => m0 _]
    simp only [second_const, tangent_const, Finset.sum_const_zero, add_zero]
  have t2 : ∀ f f' : K → Q → ℝ, Spec.tangent (extMeasure (extMeasure μ νQ) νK) (linOut fun k => linOut fun q => fun _ : E => f k q) (linOut fun k => linOut fun q => fun _ : E => f' k q) =
      2 * ∑ k, ∑ q, f k q * f' k q := fun f f' => by
    rw [n1.tangent hK (fun q => m1 _) fun q => m1 _]
    simp only [s1, t1]
    ring
  have t3 : ∀ f f' : V → K → Q → ℝ, Spec.tangent (extMeasure (extMeasure (extMeasure μ νQ) νK) νV) (linOut fun v => linOut fun k => linOut fun q => fun _ : E => f v k q)
      (linOut fun v => linOut fun k => linOut fun q => fun _ : E => f' v k q) = 3 * ∑ v, ∑ k, ∑ q, f v k q * f' v k q := fun f f' => by
    rw [n2.tangent hV (fun q => m2 _) fun q => m2 _]
    simp only [s2, t2, ← Finset.mul_sum]
    ring
  constructor
  · unfold tensorOut
    rw [n3.second hW (m4 A β) (m4 A' β'), Fintype.sum_sum_type]
    simp only [Sum.elim_inl, Sum.elim_inr, s3, second_const]
  · unfold tensorOut
    rw [n3.tangent hW (m4 A β) (m4 A' β'), Fintype.sum_sum_type, Fintype.sum_sum_type]
    simp only [Sum.elim_inl, Sum.elim_inr, s3, t3, second_const, tangent_const, Finset.sum_const_zero, add_zero, ← Finset.mul_sum]
    ring

end Tensor

/-! ### The tensor of the layer -/

section Layer
variable {H C V A D O : ℕ}

lemma sum_both (h : Fin H) (a : Fin A) (f : Fin C → ℝ) : ∑ k : HeadIdx H C A, (if k.1 = h ∧ k.2.2 = a then f k.2.1 else 0) = ∑ c, f c := by
  simp only [Fintype.sum_prod_type, ite_and]
  rw [Finset.sum_eq_single h]
  · simp
  · intro h' _ e; simp [e]
  · simp

lemma sum_head (h : Fin H) (f : Fin C → Fin A → ℝ) : ∑ k : HeadIdx H C A, (if k.1 = h then f k.2.1 k.2.2 else 0) = ∑ c, ∑ a, f c a := by
  simp only [Fintype.sum_prod_type]
  rw [Finset.sum_eq_single h]
  · simp
  · intro h' _ e; simp [e]
  · simp

lemma sum_out (o : Fin O) (f : Fin D → Fin H → ℝ) : ∑ k : Fin D × Fin H × Fin O, (if k.2.2 = o then f k.1 k.2.1 else 0) = ∑ d, ∑ h, f d h := by
  simp only [Fintype.sum_prod_type]
  simp

/-- The coefficients of the output as a polynomial in the entries of the four matrices. -/
noncomputable def tensor (κ : ℝ) (S : List ℕ) (H C V A D O : ℕ) (x v : ℕ → List ℕ → ℝ) (o : Fin O) (p : List ℕ) :
    Fin D × Fin H × Fin O → HeadIdx H V D → HeadIdx H C A → HeadIdx H C A → ℝ :=
  fun w k l m => if w.2.2 = o then if k.1 = w.2.1 ∧ k.2.2 = w.1 then if l.1 = w.2.1 then if m.1 = w.2.1 ∧ m.2.2 = l.2.2 then
    κ * ∑ u ∈ box S, v k.2.1 u * x l.2.1 u * x m.2.1 p else 0 else 0 else 0 else 0

omit [InnerProductSpace ℝ E] [CompleteSpace E] [MeasurableSpace E] in
lemma tensor_out (qk ov b : ℝ) (S : List ℕ) (x v : ℕ → List ℕ → ℝ) (o : Fin O) (p : List ℕ) :
    (sqrtOutput qk ov b S H C V A D O x v o p : AttnParams E H C V A D O → ℝ) =
      tensorOut (tensor (ov / Real.sqrt (D * H * V) * (qk / (C * Real.sqrt A))) S H C V A D O x v o p) fun o' => if o' = o then b else 0 := by
  funext θ
  unfold tensorOut
  simp only [linOut, Fintype.sum_sum_type, Sum.elim_inl, Sum.elim_inr]
  unfold sqrtOutput
  congr 1
  · set κ := ov / Real.sqrt (D * H * V) * (qk / (C * Real.sqrt A))
    have e1 : ∀ w k l, ∑ m, θ.fst.fst.fst.snd m * tensor κ S H C V A D O x v o p w k l m = if w.2.2 = o then if k.1 = w.2.1 ∧ k.2.2 = w.1 then if l.1 = w.2.1 then
        κ * ∑ u ∈ box S, v k.2.1 u * x l.2.1 u * project θ.fst.fst.fst.snd x w.2.1 l.2.2 p else 0 else 0 else 0 := by
      intro w k l
      unfold tensor
      split_ifs
      · simp only [mul_ite, mul_zero]
        rw [Finset.sum_congr rfl fun m _ => show (if m.1 = w.2.1 ∧ m.2.2 = l.2.2 then θ.fst.fst.fst.snd m * (κ * ∑ u ∈ box S, v k.2.1 u * x l.2.1 u * x m.2.1 p) else 0) =
          if m.1 = w.2.1 ∧ m.2.2 = l.2.2 then θ.fst.fst.fst.snd (w.2.1, m.2.1, l.2.2) * (κ * ∑ u ∈ box S, v k.2.1 u * x l.2.1 u * x m.2.1 p) else 0 by
            split_ifs with h
            · rw [← h.1, ← h.2]
            · rfl,
          sum_both w.2.1 l.2.2 fun c => θ.fst.fst.fst.snd (w.2.1, c, l.2.2) * (κ * ∑ u ∈ box S, v k.2.1 u * x l.2.1 u * x c p)]
        simp only [project, Finset.mul_sum]
        rw [Finset.sum_comm]
        refine Finset.sum_congr rfl fun u _ => Finset.sum_congr rfl fun c _ => ?_
        ring
      all_goals simp
    have e2 : ∀ (w : Fin D × Fin H × Fin O) (k : HeadIdx H V D), ∑ l, θ.fst.fst.snd l * (if w.2.2 = o then if k.1 = w.2.1 ∧ k.2.2 = w.1 then if l.1 = w.2.1 then
        κ * ∑ u ∈ box S, v k.2.1 u * x l.2.1 u * project θ.fst.fst.fst.snd x w.2.1 l.2.2 p else 0 else 0 else 0) = if w.2.2 = o then if k.1 = w.2.1 ∧ k.2.2 = w.1 then
        κ * ∑ u ∈ box S, ∑ a, v k.2.1 u * (project θ.fst.fst.fst.snd x w.2.1 a p * project θ.fst.fst.snd x w.2.1 a u) else 0 else 0 := by
      intro w k
      split_ifs
      · simp only [mul_ite, mul_zero]
        rw [Finset.sum_congr rfl fun l _ => show (if l.1 = w.2.1 then θ.fst.fst.snd l * (κ * ∑ u ∈ box S, v k.2.1 u * x l.2.1 u * project θ.fst.fst.fst.snd x w.2.1 l.2.2 p) else 0) =
          if l.1 = w.2.1 then θ.fst.fst.snd (w.2.1, l.2.1, l.2.2) * (κ * ∑ u ∈ box S, v k.2.1 u * x l.2.1 u * project θ.fst.fst.fst.snd x w.2.1 l.2.2 p) else 0 by
            split_ifs with h
            · rw [← h]
            · rfl,
          sum_head w.2.1 fun c a => θ.fst.fst.snd (w.2.1, c, a) * (κ * ∑ u ∈ box S, v k.2.1 u * x c u * project θ.fst.fst.fst.snd x w.2.1 a p)]
        have e : ∀ a u, project θ.fst.fst.snd x w.2.1 a u = ∑ c : Fin C, x c u * θ.fst.fst.snd (w.2.1, c, a) := fun _ _ => rfl
        simp only [e, Finset.mul_sum]
        rw [Finset.sum_comm, Finset.sum_comm' (s := box S) (t := fun _ => Finset.univ) (t' := Finset.univ) (s' := fun _ => box S) (by simp)]
        refine Finset.sum_congr rfl fun a _ => ?_
        rw [Finset.sum_comm]
        refine Finset.sum_congr rfl fun u _ => Finset.sum_congr rfl fun c _ => ?_
        ring
      all_goals simp
    have e3 : ∀ w : Fin D × Fin H × Fin O, ∑ k, θ.fst.snd k * (if w.2.2 = o then if k.1 = w.2.1 ∧ k.2.2 = w.1 then
        κ * ∑ u ∈ box S, ∑ a, v k.2.1 u * (project θ.fst.fst.fst.snd x w.2.1 a p * project θ.fst.fst.snd x w.2.1 a u) else 0 else 0) = if w.2.2 = o then
        κ * ∑ u ∈ box S, (∑ a, project θ.fst.fst.fst.snd x w.2.1 a p * project θ.fst.fst.snd x w.2.1 a u) * project θ.fst.snd v w.2.1 w.1 u else 0 := by
      intro w
      split_ifs
      · simp only [mul_ite, mul_zero]
        rw [Finset.sum_congr rfl fun k _ => show (if k.1 = w.2.1 ∧ k.2.2 = w.1 then θ.fst.snd k * (κ * ∑ u ∈ box S, ∑ a, v k.2.1 u * (project θ.fst.fst.fst.snd x w.2.1 a p *
              project θ.fst.fst.snd x w.2.1 a u)) else 0) =
          if k.1 = w.2.1 ∧ k.2.2 = w.1 then θ.fst.snd (w.2.1, k.2.1, w.1) * (κ * ∑ u ∈ box S, ∑ a, v k.2.1 u * (project θ.fst.fst.fst.snd x w.2.1 a p *
              project θ.fst.fst.snd x w.2.1 a u)) else 0 by
            split_ifs with h
            · rw [← h.1, ← h.2]
            · rfl,
          sum_both w.2.1 w.1 fun c => θ.fst.snd (w.2.1, c, w.1) * (κ * ∑ u ∈ box S, ∑ a, v c u * (project θ.fst.fst.fst.snd x w.2.1 a p * project θ.fst.fst.snd x w.2.1 a u))]
        have e : ∀ u, project θ.fst.snd v w.2.1 w.1 u = ∑ c : Fin V, v c u * θ.fst.snd (w.2.1, c, w.1) := fun _ => rfl
        obtain ⟨G, hG⟩ : ∃ G : List ℕ → ℝ, ∀ u, G u = ∑ a, project θ.fst.fst.fst.snd x w.2.1 a p * project θ.fst.fst.snd x w.2.1 a u := ⟨_, fun _ => rfl⟩
        have hG' : ∀ (c : Fin V) u, ∑ a, v c u * (project θ.fst.fst.fst.snd x w.2.1 a p * project θ.fst.fst.snd x w.2.1 a u) = v c u * G u := fun c u => by rw [hG, Finset.mul_sum]
        simp only [e, hG', ← hG, Finset.mul_sum]
        rw [Finset.sum_comm]
        refine Finset.sum_congr rfl fun u _ => Finset.sum_congr rfl fun c _ => ?_
        ring
      all_goals simp
    simp only [e1, e2, e3]
    simp only [mul_ite, mul_zero]
    rw [Finset.sum_congr rfl fun w _ => show (if w.2.2 = o then θ.snd (.inl w) * (κ * ∑ u ∈ box S, (∑ a, project θ.fst.fst.fst.snd x w.2.1 a p *
          project θ.fst.fst.snd x w.2.1 a u) * project θ.fst.snd v w.2.1 w.1 u) else 0) =
        if w.2.2 = o then θ.snd (.inl (w.1, w.2.1, o)) * (κ * ∑ u ∈ box S, (∑ a, project θ.fst.fst.fst.snd x w.2.1 a p *
          project θ.fst.fst.snd x w.2.1 a u) * project θ.fst.snd v w.2.1 w.1 u) else 0 by
          split_ifs with h
          · rw [← h]
          · rfl,
      sum_out o fun d h => θ.snd (.inl (d, h, o)) * (κ * ∑ u ∈ box S, (∑ a, project θ.fst.fst.fst.snd x h a p * project θ.fst.fst.snd x h a u) * project θ.fst.snd v h d u)]
    rw [Finset.mul_sum]
    refine Finset.sum_congr rfl fun d _ => ?_
    rw [Finset.mul_sum]
    refine Finset.sum_congr rfl fun h _ => ?_
    have : ∑ u ∈ box S, qk / (C * Real.sqrt A) * (∑ a, project θ.fst.fst.fst.snd x h a p * project θ.fst.fst.snd x h a u) * project θ.fst.snd v h d u =
        qk / (C * Real.sqrt A) * ∑ u ∈ box S, (∑ a, project θ.fst.fst.fst.snd x h a p * project θ.fst.fst.snd x h a u) * project θ.fst.snd v h d u := by
      rw [Finset.mul_sum]
      refine Finset.sum_congr rfl fun u _ => ?_
      ring
    rw [this]
    ring
  · simp [mul_comm]

lemma ite_zero_mul_ite (c : Prop) [Decidable c] (a b : ℝ) : (if c then a else 0) * (if c then b else 0) = if c then a * b else 0 := by
  split_ifs <;> simp

lemma tensor_sum (κ : ℝ) (S T : List ℕ) (x v y z : ℕ → List ℕ → ℝ) (o : Fin O) (p q : List ℕ) :
    ∑ w, ∑ k, ∑ l, ∑ m, tensor κ S H C V A D O x v o p w k l m * tensor κ T H C V A D O y z o q w k l m =
      κ ^ 2 * (D * H * A) * ((∑ c ∈ Finset.range C, x c p * y c q) *
        ∑ u ∈ box S, ∑ u' ∈ box T, (∑ c ∈ Finset.range C, x c u * y c u') * ∑ c ∈ Finset.range V, v c u * z c u') := by
  have e : ∀ w k l m, tensor κ S H C V A D O x v o p w k l m * tensor κ T H C V A D O y z o q w k l m =
      if w.2.2 = o then if k.1 = w.2.1 ∧ k.2.2 = w.1 then if l.1 = w.2.1 then if m.1 = w.2.1 ∧ m.2.2 = l.2.2 then
        (κ * ∑ u ∈ box S, v k.2.1 u * x l.2.1 u * x m.2.1 p) * (κ * ∑ u ∈ box T, z k.2.1 u * y l.2.1 u * y m.2.1 q) else 0 else 0 else 0 else 0 := by
    intro w k l m
    unfold tensor
    simp only [ite_zero_mul_ite]
  simp only [e]
  have push : ∀ {ι : Type} [Fintype ι] (c : Prop) [Decidable c] (f : ι → ℝ), ∑ i, (if c then f i else 0) = if c then ∑ i, f i else 0 := by
    intro ι _ c _ f
    split_ifs <;> simp
  simp only [push]
  set P : Fin V → Fin C → Fin C → ℝ := fun i j c => (κ * ∑ u ∈ box S, v i u * x j u * x c p) * (κ * ∑ u ∈ box T, z i u * y j u * y c q) with hP
  have f1 : ∀ (w : Fin D × Fin H × Fin O) (k : HeadIdx H V D) (l : HeadIdx H C A), ∑ m : HeadIdx H C A, (if m.1 = w.2.1 ∧ m.2.2 = l.2.2 then
      (κ * ∑ u ∈ box S, v k.2.1 u * x l.2.1 u * x m.2.1 p) * (κ * ∑ u ∈ box T, z k.2.1 u * y l.2.1 u * y m.2.1 q) else 0) = ∑ c, P k.2.1 l.2.1 c :=
    fun w k l => sum_both w.2.1 l.2.2 (P k.2.1 l.2.1)
  have f2 : ∀ (w : Fin D × Fin H × Fin O) (k : HeadIdx H V D), ∑ l : HeadIdx H C A, (if l.1 = w.2.1 then ∑ c, P k.2.1 l.2.1 c else 0) = ∑ j, ∑ _a : Fin A, ∑ c, P k.2.1 j c :=
    fun w k => sum_head w.2.1 fun j _ => ∑ c, P k.2.1 j c
  have f3 : ∀ w : Fin D × Fin H × Fin O, ∑ k : HeadIdx H V D, (if k.1 = w.2.1 ∧ k.2.2 = w.1 then ∑ j, ∑ _a : Fin A, ∑ c, P k.2.1 j c else 0) = ∑ i, ∑ j, ∑ _a : Fin A, ∑ c, P i j c :=
    fun w => sum_both w.2.1 w.1 fun i => ∑ j, ∑ _a : Fin A, ∑ c, P i j c
  simp only [f1, f2, f3]
  rw [sum_out o fun _ _ => ∑ i, ∑ j, ∑ _a : Fin A, ∑ c, P i j c]
  simp only [Finset.sum_const, Finset.card_univ, Fintype.card_fin, nsmul_eq_mul, ← Finset.mul_sum]
  have g : ∑ i, ∑ j, ∑ c, P i j c = κ ^ 2 * ((∑ c : Fin C, x c p * y c q) * ∑ i : Fin V, ∑ j : Fin C, (∑ u ∈ box S, v i u * x j u) * ∑ u ∈ box T, z i u * y j u) := by
    rw [Finset.mul_sum, Finset.mul_sum]
    refine Finset.sum_congr rfl fun i _ => ?_
    rw [Finset.mul_sum, Finset.mul_sum]
    refine Finset.sum_congr rfl fun j _ => ?_
    rw [Finset.sum_mul, Finset.mul_sum]
    refine Finset.sum_congr rfl fun c _ => ?_
    simp only [hP, ← Finset.sum_mul]
    ring
  have g' : ∑ i : Fin V, ∑ j : Fin C, (∑ u ∈ box S, v i u * x j u) * ∑ u ∈ box T, z i u * y j u =
      ∑ u ∈ box S, ∑ u' ∈ box T, (∑ c : Fin C, x c u * y c u') * ∑ c : Fin V, v c u * z c u' := by
    simp only [Finset.sum_mul_sum]
    calc _ = ∑ i : Fin V, ∑ u ∈ box S, ∑ u' ∈ box T, ∑ j : Fin C, v i u * x j u * (z i u' * y j u') := by
          refine Finset.sum_congr rfl fun i _ => ?_
          rw [Finset.sum_comm]
          refine Finset.sum_congr rfl fun u _ => ?_
          rw [Finset.sum_comm]
      _ = ∑ u ∈ box S, ∑ u' ∈ box T, ∑ i : Fin V, ∑ j : Fin C, v i u * x j u * (z i u' * y j u') := by
          rw [Finset.sum_comm]
          refine Finset.sum_congr rfl fun u _ => ?_
          rw [Finset.sum_comm]
      _ = _ := by
          refine Finset.sum_congr rfl fun u _ => Finset.sum_congr rfl fun u' _ => ?_
          rw [Finset.sum_comm]
          refine Finset.sum_congr rfl fun i _ => Finset.sum_congr rfl fun j _ => ?_
          ring
  rw [g, g']
  simp only [Finset.sum_range]
  ring

/-- The scale of the coefficients. -/
lemma scale_sq {qk ov : ℝ} (hH : 0 < H) (hC : 0 < C) (hV : 0 < V) (hA : 0 < A) (hD : 0 < D) :
    (ov / Real.sqrt (D * H * V) * (qk / (C * Real.sqrt A))) ^ 2 * (D * H * A) = (qk * ov) ^ 2 / (C * (C * V)) := by
  have e1 : Real.sqrt (D * H * V) ^ 2 = D * H * V := Real.sq_sqrt (by positivity)
  have e2 : Real.sqrt A ^ 2 = A := Real.sq_sqrt (by positivity)
  have : (H : ℝ) ≠ 0 := by positivity
  have : (C : ℝ) ≠ 0 := by positivity
  have : (V : ℝ) ≠ 0 := by positivity
  have : (A : ℝ) ≠ 0 := by positivity
  have : (D : ℝ) ≠ 0 := by positivity
  rw [mul_pow, div_pow, div_pow, mul_pow (C : ℝ), e1, e2]
  field_simp

end Layer
end NT.Attn
