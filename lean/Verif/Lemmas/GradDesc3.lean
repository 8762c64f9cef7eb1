import Verif.Lemmas.GradDesc2

/-!
# `gradient_descent`: the leaves of a solution
-/

set_option linter.unnecessarySeqFocus false

namespace NT.Predict
open NT Arr Spec Matrix

variable {bk : Backend} {ode : OdeInt} {m : Gd} {T S R : List ℕ} {t : Arr ℝ} {t0 t1 rate : ℝ}

/-- The curve of a leaf. -/
def leafVal (c : ℝ → Option (Arr ℝ)) (σ : ℝ) : Arr ℝ := (c σ).getD ⟨[], fun _ => 0⟩

lemma leaf_some {c : ℝ → Option (Arr ℝ)} {d : Arr ℝ} {I : Set ℝ} {τ : ℝ} (hτ : τ ∈ I) (h : LeafDeriv c (some d) I τ) :
    (∀ σ ∈ I, c σ = some (leafVal c σ)) ∧ ArrDeriv (leafVal c) d I τ := by
  obtain ⟨c', h1, h2, h3⟩ := h
  have e : ∀ σ ∈ I, leafVal c σ = c' σ := fun σ hσ => by rw [leafVal, h1 σ hσ]; rfl
  refine ⟨fun σ hσ => by rw [e σ hσ]; exact h1 σ hσ, fun σ hσ => by rw [e σ hσ]; exact h2 σ hσ, fun i hi => ?_⟩
  exact (h3 i hi).congr (fun σ hσ => by rw [e σ hσ]) (by rw [e τ hτ])

lemma scale_deriv {u : ℝ → ℝ} {d a b τ : ℝ} (hr : 0 < rate) (h : HasDerivWithinAt u d (Set.Icc (a * rate) (b * rate)) (τ * rate)) :
    HasDerivWithinAt (fun σ => u (σ * rate)) (d * rate) (Set.Icc a b) τ := by
  have h1 : HasDerivWithinAt (fun σ : ℝ => σ * rate) (1 * rate) (Set.Icc a b) τ := (hasDerivWithinAt_id τ _).mul_const rate
  rw [one_mul] at h1
  refine h.comp τ h1 ?_
  exact fun σ hσ => ⟨mul_le_mul_of_nonneg_right hσ.1 hr.le, mul_le_mul_of_nonneg_right hσ.2 hr.le⟩

/-- The vector field without momentum. -/
lemma dstate_plain (hm : m.momentum = none) {ktd : Option (Arr ℝ)} {s d : OdeState} (h : m.dstate T ktd s = .ok d) :
    ∃ x f, s.fxTrain = some x ∧ m.force m.kTrainTrain (m.gradLoss x) T = .ok f ∧ d.fxTrain = some f ∧
      (∀ y, s.fxTest = some y → ∃ k g, ktd = some k ∧ m.force k (m.gradLoss x) T = .ok g ∧ d.fxTest = some g) ∧
      (s.fxTest = none → d.fxTest = none) := by
  have hf : m.friction = none := by simp [Gd.friction, hm]
  obtain ⟨x, y, q, qt⟩ := s
  unfold Gd.dstate at h
  cases x with
  | none => simp at h
  | some x =>
    simp only [bind, Except.bind, pure, Except.pure, hf] at h
    rcases h1 : m.force m.kTrainTrain (m.gradLoss x) T with e | f
    · rw [h1] at h; simp at h
    rw [h1] at h
    refine ⟨x, f, rfl, h1, ?_⟩
    cases y with
    | none =>
      simp only [Except.ok.injEq] at h
      subst h
      simp
    | some y =>
      cases ktd with
      | none => simp at h
      | some k =>
        simp only at h
        rcases h2 : m.force k (m.gradLoss x) T with e | g
        · rw [h2] at h; simp [Except.map] at h
        rw [h2] at h
        simp only [Except.map, Except.ok.injEq] at h
        subst h
        exact ⟨rfl, fun y' _ => ⟨k, g, rfl, h2, rfl⟩, by simp⟩

/-- The vector field with momentum. -/
lemma dstate_heavy {β : ℝ} (hm : m.momentum = some β) {ktd : Option (Arr ℝ)} {s d : OdeState} (h : m.dstate T ktd s = .ok d) :
    ∃ x q f f', s.fxTrain = some x ∧ s.qxTrain = some q ∧ m.force m.kTrainTrain (m.gradLoss x) T = .ok f ∧ d.fxTrain = some q ∧
      zipB (fun x y : ℝ => x + (β - 1) / Real.sqrt m.learningRate * y) f q = .ok f' ∧ d.qxTrain = some f' ∧ d.fxTest = s.qxTest ∧
      (∀ y qt, s.fxTest = some y → s.qxTest = some qt → ∃ k g g', ktd = some k ∧ m.force k (m.gradLoss x) T = .ok g ∧
        zipB (fun x y : ℝ => x + (β - 1) / Real.sqrt m.learningRate * y) g qt = .ok g' ∧ d.qxTest = some g') := by
  have hf : m.friction = some ((β - 1) / Real.sqrt m.learningRate) := by simp [Gd.friction, hm]
  obtain ⟨x, y, q, qt⟩ := s
  unfold Gd.dstate at h
  cases x with
  | none => simp at h
  | some x =>
    simp only [bind, Except.bind, pure, Except.pure, hf] at h
    rcases h1 : m.force m.kTrainTrain (m.gradLoss x) T with e | f
    · rw [h1] at h; simp at h
    rw [h1] at h
    simp only at h
    cases q with
    | none =>
      exfalso
      revert h
      cases y <;> cases ktd <;> simp [Except.map] <;> split <;> simp
    | some q =>
      rcases h3 : zipB (fun x y : ℝ => x + (β - 1) / Real.sqrt m.learningRate * y) f q with e | f'
      · exfalso
        revert h
        cases y <;> cases ktd <;> simp [Except.map, h3] <;> split <;> simp
      refine ⟨x, q, f, f', rfl, rfl, h1, ?_⟩
      simp only [h3] at h
      cases y with
      | none =>
        cases qt with
        | none =>
          simp only [Except.ok.injEq] at h
          subst h
          simp [h3]
        | some qt => simp at h
      | some y =>
        cases ktd with
        | none => simp at h
        | some k =>
          simp only at h
          rcases h2 : m.force k (m.gradLoss x) T with e | g
          · rw [h2] at h; simp [Except.map] at h
          rw [h2] at h
          simp only [Except.map] at h
          cases qt with
          | none =>
            simp only [Except.ok.injEq] at h
            subst h
            simp [h3]
          | some qt =>
            simp only at h
            rcases h4 : zipB (fun x y : ℝ => x + (β - 1) / Real.sqrt m.learningRate * y) g qt with e | g'
            · rw [h4] at h; simp at h
            rw [h4] at h
            simp only [Except.ok.injEq] at h
            subst h
            refine ⟨rfl, h3, rfl, rfl, fun y' qt' _ e => ⟨k, g, g', rfl, h2, ?_, rfl⟩⟩
            cases e
            exact h4

/-- The initial state. -/
lemma state0_ok {init : OdeInit} {fxTest : Option (Arr ℝ)} {s' : List ℕ} {s0 : OdeState} (h : m.state0 init fxTest s' = .ok s0) :
    (∃ x, Gd.orZeros (initParts init fxTest).fxTrain m.yTrain.shape = .ok x ∧ s0.fxTrain = some x) ∧
    ((initParts init fxTest).fxTest = none → s0.fxTest = none ∧ s0.qxTest = none) ∧
    (∀ f, (initParts init fxTest).fxTest = some f → ∃ y, broadcastTo f s' = .ok y ∧ s0.fxTest = some y) ∧
    (m.momentum = none → s0.qxTrain = none ∧ s0.qxTest = none ∧ (initParts init fxTest).qxTrain = none) ∧
    (∀ β, m.momentum = some β → (∃ q, Gd.orZeros (initParts init fxTest).qxTrain m.yTrain.shape = .ok q ∧ s0.qxTrain = some q) ∧
      ∀ f, (initParts init fxTest).fxTest = some f → ∃ q, Gd.orZeros (initParts init fxTest).qxTest s' = .ok q ∧ s0.qxTest = some q) := by
  have hp : Gd.parts init fxTest = initParts init fxTest := by cases init <;> rfl
  unfold Gd.state0 at h
  simp only [hp] at h
  generalize initParts init fxTest = P at h ⊢
  obtain ⟨x, y, q, qt⟩ := P
  simp only [bind, Except.bind, pure, Except.pure] at h
  rcases h1 : Gd.orZeros x m.yTrain.shape with e | x0
  · rw [h1] at h; simp at h
  rw [h1] at h
  simp only at h
  cases hm : m.momentum with
  | none =>
    have hf : m.friction = none := by simp [Gd.friction, hm]
    rw [hf] at h
    cases y with
    | none =>
      simp only at h
      split_ifs at h with hq
      simp only [Except.ok.injEq] at h
      subst h
      simp at hq
      simp [hq]
    | some y =>
      simp only at h
      rcases h2 : broadcastTo y s' with e | y0
      · rw [h2] at h; simp [Except.map] at h
      rw [h2] at h
      simp only [Except.map] at h
      split_ifs at h with hq
      simp only [Except.ok.injEq] at h
      subst h
      simp at hq
      simp [hq]
      exact h2
  | some β =>
    have hf : m.friction = some ((β - 1) / Real.sqrt m.learningRate) := by simp [Gd.friction, hm]
    rw [hf] at h
    cases y with
    | none =>
      simp only at h
      rcases h3 : Gd.orZeros q m.yTrain.shape with e | q0
      · rw [h3] at h; simp at h
      rw [h3] at h
      simp only [Except.ok.injEq] at h
      subst h
      simp
    | some y =>
      simp only at h
      rcases h2 : broadcastTo y s' with e | y0
      · rw [h2] at h; simp [Except.map] at h
      rw [h2] at h
      simp only [Except.map] at h
      rcases h3 : Gd.orZeros q m.yTrain.shape with e | q0
      · rw [h3] at h; simp at h
      rw [h3] at h
      simp only at h
      rcases h4 : Gd.orZeros qt s' with e | qt0
      · rw [h4] at h; simp at h
      rw [h4] at h
      simp only [Except.ok.injEq] at h
      subst h
      simp
      exact h2

lemma view_inRange {n : ℕ} {T S R s : List ℕ} (hs : s.length = n) (hS : S = sizesAt (otherAxes n T) s) (hR : R = sizesAt T s) (p : box S)
    (r : box R) : InRange (joinIdx n T p.1 r.1) s := by
  subst hS hR
  exact join_inRange hs (mem_box.1 p.2) (mem_box.1 r.2)

/-- The curve of a leaf along a solution. -/
lemma curve_ok {γ : ℝ → OdeState} {leaf : OdeState → Option (Arr ℝ)} {a b : ℝ} (hab : a ≤ b) {x0 : Arr ℝ} {s : List ℕ}
    (h0 : leaf (γ a) = some x0) (hs : x0.shape = s) {P : ℝ → Arr ℝ → Prop}
    (h : ∀ τ ∈ Set.Icc a b, ∃ d, LeafDeriv (fun σ => leaf (γ σ)) (some d) (Set.Icc a b) τ ∧ P τ d) :
    (∀ σ ∈ Set.Icc a b, leaf (γ σ) = some (leafVal (fun σ => leaf (γ σ)) σ)) ∧
    (∀ σ ∈ Set.Icc a b, (leafVal (fun σ => leaf (γ σ)) σ).shape = s) ∧ leafVal (fun σ => leaf (γ σ)) a = x0 ∧
    ∀ τ ∈ Set.Icc a b, ∃ d, d.shape = s ∧ P τ d ∧
      ∀ i, InRange i s → HasDerivWithinAt (fun σ => (leafVal (fun σ => leaf (γ σ)) σ).get i) (d.get i) (Set.Icc a b) τ := by
  have ha : a ∈ Set.Icc a b := ⟨le_rfl, hab⟩
  have hv : leafVal (fun σ => leaf (γ σ)) a = x0 := by simp [leafVal, h0]
  obtain ⟨d, hd, -⟩ := h a ha
  obtain ⟨h1, h2, -⟩ := leaf_some ha hd
  have hds : d.shape = s := by rw [← h2 a ha, hv, hs]
  refine ⟨h1, fun σ hσ => by rw [h2 σ hσ, hds], hv, fun τ hτ => ?_⟩
  obtain ⟨e, he, hP⟩ := h τ hτ
  obtain ⟨-, h4, h5⟩ := leaf_some hτ he
  have hes : e.shape = s := by rw [← h4 a ha, hv, hs]
  exact ⟨e, hes, hP, fun i hi => h5 i (by rw [hes]; exact hi)⟩

end NT.Predict
