import Verif.Lemmas.GradDesc
import Verif.Lemmas.Cho

/-!
# `gradient_descent`: the call of the solver
-/

namespace NT.Predict
open NT Arr Spec Matrix

variable {bk : Backend} {ode : OdeInt} {m : Gd} {T S R : List ℕ}

lemma axesOf_self (hb : bk.Correct) {axes : List Int} {n : ℕ} {T : List ℕ} (h : axesOf bk axes n = .ok T) :
    axesOf bk (T.map fun a : ℕ => (a : Int)) n = .ok T := by
  obtain ⟨-, h2, h3⟩ := axesOf_ok hb h
  obtain ⟨F, f1, f2⟩ := C16.canonicalizeAxis_denotes (T.map fun a : ℕ => (a : Int)) n (by
    intro i hi
    obtain ⟨a, ha, rfl⟩ := List.mem_map.1 hi
    exact ⟨a, h2 a ha, Or.inl rfl⟩)
  have hF : F = T.toFinset := by
    ext d
    rw [f2, List.mem_toFinset]
    constructor
    · rintro ⟨i, hi, hd⟩
      obtain ⟨a, ha, rfl⟩ := List.mem_map.1 hi
      have := h2 a ha
      obtain ⟨h4, h5⟩ := hd
      have : a = d := by omega
      exact this ▸ ha
    · intro hd
      exact ⟨_, List.mem_map.2 ⟨d, hd, rfl⟩, h2 d hd, Or.inl rfl⟩
  unfold axesOf
  rw [f1, hF]
  simp only [h3]

/-- The times passed to the solver after the first. -/
noncomputable def scaled (t : Arr ℝ) (rate : ℝ) : List ℝ := (List.range t.shape.prod).map fun k => t.get (unravel t.shape k) * rate

lemma scaled_eq (t : Arr ℝ) (rate : ℝ) :
    ((List.range t.shape.prod).map fun k => ((t.map fun v => v * rate).reshape [t.shape.prod]).get [k]) = scaled t rate := by
  refine List.map_congr_left fun k _ => ?_
  simp only [reshape, Arr.map]
  congr 3
  simp [ravel]

variable {t : Arr ℝ} {t0 t1 rate : ℝ}

lemma scaled_at {tj : List ℕ} (htj : InRange tj t.shape) : (scaled t rate)[ravel t.shape tj]? = some (t.get tj * rate) := by
  have := ravel_lt htj
  simp [scaled, this, unravel_ravel htj]

lemma scaled_head (ht : Times t t0 t1) : ∃ l, scaled t rate = t0 * rate :: l := by
  obtain ⟨n, hn⟩ := Nat.exists_eq_succ_of_ne_zero ht.nonempty
  unfold scaled
  rw [hn, List.range_succ_eq_map, List.map_cons, ht.first]
  exact ⟨_, rfl⟩

lemma first_start (hr : 0 < rate) : Gd.firstTime (t0 * rate) = startTime rate t0 * rate := by
  unfold Gd.firstTime startTime
  by_cases h : t0 = 0
  · rw [if_pos h, if_pos (by rw [h, zero_mul]), div_mul_cancel₀ _ hr.ne']
  · rw [if_neg h, if_neg (mul_ne_zero h hr.ne'), zero_mul]

lemma start_lt (ht : Times t t0 t1) (hr : 0 < rate) : startTime rate t0 < t0 := by
  unfold startTime
  split_ifs with h
  · rw [h]
    exact div_neg_of_neg_of_pos (by rw [neg_lt_zero]; positivity) hr
  · exact lt_of_le_of_ne ht.nonneg (Ne.symm h)

lemma scaled_increasing (ht : Times t t0 t1) (hr : 0 < rate) : (scaled t rate).Pairwise (· < ·) := by
  unfold scaled
  rw [List.pairwise_map]
  refine List.Pairwise.imp_of_mem ?_ (List.pairwise_lt_range (n := t.shape.prod))
  intro a b ha hb hab
  have ha' := List.mem_range.1 ha
  have hb' := List.mem_range.1 hb
  refine mul_lt_mul_of_pos_right (ht.increasing _ _ (inRange_unravel ha') (inRange_unravel hb') ?_) hr
  rwa [ravel_unravel ha', ravel_unravel hb']

lemma times_ok (ht : Times t t0 t1) (hr : 0 < rate) :
    (startTime rate t0 * rate :: scaled t rate).Pairwise (· < ·) ∧
    (startTime rate t0 * rate :: scaled t rate).getLast (by simp) = t1 * rate ∧ startTime rate t0 ≤ t1 ∧
    ∀ tj, InRange tj t.shape → t.get tj ∈ Set.Icc (startTime rate t0) t1 := by
  obtain ⟨l, hl⟩ := scaled_head (rate := rate) ht
  have hpos := Nat.pos_of_ne_zero ht.nonempty
  have h0 : ∀ k < t.shape.prod, t0 ≤ t.get (unravel t.shape k) := by
    intro k hk
    rcases Nat.eq_zero_or_pos k with rfl | hk0
    · exact ht.first.ge
    · rw [← ht.first]
      refine (ht.increasing _ _ (inRange_unravel hpos) (inRange_unravel hk) ?_).le
      rwa [ravel_unravel hpos, ravel_unravel hk]
  have h1 : ∀ k < t.shape.prod, t.get (unravel t.shape k) ≤ t1 := by
    intro k hk
    rcases eq_or_lt_of_le (Nat.le_sub_one_of_lt hk) with rfl | hk0
    · exact ht.last.le
    · rw [← ht.last]
      refine (ht.increasing _ _ (inRange_unravel hk) (inRange_unravel (by omega)) ?_).le
      rwa [ravel_unravel hk, ravel_unravel (by omega)]
  have hst := start_lt ht hr
  refine ⟨List.pairwise_cons.2 ⟨?_, scaled_increasing ht hr⟩, ?_, ?_, ?_⟩
  · intro x hx
    obtain ⟨k, hk, rfl⟩ := List.mem_map.1 hx
    exact mul_lt_mul_of_pos_right (hst.trans_le (h0 k (List.mem_range.1 hk))) hr
  · rw [List.getLast_cons (by rw [hl]; simp)]
    unfold scaled
    rw [List.getLast_eq_getElem]
    simp [ht.last]
  · exact hst.le.trans ((h0 0 hpos).trans (h1 0 hpos))
  · intro tj htj
    have hlt := ravel_lt htj
    have a := h0 _ hlt
    have b := h1 _ hlt
    rw [unravel_ravel htj] at a b
    exact ⟨hst.le.trans a, b⟩

/-- The list of states at the times. -/
noncomputable def statesAt (t : Arr ℝ) (rate t0 : ℝ) (γ : ℝ → OdeState) : List OdeState :=
  (startTime rate t0 * rate :: scaled t rate).map γ

/-- All leaves at the times. -/
noncomputable def outState (t : Arr ℝ) (rate t0 : ℝ) (γ : ℝ → OdeState) : OdeState :=
  ⟨Gd.trim t (statesAt t rate t0 γ) (·.fxTrain), Gd.trim t (statesAt t rate t0 γ) (·.fxTest),
    Gd.trim t (statesAt t rate t0 γ) (·.qxTrain), Gd.trim t (statesAt t rate t0 γ) (·.qxTest)⟩

lemma trim_none {γ : ℝ → OdeState} {leaf : OdeState → Option (Arr ℝ)} (h : leaf (γ (startTime rate t0 * rate)) = none) :
    Gd.trim t (statesAt t rate t0 γ) leaf = none := by
  unfold Gd.trim statesAt
  simp [h]

lemma trim_ok {γ : ℝ → OdeState} {leaf : OdeState → Option (Arr ℝ)} {c : ℝ → Arr ℝ} {s : List ℕ} (ht : Times t t0 t1) (hr : 0 < rate)
    (h : ∀ σ ∈ Set.Icc (startTime rate t0 * rate) (t1 * rate), leaf (γ σ) = some (c σ))
    (hs : ∀ σ ∈ Set.Icc (startTime rate t0 * rate) (t1 * rate), (c σ).shape = s) :
    ValuesAt (Gd.trim t (statesAt t rate t0 γ) leaf) t s fun τ => c (τ * rate) := by
  obtain ⟨-, -, h3, h4⟩ := times_ok ht hr
  have hmem : ∀ τ ∈ Set.Icc (startTime rate t0) t1, τ * rate ∈ Set.Icc (startTime rate t0 * rate) (t1 * rate) := fun τ hτ =>
    ⟨mul_le_mul_of_nonneg_right hτ.1 hr.le, mul_le_mul_of_nonneg_right hτ.2 hr.le⟩
  have ha := hmem _ ⟨le_rfl, h3⟩
  unfold Gd.trim statesAt
  simp only [List.map_cons, List.head?_cons, Option.bind_some, h _ ha]
  refine ⟨_, rfl, by rw [hs _ ha], ?_⟩
  intro tj i htj hi
  have hl : t.ndim = tj.length := htj.length.symm
  simp only [hl, List.take_left, List.drop_left]
  have e : (γ (startTime rate t0 * rate) :: (scaled t rate).map γ).getD (1 + ravel t.shape tj) ⟨none, none, none, none⟩ =
      γ (t.get tj * rate) := by
    rw [List.getD, Nat.add_comm, List.getElem?_cons_succ, List.getElem?_map, scaled_at htj]
    rfl
  rw [e, h _ (hmem _ (h4 tj htj))]
  rfl

lemma Gd.rate_pos (h : 0 < m.learningRate) : 0 < m.rate := by
  unfold Gd.rate
  split
  · exact h
  · exact Real.sqrt_pos.2 h

/-- What a successful call has computed. -/
lemma predict_run (hode : ode.Correct) (h : m.Fits bk T S R) (ht : Times t t0 t1) {init : OdeInit}
    {fxTest ktd : Option (Arr ℝ)} {o : OdeOut} (ho : m.predict bk ode t init fxTest ktd = .ok o) :
    ∃ s' s0 γ, fxTestShape bk m.yTrain ktd T = .ok s' ∧ m.state0 init fxTest s' = .ok s0 ∧ γ (startTime m.rate t0 * m.rate) = s0 ∧
      Solves (m.dstate T ktd) (startTime m.rate t0 * m.rate) (t1 * m.rate) γ ∧ o = Gd.select init fxTest (outState t m.rate t0 γ) := by
  have hr := Gd.rate_pos h.rate
  obtain ⟨h1, h2, -, -⟩ := times_ok ht hr
  obtain ⟨l, hl⟩ := scaled_head (rate := m.rate) ht
  unfold Gd.predict at ho
  rw [h.axes] at ho
  simp only [bind, Except.bind, pure, Except.pure, scaled_eq] at ho
  rcases hc : checkOde init fxTest ktd with e | u
  · rw [hc] at ho; simp at ho
  rw [hc, hl] at ho
  simp only at ho
  rcases hf : fxTestShape bk m.yTrain ktd T with e | s'
  · rw [hf] at ho; simp at ho
  rw [hf] at ho
  simp only at ho
  rcases hs : m.state0 init fxTest s' with e | s0
  · rw [hs] at ho; simp at ho
  rw [hs] at ho
  simp only [first_start hr] at ho
  rw [← hl] at ho
  rcases hd : ode (m.dstate T ktd) s0 (startTime m.rate t0 * m.rate :: scaled t m.rate) with e | out
  · rw [hd] at ho; simp at ho
  rw [hd] at ho
  simp only [Except.ok.injEq] at ho
  obtain ⟨γ, g1, g2, g3⟩ := hode.sound _ _ _ _ _ _ h1 h2 hd
  refine ⟨s', s0, γ, rfl, hs, g1, g2, ?_⟩
  rw [← ho, g3]
  rfl

/-- A call succeeds if its arguments are accepted and the equation has a solution. -/
lemma predict_total (hode : ode.Correct) (h : m.Fits bk T S R) (ht : Times t t0 t1) {init : OdeInit}
    {fxTest ktd : Option (Arr ℝ)} {s' : List ℕ} {s0 : OdeState} {γ : ℝ → OdeState} (hc : checkOde init fxTest ktd = .ok ())
    (hf : fxTestShape bk m.yTrain ktd T = .ok s') (hs : m.state0 init fxTest s' = .ok s0)
    (hg : γ (startTime m.rate t0 * m.rate) = s0) (hsol : Solves (m.dstate T ktd) (startTime m.rate t0 * m.rate) (t1 * m.rate) γ) :
    ∃ o, m.predict bk ode t init fxTest ktd = .ok o := by
  have hr := Gd.rate_pos h.rate
  obtain ⟨h1, h2, -, -⟩ := times_ok ht hr
  obtain ⟨l, hl⟩ := scaled_head (rate := m.rate) ht
  obtain ⟨out, hd⟩ := hode.total _ _ _ _ _ h1 h2 ⟨γ, hg, hsol⟩
  unfold Gd.predict
  rw [h.axes]
  simp only [bind, Except.bind, pure, Except.pure, scaled_eq]
  rw [hc, hl]
  simp only [hf, hs, first_start hr]
  rw [← hl, hd]
  exact ⟨_, rfl⟩

end NT.Predict
