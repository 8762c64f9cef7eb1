import Verif.Tac
import Verif.Lemmas.WideDeepConv
import Verif.Props.C54
import Verif.Props.C55

/-!
# Pooling and flattening on top of families of networks whose channel averages converge
-/

set_option linter.unusedSectionVars false

namespace NT.WideDeep
open _root_.NT.WideConv (Pt val emp union_small)
open NT Gauss Spec MeasureTheory ProbabilityTheory

variable {ok : Arr ℝ → ℕ → List ℕ → Prop} {P : ℕ → RandomNet → Prop} {B A r : ℕ} {D : List ℕ → List ℕ} {K : Pt → Pt → ℝ}

/-! ### Linear combinations of positions -/

/-- The limit after a layer that takes linear combinations of positions. -/
noncomputable def linK {ι : Type} (s : List ℕ → Finset ι) (w : List ℕ → List ℕ → ι → ℝ) (t : List ℕ → List ℕ → ι → Option (List ℕ)) (D : List ℕ → List ℕ)
    (K : Pt → Pt → ℝ) (a b : Pt) : ℝ :=
  ∑ u ∈ s (D a.S), ∑ v ∈ s (D b.S), w (D a.S) a.p u * w (D b.S) b.p v *
    read2 (fun p q => K { a with p := p } { b with p := q }) (t (D a.S) a.p u) (t (D b.S) b.p v)

/-- If the combinations are far from each other, so are the covariances of some positions that are read. -/
lemma lin_far {ι : Type} {I J : Finset ι} {w w' : ι → ℝ} {t t' : ι → Option (List ℕ)} {F G : List ℕ → List ℕ → ℝ} {ε : ℝ} (hε : 0 < ε)
    (h : ε ≤ |∑ u ∈ I, ∑ v ∈ J, w u * w' v * read2 F (t u) (t' v) - ∑ u ∈ I, ∑ v ∈ J, w u * w' v * read2 G (t u) (t' v)|) :
    ∃ u ∈ I, ∃ v ∈ J, ∃ p q, t u = some p ∧ t' v = some q ∧ ε / ((∑ u ∈ I, ∑ v ∈ J, |w u * w' v|) + 1) ≤ |F p q - G p q| := by
  by_contra hc
  push Not at hc
  set W := ∑ u ∈ I, ∑ v ∈ J, |w u * w' v| with hW
  have hW0 : 0 ≤ W := Finset.sum_nonneg fun u _ => Finset.sum_nonneg fun v _ => abs_nonneg _
  set η := ε / (W + 1) with hη
  have hη0 : 0 < η := by positivity
  have e : ∑ u ∈ I, ∑ v ∈ J, w u * w' v * read2 F (t u) (t' v) - ∑ u ∈ I, ∑ v ∈ J, w u * w' v * read2 G (t u) (t' v) =
      ∑ u ∈ I, ∑ v ∈ J, w u * w' v * (read2 F (t u) (t' v) - read2 G (t u) (t' v)) := by
    simp only [mul_sub, Finset.sum_sub_distrib]
  rw [e] at h
  have h2 : |∑ u ∈ I, ∑ v ∈ J, w u * w' v * (read2 F (t u) (t' v) - read2 G (t u) (t' v))| ≤ W * η := by
    rw [hW, Finset.sum_mul]
    refine (Finset.abs_sum_le_sum_abs _ _).trans (Finset.sum_le_sum fun u hu => ?_)
    rw [Finset.sum_mul]
    refine (Finset.abs_sum_le_sum_abs _ _).trans (Finset.sum_le_sum fun v hv => ?_)
    rw [abs_mul]
    refine mul_le_mul_of_nonneg_left ?_ (abs_nonneg _)
    rcases e1 : t u with _ | p
    · simpa [read2] using hη0.le
    rcases e2 : t' v with _ | q
    · simpa [read2] using hη0.le
    exact (hc u hu v hv p q e1 e2).le
  have h3 : η * (W + 1) = ε := div_mul_cancel₀ _ (by positivity)
  nlinarith

/-- A layer on top that takes linear combinations of positions, for each channel. -/
lemma limit_lin (h : Limit ok P B A r D K) {ι : Type} (s : List ℕ → Finset ι) (w : List ℕ → List ℕ → ι → ℝ) (t : List ℕ → List ℕ → ι → Option (List ℕ))
    (out : List ℕ → List ℕ) (g : Arr ℝ → Arr ℝ) {B' A' r' : ℕ} (hax : Axes ok B' A' r' fun S => out (D S))
    (hr : ∀ x n S, ok x n S → ∀ o, InRange o (out (D S)) → ∀ u ∈ s (D S), ∀ p, t (D S) o u = some p → InRange p (D S))
    (hg : ∀ x n S, ok x n S → ∀ c (X : Arr ℝ), X.shape = actIdx B A n c (D S) → (g X).shape = actIdx B' A' n c (out (D S)) ∧
      ∀ i < n, ∀ o < c, ∀ p, InRange p (out (D S)) → (g X).get (actIdx B' A' i o p) =
        ∑ u ∈ s (D S), w (D S) p u * readTap (fun q => X.get (actIdx B A i o q)) (t (D S) p u)) :
    Limit ok (fun n N' => ∃ N, P n N ∧ N' = N.mapOut g 1) B' A' r' (fun S => out (D S)) (linK s w t D K) := by
  have hval : ∀ N, P 1 N → ∀ a, Valid ok (fun S => out (D S)) a → ∀ c < N.channels, ∀ θ, val B' A' (N.mapOut g 1) a c θ =
      ∑ u ∈ s (D a.S), w (D a.S) a.p u * readTap (fun q => val B A N { a with p := q } c θ) (t (D a.S) a.p u) := fun N hN a ha c hc θ =>
    (hg a.x a.n a.S ha.ok N.channels (N.apply θ a.x) ((h.good N hN).shape _ _ _ ha.ok θ)).2 a.i ha.i c hc a.p ha.p
  refine ⟨hax, ?_, ?_, ?_⟩
  · rintro m n N' hmn ⟨N, hN, rfl⟩
    exact ⟨N, h.mono _ _ N hmn hN, rfl⟩
  · rintro N' ⟨N, hN, rfl⟩
    have hG := h.good N hN
    refine ⟨fun x n S hx θ => ?_, fun a ha c hc => ?_, by show 0 < N.channels * 1; rw [mul_one]; exact hG.pos⟩
    · show (g (N.apply θ x)).shape = actIdx B' A' n (N.channels * 1) _
      rw [mul_one]
      exact (hg x n S hx N.channels _ (hG.shape x n S hx θ)).1
    · have hc' : c < N.channels := by
        have : c < N.channels * 1 := hc
        rwa [mul_one] at this
      rw [funext (hval N hN a ha c hc')]
      refine Finset.measurable_sum _ fun u hu => Measurable.const_mul ?_ _
      rcases e : t (D a.S) a.p u with _ | p
      · exact measurable_const
      · exact hG.meas { a with p := p } ⟨ha.ok, ha.i, hr a.x a.n a.S ha.ok a.p ha.p u hu p e⟩ c hc'
  · intro a b ha hb ε δ hε hδ
    set W := ∑ u ∈ s (D a.S), ∑ v ∈ s (D b.S), |w (D a.S) a.p u * w (D b.S) b.p v| with hW
    have hW0 : 0 ≤ W := Finset.sum_nonneg fun u _ => Finset.sum_nonneg fun v _ => abs_nonneg _
    have hη : 0 < ε / (W + 1) := by positivity
    set I := s (D a.S) ×ˢ s (D b.S) with hI
    have hδ' : 0 < δ / (I.card + 1) := by positivity
    have each : ∀ e : ι × ι, ∃ m, e ∈ I → ∀ p q, t (D a.S) a.p e.1 = some p → t (D b.S) b.p e.2 = some q → ∀ N, P m N →
        N.law {θ | ε / (W + 1) ≤ |emp B A N { a with p := p } { b with p := q } θ - K { a with p := p } { b with p := q }|} ≤
          ENNReal.ofReal (δ / (I.card + 1)) := by
      intro e
      by_cases he : e ∈ I
      swap
      · exact ⟨0, fun h => absurd h he⟩
      obtain ⟨h1, h2⟩ := Finset.mem_product.1 he
      rcases e1 : t (D a.S) a.p e.1 with _ | p
      · exact ⟨0, fun _ p q h => by simp at h⟩
      rcases e2 : t (D b.S) b.p e.2 with _ | q
      · exact ⟨0, fun _ p q _ h => by simp at h⟩
      obtain ⟨m, hm⟩ := h.conv { a with p := p } { b with p := q } ⟨ha.ok, ha.i, hr _ _ _ ha.ok _ ha.p _ h1 p e1⟩
        ⟨hb.ok, hb.i, hr _ _ _ hb.ok _ hb.p _ h2 q e2⟩ _ _ hη hδ'
      refine ⟨m, fun _ p' q' h1 h2 => ?_⟩
      simp only [Option.some.injEq] at h1 h2
      subst h1 h2
      exact hm
    choose m hm using each
    refine ⟨max 1 (I.sup m), ?_⟩
    rintro N' ⟨N, hN, rfl⟩
    have hN1 := h.mono _ _ N (le_max_left _ _) hN
    have key : ∀ θ : N.E, emp B' A' (N.mapOut g 1) a b θ = linK s w t D (fun a b => emp B A N a b θ) a b := by
      intro θ
      unfold emp linK
      show (∑ c ∈ Finset.range (N.channels * 1), _) / ((N.channels * 1 : ℕ) : ℝ) = _
      rw [mul_one]
      have e1 : ∀ c ∈ Finset.range N.channels, val B' A' (N.mapOut g 1) a c θ * val B' A' (N.mapOut g 1) b c θ =
          ∑ u ∈ s (D a.S), ∑ v ∈ s (D b.S), w (D a.S) a.p u * w (D b.S) b.p v *
            read2 (fun p q => val B A N { a with p := p } c θ * val B A N { b with p := q } c θ) (t (D a.S) a.p u) (t (D b.S) b.p v) := by
        intro c hc
        have v1 := hval N hN1 a ha c (Finset.mem_range.1 hc) θ
        have v2 := hval N hN1 b hb c (Finset.mem_range.1 hc) θ
        refine (congrArg₂ (· * ·) v1 v2).trans ?_
        rw [Finset.sum_mul_sum]
        refine Finset.sum_congr rfl fun u _ => Finset.sum_congr rfl fun v _ => ?_
        rcases t (D a.S) a.p u with _ | p <;> rcases t (D b.S) b.p v with _ | q <;> simp only [readTap, read2] <;> ring
      rw [Finset.sum_congr rfl e1, Finset.sum_comm, Finset.sum_div]
      refine Finset.sum_congr rfl fun u _ => ?_
      rw [Finset.sum_comm, Finset.sum_div]
      refine Finset.sum_congr rfl fun v _ => ?_
      rw [← Finset.mul_sum, mul_div_assoc]
      congr 1
      rcases t (D a.S) a.p u with _ | p <;> rcases t (D b.S) b.p v with _ | q <;> simp [read2]
    refine union_small N.law I (fun e => {θ | ∃ p q, t (D a.S) a.p e.1 = some p ∧ t (D b.S) b.p e.2 = some q ∧
      ε / (W + 1) ≤ |emp B A N { a with p := p } { b with p := q } θ - K { a with p := p } { b with p := q }|}) _ hδ (fun θ hθ => ?_) fun e he => ?_
    · have hθ' : ε ≤ |emp B' A' (N.mapOut g 1) a b θ - linK s w t D K a b| := hθ
      rw [key θ] at hθ'
      obtain ⟨u, hu, v, hv, p, q, e1, e2, h3⟩ := lin_far hε hθ'
      exact Set.mem_biUnion (x := (u, v)) (Finset.mem_coe.2 (Finset.mem_product.2 ⟨hu, hv⟩)) ⟨p, q, e1, e2, h3⟩
    · rcases e1 : t (D a.S) a.p e.1 with _ | p
      · simp
      rcases e2 : t (D b.S) b.p e.2 with _ | q
      · simp
      refine (measure_mono fun θ hθ => ?_).trans (hm e he p q e1 e2 N (h.mono _ _ N ((Finset.le_sup he).trans (le_max_right _ _)) hN))
      obtain ⟨p', q', h1, h2, h5⟩ := hθ
      simp only [Option.some.injEq] at h1 h2
      subst h1 h2
      exact h5

/-- A pooling layer on top. -/
lemma limit_pool (h : Limit ok P B A r D K) (d : Pool) (hw : ∀ v ∈ d.window, 0 < v.1 ∧ 0 < v.2) (hl : d.window.length + 2 = r) (hB : d.batchAxis = B)
    (hA : (A : ℤ) = d.channelAxis % r) :
    Limit ok (fun n N' => ∃ N, P n N ∧ N' = N.mapOut d.apply 1) B A r (fun S => outDims d.padding (D S) d.window)
      (linK (fun _ => offsets d.window) (fun S o _ => (C54.denom d S o)⁻¹) (fun S o f => readIdx d.padding S d.window o f) D K) := by
  refine limit_lin h _ _ _ (fun S => outDims d.padding S d.window) d.apply ⟨h.axes.ne, h.axes.B, h.axes.A, fun x n S hx => ?_⟩ ?_ ?_
  · have h1 := h.axes.rank x n S hx
    rw [outDims_length _ _ _ (by omega)]
    exact h1
  · intro x n S hx o ho u _ p e
    have h1 := h.axes.rank x n S hx
    exact readIdx_inRange _ _ _ _ _ _ (fun v hv => hw v hv) (by omega) ho e
  · intro x n S hx c X hX
    have h1 := h.axes.rank x n S hx
    have hBr := h.axes.B
    have hne := h.axes.ne
    subst hB
    obtain ⟨e1, e2⟩ := C54.pool_apply_entries d X hw (D S) n c A (by omega) (by omega) (by rw [hA, ← h1]; push_cast; rfl) hne hX
    refine ⟨e1, fun i hi o ho p hp => ?_⟩
    rw [e2 i hi o ho p hp, div_eq_inv_mul, Finset.mul_sum]
    refine Finset.sum_congr rfl fun f _ => ?_
    congr 1

/-- A global pooling layer on top. -/
lemma limit_globalPool (h : Limit ok P B A r D K) (d : GlobalPool) (hB : (B : ℤ) = d.batchAxis % r) (hA : (A : ℤ) = d.channelAxis % r) :
    Limit ok (fun n N' => ∃ N, P n N ∧ N' = N.mapOut d.apply 1) (if B < A then 0 else 1) (if B < A then 1 else 0) 2 (fun _ => [])
      (linK (fun S => box S) (fun S _ _ => C54.weight d.type S) (fun _ _ p => some p) D K) := by
  refine limit_lin h _ _ _ (fun _ => []) d.apply ⟨by split_ifs <;> decide, by split_ifs <;> decide, by split_ifs <;> decide, fun x n S hx => rfl⟩ ?_ ?_
  · intro x n S hx o _ u hu p e
    simp only [Option.some.injEq] at e
    subst e
    exact mem_box.1 hu
  · intro x n S hx c X hX
    have h1 := h.axes.rank x n S hx
    have hBr := h.axes.B
    have hAr := h.axes.A
    obtain ⟨e1, e2⟩ := C54.global_apply_entries d X (D S) B A n c (by omega) (by omega) h.axes.ne (by rw [hB, ← h1]; push_cast; rfl)
      (by rw [hA, ← h1]; push_cast; rfl) hX
    have ax : ∀ i c : ℕ, actIdx (if B < A then 0 else 1) (if B < A then 1 else 0) i c [] = if B < A then [i, c] else [c, i] := by
      intro i c
      split_ifs <;> rfl
    refine ⟨by rw [e1, ax], fun i hi o ho p hp => ?_⟩
    rw [inRange_nil_right.1 hp, ax, e2, Finset.mul_sum]
    rfl

/-! ### Flatten -/

/-- The limit after flattening. -/
noncomputable def flatK (D : List ℕ → List ℕ) (K : Pt → Pt → ℝ) (a b : Pt) : ℝ :=
  (∑ p ∈ box (D a.S), K { a with p := p } { b with p := p }) / ((D a.S).prod : ℕ)

/-- A flattening layer on top, for inputs that give outputs of the same spatial shape. -/
lemma limit_flatten (h : Limit ok P B A r D K) (f : Flatten) {bo co : ℕ} (hf : f.axesOut = .ok (bo, co)) (hB : (B : ℤ) = f.batchAxis % r)
    {T : List ℕ} (hT : ∀ x n S, ok x n S → D S = T) (hpos : 0 ∉ T) (hbo : bo ≠ co ∧ bo < 2 ∧ co < 2) :
    Limit ok (fun n N' => ∃ N, P n N ∧ N' = N.mapOut (fun x => match f.apply x with
      | .ok z => z
      | .error _ => ⟨[], fun _ => 0⟩) T.prod) bo co 2 (fun _ => []) (flatK D K) := by
  have hTp : 0 < T.prod := Nat.pos_of_ne_zero fun h => hpos (List.prod_eq_zero_iff.1 h)
  have hTp' : (0 : ℝ) < (T.prod : ℕ) := by exact_mod_cast hTp
  have hBr := h.axes.B
  have hAr := h.axes.A
  refine ⟨⟨hbo.1, hbo.2.1, hbo.2.2, fun _ _ _ _ => rfl⟩, ?_, ?_, ?_⟩
  · rintro m n N' hmn ⟨N, hN, rfl⟩
    exact ⟨N, h.mono _ _ N hmn hN, rfl⟩
  · rintro N' ⟨N, hN, rfl⟩
    have hG := h.good N hN
    refine ⟨fun x n S hx θ => ?_, fun a ha c hc => ?_, Nat.mul_pos hG.pos hTp⟩
    · have h1 := h.axes.rank x n S hx
      have hsh := hG.shape x n S hx
      rw [hT x n S hx] at h1 hsh
      exact (C55.layerOut_shape f bo co hf (fun θ => N.apply θ x) B A n N.channels T (by omega) (by omega) h.axes.ne (by rw [hB, ← h1]; push_cast; rfl)
        hsh).1 θ
    · have h1 := h.axes.rank _ _ _ ha.ok
      have hsh := hG.shape _ _ _ ha.ok
      have hTa := hT _ _ _ ha.ok
      rw [hTa] at h1 hsh
      have hp : (T.insertIdx (newAxis A B) N.channels).prod = N.channels * T.prod := by
        have hA' : newAxis A B ≤ T.length := Inputs.newAxis_le h.axes.ne.symm (by omega) (by omega)
        rw [insertIdx_app _ _ _ hA', List.prod_append, List.prod_cons]
        conv_rhs => rw [← List.take_append_drop (newAxis A B) T, List.prod_append]
        ring
      have hA' : newAxis A B ≤ T.length := Inputs.newAxis_le h.axes.ne.symm (by omega) (by omega)
      have e := (C55.layerOut_shape f bo co hf (fun θ => N.apply θ a.x) B A a.n N.channels T (by omega) (by omega) h.axes.ne
        (by rw [hB, ← h1]; push_cast; rfl) hsh).2 a.i ha.i
      have hc' : c < (T.insertIdx (newAxis A B) N.channels).prod := by rw [hp]; exact hc
      have r1 := Arr.inRange_unravel hc'
      have e2 := e _ r1
      rw [Arr.ravel_unravel hc'] at e2
      obtain ⟨c', p, e3, hc2, hp2⟩ := inRange_insertIdx_right hA' r1
      have e4 : val bo co (N.mapOut (fun x => match f.apply x with
          | .ok z => z
          | .error _ => ⟨[], fun _ => 0⟩) T.prod) a c = val B A N { a with p := p } c' := by
        funext θ
        have hap : a.p = [] := inRange_nil_right.1 ha.p
        have : val bo co (N.mapOut (fun x => match f.apply x with
          | .ok z => z
          | .error _ => ⟨[], fun _ => 0⟩) T.prod) a c θ = chan (C55.layerOut f fun θ => N.apply θ a.x) bo co a.i c a.p θ := rfl
        rw [this, hap, e2 θ, e3]
        show (N.apply θ a.x).get _ = (N.apply θ a.x).get (actIdx B A a.i c' p)
        have hpl := hp2.length
        rw [actIdx_insert' B A a.i c' p h.axes.ne (by omega) (by omega)]
      rw [e4]
      exact hG.meas { a with p := p } ⟨ha.ok, ha.i, by show InRange p (D a.S); rw [hTa]; exact hp2⟩ c' hc2
  · intro a b ha hb ε δ hε hδ
    have hTa := hT _ _ _ ha.ok
    have hTb := hT _ _ _ hb.ok
    set I := box T with hI
    have hcard : I.card = T.prod := box_card _
    have hδ' : 0 < δ / (I.card + 1) := by positivity
    have each : ∀ p : List ℕ, ∃ m, p ∈ I → ∀ N, P m N →
        N.law {θ | ε ≤ |emp B A N { a with p := p } { b with p := p } θ - K { a with p := p } { b with p := p }|} ≤ ENNReal.ofReal (δ / (I.card + 1)) := by
      intro p
      by_cases hp : p ∈ I
      · have hp' := mem_box.1 hp
        obtain ⟨m, hm⟩ := h.conv { a with p := p } { b with p := p } ⟨ha.ok, ha.i, by show InRange p (D a.S); rw [hTa]; exact hp'⟩
          ⟨hb.ok, hb.i, by show InRange p (D b.S); rw [hTb]; exact hp'⟩ _ _ hε hδ'
        exact ⟨m, fun _ => hm⟩
      · exact ⟨0, fun h => absurd h hp⟩
    choose m hm using each
    refine ⟨max 1 (I.sup m), ?_⟩
    rintro N' ⟨N, hN, rfl⟩
    have hG := h.good N (h.mono _ _ N (le_max_left _ _) hN)
    refine union_small N.law I (fun p => {θ | ε ≤ |emp B A N { a with p := p } { b with p := p } θ - K { a with p := p } { b with p := p }|}) _ hδ
      (fun θ hθ => ?_) fun p hp => hm p hp N (h.mono _ _ N ((Finset.le_sup hp).trans (le_max_right _ _)) hN)
    by_contra hc
    simp only [Set.mem_iUnion, Set.mem_ofPred_eq, exists_prop, not_exists, not_and, not_le] at hc
    have h1 := h.axes.rank _ _ _ ha.ok
    have sa := hG.shape _ _ _ ha.ok
    have sb := hG.shape _ _ _ hb.ok
    rw [hTa] at h1 sa
    rw [hTb] at sb
    have eg := C55.sum_channels f bo co hf (fun θ => N.apply θ a.x) (fun θ => N.apply θ b.x) B A a.n b.n N.channels T (by omega) (by omega) h.axes.ne
      (by rw [hB, ← h1]; push_cast; rfl) sa sb a.i b.i ha.i hb.i (fun u v => u θ * v θ)
      (fun _ p q => emp B A N { a with p := p } { b with p := q } θ) (fun p _ => rfl)
    have hap : a.p = [] := inRange_nil_right.1 ha.p
    have hbp : b.p = [] := inRange_nil_right.1 hb.p
    have hθ' : ε ≤ |(∑ c ∈ Finset.range (N.channels * T.prod), chan (C55.layerOut f fun θ => N.apply θ a.x) bo co a.i c a.p θ *
      chan (C55.layerOut f fun θ => N.apply θ b.x) bo co b.i c b.p θ) / ((N.channels * T.prod : ℕ) : ℝ) - flatK D K a b| := hθ
    rw [hap, hbp, ← eg, flatK, hTa, C55.avg, ← sub_div, ← Finset.sum_sub_distrib, abs_div, abs_of_pos hTp', le_div_iff₀ hTp'] at hθ'
    have hne' : (box T).Nonempty := by rw [← Finset.card_pos, ← hI, hcard]; exact hTp
    have := (Finset.abs_sum_le_sum_abs (fun p => emp B A N { a with p := p } { b with p := p } θ - K { a with p := p } { b with p := p }) (box T)).trans_lt
      (Finset.sum_lt_sum_of_nonempty hne' (g := fun _ => ε) fun p hp => hc p hp)
    rw [Finset.sum_const, ← hI, hcard, nsmul_eq_mul] at this
    linarith

end NT.WideDeep
