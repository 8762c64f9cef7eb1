import Verif.Tac
import Verif.Lemmas.WideConv

/-!
# Convergence of the channel averages, by induction over the stages
-/

set_option linter.unusedSectionVars false

namespace NT.WideConv
open _root_.NT.Wide (fn measurable_denseIn measurable_rowOut E2_psd forall₂_snoc)
open NT Gauss Spec MeasureTheory ProbabilityTheory

variable {B A C r : ℕ} {D : List ℕ → List ℕ}

/-- Finitely many events that are each unlikely are unlikely together. -/
lemma union_small {α ι : Type} [MeasurableSpace α] (μ : Measure α) (I : Finset ι) (S : ι → Set α) (T : Set α) {δ : ℝ} (hδ : 0 < δ)
    (hT : T ⊆ ⋃ e ∈ I, S e) (h : ∀ e ∈ I, μ (S e) ≤ ENNReal.ofReal (δ / (I.card + 1))) : μ T ≤ ENNReal.ofReal δ := by
  refine (measure_mono hT).trans ((measure_biUnion_finset_le I _).trans ((Finset.sum_le_sum h).trans ?_))
  rw [Finset.sum_const, ← ENNReal.ofReal_nsmul]
  refine ENNReal.ofReal_le_ofReal ?_
  rw [nsmul_eq_mul, mul_div_assoc', div_le_iff₀ (by positivity)]
  nlinarith

/-- Channel averages of products converge in probability to the limit, uniformly in how the widths grow. -/
theorem tends (hC : 0 < C) (hne : B ≠ A) (hB : B < r) (hA : A < r) (l : List ConvStage) (hl : ∀ s ∈ l, Smooth r s) {a b : Pt}
    (ha : a.Valid B A C r (dimsAfter l)) (hb : b.Valid B A C r (dimsAfter l))
    {ε δ : ℝ} (hε : 0 < ε) (hδ : 0 < δ) : ∃ n0, ∀ ds, List.Forall₂ (fun d s => ConvStage.Fits B A n0 d s) ds l →
      (drawConv C r ds).law {θ | ε ≤ |emp B A (drawConv C r ds) a b θ - lim B A C l a b|} ≤ ENNReal.ofReal δ := by
  induction l using List.reverseRecOn generalizing a b ε δ with
  | nil =>
    refine ⟨0, fun ds h => ?_⟩
    cases h
    have : {θ : (drawConv C r []).E | ε ≤ |emp B A (drawConv C r []) a b θ - lim B A C [] a b|} = ∅ := by
      refine Set.eq_empty_of_forall_notMem fun θ hθ => ?_
      have e : emp B A (drawConv C r []) a b θ = lim B A C [] a b := rfl
      rw [Set.mem_ofPred_eq, e, sub_self, abs_zero] at hθ
      exact absurd hθ (not_le.2 hε)
    rw [this]
    simp
  | append_singleton l s ih =>
    have hl' : ∀ t ∈ l, Smooth r t := fun t ht => hl t (by simp [ht])
    have hs := hl s (by simp)
    obtain ⟨η, hη, n0, key⟩ := wide_step hs.cont hs.cont hs.tame hs.tame (pre_psd s (dimsAfter l) (lim_psd (B := B) (A := A) (C := C) l hl') a b) hε
      (half_pos hδ)
    have hw : 0 < s.wStd ^ 2 + 1 := by positivity
    have hη' : 0 < η / (s.wStd ^ 2 + 1) := by positivity
    -- the covariances of all positions that are read
    have step : ∀ {a b : Pt}, a.Valid B A C r (dimsAfter (l ++ [s])) → b.Valid B A C r (dimsAfter (l ++ [s])) → ∃ m, ∀ ds,
        List.Forall₂ (fun d s => ConvStage.Fits B A m d s) ds l → (drawConv C r ds).law {θ | η ≤ |pre s (dimsAfter l)
          (fun a b => emp B A (drawConv C r ds) a b θ) a b - pre s (dimsAfter l) (lim B A C l) a b|} ≤ ENNReal.ofReal (δ / 6) := by
      intro a b ha hb
      have hδ' : 0 < δ / 6 / ((offsets s.filter).card + 1) := by positivity
      have each : ∀ f : List ℕ, ∃ m, ∀ p q, readIdx s.padding (dimsAfter l a.S) s.filter a.p f = some p →
          readIdx s.padding (dimsAfter l b.S) s.filter b.p f = some q → InRange p (dimsAfter l a.S) → InRange q (dimsAfter l b.S) → ∀ ds,
          List.Forall₂ (fun d s => ConvStage.Fits B A m d s) ds l → (drawConv C r ds).law {θ | η / (s.wStd ^ 2 + 1) ≤
            |emp B A (drawConv C r ds) { a with p := p } { b with p := q } θ - lim B A C l { a with p := p } { b with p := q }|} ≤
              ENNReal.ofReal (δ / 6 / ((offsets s.filter).card + 1)) := by
        intro f
        rcases e1 : readIdx s.padding (dimsAfter l a.S) s.filter a.p f with _ | p
        · exact ⟨0, fun p q h => by simp at h⟩
        rcases e2 : readIdx s.padding (dimsAfter l b.S) s.filter b.p f with _ | q
        · exact ⟨0, fun p q _ h => by simp at h⟩
        by_cases hp : InRange p (dimsAfter l a.S) ∧ InRange q (dimsAfter l b.S)
        · obtain ⟨m, hm⟩ := ih hl' (a := { a with p := p }) (b := { b with p := q }) ⟨ha.rank, ha.shape, ha.i, hp.1⟩ ⟨hb.rank, hb.shape, hb.i, hp.2⟩ hη' hδ'
          refine ⟨m, fun p' q' h1 h2 _ _ => ?_⟩
          simp only [Option.some.injEq] at h1 h2
          subst h1 h2
          exact hm
        · refine ⟨0, fun p' q' h1 h2 h3 h4 => ?_⟩
          simp only [Option.some.injEq] at h1 h2
          subst h1 h2
          exact absurd ⟨h3, h4⟩ hp
      choose m hm using each
      refine ⟨max 1 ((offsets s.filter).sup m), fun ds hds => ?_⟩
      have hN := good_draw hC hne hB hA l hl' one_pos (hds.imp fun d s hf => Fits.mono (le_max_left _ _) hf)
      have hda := hN.rank a.S ha.rank
      have hdb := hN.rank b.S hb.rank
      have hpa := ha.p
      have hpb := hb.p
      rw [dims_snoc] at hpa hpb
      refine union_small _ (offsets s.filter) (fun f => {θ | ∃ p q, readIdx s.padding (dimsAfter l a.S) s.filter a.p f = some p ∧
        readIdx s.padding (dimsAfter l b.S) s.filter b.p f = some q ∧ InRange p (dimsAfter l a.S) ∧ InRange q (dimsAfter l b.S) ∧
        η / (s.wStd ^ 2 + 1) ≤ |emp B A (drawConv C r ds) { a with p := p } { b with p := q } θ - lim B A C l { a with p := p } { b with p := q }|}) _
        (by positivity) (fun θ hθ => ?_) fun f hf => ?_
      · simp only [Set.mem_ofPred_eq, pre] at hθ
        rw [show ∀ w x y t : ℝ, w * x + t - (w * y + t) = w * (x - y) from fun w x y t => by ring, abs_mul, abs_of_nonneg (sq_nonneg _)] at hθ
        have h1 : η / (s.wStd ^ 2 + 1) ≤ |mix s (dimsAfter l) (fun a b => emp B A (drawConv C r ds) a b θ) a b - mix s (dimsAfter l) (lim B A C l) a b| := by
          rw [div_le_iff₀ hw]
          nlinarith [abs_nonneg (mix s (dimsAfter l) (fun a b => emp B A (drawConv C r ds) a b θ) a b - mix s (dimsAfter l) (lim B A C l) a b)]
        obtain ⟨f, hf, p, q, e⟩ := mix_far hs hda hdb hpa hpb hη' h1
        exact Set.mem_biUnion hf ⟨p, q, e⟩
      · rcases e1 : readIdx s.padding (dimsAfter l a.S) s.filter a.p f with _ | p
        · simp
        rcases e2 : readIdx s.padding (dimsAfter l b.S) s.filter b.p f with _ | q
        · simp
        by_cases hp : InRange p (dimsAfter l a.S) ∧ InRange q (dimsAfter l b.S)
        · refine (measure_mono fun θ hθ => ?_).trans (hm f p q e1 e2 hp.1 hp.2 ds (hds.imp fun d s hf' => Fits.mono ((Finset.le_sup hf).trans (le_max_right _ _)) hf'))
          obtain ⟨p', q', h1, h2, -, -, h5⟩ := hθ
          simp only [Option.some.injEq] at h1 h2
          subst h1 h2
          exact h5
        · refine (measure_mono (t := ∅) fun θ hθ => ?_).trans (by simp)
          obtain ⟨p', q', h1, h2, h3, h4, -⟩ := hθ
          simp only [Option.some.injEq] at h1 h2
          subst h1 h2
          exact hp ⟨h3, h4⟩
    obtain ⟨n1, h1⟩ := step ha ha
    obtain ⟨n2, h2⟩ := step ha hb
    obtain ⟨n3, h3⟩ := step hb hb
    refine ⟨max (max n0 1) (max n1 (max n2 n3)), fun ds h => ?_⟩
    obtain ⟨ds, d, rfl, hds, hd⟩ := forall₂_snoc h
    have hm : ∀ m, m ≤ max (max n0 1) (max n1 (max n2 n3)) → List.Forall₂ (fun d s => ConvStage.Fits B A m d s) ds l :=
      fun m hm => hds.imp fun d s hf => Fits.mono hm hf
    have hok := Fits.ok (n := 1) one_pos hs (Fits.mono (by simp) hd)
    have hN := good_draw hC hne hB hA l hl' one_pos (hm 1 (by simp))
    rw [← next_eq hd] at ha hb
    have hwd := C53.toDense_width d.1 hok.shared
    rw [draw_snoc, lim_snoc, grow_event hN hne hB hA hok (by rw [hd.act]; exact hs.tame.meas) ha hb, hd.act]
    refine (key _ _ (Fin (C53.toDense d.1).width) _ (drawConv C r ds).law (normalVector (C52.initVar (C53.toDense d.1))) (denseVar (C53.toDense d.1) _) _ _ _
      (dense_rows (C53.toDense d.1)) (measurable_denseIn (C53.toDense d.1) _ _ fun k hk => patch_meas hN hok ha k hk)
      (measurable_denseIn (C53.toDense d.1) _ _ fun k hk => patch_meas hN hok hb k hk)
      (by rw [Fintype.card_fin, hwd]; exact hok.wide) (by rw [Fintype.card_fin, hwd]; exact le_trans (by simp) hd.wide)).trans ?_
    have tr : ∀ {a b : Pt}, a.Valid B A C r (next d.1 (dimsAfter l)) → b.Valid B A C r (next d.1 (dimsAfter l)) → ∀ n, n ≤ max (max n0 1) (max n1 (max n2 n3)) →
        (∀ ds, List.Forall₂ (fun d s => ConvStage.Fits B A n d s) ds l → (drawConv C r ds).law {θ | η ≤ |pre s (dimsAfter l)
          (fun a b => emp B A (drawConv C r ds) a b θ) a b - pre s (dimsAfter l) (lim B A C l) a b|} ≤ ENNReal.ofReal (δ / 6)) →
        (drawConv C r ds).law {θ | η ≤ |∑ k, denseVar (C53.toDense d.1) (d.1.fanIn (drawConv C r ds).channels) k *
          (denseIn (C53.toDense d.1) _ (fun k => patch d.1 (drawConv C r ds) (dimsAfter l) a k θ) k *
          denseIn (C53.toDense d.1) _ (fun k => patch d.1 (drawConv C r ds) (dimsAfter l) b k θ) k) - pre s (dimsAfter l) (lim B A C l) a b|} ≤
            ENNReal.ofReal (δ / 6) := by
      intro a b ha hb n hn hle
      refine (measure_mono fun θ hθ => ?_).trans (hle ds (hm n hn))
      simp only [Set.mem_ofPred_eq] at hθ ⊢
      rwa [rowCov_patch hN hok hd ha hb] at hθ
    have t1 := tr ha ha n1 (by simp) h1
    have t2 := tr ha hb n2 (by simp) h2
    have t3 := tr hb hb n3 (by simp) h3
    refine (add_le_add (dist_event _ _ _ η) le_rfl).trans ((add_le_add (add_le_add t1 (add_le_add t2 t3)) le_rfl).trans ?_)
    rw [← ENNReal.ofReal_add (by positivity) (by positivity), ← ENNReal.ofReal_add (by positivity) (by positivity),
      ← ENNReal.ofReal_add (by positivity) (by positivity)]
    refine ENNReal.ofReal_le_ofReal (by linarith)

end NT.WideConv
