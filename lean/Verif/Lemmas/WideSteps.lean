import Verif.Tac
import Verif.Lemmas.WideTangent
import Verif.Lemmas.WideLoc

/-!
# Stages to which the convergence of the tangent kernel applies
-/

set_option linter.unusedSectionVars false

namespace NT.Wide
open NT Gauss Spec MeasureTheory ProbabilityTheory C52 Topology

variable {B A C r : ℕ}

/-- The nonlinearity is differentiable everywhere with continuous derivative. -/
structure Plain (s : NtkStage) : Prop where
  deriv : ∀ x, HasDerivAt (fn s.act) (dfn s x) x
  cont : Continuous (dfn s)

/-- The nonlinearity is differentiable almost everywhere, and the outputs of the layer are random. -/
structure Kinked (s : NtkStage) : Prop where
  weight : s.wStd ≠ 0
  bias : ∀ b, s.bStd = some b → b ≠ 0
  deriv : volume {x | ¬ HasDerivAt (fn s.act) (dfn s x) x} = 0
  cont : volume {x | ¬ ContinuousAt (dfn s) x} = 0
  zeros : RareZeros (fn s.act)
  nonzero : volume {x | fn s.act x ≠ 0} ≠ 0

lemma limK_psd {l : List NtkStage} (hl : ∀ s ∈ l, Tangent s) (a b : Pt) : Psd (limK B A C l a a, limK B A C l a b, limK B A C l b b) := by
  refine lim_psd _ (fun t ht => ?_) a b
  obtain ⟨t, hmem, rfl⟩ := List.mem_map.1 ht
  exact (hl t hmem).smooth

lemma mem_prefix {l' l : List NtkStage} {s : NtkStage} (h : l' ++ [s] <+: l) : (∀ t ∈ l', t ∈ l) ∧ s ∈ l :=
  ⟨fun t ht => h.subset (by simp [ht]), h.subset (by simp)⟩

lemma good_ntk (hC : 0 < C) (hne : B ≠ A) (hB : B < r) {l : List NtkStage} (hl : ∀ s ∈ l, Tangent s) {ds : List (Dense × Option Act)}
    (h : List.Forall₂ (fun d s => Stage.Fits r A 1 d s) ds (l.map NtkStage.toStage)) : Good B A C r (draw C r A ds) := by
  refine good_draw hC hne hB _ (fun t ht => ?_) one_pos h
  obtain ⟨t, hmem, rfl⟩ := List.mem_map.1 ht
  exact (hl t hmem).smooth

lemma diff_grow {N : RandomNet} (hN : Good B A C r N) (hD : Diff B A C r N) (hne : B ≠ A) (hB : B < r) {d : Dense × Option Act} (hd : DenseOk A r d.1)
    {dφ : ℝ → ℝ} (hm : Measurable dφ) (hc : Chains B A C r (N.dense d.1 r A) (fn d.2) dφ) : Diff B A C r (grow r A N d) := by
  obtain ⟨d, _ | f⟩ := d
  · exact diff_dense hN hD hne hB hd
  · exact diff_act (good_dense hN hne hB hd) (diff_dense hN hD hne hB hd) hm hc

lemma diff_plain (hC : 0 < C) (hne : B ≠ A) (hB : B < r) {l : List NtkStage} (hl : ∀ s ∈ l, Tangent s) (hp : ∀ s ∈ l, Plain s) {ds : List (Dense × Option Act)}
    (h : List.Forall₂ (fun d s => Stage.Fits r A 1 d s) ds (l.map NtkStage.toStage)) : Diff B A C r (draw C r A ds) := by
  induction l using List.reverseRecOn generalizing ds with
  | nil =>
    cases h
    exact diff_input
  | append_singleton l s ih =>
    rw [List.map_append, List.map_singleton] at h
    obtain ⟨ds, d, rfl, h1, h2⟩ := forall₂_snoc h
    have hl' : ∀ t ∈ l, Tangent t := fun t ht => hl t (by simp [ht])
    have hD := ih hl' (fun t ht => hp t (by simp [ht])) h1
    have hN := good_ntk hC hne hB hl' h1
    have hok := Fits.ok (n := 1) one_pos h2
    rw [draw_snoc]
    refine diff_grow hN hD hne hB hok (hl s (by simp)).meas ?_
    rw [h2.act]
    exact chains_smooth (diff_dense hN hD hne hB hok) (hp s (by simp)).deriv

/-- Networks with differentiable nonlinearities. -/
lemma steps_plain (hC : 0 < C) (hne : B ≠ A) (hB : B < r) {l : List NtkStage} (hl : ∀ s ∈ l, Tangent s) (hp : ∀ s ∈ l, Plain s) (a b : Pt) :
    Steps B A C r a b l := by
  intro l' s hpre
  obtain ⟨hm, hsm⟩ := mem_prefix hpre
  have hl' : ∀ t ∈ l', Tangent t := fun t ht => hl t (hm t ht)
  have hs := hl s hsm
  constructor
  · obtain ⟨M, hM⟩ := hs.bound
    have ht : Tame (dfn s) := Tame.of_bounded hs.meas M hM
    exact E2_cont (hp s hsm).cont (hp s hsm).cont ht ht (pre_psd s.toStage (limK_psd hl' a b))
  · intro ds d hds hd
    have hD := diff_plain hC hne hB hl' (fun t ht => hp t (hm t ht)) hds
    exact ⟨hD, chains_smooth (diff_dense (good_ntk hC hne hB hl' hds) hD hne hB (Fits.ok one_pos hd)) (hp s hsm).deriv⟩

lemma Kinked.alive {s : NtkStage} (h : Kinked s) {d : Dense × Option Act} {n : ℕ} (hd : Stage.Fits r A n d s.toStage) : Alive d.1 :=
  ⟨by rw [hd.wStd]; exact h.weight, by rw [hd.bStd]; exact h.bias⟩

lemma diff_kinked (hC : 0 < C) (hne : B ≠ A) (hB : B < r) {l : List NtkStage} (hl : ∀ s ∈ l, Tangent s) (hp : ∀ s ∈ l, Kinked s) {ds : List (Dense × Option Act)}
    (h : List.Forall₂ (fun d s => Stage.Fits r A 1 d s) ds (l.map NtkStage.toStage)) : Diff B A C r (draw C r A ds) ∧ Loc B A C r (draw C r A ds) := by
  induction l using List.reverseRecOn generalizing ds with
  | nil =>
    cases h
    exact ⟨diff_input, loc_input⟩
  | append_singleton l s ih =>
    rw [List.map_append, List.map_singleton] at h
    obtain ⟨ds, d, rfl, h1, h2⟩ := forall₂_snoc h
    have hl' : ∀ t ∈ l, Tangent t := fun t ht => hl t (by simp [ht])
    obtain ⟨hD, hL⟩ := ih hl' (fun t ht => hp t (by simp [ht])) h1
    have hN := good_ntk hC hne hB hl' h1
    have hok := Fits.ok (n := 1) one_pos h2
    have hk := hp s (by simp)
    have hv := hk.alive h2
    rw [draw_snoc]
    refine ⟨diff_grow hN hD hne hB hok (hl s (by simp)).meas (by rw [h2.act]; exact chains_ae hN hL hD hne hB hok hv hk.deriv), ?_⟩
    have hz := hk.zeros
    rw [← h2.act] at hz
    obtain ⟨d, _ | f⟩ := d
    · exact loc_dense hN hL hne hB hok hv
    · exact loc_act hN hL hD hne hB hok hv hz

lemma limK_nonneg {l : List NtkStage} (hl : ∀ s ∈ l, Tangent s) (a : Pt) : 0 ≤ limK B A C l a a := (limK_psd hl a a).1

/-- The input at the point is not zero, or all layers have biases. -/
def Awake (B A C : ℕ) (l : List NtkStage) (a : Pt) : Prop :=
  (∃ c < C, a.x.get (actIdx B A a.i c a.p) ≠ 0) ∨ ∀ s ∈ l, s.bStd.isSome

lemma limK_pos {l : List NtkStage} (hl : ∀ s ∈ l, Tangent s) (hk : ∀ s ∈ l, Kinked s) {a : Pt} (h : ∃ c < C, a.x.get (actIdx B A a.i c a.p) ≠ 0) :
    0 < limK B A C l a a := by
  induction l using List.reverseRecOn with
  | nil =>
    obtain ⟨c, hc, h⟩ := h
    show 0 < (∑ c ∈ Finset.range C, a.x.get (actIdx B A a.i c a.p) * a.x.get (actIdx B A a.i c a.p)) / (C : ℝ)
    have hC : (0 : ℝ) < C := by exact_mod_cast (Nat.zero_le c).trans_lt hc
    refine div_pos (Finset.sum_pos' (fun c _ => mul_self_nonneg _) ⟨c, Finset.mem_range.2 hc, ?_⟩) hC
    exact mul_self_pos.2 h
  | append_singleton l s ih =>
    have hl' : ∀ t ∈ l, Tangent t := fun t ht => hl t (by simp [ht])
    have i := ih hl' fun t ht => hk t (by simp [ht])
    rw [limK_snoc]
    have hp : 0 < pre s.toStage (limK B A C l) a a := by
      have := (hk s (by simp)).weight
      rw [pre]
      positivity
    exact E2_pos (hl s (by simp)).smooth.tame (hk s (by simp)).nonzero hp

lemma pre_pos {l : List NtkStage} (hl : ∀ s ∈ l, Tangent s) (hk : ∀ s ∈ l, Kinked s) {a : Pt} (h : Awake B A C l a) {l' : List NtkStage} {s : NtkStage}
    (hp : l' ++ [s] <+: l) : 0 < pre s.toStage (limK B A C l') a a := by
  obtain ⟨hm, hsm⟩ := mem_prefix hp
  have hl' : ∀ t ∈ l', Tangent t := fun t ht => hl t (hm t ht)
  rw [pre]
  rcases h with h | h
  · have := limK_pos hl' (fun t ht => hk t (hm t ht)) h
    have := (hk s hsm).weight
    positivity
  · obtain ⟨b, hb⟩ := Option.isSome_iff_exists.1 (h s hsm)
    have h0 := limK_nonneg (B := B) (A := A) (C := C) hl' a
    have hb0 := (hk s hsm).bias b hb
    rw [hb, Option.getD_some]
    positivity

/-- Networks with nonlinearities that are differentiable almost everywhere. -/
lemma steps_kinked (hC : 0 < C) (hne : B ≠ A) (hB : B < r) {l : List NtkStage} (hl : ∀ s ∈ l, Tangent s) (hk : ∀ s ∈ l, Kinked s) {a b : Pt}
    (ha : Awake B A C l a) (hb : Awake B A C l b) : Steps B A C r a b l := by
  intro l' s hpre
  obtain ⟨hm, hsm⟩ := mem_prefix hpre
  have hl' : ∀ t ∈ l', Tangent t := fun t ht => hl t (hm t ht)
  have hs := hl s hsm
  constructor
  · obtain ⟨M, hM⟩ := hs.bound
    exact E2_cont_ae hs.meas hs.meas hM hM (hk s hsm).cont (hk s hsm).cont (pre_psd s.toStage (limK_psd hl' a b)) (pre_pos hl hk ha hpre) (pre_pos hl hk hb hpre)
  · intro ds d hds hd
    obtain ⟨hD, hL⟩ := diff_kinked hC hne hB hl' (fun t ht => hk t (hm t ht)) hds
    exact ⟨hD, chains_ae (good_ntk hC hne hB hl' hds) hL hD hne hB (Fits.ok one_pos hd) ((hk s hsm).alive hd) (hk s hsm).deriv⟩

end NT.Wide
