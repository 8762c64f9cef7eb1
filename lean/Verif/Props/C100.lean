import Verif.Lemmas.MaskedApply2
import Verif.Props.C99

/-!
# C100: finite networks ignore padding

`apply_fn(params, x, mask_constant=m)` on a batch of examples of different sizes, padded with `m`, returns for every example what `apply_fn(params, y)` returns for
that example alone, and a mask of the padding.
-/

namespace NT.C100
open NT NT.Network Arr Spec Masked

lemma all_rank {ls : List ALayer} {f g : Format} (hs : AcceptsAll ls f g) : f.Ok → g.rank ≤ f.rank := by
  induction hs with
  | nil => exact fun _ => le_rfl
  | cons h1 _ ih => exact fun hf => (ih (accepts_ok h1 hf).1).trans (accepts_ok h1 hf).2

lemma apply_all {mc : ℝ} {ls : List ALayer} {f g : Format} (hs : AcceptsAll ls f g) : ∀ {n i : ℕ} {S : List ℕ} {len : ℕ → List ℕ} {X Y : Arr ℝ} {m : Arr Bool}
    {a b : Arg}, ls ≠ [] → f.Ok → getMaskedArray (some mc) a = ⟨X, some m⟩ → getMaskedArray none b = ⟨Y, none⟩ → In f n i S len X m Y → i < n →
    (∀ j < n, 0 ∉ len j) → g.Ok ∧ ∃ X' M Y', applyAll (some mc) ls a = .ok (.masked ⟨X', some M⟩) ∧ applyAll none ls b = .ok (.array Y') ∧
      Out g n i (S.take g.rank) (fun j => (len j).take g.rank) X' M Y' := by
  induction hs with
  | nil => intro n i S len X Y m a b h; exact absurd rfl h
  | @cons l ls f g k hl hls ih =>
    intro n i S len X Y m a b _ hf ha hb hin hi hpos
    obtain ⟨hg, hr⟩ := accepts_ok hl hf
    obtain ⟨X', m', Y', ⟨t1, t2, t3⟩, o⟩ := apply_step hl hf hin hi hpos
    have e1 : l.applyWithMasking (some mc) a = .ok (.masked ⟨X', some m'⟩) := by
      simp only [ALayer.applyWithMasking, ha, t1, onMask, t2]
      rfl
    have e2 : l.applyWithMasking none b = .ok (.array Y') := by
      simp only [ALayer.applyWithMasking, hb, t3, onMask]
      rfl
    simp only [applyAll, e1, e2]
    by_cases hn : ls = []
    · subst hn
      cases hls
      exact ⟨hg, X', m', Y', rfl, rfl, o⟩
    · obtain ⟨hk, X'', M, Y'', q1, q2, q3⟩ := ih (a := .masked ⟨X', some m'⟩) (b := .array Y') hn hg rfl rfl (o.remask hg hi) hi
        fun j hj h0 => hpos j hj (List.mem_of_mem_take h0)
      have hkr : k.rank ≤ g.rank := all_rank hls hg
      refine ⟨hk, X'', M, Y'', q1, q2, ?_⟩
      simpa only [List.take_take, Nat.min_eq_left hkr] using q3

lemma input_in {mc : ℝ} {x y : Arr ℝ} {B A n C i : ℕ} {S : List ℕ} {len : ℕ → List ℕ} (h : PaddedWith mc x B A n C S len) (hy : ExampleOf y x B A i C len)
    (hi : i < n) : In ⟨B, A, C, C, S.length⟩ n i S len (x.map fun v => if v = mc then 0 else v) (x.map fun v => decide (v = mc)) y := by
  refine ⟨⟨h.shape, mask_ok h, hy.shape, fun c hc p hp => ?_, rfl, h.fits⟩, fun j hj c hc p hp hn => ?_⟩
  · simp only [Arr.map]
    rw [hy.value c hc p hp, if_neg fun e => (h.value i hi c hc p (inRange_le hp (h.fits i hi))).1 e hp]
  · simp only [Arr.map]
    exact if_pos ((h.value j hj c hc p hp).2 hn)

/-- For a batch of examples of any rank and any positive sizes, padded to a common shape with the value `m`, any positions of the batch and channel axes, and a
network of any depth of `Dense`, `Conv` and local pooling with padding `'SAME'`, nonlinearities of any kind, `Dropout` in test mode, `Identity`, `LayerNorm` over the channels and
global pooling, with any parameters of fitting shapes (`AcceptsAll`): `apply_fn(params, x, mask_constant=m)` returns a `MaskedArray` whose mask marks exactly the padding, and whose
entries for example `i` are those which `apply_fn(params, y)` returns for the example alone; `unmask_fn(apply_fn)` returns the same entries and zeros at the
padding. -/
theorem finite_network_padding_partial (m : ℝ) (x : Arr ℝ) (B A n C : ℕ) (S : List ℕ) (len : ℕ → List ℕ) (hB : B < S.length + 2) (hA : A < S.length + 2)
    (hne : B ≠ A) (hC : 0 < C) (hx : PaddedWith m x B A n C S len) (hpos : ∀ j < n, 0 ∉ len j) {net : List ALayer} {g : Format} (hn : net ≠ [])
    (h : AcceptsAll net ⟨B, A, C, C, S.length⟩ g) (i : ℕ) (hi : i < n) (y : Arr ℝ) (hy : ExampleOf y x B A i C len) :
    ∃ X M Y, applyAll (some m) net (.array x) = .ok (.masked ⟨X, some M⟩) ∧ applyAll none net (.array y) = .ok (.array Y) ∧
      X.shape = actIdx g.batchAxis g.channelAxis n g.channels (S.take g.rank) ∧
      M.shape = actIdx g.batchAxis g.channelAxis n g.maskChannels (S.take g.rank) ∧
      Y.shape = actIdx g.batchAxis g.channelAxis 1 g.channels ((len i).take g.rank) ∧
      (unmask (.masked ⟨X, some M⟩)).shape = X.shape ∧
      (∀ j < n, ∀ c < g.maskChannels, ∀ p, InRange p (S.take g.rank) →
        (M.get (actIdx g.batchAxis g.channelAxis j c p) = true ↔ ¬InRange p ((len j).take g.rank))) ∧
      (∀ c < g.channels, ∀ p, InRange p ((len i).take g.rank) →
        X.get (actIdx g.batchAxis g.channelAxis i c p) = Y.get (actIdx g.batchAxis g.channelAxis 0 c p)) ∧
      ∀ c < g.channels, ∀ p, InRange p (S.take g.rank) → (unmask (.masked ⟨X, some M⟩)).get (actIdx g.batchAxis g.channelAxis i c p) =
        if InRange p ((len i).take g.rank) then Y.get (actIdx g.batchAxis g.channelAxis 0 c p) else 0 := by
  obtain ⟨hg, X, M, Y, e1, e2, o⟩ := apply_all (mc := m) (a := .array x) (b := .array y) h hn ⟨hne, hB, hA, .inr rfl, hC⟩ rfl rfl (input_in hx hy hi) hi hpos
  obtain ⟨u1, u2⟩ := mask_entries hg o.rank o.shape o.mask
  refine ⟨X, M, Y, e1, e2, o.shape, o.mask.shape, o.alone, u1, fun j hj c hc p hp => ?_, o.same, fun c hc p hp => ?_⟩
  · rw [o.mask.get j hj c hc p hp]
    simp [padding]
  · refine (u2 i hi c hc p hp).trans ?_
    split
    · next hin => exact o.same c hc p hin
    · rfl

/-! ### A concrete case: sentences of lengths 3 and 1 -/

/-- `serial(Conv, LayerNorm, φ, Dropout, SumPool, Identity, GlobalAvgPool, Dense)` with any parameters and any nonlinearity. -/
noncomputable def finite (W1 b1 W2 : Arr ℝ) (φ : ℝ → ℝ) : List ALayer :=
  [.conv C99.conv8 W1 (some b1), .layerNorm [-1] 0, .act φ, .dropout ⟨1/2, .test⟩ (fun _ => true), .pool ⟨.sum, [(2, 1)], .same, false, 0, -1⟩, .identity,
   .globalPool ⟨.avg, 0, -1⟩, .dense C80.dense8 W2 none]

/-- The network accepts sentences of two channels. -/
lemma finite_accepts (W1 b1 W2 : Arr ℝ) (φ : ℝ → ℝ) (h1 : W1.shape = [3, 2, 8]) (hb : b1.shape = [1, 1, 8]) (h2 : W2.shape = [8, 4]) :
    AcceptsAll (finite W1 b1 W2 φ) ⟨0, 2, 2, 2, 1⟩ ⟨0, 1, 4, 1, 0⟩ := by
  refine .cons (.conv (D := 8) (by simp [C99.conv8]) rfl rfl (by simp [C99.conv8]) rfl rfl rfl (by simpa [C99.conv8] using h1) ?_) ?_
  · intro b' hb'
    cases hb'
    exact hb
  · refine .cons (.layerNorm rfl) <| .cons .act (.cons (.dropout rfl) (.cons (.pool rfl (by simp) (.inl rfl) rfl rfl rfl rfl) (.cons .identity
      (.cons (.globalPool rfl rfl rfl) (.cons (.dense (D := 4) (by simp [C80.dense8]) rfl h2 (by simp)) .nil)))))

example (W1 b1 W2 : Arr ℝ) (φ : ℝ → ℝ) (h1 : W1.shape = [3, 2, 8]) (hb : b1.shape = [1, 1, 8]) (h2 : W2.shape = [8, 4]) :
    ∃ X M Y, applyAll (some 100) (finite W1 b1 W2 φ) (.array C99.exX) = .ok (.masked ⟨X, some M⟩) ∧
      applyAll none (finite W1 b1 W2 φ) (.array C99.exY) = .ok (.array Y) ∧ X.shape = [2, 4] ∧ Y.shape = [1, 4] ∧ M.get [1, 0] = false ∧
      ∀ c < 4, X.get [1, c] = Y.get [0, c] := by
  obtain ⟨X, M, Y, e1, e2, s1, -, s3, -, hM, hX, -⟩ := finite_network_padding_partial 100 C99.exX 0 2 2 2 [3] C99.exLen (by simp) (by simp) (by decide)
    (by decide) C99.exX_padded (by intro i _; unfold C99.exLen; split <;> simp) (by simp [finite]) (finite_accepts W1 b1 W2 φ h1 hb h2) 1 (by decide)
    C99.exY C99.exY_example
  refine ⟨X, M, Y, e1, e2, s1, s3, ?_, fun c hc => hX c hc [] .nil⟩
  have := hM 1 (by decide) 0 (by decide) [] .nil
  have h0 : ¬M.get [1, 0] = true := fun h => this.1 h .nil
  simpa using h0

end NT.C100
