import Verif.Spec.MaskedApply
import Verif.Lemmas.MaskedInput
import Verif.Lemmas.MaskedPool
import Verif.Lemmas.Resize
import Verif.Props.C82

/-!
# Finite networks on padded batches
-/

namespace NT.Masked
open NT NT.Network Arr Spec

/-- Axes in range, masks that broadcast to the activations. -/
structure _root_.NT.Spec.Format.Ok (f : Format) : Prop where
  ne : f.batchAxis ≠ f.channelAxis
  batch : f.batchAxis < f.rank + 2
  channel : f.channelAxis < f.rank + 2
  mask : f.maskChannels = 1 ∨ f.maskChannels = f.channels
  pos : 0 < f.maskChannels

lemma accepts_ok {l : ALayer} {f g : Format} (h : Accepts l f g) (hf : f.Ok) : g.Ok ∧ g.rank ≤ f.rank := by
  cases h with
  | dense => exact ⟨⟨hf.ne, hf.batch, hf.channel, .inl rfl, Nat.one_pos⟩, le_rfl⟩
  | conv => exact ⟨⟨hf.ne, hf.batch, hf.channel, .inl rfl, Nat.one_pos⟩, le_rfl⟩
  | pool => exact ⟨hf, le_rfl⟩
  | act => exact ⟨hf, le_rfl⟩
  | dropout => exact ⟨hf, le_rfl⟩
  | identity => exact ⟨hf, le_rfl⟩
  | layerNorm => exact ⟨hf, le_rfl⟩
  | globalPool h1 h2 h3 =>
    refine ⟨⟨?_, ?_, ?_, .inl h3, by rw [h3]; exact Nat.one_pos⟩, Nat.zero_le _⟩ <;> dsimp only <;> split <;> simp

lemma zipWith_act {α β γ : Type} (h : α → β → γ) (B A : ℕ) (a b : α) (a' b' : β) (S : List α) (T : List β) (hl : S.length = T.length) :
    List.zipWith h (actIdx B A a b S) (actIdx B A a' b' T) = actIdx B A (h a a') (h b b') (List.zipWith h S T) := by
  have hl' : ∀ (k : ℕ) (x : α) (y : β), (S.insertIdx k x).length = (T.insertIdx k y).length := fun k x y => by
    rw [List.length_insertIdx, List.length_insertIdx, hl]
  unfold actIdx
  split_ifs
  · rw [ImageResize.zipWith_insertIdx _ _ _ _ _ _ (hl' _ _ _), ImageResize.zipWith_insertIdx _ _ _ _ _ _ hl]
  · rw [ImageResize.zipWith_insertIdx _ _ _ _ _ _ (hl' _ _ _), ImageResize.zipWith_insertIdx _ _ _ _ _ _ hl]

/-- Where a mask with one channel, or with all, is read. -/
lemma bcastIdx_act {B A n c mc i ch : ℕ} {S p : List ℕ} (hm : mc = 1 ∨ mc = c) (hi : i < n) (hc : ch < c) (hp : InRange p S) :
    ∃ ch' < mc, bcastIdx (actIdx B A n mc S) (actIdx B A i ch p) = actIdx B A i ch' p := by
  have e : bcastIdx (actIdx B A n mc S) (actIdx B A i ch p) = actIdx B A (if n = 1 then 0 else i) (if mc = 1 then 0 else ch) (bcastIdx S p) :=
    zipWith_act _ B A n mc i ch S p hp.length.symm
  rw [e, bcastIdx_self hp, show (if n = 1 then 0 else i) = i by split <;> omega]
  rcases hm with rfl | rfl
  · exact ⟨0, Nat.one_pos, by simp⟩
  · exact ⟨if mc = 1 then 0 else ch, by split <;> omega, rfl⟩

/-- What a layer makes of a batch and of example `i` alone. -/
structure Out (g : Format) (n i : ℕ) (S : List ℕ) (len : ℕ → List ℕ) (X : Arr ℝ) (m : Arr Bool) (Y : Arr ℝ) : Prop where
  shape : X.shape = actIdx g.batchAxis g.channelAxis n g.channels S
  mask : MaskOf m g.batchAxis g.channelAxis n g.maskChannels S len
  alone : Y.shape = actIdx g.batchAxis g.channelAxis 1 g.channels (len i)
  same : ∀ c < g.channels, ∀ p, InRange p (len i) →
    X.get (actIdx g.batchAxis g.channelAxis i c p) = Y.get (actIdx g.batchAxis g.channelAxis 0 c p)
  rank : S.length = g.rank
  fits : ∀ j < n, List.Forall₂ (· ≤ ·) (len j) S

/-- The same, with zeros at the padding. -/
structure In (g : Format) (n i : ℕ) (S : List ℕ) (len : ℕ → List ℕ) (X : Arr ℝ) (m : Arr Bool) (Y : Arr ℝ) : Prop extends Out g n i S len X m Y where
  zero : ∀ j < n, ∀ c < g.channels, ∀ p, InRange p S → ¬InRange p (len j) → X.get (actIdx g.batchAxis g.channelAxis j c p) = 0

lemma mask_entries {g : Format} {n : ℕ} {S : List ℕ} {len : ℕ → List ℕ} {X : Arr ℝ} {m : Arr Bool} (hg : g.Ok) (hr : S.length = g.rank)
    (hX : X.shape = actIdx g.batchAxis g.channelAxis n g.channels S) (hm : MaskOf m g.batchAxis g.channelAxis n g.maskChannels S len) :
    (Kernel.maskArr X (some m)).shape = X.shape ∧ ∀ i < n, ∀ c < g.channels, ∀ p, InRange p S →
      (Kernel.maskArr X (some m)).get (actIdx g.batchAxis g.channelAxis i c p) =
        if InRange p (len i) then X.get (actIdx g.batchAxis g.channelAxis i c p) else 0 := by
  obtain ⟨h1, h2, h3, h4, h5⟩ := hg
  rw [← hr] at h2 h3
  have hn : X.ndim ≠ 0 := by unfold ndim; rw [hX, actIdx_length _ _ _ _ _ h1 h2 h3]; omega
  have e : Kernel.maskArr X (some m) = bcast (fun b v => if b then 0 else v) m X := by simp [Kernel.maskArr, hn]
  rw [e]
  refine ⟨?_, fun i hi c hc p hp => ?_⟩
  · simp only [bcast, hX, hm.shape]
    rw [zipWith_act _ _ _ _ _ _ _ _ _ rfl]
    congr 1
    · unfold bcastDim; split <;> rfl
    · unfold bcastDim
      split
      · rfl
      · exact h4.resolve_left ‹_›
    · exact zipWith_bcastDim_self _
  · obtain ⟨ch, hch, e'⟩ := bcastIdx_act (B := g.batchAxis) (A := g.channelAxis) h4 hi hc hp
    simp only [bcast, hX, hm.shape]
    rw [bcastIdx_self (C82.inRange_act h1 h2 h3 hi hc hp), e', hm.get i hi ch hch p hp]
    simp only [padding]
    by_cases h : InRange p (len i) <;> simp [h]

lemma Out.remask {g : Format} {n i : ℕ} {S : List ℕ} {len : ℕ → List ℕ} {X Y : Arr ℝ} {m : Arr Bool} (h : Out g n i S len X m Y) (hg : g.Ok) (hi : i < n) :
    In g n i S len (Kernel.maskArr X (some m)) m Y := by
  obtain ⟨h1, h2⟩ := mask_entries hg h.rank h.shape h.mask
  refine ⟨⟨h1.trans h.shape, h.mask, h.alone, fun c hc p hp => ?_, h.rank, h.fits⟩, fun j hj c hc p hp hn => ?_⟩
  · rw [h2 i hi c hc p (inRange_le hp (h.fits i hi)), if_pos hp]
    exact h.same c hc p hp
  · rw [h2 j hj c hc p hp, if_neg hn]

end NT.Masked
