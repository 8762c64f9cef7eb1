import Verif.Tac
import Verif.Lemmas.MaskedBranch
import Verif.Lemmas.Rules4
import Verif.Props.C41

/-!
# Concatenation of branches of padded batches along the channels
-/

namespace NT.Masked
open NT NT.Network Arr Spec

variable {B A n : ℕ} {S : List ℕ}

/-- A channel of the concatenation belongs to one of the branches. -/
lemma channel_split : ∀ {Cs : List ℕ} {c : ℕ}, c < Cs.sum → ∃ r e, r < Cs.length ∧ e < Cs.getD r 0 ∧ c = (Cs.take r).sum + e
  | [], c, h => by simp at h
  | C :: Cs, c, h => by
    by_cases hc : c < C
    · exact ⟨0, c, by simp, by simpa using hc, by simp⟩
    · obtain ⟨r, e, h1, h2, h3⟩ := channel_split (Cs := Cs) (c := c - C) (by simp only [List.sum_cons] at h; omega)
      exact ⟨r + 1, e, by simpa using h1, by simpa using h2, by simp only [List.take_succ_cons, List.sum_cons]; omega⟩

/-- `jnp.concatenate` of activations along the channels. -/
lemma concat_act {β : Type} {Cs : List ℕ} {ms : List (Arr β)} (hne : B ≠ A) (hB : B < S.length + 2) (hA : A < S.length + 2) (h0 : Cs ≠ [])
    (hs : List.Forall₂ (fun C (m : Arr β) => m.shape = actIdx B A n C S) Cs ms) : ∃ y, concatE ms A = .ok y ∧ y.shape = actIdx B A n Cs.sum S ∧
      ∀ i p r e (hr : r < ms.length), p.length = S.length → e < Cs.getD r 0 → y.get (actIdx B A i ((Cs.take r).sum + e) p) = (ms[r]).get (actIdx B A i e p) := by
  have hmap : ms.map (·.shape) = Cs.map fun C => (actIdx B A n 0 S).set A C := by
    clear h0
    induction hs with
    | nil => rfl
    | cons h _ ih => rw [List.map_cons, List.map_cons, ih, h, act_setChannel B A n 0 _ S hne hB hA]
  obtain ⟨y, y1, y2, y3⟩ := NT.Rules.concatE_list ms (actIdx B A n 0 S) A Cs h0 (by rw [actIdx_length _ _ _ _ _ hne hB hA]; omega) hmap
  refine ⟨y, y1, by rw [y2, act_setChannel B A n 0 _ S hne hB hA], fun i p r e hr hp he => ?_⟩
  rw [y3 _ r e hr he (act_getChannel B A i _ p hne (by omega) (by omega)), act_setChannel B A i _ _ p hne (by omega) (by omega)]

variable {len : ℕ → List ℕ}

/-- Masks of the same padding broadcast to more channels. -/
lemma broadcast_ok {m : Arr Bool} {k C : ℕ} (hm : MaskOf m B A n k S len) (hk : k = 1 ∨ k = C) :
    ∃ m', Masks.broadcastTo m (actIdx B A n C S) = .ok m' ∧ MaskOf m' B A n C S len := by
  have hl : (actIdx B A n k S).length = (actIdx B A n C S).length := by
    unfold actIdx
    split <;> simp only [List.length_insertIdx]
  have hf : List.Forall₂ (fun n d => n = d ∨ n = 1) m.shape (actIdx B A n C S) := by
    rw [hm.shape, List.forall₂_iff_zip]
    refine ⟨hl, fun {a b} hv => ?_⟩
    rw [zip_act rfl] at hv
    rcases act_mem hv with h | h | h
    · cases h; exact .inl rfl
    · cases h; omega
    · obtain ⟨j, hj, e⟩ := List.mem_iff_getElem.1 h
      simp only [List.getElem_zip, Prod.mk.injEq] at e
      exact .inl (e.1.symm.trans e.2)
  unfold Masks.broadcastTo
  rw [if_pos hf]
  refine ⟨_, rfl, rfl, fun i hi c hc p hp => ?_⟩
  obtain ⟨c', q, e⟩ := bcastIdx_act (B := B) (A := A) (mc := k) (c := C) hk hi hc hp
  simp only [clip_eq, hm.shape, e, hm.get i hi c' q p hp]

lemma expand_all (hne : B ≠ A) (hB : B < S.length + 2) (hA : A < S.length + 2) {vs : List (ℕ × ℕ)} {ms : List (Arr Bool)}
    (h : List.Forall₂ (fun w m => MaskOf m B A n w.2 S len ∧ (w.2 = 1 ∨ w.2 = w.1)) vs ms) :
    ∃ ms1, Kernel.mapE (fun p : Arr Bool × List ℕ => Masks.expand A p.1 p.2) (ms.zip (vs.map fun w => actIdx B A n w.1 S)) = .ok ms1 ∧
      List.Forall₂ (fun w m => MaskOf m B A n w.1 S len) vs ms1 := by
  induction h with
  | nil => exact ⟨[], rfl, .nil⟩
  | @cons w m vs ms hm _ ih =>
    obtain ⟨ms1, e1, e2⟩ := ih
    obtain ⟨m', f1, f2⟩ := broadcast_ok hm.1 hm.2
    refine ⟨m' :: ms1, ?_, .cons f2 e2⟩
    have : Masks.expand A m (actIdx B A n w.1 S) = .ok m' := by
      unfold Masks.expand
      rw [act_getChannel _ _ _ _ _ hne hB hA, hm.1.shape, act_setChannel _ _ _ _ _ _ hne hB hA, f1]
    simp only [List.map_cons, List.zip_cons_cons, Kernel.mapE, this, e1]

lemma max_act {vs : List (ℕ × ℕ)} {ms : List (Arr Bool)} (h : List.Forall₂ (fun w m => MaskOf m B A n w.1 S len) vs ms) (h0 : vs ≠ []) :
    ∃ c, Masks.maxShape (ms.map (·.shape)) = actIdx B A n c S := by
  induction h with
  | nil => exact absurd rfl h0
  | @cons w m vs ms hm ht ih =>
    cases ht with
    | nil => exact ⟨w.1, hm.shape⟩
    | cons h1 h2 =>
      obtain ⟨c, e⟩ := ih (by simp)
      refine ⟨max w.1 c, ?_⟩
      simp only [List.map_cons, Masks.maxShape] at e ⊢
      rw [e, hm.shape, zipWith_act _ _ _ _ _ _ _ _ _ rfl]
      simp

lemma widen_all (hne : B ≠ A) (hB : B < S.length + 2) (hA : A < S.length + 2) (c : ℕ) {vs : List (ℕ × ℕ)} {ms : List (Arr Bool)}
    (h : List.Forall₂ (fun w m => MaskOf m B A n w.1 S len) vs ms) :
    ∃ ms1, Kernel.mapE (Masks.widen A (actIdx B A n c S)) ms = .ok ms1 ∧ List.Forall₂ (fun w m => MaskOf m B A n w.1 S len) vs ms1 := by
  induction h with
  | nil => exact ⟨[], rfl, .nil⟩
  | @cons w m vs ms hm _ ih =>
    obtain ⟨ms1, e1, e2⟩ := ih
    obtain ⟨m', f1, f2⟩ := broadcast_ok hm (.inr rfl)
    refine ⟨m' :: ms1, ?_, .cons f2 e2⟩
    have : Masks.widen A (actIdx B A n c S) m = .ok m' := by
      unfold Masks.widen
      rw [hm.shape, act_getChannel _ _ _ _ _ hne hB hA, act_setChannel _ _ _ _ _ _ hne hB hA, f1]
    simp only [Kernel.mapE, this, e1]

/-- `_concat_masks` of masks of the same padding. -/
lemma concat_masks_ok (hne : B ≠ A) (hB : B < S.length + 2) (hA : A < S.length + 2) {vs : List (ℕ × ℕ)} {ms : List (Arr Bool)} (h0 : vs ≠ [])
    (h : List.Forall₂ (fun w m => MaskOf m B A n w.2 S len ∧ (w.2 = 1 ∨ w.2 = w.1)) vs ms) :
    ∃ M, Masks.concat (ms.map some) (vs.map fun w => actIdx B A n w.1 S) A = .ok (some M) ∧ MaskOf M B A n (vs.map Prod.fst).sum S len := by
  obtain ⟨ms1, e1, g1⟩ := expand_all hne hB hA h
  obtain ⟨c, hc⟩ := max_act g1 h0
  obtain ⟨ms2, e2, g2⟩ := widen_all hne hB hA c g1
  have hs : List.Forall₂ (fun C (m : Arr Bool) => m.shape = actIdx B A n C S) (vs.map Prod.fst) ms2 := by
    rw [List.forall₂_map_left_iff]
    exact g2.imp fun _ _ h => h.shape
  obtain ⟨M, e3, s3, g3⟩ := concat_act hne hB hA (by simpa using h0) hs
  have hn : ¬∀ m ∈ ms.map some, m = none := by
    cases h with
    | nil => exact absurd rfl h0
    | cons _ _ => simp
  refine ⟨M, ?_, s3, fun i hi ch hch p hp => ?_⟩
  · unfold Masks.concat
    rw [if_neg (by simp [h.length_eq]), if_neg hn, C41.allSome_map]
    simp only [e1, hc, e2, e3]
    rfl
  · obtain ⟨r, e, hr, he, rfl⟩ := channel_split hch
    have hr' : r < ms2.length := by rw [← g2.length_eq]; simpa using hr
    have hrv : r < vs.length := by simpa using hr
    rw [g3 i p r e hr' hp.length he]
    refine ((List.forall₂_iff_get.1 g2).2 r hrv hr').get i hi e ?_ p hp
    rw [List.getD_eq_getElem _ _ hr, List.getElem_map] at he
    exact he

/-- A branch of any format. -/
structure Piece (n i : ℕ) (S : List ℕ) (len : ℕ → List ℕ) (g : Format) (b : Arr ℝ × Arr Bool × Arr ℝ) : Prop where
  ok : g.Ok
  inp : In g n i S len b.1 b.2.1 b.2.2

/-- The concatenation of several branches. -/
lemma cat_ok {f : Format} {i : ℕ} (hi : i < n) {vs : List (ℕ × ℕ)} {bs : List (Arr ℝ × Arr Bool × Arr ℝ)} (h0 : vs ≠ []) (hpos : ∀ w ∈ vs, 0 < w.1)
    (h : List.Forall₂ (fun (w : ℕ × ℕ) b => Piece n i S len { f with channels := w.1, maskChannels := w.2 } b) vs bs) :
    ∃ b', Piece n i S len { f with channels := (vs.map Prod.fst).sum, maskChannels := (vs.map Prod.fst).sum } b' ∧
      concatE (bs.map (·.1)) f.channelAxis = .ok b'.1 ∧
      Masks.concat (bs.map fun b => some b.2.1) (bs.map (·.1.shape)) f.channelAxis = .ok (some b'.2.1) ∧
      concatE (bs.map (·.2.2)) f.channelAxis = .ok b'.2.2 := by
  have hget := List.forall₂_iff_get.1 h
  obtain ⟨⟨w1, w2, w3⟩, wr, wf⟩ : (f.batchAxis ≠ f.channelAxis ∧ f.batchAxis < S.length + 2 ∧ f.channelAxis < S.length + 2) ∧ S.length = f.rank ∧
      ∀ j < n, List.Forall₂ (· ≤ ·) (len j) S := by
    cases h with
    | nil => exact absurd rfl h0
    | cons hb _ =>
      have r1 : S.length = f.rank := hb.inp.rank
      obtain ⟨⟨h1, h2, h3, -, -⟩, hin⟩ := hb
      dsimp only at h1 h2 h3
      exact ⟨⟨h1, by omega, by omega⟩, r1, hin.fits⟩
  have hX : List.Forall₂ (fun C (m : Arr ℝ) => m.shape = actIdx f.batchAxis f.channelAxis n C S) (vs.map Prod.fst) (bs.map (·.1)) := by
    rw [List.forall₂_map_left_iff, List.forall₂_map_right_iff]
    exact h.imp fun _ _ h => h.inp.shape
  have hY : List.Forall₂ (fun C (m : Arr ℝ) => m.shape = actIdx f.batchAxis f.channelAxis 1 C (len i)) (vs.map Prod.fst) (bs.map (·.2.2)) := by
    rw [List.forall₂_map_left_iff, List.forall₂_map_right_iff]
    exact h.imp fun _ _ h => h.inp.alone
  have hM : List.Forall₂ (fun (w : ℕ × ℕ) m => MaskOf m f.batchAxis f.channelAxis n w.2 S len ∧ (w.2 = 1 ∨ w.2 = w.1)) vs (bs.map (·.2.1)) := by
    rw [List.forall₂_map_right_iff]
    exact h.imp fun _ _ h => ⟨h.inp.mask, by obtain ⟨-, -, -, h4, -⟩ := h.ok; exact h4⟩
  have ls : (len i).length = S.length := (wf i hi).length_eq
  obtain ⟨X, x1, x2, x3⟩ := concat_act w1 w2 w3 (by simpa using h0) hX
  obtain ⟨Y, y1, y2, y3⟩ := concat_act w1 (by omega) (by omega) (by simpa using h0) hY
  obtain ⟨M, m1, m2⟩ := concat_masks_ok w1 w2 w3 h0 hM
  have hsh : (bs.map (·.1.shape)) = vs.map fun w => actIdx f.batchAxis f.channelAxis n w.1 S := by
    clear x3 y3 hget hX hY hM m1 x1 y1 h0 hpos x2 y2 m2
    induction h with
    | nil => rfl
    | cons h _ ih => rw [List.map_cons, List.map_cons, ih, h.inp.shape]
  have hsum : 0 < (vs.map Prod.fst).sum := by
    cases vs with
    | nil => exact absurd rfl h0
    | cons w vs =>
      have := hpos w (by simp)
      simp only [List.map_cons, List.sum_cons]
      omega
  have hbr : ∀ {r}, r < (vs.map Prod.fst).length → r < bs.length := fun hr => by rw [← h.length_eq]; simpa using hr
  refine ⟨(X, M, Y), ⟨⟨w1, by dsimp only; omega, by dsimp only; omega, .inr rfl, hsum⟩, ⟨⟨x2, m2, y2, fun c hc p hp => ?_, wr, wf⟩, fun j hj c hc p hp hn => ?_⟩⟩, x1, ?_, y1⟩
  · dsimp only at hc ⊢
    obtain ⟨r, e, hr, he, rfl⟩ := channel_split hc
    have hb := hbr hr
    rw [x3 i p r e (by simpa using hb) (by rw [hp.length, ls]) he, y3 0 p r e (by simpa using hb) hp.length he, List.getElem_map, List.getElem_map]
    rw [List.getD_eq_getElem _ _ hr, List.getElem_map] at he
    exact (hget.2 r (by simpa using hr) hb).inp.same e he p hp
  · dsimp only at hc ⊢
    obtain ⟨r, e, hr, he, rfl⟩ := channel_split hc
    have hb := hbr hr
    rw [x3 j p r e (by simpa using hb) hp.length he, List.getElem_map]
    rw [List.getD_eq_getElem _ _ hr, List.getElem_map] at he
    exact (hget.2 r (by simpa using hr) hb).inp.zero j hj e he p hp hn
  · rw [hsh]
    rw [List.map_map] at m1
    exact m1

end NT.Masked
