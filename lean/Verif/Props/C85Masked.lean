import Verif.Props.C80Masked
import Verif.Props.C85

/-!
# C85, masked inputs: `diagonal_batch` changes what is stored, not the values
-/

namespace NT.Spec
open NT NT.Network

/-- The batches with another flag `diagonal_batch`. -/
def Padded.withBatch (db : Bool) (s : Padded) : Padded := { s with toState := s.toState.withBatch db }

end NT.Spec

namespace NT.C85
open NT NT.Network NT.Spec NT.Semantics NT.Arr NT.Kernel NT.Masked

lemma step_batch' {l : MLayer} {out : List ℕ → List ℕ} {s t : Padded} (db : Bool) (h : Step l out s t) : Step l out (s.withBatch db) (t.withBatch db) := by
  cases h with
  | dense ha hl ho => exact .dense (s := s.withBatch db) ha (layer_batch db hl) ho
  | conv h1 h2 h3 h4 h5 hl ho => exact .conv (s := s.withBatch db) h1 h2 h3 h4 h5 (layer_batch db hl) ho
  | pool h1 h2 h3 h4 h5 h6 hl ho => exact .pool (s := s.withBatch db) h1 h2 h3 h4 h5 h6 (layer_batch db hl) ho
  | act h1 h2 h3 h4 h5 ho => exact .act (s := s.withBatch db) h1 h2 h3 h4 h5 ho
  | dropout h1 h2 h3 ho => exact .dropout (s := s.withBatch db) h1 h2 h3 ho
  | identity ho => exact .identity (s := s.withBatch db) ho
  | globalPool h1 h2 h3 h4 h5 h6 h7 h8 h9 => exact .globalPool (s := s.withBatch db) h1 h2 h3 h4 h5 h6 h7 h8 h9

lemma step_db {l : MLayer} {out : List ℕ → List ℕ} {s t : Padded} (h : Step l out s t) : t.info.diagonalBatch = s.info.diagonalBatch := by
  cases h with
  | dense ha hl ho => exact (layer_db hl :)
  | conv h1 h2 h3 h4 h5 hl ho => exact (layer_db hl :)
  | pool h1 h2 h3 h4 h5 h6 hl ho => exact (layer_db hl :)
  | act h1 h2 h3 h4 h5 ho => rfl
  | dropout h1 h2 h3 ho => rfl
  | identity ho => rfl
  | globalPool h1 h2 h3 h4 h5 h6 h7 h8 h9 => rfl

lemma channel_batch {axis : ℤ} {m : ℕ} {s : Fin (m + 1) → State} {t : State} (db : Bool) (h : ChannelSem axis s t) :
    ChannelSem axis (fun r => (s r).withBatch db) (t.withBatch db) := by
  obtain ⟨h1, h2, h0, h3, h6, w, h7, h8, h9, c2, cn, h4, h5, rfl⟩ := h
  refine ⟨sameLayout_batch db h1, h2, h0, h3, h6, w, h7, h8, h9, c2, cn, h4, h5, state_ext rfl ?_ rfl rfl⟩
  rw [majority_batch]
  rfl

/-- A network does the same with the other flag. -/
lemma tree_withBatch {net : MNet} {v w : Vals Padded} (h : Tree net v w) : ∀ {v' : Vals Padded},
    Rel (fun s t => s.info.diagonalBatch = false ∧ t = s.withBatch true) v v' →
    ∃ w', Tree net v' w' ∧ Rel (fun s t => s.info.diagonalBatch = false ∧ t = s.withBatch true) w w' := by
  have ones : ∀ {m : ℕ} {s : Fin (m + 1) → Padded} {u' : Fin (m + 1) → Vals Padded},
      (∀ r, Rel (fun s t => s.info.diagonalBatch = false ∧ t = s.withBatch true) (.one (s r)) (u' r)) →
      (∀ r, (s r).info.diagonalBatch = false) ∧ u' = fun r => .one ((s r).withBatch true) := by
    intro m s u' hu
    have : ∀ r, (s r).info.diagonalBatch = false ∧ u' r = .one ((s r).withBatch true) := by
      intro r
      have := hu r
      generalize u' r = z at this
      cases this with
      | one _ b h => exact ⟨h.1, by rw [h.2]⟩
    exact ⟨fun r => (this r).1, funext fun r => (this r).2⟩
  induction h with
  | @layer l out s t hl =>
    intro x hx
    cases hx with
    | one _ s' hs =>
      obtain ⟨hs, rfl⟩ := hs
      exact ⟨_, .layer (step_batch' true hl), .one _ _ ⟨(step_db hl).trans hs, rfl⟩⟩
  | fanOut =>
    intro x hx
    exact ⟨_, .fanOut, rel_replicate hx _⟩
  | @fanIn f out m s t hf ht hl ho =>
    intro x hx
    obtain ⟨u', rfl, hu⟩ := Semantics.rel_ofFn hx
    obtain ⟨hs, rfl⟩ := ones hu
    exact ⟨_, .fanIn (s := fun r => (s r).withBatch true) hf ⟨ht.len1, ht.len2, ht.channels, ht.maskChannels⟩ (fan_batch true hl) ho,
      .one _ _ ⟨(fan_db hl).trans (hs 0), rfl⟩⟩
  | @concat axis out m s t ht hl ho =>
    intro x hx
    obtain ⟨u', rfl, hu⟩ := Semantics.rel_ofFn hx
    obtain ⟨hs, rfl⟩ := ones hu
    exact ⟨_, .concat (s := fun r => (s r).withBatch true) ⟨ht.len1, ht.len2, ht.channels, ht.maskChannels⟩ (channel_batch true hl) ho,
      .one _ _ ⟨(fan_db (f := .concat axis) (.inl hl)).trans (hs 0), rfl⟩⟩
  | seq _ _ ih1 ih2 =>
    intro x hx
    obtain ⟨y, h1, h2⟩ := ih1 hx
    obtain ⟨z, h3, h4⟩ := ih2 h2
    exact ⟨z, .seq h1 h3, h4⟩
  | @par n branches u v h ih =>
    intro x hx
    obtain ⟨u', rfl, hu⟩ := Semantics.rel_ofFn hx
    choose y h1 h2 using fun i => ih i (hu i)
    exact ⟨_, .par h1, rel_many h2⟩

/-- The kernel without its masks. -/
def bare (k : Kernel ℝ) : Kernel ℝ := { k with mask1 := none, mask2 := none, x1IsX2 := ⟨[], fun _ => false⟩ }

lemma core_same {s : State} {k k' : Kernel ℝ} (hdb : s.info.diagonalBatch = false) (h : Core s k) (h' : Core (s.withBatch true) k') :
    SameUpToBatch (bare k) (bare k') := by
  have d : ∀ {s : State} {k : Kernel ℝ}, Core s k → Describes { s with same := false } (bare k) := fun h =>
    ⟨⟨h.stores.nngp, h.stores.cov1, h.stores.cov2, h.stores.ntk⟩, h.static, ⟨rfl, rfl⟩, rfl, rfl, h.full, h.zero⟩
  exact same_of (s := { s with same := false }) hdb (d h) (d h')

/-- As `diagonal_batch_partial`, for batches of examples of different sizes, padded with the value `m`, and `mask_constant=m`: `diagonal_batch` changes
neither `nngp`, `ntk` and the masks nor the covariances that are stored with both. For networks of the layers of C99. -/
theorem masked_diagonal_batch_partial (m : ℝ) (x1 x2 : Arr ℝ) (ntk same : Bool) (ba ca : ℤ) (n1 n2 C : ℕ) (S1 S2 : List ℕ) (len1 len2 : ℕ → List ℕ)
    (B A : ℕ) (hB : (B : ℤ) = ba % (S1.length + 2)) (hA : (A : ℤ) = ca % (S1.length + 2)) (hne : B ≠ A) (hr : S1.length = S2.length) (hC : 0 < C)
    (h1 : PaddedWith m x1 B A n1 C S1 len1) (h2 : PaddedWith m x2 B A n2 C S2 len2) {net : MNet} {t : Padded}
    (h : Tree net (.one (paddedInputs m x1 x2 false ntk same B A C n1 n2 S1 S2 len1 len2)) (.one t)) :
    ∃ k k' K K', Inputs.inputsToKernel x1 (some x2) false false ntk ba (some ca) (some m) same = .ok k ∧
      Inputs.inputsToKernel x1 (some x2) true false ntk ba (some ca) (some m) same = .ok k' ∧
      net.run (.one k) = .ok (.one K) ∧ net.run (.one k') = .ok (.one K') ∧ SameUpToBatch (bare K) (bare K') ∧
      OptRel (· ≋ ·) K'.mask1 K.mask1 ∧ OptRel (· ≋ ·) K'.mask2 K.mask2 := by
  have hBl : B < S1.length + 2 := by
    have := Int.emod_lt_of_pos ba (b := (S1.length : ℤ) + 2) (by omega)
    omega
  have hAl : A < S1.length + 2 := by
    have := Int.emod_lt_of_pos ca (b := (S1.length : ℤ) + 2) (by omega)
    omega
  have hok := fun db => inputs_ok (db := db) (ntk := ntk) (same := same) hne hBl hAl hr hC h1 h2
  obtain ⟨w', h', hw⟩ := tree_withBatch h (v' := .one (paddedInputs m x1 x2 true ntk same B A C n1 n2 S1 S2 len1 len2)) (.one _ _ ⟨rfl, rfl⟩)
  cases hw with
  | one _ t' ht =>
  obtain ⟨hdb, rfl⟩ := ht
  obtain ⟨k, e1, e2, e3⟩ := C35.second_moment (some m) false false ntk same x1 (some x2) ba ca n1 n2 C S1 S2 B A hB hA hne hr (by simp) h1.shape h2.shape
  obtain ⟨y, e4, hy⟩ := tree_batch (n1 := n1) (n2 := n2) h (.one k _ ⟨hok _, rfl, rfl, inputs_batch h1 h2 e2 e3⟩)
  obtain ⟨k', f1, f2, f3⟩ := C35.second_moment (some m) true false ntk same x1 (some x2) ba ca n1 n2 C S1 S2 B A hB hA hne hr (by simp) h1.shape h2.shape
  obtain ⟨y', f4, hy'⟩ := tree_batch (n1 := n1) (n2 := n2) h' (.one k' _ ⟨hok _, rfl, rfl, inputs_batch h1 h2 f2 f3⟩)
  cases hy with
  | one K _ hK =>
  cases hy' with
  | one K' _ hK' =>
  obtain ⟨tok, -, -, e5⟩ := hK
  obtain ⟨-, -, -, f5⟩ := hK'
  obtain ⟨a1, a2, a3⟩ := tok.axes
  obtain ⟨m1, g1, g2⟩ := e5.mask1
  obtain ⟨m2, g3, g4⟩ := e5.mask2
  obtain ⟨m1', g5, g6⟩ := f5.mask1
  obtain ⟨m2', g7, g8⟩ := f5.mask2
  refine ⟨k, k', K, K', e1, f1, e4, f4, core_same hdb e5.core f5.core, ?_, ?_⟩
  · rw [g5, g1]
    exact C80.mask_eqv a1 a2 a3 g6 g2
  · rw [g7, g3]
    exact C80.mask_eqv a1 (a2.trans_eq (congrArg (· + 2) tok.rank.symm)) (a3.trans_eq (congrArg (· + 2) tok.rank.symm)) g8 g4

/-! ### A concrete case: a dense block on sentences of different lengths -/

example : ∃ k k' K K', Inputs.inputsToKernel C99.exX (some C80.word) false false true 0 (some (-1)) (some 100) false = .ok k ∧
    Inputs.inputsToKernel C99.exX (some C80.word) true false true 0 (some (-1)) (some 100) false = .ok k' ∧
    C99.denseBlock.run (.one k) = .ok (.one K) ∧ C99.denseBlock.run (.one k') = .ok (.one K') ∧ SameUpToBatch (bare K) (bare K') := by
  obtain ⟨t, ht, -⟩ := C99.denseBlock_tree 100 C99.exX C80.word false true false 2 1 2 3 1 C99.exLen (fun _ => [1]) (by decide) C99.exX_padded C80.word_padded
  obtain ⟨k, k', K, K', e1, e2, e3, e4, e5, -⟩ := masked_diagonal_batch_partial 100 C99.exX C80.word true false 0 (-1) 2 1 2 [3] [1] C99.exLen (fun _ => [1]) 0 2
    (by simp) (by simp) (by decide) rfl (by decide) C99.exX_padded C80.word_padded ht
  exact ⟨k, k', K, K', e1, e2, e3, e4, e5⟩

end NT.C85
