import Verif.Tac
import Verif.Lemmas.Network
import Verif.Lemmas.FanIn
import Verif.Lemmas.Attention6
import Verif.Lemmas.Attention8
import Verif.Spec.Semantics

/-!
The kernels that the layers compute are described by the states of `Spec/Semantics`.
-/

namespace NT.Semantics
open NT NT.Network NT.Spec Arr

/-! ### Arrays that are not single numbers -/

lemma zipB_shape {α β γ : Type} {op : α → β → γ} {a : Arr α} {b : Arr β} {c : Arr γ} (h : zipB op a b = .ok c) :
    c.shape = [] ↔ a.shape = [] ∧ b.shape = [] := by
  unfold zipB at h
  split at h
  · rename_i e
    rw [← Except.ok.inj h]
    simp [← e]
  · split at h
    · rename_i e
      rw [← Except.ok.inj h]
      simp [e]
    · split at h
      · rename_i e1 e2 e3
        rw [← Except.ok.inj h]
        simp [e2]
      · simp at h

lemma foldB_shape {α : Type} {op : α → α → α} : ∀ {l : List (Arr α)} {a c : Arr α}, foldB op a l = .ok c → c.shape = [] →
    a.shape = [] ∧ ∀ m ∈ l, m.shape = []
  | [], a, c, h, hc => by
    obtain rfl : a = c := Except.ok.inj h
    simp [hc]
  | m :: l, a, c, h, hc => by
    simp only [foldB] at h
    split at h
    · simp at h
    · rename_i r e
      obtain ⟨h1, h2⟩ := foldB_shape h hc
      obtain ⟨h3, h4⟩ := (zipB_shape e).1 h1
      refine ⟨h3, fun x hx => ?_⟩
      rcases List.mem_cons.1 hx with rfl | hx
      · exact h4
      · exact h2 x hx

lemma prodLoop_shape {α : Type} [Add α] [Mul α] : ∀ {l : List (Arr α × Arr α)} {a c : Arr α × Arr α}, Kernel.matsProdLoop l a = .ok c →
    c.2.shape = [] → a.2.shape = [] ∧ ∀ m ∈ l, m.1.shape = []
  | [], a, c, h, hc => by
    obtain rfl : a = c := Except.ok.inj h
    simp [hc]
  | (n, t) :: l, (x, y), c, h, hc => by
    simp only [Kernel.matsProdLoop] at h
    split at h <;> first | simp at h | skip
    rename_i u v w e1 e2 e3
    split at h <;> first | simp at h | skip
    rename_i z e4
    obtain ⟨h1, h2⟩ := prodLoop_shape h hc
    obtain ⟨h3, h4⟩ := (zipB_shape e4).1 h1
    obtain ⟨h5, h6⟩ := (zipB_shape e1).1 h3
    refine ⟨h5, fun m hm => ?_⟩
    rcases List.mem_cons.1 hm with rfl | hm
    · exact h6
    · exact h2 m hm

lemma stores_nngp_shape {k : Kernel ℝ} {L : Logical ℝ} (h : k.Stores L) : k.nngp.shape ≠ [] := h.nngp.ne_nil (by simp)

lemma dense_ntk {d : Dense} {k k' : Kernel ℝ} (h : d.kernelFn k = .ok k') (hn : k.nngp.shape ≠ []) {a : Arr ℝ} (ha : k'.ntk = some a) :
    a.shape ≠ [] := by
  intro h0
  have haf : ∀ x : Arr ℝ, (affine x d.wStd d.bStd).shape = x.shape := by
    intro x; unfold affine; split <;> rfl
  unfold Dense.kernelFn at h
  split at h
  · obtain ⟨ntk, h1, h2⟩ := map_ok h
    rw [← h2] at ha
    simp only at ha
    subst ha
    unfold Dense.ntkNtk at h1
    split at h1
    · simp at h1
    · obtain ⟨r, h3, h4⟩ := map_ok h1
      obtain rfl : r = a := Option.some.inj h4
      exact hn (by simpa [haf] using ((zipB_shape h3).1 h0).1)
  · split at h
    · simp at h
    · obtain ⟨ntk, h1, h2⟩ := map_ok h
      rw [← h2] at ha
      simp only at ha
      subst ha
      unfold Dense.ntkStandard at h1
      split at h1
      · simp at h1
      · split at h1
        · simp at h1
        · rename_i r h3
          have h4 := Option.some.inj (Except.ok.inj h1)
          have : r.shape = [] := by
            rw [← h4] at h0
            split at h0
            · exact h0
            · exact h0
          exact hn ((zipB_shape h3).1 this).1
  · simp at h

lemma conv_ntk {d : Conv} {k k' : Kernel ℝ} (h : d.kernelFn k = .ok k') (hn : k'.nngp.shape ≠ []) {a : Arr ℝ} (ha : k'.ntk = some a) :
    a.shape ≠ [] := by
  intro h0
  have haf : ∀ (x : Arr ℝ) s t b, (d.affine k x s t b).shape = x.shape := by
    intro x s t b; unfold Conv.affine; dsimp only; split
    · rfl
    · split <;> rfl
  unfold Conv.kernelFn at h
  simp only at h
  split at h
  · obtain ⟨c1, -, h⟩ := bind_ok h
    obtain ⟨c2, -, h⟩ := bind_ok h
    obtain ⟨n, -, h⟩ := bind_ok h
    obtain ⟨t, h1, h⟩ := bind_ok h
    have := pure_ok h
    subst this
    simp only [Conv.finish] at ha hn
    subst ha
    unfold Conv.ntkNtk at h1
    split at h1
    · simp at h1
    · obtain ⟨c, -, h1⟩ := bind_ok h1
      obtain ⟨r, h2, h1⟩ := bind_ok h1
      obtain rfl : r = a := Option.some.inj (pure_ok h1)
      exact hn ((zipB_shape h2).1 h0).2
  · obtain ⟨c1, -, h⟩ := bind_ok h
    obtain ⟨c2, -, h⟩ := bind_ok h
    obtain ⟨n, -, h⟩ := bind_ok h
    obtain ⟨t, h1, h⟩ := bind_ok h
    have := pure_ok h
    subst this
    simp only [Conv.finish, haf] at ha hn
    subst ha
    unfold Conv.ntkStandard at h1
    split at h1
    · simp at h1
    · obtain ⟨c, -, h1⟩ := bind_ok h1
      obtain ⟨r, h2, h1⟩ := bind_ok h1
      have h4 := Option.some.inj (pure_ok h1)
      have : r.shape = [] := by
        rw [← h4] at h0
        split at h0
        · rwa [haf] at h0
        · exact h0
      exact hn ((zipB_shape h2).1 this).1
  · simp at h

lemma convTranspose_ntk {d : ConvTranspose} {k k' : Kernel ℝ} (h : d.kernelFn k = .ok k') (hn : k'.nngp.shape ≠ []) {a : Arr ℝ} (ha : k'.ntk = some a) :
    a.shape ≠ [] := by
  intro h0
  have haf : ∀ (x : Arr ℝ) s t b, (d.conv.affine k x s t b).shape = x.shape := by
    intro x s t b; unfold Conv.affine; dsimp only; split
    · rfl
    · split <;> rfl
  unfold ConvTranspose.kernelFn at h
  simp only at h
  split at h
  · obtain ⟨t, h1, h⟩ := bind_ok h
    have := pure_ok h
    subst this
    simp only [Conv.finish] at ha hn
    subst ha
    unfold ConvTranspose.ntkNtk at h1
    split at h1
    · simp at h1
    · obtain ⟨r, h2, h1⟩ := bind_ok h1
      obtain rfl : r = a := Option.some.inj (pure_ok h1)
      exact hn ((zipB_shape h2).1 h0).2
  · obtain ⟨t, h1, h⟩ := bind_ok h
    have := pure_ok h
    subst this
    simp only [Conv.finish, haf] at ha hn
    subst ha
    unfold ConvTranspose.ntkStandard at h1
    split at h1
    · simp at h1
    · obtain ⟨r, h2, h1⟩ := bind_ok h1
      have h4 := Option.some.inj (pure_ok h1)
      have : r.shape = [] := by
        rw [← h4] at h0
        split at h0
        · rwa [haf] at h0
        · exact h0
      exact hn ((zipB_shape h2).1 this).1
  · simp at h

/-! ### The layers -/

/-- What has to be shown about the tangent kernel of a layer without parameters. -/
lemma tangent_ok {s : State} {k k' : Kernel ℝ} (hd : Describes s k)
    (h : ∀ a, k'.ntk = some a → a.shape = [] → ∃ b, k.ntk = some b ∧ b.shape = [] ∧ (b.get [] = 0 → a.get [] = 0)) :
    (s.full = true → ∀ a, k'.ntk = some a → a.shape ≠ []) ∧ ∀ a, k'.ntk = some a → a.shape = [] → a.get [] = 0 := by
  refine ⟨fun hf a ha h0 => ?_, fun a ha h0 => ?_⟩
  · obtain ⟨b, h1, h2, -⟩ := h a ha h0
    exact hd.full hf b h1 h2
  · obtain ⟨b, h1, h2, h3⟩ := h a ha h0
    exact h3 (hd.zero b h1 h2)

lemma info_ext {k : Kernel ℝ} {s : State} (h : Describes s k) : k.isGaussian = s.info.isGaussian ∧ k.isReversed = s.info.isReversed ∧
    k.isInput = s.info.isInput ∧ k.diagonalBatch = s.info.diagonalBatch ∧ k.diagonalSpatial = s.info.diagonalSpatial ∧
    k.shape1 = s.info.shape1 ∧ k.shape2 = s.info.shape2 ∧ k.batchAxis = s.info.batchAxis ∧ k.channelAxis = s.info.channelAxis := by
  rw [← h.static]
  exact ⟨rfl, rfl, rfl, rfl, rfl, rfl, rfl, rfl, rfl⟩

/-- Each layer, applied as documented, computes a kernel described by the next state. -/
theorem layer_sound {l : Layer} {s t : State} {k : Kernel ℝ} (hk : Describes s k) (hc : s.L.Closed) (hl : LayerSem l s t) :
    ∃ k', l.kernelFn k = .ok k' ∧ Describes t k' := by
  obtain ⟨i1, i2, i3, i4, i5, i6, i7, i8, i9⟩ := info_ext hk
  cases l with
  | dense d =>
    obtain ⟨h1, -, C, h2, -, rfl⟩ := hl
    obtain ⟨k', e1, e2, e3, e4⟩ := C52.kernel_formula d h1 k s.L hk.stores C (by rw [i6]; exact h2)
    simp only [Prod.mk.injEq] at e4
    have hn : ∀ a, k'.ntk = some a → a.shape ≠ [] := fun a ha => dense_ntk e1 (stores_nngp_shape hk.stores) ha
    exact ⟨k', e1, e2, by rw [e3, hk.static], by rw [e4.2.2]; exact hk.same, by rw [e4.1, hk.mask1], by rw [e4.2.1, hk.mask2],
      fun _ => hn, fun a ha h0 => absurd h0 (hn a ha)⟩
  | conv d =>
    obtain ⟨h1, -, h2, h3, h4, h5, h6, h7, rfl⟩ := hl
    obtain ⟨k', e1, e2, e3, e4⟩ := C53.kernel_formula d h1 k s.L hk.stores
      ⟨h2, h3, by rw [i5, i2]; exact h5, by rw [i5, i2]; exact h6, hk.zero⟩
    simp only [Prod.mk.injEq] at e4
    have hn : ∀ a, k'.ntk = some a → a.shape ≠ [] := fun a ha => conv_ntk e1 (stores_nngp_shape e2) ha
    rw [i6] at e2
    exact ⟨k', e1, e2, by rw [e3, hk.static]; simp [C53.newRev, convRev, i5, i2], by rw [e4.2.2]; exact hk.same, by rw [e4.1, hk.mask1],
      by rw [e4.2.1, hk.mask2], fun _ => hn, fun a ha h0 => absurd h0 (hn a ha)⟩
  | convTranspose d =>
    obtain ⟨h1, -, h2, h3, h4, h5, h6, h7, h8, rfl⟩ := hl
    obtain ⟨k', e1, e2, e3, e4⟩ := C97.kernel_formula d h1 k s.L hk.stores
      ⟨h2, h3, h5, h6, by rw [i5, i2]; exact h7, hk.zero⟩
    simp only [Prod.mk.injEq] at e4
    have hn : ∀ a, k'.ntk = some a → a.shape ≠ [] := fun a ha => convTranspose_ntk e1 (stores_nngp_shape e2) ha
    rw [i6] at e2
    exact ⟨k', e1, e2, by rw [e3, hk.static]; simp [C97.newRev, i5, i2], by rw [e4.2.2]; exact hk.same, by rw [e4.1, hk.mask1],
      by rw [e4.2.1, hk.mask2], fun _ => hn, fun a ha h0 => absurd h0 (hn a ha)⟩
  | pool d =>
    obtain ⟨h1, h2, h3, h4, rfl⟩ := hl
    have h4' : k.diagonalSpatial = true → k.isReversed = false ∧ C54.OffDiagZero s.L ∧
        (d.padding = .circular → List.Forall₂ (fun w n => w ≤ n) (d.window.map Prod.fst) s.L.S1) := by
      rw [i5, i2]
      exact fun h => ⟨(h4 h).1, (h4 h).2.2.1, (h4 h).2.2.2⟩
    obtain ⟨e2, e3, e4, e5⟩ := C54.pool_kernel_formula d h1 k s.L hk.stores h2 h4' hk.zero
    obtain ⟨t1, t2⟩ := tangent_ok (k' := d.kernelFn k) hk (by
      intro a ha h0
      simp only [Pool.kernelFn, Option.map_eq_some_iff] at ha
      obtain ⟨b, hb, rfl⟩ := ha
      by_cases hs : b.shape = []
      · have e : d.pool k 2 b = b := by
          unfold Pool.pool
          rw [if_pos (by unfold ndim; rw [hs]; rfl)]
        exact ⟨b, hb, hs, by rw [e]; exact id⟩
      · exfalso
        have := hk.stores.ntk
        rw [hb] at this
        cases hL : s.L.ntk with
        | none => rw [hL] at this; exact this
        | some F =>
          rw [hL] at this
          rcases this with ⟨h, -⟩ | h
          · exact hs h
          · exact (C54.pool_array d k h1 2 rfl h (by simp) h2
              fun g => ⟨(h4' g).1, (h4' g).2.1.ntk _ hL, (h4' g).2.2⟩).ne_nil (by simp) h0)
    exact ⟨_, rfl, e2, by rw [e3]; exact hk.static, hk.same, by rw [e4, hk.mask1], by rw [e5, hk.mask2], t1, t2⟩
  | globalPool d =>
    obtain ⟨h1, -, rfl⟩ := hl
    obtain ⟨e2, e3, e4, e5⟩ := C54.global_kernel_formula d k s.L hk.stores (by rw [i5]; exact h1) hk.zero
    obtain ⟨t1, t2⟩ := tangent_ok (k' := d.kernelFn k) hk (by
      intro a ha h0
      simp only [GlobalPool.kernelFn, Option.map_eq_some_iff] at ha
      obtain ⟨b, hb, rfl⟩ := ha
      by_cases hs : b.shape = []
      · refine ⟨b, hb, hs, fun h => ?_⟩
        unfold GlobalPool.pool GlobalPool.poolTail meanTail
        cases d.type <;> by_cases h : k.diagonalSpatial = true <;> simp_all [sumOver_eq_box, Arr.map]
      · exfalso
        have := hk.stores.ntk
        rw [hb] at this
        cases hL : s.L.ntk with
        | none => rw [hL] at this; exact this
        | some F =>
          rw [hL] at this
          rcases this with ⟨h, -⟩ | h
          · exact hs h
          · exact (C54.globalPool_array d k 2 rfl h fun g => (h1 (by rw [← i5]; exact g)).ntk _ hL).ne_nil (by simp) h0)
    refine ⟨_, rfl, e2, ?_, hk.same, hk.mask1, hk.mask2, t1, t2⟩
    rw [← hk.static]
    by_cases h : d.batchAxis % (k.shape1.length : ℤ) < d.channelAxis % (k.shape1.length : ℤ) <;>
      simp [Kernel.static, GlobalPool.kernelFn, h]
  | flatten f =>
    obtain ⟨bo, co, h1, h2, h3, rfl⟩ := hl
    obtain ⟨k', e1, e2, e3, e4, e5⟩ := C55.kernel_formula f bo co h1 k s.L hk.stores h2 h3
    have hk' : k'.ntk = k.ntk.map (Flatten.trace k.diagonalSpatial 2) ∧ k'.x1IsX2 = k.x1IsX2 := by
      unfold Flatten.kernelFn at e1
      rw [h1] at e1
      rw [← Except.ok.inj e1]
      exact ⟨rfl, rfl⟩
    obtain ⟨t1, t2⟩ := tangent_ok (k' := k') hk (by
      intro a ha h0
      rw [hk'.1, Option.map_eq_some_iff] at ha
      obtain ⟨b, hb, rfl⟩ := ha
      by_cases hs : b.shape = []
      · exact ⟨b, hb, hs, by rw [(trace_scalar _ _ _ hs).2]; exact id⟩
      · exfalso
        have := hk.stores.ntk
        rw [hb] at this
        cases hL : s.L.ntk with
        | none => rw [hL] at this; exact this
        | some F =>
          rw [hL] at this
          rcases this with ⟨h, -⟩ | h
          · exact hs h
          · rw [← h2] at h
            exact (trace_holds h).ne_nil (by simp) h0)
    exact ⟨k', e1, e2, by rw [e3, hk.static], by rw [hk'.2]; exact hk.same, by rw [e4, hk.mask1], by rw [e5, hk.mask2], t1, t2⟩
  | dropout d =>
    obtain ⟨h0, h1, ⟨hm, rfl⟩ | ⟨hm, h2, h3, h4, rfl⟩⟩ := hl
    · exact ⟨k, (C56.test_identity d h0 h1 hm k (scalar 0) fun _ => true).1, hk⟩
    · obtain ⟨k', e1, e2, e3, e4, e5⟩ := C56.kernel_formula d h0 h1 hm k s.L hk.stores (by rw [i3]; exact h2) (hk.full h3)
        (by rw [hk.same.2]; exact h4)
      have hx : k'.x1IsX2 = k.x1IsX2 ∧ ∀ a, k'.ntk = some a → a.shape ≠ [] := by
        simp only [Dropout.kernelFn, hm, reduceCtorEq, if_false, Dropout.kernelFnTrain] at e1
        split at e1
        · simp at e1
        · split at e1
          · simp at e1
          · split at e1
            · simp at e1
            · split at e1
              · simp at e1
              · split at e1
                · simp at e1
                · split at e1
                  · simp at e1
                  · rename_i x y z w e6
                    rw [← Except.ok.inj e1]
                    refine ⟨rfl, fun a ha h0 => ?_⟩
                    simp only at ha
                    subst ha
                    cases hn : k.ntk with
                    | none => rw [hn] at e6; simp [diagMul?] at e6
                    | some b =>
                      rw [hn] at e6
                      obtain ⟨r, h7, h8⟩ := map_ok e6
                      obtain rfl : r = a := Option.some.inj h8
                      have hst := hk.stores.ntk
                      rw [hn] at hst
                      cases hL : s.L.ntk with
                      | none => rw [hL] at hst; exact hst
                      | some F =>
                        rw [hL] at hst
                        rcases hst with ⟨h, -⟩ | h
                        · exact hk.full h3 b hn h
                        · obtain ⟨q, g1, g2⟩ := C56.diagMul_cross (if k.x1IsX2.get [] = true then 1 / d.rate else 1) h (by
                            rw [hk.same.2]
                            intro g
                            by_cases hx : s.same = true
                            · exact h4 hx
                            · simp [hx] at g)
                          rw [h7] at g1
                          obtain rfl := Except.ok.inj g1
                          exact g2.ne_nil (by simp) h0
      rw [hk.same.2] at e2
      exact ⟨k', e1, e2, by rw [e3, hk.static], by rw [hx.1]; exact hk.same, by rw [e4, hk.mask1], by rw [e5, hk.mask2],
        fun _ => hx.2, fun a ha g => absurd g (hx.2 a ha)⟩
  | layerNorm axis eps ba ca =>
    obtain ⟨h1, h2, -, h3, -, -, b, c, ax, rfl, h4, h5, h6, h7, h8, rfl⟩ := hl
    rw [← i6] at h3 h5 h6 h7
    obtain ⟨k', e1, e2, e3, e4, e5, e6, e7⟩ := C57.kernel_normalised hk.stores hc (by rw [i1]; exact h1) hk.mask1 hk.mask2 (hk.full h2) axis eps
      b c ca h3 h4 h5 h6 ax h7 h8
    rw [i6] at e2
    exact ⟨k', e1, e2, by rw [e3, hk.static], by rw [e4]; exact hk.same, e5, e6, fun _ => e7, fun a ha g => absurd g (e7 a ha)⟩
  | act f =>
    obtain ⟨h1, C, φ, dφ, N, T, h2, h3, rfl⟩ := hl
    obtain ⟨k', e1, e2, e3, e4, e5, e6, e7⟩ := h2.computes k s.L hk.stores hc h3 (by rw [i1]; exact h1)
    exact ⟨k', e1, e2, by rw [e3, hk.static], by rw [e4]; exact hk.same, by rw [e5, hk.mask1], by rw [e6, hk.mask2], fun _ => e7,
      fun a ha g => absurd g (e7 a ha)⟩
  | dotGeneral other isLhs inputC otherC inputB otherB =>
    obtain ⟨h1, h2, h3, h4, h5, h6, h7, h8, h9, h10, rfl⟩ := hl
    have hC : contraction s.info other.ndim isLhs inputC otherC inputB otherB =
        C28.ofArgs k other.ndim isLhs inputC otherC inputB otherB := by
      unfold contraction C28.ofArgs
      rw [i6, i8, i9]
    simp only [hC] at h1 h7 h8 h9 ⊢
    rw [← i6, ← i7] at h2
    rw [← i6, ← i8] at h3
    rw [← i7, ← i8] at h4
    rw [← i6, ← i8, ← i9] at h5
    rw [← i6, ← i7, ← i8, ← i9] at h6
    rw [← i6] at h7
    rw [← i7] at h8
    rw [← i5, ← i6, ← i7] at h9
    rw [← i2, ← i5] at h10
    obtain ⟨k', e1, e2, e3, e4, e5, e6, e7, e8⟩ := C28.covariance_of_contraction_partial k s.L hk.stores ⟨h2, h3, h4, h5, h6⟩ other other rfl isLhs
      inputC otherC inputB otherB ⟨h1, h7, h8, fun h => (h9 h).1, fun h => (h9 h).2, h10, hk.zero⟩
    simp only [Prod.mk.injEq] at e7
    obtain ⟨t1, t2⟩ := tangent_ok (k' := k') hk fun a ha h0 => ⟨a, e8 a ha h0, h0, id⟩
    rw [i6, i7] at e2
    refine ⟨k', e1, e2, ?_, by rw [e7.2.2]; exact hk.same, by rw [e7.1, hk.mask1], by rw [e7.2.1, hk.mask2], t1, t2⟩
    rw [e6, e4, e5, ← hk.static]
    rfl
  | index i =>
    obtain ⟨l, a, b, st, n1', n2', S1', S2', out1, out2, h, rfl⟩ := hl
    obtain ⟨c1, hs1⟩ := h.shape1
    obtain ⟨c2, hs2⟩ := h.shape2
    obtain ⟨k', m1, m2, T1, T2, e1, e2, e3, e4, e5, e6, -, -, -, -, e7, e8, e9, e10, e11⟩ := C27.getItem_content k s.L hk.stores i l (by rw [i6]; exact h.means) c1 c2 a b st
      (by rw [i8, i9]; exact h.axes.1) (by rw [i8]; exact h.axes.2.1) (by rw [i9]; exact h.axes.2.2) (by rw [i6, i8, i9]; exact hs1) (by rw [i7, i8, i9]; exact hs2)
      (fun m hm => by rw [hk.mask1] at hm; cases hm) (fun m hm => by rw [hk.mask2] at hm; cases hm) (by rw [i8]; exact h.batch) (by rw [i9]; exact h.channel)
      out1 out2 (by rw [i6]; exact h.out1) (by rw [i7]; exact h.out2)
    rw [i8, i9] at e4 e5 e6 e9
    obtain rfl := Except.ok.inj (e2.symm.trans h.n1)
    obtain rfl := Except.ok.inj (e3.symm.trans h.n2)
    obtain rfl := Except.ok.inj (e4.symm.trans h.S1)
    obtain rfl := Except.ok.inj (e5.symm.trans h.S2)
    obtain ⟨t1, t2⟩ := tangent_ok (k' := k') hk fun z hz h0 => ⟨z, e11 z hz h0, h0, id⟩
    refine ⟨k', e1, e6, by rw [e9, hk.static]; rfl, by rw [e10]; exact hk.same, ?_, ?_, t1, t2⟩
    · rw [hk.mask1] at e7
      cases hm : k'.mask1 with
      | none => rfl
      | some m => rw [hm] at e7; exact e7.elim
    · rw [hk.mask2] at e8
      cases hm : k'.mask2 with
      | none => rfl
      | some m => rw [hm] at e8; exact e8.elim
  | resize d =>
    obtain ⟨B, A, oS, h, rfl⟩ := hl
    obtain ⟨c1, hs1⟩ := h.shape1
    obtain ⟨c2, hs2⟩ := h.shape2
    obtain ⟨k', e1, e2, e3, e4, e5, e6, e7⟩ := C95.resize_spatial_formula_partial h.args h.str h.method k s.L c1 c2 hk.stores h.rank1 (by rw [i6]; exact hs1)
      (by rw [i7]; exact hs2) (by rw [i5]; exact h.diagonal) (by rw [i2]; exact h.reversed) hk.zero
    obtain ⟨t1, t2⟩ := tangent_ok (k' := k') hk fun a ha h0 => ⟨a, e7 a ha h0, h0, id⟩
    exact ⟨k', e1, e2, by rw [e3, hk.static], by rw [e4]; exact hk.same, by rw [e5, hk.mask1], by rw [e6, hk.mask2], t1, t2⟩
  | attention d =>
    obtain ⟨c, h, rfl⟩ := hl
    have e : Attn.EmbedOk d k s.L c := ⟨by rw [i8, i9]; exact h.axes.1, by rw [i8]; exact h.axes.2.1, by rw [i9]; exact h.axes.2.2, by rw [i8, i9, i6]; exact h.shape1, h.same⟩
    obtain ⟨k', e1, e2, e3, e4⟩ : ∃ k', d.kernelFn k = .ok k' ∧ k'.Stores (attentionLayer d c (fun _ _ => false) (fun _ _ => false) s.L) ∧
        k' = { k with cov1 := k'.cov1, nngp := k'.nngp, cov2 := k'.cov2, ntk := k'.ntk, isGaussian := true } ∧ ∀ a, k'.ntk = some a → a.shape ≠ [] := by
      unfold Attention.kernelFn attentionLayer
      by_cases hl : d.linearScaling = true
      · rw [if_pos hl, if_pos hl]
        exact Attn.kernelLinear_ok d k s.L c hk.stores (by rw [i5]; exact h.pairs) e (.none hk.mask1 hk.mask2) hc hk.zero
      · rw [if_neg hl, if_neg hl, if_pos (h.scaling.resolve_left hl)]
        exact Attn.kernelSqrt_ok d k s.L c hk.stores (by rw [i5]; exact h.pairs) e (.none hk.mask1 hk.mask2)
    refine ⟨k', e1, e2, ?_, ?_, ?_, ?_, fun _ => e4, fun a ha h0 => absurd h0 (e4 a ha)⟩
    · rw [e3, ← hk.static]; rfl
    · rw [e3]; exact hk.same
    · rw [e3]; exact hk.mask1
    · rw [e3]; exact hk.mask2
  | identity =>
    obtain rfl := hl
    exact ⟨k, rfl, hk⟩

/-! ### Fan-in layers -/

lemma preprocess_rev {k0 : Kernel ℝ} {ks r : List (Kernel ℝ)} {rev : Bool} (h : Kernel.preprocessFanIn k0 ks = .ok (r, rev)) :
    rev = decide (2 * (k0 :: ks).countP (·.isReversed) > (k0 :: ks).length) := by
  rw [Kernel.preprocessFanIn] at h
  split at h
  · simp only at h
    split at h
    · simp at h
    · exact (Prod.mk.inj (Except.ok.inj h)).2.symm
  · simp at h

lemma allSome_mem {A : Type} : ∀ {l : List (Option A)} {r : List A}, Kernel.allSome l = some r → l = r.map some
  | [], r, h => by
    obtain rfl : [] = r := by simpa [Kernel.allSome] using h
    rfl
  | none :: _, r, h => by simp [Kernel.allSome] at h
  | some a :: l, r, h => by
    simp only [Kernel.allSome, Option.map_eq_some_iff] at h
    obtain ⟨r', h1, rfl⟩ := h
    rw [allSome_mem h1]
    rfl

lemma matsSum_shape {l : List (Option (Arr ℝ))} {c : Arr ℝ} (h : Kernel.matsSum l = .ok (some c)) (hc : c.shape = []) :
    ∀ m, some m ∈ l → m.shape = [] := by
  unfold Kernel.matsSum at h
  split at h
  · simp at h
  · simp at h
  · split at h
    · simp at h
    · rename_i r e
      obtain ⟨a, h1, h2⟩ := map_ok h
      obtain rfl : a = c := Option.some.inj h2
      intro m hm
      rw [allSome_mem e] at hm
      exact (foldB_shape h1 hc).2 m (by simpa using hm)

/-- The fields of the result of a fan-in layer other than the arrays, and whether its tangent kernel is a number. -/
lemma fan_fields {f : Fan} {k0 : Kernel ℝ} {rest : List (Kernel ℝ)} {k' : Kernel ℝ} (h : f.kernelFn (k0 :: rest) = .ok k') :
    k'.isReversed = decide (2 * (k0 :: rest).countP (·.isReversed) > (k0 :: rest).length) ∧ k'.isInput = k0.isInput ∧
      k'.x1IsX2 = k0.x1IsX2 ∧ k'.mask1 = none ∧ k'.mask2 = none := by
  cases f with
  | sum =>
    simp only [Fan.kernelFn, Kernel.fanInSum] at h
    split at h
    · simp at h
    · rename_i r rev e
      split at h
      · simp at h
      · split at h
        · simp at h
        · split at h <;> first | (simp at h; done) | skip
          rw [← Except.ok.inj h]
          exact ⟨preprocess_rev e, rfl, rfl, rfl, rfl⟩
  | prod =>
    simp only [Fan.kernelFn, Kernel.fanInProd] at h
    split at h
    · simp at h
    · rename_i r rev e
      split at h
      · simp at h
      · split at h <;> first | (simp at h; done) | skip
        rw [← Except.ok.inj h]
        exact ⟨preprocess_rev e, rfl, rfl, rfl, rfl⟩
  | concat axis =>
    simp only [Fan.kernelFn, Kernel.fanInConcat] at h
    split at h
    · simp at h
    · rename_i r rev e
      split at h
      · simp at h
      · split at h
        · simp at h
        · split at h
          · simp at h
          · split at h <;> first | (simp at h; done) | skip
            rw [← Except.ok.inj h]
            exact ⟨preprocess_rev e, rfl, rfl, rfl, rfl⟩

lemma fan_ntk {f : Fan} {k0 : Kernel ℝ} {rest r : List (Kernel ℝ)} {rev : Bool} {k' : Kernel ℝ} (h : f.kernelFn (k0 :: rest) = .ok k')
    (hp : Kernel.preprocessFanIn k0 rest = .ok (r, rev)) (hr : ∀ k ∈ r, k.nngp.shape ≠ [] ∧ ∀ a, k.ntk = some a → a.shape ≠ [])
    (hc : ∀ axis, f = .concat axis → (axis % (k0.shape1.length : ℤ)).toNat = k0.channelAxis) {a : Arr ℝ} (ha : k'.ntk = some a) :
    a.shape ≠ [] := by
  have hne : r ≠ [] := by
    intro h0
    have := congrArg List.length (preprocess_gaussian hp)
    simp [h0] at this
  obtain ⟨q, qs, rfl⟩ := List.exists_cons_of_ne_nil hne
  intro h0
  cases f with
  | sum =>
    simp only [Fan.kernelFn, Kernel.fanInSum, hp] at h
    split at h
    · simp at h
    · split at h
      · simp at h
      · split at h <;> first | (simp at h; done) | skip
        rename_i e1 e2 e3 e4
        rw [← Except.ok.inj h] at ha
        simp only [Kernel.fanInResult] at ha
        subst ha
        cases hq : q.ntk with
        | none => simp [Kernel.matsSum, hq] at e4
        | some b => exact (hr q (by simp)).2 b hq (matsSum_shape e4 h0 b (by simp [hq]))
  | prod =>
    simp only [Fan.kernelFn, Kernel.fanInProd, hp] at h
    split at h
    · simp at h
    · split at h <;> first | (simp at h; done) | skip
      rename_i e1 e2 e3
      rw [← Except.ok.inj h] at ha
      simp only [Kernel.fanInResult] at ha
      subst ha
      unfold Kernel.matsProd at e3
      split at e3
      · obtain ⟨x, -, hx⟩ := map_ok e3
        simp at hx
      · rename_i ts e5
        obtain ⟨x, hx1, hx2⟩ := map_ok e3
        obtain rfl : x.2 = a := by simpa using congrArg Prod.snd hx2
        cases ts with
        | nil => have := allSome_mem e5; simp at this
        | cons t ts => exact (hr q (by simp)).1 ((prodLoop_shape hx1 h0).2 (q.nngp, t) (by simp))
  | concat axis =>
    have hax := hc axis rfl
    simp only [Fan.kernelFn, Kernel.fanInConcat, hp, hax] at h
    split at h
    · simp at h
    · split at h
      · simp at h
      · split at h
        · simp at h
        · split at h <;> first | (simp at h; done) | skip
          rename_i e1 e2 e3 e4
          rw [← Except.ok.inj h] at ha
          simp only [Kernel.fanInResult] at ha
          subst ha
          cases hq : q.ntk with
          | none => simp [Kernel.concatKernels, hq] at e4
          | some b =>
            simp only [Kernel.concatKernels, Kernel.concatAxis, if_true, List.map_cons, hq] at e4
            split at e4
            · simp at e4
            · rename_i l e5
              obtain ⟨x, hx1, hx2⟩ := map_ok e4
              obtain rfl : x = a := Option.some.inj hx2
              obtain ⟨y, hy1, rfl⟩ := map_ok hx1
              have e6 := allSome_mem e5
              cases l with
              | nil => simp at e6
              | cons m ms =>
                obtain ⟨e7, -⟩ := List.cons.inj e6
                obtain rfl := Option.some.inj e7
                have hw : ∃ w ws, Kernel.concatWeights (q.shape1.getD k0.channelAxis 0 :: qs.map fun k => k.shape1.getD k0.channelAxis 0) = w :: ws := by
                  unfold Kernel.concatWeights
                  split <;> exact ⟨_, _, rfl⟩
                obtain ⟨w, ws, hw⟩ := hw
                rw [hw] at hy1
                exact (hr q (by simp)).2 b hq ((foldB_shape hy1 h0).2 (b.map (· * (w : ℝ))) (by simp))

lemma combinable {m : ℕ} {s : Fin (m + 1) → State} {k : Fin (m + 1) → Kernel ℝ} (hk : ∀ r, Describes (s r) (k r)) (h : SameLayout s) :
    Combinable k fun r => (s r).L where
  stores r := (hk r).stores
  diagonalBatch r := by rw [(info_ext (hk r)).2.2.2.1, (info_ext (hk 0)).2.2.2.1]; exact h.diagonalBatch r
  diagonalSpatial r := by rw [(info_ext (hk r)).2.2.2.2.1, (info_ext (hk 0)).2.2.2.2.1]; exact h.diagonalSpatial r
  batchAxis r := by rw [(info_ext (hk r)).2.2.2.2.2.2.2.1, (info_ext (hk 0)).2.2.2.2.2.2.2.1]; exact h.batchAxis r
  channelAxis r := by rw [(info_ext (hk r)).2.2.2.2.2.2.2.2, (info_ext (hk 0)).2.2.2.2.2.2.2.2]; exact h.channelAxis r
  notReversed hd r := by rw [(info_ext (hk r)).2.1]; exact h.notReversed (by rw [← (info_ext (hk 0)).2.2.2.2.1]; exact hd) r
  sizes := h.sizes

lemma countP_ofFn {A B : Type} {m : ℕ} {f : Fin m → A} {g : Fin m → B} {p : A → Bool} {q : B → Bool} (h : ∀ r, p (f r) = q (g r)) :
    (List.ofFn f).countP p = (List.ofFn g).countP q := by
  induction m with
  | zero => simp
  | succ m ih =>
    rw [List.ofFn_succ, List.ofFn_succ, List.countP_cons, List.countP_cons, h 0, ih (f := fun r => f r.succ) (g := fun r => g r.succ) fun r => h r.succ]

lemma aligned {m : ℕ} {s : Fin (m + 1) → State} {k : Fin (m + 1) → Kernel ℝ} (hk : ∀ r, Describes (s r) (k r)) (h : Alike s) :
    Aligned k fun r => (s r).L where
  stores r := (hk r).stores
  diagonalBatch r := by rw [(info_ext (hk r)).2.2.2.1, (info_ext (hk 0)).2.2.2.1]; exact h.diagonalBatch r
  diagonalSpatial r := by rw [(info_ext (hk r)).2.2.2.2.1, (info_ext (hk 0)).2.2.2.2.1]; exact h.diagonalSpatial r
  batchAxis r := by rw [(info_ext (hk r)).2.2.2.2.2.2.2.1, (info_ext (hk 0)).2.2.2.2.2.2.2.1]; exact h.batchAxis r
  channelAxis r := by rw [(info_ext (hk r)).2.2.2.2.2.2.2.2, (info_ext (hk 0)).2.2.2.2.2.2.2.2]; exact h.channelAxis r
  notReversed hd r := by rw [(info_ext (hk r)).2.1]; exact h.notReversed (by rw [← (info_ext (hk 0)).2.2.2.2.1]; exact hd) r

/-- What the fan-in layers have in common, given that the tangent kernel is an array. -/
lemma fan_common' {f : Fan} {m : ℕ} {s : Fin (m + 1) → State} {k : Fin (m + 1) → Kernel ℝ} (hk : ∀ r, Describes (s r) (k r))
    {k' : Kernel ℝ} (e : f.kernelFn (List.ofFn k) = .ok k') (hn : ∀ a, k'.ntk = some a → a.shape ≠ []) {L : Logical ℝ} (hL : k'.Stores L) {i : Kernel.Static}
    (hi : k'.isReversed = majority s → k'.isInput = (s 0).info.isInput → k'.static = i) :
    Describes { s 0 with L := L, info := i } k' := by
  rw [List.ofFn_succ] at e
  obtain ⟨e1, e2, e3, e4, e5⟩ := fan_fields e
  rw [← List.ofFn_succ] at e1
  have hrev : k'.isReversed = majority s := by
    rw [e1, majority, countP_ofFn (g := s) (q := fun x => x.info.isReversed) fun r => (info_ext (hk r)).2.1, List.length_ofFn]
  exact ⟨hL, hi hrev (by rw [e2]; exact (info_ext (hk 0)).2.2.1), by rw [e3]; exact (hk 0).same, e4, e5, fun _ => hn, fun a ha h0 => absurd h0 (hn a ha)⟩

/-- What the fan-in layers have in common. -/
lemma fan_common {f : Fan} {m : ℕ} {s : Fin (m + 1) → State} {k : Fin (m + 1) → Kernel ℝ} (hk : ∀ r, Describes (s r) (k r)) (h : SameLayout s)
    (hc : ∀ axis, f = .concat axis → (axis % ((k 0).shape1.length : ℤ)).toNat = (k 0).channelAxis)
    {k' : Kernel ℝ} (e : f.kernelFn (List.ofFn k) = .ok k') {L : Logical ℝ} (hL : k'.Stores L) {i : Kernel.Static}
    (hi : k'.isReversed = majority s → k'.isInput = (s 0).info.isInput → k'.static = i) :
    Describes { s 0 with L := L, info := i } k' := by
  refine fan_common' hk e ?_ hL hi
  rw [List.ofFn_succ] at e
  obtain ⟨r, rev, hp, hr⟩ := preprocess_ok' (combinable hk h).aligned
  intro a ha
  refine fan_ntk e hp (fun q hq => ?_) hc ha
  obtain ⟨j, rfl⟩ := List.mem_ofFn.1 hq
  refine ⟨stores_nngp_shape (hr j).1, fun b hb h0 => ?_⟩
  have h1 := (hr j).2.2.2
  rw [hb] at h1
  cases hn : (k j).ntk with
  | none => rw [hn] at h1; simp at h1
  | some c =>
    rw [hn] at h1
    simp only [Option.map_some, Option.some.injEq, Arr.ndim, h0, List.length_nil] at h1
    exact (hk j).full (h.full j) c hn (List.length_eq_zero_iff.1 h1.symm)

/-- Each fan-in layer, applied as documented, computes a kernel described by the next state. -/
theorem fan_sound {f : Fan} {m : ℕ} {s : Fin (m + 1) → State} {t : State} {k : Fin (m + 1) → Kernel ℝ} (hk : ∀ r, Describes (s r) (k r))
    (hf : FanSem f s t) : ∃ k', f.kernelFn (List.ofFn k) = .ok k' ∧ Describes t k' := by
  have i : ∀ r, _ := fun r => info_ext (hk r)
  have i1 := fun r => (i r).1
  have i5 := fun r => (i r).2.2.2.2.2.1
  have i6 := fun r => (i r).2.2.2.2.2.2.1
  have i7 := fun r => (i r).2.2.2.2.2.2.2.1
  have i8 := fun r => (i r).2.2.2.2.2.2.2.2
  cases f with
  | sum =>
    obtain ⟨h1, h2, h3, c2, cn, h4, h5, rfl⟩ := hf
    obtain ⟨k', e1, e2, e3, e4, e5, e6, e7, e8, e9⟩ := C38.sum_content k _ (combinable hk h1) c2 cn h4 h5 (fun r => by
      rw [i5, i6, i5, i6]; exact h3 r) (h2.imp (fun h r => by rw [i1]; exact h r) id)
    refine ⟨k', e1, fan_common (f := .sum) hk h1 (fun _ h => by simp at h) e1 e2 fun hr hin => ?_⟩
    have hg : k'.isGaussian = (k 0).isGaussian := by
      rw [Bool.eq_iff_iff, e9]
      rcases h2 with h | h
      · exact ⟨fun h => h 0, fun _ r => by rw [i1]; exact h r⟩
      · subst h
        exact ⟨fun h => h 0, fun h r => by rw [show r = 0 from Fin.ext (by omega)]; exact h⟩
    rw [← (hk 0).static] at hin ⊢
    simp only [Kernel.static] at hin ⊢
    rw [hg, e3, e4, e5, e6, e7, e8, hr, hin]
  | prod =>
    obtain ⟨h1, h3, c2, cn, h4, h5, rfl⟩ := hf
    obtain ⟨k', e1, e2, e3, e4, e5, e6, e9⟩ := C39.prod_content k _ (combinable hk h1) c2 cn h4 h5 (fun r => by
      rw [i5, i6, i5, i6]; exact h3 r)
    refine ⟨k', e1, fan_common (f := .prod) hk h1 (fun _ h => by simp at h) e1 e2 fun hr hin => ?_⟩
    have hg : k'.isGaussian = (decide (m = 0) && (k 0).isGaussian) := by
      rw [Bool.eq_iff_iff, e9]; simp
    have hsh : k'.shape1 = (k 0).shape1 ∧ k'.shape2 = (k 0).shape2 := by
      have e := e1
      rw [List.ofFn_succ] at e
      simp only [Kernel.fanInProd] at e
      split at e
      · simp at e
      · split at e
        · simp at e
        · split at e <;> first | (simp at e; done) | skip
          rw [← Except.ok.inj e]
          exact ⟨rfl, rfl⟩
    rw [← (hk 0).static] at hin ⊢
    simp only [Kernel.static] at hin ⊢
    rw [hg, e3, e4, e5, e6, hsh.1, hsh.2, hr, hin]
  | concat axis =>
    rcases hf with hf | hf | hf
    rotate_left
    · obtain ⟨h1, ax, c, g1, ⟨g2, -, -⟩, ⟨g3, g4, g5⟩, g6, g7, g8, g9, c2, cn, h4, h5, rfl⟩ := hf
      obtain ⟨k', e1, e2, -, e3, e4, e5, e6, e7, e8, e9, e10⟩ := C40.spatial_stores k _ (aligned hk h1) axis ax c (by rw [i5]; exact g1) (by rw [i5]; exact g2)
        (by rw [i5, i7]; exact g3) (by rw [i5, i8]; exact g4) (by rw [i7, i8]; exact g5) (by rw [i5, i7, i8]; exact g6) (fun r => by rw [i5, i6, i5, i6]; exact g7 r) g8 g9
        c2 cn h4 h5 (fun r => (hk r).full (h1.full r)) (fun r => by rw [i1]; exact h1.gaussian r)
      refine ⟨k', e1, fan_common' (f := .concat axis) hk e1 e10 e2 fun hr hin => ?_⟩
      simp only [i5, i6] at e7 e8
      unfold joined
      have hs0 := (hk 0).static
      rw [← hs0] at hin e7 e8 ⊢
      simp only [Kernel.static] at hin e7 e8 ⊢
      rw [e9, e3, e4, e5, e6, e7, e8, hr, hin]
    · obtain ⟨h1, g1, -, g2, g3, g4, g5, c2, cn, h4, h5, rfl⟩ := hf
      obtain ⟨k', e1, e2, -, e3, e4, e5, e6, e7, e8, e9, e10⟩ := C40.batch_stores k _ (aligned hk h1) axis (by rw [i5]; exact g1) (by rw [i5, i7]; exact g2)
        (by rw [i7, i8]; exact g3) (fun r => by rw [i5, i6, i5, i6, i7]; exact g4 r) g5 c2 cn h4 h5 (fun r => (hk r).full (h1.full r))
        (fun r => by rw [i1]; exact h1.gaussian r)
      refine ⟨k', e1, fan_common' (f := .concat axis) hk e1 e10 e2 fun hr hin => ?_⟩
      simp only [i5, i6, i7] at e7 e8
      unfold joined
      have hs0 := (hk 0).static
      rw [← hs0] at hin e7 e8 ⊢
      simp only [Kernel.static] at hin e7 e8 ⊢
      rw [e9, e3, e4, e5, e6, e7, e8, hr, hin]
    obtain ⟨h1, h2, -, h3, h6, w, h7, h8, -, c2, cn, h4, h5, rfl⟩ := hf
    have hax : axis % ((k 0).shape1.length : ℤ) = ((k 0).channelAxis : ℕ) := by rw [i5, i8]; exact h3
    obtain ⟨k', e1, e2, e3, e4, e5, e6, e7, e8, e9⟩ := C40.channel_content k _ (combinable hk h1) axis (by rw [i5]; exact h2)
      hax (fun r => by rw [i5, i6, i5, i6, i8]; exact h6 r) w h7 (fun r => by rw [i5, i8]; exact h8 r) c2 cn h4 h5
    refine ⟨k', e1, fan_common (f := .concat axis) hk h1 (fun x hx => by rw [← Fan.concat.inj hx, hax]; simp) e1 e2 fun hr hin => ?_⟩
    simp only [i5, i6, i8] at e7 e8
    have hs0 := (hk 0).static
    rw [← hs0] at hin e7 e8 ⊢
    simp only [Kernel.static] at hin e7 e8 ⊢
    rw [e9, e3, e4, e5, e6, e7, e8, hr, hin]

/-! ### Networks -/

lemma describes_withShapes {s : State} {k : Kernel ℝ} (h : Describes s k) (s1 s2 : List ℕ) :
    Describes (s.withShapes s1 s2) (setShapes s1 s2 k) where
  stores := ⟨h.stores.nngp, h.stores.cov1, h.stores.cov2, h.stores.ntk⟩
  static := by
    unfold State.withShapes
    rw [← h.static]
    rfl
  same := h.same
  mask1 := h.mask1
  mask2 := h.mask2
  full := h.full
  zero := h.zero

lemma collect_ok {B : Type} : ∀ {n : ℕ} {f : Fin n → Except Err B} {g : Fin n → B}, (∀ i, f i = .ok (g i)) → collect n f = .ok (List.ofFn g)
  | 0, f, g, _ => by simp [collect]
  | n + 1, f, g, h => by
    simp only [collect, h 0]
    rw [collect_ok (g := fun i => g i.succ) fun i => h i.succ, List.ofFn_succ]

lemma ones_ofFn {A : Type} : ∀ {n : ℕ} (f : Fin n → A), Vals.ones (List.ofFn fun r => Vals.one (f r)) = some (List.ofFn f)
  | 0, f => by simp [Vals.ones]
  | n + 1, f => by
    rw [List.ofFn_succ, List.ofFn_succ]
    simp only [Vals.ones, ones_ofFn fun r => f r.succ, Option.map_some]

/-- A network, applied as documented, computes kernels described by what the layers do to their content. -/
theorem net_sound {net : Net} {v w : Vals State} (h : NetSem net v w) : ∀ {x : Vals (Kernel ℝ)}, Rel (fun k s => Describes s k) x v →
    ∃ y, net.run x = .ok y ∧ Rel (fun k s => Describes s k) y w := by
  induction h with
  | @layer l out s t hc hl =>
    intro x hx
    cases hx with
    | one k _ hk =>
      obtain ⟨k', h1, h2⟩ := layer_sound hk hc hl
      refine ⟨.one (setShapes (out k.shape1) (out k.shape2) k'), by simp only [Net.run, h1], ?_⟩
      have e := info_ext hk
      rw [e.2.2.2.2.2.1, e.2.2.2.2.2.2.1]
      exact .one _ _ (describes_withShapes h2 _ _)
  | fanOut =>
    intro x hx
    exact ⟨_, rfl, rel_replicate hx _⟩
  | @fanIn f out m s t hc hf =>
    intro x hx
    cases hx with
    | many l _ hl hr =>
      have hlen : l.length = m + 1 := by simpa using hl
      have : ∃ k : Fin (m + 1) → Kernel ℝ, l = List.ofFn (fun r => Vals.one (k r)) ∧ ∀ r, Describes (s r) (k r) := by
        have key : ∀ r : Fin (m + 1), ∃ k, l[r.1]'(by rw [hlen]; exact r.2) = Vals.one k ∧ Describes (s r) k := by
          intro r
          have h1 := hr r.1 (by rw [hlen]; exact r.2) (by simpa using Nat.lt_succ_iff.1 r.2)
          simp only [List.getElem_ofFn] at h1
          generalize l[r.1]'(by rw [hlen]; exact r.2) = z at h1
          cases h1 with
          | one k _ hk => exact ⟨k, rfl, hk⟩
        choose k h1 h2 using key
        refine ⟨k, List.ext_getElem (by simp [hlen]) fun n hn1 hn2 => ?_, h2⟩
        have := h1 ⟨n, by rw [← hlen]; exact hn1⟩
        rw [this, List.getElem_ofFn]
      obtain ⟨k, rfl, hk⟩ := this
      obtain ⟨k', h1, h2⟩ := fan_sound hk hf
      refine ⟨.one (setShapes (out ((List.ofFn k).map (·.shape1))) (out ((List.ofFn k).map (·.shape2))) k'), by simp only [Net.run, ones_ofFn, h1], ?_⟩
      have e1 : (List.ofFn k).map (·.shape1) = List.ofFn fun r => (s r).info.shape1 := by
        rw [List.map_ofFn]
        congr 1
        funext r
        exact (info_ext (hk r)).2.2.2.2.2.1
      have e2 : (List.ofFn k).map (·.shape2) = List.ofFn fun r => (s r).info.shape2 := by
        rw [List.map_ofFn]
        congr 1
        funext r
        exact (info_ext (hk r)).2.2.2.2.2.2.1
      rw [e1, e2]
      exact .one _ _ (describes_withShapes h2 _ _)
  | seq _ _ ih1 ih2 =>
    intro x hx
    obtain ⟨y, h1, h2⟩ := ih1 hx
    obtain ⟨z, h3, h4⟩ := ih2 h2
    exact ⟨z, by simp only [Net.run, h1, h3], h4⟩
  | @par n branches u v h ih =>
    intro x hx
    cases hx with
    | many l _ hl hr =>
      have hlen : l.length = n := by simpa using hl
      have key : ∀ i : Fin n, ∃ y, (branches i).run (l[i.1]'(by rw [hlen]; exact i.2)) = .ok y ∧ Rel (fun k s => Describes s k) y (v i) := by
        intro i
        have h1 := hr i.1 (by rw [hlen]; exact i.2) (by simp)
        simp only [List.getElem_ofFn] at h1
        exact ih i h1
      choose y h1 h2 using key
      refine ⟨.many (List.ofFn y), ?_, .many _ _ (by simp) fun i p q => ?_⟩
      · simp only [Net.run]
        rw [dif_pos hlen, collect_ok (g := y)]
        intro i
        exact h1 i
      · simp only [List.getElem_ofFn]
        exact h2 _

end NT.Semantics
