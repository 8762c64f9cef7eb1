import Verif.Tac
import Verif.Model.MaskedTree
import Verif.Lemmas.Explicit

/-!
# Kernels of one input: `cov2` and `mask2` absent or those of the first input
-/

namespace NT.NoneSelf
open NT NT.Network Arr

/-- The kernel with `cov2` and `mask2` filled in. -/
def ex (k : Kernel ℝ) : Kernel ℝ := { k with cov2 := some k.cov1, mask2 := k.mask1 }

/-- A kernel of one input. -/
structure Bare (k : Kernel ℝ) : Prop where
  cov2 : k.cov2 = none
  mask2 : k.mask2 = none

/-- Filling in before or after `f` is the same. -/
def Keeps (f : Kernel ℝ → Except Err (Kernel ℝ)) : Prop := ∀ k K, Bare k → f k = .ok K → Bare K ∧ f (ex k) = .ok (ex K)

lemma map_ok {A B : Type} {f : A → B} {a : Except Err A} {b : B} (h : a.map f = .ok b) : ∃ x, a = .ok x ∧ f x = b := by
  cases a with
  | error e => simp [Except.map] at h
  | ok x => exact ⟨x, rfl, by simpa [Except.map] using h⟩

lemma bind_ok {A B : Type} {f : A → Except Err B} {a : Except Err A} {b : B} (h : a >>= f = .ok b) : ∃ x, a = .ok x ∧ f x = .ok b := by
  cases a with
  | error e => simp [bind, Except.bind] at h
  | ok x => exact ⟨x, rfl, h⟩

lemma keeps_dense (d : Dense) : Keeps d.kernelFn := by
  intro k K hb h
  simp only [Dense.kernelFn, ex, hb.cov2] at h ⊢
  cases hp : d.param <;> rw [hp] at h <;> simp only at h ⊢
  · obtain ⟨n, e, rfl⟩ := map_ok h
    refine ⟨⟨rfl, hb.mask2⟩, ?_⟩
    rw [e]
    rfl
  · cases hw : pyGetNat k.shape1 d.channelAxis with
    | error e => rw [hw] at h; cases h
    | ok w =>
      rw [hw] at h
      simp only at h ⊢
      obtain ⟨n, e, rfl⟩ := map_ok h
      refine ⟨⟨rfl, hb.mask2⟩, ?_⟩
      rw [e]
      rfl
  · cases h

lemma keeps_conv (d : Conv) : Keeps d.kernelFn := by
  intro k K hb h
  simp only [Conv.kernelFn, hb.cov2] at h ⊢
  cases hp : d.param <;> rw [hp] at h <;> simp only at h ⊢
  · obtain ⟨c, e1, h⟩ := bind_ok h
    obtain ⟨c2, e2, h⟩ := bind_ok h
    cases e2
    obtain ⟨n, e3, h⟩ := bind_ok h
    obtain ⟨t, e4, h⟩ := bind_ok h
    cases h
    refine ⟨⟨rfl, hb.mask2⟩, ?_⟩
    have e2 : d.convO (ex k) (if k.diagonalBatch = true then 1 else 2) (some k.cov1) = .ok (some c) := by
      rw [Conv.convO]
      change (d.conv k k.cov1 _).map some = _
      rw [e1]
      rfl
    change (d.conv k k.cov1 (if k.diagonalBatch = true then 1 else 2) >>= fun cov1 =>
      d.convO (ex k) (if k.diagonalBatch = true then 1 else 2) (some k.cov1) >>= fun cov2 => d.conv k k.nngp 2 >>= fun nngp => d.ntkNtk k nngp >>= fun ntk =>
      pure (d.finish (ex k) cov1 nngp cov2 ntk)) = _
    rw [e1, e2, e3]
    change (d.ntkNtk k n >>= _) = _
    rw [e4]
    rfl
  · obtain ⟨c, e1, h⟩ := bind_ok h
    obtain ⟨c2, e2, h⟩ := bind_ok h
    cases e2
    obtain ⟨n, e3, h⟩ := bind_ok h
    obtain ⟨t, e4, h⟩ := bind_ok h
    cases h
    refine ⟨⟨rfl, hb.mask2⟩, ?_⟩
    have e2 : d.convO (ex k) (if k.diagonalBatch = true then 1 else 2) (some k.cov1) = .ok (some c) := by
      rw [Conv.convO]
      change (d.conv k k.cov1 _).map some = _
      rw [e1]
      rfl
    change (d.conv k k.cov1 (if k.diagonalBatch = true then 1 else 2) >>= fun cov1 =>
      d.convO (ex k) (if k.diagonalBatch = true then 1 else 2) (some k.cov1) >>= fun cov2 => d.convUnscaled k k.nngp 2 >>= fun nngp =>
      d.ntkStandard k (k.shape1.getD d.channelAxis 0) nngp >>= fun ntk => pure (d.finish (ex k) cov1 _ cov2 ntk)) = _
    rw [e1, e2, e3]
    change (d.ntkStandard k (k.shape1.getD d.channelAxis 0) n >>= _) = _
    rw [e4]
    rfl
  · cases h

lemma keeps_pool (d : Pool) : Keeps fun k => .ok (d.kernelFn k) := by
  intro k K hb h
  cases h
  exact ⟨⟨by simp [Pool.kernelFn, hb.cov2], hb.mask2⟩, rfl⟩

lemma keeps_globalPool (d : GlobalPool) : Keeps fun k => .ok (d.kernelFn k) := by
  intro k K hb h
  cases h
  exact ⟨⟨by simp [GlobalPool.kernelFn, hb.cov2], hb.mask2⟩, rfl⟩

lemma keeps_identity : Keeps .ok := by
  intro k K hb h
  cases h
  exact ⟨hb, rfl⟩

lemma keeps_dropout (d : Dropout) : Keeps d.kernelFn := by
  intro k K hb h
  obtain ⟨nngp, ntk, cov1, cov2, same, ig, ir, ii, db, ds, s1, s2, ba, ca, m1, m2⟩ := k
  obtain ⟨h2, hm2⟩ := hb
  dsimp only at h2 hm2
  subst h2 hm2
  simp only [Dropout.kernelFn] at h ⊢
  cases hc : d.check with
  | error e => rw [hc] at h; cases h
  | ok u =>
    rw [hc] at h
    simp only at h ⊢
    by_cases hm : d.mode = .test
    · rw [if_pos hm] at h ⊢
      cases h
      exact ⟨⟨rfl, rfl⟩, rfl⟩
    · rw [if_neg hm] at h ⊢
      dsimp only [Dropout.kernelFnTrain, ex] at h ⊢
      cases ii with
      | true => cases h
      | false =>
        generalize (if same.get [] = true then 1 / d.rate else 1) = r at h ⊢
        rw [if_neg Bool.false_ne_true] at h ⊢
        cases e1 : diagMul cov1 (1 / d.rate) db ds with
        | error e => rw [e1] at h; cases h
        | ok c =>
          rw [e1] at h
          generalize diagMul? ntk r false ds = t at h ⊢
          dsimp only [diagMul?] at h ⊢
          rw [e1]
          dsimp only [Except.map] at h ⊢
          cases e3 : diagMul nngp r false ds with
          | error e => rw [e3] at h; cases h
          | ok n =>
            rw [e3] at h
            dsimp only at h ⊢
            cases t with
            | error e => cases h
            | ok t =>
              cases h
              exact ⟨⟨rfl, rfl⟩, rfl⟩

lemma prods_none {α γ : Type} {c : Arr α} {db ds : Bool} {op : α → α → γ} {r : Arr γ × Arr γ × Arr γ}
    (h : getDiagonalOuterProds c none db ds op = .ok r) : getDiagonalOuterProds c (some c) db ds op = .ok (r.1, r.2.1, r.1) ∧ r.2.2 = r.1 := by
  simp only [getDiagonalOuterProds, getDiagonal?] at h ⊢
  cases e : getDiagonal c db ds with
  | error e' => rw [e] at h; cases h
  | ok d =>
    rw [e] at h
    cases h
    exact ⟨rfl, rfl⟩

lemma keeps_dual {γ : Type} (D : DualFn γ) : Keeps D.kernelFn := by
  intro k K hb h
  obtain ⟨nngp, ntk, cov1, cov2, same, ig, ir, ii, db, ds, s1, s2, ba, ca, m1, m2⟩ := k
  obtain ⟨h2, hm2⟩ := hb
  dsimp only at h2 hm2
  subst h2 hm2
  dsimp only [DualFn.kernelFn, ex, Option.map] at h ⊢
  cases e1 : getDiagonalOuterProds (cov1.map D.den) none db ds D.op with
  | error e => rw [e1] at h; cases h
  | ok p =>
    obtain ⟨f1, f2⟩ := prods_none e1
    obtain ⟨p11, p12, p22⟩ := p
    dsimp only at f1 f2
    subst f2
    rw [e1] at h
    rw [f1]
    dsimp only at h ⊢
    generalize zipB D.nngp nngp p12 = a at h ⊢
    generalize D.newNtk nngp p12 ntk = b at h ⊢
    dsimp only [DualFn.newCov?] at h ⊢
    generalize D.newCov (db && ds) cov1 p22 = c at h ⊢
    cases a <;> cases b <;> cases c <;> cases h
    exact ⟨⟨rfl, rfl⟩, rfl⟩

lemma keeps_elementwise {f : Kernel ℝ → Except Err (Kernel ℝ)} (hf : Keeps f) : Keeps (elementwise f) := by
  intro k K hb h
  simp only [elementwise] at h ⊢
  by_cases hg : (!k.isGaussian) = true
  · rw [if_pos hg] at h
    cases h
  · rw [if_neg hg] at h
    rw [if_neg (show ¬(!(ex k).isGaussian) = true from hg)]
    cases e : f k with
    | error e' => rw [e] at h; cases h
    | ok K' =>
      rw [e] at h
      cases h
      obtain ⟨b, q⟩ := hf k K' hb e
      rw [q]
      exact ⟨⟨b.cov2, b.mask2⟩, rfl⟩

lemma keeps_map {f : Kernel ℝ → Except Err (Kernel ℝ)} (hf : Keeps f) {g : Kernel ℝ → Kernel ℝ} (h1 : ∀ k, Bare k → Bare (g k)) (h2 : ∀ k, g (ex k) = ex (g k)) :
    Keeps fun k => (f k).map g := by
  intro k K hb h
  obtain ⟨x, e, rfl⟩ := map_ok h
  obtain ⟨b, q⟩ := hf k x hb e
  refine ⟨h1 x b, ?_⟩
  simp only [q, Except.map, h2]

lemma keeps_comp {f : Kernel ℝ → Except Err (Kernel ℝ)} (hf : Keeps f) {g : Kernel ℝ → Kernel ℝ} (h1 : ∀ k, Bare k → Bare (g k)) (h2 : ∀ k, g (ex k) = ex (g k)) :
    Keeps fun k => f (g k) := by
  intro k K hb h
  have e : f (g (ex k)) = f (ex (g k)) := by rw [h2]
  obtain ⟨b, q⟩ := hf _ K (h1 k hb) h
  exact ⟨b, e.trans q⟩

lemma bare_mul (c : ℝ) (k : Kernel ℝ) (h : Bare k) : Bare (k.mul c) := ⟨by simp [Kernel.mul, h.cov2], h.mask2⟩
lemma bare_add (c : ℝ) (k : Kernel ℝ) (h : Bare k) : Bare (k.add c) := ⟨by simp [Kernel.add, h.cov2], h.mask2⟩
lemma bare_rescale (c : ℝ) (k : Kernel ℝ) (h : Bare k) : Bare (k.rescale c) := ⟨by simp [Kernel.rescale, h.cov2], h.mask2⟩

lemma keeps_sign : Keeps signCore := by
  intro k K hb h
  obtain ⟨nngp, ntk, cov1, cov2, same, ig, ir, ii, db, ds, s1, s2, ba, ca, m1, m2⟩ := k
  obtain ⟨h2, hm2⟩ := hb
  dsimp only at h2 hm2
  subst h2 hm2
  dsimp only [signCore, ex, Option.map] at h ⊢
  cases e1 : getDiagonalOuterProds cov1 none db ds (· * ·) with
  | error e => rw [e1] at h; cases h
  | ok p =>
    obtain ⟨f1, f2⟩ := prods_none e1
    obtain ⟨p11, p12, p22⟩ := p
    rw [e1] at h
    rw [f1]
    dsimp only at h ⊢
    generalize zipB (fun n p => 1 - reluAngle n p * 2 / Real.pi) nngp p12 = a at h ⊢
    cases a <;> cases h
    exact ⟨⟨rfl, rfl⟩, rfl⟩

lemma keeps_abRelu (a b : ℝ) (s : Bool) : Keeps (abReluKernelFn a b s) := by
  refine keeps_elementwise fun k K hb h => ?_
  cases s
  · exact keeps_dual _ k K hb h
  · simp only [if_true] at h ⊢
    have e0 : maxAbs (ex k).nngp = maxAbs k.nngp := rfl
    rw [e0]
    cases e : maxAbs k.nngp with
    | error e' => rw [e] at h; cases h
    | ok m =>
      rw [e] at h
      simp only at h ⊢
      exact keeps_map (keeps_comp (keeps_dual (abReluDual a b)) (g := fun k => k.rescale (max m 1e-12)⁻¹) (bare_rescale _) fun _ => rfl)
        (g := fun k => k.rescale (max m 1e-12)) (bare_rescale _) (fun _ => rfl) k K hb h

lemma keeps_exp (a b : ℝ) : Keeps (expKernelFn a b) := keeps_elementwise (keeps_map (keeps_dual _) (g := fun k => k.mul a) (bare_mul a) fun _ => rfl)

lemma keeps_gaussian (a b : ℝ) : Keeps (gaussianKernelFn a b) :=
  keeps_elementwise (keeps_map (keeps_dual _) (g := fun k => k.mul a) (bare_mul a) fun _ => rfl)

lemma keeps_erf (a b c : ℝ) : Keeps (erfKernelFn a b c) :=
  keeps_elementwise (keeps_map (keeps_comp (keeps_dual _) (g := fun k => k.mul b) (bare_mul b) fun _ => rfl) (g := fun k => (k.mul a).add c)
    (fun k h => bare_add c _ (bare_mul a k h)) fun _ => rfl)

lemma keeps_monomial (n : ℤ) : Keeps (monomialKernelFn n) := by
  intro k K hb h
  unfold monomialKernelFn at h ⊢
  split at h
  · rename_i hn
    rw [if_pos hn]
    exact keeps_elementwise (keeps_dual _) k K hb h
  · cases h

lemma keeps_rectified (n : ℤ) : Keeps (rectifiedMonomialKernelFn n) := by
  intro k K hb h
  unfold rectifiedMonomialKernelFn at h ⊢
  split at h
  · cases h
  · rename_i hn
    rw [if_neg hn]
    exact keeps_elementwise (keeps_dual _) k K hb h

lemma keeps_hermite (n : ℤ) : Keeps (hermiteKernelFn n) := by
  intro k K hb h
  unfold hermiteKernelFn at h ⊢
  split at h
  · cases h
  · rename_i hn
    rw [if_neg hn]
    exact keeps_elementwise (keeps_dual _) k K hb h

/-! ### Masks -/

lemma maskProd_self (k : Kernel ℝ) (m : Option (Arr Bool)) (n : ℕ) : k.maskProd m m n = k.maskProd m none n := by
  cases m with
  | none => rfl
  | some m =>
    simp only [Kernel.maskProd]
    cases Kernel.maskReshape k m <;> rfl

lemma mask_ex {k K : Kernel ℝ} {m : Option (Arr Bool)} (hb : Bare k) (h : k.mask m none = .ok K) : Bare K ∧ (ex k).mask m m = .ok (ex K) := by
  simp only [Kernel.mask] at h ⊢
  obtain ⟨m11, e1, h⟩ := bind_ok h
  obtain ⟨m22, e2, h⟩ := bind_ok h
  cases e2
  have q1 : (ex k).maskProd m m (ex k).batchNdim = .ok m11 := e1
  have q3 : (ex k).maskProd m m 2 = k.maskProd m none 2 := maskProd_self (ex k) m 2
  cases m with
  | none =>
    cases e1
    cases h
    exact ⟨⟨by simp [hb.cov2], rfl⟩, rfl⟩
  | some m =>
    obtain ⟨m12, e3, h⟩ := bind_ok h
    cases h
    refine ⟨⟨by simp [hb.cov2], rfl⟩, ?_⟩
    simp only [q1, q3, e3]
    rfl

lemma keeps_globalPoolKernel (d : GlobalPool) : Keeps (Masked.globalPoolKernel d) := by
  intro k K hb h
  obtain ⟨nngp, ntk, cov1, cov2, same, ig, ir, ii, db, ds, s1, s2, ba, ca, m1, m2⟩ := k
  obtain ⟨h2, hm2⟩ := hb
  dsimp only at h2 hm2
  subst h2 hm2
  dsimp only [Masked.globalPoolKernel, ex] at h ⊢
  obtain ⟨m11, e1, h⟩ := bind_ok h
  obtain ⟨m22, e2, h⟩ := bind_ok h
  cases e2
  obtain ⟨m12, e3, h⟩ := bind_ok h
  obtain ⟨c1, e4, h⟩ := bind_ok h
  obtain ⟨c2, e5, h⟩ := bind_ok h
  cases e5
  obtain ⟨n, e6, h⟩ := bind_ok h
  obtain ⟨t, e7, h⟩ := bind_ok h
  cases h
  refine ⟨⟨rfl, rfl⟩, ?_⟩
  cases m1 with
  | none =>
    dsimp only
    have q1 : Kernel.maskProd (⟨nngp, ntk, cov1, some cov1, same, ig, ir, ii, db, ds, s1, s2, ba, ca, none, none⟩ : Kernel ℝ) none none
        (Kernel.batchNdim (⟨nngp, ntk, cov1, some cov1, same, ig, ir, ii, db, ds, s1, s2, ba, ca, none, none⟩ : Kernel ℝ)) = .ok m11 := e1
    have q3 : Kernel.maskProd (⟨nngp, ntk, cov1, some cov1, same, ig, ir, ii, db, ds, s1, s2, ba, ca, none, none⟩ : Kernel ℝ) none none 2 = .ok m12 :=
      (maskProd_self _ _ _).trans e3
    have q5 : Masked.poolArr d ds (Kernel.batchNdim (⟨nngp, ntk, cov1, some cov1, same, ig, ir, ii, db, ds, s1, s2, ba, ca, none, none⟩ : Kernel ℝ))
        cov1 m11 = .ok c1 := e4
    have q4 : Masked.poolArr? d ds
        (Kernel.batchNdim (⟨nngp, ntk, cov1, some cov1, same, ig, ir, ii, db, ds, s1, s2, ba, ca, none, none⟩ : Kernel ℝ)) (some cov1) m11 =
        .ok (some c1) := by
      simp only [Masked.poolArr?, q5]
      rfl
    simp only [q1, q3, q4, q5, e6, e7, bind, Except.bind]
    rfl
  | some m =>
    dsimp only
    have q1 : Kernel.maskProd (⟨nngp, ntk, cov1, some cov1, same, ig, ir, ii, db, ds, s1, s2, ba, ca, some m, some m⟩ : Kernel ℝ) (some m) (some m)
        (Kernel.batchNdim (⟨nngp, ntk, cov1, some cov1, same, ig, ir, ii, db, ds, s1, s2, ba, ca, some m, some m⟩ : Kernel ℝ)) = .ok m11 := e1
    have q3 : Kernel.maskProd (⟨nngp, ntk, cov1, some cov1, same, ig, ir, ii, db, ds, s1, s2, ba, ca, some m, some m⟩ : Kernel ℝ) (some m) (some m) 2 = .ok m12 :=
      (maskProd_self _ _ _).trans e3
    have q5 : Masked.poolArr d ds (Kernel.batchNdim (⟨nngp, ntk, cov1, some cov1, same, ig, ir, ii, db, ds, s1, s2, ba, ca, some m, some m⟩ : Kernel ℝ))
        cov1 m11 = .ok c1 := e4
    have q4 : Masked.poolArr? d ds
        (Kernel.batchNdim (⟨nngp, ntk, cov1, some cov1, same, ig, ir, ii, db, ds, s1, s2, ba, ca, some m, some m⟩ : Kernel ℝ)) (some cov1) m11 =
        .ok (some c1) := by
      simp only [Masked.poolArr?, q5]
      rfl
    simp only [q1, q3, q4, q5, e6, e7, bind, Except.bind]
    rfl

/-! ### Fan-in layers -/

lemma orient_ex {rev : Bool} {k K : Kernel ℝ} (hb : Bare k) (h : Kernel.orient rev k = .ok K) : Bare K ∧ Kernel.orient rev (ex k) = .ok (ex K) := by
  unfold Kernel.orient at h ⊢
  by_cases hr : k.isReversed = rev
  · rw [if_pos hr] at h
    cases h
    exact ⟨hb, if_pos hr⟩
  · rw [if_neg hr] at h
    rw [if_neg (show ¬(ex k).isReversed = rev from hr)]
    simp only [Kernel.reverse, hb.cov2] at h ⊢
    obtain ⟨c1, e1, h⟩ := bind_ok h
    obtain ⟨c2, e2, h⟩ := bind_ok h
    cases e2
    obtain ⟨n, e3, h⟩ := bind_ok h
    obtain ⟨t, e4, h⟩ := bind_ok h
    cases h
    refine ⟨⟨rfl, hb.mask2⟩, ?_⟩
    change (reverseZipped k.cov1 k.batchNdim >>= _) = _
    rw [e1]
    change (Kernel.onOpt (reverseZipped · k.batchNdim) (some k.cov1) >>= _) = _
    have e2 : Kernel.onOpt (reverseZipped · k.batchNdim) (some k.cov1) = .ok (some c1) := by simp [Kernel.onOpt, e1, Except.map]
    rw [e2]
    change (reverseZipped k.nngp 2 >>= _) = _
    rw [e3]
    change (Kernel.onOpt (reverseZipped · 2) k.ntk >>= _) = _
    rw [e4]
    rfl

lemma mapE_ex {rev : Bool} : ∀ {ks r : List (Kernel ℝ)}, (∀ k ∈ ks, Bare k) → Kernel.mapE (Kernel.orient rev) ks = .ok r →
    (∀ k ∈ r, Bare k) ∧ Kernel.mapE (Kernel.orient rev) (ks.map ex) = .ok (r.map ex) ∧ r.length = ks.length
  | [], r, _, h => by
    cases h
    simp [Kernel.mapE]
  | k :: ks, r, hb, h => by
    simp only [Kernel.mapE, List.map_cons] at h ⊢
    cases e1 : Kernel.orient rev k with
    | error e => rw [e1] at h; cases h
    | ok K =>
      rw [e1] at h
      simp only at h
      cases e2 : Kernel.mapE (Kernel.orient rev) ks with
      | error e => rw [e2] at h; cases h
      | ok r' =>
        rw [e2] at h
        cases h
        obtain ⟨b, q⟩ := orient_ex (hb k (by simp)) e1
        obtain ⟨b', q', l⟩ := mapE_ex (fun k hk => hb k (by simp [hk])) e2
        rw [q]
        simp only [q', List.map_cons, List.length_cons, l, and_true]
        simpa using ⟨b, b'⟩

lemma preprocess_ex {k0 : Kernel ℝ} {ks r : List (Kernel ℝ)} {rev : Bool} (hb : ∀ k ∈ k0 :: ks, Bare k)
    (h : Kernel.preprocessFanIn k0 ks = .ok (r, rev)) :
    (∀ k ∈ r, Bare k) ∧ Kernel.preprocessFanIn (ex k0) (ks.map ex) = .ok (r.map ex, rev) ∧ r ≠ [] := by
  simp only [Kernel.preprocessFanIn] at h ⊢
  split at h
  · rename_i hc
    rw [if_pos (by intro k hk; obtain ⟨k', hk', rfl⟩ := List.mem_map.mp hk; exact hc k' hk')]
    cases e : Kernel.mapE (Kernel.orient (decide (2 * (k0 :: ks).countP (·.isReversed) > (k0 :: ks).length))) (k0 :: ks) with
    | error e' => rw [e] at h; cases h
    | ok r' =>
      rw [e] at h
      cases h
      obtain ⟨b, q, l⟩ := mapE_ex hb e
      have ec : (ex k0 :: ks.map ex).countP (·.isReversed) = (k0 :: ks).countP (·.isReversed) := by
        rw [← List.map_cons, List.countP_map]
        rfl
      have el : (ex k0 :: ks.map ex).length = (k0 :: ks).length := by simp
      refine ⟨b, ?_, by rintro rfl; simp at l⟩
      rw [ec, el, ← List.map_cons, q]
  · cases h

lemma allSome_map {A : Type} (l : List A) : Kernel.allSome (l.map some) = some l := by
  induction l with
  | nil => rfl
  | cons a l ih => simp [Kernel.allSome, ih]

lemma fan_keeps (f : Fan) {ks : List (Kernel ℝ)} {K : Kernel ℝ} (hb : ∀ k ∈ ks, Bare k) (h : f.kernelFn ks = .ok K) :
    Bare K ∧ f.kernelFn (ks.map ex) = .ok (ex K) := by
  cases ks with
  | nil => cases f <;> cases h
  | cons k0 rest =>
    have none_head : ∀ {r : List (Kernel ℝ)}, (∀ k ∈ r, Bare k) → r ≠ [] → ∃ r', r.map (·.cov2) = none :: r' := by
      intro r hr hne
      cases r with
      | nil => exact absurd rfl hne
      | cons a r => exact ⟨r.map (·.cov2), by simp [(hr a (by simp)).cov2]⟩
    have ec : (fun k : Kernel ℝ => some k.cov1) ∘ ex = fun k => some k.cov1 := rfl
    have ec' : (fun k : Kernel ℝ => k.cov1) ∘ ex = fun k => k.cov1 := rfl
    have e2 : (fun k : Kernel ℝ => k.cov2) ∘ ex = fun k => some k.cov1 := rfl
    have en : (fun k : Kernel ℝ => some k.nngp) ∘ ex = fun k => some k.nngp := rfl
    have en' : (fun k : Kernel ℝ => k.nngp) ∘ ex = fun k => k.nngp := rfl
    have et : (fun k : Kernel ℝ => k.ntk) ∘ ex = fun k => k.ntk := rfl
    have es1 : (fun k : Kernel ℝ => k.shape1) ∘ ex = fun k => k.shape1 := rfl
    have es2 : (fun k : Kernel ℝ => k.shape2) ∘ ex = fun k => k.shape2 := rfl
    have ew : (fun k : Kernel ℝ => k.shape1.getD (ex k0).channelAxis 0) ∘ ex = fun k => k.shape1.getD k0.channelAxis 0 := rfl
    have eg : ∀ r : List (Kernel ℝ), (r.map ex).all (·.isGaussian) = r.all (·.isGaussian) := fun r => by
      rw [List.all_map]
      rfl
    cases f with
    | sum =>
      simp only [Fan.kernelFn, Kernel.fanInSum, List.map_cons] at h ⊢
      cases e : Kernel.preprocessFanIn k0 rest with
      | error e' => rw [e] at h; cases h
      | ok p =>
        obtain ⟨r, rev⟩ := p
        obtain ⟨br, q, hne⟩ := preprocess_ex hb e
        obtain ⟨r', hr'⟩ := none_head br hne
        rw [e] at h
        rw [q]
        simp only [hr'] at h ⊢
        split at h
        · cases h
        rename_i hs
        rw [if_neg (fun hn => hs fun w => hn fun k hk => by obtain ⟨k', hk', rfl⟩ := List.mem_map.mp hk; exact w k' hk')]
        rw [eg, List.length_map]
        split at h
        · cases h
        rename_i hg
        rw [if_neg hg]
        simp only [List.map_map, ec, e2, en, et]
        rw [show Kernel.matsSum (none :: r') = .ok none from rfl] at h
        generalize Kernel.matsSum (r.map fun k => some k.cov1) = A at h ⊢
        generalize Kernel.matsSum (r.map fun k => some k.nngp) = B at h ⊢
        generalize Kernel.matsSum (r.map fun k => k.ntk) = C at h ⊢
        rcases A with _ | _ | _ <;> rcases B with _ | _ | _ <;> rcases C with _ | _ <;> cases h
        exact ⟨⟨rfl, rfl⟩, rfl⟩
    | prod =>
      simp only [Fan.kernelFn, Kernel.fanInProd, List.map_cons] at h ⊢
      cases e : Kernel.preprocessFanIn k0 rest with
      | error e' => rw [e] at h; cases h
      | ok p =>
        obtain ⟨r, rev⟩ := p
        obtain ⟨br, q, hne⟩ := preprocess_ex hb e
        obtain ⟨r', hr'⟩ := none_head br hne
        rw [e] at h
        rw [q]
        simp only [hr'] at h ⊢
        split at h
        · cases h
        rename_i hs
        rw [if_neg (fun hn => hs fun w => hn fun k hk => by obtain ⟨k', hk', rfl⟩ := List.mem_map.mp hk; exact w k' hk')]
        rw [List.length_map]
        simp only [List.map_map, ec', e2, en', et]
        rw [show Kernel.optProd (none :: r') = .ok none from rfl] at h
        rw [show (r.map fun k => some k.cov1) = (r.map fun k => k.cov1).map some by rw [List.map_map]; rfl]
        simp only [Kernel.optProd, allSome_map]
        generalize Kernel.reduceMul (r.map fun k => k.cov1) = A at h ⊢
        generalize Kernel.matsProd (r.map fun k => k.nngp) (r.map fun k => k.ntk) = B at h ⊢
        rcases A with _ | _ <;> rcases B with _ | _ <;> cases h
        exact ⟨⟨rfl, rfl⟩, rfl⟩
    | concat axis =>
      simp only [Fan.kernelFn, Kernel.fanInConcat, List.map_cons] at h ⊢
      cases e : Kernel.preprocessFanIn k0 rest with
      | error e' => rw [e] at h; cases h
      | ok p =>
        obtain ⟨r, rev⟩ := p
        obtain ⟨br, q, hne⟩ := preprocess_ex hb e
        obtain ⟨r', hr'⟩ := none_head br hne
        rw [e] at h
        rw [q]
        simp only [hr'] at h ⊢
        split at h
        · cases h
        rename_i h0
        rw [if_neg (show ¬(ex k0).shape1.length = 0 from h0)]
        split at h
        · cases h
        rename_i hs
        rw [if_neg (fun hn => hs fun w => hn fun k hk => by obtain ⟨k', hk', rfl⟩ := List.mem_map.mp hk; exact w k' hk')]
        rw [eg]
        split at h
        · cases h
        rename_i hg
        rw [if_neg (show ¬((axis % ((ex k0).shape1.length : ℤ)).toNat ≠ (ex k0).channelAxis ∧ _) from hg)]
        simp only [List.map_map, ec, e2, en, et, es1, es2, ew]
        dsimp only [ex]
        generalize Kernel.concatAxis k0.shape1.length k0.batchAxis k0.channelAxis (axis % (k0.shape1.length : ℤ)).toNat rev = cax at h ⊢
        generalize (r.map fun k => k.shape1.getD k0.channelAxis 0) = w at h ⊢
        rw [show Kernel.concatKernels (none :: r') cax k0.diagonalBatch k0.diagonalSpatial w = .ok none from rfl] at h
        generalize Kernel.concatKernels (r.map fun k => some k.cov1) cax k0.diagonalBatch k0.diagonalSpatial w = A at h ⊢
        generalize Kernel.concatKernels (r.map fun k => some k.nngp) cax false k0.diagonalSpatial w = B at h ⊢
        generalize Kernel.concatKernels (r.map fun k => k.ntk) cax false k0.diagonalSpatial w = C at h ⊢
        rcases A with _ | _ | _ <;> rcases B with _ | _ | _ <;> rcases C with _ | _ <;> cases h
        exact ⟨⟨rfl, rfl⟩, rfl⟩

end NT.NoneSelf
