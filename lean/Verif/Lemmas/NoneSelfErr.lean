import Verif.Lemmas.NoneSelfNet

/-!
# Errors on kernels of one input
-/

namespace NT.NoneSelf
open NT NT.Network Arr Masked Semantics

/-- The value is an error. -/
def Fails {A : Type} (a : Except Err A) : Prop := ∃ e, a = .error e

/-- If `f` raises on a kernel of one input, it also raises on the kernel with `cov2` and `mask2` filled in. -/
def Raises (f : Kernel ℝ → Except Err (Kernel ℝ)) : Prop := ∀ k, Bare k → Fails (f k) → Fails (f (ex k))

lemma fails_bind {A B : Type} {a : Except Err A} {f : A → Except Err B} (h : Fails (a >>= f)) : Fails a ∨ ∃ x, a = .ok x ∧ Fails (f x) := by
  cases a with
  | error e => exact .inl ⟨e, rfl⟩
  | ok x => exact .inr ⟨x, rfl, h⟩

lemma bind_fails {A B : Type} {a : Except Err A} {f : A → Except Err B} (h : Fails a ∨ ∃ x, a = .ok x ∧ Fails (f x)) : Fails (a >>= f) := by
  rcases h with ⟨e, rfl⟩ | ⟨x, rfl, h⟩
  · exact ⟨e, rfl⟩
  · exact h

lemma fails_map {A B : Type} {a : Except Err A} {f : A → B} : Fails (a.map f) ↔ Fails a := by
  cases a with
  | error e => exact ⟨fun _ => ⟨e, rfl⟩, fun _ => ⟨e, rfl⟩⟩
  | ok x => exact ⟨fun h => (by obtain ⟨e, h⟩ := h; cases h), fun h => (by obtain ⟨e, h⟩ := h; cases h)⟩

lemma not_fails {A : Type} {x : A} (h : Fails (.ok x : Except Err A)) : False := by
  obtain ⟨e, h⟩ := h
  cases h

lemma raises_dense (d : Dense) : Raises d.kernelFn := by
  intro k hb h
  obtain ⟨nngp, ntk, cov1, cov2, same, ig, ir, ii, db, ds, s1, s2, ba, ca, m1, m2⟩ := k
  dsimp only [Dense.kernelFn, ex] at h ⊢
  generalize d.param = p at h ⊢
  cases p with
  | ntk => exact fails_map.mpr (fails_map.mp h)
  | standard =>
    dsimp only at h ⊢
    generalize pyGetNat s1 d.channelAxis = w at h ⊢
    cases w with
    | error e => exact ⟨e, rfl⟩
    | ok w => exact fails_map.mpr (fails_map.mp h)
  | other => exact ⟨_, rfl⟩

lemma raises_conv (d : Conv) : Raises d.kernelFn := by
  intro k hb h
  obtain ⟨nngp, ntk, cov1, cov2, same, ig, ir, ii, db, ds, s1, s2, ba, ca, m1, m2⟩ := k
  obtain ⟨h2, hm2⟩ := hb
  dsimp only at h2 hm2
  subst h2 hm2
  dsimp only [Conv.kernelFn, ex] at h ⊢
  generalize d.param = p at h ⊢
  cases p with
  | ntk =>
    dsimp only at h ⊢
    refine bind_fails ?_
    rcases fails_bind h with h | ⟨c, e, h⟩
    · exact .inl h
    refine .inr ⟨c, e, bind_fails (.inr ⟨some c, fails_or e, ?_⟩)⟩
    rcases fails_bind h with ⟨e', h⟩ | ⟨c2, e2, h⟩
    · cases h
    cases e2
    refine bind_fails ?_
    rcases fails_bind h with h | ⟨n, e3, h⟩
    · exact .inl h
    refine .inr ⟨n, e3, bind_fails ?_⟩
    rcases fails_bind h with h | ⟨t, e4, h⟩
    · exact .inl h
    exact (not_fails h).elim
  | standard =>
    dsimp only at h ⊢
    refine bind_fails ?_
    rcases fails_bind h with h | ⟨c, e, h⟩
    · exact .inl h
    refine .inr ⟨c, e, bind_fails (.inr ⟨some c, fails_or e, ?_⟩)⟩
    rcases fails_bind h with ⟨e', h⟩ | ⟨c2, e2, h⟩
    · cases h
    cases e2
    refine bind_fails ?_
    rcases fails_bind h with h | ⟨n, e3, h⟩
    · exact .inl h
    refine .inr ⟨n, e3, bind_fails ?_⟩
    rcases fails_bind h with h | ⟨t, e4, h⟩
    · exact .inl h
    exact (not_fails h).elim
  | other => exact ⟨_, rfl⟩
where
  fails_or {A : Type} {a : Except Err A} {c : A} (h : a = .ok c) : a.map some = .ok (some c) := by rw [h]; rfl

lemma raises_ok {f : Kernel ℝ → Kernel ℝ} : Raises fun k => .ok (f k) := fun _ _ h => (not_fails h).elim

lemma raises_dropout (d : Dropout) : Raises d.kernelFn := by
  intro k hb h
  obtain ⟨nngp, ntk, cov1, cov2, same, ig, ir, ii, db, ds, s1, s2, ba, ca, m1, m2⟩ := k
  obtain ⟨h2, hm2⟩ := hb
  dsimp only at h2 hm2
  subst h2 hm2
  simp only [Dropout.kernelFn] at h ⊢
  cases hc : d.check with
  | error e => exact ⟨e, rfl⟩
  | ok u =>
    rw [hc] at h
    simp only at h ⊢
    by_cases hm : d.mode = .test
    · rw [if_pos hm] at h
      exact (not_fails h).elim
    · rw [if_neg hm] at h ⊢
      dsimp only [Dropout.kernelFnTrain, ex] at h ⊢
      cases ii with
      | true => exact ⟨_, rfl⟩
      | false =>
        generalize (if same.get [] = true then 1 / d.rate else 1) = r at h ⊢
        rw [if_neg Bool.false_ne_true] at h ⊢
        generalize diagMul? ntk r false ds = t at h ⊢
        generalize diagMul nngp r false ds = n at h ⊢
        dsimp only [diagMul?] at h ⊢
        generalize diagMul cov1 (1 / d.rate) db ds = c at h ⊢
        cases c <;> cases n <;> cases t <;> first | exact ⟨_, rfl⟩ | exact (not_fails h).elim

lemma prods_error {α γ : Type} {c : Arr α} {db ds : Bool} {op : α → α → γ} {e : Err} (h : getDiagonalOuterProds c none db ds op = .error e) :
    getDiagonalOuterProds c (some c) db ds op = .error e := by
  simp only [getDiagonalOuterProds, getDiagonal?] at h ⊢
  cases e1 : getDiagonal c db ds with
  | error e' => rw [e1] at h; cases h; rfl
  | ok d =>
    rw [e1] at h
    cases h

lemma raises_dual {γ : Type} (D : DualFn γ) : Raises D.kernelFn := by
  intro k hb h
  obtain ⟨nngp, ntk, cov1, cov2, same, ig, ir, ii, db, ds, s1, s2, ba, ca, m1, m2⟩ := k
  obtain ⟨h2, hm2⟩ := hb
  dsimp only at h2 hm2
  subst h2 hm2
  dsimp only [DualFn.kernelFn, ex, Option.map] at h ⊢
  cases e1 : getDiagonalOuterProds (cov1.map D.den) none db ds D.op with
  | error e => rw [prods_error e1]; exact ⟨e, rfl⟩
  | ok p =>
    obtain ⟨f1, f2⟩ := prods_none e1
    obtain ⟨p11, p12, p22⟩ := p
    dsimp only at f1 f2
    subst f2
    rw [e1] at h
    rw [f1]
    dsimp only at h ⊢
    generalize zipB D.nngp nngp p12 = a at h ⊢
    generalize D.newNtk nngp p12 ntk = b at h ⊢
    dsimp only [DualFn.newCov?] at h ⊢
    generalize D.newCov (db && ds) cov1 p22 = c at h ⊢
    cases a <;> cases b <;> cases c <;> first | exact ⟨_, rfl⟩ | exact (not_fails h).elim

lemma raises_sign : Raises signCore := by
  intro k hb h
  obtain ⟨nngp, ntk, cov1, cov2, same, ig, ir, ii, db, ds, s1, s2, ba, ca, m1, m2⟩ := k
  obtain ⟨h2, hm2⟩ := hb
  dsimp only at h2 hm2
  subst h2 hm2
  dsimp only [signCore, ex, Option.map] at h ⊢
  cases e1 : getDiagonalOuterProds cov1 none db ds (· * ·) with
  | error e => rw [prods_error e1]; exact ⟨e, rfl⟩
  | ok p =>
    obtain ⟨f1, f2⟩ := prods_none e1
    obtain ⟨p11, p12, p22⟩ := p
    rw [e1] at h
    rw [f1]
    dsimp only at h ⊢
    generalize zipB (fun n p => 1 - reluAngle n p * 2 / Real.pi) nngp p12 = a at h ⊢
    cases a <;> first | exact ⟨_, rfl⟩ | exact (not_fails h).elim

lemma raises_elementwise {f : Kernel ℝ → Except Err (Kernel ℝ)} (hf : Raises f) : Raises (elementwise f) := by
  intro k hb h
  simp only [elementwise] at h ⊢
  by_cases hg : (!k.isGaussian) = true
  · rw [if_pos (show (!(ex k).isGaussian) = true from hg)]
    exact ⟨_, rfl⟩
  · rw [if_neg hg] at h
    rw [if_neg (show ¬(!(ex k).isGaussian) = true from hg)]
    cases e : f k with
    | error e' =>
      obtain ⟨e2, q⟩ := hf k hb ⟨e', e⟩
      rw [q]
      exact ⟨e2, rfl⟩
    | ok K =>
      rw [e] at h
      exact (not_fails h).elim

lemma raises_map {f : Kernel ℝ → Except Err (Kernel ℝ)} (hf : Raises f) {g : Kernel ℝ → Kernel ℝ} : Raises fun k => (f k).map g :=
  fun k hb h => fails_map.mpr (hf k hb (fails_map.mp h))

lemma raises_comp {f : Kernel ℝ → Except Err (Kernel ℝ)} (hf : Raises f) {g : Kernel ℝ → Kernel ℝ} (h1 : ∀ k, Bare k → Bare (g k)) (h2 : ∀ k, g (ex k) = ex (g k)) :
    Raises fun k => f (g k) := by
  intro k hb h
  have e : f (g (ex k)) = f (ex (g k)) := by rw [h2]
  have := hf _ (h1 k hb) h
  rw [← e] at this
  exact this

lemma raises_abRelu (a b : ℝ) (s : Bool) : Raises (abReluKernelFn a b s) := by
  refine raises_elementwise fun k hb h => ?_
  cases s
  · exact raises_dual _ k hb h
  · simp only [if_true] at h ⊢
    have e0 : maxAbs (ex k).nngp = maxAbs k.nngp := rfl
    rw [e0]
    cases e : maxAbs k.nngp with
    | error e' => exact ⟨e', rfl⟩
    | ok m =>
      rw [e] at h
      simp only at h ⊢
      exact raises_map (raises_comp (raises_dual (abReluDual a b)) (g := fun k => k.rescale (max m 1e-12)⁻¹) (bare_rescale _) fun _ => rfl)
        (g := fun k => k.rescale (max m 1e-12)) k hb h

lemma raises_exp (a b : ℝ) : Raises (expKernelFn a b) := raises_elementwise (raises_map (raises_dual _))

lemma raises_gaussian (a b : ℝ) : Raises (gaussianKernelFn a b) := raises_elementwise (raises_map (raises_dual _))

lemma raises_erf (a b c : ℝ) : Raises (erfKernelFn a b c) :=
  raises_elementwise (raises_map (raises_comp (raises_dual _) (g := fun k => k.mul b) (bare_mul b) fun _ => rfl))

lemma raises_monomial (n : ℤ) : Raises (monomialKernelFn n) := by
  intro k hb h
  unfold monomialKernelFn at h ⊢
  split
  · rename_i hn
    rw [if_pos hn] at h
    exact raises_elementwise (raises_dual _) k hb h
  · exact ⟨_, rfl⟩

lemma raises_rectified (n : ℤ) : Raises (rectifiedMonomialKernelFn n) := by
  intro k hb h
  unfold rectifiedMonomialKernelFn at h ⊢
  split
  · exact ⟨_, rfl⟩
  · rename_i hn
    rw [if_neg hn] at h
    exact raises_elementwise (raises_dual _) k hb h

lemma raises_hermite (n : ℤ) : Raises (hermiteKernelFn n) := by
  intro k hb h
  unfold hermiteKernelFn at h ⊢
  split
  · exact ⟨_, rfl⟩
  · rename_i hn
    rw [if_neg hn] at h
    exact raises_elementwise (raises_dual _) k hb h

lemma mask_raises {k : Kernel ℝ} {m : Option (Arr Bool)} (h : Fails (k.mask m none)) : Fails ((ex k).mask m m) := by
  simp only [Kernel.mask] at h ⊢
  cases m with
  | none => exact (not_fails h).elim
  | some m =>
    refine bind_fails ?_
    rcases fails_bind h with h | ⟨m11, e1, h⟩
    · exact .inl h
    refine .inr ⟨m11, e1, bind_fails (.inr ⟨m11, e1, bind_fails ?_⟩)⟩
    rcases fails_bind h with h | ⟨m22, e2, h⟩
    · exact (not_fails h).elim
    cases e2
    rw [maskProd_self]
    rcases fails_bind h with h | ⟨m12, e3, h⟩
    · exact .inl h
    exact (not_fails h).elim

lemma raises_globalPoolKernel (d : GlobalPool) : Raises (globalPoolKernel d) := by
  intro k hb h
  obtain ⟨nngp, ntk, cov1, cov2, same, ig, ir, ii, db, ds, s1, s2, ba, ca, m1, m2⟩ := k
  obtain ⟨h2, hm2⟩ := hb
  dsimp only at h2 hm2
  subst h2 hm2
  dsimp only [globalPoolKernel, ex] at h ⊢
  refine bind_fails ?_
  rcases fails_bind h with h | ⟨m11, e1, h⟩
  · exact .inl h
  refine .inr ⟨m11, e1, ?_⟩
  rcases fails_bind h with h | ⟨m22, e2, h⟩
  · exact (not_fails h).elim
  cases e2
  have rest : ∀ {k k' : Kernel ℝ} {bn : ℕ} {F : Arr ℝ → Option (Arr ℝ) → Arr ℝ → Option (Arr ℝ) → Kernel ℝ} {G : Arr ℝ → Option (Arr ℝ) → Arr ℝ → Option (Arr ℝ) → Kernel ℝ},
      k'.maskProd m1 m1 2 = k.maskProd m1 none 2 →
      Fails (k.maskProd m1 none 2 >>= fun m12 => poolArr d ds bn cov1 m11 >>= fun c1 => poolArr? d ds bn none m11 >>= fun c2 =>
        poolArr d ds 2 nngp m12 >>= fun n => poolArr? d ds 2 ntk m12 >>= fun t => pure (F c1 c2 n t)) →
      Fails (k'.maskProd m1 m1 2 >>= fun m12 => poolArr d ds bn cov1 m11 >>= fun c1 => poolArr? d ds bn (some cov1) m11 >>= fun c2 =>
        poolArr d ds 2 nngp m12 >>= fun n => poolArr? d ds 2 ntk m12 >>= fun t => pure (G c1 c2 n t)) := by
    intro k k' bn F G hk h
    rw [hk]
    refine bind_fails ?_
    rcases fails_bind h with h | ⟨m12, e3, h⟩
    · exact .inl h
    refine .inr ⟨m12, e3, bind_fails ?_⟩
    rcases fails_bind h with h | ⟨c1, e4, h⟩
    · exact .inl h
    refine .inr ⟨c1, e4, bind_fails (.inr ⟨some c1, by simp only [poolArr?, e4]; rfl, bind_fails ?_⟩)⟩
    rcases fails_bind h with h | ⟨c2, e5, h⟩
    · exact (not_fails h).elim
    rcases fails_bind h with h | ⟨n, e6, h⟩
    · exact .inl h
    refine .inr ⟨n, e6, bind_fails ?_⟩
    rcases fails_bind h with h | ⟨t, e7, h⟩
    · exact .inl h
    exact (not_fails h).elim
  cases m1 with
  | none => exact rest (maskProd_self _ _ _) h
  | some m => exact bind_fails (.inr ⟨m11, e1, rest (maskProd_self _ _ _) h⟩)

lemma orient_raises {rev : Bool} {k : Kernel ℝ} (hb : Bare k) (h : Fails (Kernel.orient rev k)) : Fails (Kernel.orient rev (ex k)) := by
  unfold Kernel.orient at h ⊢
  by_cases hr : k.isReversed = rev
  · rw [if_pos hr] at h
    exact (not_fails h).elim
  · rw [if_neg hr] at h
    rw [if_neg (show ¬(ex k).isReversed = rev from hr)]
    obtain ⟨nngp, ntk, cov1, cov2, same, ig, ir, ii, db, ds, s1, s2, ba, ca, m1, m2⟩ := k
    obtain ⟨h2, hm2⟩ := hb
    dsimp only at h2 hm2
    subst h2 hm2
    dsimp only [Kernel.reverse, ex] at h ⊢
    refine bind_fails ?_
    rcases fails_bind h with h | ⟨c1, e1, h⟩
    · exact .inl h
    refine .inr ⟨c1, e1, bind_fails (.inr ⟨some c1, ?_, ?_⟩)⟩
    · exact congrArg (Except.map some) e1
    rcases fails_bind h with h | ⟨c2, e2, h⟩
    · exact (not_fails h).elim
    refine bind_fails ?_
    rcases fails_bind h with h | ⟨n, e3, h⟩
    · exact .inl h
    refine .inr ⟨n, e3, bind_fails ?_⟩
    rcases fails_bind h with h | ⟨t, e4, h⟩
    · exact .inl h
    exact (not_fails h).elim

lemma mapE_raises {rev : Bool} : ∀ {ks : List (Kernel ℝ)}, (∀ k ∈ ks, Bare k) → Fails (Kernel.mapE (Kernel.orient rev) ks) →
    Fails (Kernel.mapE (Kernel.orient rev) (ks.map ex))
  | [], _, h => (not_fails h).elim
  | k :: ks, hb, h => by
    simp only [Kernel.mapE, List.map_cons] at h ⊢
    cases e1 : Kernel.orient rev k with
    | error e =>
      obtain ⟨e', q⟩ := orient_raises (hb k (by simp)) ⟨e, e1⟩
      rw [q]
      exact ⟨e', rfl⟩
    | ok K =>
      rw [e1] at h
      rw [(orient_ex (hb k (by simp)) e1).2]
      simp only at h ⊢
      cases e2 : Kernel.mapE (Kernel.orient rev) ks with
      | error e =>
        obtain ⟨e', q⟩ := mapE_raises (fun k hk => hb k (by simp [hk])) ⟨e, e2⟩
        rw [q]
        exact ⟨e', rfl⟩
      | ok r =>
        rw [e2] at h
        exact (not_fails h).elim

lemma preprocess_raises {k0 : Kernel ℝ} {ks : List (Kernel ℝ)} (hb : ∀ k ∈ k0 :: ks, Bare k) (h : Fails (Kernel.preprocessFanIn k0 ks)) :
    Fails (Kernel.preprocessFanIn (ex k0) (ks.map ex)) := by
  simp only [Kernel.preprocessFanIn] at h ⊢
  split
  · rename_i hc
    have hc' : ∀ k ∈ ks, k.diagonalBatch = k0.diagonalBatch ∧ k.diagonalSpatial = k0.diagonalSpatial ∧ k.batchAxis = k0.batchAxis ∧
        k.channelAxis = k0.channelAxis := fun k hk => hc (ex k) (List.mem_map_of_mem hk)
    rw [if_pos hc'] at h
    have ec : (ex k0 :: ks.map ex).countP (·.isReversed) = (k0 :: ks).countP (·.isReversed) := by
      rw [← List.map_cons, List.countP_map]
      rfl
    have el : (ex k0 :: ks.map ex).length = (k0 :: ks).length := by simp
    rw [ec, el, ← List.map_cons]
    cases e : Kernel.mapE (Kernel.orient (decide (2 * (k0 :: ks).countP (·.isReversed) > (k0 :: ks).length))) (k0 :: ks) with
    | error e' =>
      obtain ⟨e2, q⟩ := mapE_raises hb ⟨e', e⟩
      rw [q]
      exact ⟨e2, rfl⟩
    | ok r =>
      rw [e] at h
      exact (not_fails h).elim
  · exact ⟨_, rfl⟩

lemma fan_raises (f : Fan) {ks : List (Kernel ℝ)} (hb : ∀ k ∈ ks, Bare k) (h : Fails (f.kernelFn ks)) : Fails (f.kernelFn (ks.map ex)) := by
  cases ks with
  | nil => exact h
  | cons k0 rest =>
    have none_head : ∀ {r : List (Kernel ℝ)}, (∀ k ∈ r, Bare k) → r ≠ [] → ∃ r', r.map (·.cov2) = none :: r' := by
      intro r hr hne
      cases r with
      | nil => exact absurd rfl hne
      | cons a r => exact ⟨r.map (·.cov2), by simp [(hr a (by simp)).cov2]⟩
    have ec : (fun k : Kernel ℝ => some k.cov1) ∘ ex = fun k => some k.cov1 := rfl
    have ec' : (fun k : Kernel ℝ => k.cov1) ∘ ex = fun k => k.cov1 := rfl
    have e2 : (fun k : Kernel ℝ => k.cov2) ∘ ex = fun k => some k.cov1 := rfl
    have en : (fun k : Kernel ℝ => some k.nngp) ∘ ex = fun k => some k.nngp := rfl
    have en' : (fun k : Kernel ℝ => k.nngp) ∘ ex = fun k => k.nngp := rfl
    have et : (fun k : Kernel ℝ => k.ntk) ∘ ex = fun k => k.ntk := rfl
    have es1 : (fun k : Kernel ℝ => k.shape1) ∘ ex = fun k => k.shape1 := rfl
    have es2 : (fun k : Kernel ℝ => k.shape2) ∘ ex = fun k => k.shape2 := rfl
    have ew : (fun k : Kernel ℝ => k.shape1.getD (ex k0).channelAxis 0) ∘ ex = fun k => k.shape1.getD k0.channelAxis 0 := rfl
    have eg : ∀ r : List (Kernel ℝ), (r.map ex).all (·.isGaussian) = r.all (·.isGaussian) := fun r => by
      rw [List.all_map]
      rfl
    cases f with
    | sum =>
      simp only [Fan.kernelFn, Kernel.fanInSum, List.map_cons] at h ⊢
      cases e : Kernel.preprocessFanIn k0 rest with
      | error e' =>
        obtain ⟨e2, q⟩ := preprocess_raises hb ⟨e', e⟩
        rw [q]
        exact ⟨e2, rfl⟩
      | ok p =>
        obtain ⟨r, rev⟩ := p
        obtain ⟨br, q, hne⟩ := preprocess_ex hb e
        obtain ⟨r', hr'⟩ := none_head br hne
        rw [e] at h
        rw [q]
        simp only [hr'] at h ⊢
        split
        · exact ⟨_, rfl⟩
        rename_i hs
        rw [if_neg (fun hn => hs fun w => hn fun k hk => w (ex k) (List.mem_map_of_mem hk))] at h
        rw [eg, List.length_map]
        split
        · exact ⟨_, rfl⟩
        rename_i hg
        rw [if_neg hg] at h
        simp only [List.map_map, ec, e2, en, et]
        rw [show Kernel.matsSum (none :: r') = .ok none from rfl] at h
        generalize Kernel.matsSum (r.map fun k => some k.cov1) = A at h ⊢
        generalize Kernel.matsSum (r.map fun k => some k.nngp) = B at h ⊢
        generalize Kernel.matsSum (r.map fun k => k.ntk) = C at h ⊢
        rcases A with _ | _ | _ <;> rcases B with _ | _ | _ <;> rcases C with _ | _ <;> first | exact ⟨_, rfl⟩ | exact (not_fails h).elim
    | prod =>
      simp only [Fan.kernelFn, Kernel.fanInProd, List.map_cons] at h ⊢
      cases e : Kernel.preprocessFanIn k0 rest with
      | error e' =>
        obtain ⟨e2, q⟩ := preprocess_raises hb ⟨e', e⟩
        rw [q]
        exact ⟨e2, rfl⟩
      | ok p =>
        obtain ⟨r, rev⟩ := p
        obtain ⟨br, q, hne⟩ := preprocess_ex hb e
        obtain ⟨r', hr'⟩ := none_head br hne
        rw [e] at h
        rw [q]
        simp only [hr'] at h ⊢
        split
        · exact ⟨_, rfl⟩
        rename_i hs
        rw [if_neg (fun hn => hs fun w => hn fun k hk => w (ex k) (List.mem_map_of_mem hk))] at h
        rw [List.length_map]
        simp only [List.map_map, ec', e2, en', et]
        rw [show Kernel.optProd (none :: r') = .ok none from rfl] at h
        rw [show (r.map fun k => some k.cov1) = (r.map fun k => k.cov1).map some by rw [List.map_map]; rfl]
        simp only [Kernel.optProd, allSome_map]
        generalize Kernel.reduceMul (r.map fun k => k.cov1) = A at h ⊢
        generalize Kernel.matsProd (r.map fun k => k.nngp) (r.map fun k => k.ntk) = B at h ⊢
        rcases A with _ | _ <;> rcases B with _ | _ <;> first | exact ⟨_, rfl⟩ | exact (not_fails h).elim
    | concat axis =>
      simp only [Fan.kernelFn, Kernel.fanInConcat, List.map_cons] at h ⊢
      cases e : Kernel.preprocessFanIn k0 rest with
      | error e' =>
        obtain ⟨e2, q⟩ := preprocess_raises hb ⟨e', e⟩
        rw [q]
        exact ⟨e2, rfl⟩
      | ok p =>
        obtain ⟨r, rev⟩ := p
        obtain ⟨br, q, hne⟩ := preprocess_ex hb e
        obtain ⟨r', hr'⟩ := none_head br hne
        rw [e] at h
        rw [q]
        simp only [hr'] at h ⊢
        split
        · exact ⟨_, rfl⟩
        rename_i h0
        rw [if_neg (show ¬k0.shape1.length = 0 from h0)] at h
        split
        · exact ⟨_, rfl⟩
        rename_i hs
        rw [if_neg (fun hn => hs fun w => hn fun k hk => w (ex k) (List.mem_map_of_mem hk))] at h
        rw [eg]
        split
        · exact ⟨_, rfl⟩
        rename_i hg
        rw [if_neg (show ¬((axis % (k0.shape1.length : ℤ)).toNat ≠ k0.channelAxis ∧ _) from hg)] at h
        simp only [List.map_map, ec, e2, en, et, es1, es2, ew]
        dsimp only [ex]
        generalize Kernel.concatAxis k0.shape1.length k0.batchAxis k0.channelAxis (axis % (k0.shape1.length : ℤ)).toNat rev = cax at h ⊢
        generalize (r.map fun k => k.shape1.getD k0.channelAxis 0) = w at h ⊢
        rw [show Kernel.concatKernels (none :: r') cax k0.diagonalBatch k0.diagonalSpatial w = .ok none from rfl] at h
        generalize Kernel.concatKernels (r.map fun k => some k.cov1) cax k0.diagonalBatch k0.diagonalSpatial w = A at h ⊢
        generalize Kernel.concatKernels (r.map fun k => some k.nngp) cax false k0.diagonalSpatial w = B at h ⊢
        generalize Kernel.concatKernels (r.map fun k => k.ntk) cax false k0.diagonalSpatial w = C at h ⊢
        rcases A with _ | _ | _ <;> rcases B with _ | _ | _ <;> rcases C with _ | _ <;> first | exact ⟨_, rfl⟩ | exact (not_fails h).elim

/-! ### Networks -/

lemma raises_mlayer {l : MLayer} (hl : LayerActs Raises l) : Raises l.kernelFn := by
  cases l with
  | dense d => exact raises_dense d
  | conv d => exact raises_conv d
  | pool d => exact raises_ok
  | act f r => exact raises_elementwise hl
  | dropout d => exact raises_dropout d
  | identity => exact raises_ok (f := id)
  | globalPool d => exact raises_globalPoolKernel d

lemma raises_withMasking {l : MLayer} (hl : LayerActs Raises l) (hk : LayerActs Keeps l) : Raises l.withMasking := by
  intro k hb h
  simp only [MLayer.withMasking, hb.mask2] at h ⊢
  change Fails (onMask l.maskFn k.mask1 >>= fun m1 => onMask l.maskFn k.mask1 >>= fun m2 => l.kernelFn (ex k) >>= fun k' =>
    if l.remask = true then k'.mask m1 m2 else .ok { k' with mask1 := m1, mask2 := m2 })
  refine bind_fails ?_
  rcases fails_bind h with h | ⟨m1, e1, h⟩
  · exact .inl h
  refine .inr ⟨m1, e1, bind_fails (.inr ⟨m1, e1, bind_fails ?_⟩)⟩
  rcases fails_bind h with h | ⟨m2, e2, h⟩
  · exact (not_fails h).elim
  cases e2
  rcases fails_bind h with h | ⟨k', e3, h⟩
  · exact .inl (raises_mlayer hl k hb h)
  refine .inr ⟨ex k', (keeps_mlayer hk k k' hb e3).2, ?_⟩
  split
  · rename_i hr
    rw [if_pos hr] at h
    exact mask_raises h
  · rename_i hr
    rw [if_neg hr] at h
    exact (not_fails h).elim

lemma fanMask_fails (f : Fan) {ms : List (Option (Arr Bool))} {ss : List (List ℕ)} (h : ∀ m ∈ ms, m = none) (hl : ms.length = ss.length) (hne : ss ≠ []) :
    fanMask f ms ss = .ok none := by
  cases f with
  | sum => exact sum_none ms h
  | prod => exact sum_none ms h
  | concat axis =>
    cases ss with
    | nil => exact absurd rfl hne
    | cons s ss => simp only [fanMask, Masks.concat, if_neg (not_not.mpr hl), if_pos h]

lemma fanWithMasking_raises (f : Fan) {ks : List (Kernel ℝ)} (hb : ∀ k ∈ ks, Bare k ∧ k.shape2 = k.shape1) (h : Fails (fanWithMasking f ks)) :
    Fails (fanWithMasking f (ks.map ex)) := by
  by_cases hne : ks = []
  · subst hne
    exact h
  simp only [fanWithMasking] at h ⊢
  have es : (ks.map ex).map (·.shape2) = ks.map (·.shape1) := by
    rw [List.map_map]
    exact List.map_congr_left fun k hk => (hb k hk).2
  have es1 : (ks.map ex).map (·.shape1) = ks.map (·.shape1) := by
    rw [List.map_map]
    rfl
  have em : (ks.map ex).map (·.mask2) = ks.map (·.mask1) := by
    rw [List.map_map]
    rfl
  have em1 : (ks.map ex).map (·.mask1) = ks.map (·.mask1) := by
    rw [List.map_map]
    rfl
  rw [es, es1, em, em1]
  refine bind_fails ?_
  rcases fails_bind h with h | ⟨m1, e1, h⟩
  · exact .inl h
  refine .inr ⟨m1, e1, bind_fails (.inr ⟨m1, e1, bind_fails ?_⟩)⟩
  have q := fanMask_fails f (ms := ks.map (·.mask2)) (ss := ks.map (·.shape2)) (by
    intro m hm
    obtain ⟨k, hk, rfl⟩ := List.mem_map.mp hm
    exact (hb k hk).1.mask2) (by simp) (by simpa using hne)
  rw [q] at h
  rcases fails_bind h with h | ⟨m2, e2, h⟩
  · exact (not_fails h).elim
  rcases fails_bind h with h | ⟨k', e3, h⟩
  · exact .inl (fan_raises f (fun k hk => (hb k hk).1) h)
  exact (not_fails h).elim

lemma ones_none : ∀ {l l' : List (Vals (Kernel ℝ))}, l.length = l'.length →
    (∀ (i : ℕ) (h1 : i < l.length) (h2 : i < l'.length), Rel Pair (l[i]'h1) (l'[i]'h2)) → Vals.ones l = none → Vals.ones l' = none
  | [], l', hl, _, h => by cases h
  | v :: l, l', hl, hr, h => by
    cases l' with
    | nil => simp at hl
    | cons v' l' =>
      have h0 := hr 0 (by simp) (by simp)
      simp only [List.getElem_cons_zero] at h0
      cases h0 with
      | many => rfl
      | one k k' hp =>
        simp only [Vals.ones, Option.map_eq_none_iff] at h ⊢
        exact ones_none (by simpa using hl) (fun i h1 h2 => by
          have := hr (i + 1) (by simpa using h1) (by simpa using h2)
          simpa using this) h

lemma collect_fails {A B : Type} : ∀ {n : ℕ} {f : Fin n → Except Err A} {g : Fin n → Except Err B}, (∀ i, Fails (f i) → Fails (g i)) → Fails (collect n f) →
    Fails (collect n g)
  | 0, f, g, _, h => (not_fails h).elim
  | n + 1, f, g, hfg, h => by
    simp only [collect] at h ⊢
    cases e0 : g 0 with
    | error e => exact ⟨e, rfl⟩
    | ok b =>
      cases e1 : f 0 with
      | error e =>
        obtain ⟨e', q⟩ := hfg 0 ⟨e, e1⟩
        rw [e0] at q
        cases q
      | ok a =>
        rw [e1] at h
        simp only at h ⊢
        have key := collect_fails (f := fun i => f i.succ) (g := fun i => g i.succ) (fun i => hfg i.succ)
        cases e2 : collect n fun i => g i.succ with
        | error e => exact ⟨e, rfl⟩
        | ok bs =>
          cases e3 : collect n fun i => f i.succ with
          | error e =>
            obtain ⟨e', q⟩ := key ⟨e, e3⟩
            rw [e2] at q
            cases q
          | ok as =>
            rw [e3] at h
            exact (not_fails h).elim

lemma run_fails : ∀ (net : MNet), Acts Keeps net → Acts Raises net → ∀ {v v' : Vals (Kernel ℝ)}, Rel Pair v v' → Fails (net.run v) → Fails (net.run v') := by
  intro net
  induction net with
  | layer l out =>
    intro hk ha v v' hv h
    cases hv with
    | many => exact ⟨_, rfl⟩
    | one k k' hp =>
      obtain ⟨b, s, rfl⟩ := hp
      simp only [MNet.run] at h ⊢
      cases e : l.withMasking k with
      | error e' =>
        obtain ⟨e2, q⟩ := raises_withMasking ha hk k b ⟨e', e⟩
        rw [q]
        exact ⟨e2, rfl⟩
      | ok K =>
        rw [e] at h
        exact (not_fails h).elim
  | fanOut n =>
    intro _ _ v v' hv h
    exact (not_fails h).elim
  | fanIn f out =>
    intro _ _ v v' hv h
    cases hv with
    | one => exact ⟨_, rfl⟩
    | many l l' hl hr =>
      simp only [MNet.run] at h ⊢
      cases e : Vals.ones l with
      | none =>
        rw [ones_none hl hr e]
        exact ⟨_, rfl⟩
      | some ks =>
        rw [e] at h
        obtain ⟨q, hb⟩ := ones_pair hl hr e
        rw [q]
        simp only at h ⊢
        cases e1 : fanWithMasking f ks with
        | error e' =>
          obtain ⟨e2, q⟩ := fanWithMasking_raises f hb ⟨e', e1⟩
          rw [q]
          exact ⟨e2, rfl⟩
        | ok K =>
          rw [e1] at h
          exact (not_fails h).elim
  | seq a b iha ihb =>
    intro hk ha v v' hv h
    simp only [MNet.run] at h ⊢
    cases e : a.run v with
    | error e' =>
      obtain ⟨e2, q⟩ := iha hk.1 ha.1 hv ⟨e', e⟩
      rw [q]
      exact ⟨e2, rfl⟩
    | ok u =>
      rw [e] at h
      obtain ⟨u', q, hu⟩ := run_pair a hk.1 hv e
      rw [q]
      exact ihb hk.2 ha.2 hu h
  | par n branches ih =>
    intro hk ha v v' hv h
    cases hv with
    | one => exact ⟨_, rfl⟩
    | many l l' hl hr =>
      simp only [MNet.run] at h ⊢
      split
      · rename_i hn
        have hn' : l.length = n := hl.trans hn
        rw [dif_pos hn'] at h
        have key := collect_fails (f := fun i => (branches i).run (l[i]'(by rw [hn']; exact i.2)))
          (g := fun i => (branches i).run (l'[i]'(by rw [hn]; exact i.2))) fun i hi =>
          ih i (hk i) (ha i) (hr i (by rw [hn']; exact i.2) (by rw [hn]; exact i.2)) hi
        cases e : collect n fun i => (branches i).run (l[i]'(by rw [hn']; exact i.2)) with
        | error e' =>
          obtain ⟨e2, q⟩ := key ⟨e', e⟩
          rw [q]
          exact ⟨e2, rfl⟩
        | ok r =>
          rw [e] at h
          exact (not_fails h).elim
      · exact ⟨_, rfl⟩

end NT.NoneSelf
