import Verif.Lemmas.NoneSelfErr
import Verif.Lemmas.NoneSelfNet
import Verif.Model.Inputs
import Verif.Props.C99Branches

/-!
# C84, masked inputs: `kernel_fn(x, None)` and `kernel_fn(x, x)`
-/

namespace NT.C84
open NT NT.Network Arr Masked

/-- `K'` is `K` with the covariance and the mask of the second inputs, which `K` does not have, filled in by those of the first; all other fields are equal. -/
def Filled (K K' : Kernel ℝ) : Prop := K.cov2 = none ∧ K.mask2 = none ∧ K' = { K with cov2 := some K.cov1, mask2 := K.mask1 }

/-- The nonlinearities of `stax/elementwise.py`, with and without the check that their inputs are Gaussian (which networks repeat). -/
inductive Nonlinearity : (Kernel ℝ → Except Err (Kernel ℝ)) → Prop
  | abRelu (a b : ℝ) (s : Bool) : Nonlinearity (abReluKernelFn a b s)
  | erf (a b c : ℝ) : Nonlinearity (erfKernelFn a b c)
  | sin (a b c : ℝ) : Nonlinearity (sinKernelFn a b c)
  | rbf (gamma : ℝ) : Nonlinearity (rbfKernelFn gamma)
  | exp (a b : ℝ) : Nonlinearity (expKernelFn a b)
  | gaussian (a b : ℝ) : Nonlinearity (gaussianKernelFn a b)
  | expNormalized (gamma shift : ℝ) (doClip : Bool) : Nonlinearity (expNormalizedKernelFn gamma shift doClip)
  | sign : Nonlinearity signKernelFn
  | gelu : Nonlinearity geluKernelFn
  | gabor : Nonlinearity gaborKernelFn
  | monomial (n : ℤ) : Nonlinearity (monomialKernelFn n)
  | rectifiedMonomial (n : ℤ) : Nonlinearity (rectifiedMonomialKernelFn n)
  | polynomial (coef : List ℝ) : Nonlinearity (polynomialKernelFn coef)
  | hermite (n : ℤ) : Nonlinearity (hermiteKernelFn n)
  | elementwise (nngp dNngp : Option (ℝ → ℝ → ℝ → ℝ)) : Nonlinearity (elementwiseKernelFn nngp dNngp)
  | numerical (fn df : ℝ → ℝ) (rule : List (ℝ × ℝ)) : Nonlinearity (numericalKernelFn fn df rule)
  | inner {γ : Type} (D : DualFn γ) : Nonlinearity D.kernelFn
  | innerScaled {γ : Type} (D : DualFn γ) (a : ℝ) : Nonlinearity fun k => (D.kernelFn k).map fun k => k.mul a
  | innerAffine {γ : Type} (D : DualFn γ) (a b c : ℝ) : Nonlinearity fun k => (D.kernelFn (k.mul b)).map fun k => (k.mul a).add c
  | innerSign : Nonlinearity signCore

/-- All nonlinearities of the network are among those. -/
def Standard : MNet → Prop
  | .layer (.act f _) _ => Nonlinearity f
  | .layer _ _ => True
  | .fanOut _ => True
  | .fanIn _ _ => True
  | .seq a b => Standard a ∧ Standard b
  | .par n branches => ∀ i : Fin n, Standard (branches i)

lemma Nonlinearity.keeps {f : Kernel ℝ → Except Err (Kernel ℝ)} (h : Nonlinearity f) : NoneSelf.Keeps f := by
  open NoneSelf in
  cases h with
  | abRelu a b s => exact keeps_abRelu a b s
  | erf a b c => exact keeps_erf a b c
  | sin a b c => exact keeps_elementwise (keeps_dual _)
  | rbf gamma => exact keeps_elementwise (keeps_dual _)
  | exp a b => exact keeps_exp a b
  | gaussian a b => exact keeps_gaussian a b
  | expNormalized => exact keeps_elementwise (keeps_dual _)
  | sign => exact keeps_elementwise keeps_sign
  | gelu => exact keeps_elementwise (keeps_dual _)
  | gabor => exact keeps_elementwise (keeps_dual _)
  | monomial n => exact keeps_monomial n
  | rectifiedMonomial n => exact keeps_rectified n
  | polynomial => exact keeps_elementwise (keeps_dual _)
  | hermite n => exact keeps_hermite n
  | elementwise f d =>
    cases f with
    | none => exact fun k K hb h => by cases h
    | some f => exact keeps_elementwise (keeps_dual _)
  | numerical fn df rule => exact keeps_elementwise (keeps_dual _)
  | inner D => exact keeps_dual D
  | innerScaled D a => exact keeps_map (keeps_dual D) (g := fun k => k.mul a) (bare_mul a) fun _ => rfl
  | innerAffine D a b c =>
    exact keeps_map (keeps_comp (keeps_dual D) (g := fun k => k.mul b) (bare_mul b) fun _ => rfl) (g := fun k => (k.mul a).add c)
      (fun k h => bare_add c _ (bare_mul a k h)) fun _ => rfl
  | innerSign => exact keeps_sign

lemma standard_acts : ∀ {net : MNet}, Standard net → NoneSelf.Acts NoneSelf.Keeps net := by
  intro net
  induction net with
  | layer l out =>
    intro h
    cases l <;> first | trivial | exact Nonlinearity.keeps h
  | fanOut n => intro _; trivial
  | fanIn f out => intro _; trivial
  | seq a b iha ihb => exact fun h => ⟨iha h.1, ihb h.2⟩
  | par n branches ih => exact fun h i => ih i (h i)

lemma Nonlinearity.raises {f : Kernel ℝ → Except Err (Kernel ℝ)} (h : Nonlinearity f) : NoneSelf.Raises f := by
  open NoneSelf in
  cases h with
  | abRelu a b s => exact raises_abRelu a b s
  | erf a b c => exact raises_erf a b c
  | sin a b c => exact raises_elementwise (raises_dual _)
  | rbf gamma => exact raises_elementwise (raises_dual _)
  | exp a b => exact raises_exp a b
  | gaussian a b => exact raises_gaussian a b
  | expNormalized => exact raises_elementwise (raises_dual _)
  | sign => exact raises_elementwise raises_sign
  | gelu => exact raises_elementwise (raises_dual _)
  | gabor => exact raises_elementwise (raises_dual _)
  | monomial n => exact raises_monomial n
  | rectifiedMonomial n => exact raises_rectified n
  | polynomial => exact raises_elementwise (raises_dual _)
  | hermite n => exact raises_hermite n
  | elementwise f d =>
    cases f with
    | none => exact fun k hb h => ⟨_, rfl⟩
    | some f => exact raises_elementwise (raises_dual _)
  | numerical fn df rule => exact raises_elementwise (raises_dual _)
  | inner D => exact raises_dual D
  | innerScaled D a => exact raises_map (raises_dual D)
  | innerAffine D a b c =>
    exact raises_map (raises_comp (raises_dual D) (g := fun k => k.mul b) (bare_mul b) fun _ => rfl)
  | innerSign => exact raises_sign

lemma standard_raises : ∀ {net : MNet}, Standard net → NoneSelf.Acts NoneSelf.Raises net := by
  intro net
  induction net with
  | layer l out =>
    intro h
    cases l <;> first | trivial | exact Nonlinearity.raises h
  | fanOut n => intro _; trivial
  | fanIn f out => intro _; trivial
  | seq a b iha ihb => exact fun h => ⟨iha h.1, ihb h.2⟩
  | par n branches ih => exact fun h i => ih i (h i)

lemma build_pair {x : Arr ℝ} {db ds ntk same : Bool} {B A : ℕ} {m : Option ℝ} {k : Kernel ℝ} (h : Inputs.build x none db ds ntk B A m same = .ok k) :
    ∃ k', Inputs.build x (some x) db ds ntk B A m same = .ok k' ∧ NoneSelf.Pair k k' := by
  simp only [Inputs.build, Inputs.getXCovMaskOpt] at h ⊢
  cases e : Inputs.getXCovMask m db ds B A x with
  | error e' => rw [e] at h; cases h
  | ok r =>
    rw [e] at h
    obtain ⟨y, c, mk⟩ := r
    simp only [Except.map, Option.map_none, Option.map_some] at h ⊢
    have q : Inputs.cov y (some y) ds B A = Inputs.cov y none ds B A := rfl
    rw [q]
    cases e1 : Inputs.cov y none ds B A with
    | error e' => rw [e1] at h; cases h
    | ok n =>
      rw [e1] at h
      cases h
      exact ⟨_, rfl, ⟨rfl, rfl⟩, rfl, rfl⟩

lemma inputs_pair {x : Arr ℝ} {db ds ntk same : Bool} {ba : ℤ} {ca : Option ℤ} {m : Option ℝ} {k : Kernel ℝ}
    (h : Inputs.inputsToKernel x none db ds ntk ba ca m same = .ok k) :
    ∃ k', Inputs.inputsToKernel x (some x) db ds ntk ba ca m same = .ok k' ∧ NoneSelf.Pair k k' := by
  simp only [Inputs.inputsToKernel] at h ⊢
  split at h
  · cases h
  · rename_i hn
    rw [if_neg hn]
    cases ca with
    | none => exact build_pair h
    | some ca => exact build_pair h

lemma rel_filled {v v' : Vals (Kernel ℝ)} (h : Rel NoneSelf.Pair v v') : Rel Filled v v' := by
  induction h with
  | one k k' h => exact .one _ _ ⟨h.1.cov2, h.1.mask2, h.2.2⟩
  | many l m hl _ ih => exact .many _ _ hl ih

lemma build_fails {x : Arr ℝ} {db ds ntk same : Bool} {B A : ℕ} {m : Option ℝ} (h : NoneSelf.Fails (Inputs.build x none db ds ntk B A m same)) :
    NoneSelf.Fails (Inputs.build x (some x) db ds ntk B A m same) := by
  simp only [Inputs.build, Inputs.getXCovMaskOpt] at h ⊢
  cases e : Inputs.getXCovMask m db ds B A x with
  | error e' => exact ⟨_, rfl⟩
  | ok r =>
    rw [e] at h
    obtain ⟨y, c, mk⟩ := r
    simp only [Except.map, Option.map_none, Option.map_some] at h ⊢
    have q : Inputs.cov y (some y) ds B A = Inputs.cov y none ds B A := rfl
    rw [q]
    cases e1 : Inputs.cov y none ds B A with
    | error e' => exact ⟨_, rfl⟩
    | ok n =>
      rw [e1] at h
      exact (NoneSelf.not_fails h).elim

lemma inputs_fails {x : Arr ℝ} {db ds ntk same : Bool} {ba : ℤ} {ca : Option ℤ} {m : Option ℝ}
    (h : NoneSelf.Fails (Inputs.inputsToKernel x none db ds ntk ba ca m same)) :
    NoneSelf.Fails (Inputs.inputsToKernel x (some x) db ds ntk ba ca m same) := by
  simp only [Inputs.inputsToKernel] at h ⊢
  split
  · exact ⟨_, rfl⟩
  · rename_i hn
    rw [if_neg hn] at h
    cases ca with
    | none => exact build_fails h
    | some ca => exact build_fails h

/-- `kernel_fn(x, None, mask_constant=m)` and `kernel_fn(x, x, mask_constant=m)`: if one of the two returns, so does the other, and they return the same
kernels, except that the second has `cov2` and `mask2` filled in by `cov1` and `mask1`.  For every layout, with and without masks, with and without a channel
axis, and every network of `Dense`, `Conv`, pooling, global pooling, `Dropout`, `Identity`, nonlinearities, `FanOut`, `parallel`, `FanInSum`, `FanInProd` and
`FanInConcat`, whatever their arguments (nothing is assumed about the shapes).  Missing: the other layers (without masks see `none_is_self_partial`). -/
theorem masked_none_is_self_partial (x : Arr ℝ) (db ds ntk same : Bool) (ba : ℤ) (ca : Option ℤ) (m : Option ℝ) (net : MNet) (hnet : Standard net) :
    (∀ k y, Inputs.inputsToKernel x none db ds ntk ba ca m same = .ok k → net.run (.one k) = .ok y →
      ∃ k' y', Inputs.inputsToKernel x (some x) db ds ntk ba ca m same = .ok k' ∧ net.run (.one k') = .ok y' ∧ Rel Filled y y') ∧
    ∀ k' y', Inputs.inputsToKernel x (some x) db ds ntk ba ca m same = .ok k' → net.run (.one k') = .ok y' →
      ∃ k y, Inputs.inputsToKernel x none db ds ntk ba ca m same = .ok k ∧ net.run (.one k) = .ok y ∧ Rel Filled y y' := by
  refine ⟨fun k y hk hy => ?_, fun k' y' hk hy => ?_⟩
  · obtain ⟨k', e, hp⟩ := inputs_pair hk
    obtain ⟨y', q, hr⟩ := NoneSelf.run_pair net (standard_acts hnet) (.one _ _ hp) hy
    exact ⟨k', y', e, q, rel_filled hr⟩
  · cases e : Inputs.inputsToKernel x none db ds ntk ba ca m same with
    | error e' =>
      obtain ⟨_, q⟩ := inputs_fails ⟨e', e⟩
      rw [q] at hk
      cases hk
    | ok k =>
      obtain ⟨k2, e2, hp⟩ := inputs_pair e
      obtain rfl : k2 = k' := Except.ok.inj (e2.symm.trans hk)
      cases e3 : net.run (.one k) with
      | error e' =>
        obtain ⟨_, q⟩ := NoneSelf.run_fails net (standard_acts hnet) (standard_raises hnet) (.one _ _ hp) ⟨e', e3⟩
        rw [q] at hy
        cases hy
      | ok y =>
        obtain ⟨y2, q, hr⟩ := NoneSelf.run_pair net (standard_acts hnet) (.one _ _ hp) e3
        obtain rfl : y2 = y' := Except.ok.inj (q.symm.trans hy)
        exact ⟨k, y, rfl, e3, rel_filled hr⟩

lemma denseBlock_standard : Standard C99.denseBlock := by
  refine ⟨trivial, ⟨trivial, fun i => ?_⟩, trivial⟩
  dsimp only
  split
  · trivial
  · exact .inner _

/-- The padded sentences of C99, of which one has length 3 and one length 1, through `serial(Conv, FanOut(2), parallel(Identity, Relu), FanInConcat(-1))`:
both calls return. -/
example : ∃ k K k' K', Inputs.inputsToKernel C99.exX none true false true 0 (some (-1)) (some 100) true = .ok k ∧
    Inputs.inputsToKernel C99.exX (some C99.exX) true false true 0 (some (-1)) (some 100) true = .ok k' ∧
    C99.denseBlock.run (.one k) = .ok (.one K) ∧ C99.denseBlock.run (.one k') = .ok (.one K') ∧ Filled K K' := by
  obtain ⟨t, ht, -⟩ := C99.denseBlock_tree 100 C99.exX C99.exX true true true 2 2 2 3 3 C99.exLen C99.exLen (by decide) C99.exX_padded C99.exX_padded
  obtain ⟨k', K', e1, e2, -⟩ := C99.branched_padding_invisible_partial 100 C99.exX C99.exX true true true 0 (-1) 2 2 2 [3] [3] C99.exLen C99.exLen 0 2 (by simp)
    (by simp) (by decide) rfl (by decide) C99.exX_padded C99.exX_padded ht
  obtain ⟨k, y, f1, f2, hr⟩ :=
    (masked_none_is_self_partial C99.exX true false true true 0 (some (-1)) (some 100) C99.denseBlock denseBlock_standard).2 k' _ e1 e2
  cases hr with
  | one K _ h => exact ⟨k, K, k', K', f1, e1, f2, e2, h⟩

end NT.C84
