import Verif.Lemmas.NoneSelfAll
import Verif.Props.C84
import Verif.Props.C84Masked

/-!
# C84: all layers, without assumptions about shapes
-/

namespace NT.C84
open NT NT.Network NT.Spec NT.Semantics NT.Arr NT.Kernel

/-- All nonlinearities of the network are those of `stax/elementwise.py`. -/
def StandardNet : Net → Prop
  | .layer (.act f) _ => Nonlinearity f
  | .layer _ _ => True
  | .fanOut _ => True
  | .fanIn _ _ => True
  | .seq a b => StandardNet a ∧ StandardNet b
  | .par n branches => ∀ i : Fin n, StandardNet (branches i)

lemma standardNet_acts {p : (Kernel ℝ → Except Err (Kernel ℝ)) → Prop} (hp : ∀ {f}, Nonlinearity f → p f) : ∀ {net : Net}, StandardNet net →
    NoneSelf.ActsAll p net := by
  intro net
  induction net with
  | layer l out =>
    intro h
    cases l <;> first | trivial | exact hp h
  | fanOut n => intro _; trivial
  | fanIn f out => intro _; trivial
  | seq a b iha ihb => exact fun h => ⟨iha h.1, ihb h.2⟩
  | par n branches ih => exact fun h i => ih i (h i)

lemma run_both {net : Net} (hnet : StandardNet net) {k k' : Kernel ℝ} (hp : NoneSelf.Pair k k') :
    NoneSelf.Sim (Rel NoneSelf.Pair) (net.run (.one k)) (net.run (.one k')) :=
  NoneSelf.run_sim net (standardNet_acts Nonlinearity.keeps hnet) (standardNet_acts Nonlinearity.raises hnet) (.one _ _ hp)

/-- `kernel_fn(x, None)` and `kernel_fn(x, x)`: if one of the two returns, so does the other, and they return the same kernels, except that the second has
`cov2` filled in by `cov1`.  For every layout and every network of the layers of the model, whatever the input and the arguments of the layers. -/
theorem none_is_self (x : Arr ℝ) (db ds ntk same : Bool) (ba : ℤ) (ca : Option ℤ) (net : Net) (hnet : StandardNet net) :
    (∀ k y, Inputs.inputsToKernel x none db ds ntk ba ca none same = .ok k → net.run (.one k) = .ok y →
      ∃ k' y', Inputs.inputsToKernel x (some x) db ds ntk ba ca none same = .ok k' ∧ net.run (.one k') = .ok y' ∧ Rel Filled y y') ∧
    ∀ k' y', Inputs.inputsToKernel x (some x) db ds ntk ba ca none same = .ok k' → net.run (.one k') = .ok y' →
      ∃ k y, Inputs.inputsToKernel x none db ds ntk ba ca none same = .ok k ∧ net.run (.one k) = .ok y ∧ Rel Filled y y' := by
  refine ⟨fun k y hk hy => ?_, fun k' y' hk hy => ?_⟩
  · obtain ⟨k', e, hp⟩ := inputs_pair hk
    have q := run_both hnet hp
    rw [hy] at q
    cases e2 : net.run (.one k') with
    | error e' => rw [e2] at q; exact q.elim
    | ok y' =>
      rw [e2] at q
      exact ⟨k', y', e, e2, rel_filled q⟩
  · cases e : Inputs.inputsToKernel x none db ds ntk ba ca none same with
    | error e' =>
      obtain ⟨_, q⟩ := inputs_fails ⟨e', e⟩
      rw [q] at hk
      cases hk
    | ok k =>
      obtain ⟨k2, e2, hp⟩ := inputs_pair e
      obtain rfl : k2 = k' := Except.ok.inj (e2.symm.trans hk)
      have q := run_both hnet hp
      rw [hy] at q
      cases e3 : net.run (.one k) with
      | error e' => rw [e3] at q; exact q.elim
      | ok y =>
        rw [e3] at q
        exact ⟨k, y, rfl, e3, rel_filled q⟩

/-- Serial batching of `kernel_fn(x, None)` of a network whose layers treat the examples one by one: when the batched call returns, its result is that of
`kernel_fn(x, None)`; in particular its `cov2` is `None`.  Missing for the full property: as in C83. -/
theorem batched_none_partial {net : Net} (hnet : StandardNet net) {a C : ℕ} {S : List ℕ} {ds ntk : Bool} {isGaussian isReversed isInput ds' : Bool}
    {pre post : List ℕ} {ca' : ℕ} {ca : ℤ} {same : Arr ℝ → Arr ℝ → Bool} (h : C83.Batchable net a C S ds ntk isGaussian isReversed isInput ds' pre post ca')
    (hca : ((a + 1 : ℕ) : ℤ) = ca % (S.length + 2)) (bs d n : ℕ) (hd : 0 < d) (x : Arr ℝ) (hx : x.shape = n :: S.insertIdx a C)
    (k : Kernel ℝ) (hk : Batching.serialX1 (C83.kernelFn net ds ntk ca same) bs d x none = .ok k) :
    ∃ ki k0, Inputs.inputsToKernel x none true ds ntk 0 (some ca) none (same x x) = .ok ki ∧ net.run (.one ki) = .ok (.one k0) ∧ SameKernel k k0 false := by
  obtain ⟨k1, hk1, hs, -⟩ := C83.network_serial_transparent_partial h hca bs d n n hd x none hx hx k hk
  simp only [C83.kernelFn, Option.getD_none] at hk1
  cases e : Inputs.inputsToKernel x (some x) true ds ntk 0 (some ca) none (same x x) with
  | error e' => rw [e] at hk1; cases hk1
  | ok k' =>
    rw [e] at hk1
    simp only at hk1
    cases e2 : net.run (.one k') with
    | error e' => rw [e2] at hk1; cases hk1
    | ok y' =>
      rw [e2] at hk1
      obtain ⟨ki, y, f1, f2, hr⟩ := (none_is_self x true ds ntk (same x x) 0 (some ca) net hnet).2 k' y' e e2
      cases hr with
      | many => cases hk1
      | one k0 K' hr =>
        cases hk1
        obtain ⟨-, -, rfl⟩ := hr
        exact ⟨ki, k0, f1, f2, hs.nngp, hs.ntk, hs.cov1, by simp, hs.cov2_none, hs.mask1, hs.static⟩

lemma resnet_standard : StandardNet C80.resnet := by
  refine ⟨trivial, .inner _, trivial, trivial, fun i => ?_, trivial⟩
  fin_cases i
  · trivial
  · exact ⟨.innerAffine _ 1 1 0, trivial⟩

/-- `none_is_self`: both calls return. -/
example (x : Arr ℝ) (db ds same : Bool) (h : x.shape = [4, 3]) :
    ∃ k k' y y', Inputs.inputsToKernel x none db ds true 0 (some (-1)) none same = .ok k ∧
      Inputs.inputsToKernel x (some x) db ds true 0 (some (-1)) none same = .ok k' ∧
      C80.resnet.run (.one k) = .ok y ∧ C80.resnet.run (.one k') = .ok y' ∧ Rel Filled y y' := by
  obtain ⟨t, ht, -⟩ := C80.resnet_sem (input_good_none x db ds true same 4 3 h) rfl
  obtain ⟨k, -, y, -, e1, -, e3, -⟩ := none_is_self_partial x db ds true same 0 (-1) 4 3 [] 0 1 (by simp) (by simp) (by simp) h ht
  obtain ⟨k', y', f1, f2, hr⟩ := (none_is_self x db ds true same 0 (some (-1)) C80.resnet resnet_standard).1 k y e1 e3
  exact ⟨k, k', y, y', e1, f1, e3, f2, hr⟩

example (x : Arr ℝ) (ds : Bool) (h : x.shape = [12, 5]) (same : Arr ℝ → Arr ℝ → Bool) :
    ∃ k ki k0, Batching.serialX1 (C83.kernelFn C80.resnet ds true (-1) same) 3 2 x none = .ok k ∧
      Inputs.inputsToKernel x none true ds true 0 (some (-1)) none (same x x) = .ok ki ∧ C80.resnet.run (.one ki) = .ok (.one k0) ∧ SameKernel k k0 false := by
  obtain ⟨k, hk⟩ := C83.network_serial_returns_partial (ca := -1) (same := same) (C83.resnet_batchable ds true) (by simp) 3 2 12 12 (by omega) (by omega)
    (by omega) (by decide) (by decide) (by decide) x none h h
  obtain ⟨ki, k0, h1, h2, h3⟩ := batched_none_partial resnet_standard (ca := -1) (same := same) (C83.resnet_batchable ds true) (by simp) 3 2 12 (by omega) x h k hk
  exact ⟨k, ki, k0, hk, h1, h2, h3⟩

end NT.C84
