import Verif.Lemmas.Network
import Verif.Model.Inputs
import Verif.Props.C42
import Verif.Props.C52

/-!
# C37: nonlinearities are only applied to outputs of parametrised linear layers

A layer that requires Gaussian inputs raises whenever the incoming kernel is not marked Gaussian; `Dense` and `Conv` set the mark and
nonlinearities clear it, so in any accepted network every nonlinearity is applied to the output of a parametrised linear layer, up to
layers that preserve the mark.
-/

namespace NT.C37
open NT NT.Spec NT.Network

/-- A nonlinearity raises on a kernel that is not marked Gaussian. -/
theorem nonlinearity_raises (f : Kernel ℝ → Except Err (Kernel ℝ)) (k : Kernel ℝ) (h : k.isGaussian = false) :
    (Layer.act f).kernelFn k = .error .valueError := by
  simp [Layer.kernelFn, elementwise, h]

/-- `LayerNorm` raises on a kernel that is not marked Gaussian. -/
theorem layerNorm_raises (axis : List ℤ) (eps : ℝ) (ba ca : ℤ) (k : Kernel ℝ) (h : k.isGaussian = false) :
    (Layer.layerNorm axis eps ba ca).kernelFn k = .error .notImplemented := by
  simp [Layer.kernelFn, layerNormKernelFn, h]

/-- `Dense` and convolutions set the mark. -/
theorem parametrised_marks (l : Layer) (hl : Parametrised l) (k k' : Kernel ℝ) (h : l.kernelFn k = .ok k') : k'.isGaussian = true :=
  (layer_mark h).2.1 hl

/-- Pooling, `LayerNorm`, `DotGeneral`, indexing, `Identity` and dropout in test mode keep the mark. -/
theorem keeps_mark (l : Layer) (hl : Keeps l) (k k' : Kernel ℝ) (h : l.kernelFn k = .ok k') : k'.isGaussian = k.isGaussian :=
  (layer_mark h).2.2.1 hl

/-- All other layers (nonlinearities, `Flatten`, dropout in training mode) clear the mark. -/
theorem others_clear (l : Layer) (hp : ¬ Parametrised l) (hk : ¬ Keeps l) (k k' : Kernel ℝ) (h : l.kernelFn k = .ok k') :
    k'.isGaussian = false :=
  (layer_mark h).2.2.2 hp hk

/-- A fan-in layer sets the mark only if all its inputs have it, and a product of several inputs never has it. -/
theorem fan_in_mark (f : Fan) (ks : List (Kernel ℝ)) (k' : Kernel ℝ) (h : f.kernelFn ks = .ok k') (hg : k'.isGaussian = true) :
    (∀ k ∈ ks, k.isGaussian = true) ∧ (f = .prod → ks.length = 1) :=
  ⟨((fan_mark h).2 hg).2, ((fan_mark h).2 hg).1⟩

lemma build_unmarked {x1 : Arr ℝ} {x2 : Option (Arr ℝ)} {db ds ntk same : Bool} {ba ca : ℕ} {mc : Option ℝ} {k : Kernel ℝ}
    (h : Inputs.build x1 x2 db ds ntk ba ca mc same = .ok k) : k.isGaussian = false := by
  rw [Inputs.build] at h
  split at h
  · simp at h
  · simp at h
  · split at h
    · simp at h
    · rw [← Except.ok.inj h]

/-- The kernel of inputs is not marked Gaussian. -/
theorem inputs_unmarked (x1 : Arr ℝ) (x2 : Option (Arr ℝ)) (db ds ntk : Bool) (ba : ℤ) (ca : Option ℤ) (mc : Option ℝ) (same : Bool)
    (k : Kernel ℝ) (h : Inputs.inputsToKernel x1 x2 db ds ntk ba ca mc same = .ok k) : k.isGaussian = false := by
  rw [Inputs.inputsToKernel] at h
  split at h
  · simp at h
  · cases ca <;> exact build_unmarked h

/-- In a network whose kernel function returns a kernel for a kernel that is not marked Gaussian (as those of inputs are not), every
nonlinearity and every `LayerNorm` is applied to a value that comes from parametrised linear layers. -/
theorem accepted_network (n : Net) (k : Kernel ℝ) (hk : k.isGaussian = false) (v : Vals (Kernel ℝ)) (h : n.run (.one k) = .ok v) :
    ∃ e log, hist n (.one .input) = some (e, log) ∧ ∀ x ∈ log, NeedsGaussian x.1 → FromLinear x.2 := by
  obtain ⟨e, log, h1, -, h2⟩ := run_hist n (v := .one k) (e := .one .input) (.one _ _ fun h => by simp [hk] at h) h
  exact ⟨e, log, h1, h2⟩

/-- A network that applies a nonlinearity or `LayerNorm` to a value that does not come from parametrised linear layers raises, whatever
the input. -/
theorem rejected_network (n : Net) (k : Kernel ℝ) (hk : k.isGaussian = false) (e : Vals Hist) (log : List (Layer × Hist))
    (hn : hist n (.one .input) = some (e, log)) (l : Layer) (h : Hist) (hx : (l, h) ∈ log) (hl : NeedsGaussian l) (hh : ¬ FromLinear h) :
    ∃ err, n.run (.one k) = .error err := by
  cases hr : n.run (.one k) with
  | error err => exact ⟨err, rfl⟩
  | ok v =>
    obtain ⟨e', log', h1, h2⟩ := accepted_network n k hk v hr
    rw [hn] at h1
    obtain ⟨rfl, rfl⟩ := Prod.mk.inj (Option.some.inj h1)
    exact absurd (h2 _ hx hl) hh

/-! ### Concrete cases -/

/-- `serial(Dense, Exp)`. -/
noncomputable def good : Net :=
  .seq (.layer (.dense { outDim := 5, wStd := 1, bStd := some 1, param := .ntk, s := (1, 1), channelAxis := -1 }) id)
    (.layer (.act fun k => ((expDual 1).kernelFn k).map (·.mul 1)) id)

/-- `serial(Dense, Exp, Flatten, Exp)`. -/
noncomputable def bad : Net :=
  .seq good (.seq (.layer (.flatten ⟨0, -1⟩) id) (.layer (.act fun k => ((expDual 1).kernelFn k).map (·.mul 1)) id))

example (db ds rev : Bool) : ∃ v, good.run (.one (C42.exL.encode db ds rev)) = .ok v := by
  obtain ⟨k1, h1, h2, h3, -⟩ := C52.kernel_formula
    { outDim := 5, wStd := 1, bStd := some 1, param := .ntk, s := (1, 1), channelAxis := -1 }
    (by simp) (C42.exL.encode db ds rev) C42.exL (C42.exL.encode_stores db ds rev (fun _ => rfl) rfl) 1 (by rfl)
  have hg : k1.isGaussian = true := congrArg (·.isGaussian) h3
  obtain ⟨k2, L2, h4, -⟩ := C42.kernel_exact 1 1
    (setShapes (C42.exL.encode db ds rev).shape1 (C42.exL.encode db ds rev).shape2 k1)
    (L := C52.after { outDim := 5, wStd := 1, bStd := some 1, param := .ntk, s := (1, 1), channelAxis := -1 } 1 C42.exL)
    ⟨h2.nngp, h2.cov1, h2.cov2, h2.ntk⟩ (by simp [Logical.Closed, C42.exL, C52.after]) hg
  exact ⟨.one (setShapes _ _ k2), by simp only [good, Net.run, Layer.kernelFn, h1, id]; rw [expKernelFn] at h4; rw [h4]⟩

example (k : Kernel ℝ) (hk : k.isGaussian = false) : ∃ err, bad.run (.one k) = .error err := by
  refine rejected_network bad k hk _ _ rfl (.act fun k => ((expDual 1).kernelFn k).map (·.mul 1)) _
    (List.mem_append_right _ (List.mem_append_right _ (List.mem_singleton.2 rfl))) trivial ?_
  intro h
  cases h with
  | param _ _ h => exact h
  | keep _ _ h _ => exact h

end NT.C37
