import Verif.Spec.Masked
import Verif.Model.MaskedApply

/-!
# Finite networks on examples of different sizes
-/

namespace NT.Spec
open NT NT.Masked

/-- The format of activations: positions of the axes of the examples and of the channels, number of channels of the activations and of their mask, number of
other axes. -/
structure Format where
  batchAxis : ℕ
  channelAxis : ℕ
  channels : ℕ
  maskChannels : ℕ
  rank : ℕ

/-- The layers, with parameters of fitting shapes and any values, that treat padded examples as they treat them alone: convolutions and local pooling with
padding `'SAME'`, unit strides and a fixed divisor; `LayerNorm` over the channels; pooling needs a mask with one channel, as is that after `Dense` and `Conv`. -/
inductive Accepts : ALayer → Format → Format → Prop
  | dense {d : Dense} {W : Arr ℝ} {b : Option (Arr ℝ)} {f : Format} {D : ℕ} : d.param ≠ .other → d.channelAxis % ((f.rank + 2 : ℕ) : ℤ) = f.channelAxis →
      W.shape = [f.channels, D] → (∀ b', b = some b' → b'.shape = (List.replicate (f.rank + 1) 1).insertIdx f.channelAxis D) →
      Accepts (.dense d W b) f { f with channels := D, maskChannels := 1 }
  | conv {d : Conv} {W : Arr ℝ} {b : Option (Arr ℝ)} {f : Format} {D : ℕ} : d.param ≠ .other → d.sharedWeights = true → d.padding = .same →
      (∀ v ∈ d.filter, 0 < v.1 ∧ v.2 = 1) → d.filter.length = f.rank → d.batchAxis = f.batchAxis → d.channelAxis = f.channelAxis →
      W.shape = d.filter.map Prod.fst ++ [f.channels, D] →
      (∀ b', b = some b' → b'.shape = (List.replicate (f.rank + 1) 1).insertIdx f.channelAxis D) →
      Accepts (.conv d W b) f { f with channels := D, maskChannels := 1 }
  | pool {d : Pool} {f : Format} : d.padding = .same → (∀ v ∈ d.window, 0 < v.1 ∧ v.2 = 1) → (d.type = .sum ∨ d.normalizeEdges = false) →
      d.window.length = f.rank → d.batchAxis = f.batchAxis → d.ca = f.channelAxis → f.maskChannels = 1 → Accepts (.pool d) f f
  | act {φ : ℝ → ℝ} {f : Format} : Accepts (.act φ) f f
  | dropout {d : Dropout} {keep : List ℕ → Bool} {f : Format} : d.mode = .test → Accepts (.dropout d keep) f f
  | identity {f : Format} : Accepts .identity f f
  | layerNorm {axis : List Int} {eps : ℝ} {f : Format} : Utils.canonicalizeAxis axis (f.rank + 2) = .ok {f.channelAxis} → Accepts (.layerNorm axis eps) f f
  | globalPool {d : GlobalPool} {f : Format} : d.batchAxis % ((f.rank + 2 : ℕ) : ℤ) = f.batchAxis → d.channelAxis % ((f.rank + 2 : ℕ) : ℤ) = f.channelAxis →
      f.maskChannels = 1 →
      Accepts (.globalPool d) f
        { f with batchAxis := if f.batchAxis < f.channelAxis then 0 else 1, channelAxis := if f.batchAxis < f.channelAxis then 1 else 0, rank := 0 }

/-- Layer after layer. -/
inductive AcceptsAll : List ALayer → Format → Format → Prop
  | nil {f : Format} : AcceptsAll [] f f
  | cons {l : ALayer} {ls : List ALayer} {f g h : Format} : Accepts l f g → AcceptsAll ls g h → AcceptsAll (l :: ls) f h

end NT.Spec
