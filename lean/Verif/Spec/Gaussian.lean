import Verif.Model.Network

/-!
# Which layers of a network are applied to outputs of parametrised linear layers

This does not mention kernels: it follows the network and records how every value is computed from the input.
-/

namespace NT.Spec
open NT.Network

/-- How a value is computed from the input of the network. -/
inductive Hist where
  | input
  | app (l : Layer) (h : Hist)
  | fan (f : Fan) (hs : List Hist)

/-- The layers that multiply by random Gaussian weights. -/
def Parametrised : Layer → Prop
  | .dense _ => True
  | .conv _ => True
  | .convTranspose _ => True
  | .attention _ => True
  | _ => False

/-- The layers that are linear in their input, or normalise it, without parameters: they do not change whether a
value is Gaussian. -/
def Keeps : Layer → Prop
  | .pool _ => True
  | .globalPool _ => True
  | .layerNorm _ _ _ _ => True
  | .dotGeneral _ _ _ _ _ _ => True
  | .index _ => True
  | .resize _ => True
  | .identity => True
  | .dropout d => d.mode = .test
  | _ => False

/-- The layers whose kernel is only right for Gaussian inputs. -/
def NeedsGaussian : Layer → Prop
  | .act _ => True
  | .layerNorm _ _ _ _ => True
  | _ => False

/-- The value is the output of a parametrised linear layer, up to layers that keep Gaussianity, and sums and
concatenations of such values. -/
inductive FromLinear : Hist → Prop
  | param (l : Layer) (h : Hist) : Parametrised l → FromLinear (.app l h)
  | keep (l : Layer) (h : Hist) : Keeps l → FromLinear h → FromLinear (.app l h)
  | fan (f : Fan) (hs : List Hist) : hs ≠ [] → (f = .prod → hs.length = 1) → (∀ h ∈ hs, FromLinear h) →
      FromLinear (.fan f hs)

/-- A loop over branches. -/
def collectO {B : Type} : (n : ℕ) → (Fin n → Option B) → Option (List B)
  | 0, _ => some []
  | n + 1, f => (f 0).bind fun b => (collectO n fun i => f i.succ).map (b :: ·)

/-- The histories of the outputs of a network, and all applications of layers in it with the histories of
their inputs. -/
def hist : Net → Vals Hist → Option (Vals Hist × List (Layer × Hist))
  | .layer l _, .one h => some (.one (.app l h), [(l, h)])
  | .layer _ _, .many _ => none
  | .fanOut n, v => some (.many (List.replicate n v), [])
  | .fanIn _ _, .one _ => none
  | .fanIn f _, .many l => (Vals.ones l).map fun hs => (.one (.fan f hs), [])
  | .seq a b, v => (hist a v).bind fun x => (hist b x.1).map fun y => (y.1, x.2 ++ y.2)
  | .par _ _, .one _ => none
  | .par n bs, .many l =>
    if h : l.length = n then
      (collectO n fun i => hist (bs i) (l[i]'(by rw [h]; exact i.2))).map fun r =>
        (.many (r.map (·.1)), (r.map (·.2)).flatten)
    else none

end NT.Spec
