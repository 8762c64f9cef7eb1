import Verif.Spec.MaskedApply
import Verif.Model.MaskedBranch

/-!
# Finite networks with branches on examples of different sizes
-/

namespace NT.Spec
open NT NT.Network NT.Masked

/-- The networks that treat padded examples as they treat them alone: layers as in `Accepts`, any branches of such networks, sums and products of branches of
the same format, and concatenation of branches along the channels.  The masks of the branches may have one channel or all. -/
inductive AcceptsNet : ANet → Vals Format → Vals Format → Prop
  | layer {l : ALayer} {f g : Format} : Accepts l f g → AcceptsNet (.layer l) (.one f) (.one g)
  | fanOut {n : ℕ} {v : Vals Format} : AcceptsNet (.fanOut n) v (.many (List.replicate n v))
  | fanIn {fan : AFan} {f : Format} {k : ℕ} {ks : List ℕ} :
      AcceptsNet (.fanIn fan) (.many ((k :: ks).map fun k => .one { f with maskChannels := k })) (.one { f with maskChannels := ks.foldl max k })
  | concat {axis : ℤ} {f : Format} {v : ℕ × ℕ} {vs : List (ℕ × ℕ)} : -((f.rank + 2 : ℕ) : ℤ) ≤ axis → axis < (f.rank + 2 : ℕ) →
      axis % ((f.rank + 2 : ℕ) : ℤ) = f.channelAxis → (∀ w ∈ v :: vs, 0 < w.1) →
      AcceptsNet (.concat axis) (.many ((v :: vs).map fun w => .one { f with channels := w.1, maskChannels := w.2 }))
        (.one { f with channels := ((v :: vs).map Prod.fst).sum, maskChannels := ((v :: vs).map Prod.fst).sum })
  | seq {a b : ANet} {u v w : Vals Format} : AcceptsNet a u v → AcceptsNet b v w → AcceptsNet (.seq a b) u w
  | par {n : ℕ} {branches : Fin n → ANet} {u v : Fin n → Vals Format} : (∀ i, AcceptsNet (branches i) (u i) (v i)) →
      AcceptsNet (.par n branches) (.many (List.ofFn u)) (.many (List.ofFn v))

end NT.Spec
