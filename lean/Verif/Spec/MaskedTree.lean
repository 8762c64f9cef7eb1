import Verif.Spec.Masked
import Verif.Model.MaskedTree

/-!
# Branched networks on padded batches
-/

namespace NT.Spec
open NT NT.Network NT.Masked

/-- The branches have the same examples, channels, and masks with one channel or all. -/
structure Together {m : ℕ} (s : Fin (m + 1) → Padded) : Prop where
  len1 : ∀ r, (s r).len1 = (s 0).len1
  len2 : ∀ r, (s r).len2 = (s 0).len2
  channels : ∀ r, (s r).c = (s 0).c
  maskChannels : ∀ r, (s r).mc = 1 ∨ (s r).mc = (s 0).c

/-- The sum or product of branches: `t` is what the layer does to unmasked kernels. -/
def fanned {m : ℕ} (s : Fin (m + 1) → Padded) (t : State) : Padded where
  toState := t
  len1 := (s 0).len1
  len2 := (s 0).len2
  c := (s 0).c
  mc := (List.ofFn fun r : Fin m => (s r.succ).mc).foldl max (s 0).mc

/-- The branches have the same examples, and masks with one channel or all. -/
structure Beside {m : ℕ} (s : Fin (m + 1) → Padded) : Prop where
  len1 : ∀ r, (s r).len1 = (s 0).len1
  len2 : ∀ r, (s r).len2 = (s 0).len2
  channels : ∀ r, 0 < (s r).c
  maskChannels : ∀ r, (s r).mc = 1 ∨ (s r).mc = (s r).c

/-- The concatenation of the channels of branches: `t` is what the layer does to unmasked kernels. -/
def joinedChannels {m : ℕ} (s : Fin (m + 1) → Padded) (t : State) : Padded where
  toState := t
  len1 := (s 0).len1
  len2 := (s 0).len2
  c := ∑ r, (s r).c
  mc := ∑ r, (s r).c

/-- Networks of layers (`Step`), copies, sums and products of branches and concatenations of their channels, applied to padded batches. -/
inductive Tree : MNet → Vals Padded → Vals Padded → Prop
  | layer {l : MLayer} {out : List ℕ → List ℕ} {s t : Padded} : Step l out s t → Tree (.layer l out) (.one s) (.one t)
  | fanOut {n : ℕ} {v : Vals Padded} : Tree (.fanOut n) v (.many (List.replicate n v))
  | fanIn {f : Fan} {out : List (List ℕ) → List ℕ} {m : ℕ} {s : Fin (m + 1) → Padded} {t : State} : f = .sum ∨ f = .prod → Together s →
      FanSem f (fun r => (s r).toState) t → (∀ x, out (List.replicate (m + 1) x) = x) →
      Tree (.fanIn f out) (.many (List.ofFn fun r => .one (s r))) (.one (fanned s t))
  | concat {axis : ℤ} {out : List (List ℕ) → List ℕ} {m : ℕ} {s : Fin (m + 1) → Padded} {t : State} : Beside s →
      ChannelSem axis (fun r => (s r).toState) t →
      (∀ n T, T.length = (s 0).L.S1.length → out (List.ofFn fun r => actIdx (s 0).info.batchAxis (s 0).info.channelAxis n (s r).c T) =
        actIdx (s 0).info.batchAxis (s 0).info.channelAxis n (∑ r, (s r).c) T) →
      Tree (.fanIn (.concat axis) out) (.many (List.ofFn fun r => .one (s r))) (.one (joinedChannels s t))
  | seq {a b : MNet} {u v w : Vals Padded} : Tree a u v → Tree b v w → Tree (.seq a b) u w
  | par {n : ℕ} {branches : Fin n → MNet} {u v : Fin n → Vals Padded} : (∀ i, Tree (branches i) (u i) (v i)) →
      Tree (.par n branches) (.many (List.ofFn u)) (.many (List.ofFn v))

end NT.Spec
