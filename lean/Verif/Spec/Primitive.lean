import Verif.Spec.Uses
import Verif.Lemmas.Rules8
import Verif.Lemmas.Rules12
import Verif.Model.RulesConv
import Verif.Model.RulesWindow

/-!
# Equations that are primitives with rules
-/

namespace NT.Spec
open NT NT.Emp NT.Arr NT.Rules

variable {α : Type} [Field α]

/-- The operand `k` of the equation `e` is treated with the structure rule `S` and the Jacobian rule `rule` (rules.py:151-209, empirical.py:1918-1948), and `e` computes `f` of it.
`other` is the other operand of `mul`, `div`, `dot_general` and `conv_general_dilated`. -/
structure Follows (e : Eqn α) (k : ℕ) (f : Arr α → Except Err (Arr α)) (rule : List ℕ → Arr α → List ℕ → Except Err (Arr α)) (S : Except Err Structure)
    (other : Arr α) : Prop where
  plain : e.isReshape = false
  struct : e.struct k = (do checked (← S) k e.shapes e.out)
  dydw : ∀ s, e.dydw k s = compact rule s k (e.shapes.getD k []) other e.out
  jac : IsJacobian f (e.shapes.getD k []) e.out (e.jac k)

/-- The operand `k` of the equation `e` is an operand of a primitive, which has rules (all cases but the last) or not. -/
inductive Primitive (e : Eqn α) : ℕ → Prop
  | id {inp : List ℕ} {other : Arr α} (hs : e.shapes = [inp]) (ho : e.out = inp) (h : Follows e 0 (fun w => .ok w) eyeJ (.ok (eyeS 0 inp inp)) other) : Primitive e 0
  | neg {inp : List ℕ} {other : Arr α} (hs : e.shapes = [inp]) (ho : e.out = inp)
      (h : Follows e 0 (fun w => .ok (w.map fun v => -v)) negJ (.ok (eyeS 0 inp inp)) other) : Primitive e 0
  | transpose {perm inp : List ℕ} {other : Arr α} (hs : e.shapes = [inp]) (ho : e.out = gather perm inp) (hp : perm.Perm (List.range inp.length))
      (h : Follows e 0 (fun w => .ok (w.transpose perm)) (transposeJ perm) (transposeS 0 perm e.out) other) : Primitive e 0
  | squeeze {dims inp : List ℕ} {other : Arr α} (hs : e.shapes = [inp]) (ho : e.out = gather (freeAxes inp.length dims) inp) (hd : ∀ a ∈ dims, inp.getD a 0 = 1)
      (h : Follows e 0 (fun w => w.reshapeE e.out) eyeJ (.ok (squeezeS 0 dims inp e.out)) other) : Primitive e 0
  | reduceSum {axes inp : List ℕ} {other : Arr α} (hs : e.shapes = [inp]) (ho : e.out = gather (freeAxes inp.length axes) inp) (hn : axes.Nodup)
      (hl : ∀ a ∈ axes, a < inp.length) (h : Follows e 0 (fun w => .ok (w.reduceSum axes)) (reduceSumJ axes) (.ok (reduceSumS 0 axes inp e.out)) other) : Primitive e 0
  | broadcast {dims inp : List ℕ} {other : Arr α} (hs : e.shapes = [inp]) (hn : dims.Nodup) (hl : ∀ a ∈ dims, a < e.out.length) (ho : gather dims e.out = inp)
      (h : Follows e 0 (fun w => w.broadcastInDim e.out dims) (broadcastJ dims) (.ok (broadcastS 0 dims inp e.out)) other) : Primitive e 0
  | rev {dims inp : List ℕ} {other : Arr α} (hs : e.shapes = [inp]) (ho : e.out = inp) (hd : ∀ a ∈ dims, a < inp.length)
      (h : Follows e 0 (fun w => .ok (w.rev dims)) (revJ dims) (.ok (revS 0 dims inp)) other) : Primitive e 0
  | pad {cfg : List (ℤ × ℤ × ℕ)} {inp : List ℕ} {v : α} {other : Arr α} (hs : e.shapes.getD 0 [] = inp) (hc : cfg.length = inp.length)
      (ho : e.out = inp.mapIdx fun x n => padSize (cfg.getD x (0, 0, 0)) n)
      (h : Follows e 0 (fun w => .ok (w.padLax v cfg)) (padJ cfg) (.ok (padS 0 cfg e.out)) other) : Primitive e 0
  | concat {sizes inp : List ℕ} {k dim : ℕ} {others : List (Arr α)} {other : Arr α} (hs : e.shapes = sizes.map fun n => inp.set dim n) (hd : dim < inp.length)
      (hk : k < sizes.length) (hi : inp.getD dim 0 = sizes.getD k 0) (hos : others.map (·.shape) = e.shapes) (ho : e.out = inp.set dim sizes.sum)
      (h : Follows e k (fun w => concatE (others.set k w) dim) (concatJ sizes k dim) (.ok (concatS sizes.length dim e.out)) other) : Primitive e k
  | add {isSub : Bool} {k : ℕ} {inp : List ℕ} {other : Arr α} (hk : k < 2) (hs : e.shapes = operandShapes k inp other.shape) (hop : Operands inp other.shape)
      (ho : e.out = bshape inp other.shape) (h : Follows e k (addOp isSub k other) (addJ isSub k) (addS k inp other.shape) other) : Primitive e k
  | mul {isDiv : Bool} {k : ℕ} {inp : List ℕ} {other : Arr α} (hk : k < 2) (hd : ¬ (isDiv ∧ k ≠ 0)) (hs : e.shapes = operandShapes k inp other.shape)
      (hop : Operands inp other.shape) (ho : e.out = bshape inp other.shape) (h : Follows e k (mulOp isDiv k other) (mulJ isDiv k) (mulS k inp other.shape) other) :
      Primitive e k
  | dot {k : ℕ} {C B oC oB inp : List ℕ} {other : Arr α} (hk : k < 2) (hs : e.shapes = operandShapes k inp other.shape) (hd : DotDims C B oC oB inp other.shape)
      (ho : e.out = dotOut k C B oC oB inp other.shape)
      (h : Follows e k (dotOp k C B oC oB other) (dotJ k C B oC oB) (.ok (dotS k C B oB inp.length other.ndim)) other) : Primitive e k
  | conv {p : ConvParams} {inp : List ℕ} {other : Arr α} (hs : e.shapes = [other.shape, inp]) (hv : p.Valid other.shape inp) (hF : 0 < inp.getD (p.rhsSpec.getD 0 0) 0)
      (ho : e.out = convOut p other.shape inp) (h : Follows e 1 (fun w => p.conv other w) (convRule p other.shape) (convS p 1 other.shape inp) other) : Primitive e 1
  | window {p : WindowParams} {inp : List ℕ} {other : Arr α} (hs : e.shapes = [inp]) (hv : p.Valid inp) (ho : e.out = p.outShape inp)
      (h : Follows e 0 (fun w => p.sum w) (vanillaJ fun w => p.sum w) (.ok (windowS 0 p e.out)) other) : Primitive e 0
  | reshape {inp : List ℕ} {other : Arr α} (hs : e.shapes = [inp]) (ho : e.out.prod = inp.prod) (hr : e.isReshape = true)
      (hst : e.struct 0 = (do checked (← reshapeS 0 none inp) 0 e.shapes inp)) (hdw : ∀ s, e.dydw 0 s = compact (reshapeJ none) s 0 inp other inp)
      (hj : IsJacobian (fun w => w.reshapeE e.out) inp e.out (e.jac 0)) : Primitive e 0
  | other {k : ℕ} {other : Arr α} (hr : e.isReshape = false) (hst : e.struct k = checked {} k e.shapes e.out)
      (hdw : ∀ s, e.dydw k s = compact (fun inp _ out => .ok ⟨out ++ inp, fun x => e.jac k (x.take out.length) (x.drop out.length)⟩) s k (e.shapes.getD k []) other e.out) :
      Primitive e k

/-- All uses of parameters are operands of such primitives. -/
def Primitives (J : Jaxpr α) : Prop :=
  ∀ (n : ℕ) (e : Eqn α), J.eqns[n]? = some e → ∀ k l, e.args[k]? = some (.param l) → Primitive e k

end NT.Spec
