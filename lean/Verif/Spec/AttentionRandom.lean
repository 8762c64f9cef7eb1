import Verif.Spec.Channels
import Verif.Spec.Attention

/-! # Attention layers with random parameters of finite width -/

namespace NT.Spec
open MeasureTheory

variable {E : Type} [NormedAddCommGroup E]

/-- The parameters of `H` heads of `A` key channels and `D` value channels, for `C` input channels of queries and keys and `V` of values, and `O` output channels: the matrices of
queries, keys and values, and output matrix and bias (`init_fn`, linear.py:2151-2200). -/
abbrev HeadIdx (H C A : ℕ) : Type := Fin H × Fin C × Fin A
abbrev OutIdx (H D O : ℕ) : Type := (Fin D × Fin H × Fin O) ⊕ Fin O
abbrev AttnParams (E : Type) [NormedAddCommGroup E] (H C V A D O : ℕ) : Type :=
  Ext (Ext (Ext (Ext E (HeadIdx H C A)) (HeadIdx H C A)) (HeadIdx H V D)) (OutIdx H D O)

/-- A matrix of head `h` applied to inputs `x c p`. -/
noncomputable def project {H C A : ℕ} (W : EuclideanSpace ℝ (HeadIdx H C A)) (x : ℕ → List ℕ → ℝ) (h : Fin H) (a : Fin A) (p : List ℕ) : ℝ := ∑ c : Fin C, x c p * W (h, c, a)

/-- Output channel `o` at position `p` of the layer with square root scaling and the identity mechanism (`apply_fn`, linear.py:2202-2303), for inputs `x` of the queries and keys and `v` of the
values. -/
noncomputable def sqrtOutput (qk ov b : ℝ) (S : List ℕ) (H C V A D O : ℕ) (x v : ℕ → List ℕ → ℝ) (o : Fin O) (p : List ℕ) (θ : AttnParams E H C V A D O) : ℝ :=
  ov / Real.sqrt (D * H * V) * ∑ d : Fin D, ∑ h : Fin H, (∑ u ∈ box S,
    (qk / (C * Real.sqrt A) * ∑ a : Fin A, project θ.fst.fst.fst.snd x h a p * project θ.fst.fst.snd x h a u) * project θ.fst.snd v h d u) * θ.snd (.inl (d, h, o)) +
  b * θ.snd (.inr o)

/-- The covariances of `C` channels of inputs that are not random. -/
noncomputable def inputCov (C : ℕ) (x y : ℕ → ℕ → List ℕ → ℝ) : List ℕ → List ℕ → List ℕ → ℝ :=
  fun b p q => (∑ c ∈ Finset.range C, x (b.getD 0 0) c p * y (b.getD 1 0) c q) / C

/-- The kernel of inputs `x1`, `x2` that do not depend on any parameters. -/
noncomputable def inputL (C n1 n2 : ℕ) (S1 S2 : List ℕ) (x1 x2 : ℕ → ℕ → List ℕ → ℝ) : Logical ℝ where
  n1 := n1
  n2 := n2
  S1 := S1
  S2 := S2
  k12 := inputCov C x1 x2
  k11 := inputCov C x1 x1
  k22 := some (inputCov C x2 x2)
  ntk := some fun _ _ _ => 0

end NT.Spec
