import Mathlib.Analysis.SpecialFunctions.Exp
import Mathlib.Analysis.SpecialFunctions.Pow.Real
import Verif.Spec.Box
import Verif.Spec.Layout
import Verif.Model.Attention

/-!
# Self-attention in the infinite width limit

Every position of an example attends to every position of the same example.  With linear (`1 / d`) scaling the attention scores of an example
converge to the covariances of its positions, so the layer averages the values with deterministic weights.
-/

namespace NT.Spec
open NT

/-- The score of position `u` for the query position `p` of example `i`; `M` tells which positions are masked, `c` is the score of a masked
position, `K` the covariances of the inputs. -/
noncomputable def score (c : ℝ) (K : List ℕ → List ℕ → List ℕ → ℝ) (M : ℕ → List ℕ → Bool) (i : ℕ) (p u : List ℕ) : ℝ :=
  if M i u then c else K [i, i] p u

/-- The weight with which position `p` of example `i` attends to position `u`. `qk` is the product of the standard deviations of query and
key weights, `S` the spatial shape. -/
noncomputable def attnWeight (mech : Mechanism) (qk : ℝ) (S : List ℕ) (K : List ℕ → List ℕ → List ℕ → ℝ) (M : ℕ → List ℕ → Bool)
    (i : ℕ) (p u : List ℕ) : ℝ :=
  match mech with
  | .softmax => Real.exp (qk * score (-10 ^ 20) K M i p u) / ∑ v ∈ box S, Real.exp (qk * score (-10 ^ 20) K M i p v)
  | .identity => qk * score 0 K M i p u
  | .abs => |qk * score 0 K M i p u|
  | .relu => max (qk * score 0 K M i p u) 0

/-- The covariances of averages of values with covariances `F`: `G F Gᵀ`. -/
noncomputable def attended (S T : List ℕ) (w1 w2 : ℕ → List ℕ → List ℕ → ℝ) (F : List ℕ → List ℕ → List ℕ → ℝ) (b p q : List ℕ) : ℝ :=
  ∑ u ∈ box S, ∑ v ∈ box T, w1 (b.getD 0 0) p u * F b u v * w2 (b.getD 1 0) q v

/-- The weights of the second inputs: those computed from their own covariances, those of the first if there are no other inputs. -/
def otherWeight (w1 : ℕ → List ℕ → List ℕ → ℝ) (w2 : (List ℕ → List ℕ → List ℕ → ℝ) → ℕ → List ℕ → List ℕ → ℝ)
    (k22 : Option (List ℕ → List ℕ → List ℕ → ℝ)) : ℕ → List ℕ → List ℕ → ℝ :=
  match k22 with
  | none => w1
  | some F => w2 F

/-- The output of an attention layer whose values have the covariances and tangent kernel `V`, for given weights of the two inputs: the value
weights, the averages, the output weights and the biases.  `ov` is the product of the standard deviations of value and output weights. -/
noncomputable def attendL (ov bsq : ℝ) (w1 w2 : ℕ → List ℕ → List ℕ → ℝ) (V : Logical ℝ) : Logical ℝ where
  n1 := V.n1
  n2 := V.n2
  S1 := V.S1
  S2 := V.S2
  k12 := fun b p q => ov ^ 2 * attended V.S1 V.S2 w1 w2 V.k12 b p q + bsq
  k11 := fun b p q => ov ^ 2 * attended V.S1 V.S1 w1 w1 V.k11 b p q + bsq
  k22 := V.k22.map fun F b p q => ov ^ 2 * attended V.S2 V.S2 w2 w2 F b p q + bsq
  ntk := V.ntk.map fun F b p q => ov ^ 2 * attended V.S1 V.S2 w1 w2 F b p q + bsq + 2 * (ov ^ 2 * attended V.S1 V.S2 w1 w2 V.k12 b p q)

/-- The covariance of the positional embeddings of two positions: of independent embeddings, or a function of the distance of the positions
(to the power `pNorm`). -/
noncomputable def posCov (pNorm : ℝ) (decay : Option (ℝ → ℝ)) (p q : List ℕ) : ℝ :=
  match decay with
  | none => if p = q then 1 else 0
  | some f => f ((List.zipWith (fun x y : ℕ => |(x : ℝ) - y| ^ pNorm) p q).sum)

/-- Inputs to which positional embeddings with covariances `R` (zero at masked positions) have been added, with weights `kw` and `pw`. -/
noncomputable def embedL (kw pw : ℝ) (R : List ℕ → List ℕ → ℝ) (M1 M2 : ℕ → List ℕ → Bool) (L : Logical ℝ) : Logical ℝ :=
  let r := fun (M M' : ℕ → List ℕ → Bool) (F : List ℕ → List ℕ → List ℕ → ℝ) (b p q : List ℕ) =>
    kw * F b p q + pw * (if M (b.getD 0 0) p || M' (b.getD 1 0) q then 0 else R p q)
  { L with k12 := r M1 M2 L.k12, k11 := r M1 M1 L.k11, k22 := L.k22.map (r M2 M2), ntk := L.ntk.map (r M1 M2) }

/-- The weights of inputs and embeddings: embeddings of standard deviation `std` are added to inputs, or appended as `e` more channels to
inputs of `c` channels. -/
noncomputable def embedWeights (emb : PosEmb) (std : ℝ) (c e : ℕ) : ℝ × ℝ :=
  match emb with
  | .concat => (c / (c + e : ℝ), std ^ 2 * (e / (c + e : ℝ)))
  | _ => (1, std ^ 2)

/-- The inputs with positional embeddings, if there are any. -/
noncomputable def withEmbedding (emb : PosEmb) (std : ℝ) (c e : ℕ) (R : List ℕ → List ℕ → ℝ) (M1 M2 : ℕ → List ℕ → Bool) (L : Logical ℝ) :
    Logical ℝ :=
  if emb = .none then L else embedL (embedWeights emb std c e).1 (embedWeights emb std c e).2 R M1 M2 L

variable (l : Attention) (c : ℕ) (M1 M2 : ℕ → List ℕ → Bool) (L : Logical ℝ)

/-- Inputs of `c` channels with the embeddings of the layer `l`. -/
noncomputable def embedded : Logical ℝ :=
  withEmbedding l.posEmb l.posStd c (l.posChan.getD c) (posCov l.pNorm l.decay) M1 M2 L

/-- The attention weights of the first inputs: functions of their own covariances only. -/
noncomputable def weight1 : ℕ → List ℕ → List ℕ → ℝ :=
  attnWeight l.mechanism l.qkStd L.S1 (embedded l c M1 M2 L).k11 M1

/-- The attention weights of the second inputs. -/
noncomputable def weight2 : ℕ → List ℕ → List ℕ → ℝ :=
  otherWeight (weight1 l c M1 M2 L) (fun F => attnWeight l.mechanism l.qkStd L.S2 F M2) (embedded l c M1 M2 L).k22

/-- The values: the inputs, with embeddings if so requested. -/
noncomputable def attnValues : Logical ℝ := if l.valPosEmb then embedded l c M1 M2 L else L

/-- The content of the kernel after the attention layer `l`. -/
noncomputable def attention : Logical ℝ :=
  attendL l.ovStd (l.bStd.getD 0 ^ 2) (weight1 l c M1 M2 L) (weight2 l c M1 M2 L) (attnValues l c M1 M2 L)

/-! ### Square root scaling

With `1 / √d` scaling the attention scores of wide layers stay random, and the outputs of many heads average over them.  For the identity mechanism the
scores are products of queries and keys, so the covariance of two scores is a product of two covariances of the inputs. -/

/-- The sum over all pairs of positions of the products of two covariances. -/
noncomputable def pairing (S T : List ℕ) (F G : List ℕ → List ℕ → List ℕ → ℝ) (b : List ℕ) : ℝ := ∑ u ∈ box S, ∑ v ∈ box T, F b u v * G b u v

/-- The output of an attention layer with square root scaling and the identity mechanism, whose queries and keys have covariances `E` and whose values have covariances
`V`.  `std` is the product of all four standard deviations.  The tangent kernel has one term for the changes of each of keys, values and queries by the parameters of the
network below, and four for the parameters of this layer. -/
noncomputable def sqrtL (std bsq : ℝ) (E V : Logical ℝ) : Logical ℝ where
  n1 := E.n1
  n2 := E.n2
  S1 := E.S1
  S2 := E.S2
  k12 b p q := std ^ 2 * (E.k12 b p q * pairing E.S1 E.S2 E.k12 V.k12 b) + bsq
  k11 b p q := std ^ 2 * (E.k11 b p q * pairing E.S1 E.S1 E.k11 V.k11 b) + bsq
  k22 := E.k22.map fun F b p q => std ^ 2 * (F b p q * pairing E.S2 E.S2 F (V.k22.getD F) b) + bsq
  ntk := E.ntk.map fun T b p q => std ^ 2 * (E.k12 b p q * pairing E.S1 E.S2 T V.k12 b + E.k12 b p q * pairing E.S1 E.S2 E.k12 (V.ntk.getD T) b +
    T b p q * pairing E.S1 E.S2 E.k12 V.k12 b + 4 * (E.k12 b p q * pairing E.S1 E.S2 E.k12 V.k12 b)) + bsq

/-- The content of the kernel after the attention layer `l` with square root scaling. -/
noncomputable def sqrtAttention : Logical ℝ :=
  sqrtL (l.qkStd * l.ovStd) (l.bStd.getD 0 ^ 2) (embedded l c M1 M2 L) (attnValues l c M1 M2 L)

/-- The content of the kernel after the attention layer `l` with either scaling. -/
noncomputable def attentionLayer : Logical ℝ := if l.linearScaling then attention l c M1 M2 L else sqrtAttention l c M1 M2 L

end NT.Spec
