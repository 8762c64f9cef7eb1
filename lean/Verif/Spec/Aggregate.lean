import Verif.Spec.Reduce
import Verif.Spec.Layout
import Verif.Spec.LayerNorm
import Mathlib.Data.Real.Basic
import Mathlib.Algebra.BigOperators.Group.Finset.Basic

/-!
# Specification of graph aggregation

A graph on the positions of some axes `agg` (of sizes `G`) is given, for each example `i`, by weights: `w i c q` is the weight of the edges from
vertex `c` to vertex `q`.  Aggregation sums the values at the senders.
-/

namespace NT.Spec
open scoped BigOperators

/-- The entry of `x` at index `i`, aggregated along the axes `agg` of sizes `G`; `ba` is the batch axis. -/
noncomputable def aggregate (G agg : List ℕ) (ba : ℕ) (w : ℕ → List ℕ → List ℕ → ℝ) (x : List ℕ → ℝ) (i : List ℕ) : ℝ :=
  ∑ c ∈ box G, w (i.getD ba 0) c (agg.map (i.getD · 0)) * x (putAt agg c i)

/-- Aggregation of the values `f` of one example with weights `w`: `ax` are the aggregated axes among the spatial axes. -/
noncomputable def aggregateAt (G ax : List ℕ) (w : List ℕ → List ℕ → ℝ) (f : List ℕ → ℝ) (P : List ℕ) : ℝ :=
  ∑ c ∈ box G, w c (ax.map (P.getD · 0)) * f (putAt ax c P)

/-- The covariance of two aggregated values: `A₁ᵀ F A₂` for the matrices `A₁ = w1 i`, `A₂ = w2 j` of examples `i`, `j`, acting on the axes `ax`. -/
noncomputable def aggregateCov (G1 G2 ax : List ℕ) (w1 w2 : ℕ → List ℕ → List ℕ → ℝ) (F : List ℕ → List ℕ → List ℕ → ℝ) (b P Q : List ℕ) : ℝ :=
  ∑ c ∈ box G1, ∑ c' ∈ box G2, w1 (b.getD 0 0) c (ax.map (P.getD · 0)) * F b (putAt ax c P) (putAt ax c' Q) * w2 (b.getD 1 0) c' (ax.map (Q.getD · 0))

/-- The content of the kernel of the aggregated values. -/
noncomputable def aggregateLogical (G1 G2 ax : List ℕ) (w1 w2 : ℕ → List ℕ → List ℕ → ℝ) (L : Logical ℝ) : Logical ℝ where
  n1 := L.n1
  n2 := L.n2
  S1 := L.S1
  S2 := L.S2
  k12 := aggregateCov G1 G2 ax w1 w2 L.k12
  k11 := aggregateCov G1 G1 ax w1 w1 L.k11
  k22 := L.k22.map (aggregateCov G2 G2 ax w2 w2)
  ntk := L.ntk.map (aggregateCov G1 G2 ax w1 w2)

/-- The weights of a dense pattern: an array with axes (example, sender, receiver). -/
def denseWeight (pattern : Arr ℝ) (i : ℕ) (c q : List ℕ) : ℝ := pattern.get (i :: c ++ q)

/-- The coordinates of the sender (`side = 0`) or receiver (`side = 1`) of edge `e` of example `b`; the axis of the coordinates may be absent
when there is one aggregated axis. -/
def endpoint (pattern : Arr ℤ) (K b e side : ℕ) : List ℤ :=
  if pattern.shape.length = 3 then [pattern.get [b, e, side]] else (List.range K).map fun k => pattern.get [b, e, k, side]

/-- The vertex with the given coordinates, taken modulo the sizes; negative coordinates mark padding. -/
def vertex (G : List ℕ) (v : List ℤ) : Option (List ℕ) :=
  if ∀ x ∈ v, 0 ≤ x then some (List.zipWith (fun x (d : ℕ) => (x % (d : ℤ)).toNat) v G) else none

/-- The weights of an edge list: the number of edges (`E` of them, repeated ones counted) from `c` to `q`. -/
noncomputable def edgeWeight (G : List ℕ) (pattern : Arr ℤ) (i : ℕ) (c q : List ℕ) : ℝ :=
  (((List.range (pattern.shape.getD 1 0)).countP fun e =>
    vertex G (endpoint pattern G.length i e 0) = some c ∧ vertex G (endpoint pattern G.length i e 1) = some q : ℕ) : ℝ)

end NT.Spec
