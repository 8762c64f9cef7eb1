import Verif.Model.Einsum
import Verif.Spec.LayerNorm
import Mathlib.Algebra.BigOperators.Group.Finset.Basic

/-!
# Specification of `Kernel.dot_general`: contraction of the inputs with a constant array
-/

namespace NT.Spec
open scoped BigOperators
open NT.Einsum (assign)

/-- A contraction of inputs of rank `n` (batch axis `ba`, channel axis `ca`) with an array of rank `no`: the axes `cs` of the inputs are
contracted with the axes `ocs` of the array, the axes `bs` are matched with the axes `obs`.  The inputs are the right factor if
`isLhs` (the array is the left-hand side). -/
structure Contraction where
  n : ℕ
  ba : ℕ
  ca : ℕ
  no : ℕ
  cs : List ℕ
  bs : List ℕ
  ocs : List ℕ
  obs : List ℕ
  isLhs : Bool

namespace Contraction
variable (C : Contraction)

/-- The spatial axes of the result: an axis of the inputs (`inl`) or of the array (`inr`).  Matched axes come first, then the remaining axes
of the left factor, then those of the right factor. -/
def outAxes : List (ℕ ⊕ ℕ) :=
  let matched := (C.bs.filter (· ≠ C.ba)).map Sum.inl
  let input := ((List.range C.n).filter fun a => a ∉ C.cs ∧ a ∉ C.bs ∧ a ≠ C.ba ∧ a ≠ C.ca).map Sum.inl
  let other := ((List.range C.no).filter fun a => a ∉ C.ocs ∧ a ∉ C.obs).map Sum.inr
  if C.isLhs then matched ++ other ++ input else matched ++ input ++ other

/-- The coordinate along an axis, given the position `P` in the result and the values `c` of the contracted axes. -/
def coord (P c : List ℕ) : ℕ ⊕ ℕ → ℕ := assign (C.outAxes ++ C.cs.map Sum.inl) (P ++ c)

/-- The position in the inputs. -/
def inPos (P c : List ℕ) : List ℕ := (spatialAxes C.n C.ba C.ca).map fun a => C.coord P c (.inl a)

/-- The entry of the array, for example `i`. -/
def otherIdx (i : ℕ) (P c : List ℕ) : List ℕ :=
  (List.range C.no).map fun j =>
    if j ∈ C.obs ++ C.ocs then
      let a := (C.bs ++ C.cs).getD ((C.obs ++ C.ocs).idxOf j) 0
      if a = C.ba then i else C.coord P c (.inl a)
    else C.coord P c (.inr j)

/-- The spatial shape of the result for inputs of shape `s` and an array of shape `t`. -/
def outShape (s t : List ℕ) : List ℕ := C.outAxes.map (Sum.elim (s.getD · 0) (t.getD · 0))

/-- The contraction of the inputs `x` (example, position) with the array `o`, at example `i` and position `P`; `s` is the shape of the
inputs. -/
noncomputable def contract (s : List ℕ) (o : List ℕ → ℝ) (x : ℕ → List ℕ → ℝ) (i : ℕ) (P : List ℕ) : ℝ :=
  ∑ c ∈ box (C.cs.map (s.getD · 0)), x i (C.inPos P c) * o (C.otherIdx i P c)

/-- The covariances of the contractions. -/
noncomputable def covar (s s' : List ℕ) (o o' : List ℕ → ℝ) (F : List ℕ → List ℕ → List ℕ → ℝ) (b P Q : List ℕ) : ℝ :=
  ∑ c ∈ box (C.cs.map (s.getD · 0)), ∑ c' ∈ box (C.cs.map (s'.getD · 0)),
    o (C.otherIdx (b.getD 0 0) P c) * F b (C.inPos P c) (C.inPos Q c') * o' (C.otherIdx (b.getD 1 0) Q c')

/-- The logical content of the kernel of the contractions; `s1`, `s2` are the shapes of the inputs, `t1`, `t2` those of the arrays. -/
noncomputable def logical (s1 s2 t1 t2 : List ℕ) (o1 o2 : List ℕ → ℝ) (L : Logical ℝ) : Logical ℝ where
  n1 := L.n1
  n2 := L.n2
  S1 := C.outShape s1 t1
  S2 := C.outShape s2 t2
  k12 := C.covar s1 s2 o1 o2 L.k12
  k11 := C.covar s1 s1 o1 o1 L.k11
  k22 := L.k22.map (C.covar s2 s2 o2 o2)
  ntk := L.ntk.map (C.covar s1 s2 o1 o2)

/-- The axes make sense: distinct axes of the inputs and of the array, paired, the channel axis not among them and the batch axis not
contracted. -/
structure Ok : Prop where
  ba : C.ba < C.n
  ca : C.ca < C.n
  ne : C.ba ≠ C.ca
  nodup : (C.bs ++ C.cs).Nodup
  lt : ∀ a ∈ C.bs ++ C.cs, a < C.n
  chan : C.ca ∉ C.bs ++ C.cs
  batch : C.ba ∉ C.cs
  onodup : (C.obs ++ C.ocs).Nodup
  olt : ∀ a ∈ C.obs ++ C.ocs, a < C.no
  lenB : C.obs.length = C.bs.length
  lenC : C.ocs.length = C.cs.length

end Contraction
end NT.Spec
