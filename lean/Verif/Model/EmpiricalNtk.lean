import Verif.Model.Empirical
import Verif.Spec.Box
import Mathlib.Analysis.Calculus.Gradient.Basic
import Mathlib.Analysis.InnerProductSpace.PiL2

/-!
# Model of the empirical NTK (empirical.py)

The network with its inputs fixed is a function of the parameters.  The parameters are the leaves of a tree:
`L` real arrays of shapes `P l`.  `f1` is the network at `x1`, `f2` the network at `x2` (`f1` if `x2 is None`).
`vmap_axes` is `None`: the vectorisation over examples is not modelled.  JAX's `jacobian`, `jvp`, `vjp` and
`linear_transpose` are modelled by their mathematical definitions.
-/

namespace NT.Emp

open NT.Arr NT.Spec

variable {L : ℕ}

/-- Parameters with `L` leaves of shapes `P l`. -/
abbrev Params (P : Fin L → List ℕ) := EuclideanSpace ℝ (Σ l : Fin L, {p // p ∈ box (P l)})

variable {P : Fin L → List ℕ}

/-- `jacobian(f)(params)`, the leaf `l` of the parameters (empirical.py:604): axes of the output followed by the axes of the leaf. -/
noncomputable def jacobianLeaf (f : Params P → Arr ℝ) (θ : Params P) (l : Fin L) : Arr ℝ :=
  let n := (f θ).ndim
  ⟨(f θ).shape ++ P l, fun k =>
    if h : k.drop n ∈ box (P l) then
      fderiv ℝ (fun θ => (f θ).get (k.take n)) θ (EuclideanSpace.single ⟨l, ⟨k.drop n, h⟩⟩ 1)
    else 0⟩

/-- `jvp(f, (params,), (u,))[1]`. -/
noncomputable def jvp (f : Params P → Arr ℝ) (θ u : Params P) : Arr ℝ :=
  ⟨(f θ).shape, fun i => fderiv ℝ (fun θ => (f θ).get i) θ u⟩

/-- `vjp(f, params)[1](v)`. -/
noncomputable def vjp (f : Params P → Arr ℝ) (θ : Params P) (v : Arr ℝ) : Params P :=
  ∑ i ∈ box (f θ).shape, v.get i • gradient (fun θ => (f θ).get i) θ

/-- `ntk_vp_fn` of `empirical_ntk_vp_fn`, empirical.py:1366-1380, and `delta_vjp_jvp`, empirical.py:668-671. -/
noncomputable def ntkVp (f1 f2 : Params P → Arr ℝ) (θ : Params P) (cotangents : Arr ℝ) : Arr ℝ :=
  jvp f1 θ (vjp f2 θ cotangents)

/-- The array of shape `s` that is one at `j` and zero elsewhere. -/
def unitAt (s j : List ℕ) : Arr ℝ := ⟨s, fun k => if k = j then 1 else 0⟩

/-- `linear_transpose(g, x)(u)` for a linear `g` from arrays of shape `s2`. -/
noncomputable def linearTranspose (g : Arr ℝ → Arr ℝ) (s2 : List ℕ) (u : Arr ℝ) : Arr ℝ :=
  ⟨s2, fun j => ∑ i ∈ box u.shape, u.get i * (g (unitAt s2 j)).get i⟩

/-- `jnp.eye(n)`. -/
def eye (n : ℕ) : Arr ℝ := ⟨[n, n], fun k => if k.getD 0 0 = k.getD 1 0 then 1 else 0⟩

/-- `_std_basis`, empirical.py:2319-2325, with `_unravel_array_into_pytree(…, 1, …)` for one output. -/
def stdBasis (s : List ℕ) : Arr ℝ := (eye s.prod).reshape (s.prod :: s)

/-- The full NTK, empirical.py:673-677: `vmap` of the transposed NTK-vector product over the rows of the standard basis, the
leading axis being reshaped to that of the first output by `_unravel_array_into_pytree(fx1, 0, …)`. -/
noncomputable def ntkFull (f1 f2 : Params P → Arr ℝ) (θ : Params P) : Arr ℝ :=
  let s1 := (f1 θ).shape
  let s2 := (f2 θ).shape
  let rows : Arr ℝ := ⟨s1.prod :: s2, fun k =>
    (linearTranspose (ntkVp f1 f2 θ) s2 ⟨s1, fun i => (stdBasis s1).get (k.headD 0 :: i)⟩).get k.tail⟩
  rows.reshape (s1 ++ s2)

/-- `_ntk_vector_products_ntk_fn`, empirical.py:621-701. -/
noncomputable def ntkVectorProducts (f1 f2 : Params P → Arr ℝ) (θ : Params P) (trace diagonal : List Int) : Except Err (Arr ℝ) :=
  traceAndDiagonal (ntkFull f1 f2 θ) trace diagonal

/-- `_jacobian_contraction_ntk_fn`, empirical.py:542-618. -/
noncomputable def ntkJacobian (f1 f2 : Params P → Arr ℝ) (θ : Params P) (trace diagonal : List Int) : Except Err (Arr ℝ) :=
  jacobianContraction (f1 θ).shape trace diagonal (List.ofFn (jacobianLeaf f1 θ)) (List.ofFn (jacobianLeaf f2 θ))

end NT.Emp
