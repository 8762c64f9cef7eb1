import Verif.Model.Vmap

/-!
# Networks that treat the examples one by one
-/

namespace NT.Spec
open NT NT.Arr NT.Emp

variable {L : ℕ} {P : Fin L → List ℕ}

/-- `x[..., e:e+1, ...]` along the axis `a`; `x` itself if there is none. -/
def oneExample (a : Option ℕ) (x : Arr ℝ) (e : ℕ) : Arr ℝ :=
  match a with
  | none => x
  | some a => ⟨x.shape.set a 1, fun i => x.get (i.set a e)⟩

/-- The axis `a` of an array of rank `n`, possibly negative, is the axis `b`. -/
def IsAxis (n : ℕ) (a : Option ℤ) (b : Option ℕ) : Prop :=
  match a, b with
  | none, none => True
  | some a, some b => b < n ∧ ((a = b) ∨ a + n = b)
  | _, _ => False

/-- The network treats the examples of the inputs `X`, along the axes `axes` of the inputs and the axis `o` of the output, one by one: there are `n`, and the part of the
output for one of them is the output for it alone. -/
structure OneByOne (f : ApplyFn P) (axes : List (Option ℕ)) (o : ℕ) (X : List (Arr ℝ)) (n : ℕ) : Prop where
  length : axes.length = X.length
  sizes : ∀ ax ∈ axes.zip X, ∀ a ∈ ax.1, ax.2.shape[a]? = some n
  out : ∀ θ, (f θ X).shape[o]? = some n
  shape : ∀ θ e, (f θ (List.zipWith (fun a x => oneExample a x e) axes X)).shape = (f θ X).shape.set o 1
  get : ∀ θ k, InRange k (f θ X).shape → (f θ X).get k = (f θ (List.zipWith (fun a x => oneExample a x (k.getD o 0)) axes X)).get (k.set o 0)

/-- The output depends on the entries of the inputs only, and its shape on their shapes only. -/
structure OfEntries (f : ApplyFn P) : Prop where
  eqv : ∀ θ X Y, List.Forall₂ (fun x y : Arr ℝ => x ≋ y) X Y → f θ X ≋ f θ Y
  shape : ∀ θ θ' X, (f θ X).shape = (f θ' X).shape

/-- `vmap_axes` names the axes `axes` of the inputs `X`, at least one, and the axis `o` of the output `fx`. -/
structure Names (V : VmapAxes) (X : List (Arr ℝ)) (fx : Arr ℝ) (axes : List (Option ℕ)) (o : ℕ) : Prop where
  length : V.inp.length = X.length
  inp : List.Forall₂ (fun ax b => IsAxis ax.2.ndim ax.1 b) (V.inp.zip X) axes
  mapped : ∃ a ∈ axes, a.isSome
  out : IsAxis fx.ndim V.out (some o)

end NT.Spec
