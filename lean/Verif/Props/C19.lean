import Verif.Model.Utils
import Verif.Tac

/-!
# C19: output selection does not depend on how arguments are passed

This is false as it stands: the default is looked up at a position that depends on the number of
positional arguments (`default_wrong`, `default_index_error`).  `independent_partial` says when it
holds.
-/

namespace NT.C19
open NT Utils

variable {V : Type}

/-- Python's own rule for the value a parameter receives: the keyword, else the positional argument,
else the parameter's default; the defaults belong to the last parameters. -/
def pythonBinding (sig : Sig V) (name : String) (posArgs : List V) (kw : Option V) : Option V :=
  match kw with
  | some v => some v
  | none =>
    match posArgs[sig.args.idxOf name]? with
    | some v => some v
    | none =>
      match sig.defaults with
      | none => none
      | some ds =>
        if sig.args.length ≤ sig.args.idxOf name + ds.length then
          ds[sig.args.idxOf name + ds.length - sig.args.length]?
        else none

/-- When `get` is passed, by keyword or by position, that value is used. -/
theorem explicit_get (sig : Sig V) (hget : "get" ∈ sig.args) (posArgs : List V) (kw : Option V) (v : V)
    (h : kw = some v ∨ kw = none ∧ posArgs[sig.args.idxOf "get"]? = some v) :
    getArgument sig posArgs kw = .ok v := by
  rcases h with rfl | ⟨rfl, h⟩
  · simp [getArgument, hget]
  · simp [getArgument, hget, h]

/-- Number of parameters without a default. -/
def required (sig : Sig V) : ℕ := sig.args.length - (sig.defaults.getD []).length

/-- The selection is the one Python's binding rule gives, for every call that passes at least the
parameters without defaults by position, provided that the defaults are all equal (for the functions
of the package they are all `None`).  Missing from the full statement: calls which pass a required
parameter by keyword, see `default_index_error`, and signatures with different defaults, see
`default_wrong`. -/
theorem independent_partial (sig : Sig V) (hget : "get" ∈ sig.args) (posArgs : List V) (kw : Option V)
    (hreq : required sig ≤ posArgs.length) (d : V) (hdef : ∀ ds, sig.defaults = some ds → ∀ x ∈ ds, x = d)
    (hlen : ∀ ds, sig.defaults = some ds → ds.length ≤ sig.args.length)
    (v : V) (h : pythonBinding sig "get" posArgs kw = some v) : getArgument sig posArgs kw = .ok v := by
  unfold pythonBinding at h
  unfold getArgument
  rw [if_pos hget]
  cases kw with
  | some g => simpa using h
  | none =>
    simp only at h ⊢
    cases hp : posArgs[sig.args.idxOf "get"]? with
    | some g => simpa [hp] using h
    | none =>
      simp only [hp] at h ⊢
      cases hd : sig.defaults with
      | none => simp [hd] at h
      | some ds =>
        simp only [hd] at h ⊢
        split_ifs at h with hle
        have hmem : v ∈ ds := List.mem_of_getElem? h
        have hv := hdef ds hd v hmem
        have hl := hlen ds hd
        have hidx : sig.args.idxOf "get" < sig.args.length := List.idxOf_lt_length_iff.2 hget
        have hlt : sig.args.idxOf "get" - posArgs.length < ds.length := by
          unfold required at hreq
          rw [hd] at hreq
          simp at hreq
          have : 0 < ds.length := List.length_pos_of_mem hmem
          omega
        have e : ds[sig.args.idxOf "get" - posArgs.length]? =
            some ds[sig.args.idxOf "get" - posArgs.length] := by simp [hlt]
        rw [e]
        simp only [Except.ok.injEq]
        rw [hv]
        exact hdef ds hd _ (List.getElem_mem hlt)

/-- The Monte Carlo kernel function `(x1, x2, get=None)` called as `kernel_fn(x1, x2=x2)` fails with an
`IndexError`, while `kernel_fn(x1, x2)` selects the default. -/
theorem default_index_error (x1 x2 dflt : V) :
    getArgument ⟨["x1", "x2", "get"], some [dflt]⟩ [x1] none = .error .indexError ∧
    getArgument ⟨["x1", "x2", "get"], some [dflt]⟩ [x1, x2] none = .ok dflt ∧
    pythonBinding ⟨["x1", "x2", "get"], some [dflt]⟩ "get" [x1] none = some dflt := by
  refine ⟨rfl, rfl, rfl⟩

/-- With different defaults the wrong one may be taken. -/
theorem default_wrong : ∃ sig : Sig ℕ, ∃ posArgs, "get" ∈ sig.args ∧
    pythonBinding sig "get" posArgs none = some 1 ∧ getArgument sig posArgs none = .ok 2 :=
  ⟨⟨["x", "get", "flag"], some [1, 2]⟩, [], by decide, rfl, rfl⟩

section Examples
/-- `kernel_fn_any(x1_or_kernel, x2=None, get=None)` called with one or two positional arguments. -/
example : getArgument ⟨["x1_or_kernel", "x2", "get"], some [0, 0]⟩ [7] none = .ok 0 := by decide
example : getArgument ⟨["x1_or_kernel", "x2", "get"], some [0, 0]⟩ [7, 8] none = .ok 0 := by decide
example : pythonBinding ⟨["x1_or_kernel", "x2", "get"], some [0, 0]⟩ "get" [7] none = some 0 := by
  decide
example : required (⟨["x1_or_kernel", "x2", "get"], some [0, 0]⟩ : Sig ℕ) = 1 := by decide
end Examples

end NT.C19
