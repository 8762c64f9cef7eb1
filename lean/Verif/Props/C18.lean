import Verif.Model.Utils
import Verif.Tac

/-!
# C18: output selection via `get`

`fn` is any function taking the canonical `get`; `out` is the dictionary of its output fields.
-/

namespace NT.C18
open NT Utils

variable {V : Type}

/-- `get = None` returns the whole object. -/
theorem get_none (fn : Option (List String) → Except Err (Dict V)) (out : Dict V)
    (h : fn none = .ok out) : getterFn fn .none = .ok (.whole out) := by
  simp [getterFn, canonicalizeGet, h, bind, Except.bind, pure, Except.pure]

/-- A non-empty string returns exactly that field (in lower case). -/
theorem get_str (fn : Option (List String) → Except Err (Dict V)) (s : String) (hs : s ≠ "")
    (out : Dict V) (h : fn (some [s.toLower]) = .ok out) (v : V)
    (hv : out.lookup s.toLower = some v) : getterFn fn (.str s) = .ok (.field v) := by
  simp [getterFn, canonicalizeGet, hs, h, bind, Except.bind, pure, Except.pure, Dict.at, hv]

lemma mapM_at (out : Dict V) : ∀ (gs : List String) (vs : List V),
    List.Forall₂ (fun g v => out.lookup g = some v) gs vs → gs.mapM out.at = .ok vs
  | _, _, .nil => rfl
  | g :: gs, v :: vs, .cons h1 h2 => by
    rw [List.mapM_cons, mapM_at out gs vs h2]
    simp [Dict.at, h1, bind, Except.bind, pure, Except.pure]

lemma mapM_at_missing (out : Dict V) : ∀ (gs : List String) (g : String), g ∈ gs →
    out.lookup g = none → gs.mapM out.at = .error .keyError
  | g' :: gs, g, hg, h => by
    rw [List.mapM_cons]
    rcases List.mem_cons.1 hg with rfl | hg
    · simp [Dict.at, h, bind, Except.bind]
    · rw [mapM_at_missing out gs g hg h]
      unfold Dict.at
      cases out.lookup g' <;> simp [bind, Except.bind]

/-- A tuple of distinct names returns a named tuple with exactly those fields, in the requested
order, names in lower case. -/
theorem get_tuple (fn : Option (List String) → Except Err (Dict V)) (l : List String) (hl : l ≠ [])
    (hnd : (l.map String.toLower).Nodup) (out : Dict V) (h : fn (some (l.map String.toLower)) = .ok out)
    (hmem : ∀ g ∈ l, (out.lookup g.toLower).isSome) :
    ∃ r, getterFn fn (.tuple l) = .ok (.named r) ∧ r.map (·.1) = l.map String.toLower ∧
      ∀ p ∈ r, out.lookup p.1 = some p.2 := by
  have hv : ∃ vs, List.Forall₂ (fun g v => out.lookup g = some v) (l.map String.toLower) vs := by
    clear hnd h hl
    induction l with
    | nil => exact ⟨[], .nil⟩
    | cons g l ih =>
      obtain ⟨vs, hvs⟩ := ih (fun g hg => hmem g (by simp [hg]))
      obtain ⟨v, hv⟩ := Option.isSome_iff_exists.1 (hmem g (by simp))
      exact ⟨v :: vs, .cons hv hvs⟩
  obtain ⟨vs, hvs⟩ := hv
  have hm := mapM_at out _ _ hvs
  refine ⟨(l.map String.toLower).zip vs, ?_, ?_, ?_⟩
  · simp [getterFn, canonicalizeGet, hl, hnd, h, bind, Except.bind, pure, Except.pure, hm]
  · rw [List.map_fst_zip]; exact hvs.length_eq.le
  · intro p hp
    exact (List.forall₂_iff_zip.1 hvs).2 hp

/-- Requests are case-insensitive. -/
theorem case_insensitive (fn : Option (List String) → Except Err (Dict V)) (l l' : List String)
    (h : l.map String.toLower = l'.map String.toLower) :
    getterFn fn (.tuple l) = getterFn fn (.tuple l') := by
  have e : (l = []) = (l' = []) := by
    rw [← List.map_eq_nil_iff (f := String.toLower), h, List.map_eq_nil_iff]
  unfold getterFn canonicalizeGet
  simp only [e, h]

/-- Empty requests raise. -/
theorem empty_raises (fn : Option (List String) → Except Err (Dict V)) :
    getterFn fn (.tuple []) = .error .valueError ∧ getterFn fn (.str "") = .error .valueError := by
  simp [getterFn, canonicalizeGet, bind, Except.bind]

/-- Requests with a repeated name (up to case) raise. -/
theorem duplicate_raises (fn : Option (List String) → Except Err (Dict V)) (l : List String)
    (i j : ℕ) (hij : i < j) (hj : j < l.length)
    (h : (l[i]'(hij.trans hj)).toLower = l[j].toLower) :
    getterFn fn (.tuple l) = .error .valueError := by
  have hl : l ≠ [] := by rintro rfl; simp at hj
  have hnd : ¬ (l.map String.toLower).Nodup := by
    intro hn
    rw [List.nodup_iff_injective_get] at hn
    have := @hn ⟨i, by simp; omega⟩ ⟨j, by simpa using hj⟩ (by simpa using h)
    simp at this
    omega
  simp [getterFn, canonicalizeGet, hl, hnd, bind, Except.bind]

/-- A name the output does not have raises. -/
theorem missing_raises (fn : Option (List String) → Except Err (Dict V)) (l : List String)
    (hnd : (l.map String.toLower).Nodup) (out : Dict V)
    (h : fn (some (l.map String.toLower)) = .ok out) (g : String) (hg : g ∈ l)
    (hm : out.lookup g.toLower = none) : getterFn fn (.tuple l) = .error .keyError := by
  have hl : l ≠ [] := by rintro rfl; simp at hg
  have := mapM_at_missing out (l.map String.toLower) g.toLower (List.mem_map.2 ⟨g, hg, rfl⟩) hm
  simp [getterFn, canonicalizeGet, hl, hnd, h, bind, Except.bind, this]

section Examples
example : getterFn (fun _ => .ok [("nngp", 1), ("ntk", 2), ("cov1", 3)]) (.tuple ["NTK", "nngp"]) =
    .ok (.named [("ntk", 2), ("nngp", 1)]) := by decide +kernel
example : getterFn (fun _ => .ok [("nngp", 1), ("ntk", 2)]) (.str "Ntk") = .ok (.field 2) := by
  decide +kernel
example : getterFn (fun _ => .ok [("nngp", 1)]) (.tuple ["nngp", "NNGP"]) =
    .error .valueError := by decide +kernel
end Examples

end NT.C18
