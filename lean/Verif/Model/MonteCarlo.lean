import Verif.Model.Arr
import Mathlib.Algebra.Module.Basic
import Mathlib.Data.Real.Basic
import Mathlib.Data.Finset.Sort

/-!
# `neural_tangents/_src/monte_carlo.py`

A kernel estimate (array, named tuple of arrays or tree) is an element of a real vector space `V`:
`tree_map(operator.add)` is addition and `sample / n` is scaling by `1 / n` on every leaf.  PRNG keys
are an abstract type with an abstract `split`.  The single-draw kernel `once key` stands for
`kernel_fn_sample_once(x1, x2, key, get)` at fixed `x1, x2, get`, monte_carlo.py:59-80, in terms of
`sampleOnce` below.
-/

namespace NT.MonteCarlo
open NT

variable {Key V P : Type}

/-- `kernel_fn_sample_once`, monte_carlo.py:68-79: split the key into an initialisation key and a
dropout key, draw parameters, evaluate the empirical kernel. -/
def sampleOnce (split : Key → Key × Key) (init : Key → P) (kernelFn : P → Key → V) (key : Key) : V :=
  kernelFn (init (split key).1) (split key).2

section
variable [AddCommGroup V] [Module ℝ V]

/-- `normalize`, monte_carlo.py:88-89. -/
noncomputable def normalize (sample : V) (n : ℕ) : V := (n : ℝ)⁻¹ • sample

/-- The loop of `get_samples`, monte_carlo.py:96-105: the pairs `(n, ker_sampled)` yielded for
`n, n+1, ..., n+fuel-1`. -/
def samplesFrom (split : Key → Key × Key) (once : Key → V) :
    (fuel n : ℕ) → Key → Option V → List (ℕ × V)
  | 0, _, _, _ => []
  | fuel + 1, n, key, ker =>
    let (key', sp) := split key
    let oneSample := once sp
    let ker' := match ker with
      | none => oneSample
      | some k => k + oneSample
    (n, ker') :: samplesFrom split once fuel (n + 1) key' (some ker')

/-- `get_samples`, monte_carlo.py:91-105. -/
def getSamples (split : Key → Key × Key) (once : Key → V) (key : Key) (nMax : ℕ) : List (ℕ × V) :=
  samplesFrom split once nMax 1 key none

/-- `get_sampled_kernel` for a single count, monte_carlo.py:118-128.  `range(1, 1)` leaves `sample`
unbound (excluded by validation); modelled as an error. -/
noncomputable def sampledKernel (split : Key → Key × Key) (once : Key → V) (key : Key) (n : ℕ) :
    Except Err V :=
  match (getSamples split once key n).getLast? with
  | some (n, sample) => .ok (normalize sample n)
  | none => .error .valueError

/-- `get_sampled_kernel` for a set of counts, monte_carlo.py:107-116: the list of yielded values.
`max(n_samples)` of an empty set raises when the generator is first advanced. -/
noncomputable def sampledKernels (split : Key → Key × Key) (once : Key → V) (key : Key)
    (ns : Finset ℕ) : Except Err (List V) :=
  if h : ns.Nonempty then
    .ok (((getSamples split once key (ns.max' h)).filter fun p => decide (p.1 ∈ ns)).map
      fun p => normalize p.2 p.1)
  else .error .valueError

end

/-- What a user may pass as an element of `n_samples`. -/
inductive Elem
  | int (n : ℤ)
  | nonInt

/-- What a user may pass as `n_samples`: a Python `int`, an iterable, or anything else. -/
inductive NSamples
  | int (n : ℤ)
  | iter (l : List Elem)
  | other

def Elem.isInt : Elem → Bool
  | .int _ => true
  | .nonInt => false

def Elem.val : Elem → ℤ
  | .int n => n
  | .nonInt => 0

/-- `_canonicalize_n_samples`, monte_carlo.py:343-363.  The set is returned as a `Finset`. -/
def canonicalize (s : NSamples) : Except Err (Finset ℤ × Bool) :=
  let check (l : List Elem) (getGenerator : Bool) : Except Err (Finset ℤ × Bool) :=
    if ¬ l.all Elem.isInt then .error .valueError
    else if l.any fun e => decide (e.val ≤ 0) then .error .valueError
    else .ok ((l.map Elem.val).toFinset, getGenerator)
  match s with
  | .int n => check [.int n] false
  | .iter l => check l true
  | .other => .error .typeError

end NT.MonteCarlo
