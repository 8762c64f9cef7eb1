import Verif.Props.C32

/-!
# C34: `repeat(layer, n)` and `serial(*[layer] * n)`
-/

namespace NT.C34
open NT NT.Comb NT.C32

set_option linter.unusedSectionVars false
variable {Key S P X K M : Type} [DecidableEq M] [DecidableEq S]

lemma repeatParams_serial (split : Key → Key × Key) (l : Layer Key S P X K) (s : S)
    (hl : ∀ r s1 p, l.init r s = .ok (s1, p) → s1 = s) (n : ℕ) (rng : Key) (ps : List (Params P))
    (h : repeatParams split l s n rng = .ok ps) :
    serialInit split (List.replicate n l) rng s = .ok (s, ps) := by
  induction n generalizing rng ps with
  | zero =>
    simp only [repeatParams, Except.ok.injEq] at h
    subst h
    rfl
  | succ n ih =>
    simp only [repeatParams] at h
    simp only [List.replicate_succ, serialInit]
    cases h1 : l.init (split rng).2 s with
    | error e => simp [h1] at h
    | ok r =>
      obtain ⟨s1, p⟩ := r
      obtain rfl := hl _ _ _ h1
      simp only [h1] at h
      cases h2 : repeatParams split l s1 n (split rng).1 with
      | error e => simp [h2] at h
      | ok qs =>
        simp only [h2, Except.ok.injEq] at h
        subst h
        simp only [ih _ _ h2]

/-- `repeat` and `serial` initialise the same parameters from the same key, for a layer that keeps the
shape. -/
theorem repeat_init (sh : Shaped K S) (split : Key → Key × Key) (splitN : Key → ℕ → List Key)
    (metaOf : K → M) (l : Layer Key S P X K) (n : ℕ) (net : Layer Key S P X K)
    (hnet : serial sh split splitN (List.replicate n l) = .ok net) (rng : Key) (s s' : S) (prm : Params P)
    (hl : ∀ r s1 p, l.init r s = .ok (s1, p) → s1 = s)
    (h : («repeat» sh split metaOf l n).init rng s = .ok (s', prm)) :
    net.init rng s = .ok (s', prm) := by
  unfold serial at hnet
  split at hnet
  · simp at hnet
  · simp only [Except.ok.injEq] at hnet
    subst hnet
    simp only [«repeat»] at h ⊢
    cases h1 : l.init rng s with
    | error e => simp [h1] at h
    | ok r =>
      obtain ⟨s1, p⟩ := r
      obtain rfl := hl _ _ _ h1
      simp only [h1, ne_eq, not_true_eq_false, if_false] at h
      cases h2 : repeatParams split l s1 n rng with
      | error e => simp [h2, Except.map] at h
      | ok ps =>
        simp only [h2, Except.map, Except.ok.injEq, Prod.mk.injEq] at h
        obtain ⟨rfl, rfl⟩ := h
        rw [repeatParams_serial split l s1 hl n rng ps h2]
        rfl

/-- A layer that changes the shape cannot be repeated. -/
theorem repeat_init_raises (sh : Shaped K S) (split : Key → Key × Key) (metaOf : K → M)
    (l : Layer Key S P X K) (n : ℕ) (rng : Key) (s s' : S) (p : Params P)
    (h : l.init rng s = .ok (s', p)) (hs : s' ≠ s) :
    («repeat» sh split metaOf l n).init rng s = .error .valueError := by
  simp [«repeat», h, hs]

/-- `repeat` and `serial` have the same `apply_fn` without a key, and also with a key if the layer does
not use it. -/
theorem repeat_apply (sh : Shaped K S) (split : Key → Key × Key) (splitN : Key → ℕ → List Key)
    (hsplit : ∀ r n, (splitN r n).length = n) (metaOf : K → M) (l : Layer Key S P X K) (n : ℕ)
    (net : Layer Key S P X K) (hnet : serial sh split splitN (List.replicate n l) = .ok net)
    (ps : List (Params P)) (hps : ps.length = n) (x : X) (rng : Option Key)
    (hrng : rng = none ∨ ∀ p y r r', l.apply p y r = l.apply p y r') :
    («repeat» sh split metaOf l n).apply (.node ps) x rng = net.apply (.node ps) x rng := by
  obtain ⟨-, -, -, ha⟩ := serial_eq sh split splitN hnet
  rw [ha]
  simp only [«repeat», List.length_replicate]
  rw [← hps, List.take_length]
  have hr : (rngs splitN ps.length rng).length = ps.length := by cases rng <;> simp [rngs, hsplit]
  have hk : ∀ r ∈ rngs splitN ps.length rng, ∀ p y, l.apply p y r = l.apply p y rng := by
    intro r hr p y
    rcases hrng with rfl | h
    · simp only [rngs, List.mem_replicate] at hr
      rw [hr.2]
    · exact h p y r rng
  revert hr hk
  generalize rngs splitN ps.length rng = rs
  clear hnet ha hps
  induction ps generalizing x rs with
  | nil => intros; simp [serialApply, runAll]
  | cons p ps ih =>
    intro hr hk
    cases rs with
    | nil => simp at hr
    | cons r rs =>
      simp only [List.map_cons, runAll, List.length_cons, List.replicate_succ, serialApply,
        hk r (by simp)]
      cases l.apply p x rng with
      | error e => rfl
      | ok y => exact ih y rs (by simpa using hr) (fun r hr => hk r (by simp [hr]))

lemma repeatKernel_sub {f : K → Except Err K} {metaOf : K → M} {n : ℕ} (hn : n ≠ 0) {k k' : K}
    (h : repeatKernel metaOf f n k = .ok k') : runAll (List.replicate n f) k = .ok k' := by
  obtain ⟨m, rfl⟩ := Nat.exists_eq_succ_of_ne_zero hn
  simp only [repeatKernel, Nat.succ_ne_zero, if_false, Nat.succ_sub_one] at h
  simp only [Nat.succ_eq_add_one, List.replicate_succ, runAll]
  cases h1 : f k with
  | error e => simp [h1] at h
  | ok k1 =>
    simp only [h1] at h
    cases h2 : f k1 with
    | error e => simp [h2] at h
    | ok k2 =>
      simp only [h2] at h
      split at h
      · exact h
      · simp at h

/-- Whenever the repeated kernel function returns, the serial one returns the same. -/
theorem repeat_kernel_sound (sh : Shaped K S) (split : Key → Key × Key) (splitN : Key → ℕ → List Key)
    (metaOf : K → M) (l : Layer Key S P X K) (n : ℕ) (net : Layer Key S P X K)
    (hnet : serial sh split splitN (List.replicate n l) = .ok net) (k k' : K)
    (h : («repeat» sh split metaOf l n).kernel k = .ok k') : net.kernel k = .ok k' := by
  obtain ⟨hne, ho, hk, -⟩ := serial_eq sh split splitN hnet
  rw [hk, ho]
  simp only [List.map_replicate]
  simp only [«repeat»] at h
  unfold decorate at h ⊢
  cases h1 : repeatKernel metaOf l.kernel n k with
  | error e => simp [h1] at h
  | ok k1 =>
    simp only [h1] at h
    rw [repeatKernel_sub (by rintro rfl; simp at hne) h1]
    exact h

/-- If the layer keeps the static data of kernels and accepts its own output then the kernel functions
are equal, errors included. -/
theorem repeat_kernel_eq (sh : Shaped K S) (split : Key → Key × Key) (splitN : Key → ℕ → List Key)
    (metaOf : K → M) (l : Layer Key S P X K) (n : ℕ) (net : Layer Key S P X K)
    (hnet : serial sh split splitN (List.replicate n l) = .ok net)
    (hl : ∀ k k1, l.kernel k = .ok k1 → ∃ k2, l.kernel k1 = .ok k2 ∧ metaOf k2 = metaOf k1) (k : K) :
    («repeat» sh split metaOf l n).kernel k = net.kernel k := by
  obtain ⟨hne, ho, hk, -⟩ := serial_eq sh split splitN hnet
  rw [hk, ho]
  simp only [List.map_replicate, «repeat»]
  unfold decorate
  have : repeatKernel metaOf l.kernel n k = runAll (List.replicate n l.kernel) k := by
    cases n with
    | zero => simp at hne
    | succ m =>
      simp only [repeatKernel, Nat.succ_ne_zero, if_false, Nat.add_sub_cancel, List.replicate_succ, runAll]
      cases h1 : l.kernel k with
      | error e => rfl
      | ok k1 =>
        obtain ⟨k2, h2, hm⟩ := hl k k1 h1
        simp [h2, hm]
  rw [this]

/-- `repeat(layer, 0)` is the identity on activations and kernels, while `serial()` raises. -/
theorem repeat_zero (sh : Shaped K S) (hsh : ∀ k, sh.withShapes k (sh.shape1 k) (sh.shape2 k) = .ok k)
    (split : Key → Key × Key) (splitN : Key → ℕ → List Key)
    (metaOf : K → M) (l : Layer Key S P X K) :
    (∀ ps x rng, («repeat» sh split metaOf l 0).apply (.node ps) x rng = .ok x) ∧
    (∀ k, («repeat» sh split metaOf l 0).kernel k = .ok k) ∧
    serial sh split splitN (List.replicate 0 l) = .error .valueError := by
  refine ⟨fun ps x rng => by simp [«repeat», runAll], fun k => ?_, rfl⟩
  simp only [«repeat», repeatKernel, decorate, if_true, setShapes, List.replicate_zero, propagate, runAll]
  exact hsh k

/-! ### Examples and limits -/

example : («repeat» triple pathSplit (fun k => k.2) (dense 3) 2).kernel (5, 3, 3) = .ok (23, 3, 3) ∧
    ∃ net, serial triple pathSplit pathSplitN (List.replicate 2 (dense 3)) = .ok net ∧
      net.kernel (5, 3, 3) = .ok (23, 3, 3) ∧
      (∀ r s1 p, (dense 3).init r 3 = .ok (s1, p) → s1 = 3) ∧
      net.init [] 3 = («repeat» triple pathSplit (fun k => k.2) (dense 3) 2).init [] 3 := by
  refine ⟨rfl, _, rfl, rfl, ?_, rfl⟩
  intro r s1 p h
  simp only [dense, Except.ok.injEq, Prod.mk.injEq] at h
  exact h.1.symm

example : ∀ k k1, (dense 3).kernel k = .ok k1 →
    ∃ k2, (dense 3).kernel k1 = .ok k2 ∧ k2.2 = k1.2 := by
  intro k k1 h
  simp only [dense, decorate, setShapes, propagate, triple, Except.ok.injEq] at h
  subst h
  exact ⟨_, rfl, rfl⟩

/-- A layer that flips a mark of the kernel at each application, as `Conv` does with `is_reversed`. -/
def flip : Layer (List Bool) ℕ (List Bool) ℕ (ℕ × ℕ × ℕ) where
  init _ s := .ok (s, .node [])
  apply _ x _ := .ok x
  outShape s := .ok s
  kernel := decorate triple (fun s => .ok s) fun k => .ok ((k.1 + 1) % 2, k.2)

/-- Such a layer cannot be repeated, not even once: the loop of `n - 1 = 0` rounds is still checked. -/
theorem flip_once_raises :
    («repeat» triple pathSplit (fun k => k.1) flip 1).kernel (0, 3, 3) = .error .typeError ∧
    ∃ net, serial triple pathSplit pathSplitN (List.replicate 1 flip) = .ok net ∧
      net.kernel (0, 3, 3) = .ok (1, 3, 3) := ⟨rfl, _, rfl, rfl⟩

/-- With a key, all repetitions get the same key, whereas `serial` gives a new one to each layer. -/
theorem same_key_every_time :
    («repeat» triple pathSplit (fun k => k.2) (dense 3) 2).apply (.node [.leaf [], .leaf []]) 0 (some [true])
      = .ok 11 ∧
    ∃ net, serial triple pathSplit pathSplitN (List.replicate 2 (dense 3)) = .ok net ∧
      net.apply (.node [.leaf [], .leaf []]) 0 (some [true]) = .ok 12 := ⟨rfl, _, rfl, rfl⟩

end NT.C34
