import Verif.Lemmas.Batching2

/-! Serial and parallel batching of pairwise kernel functions. -/

namespace NT.Batching
open NT Arr Spec

variable {α β γ : Type}

theorem lead_shape (x : Arr β) (n b : Nat) (s : List Nat) (p : Nat) :
    ((x.reshape (n :: b :: s)).lead p).shape = b :: s := rfl

/-- Serial batching when the batch sizes are fine, array output. -/
theorem serial_array_entries (P : PairFn β γ) (f : Arr β → Arr β → Except Err (Arr γ))
    (s : List Nat) {bs d n1b n1bs n2b n2bs : Nat} (h1 : 0 < n1b) (h2 : 0 < n2b)
    (hf : P.ImplementedBy f s n1bs n2bs) {x1 : Arr β} {x2? : Option (Arr β)}
    (hx1 : x1.shape = (n1b * n1bs) :: s) (hx2 : (x2?.getD x1).shape = (n2b * n2bs) :: s)
    (hb : nBatches (n1b * n1bs) (n2b * n2bs) bs d = .ok (n1b, n1bs, n2b, n2bs)) :
    ∃ z, serialX1 f bs d x1 x2? = .ok z ∧
      Entries2 z (n1b * n1bs) (n2b * n2bs) P.T
        fun i j => P.G (x1.lead i) ((x2?.getD x1).lead j) := by
  have hZ := fun p q => hf ((x1.reshape (n1b :: n1bs :: s)).lead p)
    (((x2?.getD x1).reshape (n2b :: n2bs :: s)).lead q) rfl rfl
  choose Z hZ hZe using hZ
  obtain ⟨R, z, r1, r2, r3, r4⟩ := stackE_grid n1b n2b h1 h2 (n1bs :: n2bs :: P.T) Z
    (fun p q _ _ => (hZe p q).1)
  refine ⟨_, serialX1_eq f hx1 hx2 hb Z R z (fun p q _ _ => hZ p q) r1 r2, ?_⟩
  refine flatten_serial z n1b n2b n1bs n2bs P.T r3 _ ?_
  intro p q i j t hp hq hi hj ht
  rw [r4 p q _ hp hq, (hZe p q).2 i j t hi hj ht]
  exact congrFun (P.congr _ _ _ _ (lead_reshape_eqv x1 n1b n1bs s hx1 p i hp hi)
    (lead_reshape_eqv (x2?.getD x1) n2b n2bs s hx2 q j hq hj)) t

theorem describes_skel {D : KDesc γ} {m1 m2 : Nat} {w : Bool} {k : Kernel γ}
    (h : D.Describes m1 m2 w k) (hx : k.x1IsX2.shape = []) :
    skel k = ⟨m1 :: m2 :: D.T, D.ntk.map fun _ => m1 :: m2 :: D.T, m1 :: D.Tc,
      if w then some (m2 :: D.Tc) else none, [], D.mask1.map fun _ => m1 :: D.Tm, none,
      ⟨D.isGaussian, D.isReversed, D.isInput, true, D.diagonalSpatial,
        D.pre ++ [m1] ++ D.post, D.pre ++ [m2] ++ D.post, D.pre.length, D.channelAxis⟩⟩ := by
  have e2 := (optEntries2_iff.1 h.ntk).1
  have e3 := (optEntries1_iff.1 h.cov2).1
  have e4 := (optEntries1_iff.1 h.mask1).1
  simp only [skel, h.nngp.1, e2, h.cov1.1, e3, hx, e4, h.mask2, h.static]
  cases w <;> rfl

theorem scaleAxis_append (pre post : List Nat) (m b : Nat) :
    scaleAxis (pre ++ [m] ++ post) pre.length b = pre ++ [m * b] ++ post := by
  simp [scaleAxis, List.getD]

/-- Flattening a serial tile grid of kernels. -/
theorem flattenKernel_serial (D : KDesc γ) {n1b n1bs n2b n2bs : Nat} (h1 : 0 < n1b) (h2 : 0 < n2b)
    (z : Kernel γ) (S : Skel) (hS : S = ⟨n1bs :: n2bs :: D.T, D.ntk.map fun _ => n1bs :: n2bs :: D.T,
      n1bs :: D.Tc, some (n2bs :: D.Tc), [], D.mask1.map fun _ => n1bs :: D.Tm, none,
      ⟨D.isGaussian, D.isReversed, D.isInput, true, D.diagonalSpatial,
        D.pre ++ [n1bs] ++ D.post, D.pre ++ [n2bs] ++ D.post, D.pre.length, D.channelAxis⟩⟩)
    (hz : skel z = (S.cons n2b).cons n1b) (Z : Nat → Nat → Kernel γ)
    (hsame : ∀ p q i, p < n1b → q < n2b → SameAt z (Z p q) (p :: q :: i) i)
    (hN : ∀ p q i j t, p < n1b → q < n2b → i < n1bs → j < n2bs → InRange t D.T →
      (Z p q).nngp.get (i :: j :: t) = D.nngp (p * n1bs + i) (q * n2bs + j) t)
    (hT : ∀ p q i j t, p < n1b → q < n2b → i < n1bs → j < n2bs → InRange t D.T →
      (Z p q).ntk.map (·.get (i :: j :: t)) =
        D.ntk.map fun g => g (p * n1bs + i) (q * n2bs + j) t)
    (hC1 : ∀ p q i t, p < n1b → q < n2b → i < n1bs → InRange t D.Tc →
      (Z p q).cov1.get (i :: t) = D.cov1 (p * n1bs + i) t)
    (hC2 : ∀ p q i t, p < n1b → q < n2b → i < n2bs → InRange t D.Tc →
      (Z p q).cov2.map (·.get (i :: t)) = some (D.cov2 (q * n2bs + i) t))
    (hM : ∀ p q i t, p < n1b → q < n2b → i < n1bs → InRange t D.Tm →
      (Z p q).mask1.map (·.get (i :: t)) = D.mask1.map fun g => g (p * n1bs + i) t)
    (x2None : Bool) :
    ∃ k, flattenKernel z x2None false = .ok k ∧
      D.Describes (n1b * n1bs) (n2b * n2bs) (!x2None) k ∧ k.x1IsX2.shape = [] := by
  subst hS
  simp only [skel, Skel.cons, Skel.mk.injEq, Option.map_none, Option.map_some, Option.map_map,
    Function.comp_def, Option.map_eq_none_iff] at hz
  obtain ⟨e1, e2, e3, e4, e5, e6, e7, e8⟩ := hz
  simp only [Kernel.static, Kernel.Static.mk.injEq] at e8
  obtain ⟨s1, s2, s3, s4, s5, s6, s7, s8, s9⟩ := e8
  unfold flattenKernel
  simp only [s4, Bool.not_true, Bool.false_eq_true, if_false, e7, e1, List.getD_cons_zero,
    List.getD_cons_succ]
  refine ⟨_, rfl, ⟨?_, ?_, ?_, ?_, ?_, rfl, ?_⟩, rfl⟩
  · refine flatten_serial _ n1b n2b n1bs n2bs _ e1 _ ?_
    intro p q i j t hp hq hi hj ht
    rw [(hsame p q _ hp hq).nngp, hN p q i j t hp hq hi hj ht]
  · cases hk : z.ntk with
    | none =>
      rw [hk] at e2
      cases hg : D.ntk with
      | none => simp [OptEntries2]
      | some g => simp [hg] at e2
    | some a =>
      rw [hk] at e2
      cases hg : D.ntk with
      | none => simp [hg] at e2
      | some g =>
        simp only [hg, Option.map_some, Option.some.injEq] at e2
        simp only [Option.map_some, OptEntries2]
        refine flatten_serial a n1b n2b n1bs n2bs _ e2 _ ?_
        intro p q i j t hp hq hi hj ht
        have u := (hsame p q (i :: j :: t) hp hq).ntk
        rw [hT p q i j t hp hq hi hj ht, hk, hg] at u
        simpa using u
  · refine flatten_serial_cov1 _ n1b n2b n1bs h2 _ e3 _ ?_
    intro p q i t hp hq hi ht
    rw [(hsame p q _ hp hq).cov1, hC1 p q i t hp hq hi ht]
  · cases x2None with
    | true => simp [OptEntries1]
    | false =>
      obtain ⟨a, ha, hs⟩ := Option.map_eq_some_iff.1 e4
      simp only [ha, Option.map_some, Bool.not_false, if_true, OptEntries1, Bool.false_eq_true,
        if_false]
      refine flatten_serial_cov2 a n1b n2b n2bs h1 _ hs _ ?_
      intro p q i t hp hq hi ht
      have u := (hsame p q (i :: t) hp hq).cov2
      rw [hC2 p q i t hp hq hi ht, ha] at u
      simpa using u
  · cases hk : z.mask1 with
    | none =>
      rw [hk] at e6
      cases hg : D.mask1 with
      | none => simp [OptEntries1]
      | some g => simp [hg] at e6
    | some a =>
      rw [hk] at e6
      cases hg : D.mask1 with
      | none => simp [hg] at e6
      | some g =>
        simp only [hg, Option.map_some, Option.some.injEq] at e6
        simp only [Option.map_some, OptEntries1]
        refine flatten_serial_cov1 a n1b n2b n1bs h2 _ e6 _ ?_
        intro p q i t hp hq hi ht
        have u := (hsame p q (i :: t) hp hq).mask1
        rw [hM p q i t hp hq hi ht, hk, hg] at u
        simpa using u
  · simp only [Kernel.static, s1, s2, s3, s5, s6, s7, s8, s9, scaleAxis_append, Nat.mul_comm]

/-- Serial batching when the batch sizes are fine, `Kernel` output. -/
theorem serial_kernel_describes (P : PairKernelFn β γ) (f : Arr β → Arr β → Except Err (Kernel γ))
    (s : List Nat) {bs d n1b n1bs n2b n2bs : Nat} (h1 : 0 < n1b) (h2 : 0 < n2b)
    (hf : P.ImplementedBy f s n1bs n2bs) {x1 : Arr β} {x2? : Option (Arr β)}
    (hx1 : x1.shape = (n1b * n1bs) :: s) (hx2 : (x2?.getD x1).shape = (n2b * n2bs) :: s)
    (hb : nBatches (n1b * n1bs) (n2b * n2bs) bs d = .ok (n1b, n1bs, n2b, n2bs)) :
    ∃ k, serialX1 f bs d x1 x2? = .ok k ∧
      (P.desc x1 (x2?.getD x1)).Describes (n1b * n1bs) (n2b * n2bs) x2?.isSome k ∧
      k.x1IsX2.shape = [] := by
  have hZ := fun p q => hf ((x1.reshape (n1b :: n1bs :: s)).lead p)
    (((x2?.getD x1).reshape (n2b :: n2bs :: s)).lead q) rfl rfl
  choose Z hZ hZe hZx using hZ
  have r1 : ∀ p i, p < n1b → i < n1bs →
      Arr.Eqv (((x1.reshape (n1b :: n1bs :: s)).lead p).lead i) (x1.lead (p * n1bs + i)) :=
    fun p i hp hi => lead_reshape_eqv x1 n1b n1bs s hx1 p i hp hi
  have r2 : ∀ q j, q < n2b → j < n2bs →
      Arr.Eqv ((((x2?.getD x1).reshape (n2b :: n2bs :: s)).lead q).lead j)
        ((x2?.getD x1).lead (q * n2bs + j)) :=
    fun q j hq hj => lead_reshape_eqv (x2?.getD x1) n2b n2bs s hx2 q j hq hj
  obtain ⟨R, z, g1, g2, g3, g4⟩ := stackKernels_grid n1b n2b h1 h2 _ Z
    (fun p q _ _ => by
      have := describes_skel (hZe p q) (hZx p q)
      simpa only [PairKernelFn.desc, Option.map_map, Function.comp_def, if_true] using this)
  have e := serialX1_eq f hx1 hx2 hb Z R z (fun p q _ _ => hZ p q) g1 g2
  have hw : x2?.isSome = !x2?.isNone := by cases x2? <;> rfl
  rw [e, hw]
  refine flattenKernel_serial (P.desc x1 (x2?.getD x1)) h1 h2 z _ ?_ g3 Z g4 ?_ ?_ ?_ ?_ ?_ _
  · simp only [PairKernelFn.desc, Option.map_map, Function.comp_def]
  · intro p q i j t hp hq hi hj ht
    rw [(hZe p q).nngp.2 i j t hi hj ht]
    exact congrFun (P.nngp_congr _ _ _ _ (r1 p i hp hi) (r2 q j hq hj)) t
  · intro p q i j t hp hq hi hj ht
    rw [(optEntries2_iff.1 (hZe p q).ntk).2 i j t hi hj ht]
    cases hg : P.ntk with
    | none => simp [PairKernelFn.desc, hg]
    | some g =>
      simp only [PairKernelFn.desc, hg, Option.map_some, Option.some.injEq]
      exact congrFun (P.ntk_congr g hg _ _ _ _ (r1 p i hp hi) (r2 q j hq hj)) t
  · intro p q i t hp hq hi ht
    rw [(hZe p q).cov1.2 i t hi ht]
    exact congrFun (P.cov1_congr _ _ (r1 p i hp hi)) t
  · intro p q i t hp hq hi ht
    rw [(optEntries1_iff.1 (hZe p q).cov2).2 i t hi ht]
    simp only [if_true, Option.map_some, Option.some.injEq]
    exact congrFun (P.cov2_congr _ _ (r2 q i hq hi)) t
  · intro p q i t hp hq hi ht
    rw [(optEntries1_iff.1 (hZe p q).mask1).2 i t hi ht]
    cases hg : P.mask1 with
    | none => simp [PairKernelFn.desc, hg]
    | some g =>
      simp only [PairKernelFn.desc, hg, Option.map_some, Option.some.injEq]
      exact congrFun (P.mask1_congr g hg _ _ (r1 p i hp hi)) t

/-! ### when the sizes are wrong -/

theorem reshapeE_eq {a : Arr α} {s : List Nat} {z : Arr α} (h : a.reshapeE s = .ok z) :
    z = a.reshape s := by
  unfold reshapeE at h
  split at h
  · exact (Except.ok.inj h).symm
  · exact absurd h (by simp)

theorem scan_nil {C X K : Type} [BatchOut K] (hK : ∀ z : K, BatchOut.stack ([] : List K) ≠ .ok z)
    (f : C → X → Except Err (C × K)) (c : C) (y : C × K) : scan f c [] ≠ .ok y := by
  unfold scan
  simp only [scanLoop]
  cases h : BatchOut.stack ([] : List K) with
  | error e => simp
  | ok z => exact absurd h (hK z)

/-- If serial batching returns a value, the batch counts and sizes are positive and tile the data. -/
theorem serialX1_ok_inv {K : Type} [BatchOut K]
    (hK : ∀ z : K, BatchOut.stack ([] : List K) ≠ .ok z)
    (f : Arr β → Arr β → Except Err K) {bs d n1 n2 : Nat} (hd : 0 < d) {s1 s2 : List Nat}
    {x1 : Arr β} {x2? : Option (Arr β)} (hx1 : x1.shape = n1 :: s1)
    (hx2 : (x2?.getD x1).shape = n2 :: s2) {z : K} (h : serialX1 f bs d x1 x2? = .ok z) :
    ∃ n1b n1bs n2b n2bs, nBatches n1 n2 bs d = .ok (n1b, n1bs, n2b, n2bs) ∧ 0 < n1b ∧ 0 < n2b ∧
      0 < n2bs ∧ 0 < n1bs ∧ n1 = n1b * n1bs ∧ n2 = n2b * n2bs := by
  unfold serialX1 at h
  simp only [hx1, hx2] at h
  cases hb : nBatches n1 n2 bs d with
  | error e => simp [hb, bind, Except.bind] at h
  | ok r =>
    obtain ⟨n1b, n1bs, n2b, n2bs⟩ := r
    simp only [hb, bind, Except.bind] at h
    cases h1 : x1.reshapeE (n1b :: n1bs :: s1) with
    | error e => simp [h1] at h
    | ok x1s =>
      cases h2 : (x2?.getD x1).reshapeE (n2b :: n2bs :: s2) with
      | error e => simp [h1, h2] at h
      | ok x2s =>
        simp only [h1, h2] at h
        rw [reshapeE_eq h1, reshapeE_eq h2, rows_reshape, rows_reshape] at h
        have p1 : 0 < n1b := by
          rcases Nat.eq_zero_or_pos n1b with h0 | h0
          · subst h0
            exfalso
            revert h
            split
            · simp
            · rename_i v hv
              exact absurd hv (scan_nil hK _ _ _)
          · exact h0
        have p2 : 0 < n2b := by
          rcases Nat.eq_zero_or_pos n2b with h0 | h0
          · subst h0
            exfalso
            revert h
            split
            · simp
            · rename_i v hv
              obtain ⟨m, rfl⟩ : ∃ m, n1b = m + 1 := ⟨n1b - 1, by omega⟩
              rw [List.range_succ_eq_map, List.map_cons] at hv
              unfold scan at hv
              simp only [scanLoop] at hv
              revert hv
              cases hs : scan (fun c y => (f c y).map fun k => (c, k))
                ((x1.reshape ((m + 1) :: n1bs :: s1)).lead 0)
                (List.map (fun p => ((x2?.getD x1).reshape (0 :: n2bs :: s2)).lead p)
                  (List.range 0)) with
              | error e =>
                unfold scan at hs
                simp only [List.range_zero, List.map_nil] at hs ⊢
                simp only [scanLoop] at hs ⊢
                simp [hs, Except.map]
              | ok y => exact absurd hs (scan_nil hK _ _ _)
          · exact h0
        have p3 : 0 < n2bs := by
          rw [nBatches_eq _ _ _ _ hd] at hb
          simp only at hb
          split at hb
          · simp only [Except.ok.injEq, Prod.mk.injEq] at hb; omega
          · split at hb
            · simp only [Except.ok.injEq, Prod.mk.injEq] at hb; omega
            · simp at hb
        obtain ⟨q1, q2, q3, q4⟩ := nBatches_ok hd hb p3
        exact ⟨n1b, n1bs, n2b, n2bs, rfl, p1, p2, p3, q3 ▸ Nat.mul_pos p3 hd, q1, q2⟩

/-! ### parallel -/

theorem nPerDevice_ok {n1 d b devs : Nat} (h : nPerDevice n1 d = .ok (b, devs)) :
    n1 = devs * b := by
  unfold nPerDevice at h
  split at h
  · simp at h
  · simp only at h
    split at h
    · simp at h
    · rename_i hd hr
      split at h
      · rename_i hq
        simp only [Except.ok.injEq, Prod.mk.injEq] at h
        obtain ⟨rfl, rfl⟩ := h
        rw [Nat.div_eq_zero_iff] at hq
        rw [Nat.mul_one, Nat.mod_eq_of_lt (by omega)]
      · rename_i hq
        simp only [Except.ok.injEq, Prod.mk.injEq] at h
        obtain ⟨rfl, rfl⟩ := h
        have : n1 % d = 0 := by by_contra h0; exact hr ⟨hq, h0⟩
        exact (Nat.mul_div_cancel' (Nat.dvd_of_mod_eq_zero this)).symm

theorem parallelX1_eq {K : Type} [BatchOut K] (f : Arr β → Arr β → Except Err K)
    {d b devs : Nat} {x1 : Arr β} {x2? : Option (Arr β)} {s : List Nat}
    (hx1 : x1.shape = (devs * b) :: s) (hb : nPerDevice (devs * b) d = .ok (b, devs))
    (Z : Nat → K) (z : K)
    (hZ : ∀ p, p < devs → f ((x1.reshape (devs :: b :: s)).lead p) (x2?.getD x1) = .ok (Z p))
    (hz : BatchOut.stack ((List.range devs).map Z) = .ok z) :
    parallelX1 f d x1 x2? = BatchOut.flatten z x2?.isNone true := by
  unfold parallelX1
  simp only [hx1, hb, bind, Except.bind]
  simp only [reshapeE_ok _ _ _ _ hx1, pmap_eq f x1 (x2?.getD x1) devs b s Z z hZ hz]

theorem parallel_array_entries (P : PairFn β γ) (f : Arr β → Arr β → Except Err (Arr γ))
    (s : List Nat) {d b devs n2 : Nat} (hdev : 0 < devs)
    (hf : P.ImplementedBy f s b n2) {x1 : Arr β} {x2? : Option (Arr β)}
    (hx1 : x1.shape = (devs * b) :: s) (hx2 : (x2?.getD x1).shape = n2 :: s)
    (hb : nPerDevice (devs * b) d = .ok (b, devs)) :
    ∃ z, parallelX1 f d x1 x2? = .ok z ∧
      Entries2 z (devs * b) n2 P.T fun i j => P.G (x1.lead i) ((x2?.getD x1).lead j) := by
  have hZ := fun p => hf ((x1.reshape (devs :: b :: s)).lead p) (x2?.getD x1) rfl hx2
  choose Z hZ hZe using hZ
  obtain ⟨z, r2, r3, r4⟩ := stackE_range devs hdev (b :: n2 :: P.T) Z (fun p _ => (hZe p).1)
  refine ⟨_, parallelX1_eq f hx1 hb Z z (fun p _ => hZ p) r2, ?_⟩
  refine flatten_parallel z devs b n2 P.T r3 _ ?_
  intro p i j t hp hi hj ht
  rw [r4 p _ hp, (hZe p).2 i j t hi hj ht]
  exact congrFun (P.congr _ _ _ _ (lead_reshape_eqv x1 devs b s hx1 p i hp hi) (Eqv.refl _)) t

theorem parallel_kernel_describes (P : PairKernelFn β γ)
    (f : Arr β → Arr β → Except Err (Kernel γ))
    (s : List Nat) {d b devs n2 : Nat} (hdev : 0 < devs)
    (hf : P.ImplementedBy f s b n2) {x1 : Arr β} {x2? : Option (Arr β)}
    (hx1 : x1.shape = (devs * b) :: s) (hx2 : (x2?.getD x1).shape = n2 :: s)
    (hb : nPerDevice (devs * b) d = .ok (b, devs)) :
    ∃ k, parallelX1 f d x1 x2? = .ok k ∧
      (P.desc x1 (x2?.getD x1)).Describes (devs * b) n2 x2?.isSome k ∧ k.x1IsX2.shape = [] := by
  have hZ := fun p => hf ((x1.reshape (devs :: b :: s)).lead p) (x2?.getD x1) rfl hx2
  choose Z hZ hZe hZx using hZ
  have r1 : ∀ p i, p < devs → i < b →
      Arr.Eqv (((x1.reshape (devs :: b :: s)).lead p).lead i) (x1.lead (p * b + i)) :=
    fun p i hp hi => lead_reshape_eqv x1 devs b s hx1 p i hp hi
  obtain ⟨z, g2, g3, g4⟩ := stackKernels_range devs hdev _ Z
    (fun p _ => by
      have := describes_skel (hZe p) (hZx p)
      simpa only [PairKernelFn.desc, Option.map_map, Function.comp_def, if_true] using this)
  rw [parallelX1_eq f hx1 hb Z z (fun p _ => hZ p) g2]
  simp only [skel, Skel.cons, Skel.mk.injEq, Option.map_none, Option.map_some, Option.map_map,
    Function.comp_def, Option.map_eq_none_iff] at g3
  obtain ⟨e1, e2, e3, e4, e5, e6, e7, e8⟩ := g3
  simp only [Kernel.static, Kernel.Static.mk.injEq] at e8
  obtain ⟨s1, s2, s3, s4, s5, s6, s7, s8, s9⟩ := e8
  show ∃ k, flattenKernel z x2?.isNone true = .ok k ∧ _
  unfold flattenKernel
  simp only [s4, Bool.not_true, Bool.false_eq_true, if_false, e7, e1, List.getD_cons_zero]
  refine ⟨_, rfl, ⟨?_, ?_, ?_, ?_, ?_, rfl, ?_⟩, rfl⟩
  · refine flatten_parallel _ devs b n2 _ e1 _ ?_
    intro p i j t hp hi hj ht
    rw [(g4 p _ hp).nngp, (hZe p).nngp.2 i j t hi hj ht]
    exact congrFun (P.nngp_congr _ _ _ _ (r1 p i hp hi) (Eqv.refl _)) t
  · cases hg : P.ntk with
    | none =>
      rw [hg] at e2
      have : z.ntk = none := by simpa using e2
      simp [this, OptEntries2, PairKernelFn.desc, hg]
    | some g =>
      rw [hg] at e2
      obtain ⟨a, ha, hs⟩ := Option.map_eq_some_iff.1 e2
      simp only [ha, Option.map_some, OptEntries2, PairKernelFn.desc, hg]
      refine flatten_parallel a devs b n2 _ hs _ ?_
      intro p i j t hp hi hj ht
      have u := (g4 p (i :: j :: t) hp).ntk
      rw [(optEntries2_iff.1 (hZe p).ntk).2 i j t hi hj ht, ha] at u
      simp only [PairKernelFn.desc, hg, Option.map_some, Option.some.injEq] at u
      rw [u]
      exact congrFun (P.ntk_congr g hg _ _ _ _ (r1 p i hp hi) (Eqv.refl _)) t
  · refine flatten_parallel_cov1 _ devs b _ e3 _ ?_
    intro p i t hp hi ht
    rw [(g4 p _ hp).cov1, (hZe p).cov1.2 i t hi ht]
    exact congrFun (P.cov1_congr _ _ (r1 p i hp hi)) t
  · cases hx : x2? with
    | none => simp [OptEntries1]
    | some x2 =>
      obtain ⟨a, ha, hs⟩ := Option.map_eq_some_iff.1 e4
      simp only [ha, Option.map_some, Option.isNone_some, Option.isSome_some, if_true, OptEntries1,
        Bool.false_eq_true, if_false]
      refine flatten_parallel_cov2 a devs n2 hdev _ hs _ ?_
      intro p i t hp hi ht
      have u := (g4 p (i :: t) hp).cov2
      rw [(optEntries1_iff.1 (hZe p).cov2).2 i t hi ht, ha] at u
      simp only [if_true, Option.map_some, Option.some.injEq] at u
      rw [u]
      simp [PairKernelFn.desc, hx]
  · cases hg : P.mask1 with
    | none =>
      rw [hg] at e6
      have : z.mask1 = none := by simpa using e6
      simp [this, OptEntries1, PairKernelFn.desc, hg]
    | some g =>
      rw [hg] at e6
      obtain ⟨a, ha, hs⟩ := Option.map_eq_some_iff.1 e6
      simp only [ha, Option.map_some, OptEntries1, PairKernelFn.desc, hg]
      refine flatten_parallel_cov1 a devs b _ hs _ ?_
      intro p i t hp hi ht
      have u := (g4 p (i :: t) hp).mask1
      rw [(optEntries1_iff.1 (hZe p).mask1).2 i t hi ht, ha] at u
      simp only [PairKernelFn.desc, hg, Option.map_some, Option.some.injEq] at u
      rw [u]
      exact congrFun (P.mask1_congr g hg _ _ (r1 p i hp hi)) t
  · simp only [Kernel.static, s1, s2, s3, s5, s6, s7, s8, s9, scaleAxis_append, Nat.mul_comm,
      PairKernelFn.desc, if_true]

theorem stackE_nil_ne (z : Arr α) : BatchOut.stack ([] : List (Arr α)) ≠ .ok z := by
  simp [BatchOut.stack, stackE]

theorem stackKernels_nil_ne (z : Kernel α) : BatchOut.stack ([] : List (Kernel α)) ≠ .ok z := by
  simp [BatchOut.stack, stackKernels]

theorem parallelX1_ok_inv {K : Type} [BatchOut K]
    (hK : ∀ z : K, BatchOut.stack ([] : List K) ≠ .ok z)
    (f : Arr β → Arr β → Except Err K) {d n1 : Nat} {s1 : List Nat}
    {x1 : Arr β} {x2? : Option (Arr β)} (hx1 : x1.shape = n1 :: s1)
    {z : K} (h : parallelX1 f d x1 x2? = .ok z) :
    ∃ b devs, nPerDevice n1 d = .ok (b, devs) ∧ 0 < devs ∧ n1 = devs * b := by
  unfold parallelX1 at h
  simp only [hx1] at h
  cases hb : nPerDevice n1 d with
  | error e => simp [hb, bind, Except.bind] at h
  | ok r =>
    obtain ⟨b, devs⟩ := r
    refine ⟨b, devs, rfl, ?_, nPerDevice_ok hb⟩
    simp only [hb, bind, Except.bind] at h
    rcases Nat.eq_zero_or_pos devs with h0 | h0
    · exfalso
      subst h0
      cases h1 : x1.reshapeE (0 :: b :: s1) with
      | error e => simp [h1] at h
      | ok x1s =>
        simp only [h1] at h
        rw [reshapeE_eq h1] at h
        have : pmap f (x1.reshape (0 :: b :: s1)) (x2?.getD x1) = BatchOut.stack [] := by
          unfold pmap
          rw [rows_reshape]
          rfl
        rw [this] at h
        cases hs : BatchOut.stack ([] : List K) with
        | error e => simp [hs] at h
        | ok z => exact hK z hs
    · exact h0

end NT.Batching
