import Verif.Lemmas.Arr
import Verif.Model.Batching
import Verif.Spec.Pairwise

/-! Auxiliary lemmas on batching. -/

namespace NT.Batching
open NT Arr Spec

variable {α β γ C X Y : Type}

theorem Entries2.eqv {a b : Arr γ} {n1 n2 : Nat} {T : List Nat} {g : Nat → Nat → List Nat → γ}
    (ha : Entries2 a n1 n2 T g) (hb : Entries2 b n1 n2 T g) : a ≋ b := by
  refine ⟨ha.1.trans hb.1.symm, ?_⟩
  intro i hi
  rw [ha.1] at hi
  obtain ⟨i1, i, rfl, h1, hi⟩ := inRange_cons_right.1 hi
  obtain ⟨i2, t, rfl, h2, ht⟩ := inRange_cons_right.1 hi
  rw [ha.2 _ _ _ h1 h2 ht, hb.2 _ _ _ h1 h2 ht]

theorem Entries1.eqv {a b : Arr γ} {n : Nat} {T : List Nat} {g : Nat → List Nat → γ}
    (ha : Entries1 a n T g) (hb : Entries1 b n T g) : a ≋ b := by
  refine ⟨ha.1.trans hb.1.symm, ?_⟩
  intro i hi
  rw [ha.1] at hi
  obtain ⟨i1, t, rfl, h1, ht⟩ := inRange_cons_right.1 hi
  rw [ha.2 _ _ h1 ht, hb.2 _ _ h1 ht]

/-! ### scan -/

theorem scanLoop_const {f : C → X → Except Err Y} {c : C} {xs : List X} {g : X → Y}
    (h : ∀ x ∈ xs, f c x = .ok (g x)) :
    scanLoop (fun c x => (f c x).map fun k => (c, k)) c xs = .ok (c, xs.map g) := by
  induction xs with
  | nil => rfl
  | cons x xs ih =>
    have e : (f c x).map (fun k => (c, k)) = .ok (c, g x) := by rw [h x (by simp)]; rfl
    simp only [scanLoop, e, ih (fun y hy => h y (by simp [hy])), List.map_cons]

theorem scanLoop_append (f : C → X → Except Err (C × Y)) (c : C) (xs ys : List X) :
    scanLoop f c (xs ++ ys) =
      match scanLoop f c xs with
      | .error e => .error e
      | .ok (c', us) =>
        match scanLoop f c' ys with
        | .error e => .error e
        | .ok (c'', vs) => .ok (c'', us ++ vs) := by
  induction xs generalizing c with
  | nil =>
    simp only [List.nil_append, scanLoop]
    cases scanLoop f c ys <;> rfl
  | cons x xs ih =>
    simp only [List.cons_append, scanLoop]
    cases f c x with
    | error e => rfl
    | ok p =>
      obtain ⟨c', y⟩ := p
      simp only [ih c']
      cases scanLoop f c' xs with
      | error e => rfl
      | ok p =>
        obtain ⟨c'', us⟩ := p
        simp only
        cases scanLoop f c'' ys <;> rfl

theorem scan_const {K : Type} [BatchOut K] {f : C → X → Except Err K} {c : C} {xs : List X}
    {g : X → K} {z : K} (h : ∀ x ∈ xs, f c x = .ok (g x)) (hz : BatchOut.stack (xs.map g) = .ok z) :
    scan (fun c x => (f c x).map fun k => (c, k)) c xs = .ok (c, z) := by
  unfold scan
  rw [scanLoop_const h]
  simp only [hz]

/-! ### stack -/

theorem stackE_range (n : Nat) (hn : 0 < n) (s : List Nat) (A : Nat → Arr α)
    (hA : ∀ t, t < n → (A t).shape = s) :
    ∃ z, stackE ((List.range n).map A) = .ok z ∧ z.shape = n :: s ∧
      ∀ t i, t < n → z.get (t :: i) = (A t).get i := by
  obtain ⟨m, rfl⟩ : ∃ m, n = m + 1 := ⟨n - 1, by omega⟩
  rw [List.range_succ_eq_map, List.map_cons]
  unfold stackE
  simp only
  rw [if_pos]
  · refine ⟨_, rfl, ?_, ?_⟩
    · simp [hA 0 (by omega)]
    · intro t i ht
      have e : ((A 0 :: (List.map A ((List.range m).map Nat.succ))).getD t (A 0)) = A t := by
        rw [← List.map_cons, ← List.range_succ_eq_map]
        simp [List.getD, ht]
      show ((A 0 :: _).getD t (A 0)).get i = _
      rw [e]
  · intro b hb
    simp only [List.map_map, List.mem_map, List.mem_range] at hb
    obtain ⟨k, hk, rfl⟩ := hb
    simp [hA 0 (by omega), hA (k + 1) (by omega)]

/-- Stack of blocks all described by entries. -/
theorem stackE_entries {n : Nat} (hn : 0 < n) {s : List Nat} {A : Nat → Arr α}
    (hA : ∀ t, t < n → (A t).shape = s) : ∃ z, stackE ((List.range n).map A) = .ok z ∧
      z.shape = n :: s ∧ ∀ t i, t < n → z.get (t :: i) = (A t).get i := stackE_range n hn s A hA

theorem stackOpt_some (n : Nat) (hn : 0 < n) (s : List Nat) (A : Nat → Arr α)
    (hA : ∀ t, t < n → (A t).shape = s) :
    ∃ z, stackOpt ((List.range n).map fun t => some (A t)) = .ok (some z) ∧ z.shape = n :: s ∧
      ∀ t i, t < n → z.get (t :: i) = (A t).get i := by
  obtain ⟨z, h1, h2, h3⟩ := stackE_range n hn s A hA
  refine ⟨z, ?_, h2, h3⟩
  obtain ⟨m, rfl⟩ : ∃ m, n = m + 1 := ⟨n - 1, by omega⟩
  rw [List.range_succ_eq_map, List.map_cons] at h1 ⊢
  unfold stackOpt
  simp only
  rw [if_pos]
  · have : ((List.range m).map Nat.succ |>.map fun t => some (A t)).filterMap id
        = ((List.range m).map Nat.succ).map A := by
      rw [List.filterMap_map]
      simp [Function.comp_def]
    rw [this, h1]
  · intro o ho
    simp only [List.map_map, List.mem_map] at ho
    obtain ⟨k, _, rfl⟩ := ho
    rfl

theorem stackOpt_none (n : Nat) (hn : 0 < n) :
    stackOpt ((List.range n).map fun _ => (none : Option (Arr α))) = .ok none := by
  obtain ⟨m, rfl⟩ : ∃ m, n = m + 1 := ⟨n - 1, by omega⟩
  rw [List.range_succ_eq_map, List.map_cons]
  unfold stackOpt
  simp only
  rw [if_pos]
  intro o ho
  simp only [List.map_map, List.mem_map] at ho
  obtain ⟨k, _, rfl⟩ := ho
  rfl

/-! ### flatten -/

theorem reshape_merge2 (k : Arr α) (a b : Nat) (T : List Nat) (hk : k.shape = a :: b :: T)
    (i j : Nat) (t : List Nat) (hi : i < a) (hj : j < b) (ht : InRange t T) :
    (k.reshape ((a * b) :: T)).get ((i * b + j) :: t) = k.get (i :: j :: t) := by
  apply reshape_get
  · rw [hk]; simp [hi, hj, ht]
  · rw [hk]; simp only [ravel, List.prod_cons]; ring

theorem split_index {n b i : Nat} (h : i < n * b) : i / b < n ∧ i % b < b ∧ i / b * b + i % b = i := by
  have hb : 0 < b := by
    rcases Nat.eq_zero_or_pos b with h0 | h0
    · simp [h0] at h
    · exact h0
  exact ⟨Nat.div_lt_of_lt_mul (by rwa [Nat.mul_comm]), Nat.mod_lt _ hb, Nat.div_add_mod' i b⟩

/-- `_flatten_batch_dimensions` on a full (serial) tile grid. -/
theorem flatten_serial (k : Arr α) (n1 n2 b1 b2 : Nat) (T : List Nat)
    (hk : k.shape = n1 :: n2 :: b1 :: b2 :: T) (g : Nat → Nat → List Nat → α)
    (hg : ∀ p q i j t, p < n1 → q < n2 → i < b1 → j < b2 → InRange t T →
      k.get (p :: q :: i :: j :: t) = g (p * b1 + i) (q * b2 + j) t) :
    Entries2 (flattenBatchDims k false) (n1 * b1) (n2 * b2) T g := by
  have hn : k.ndim = 4 + T.length := by simp [ndim, hk]; omega
  have hp : ([0, 2, 1, 3] ++ List.range' 4 (k.ndim - 4)).Perm (List.range k.ndim) := by
    rw [hn]
    have e : List.range (4 + T.length) = [0, 1, 2, 3] ++ List.range' 4 T.length := by
      rw [List.range_eq_range']
      have := @List.range'_append 0 4 T.length 1
      simpa [List.range'] using this.symm
    rw [e]
    have : 4 + T.length - 4 = T.length := by omega
    rw [this]
    exact List.Perm.append_right _ (by decide)
  have hgather : ∀ (p q i j : Nat) (t : List Nat), t.length = T.length →
      gather ([0, 2, 1, 3] ++ List.range' 4 (k.ndim - 4)) (p :: q :: i :: j :: t)
        = p :: i :: q :: j :: t := by
    intro p q i j t ht
    rw [gather_append, hn]
    have : 4 + T.length - 4 = t.length := by omega
    rw [this]
    have e : gather (List.range' 4 t.length) (p :: q :: i :: j :: t) = t := by
      apply ext_getD
      · simp
      · intro u hu
        simp at hu
        rw [gather_getD _ _ _ (by simpa using hu)]
        simp [List.getD, Nat.add_comm 4 u]
    rw [e]
    simp [gather, List.getD]
  have hs : (k.transpose ([0, 2, 1, 3] ++ List.range' 4 (k.ndim - 4))).shape
      = n1 :: b1 :: n2 :: b2 :: T := by
    show gather _ _ = _
    rw [hk]; exact hgather _ _ _ _ _ rfl
  unfold flattenBatchDims
  simp only [Bool.false_eq_true, if_false]
  generalize hz : k.transpose ([0, 2, 1, 3] ++ List.range' 4 (k.ndim - 4)) = z at hs
  rw [hs]
  simp only [List.getD_cons_zero, List.getD_cons_succ, List.drop_succ_cons, List.drop_zero]
  refine ⟨rfl, ?_⟩
  intro i j t hi hj ht
  obtain ⟨h1, h2, h3⟩ := split_index hi
  obtain ⟨k1, k2, k3⟩ := split_index hj
  rw [← h3, ← k3, ← hg (i / b1) (j / b2) (i % b1) (j % b2) t h1 k1 h2 k2 ht]
  rw [reshape_get z _ (j := i / b1 :: i % b1 :: j / b2 :: j % b2 :: t)]
  · rw [← hgather _ _ _ _ _ ht.length, ← hz]
    exact transpose_get k hp (by simp [hn, ht.length]; omega)
  · rw [hs]; simp [h1, h2, k1, k2, ht]
  · rw [hs]
    simp only [ravel, List.prod_cons]
    ring

theorem flatten_serial_cov1 (k : Arr α) (n1 n2 b : Nat) (hn2 : 0 < n2) (T : List Nat)
    (hk : k.shape = n1 :: n2 :: b :: T) (g : Nat → List Nat → α)
    (hg : ∀ p q i t, p < n1 → q < n2 → i < b → InRange t T →
      k.get (p :: q :: i :: t) = g (p * b + i) t) :
    Entries1 (flattenBatchDims k false (some 1)) (n1 * b) T g := by
  unfold flattenBatchDims
  simp only [Bool.not_false, if_true]
  have hs : (k.take 0 1).shape = n1 :: b :: T := by simp [take, hk]
  rw [hs]
  refine ⟨rfl, ?_⟩
  intro i t hi ht
  obtain ⟨h1, h2, h3⟩ := split_index hi
  simp only [List.getD_cons_zero, List.getD_cons_succ, List.drop_succ_cons, List.drop_zero]
  conv_lhs => rw [← h3]
  rw [reshape_merge2 _ n1 b T hs _ _ _ h1 h2 ht]
  conv_rhs => rw [← h3]
  rw [← hg _ 0 _ t h1 hn2 h2 ht]
  simp [take]

theorem flatten_serial_cov2 (k : Arr α) (n1 n2 b : Nat) (hn1 : 0 < n1) (T : List Nat)
    (hk : k.shape = n1 :: n2 :: b :: T) (g : Nat → List Nat → α)
    (hg : ∀ p q i t, p < n1 → q < n2 → i < b → InRange t T →
      k.get (p :: q :: i :: t) = g (q * b + i) t) :
    Entries1 (flattenBatchDims k false (some 0)) (n2 * b) T g := by
  unfold flattenBatchDims
  simp only [Bool.not_false, if_true]
  have hs : (k.take 0 0).shape = n2 :: b :: T := by simp [take, hk]
  rw [hs]
  refine ⟨rfl, ?_⟩
  intro i t hi ht
  obtain ⟨h1, h2, h3⟩ := split_index hi
  simp only [List.getD_cons_zero, List.getD_cons_succ, List.drop_succ_cons, List.drop_zero]
  conv_lhs => rw [← h3]
  rw [reshape_merge2 _ n2 b T hs _ _ _ h1 h2 ht]
  conv_rhs => rw [← h3]
  rw [← hg 0 _ _ t hn1 h1 h2 ht]
  simp [take]

theorem flatten_parallel (k : Arr α) (d b n2 : Nat) (T : List Nat)
    (hk : k.shape = d :: b :: n2 :: T) (g : Nat → Nat → List Nat → α)
    (hg : ∀ p i j t, p < d → i < b → j < n2 → InRange t T →
      k.get (p :: i :: j :: t) = g (p * b + i) j t) :
    Entries2 (flattenBatchDims k true) (d * b) n2 T g := by
  unfold flattenBatchDims
  simp only [if_true, hk, List.getD_cons_zero, List.getD_cons_succ, List.drop_succ_cons,
    List.drop_zero]
  refine ⟨rfl, ?_⟩
  intro i j t hi hj ht
  obtain ⟨h1, h2, h3⟩ := split_index hi
  conv_lhs => rw [← h3]
  rw [reshape_merge2 _ d b (n2 :: T) hk _ _ _ h1 h2 (by simp [hj, ht]), hg _ _ _ _ h1 h2 hj ht, h3]

theorem flatten_parallel_cov1 (k : Arr α) (d b : Nat) (T : List Nat)
    (hk : k.shape = d :: b :: T) (g : Nat → List Nat → α)
    (hg : ∀ p i t, p < d → i < b → InRange t T → k.get (p :: i :: t) = g (p * b + i) t) :
    Entries1 (flattenBatchDims k true (some 1)) (d * b) T g := by
  unfold flattenBatchDims
  simp only [Bool.not_true, Bool.false_eq_true, if_false, if_true, hk, List.getD_cons_zero,
    List.getD_cons_succ, List.drop_succ_cons, List.drop_zero]
  refine ⟨rfl, ?_⟩
  intro i t hi ht
  obtain ⟨h1, h2, h3⟩ := split_index hi
  conv_lhs => rw [← h3]
  rw [reshape_merge2 _ d b T hk _ _ _ h1 h2 ht, hg _ _ _ h1 h2 ht, h3]

theorem flatten_parallel_cov2 (k : Arr α) (d n2 : Nat) (hd : 0 < d) (T : List Nat)
    (hk : k.shape = d :: n2 :: T) (g : Nat → List Nat → α)
    (hg : ∀ p j t, p < d → j < n2 → InRange t T → k.get (p :: j :: t) = g j t) :
    Entries1 (flattenBatchDims k true (some 0)) n2 T g := by
  unfold flattenBatchDims
  simp only [Bool.not_true, Bool.false_eq_true, if_false, Nat.zero_ne_one]
  refine ⟨by simp [lead, hk], ?_⟩
  intro i t hi ht
  exact hg 0 i t hd hi ht

/-! ### rows of reshaped inputs -/

theorem lead_reshape_eqv (x : Arr α) (n b : Nat) (s : List Nat) (hx : x.shape = (n * b) :: s)
    (p i : Nat) (hp : p < n) (hi : i < b) :
    ((x.reshape (n :: b :: s)).lead p).lead i ≋ x.lead (p * b + i) := by
  refine ⟨by simp [lead, reshape, hx], ?_⟩
  intro t ht
  simp [lead, reshape] at ht
  show (x.reshape (n :: b :: s)).get (p :: i :: t) = x.get ((p * b + i) :: t)
  apply reshape_get
  · rw [hx]
    simp only [inRange_cons]
    refine ⟨?_, ht⟩
    calc p * b + i < p * b + b := by omega
      _ = (p + 1) * b := by ring
      _ ≤ n * b := Nat.mul_le_mul_right _ hp
  · rw [hx]; simp only [ravel, List.prod_cons]; ring

theorem reshapeE_ok (x : Arr α) (n b : Nat) (s : List Nat) (hx : x.shape = (n * b) :: s) :
    x.reshapeE (n :: b :: s) = .ok (x.reshape (n :: b :: s)) := by
  unfold reshapeE
  rw [if_pos]
  rw [hx]; simp [Nat.mul_assoc]

theorem rows_reshape (x : Arr α) (n b : Nat) (s : List Nat) :
    rows (x.reshape (n :: b :: s)) = (List.range n).map fun p => (x.reshape (n :: b :: s)).lead p := by
  simp [rows, reshape]

/-! ### batch sizes -/

theorem nBatches_eq (n1 n2 bs d : Nat) (hd : 0 < d) :
    nBatches n1 n2 bs d =
      let b := min bs (Nat.gcd n1 n2 / d)
      if b = 0 then .ok (0, 0, 0, 0)
      else if b * d ∣ n1 ∧ b ∣ n2 then .ok (n1 / (b * d), b * d, n2 / b, b)
      else .error .valueError := by
  simp only [nBatches, divmodNp]
  generalize min bs (Nat.gcd n1 n2 / d) = b
  by_cases hb : b = 0
  · simp [hb]
  · have hbd : b * d ≠ 0 := Nat.mul_ne_zero hb (by omega)
    simp only [hb, hbd, if_false, Nat.dvd_iff_mod_eq_zero]
    by_cases h1 : n1 % (b * d) = 0 <;> by_cases h2 : n2 % b = 0 <;> simp [h1, h2]

theorem nBatches_ok {n1 n2 bs d : Nat} (hd : 0 < d) {n1b n1bs n2b n2bs : Nat}
    (h : nBatches n1 n2 bs d = .ok (n1b, n1bs, n2b, n2bs)) (hpos : 0 < n2bs) :
    n1 = n1b * n1bs ∧ n2 = n2b * n2bs ∧ n1bs = n2bs * d ∧ n2bs = min bs (Nat.gcd n1 n2 / d) := by
  rw [nBatches_eq _ _ _ _ hd] at h
  simp only at h
  split at h
  · simp only [Except.ok.injEq, Prod.mk.injEq] at h; omega
  · split at h
    · rename_i h1
      simp only [Except.ok.injEq, Prod.mk.injEq] at h
      obtain ⟨e1, e2, e3, e4⟩ := h
      refine ⟨?_, ?_, ?_, e4.symm⟩
      · rw [← e1, ← e2]; exact (Nat.div_mul_cancel h1.1).symm
      · rw [← e3, ← e4]; exact (Nat.div_mul_cancel h1.2).symm
      · rw [← e2, ← e4]
    · simp at h

end NT.Batching
