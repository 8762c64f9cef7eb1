import Mathlib.Tactic.Lemma
import Verif.Lemmas.Batching4
import Verif.Spec.EntryKernel

/-!
# C05: batched evaluation on a `Kernel` input is transparent
-/

namespace NT.C05
open NT Arr Spec Batching

variable {α β : Type}

lemma slice_input (E : EntryKernelFn α β) {m1 m2 : Nat} {k : Kernel α} (h : E.Input m1 m2 k)
    (lo1 len1 lo2 len2 : Nat) : E.Input len1 len2 (k.slice lo1 len1 lo2 len2) where
  nngp := by simp [Kernel.slice, Kernel.slice2, h.nngp]
  ntk := by
    intro n hn
    simp only [Kernel.slice, Option.map_eq_some_iff] at hn
    obtain ⟨a, ha, rfl⟩ := hn
    rcases h.ntk a ha with h0 | h0
    · left; simp [ndim, h0]
    · right; simp [ndim, h0, Kernel.slice2]
  cov1 := by simp [Kernel.slice, sliceLead, h.cov1]
  cov2 := by
    have := h.cov2
    cases hc : k.cov2 with
    | none => simp [hc] at this; simp [Kernel.slice, hc, sliceLead, this]
    | some c => simp [hc] at this; simp [Kernel.slice, hc, sliceLead, this]
  x1IsX2 := h.x1IsX2
  mask1 := by simp [Kernel.slice, h.mask1]
  mask2 := by simp [Kernel.slice, h.mask2]
  static := by
    have := h.static
    simp only [Kernel.static, Kernel.Static.mk.injEq] at this
    obtain ⟨s1, s2, s3, s4, s5, s6, s7, s8, s9⟩ := this
    cases hc : k.cov2 <;>
      simp [Kernel.slice, Kernel.static, s1, s2, s3, s4, s5, s6, s7, s8, s9, sliceLead, hc]

lemma ntkBlock_slice (k : Kernel α) (lo1 len1 lo2 len2 i j : Nat) :
    ntkBlock (k.slice lo1 len1 lo2 len2) i j = ntkBlock k (lo1 + i) (lo2 + j) := by
  unfold ntkBlock
  cases hk : k.ntk with
  | none => simp [Kernel.slice, hk]
  | some n =>
    simp only [Kernel.slice, hk, Option.map_some, Option.some.injEq]
    by_cases h0 : n.ndim = 0
    · simp [h0]
    · rw [if_neg h0, if_neg h0, if_neg (by simp [ndim, Kernel.slice2])]
      rfl

lemma cov2Row_slice (k : Kernel α) (lo1 len1 lo2 len2 j : Nat) :
    cov2Row (k.slice lo1 len1 lo2 len2) j = cov2Row k (lo2 + j) := by
  unfold cov2Row
  cases hc : k.cov2 <;> simp [Kernel.slice, hc] <;> rfl

lemma serialKernel_eq (kf : Kernel α → Except Err (Kernel β))
    {bs d n1b n1bs n2b n2bs : Nat} {k : Kernel α} {s : List Nat}
    (hk : k.nngp.shape = (n1b * n1bs) :: (n2b * n2bs) :: s)
    (hb : nBatches (n1b * n1bs) (n2b * n2bs) bs d = .ok (n1b, n1bs, n2b, n2bs))
    (Z : Nat → Nat → Kernel β) (R : Nat → Kernel β) (z : Kernel β)
    (hZ : ∀ p q, p < n1b → q < n2b → kf (k.slice (p * n1bs) n1bs (q * n2bs) n2bs) = .ok (Z p q))
    (hR : ∀ p, p < n1b → stackKernels ((List.range n2b).map (Z p)) = .ok (R p))
    (hz : stackKernels ((List.range n1b).map R) = .ok z) :
    serialKernel kf bs d k = flattenKernel z k.cov2.isNone false := by
  unfold serialKernel
  simp only [hk, hb, bind, Except.bind]
  have hcol : ∀ p, p < n1b → scan (fun a b => (kf (k.slice a n1bs b n2bs)).map fun r => (a, r))
      (p * n1bs) ((List.range n2b).map (· * n2bs)) = .ok (p * n1bs, R p) := by
    intro p hp
    have : ∀ l : List Nat, (∀ q ∈ l, q < n2b) →
        scanLoop (fun a b => (kf (k.slice a n1bs b n2bs)).map fun r => (a, r)) (p * n1bs)
          (l.map (· * n2bs)) = .ok (p * n1bs, l.map (Z p)) := by
      intro l hl
      induction l with
      | nil => rfl
      | cons q l ih =>
        have e := hZ p q hp (hl q (by simp))
        simp only [List.map_cons, scanLoop, e]
        have := ih fun q' hq' => hl q' (by simp [hq'])
        simp only [Except.map] at this ⊢
        rw [this]
    unfold scan
    rw [this _ fun q hq => by simpa using hq]
    have h := hR p hp
    simp only [BatchOut.stack, h]
  have hrow : ∀ l : List Nat, (∀ p ∈ l, p < n1b) →
      scanLoop (fun (u : Nat) a => (scan (fun a b => (kf (k.slice a n1bs b n2bs)).map fun r => (a, r))
        a ((List.range n2b).map (· * n2bs))).map fun p => (u, p.2)) 0
        (l.map (· * n1bs)) = .ok (0, l.map R) := by
    intro l hl
    induction l with
    | nil => rfl
    | cons p l ih =>
      have e := hcol p (hl p (by simp))
      have := ih fun q' hq' => hl q' (by simp [hq'])
      simp only [List.map_cons, scanLoop, e]
      simp only [Except.map] at this ⊢
      rw [this]
  have hscan : scan (fun (u : Nat) a => (scan (fun a b => (kf (k.slice a n1bs b n2bs)).map fun r => (a, r))
        a ((List.range n2b).map (· * n2bs))).map fun p => (u, p.2)) 0
        ((List.range n1b).map (· * n1bs)) = .ok (0, z) := by
    have h := hrow (List.range n1b) fun p hp => by simpa using hp
    unfold scan at h ⊢
    rw [h]
    simp only [BatchOut.stack, hz]
  rw [hscan]
  simp only
  cases hc : k.cov2 with
  | none => simp [flattenKernel]
  | some c => simp

/-- If batched evaluation on a kernel returns, the sizes tile the data. -/
lemma serialKernel_ok_inv (kf : Kernel α → Except Err (Kernel β)) {bs d n1 n2 : Nat} (hd : 0 < d)
    {k : Kernel α} {s : List Nat} (hk : k.nngp.shape = n1 :: n2 :: s) {r : Kernel β}
    (h : serialKernel kf bs d k = .ok r) :
    ∃ n1b n1bs n2b n2bs, nBatches n1 n2 bs d = .ok (n1b, n1bs, n2b, n2bs) ∧ 0 < n1b ∧ 0 < n2b ∧
      n1 = n1b * n1bs ∧ n2 = n2b * n2bs := by
  unfold serialKernel at h
  simp only [hk, bind, Except.bind] at h
  cases hb : nBatches n1 n2 bs d with
  | error e => simp [hb] at h
  | ok q =>
    obtain ⟨n1b, n1bs, n2b, n2bs⟩ := q
    simp only [hb] at h
    have p1 : 0 < n1b := by
      rcases Nat.eq_zero_or_pos n1b with h0 | h0
      · subst h0
        exfalso
        revert h
        split
        · simp
        · rename_i v hv
          exact absurd hv (scan_nil stackKernels_nil_ne _ _ _)
      · exact h0
    have p2 : 0 < n2b := by
      rcases Nat.eq_zero_or_pos n2b with h0 | h0
      · subst h0
        exfalso
        revert h
        split
        · simp
        · rename_i v hv
          obtain ⟨m, rfl⟩ : ∃ m, n1b = m + 1 := ⟨n1b - 1, by omega⟩
          rw [List.range_succ_eq_map, List.map_cons] at hv
          unfold scan at hv
          simp only [scanLoop] at hv
          revert hv
          simp [scanLoop, BatchOut.stack, stackKernels, Except.map]
      · exact h0
    have p3 : 0 < n2bs := by
      rw [nBatches_eq _ _ _ _ hd] at hb
      simp only at hb
      split at hb
      · simp only [Except.ok.injEq, Prod.mk.injEq] at hb; omega
      · split at hb
        · simp only [Except.ok.injEq, Prod.mk.injEq] at hb; omega
        · simp at hb
    obtain ⟨q1, q2, _, _⟩ := nBatches_ok hd hb p3
    exact ⟨n1b, n1bs, n2b, n2bs, rfl, p1, p2, q1, q2⟩

/-- Core statement: the batched result is the kernel denoted by the entry-wise function. -/
lemma serial_kernel_input_describes (E : EntryKernelFn α β) (kf : Kernel α → Except Err (Kernel β))
    (hE : E.ImplementedBy kf) {bs d n1b n1bs n2b n2bs : Nat} (h1 : 0 < n1b) (h2 : 0 < n2b)
    (hb : nBatches (n1b * n1bs) (n2b * n2bs) bs d = .ok (n1b, n1bs, n2b, n2bs))
    (k : Kernel α) (hk : E.Input (n1b * n1bs) (n2b * n2bs) k) :
    ∃ r, serialKernel kf bs d k = .ok r ∧
      (E.desc k).Describes (n1b * n1bs) (n2b * n2bs) k.cov2.isSome r := by
  have hZ := fun p q => hE n1bs n2bs _ (slice_input E hk (p * n1bs) n1bs (q * n2bs) n2bs)
  choose Z hZ hZe hZx using hZ
  have hs : ∀ p q, (k.slice (p * n1bs) n1bs (q * n2bs) n2bs).cov2.isSome = true := fun _ _ => rfl
  have hZe' : ∀ p q, (E.desc (k.slice (p * n1bs) n1bs (q * n2bs) n2bs)).Describes n1bs n2bs true
      (Z p q) := fun p q => by have := hZe p q; rwa [hs] at this
  obtain ⟨R, z, g1, g2, g3, g4⟩ := stackKernels_grid n1b n2b h1 h2 _ Z
    (fun p q _ _ => by
      have := describes_skel (hZe' p q) (hZx p q)
      simpa only [EntryKernelFn.desc, Option.map_map, Function.comp_def, if_true, Option.map_none]
        using this)
  have e := serialKernel_eq kf hk.nngp hb Z R z (fun p q _ _ => hZ p q) g1 g2
  have hw : k.cov2.isSome = !k.cov2.isNone := by cases k.cov2 <;> rfl
  rw [e, hw]
  have blk : ∀ p q i j, ((k.slice (p * n1bs) n1bs (q * n2bs) n2bs).nngp.lead i).lead j
      = (k.nngp.lead (p * n1bs + i)).lead (q * n2bs + j) := fun _ _ _ _ => rfl
  have row : ∀ p q i, (k.slice (p * n1bs) n1bs (q * n2bs) n2bs).cov1.lead i
      = k.cov1.lead (p * n1bs + i) := fun _ _ _ => rfl
  obtain ⟨r, r1, r2, _⟩ := flattenKernel_serial (E.desc k) (n1bs := n1bs) (n2bs := n2bs) h1 h2 z _
    (by simp only [EntryKernelFn.desc, Option.map_map, Function.comp_def, Option.map_none]) g3 Z g4
    (by
      intro p q i j t hp hq hi hj ht
      rw [(hZe' p q).nngp.2 i j t hi hj ht]
      simp only [EntryKernelFn.desc, ntkBlock_slice k, cov2Row_slice, blk, row])
    (by
      intro p q i j t hp hq hi hj ht
      rw [(optEntries2_iff.1 (hZe' p q).ntk).2 i j t hi hj ht]
      simp only [EntryKernelFn.desc, ntkBlock_slice k, cov2Row_slice, blk, row,
        Option.map_map, Function.comp_def])
    (by
      intro p q i t hp hq hi ht
      rw [(hZe' p q).cov1.2 i t hi ht]
      simp only [EntryKernelFn.desc, row])
    (by
      intro p q i t hp hq hi ht
      rw [(optEntries1_iff.1 (hZe' p q).cov2).2 i t hi ht]
      simp only [if_true, Option.map_some, EntryKernelFn.desc, cov2Row_slice])
    (by
      intro p q i t hp hq hi ht
      rw [(optEntries1_iff.1 (hZe' p q).mask1).2 i t hi ht]
      rfl)
    k.cov2.isNone
  exact ⟨r, r1, r2⟩

/-- Whenever batched evaluation of an entry-wise kernel function on a `Kernel` returns, its `nngp`,
`ntk`, `cov1`, `cov2` and static fields are those of the un-batched evaluation. -/
theorem serial_kernel_input_transparent (E : EntryKernelFn α β)
    (kf : Kernel α → Except Err (Kernel β)) (hE : E.ImplementedBy kf) (bs d n1 n2 : Nat)
    (hd : 0 < d) (k : Kernel α) (hk : E.Input n1 n2 k) (r : Kernel β)
    (h : serialKernel kf bs d k = .ok r) :
    ∃ r0, kf k = .ok r0 ∧ r.nngp ≋ r0.nngp ∧ OptEqv r.ntk r0.ntk ∧ r.cov1 ≋ r0.cov1 ∧
      OptEqv r.cov2 r0.cov2 ∧ r.static = r0.static := by
  obtain ⟨n1b, n1bs, n2b, n2bs, hb, p1, p2, e1, e2⟩ := serialKernel_ok_inv kf hd hk.nngp h
  subst e1 e2
  obtain ⟨r', hr', hD⟩ := serial_kernel_input_describes E kf hE p1 p2 hb k hk
  obtain ⟨r0, h0, hD0, _⟩ := hE _ _ k hk
  rw [hr'] at h
  cases h
  exact ⟨r0, h0, Entries2.eqv hD.nngp hD0.nngp, OptEntries2.eqv hD.ntk hD0.ntk,
    Entries1.eqv hD.cov1 hD0.cov1, OptEntries1.eqv hD.cov2 hD0.cov2,
    hD.static.trans hD0.static.symm⟩

/-- It does return when the effective batch size tiles the data. -/
theorem serial_kernel_input_returns (E : EntryKernelFn α β)
    (kf : Kernel α → Except Err (Kernel β)) (hE : E.ImplementedBy kf) (bs d n1b n2b b : Nat)
    (hd : 0 < d) (h1 : 0 < n1b) (h2 : 0 < n2b) (hb0 : 0 < b)
    (hb : b = min bs (Nat.gcd (n1b * (b * d)) (n2b * b) / d)) (k : Kernel α)
    (hk : E.Input (n1b * (b * d)) (n2b * b) k) : ∃ r, serialKernel kf bs d k = .ok r := by
  have hbd : 0 < b * d := Nat.mul_pos hb0 hd
  have hnb := nBatches_eq (n1b * (b * d)) (n2b * b) bs d hd
  simp only [← hb, Nat.pos_iff_ne_zero.1 hb0, Nat.dvd_mul_left, and_self, if_true, if_false,
    Nat.mul_div_cancel _ hbd, Nat.mul_div_cancel _ hb0] at hnb
  obtain ⟨r, hr, _⟩ := serial_kernel_input_describes E kf hE h1 h2 hnb k hk
  exact ⟨r, hr⟩

section Examples

/-- An entry-wise function mixing all inputs: nngp' = nngp * cov1 + cov2, ntk' = nngp + ntk. -/
def exE : EntryKernelFn Int Int where
  inT := []
  inTc := []
  inPost := [2]
  inStatic := ⟨true, false, false, true, true, [], [], 0, 1⟩
  T := []
  Tc := []
  nngp n _ c1 c2 _ := n.get [] * c1.get [] + c2.get []
  ntk := some fun n t _ _ _ => n.get [] + (t.map (·.get [])).getD 0
  cov1 c _ := c.get [] + 1
  cov2 c _ := c.get [] + 1
  pre := []
  post := [2]
  isGaussian := false
  isReversed := false
  isInput := false
  diagonalSpatial := true
  channelAxis := 1

def exFn (k : Kernel Int) : Except Err (Kernel Int) :=
  let n1 := k.nngp.shape.getD 0 0
  let n2 := k.nngp.shape.getD 1 0
  .ok { k with
    nngp := ⟨[n1, n2], fun i => k.nngp.get [i.getD 0 0, i.getD 1 0] * k.cov1.get [i.getD 0 0]
      + (k.cov2.getD k.cov1).get [i.getD 1 0]⟩
    ntk := some ⟨[n1, n2], fun i => k.nngp.get [i.getD 0 0, i.getD 1 0] +
      ((ntkBlock k (i.getD 0 0) (i.getD 1 0)).map (·.get [])).getD 0⟩
    cov1 := k.cov1.map (· + 1)
    cov2 := k.cov2.map fun c => c.map (· + 1)
    isGaussian := false }

lemma exFn_implements : exE.ImplementedBy exFn := by
  intro m1 m2 k h
  have hs := h.static
  simp only [Kernel.static, Kernel.Static.mk.injEq] at hs
  obtain ⟨s1, s2, s3, s4, s5, s6, s7, s8, s9⟩ := hs
  refine ⟨_, rfl, ⟨⟨?_, ?_⟩, ⟨?_, ?_⟩, ⟨?_, ?_⟩, ?_, ?_, h.mask2, ?_⟩, h.x1IsX2⟩
  · simp [EntryKernelFn.desc, exE, h.nngp]
  · intro i j t _ _ ht; cases ht; rfl
  · simp [EntryKernelFn.desc, exE, h.nngp]
  · intro i j t _ _ ht; cases ht; rfl
  · simpa [EntryKernelFn.desc, exE, Arr.map] using h.cov1
  · intro i t _ ht; cases ht; rfl
  · cases hc : k.cov2 with
    | none => simp [OptEntries1]
    | some c =>
      have := h.cov2
      simp only [hc, Option.getD_some] at this
      refine ⟨by simpa [EntryKernelFn.desc, exE, Arr.map] using this, ?_⟩
      intro i t _ ht
      cases ht
      simp [EntryKernelFn.desc, exE, cov2Row, hc, Arr.map, Arr.lead]
  · simp [h.mask1, OptEntries1, EntryKernelFn.desc]
  · simp [Kernel.static, s2, s3, s4, s5, s6, s7, s8, s9, EntryKernelFn.desc, exE]

def exK : Kernel Int where
  nngp := ofList [4, 4] [1, 2, 3, 4, 5, 6, 7, 8, 9, 10, 11, 12, 13, 14, 15, 16]
  ntk := some ⟨[], fun _ => 7⟩
  cov1 := ofList [4] [1, 6, 11, 16]
  cov2 := none
  x1IsX2 := ⟨[], fun _ => true⟩
  isGaussian := true
  isReversed := false
  isInput := false
  diagonalBatch := true
  diagonalSpatial := true
  shape1 := [4, 2]
  shape2 := [4, 2]
  batchAxis := 0
  channelAxis := 1
  mask1 := none
  mask2 := none

lemma exK_input : exE.Input 4 4 exK :=
  ⟨rfl, fun n hn => by cases hn; exact Or.inl rfl, rfl, rfl, rfl, rfl, rfl, rfl⟩

example : ∃ r, serialKernel exFn 2 1 exK = .ok r ∧ ∃ r0, exFn exK = .ok r0 ∧ r.nngp ≋ r0.nngp := by
  obtain ⟨r, hr⟩ := serial_kernel_input_returns exE exFn exFn_implements 2 1 2 2 2
    (by decide) (by decide) (by decide) (by decide) (by decide) exK exK_input
  obtain ⟨r0, h0, h1, _⟩ := serial_kernel_input_transparent exE exFn exFn_implements 2 1 4 4
    (by decide) exK exK_input r hr
  exact ⟨r, hr, r0, h0, h1⟩

end Examples

end NT.C05
