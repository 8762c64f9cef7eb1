import Verif.Model.Dense
import Verif.Lemmas.Dot

/-!
# Lemmas about `Dense` on arrays
-/

namespace NT
open Arr

lemma pyInsert_nat {β : Type} (l : List β) (k : ℕ) (x : β) (h : k ≤ l.length) : pyInsert l k x = l.insertIdx k x := by
  rw [insertIdx_app l k x h]
  have : l = l.take k ++ l.drop k := (List.take_append_drop k l).symm
  conv_lhs => rw [this]
  exact pyInsert_append' _ _ _ _ (by simp; omega)

/-- Moving the leading axis back to axis `k`. -/
lemma moveaxis_back {β : Type} (a : Arr β) (k n : ℕ) (S : List ℕ) (hk : k ≤ S.length) (ha : a.shape = n :: S) :
    (a.moveaxis [0] [k]).shape = S.insertIdx k n ∧
      ∀ i p, p.length = S.length → (a.moveaxis [0] [k]).get (p.insertIdx k i) = a.get (i :: p) := by
  have hnd : a.ndim = S.length + 1 := by unfold ndim; rw [ha]; rfl
  have hperm := moveaxis_perm' a (src := [0]) (dst := [k]) rfl (by simp) (by simp; omega)
  have hf : freeAxes (S.length + 1) [0] = List.range' 1 S.length := by
    unfold freeAxes
    rw [List.range_eq_range', show S.length + 1 = 1 + S.length by omega, ← List.range'_append_1,
      List.filter_append, filter_range'_out (0 + 1) S.length [0] (by simp)]
    simp
  have hP : moveaxisPerm a.ndim [0] [k] = (List.range' 1 S.length).insertIdx k 0 := by
    rw [hnd]
    unfold moveaxisPerm
    rw [mergeSort_zip_of_sorted (by simp)]
    simp only [List.zip_cons_cons, List.zip_nil_left, List.foldl_cons, List.foldl_nil]
    change pyInsert (freeAxes (S.length + 1) [0]) k 0 = _
    rw [hf, pyInsert_nat _ _ _ (by simpa using hk)]
  have hg : ∀ i p, p.length = S.length →
      gather ((List.range' 1 S.length).insertIdx k 0) (i :: p) = p.insertIdx k i := by
    intro i p hp
    rw [insertIdx_app _ _ _ (by simpa using hk), insertIdx_app p k i (by omega)]
    have e : ∀ l z, gather (0 :: l) z = z.getD 0 0 :: gather l z := by intro l z; simp [gather]
    have h1 : gather (List.range' 1 S.length) (i :: p) = p :=
      gather_range' [i] p [] 1 S.length (by simp) rfl hp.symm
    have h2 : gather ((List.range' 1 S.length).take k) (i :: p) = p.take k := by
      conv_rhs => rw [← h1]
      simp only [gather, List.map_take]
    have h3 : gather ((List.range' 1 S.length).drop k) (i :: p) = p.drop k := by
      conv_rhs => rw [← h1]
      simp only [gather, List.map_drop]
    rw [gather_append, e, h2, h3]
    rfl
  constructor
  · show gather _ a.shape = _
    rw [hP, ha]
    exact hg n S rfl
  · intro i p hp
    rw [← hg i p hp]
    unfold moveaxis
    rw [← hP]
    refine transpose_get a hperm ?_
    simp [hp, hnd]

lemma inRange_insert {p S : List ℕ} {k i n : ℕ} (h : InRange p S) (hk : k ≤ S.length) (hi : i < n) :
    InRange (p.insertIdx k i) (S.insertIdx k n) := by
  rw [insertIdx_app S k n hk, insertIdx_app p k i (by rw [h.length]; exact hk)]
  have h1 : InRange (p.take k) (S.take k) := List.forall₂_take k h
  have h2 : InRange (p.drop k) (S.drop k) := List.forall₂_drop k h
  rw [inRange_append h1.length]
  exact ⟨h1, by simp [hi, h2]⟩

/-- A bias array: ones except at the channel axis. -/
lemma bias_idx (S p : List ℕ) (k D o : ℕ) (hp : p.length = S.length) (hk : k ≤ S.length) (ho : o < D) :
    bcastIdx ((List.replicate S.length 1).insertIdx k D) (p.insertIdx k o) =
      (List.replicate S.length 0).insertIdx k o := by
  have key : ∀ (n : ℕ) (q : List ℕ), q.length = n → bcastIdx (List.replicate n 1) q = List.replicate n 0 := by
    intro n
    induction n with
    | zero => intro q hq; cases q <;> rfl
    | succ n ih =>
      intro q hq
      cases q with
      | nil => simp at hq
      | cons a q =>
        have := ih q (by simpa using hq)
        simp only [bcastIdx] at this
        simp [bcastIdx, List.replicate_succ, this]
  rw [insertIdx_app _ _ _ (by simpa using hk), insertIdx_app p k o (by omega),
    insertIdx_app _ _ _ (by simpa using hk)]
  rw [bcastIdx_append (by simp; omega)]
  rw [List.take_replicate, List.drop_replicate, List.take_replicate, List.drop_replicate,
    key _ _ (by simp; omega)]
  congr 1
  have := key (S.length - k) (p.drop k) (by simp; omega)
  simp only [bcastIdx] at this
  simp only [bcastIdx, List.zipWith_cons_cons, this]
  split
  · congr 1; omega
  · rfl

lemma bias_shape (S : List ℕ) (k D : ℕ) (hk : k ≤ S.length) :
    List.zipWith bcastDim (S.insertIdx k D) ((List.replicate S.length 1).insertIdx k D) = S.insertIdx k D := by
  have key : ∀ (s : List ℕ), List.zipWith bcastDim s (List.replicate s.length 1) = s := by
    intro s
    induction s with
    | nil => rfl
    | cons a s ih =>
      simp only [List.length_cons, List.replicate_succ, List.zipWith_cons_cons, ih]
      unfold bcastDim
      split
      · congr 1; omega
      · rfl
  rw [insertIdx_app S k D hk, insertIdx_app _ _ _ (by simpa using hk), List.zipWith_append (by simp)]
  rw [List.take_replicate, List.drop_replicate]
  have h1 := key (S.take k)
  have h2 := key (S.drop k)
  rw [List.length_take] at h1
  rw [List.length_drop] at h2
  rw [h1, List.zipWith_cons_cons, h2]
  congr 2
  unfold bcastDim
  split <;> rfl

namespace Dense

/-- The factor of `W x` in the output. -/
noncomputable def gain (d : Dense) (C : ℕ) : ℝ :=
  if d.param = .standard then 1 / Real.sqrt d.s.1 else d.wStd / Real.sqrt C

/-- The factor of the bias in the output. -/
noncomputable def biasGain (d : Dense) : ℝ := if d.param = .standard then 1 else d.bStd.getD 0

/-- The contribution of the bias. -/
noncomputable def biasTerm (d : Dense) (b : Option (Arr ℝ)) (i : List ℕ) : ℝ :=
  match b with
  | none => 0
  | some b => d.biasGain * b.get i

/-- Entries of the output of `apply`. -/
lemma apply_ok (d : Dense) (hd : d.param ≠ .other) (W x : Arr ℝ) (b : Option (Arr ℝ)) (k C D : ℕ) (R : List ℕ)
    (hk : k ≤ R.length) (hk' : (k : ℤ) = d.channelAxis % (R.length + 1))
    (hW : W.shape = [C, D]) (hx : x.shape = R.insertIdx k C)
    (hb : ∀ b', b = some b' → b'.shape = (List.replicate R.length 1).insertIdx k D) :
    ∃ z, d.apply W b x = .ok z ∧ z.shape = R.insertIdx k D ∧
      ∀ r o, InRange r R → o < D → z.get (r.insertIdx k o) =
        d.gain C * ((List.range C).map fun c => W.get [c, o] * x.get (r.insertIdx k c)).sum +
          d.biasTerm b ((List.replicate R.length 0).insertIdx k o) := by
  have hnd : x.ndim = R.length + 1 := by
    unfold ndim; rw [hx, List.length_insertIdx, if_pos hk]
  have hca : (d.channelAxis % (x.ndim : ℤ)).toNat = k := by rw [hnd]; push_cast; omega
  have hWn : W.ndim = 2 := by unfold ndim; rw [hW]; rfl
  obtain ⟨g1, g2⟩ := gather_free_one R k C hk
  obtain ⟨t, ht, hts, htg⟩ := dotGeneral_ok W x [0] [k] [] [] ⟨by simp, by simp [hWn]⟩ ⟨by simp, by simp; omega⟩
    (by rw [hx, g2, hW]; rfl) rfl
  have fW : freeAxes 2 [0] = [1] := by decide
  simp only [List.nil_append, hWn, hnd, fW] at hts htg
  rw [hx, g1, hW] at hts
  obtain ⟨m1, m2⟩ := moveaxis_back t k D R hk hts
  have hxC : x.shape.getD k 0 = C := by
    rw [hx, List.getD_eq_getElem?_getD, List.getElem?_insertIdx_self, if_pos hk]; rfl
  have hprod : ∀ (r : List ℕ) (o : ℕ), r.length = R.length → (t.moveaxis [0] [k]).get (r.insertIdx k o) =
      ((List.range C).map fun c => W.get [c, o] * x.get (r.insertIdx k c)).sum := by
    intro r o hr
    rw [m2 o r hr]
    have := htg [] [o] r (fun c => [c.getD 0 0, o]) (fun c => r.insertIdx k (c.getD 0 0)) rfl rfl ?_ ?_
    · simp only [List.nil_append, List.cons_append] at this
      rw [this, hW]
      show sumOver [C] _ = _
      rw [sumOver_singleton]
      rfl
    · intro c hc
      obtain ⟨c, rfl⟩ := List.length_eq_one_iff.1 hc
      exact ⟨rfl, rfl, rfl, rfl⟩
    · intro c hc
      obtain ⟨c, rfl⟩ := List.length_eq_one_iff.1 hc
      obtain ⟨e1, e2⟩ := gather_free_one r k c (by omega)
      rw [hr] at e1
      refine ⟨?_, rfl, e1, e2⟩
      rw [List.length_insertIdx, if_pos (by omega), hr]
  unfold apply tensordot
  simp only [hca, ht]
  rcases hp : d.param with _ | _ | _
  · simp only [hxC, gain, biasGain, biasTerm, hp]
    cases b with
    | none =>
      refine ⟨_, rfl, m1, ?_⟩
      intro r o hr ho
      simp [map, hprod r o hr.length]
    | some b =>
      have hbs := hb b rfl
      refine ⟨_, rfl, ?_, ?_⟩
      · show List.zipWith bcastDim (t.moveaxis [0] [k]).shape b.shape = _
        rw [m1, hbs, bias_shape _ _ _ hk]
      · intro r o hr ho
        have hi : bcastIdx (t.moveaxis [0] [k]).shape (r.insertIdx k o) = r.insertIdx k o := by
          rw [m1]; exact bcastIdx_self (inRange_insert hr hk ho)
        have hj := bias_idx R r k D o hr.length hk ho
        simp [bcast, map, hi, hbs, hj, hprod r o hr.length]
  · simp only [gain, biasGain, biasTerm, hp]
    cases b with
    | none =>
      refine ⟨_, rfl, m1, ?_⟩
      intro r o hr ho
      simp [map, hprod r o hr.length, div_eq_inv_mul]
    | some b =>
      have hbs := hb b rfl
      refine ⟨_, rfl, ?_, ?_⟩
      · show List.zipWith bcastDim (t.moveaxis [0] [k]).shape b.shape = _
        rw [m1, hbs, bias_shape _ _ _ hk]
      · intro r o hr ho
        have hi : bcastIdx (t.moveaxis [0] [k]).shape (r.insertIdx k o) = r.insertIdx k o := by
          rw [m1]; exact bcastIdx_self (inRange_insert hr hk ho)
        have hj := bias_idx R r k D o hr.length hk ho
        simp [bcast, map, hi, hbs, hj, hprod r o hr.length, div_eq_inv_mul]
  · exact absurd hp hd

end Dense
end NT
