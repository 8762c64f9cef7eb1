import Verif.Model.Concat
import Verif.Spec.Concat
import Verif.Lemmas.FanIn
import Verif.Tac

/-!
# Lemmas about concatenation
-/

namespace NT
open Arr Kernel Spec
variable {α : Type} {m : ℕ}

namespace Cat

lemma getD_set {l : List ℕ} {k : ℕ} (h : k < l.length) (x : ℕ) : (l.set k x).getD k 0 = x := by
  rw [List.getD, List.getElem?_set_self h]; rfl

lemma getD_set_ne {l : List ℕ} {j k : ℕ} (h : j ≠ k) (x : ℕ) : (l.set j x).getD k 0 = l.getD k 0 := by
  rw [List.getD, List.getElem?_set_ne h]; rfl

lemma set_getD {l : List ℕ} {k : ℕ} : l.set k (l.getD k 0) = l := by
  by_cases h : k < l.length
  · rw [List.getD, List.getElem?_eq_getElem h]
    simp
  · rw [List.set_eq_of_length_le (by omega)]

lemma offset_zero (n : Fin (m + 1) → ℕ) : offset n 0 = 0 := by simp [offset]

lemma offset_succ (n : Fin (m + 1) → ℕ) (r : Fin m) :
    offset n r.succ = n 0 + offset (fun s => n s.succ) r := by
  simp [offset, Fin.sum_univ_succ]

/-- The total size of the blocks after block `r`. -/
def after (n : Fin m → ℕ) (r : Fin m) : ℕ := ∑ s, if r < s then n s else 0

lemma after_zero (n : Fin (m + 1) → ℕ) : after n 0 = ∑ s : Fin m, n s.succ := by
  simp [after, Fin.sum_univ_succ]

lemma after_succ (n : Fin (m + 1) → ℕ) (r : Fin m) : after n r.succ = after (fun s => n s.succ) r := by
  simp [after, Fin.sum_univ_succ]

lemma total (n : Fin m → ℕ) (r : Fin m) : offset n r + n r + after n r = ∑ s, n s := by
  unfold offset after
  have h : n r = ∑ s, if s = r then n s else 0 := by simp
  conv_lhs => rw [h]
  rw [← Finset.sum_add_distrib, ← Finset.sum_add_distrib]
  refine Finset.sum_congr rfl fun s _ => ?_
  rcases lt_trichotomy s r with h | h | h
  · simp [h, h.ne, h.not_gt]
  · simp [h]
  · simp [h, h.ne', h.not_gt]

lemma offset_lt (n : Fin m → ℕ) {r : Fin m} {e : ℕ} (h : e < n r) : offset n r + e < ∑ s, n s := by
  have := total n r
  omega

lemma offset_mono (n : Fin m → ℕ) {r r' : Fin m} (h : r < r') : offset n r + n r ≤ offset n r' := by
  unfold offset
  have h0 : n r = ∑ s, if s = r then n s else 0 := by simp
  conv_lhs => rw [h0]
  rw [← Finset.sum_add_distrib]
  refine Finset.sum_le_sum fun s _ => ?_
  rcases lt_trichotomy s r with h1 | h1 | h1
  · simp [h1, h1.ne, h1.trans h]
  · simp [h1, h]
  · simp [h1.ne', h1.not_gt]

/-- Blocks do not overlap. -/
lemma offset_inj (n : Fin m → ℕ) {r r' : Fin m} {e e' : ℕ} (h : e < n r) (h' : e' < n r')
    (he : offset n r + e = offset n r' + e') : r = r' ∧ e = e' := by
  rcases lt_trichotomy r r' with h1 | h1 | h1
  · have := offset_mono n h1; omega
  · subst h1; exact ⟨rfl, by omega⟩
  · have := offset_mono n h1; omega

/-- Every index of the concatenation is in a block. -/
lemma exists_block (n : Fin m → ℕ) {d : ℕ} (h : d < ∑ s, n s) : ∃ r e, e < n r ∧ d = offset n r + e := by
  induction m generalizing d with
  | zero => simp at h
  | succ m ih =>
    rw [Fin.sum_univ_succ] at h
    by_cases hd : d < n 0
    · exact ⟨0, d, hd, by simp [offset_zero]⟩
    · obtain ⟨r, e, h1, h2⟩ := ih (fun s => n s.succ) (d := d - n 0) (by omega)
      exact ⟨r.succ, e, h1, by rw [offset_succ]; omega⟩

lemma catGet_block (axis : ℕ) (a : Fin (m + 1) → Arr α) (n : Fin (m + 1) → ℕ)
    (hn : ∀ r, (a r).shape.getD axis 0 = n r) (i : List ℕ) (hi : axis < i.length) (r : Fin (m + 1)) (e : ℕ)
    (he : e < n r) :
    catGet axis (a 0) (List.ofFn fun r : Fin m => a r.succ) (i.set axis (offset n r + e)) =
      (a r).get (i.set axis e) := by
  induction m with
  | zero =>
    obtain rfl : r = 0 := Fin.fin_one_eq_zero r
    simp [catGet, offset_zero]
  | succ m ih =>
    rw [List.ofFn_succ]
    simp only [catGet]
    rw [getD_set hi, hn]
    rcases Fin.eq_zero_or_eq_succ r with rfl | ⟨s, rfl⟩
    · rw [offset_zero, if_pos (by omega)]
      simp
    · rw [offset_succ, if_neg (by omega), List.set_set]
      have := ih (fun r => a r.succ) (fun r => n r.succ) (fun r => hn _) s he
      rw [show n 0 + offset (fun s => n s.succ) s + e - n 0 = offset (fun s => n s.succ) s + e by omega]
      exact this

/-- `jnp.concatenate`, block by block. -/
lemma concat_ok (axis : ℕ) (a : Fin (m + 1) → Arr α) (n : Fin (m + 1) → ℕ) (s : List ℕ)
    (hs : ∀ r, (a r).shape = s.set axis (n r)) (hax : axis < s.length) :
    ∃ c, concatE (List.ofFn a) axis = .ok c ∧ c.shape = s.set axis (∑ r, n r) ∧
      ∀ (r : Fin (m + 1)) (e : ℕ) (i : List ℕ), e < n r → i.length = s.length →
        c.get (i.set axis (offset n r + e)) = (a r).get (i.set axis e) := by
  have hn : ∀ r, (a r).shape.getD axis 0 = n r := fun r => by rw [hs, getD_set hax]
  have hc : axis < (a 0).ndim ∧ ∀ m' ∈ List.ofFn fun r : Fin m => a r.succ,
      m'.shape.set axis 0 = (a 0).shape.set axis 0 := by
    constructor
    · change axis < (a 0).shape.length
      rw [hs]; simpa using hax
    · intro m' hm'
      obtain ⟨r, rfl⟩ := List.mem_ofFn.1 hm'
      rw [hs, hs, List.set_set, List.set_set]
  refine ⟨⟨_, _⟩, by rw [List.ofFn_succ]; exact if_pos hc, ?_, ?_⟩
  · change (a 0).shape.set axis _ = _
    rw [hs, List.set_set, ← List.ofFn_succ (f := a), List.map_ofFn, List.sum_ofFn]
    congr 1
    exact Finset.sum_congr rfl fun r _ => hn r
  · intro r e i he hi
    exact catGet_block axis a n hn i (by omega) r e he

lemma sizeSum_ofFn (axis : ℕ) (a : Fin m → Arr α) (n : Fin m → ℕ)
    (hn : ∀ r, (a r).shape.getD axis 0 = n r) : sizeSum axis (List.ofFn a) = ∑ r, n r := by
  unfold sizeSum
  rw [List.map_ofFn, List.sum_ofFn]
  exact Finset.sum_congr rfl fun r _ => hn r

lemma padRows_ofFn [Zero α] (axis : ℕ) (a : Fin m → Arr α) (n : Fin m → ℕ)
    (hn : ∀ r, (a r).shape.getD axis 0 = n r) (before : ℕ) :
    padRows axis before (List.ofFn a) =
      List.ofFn fun r => (a r).pad axis (before + offset n r) (after n r) := by
  induction m generalizing before with
  | zero => simp [padRows]
  | succ m ih =>
    rw [List.ofFn_succ, List.ofFn_succ]
    simp only [padRows]
    rw [ih (fun r => a r.succ) (fun r => n r.succ) (fun r => hn _),
      sizeSum_ofFn axis _ (fun r : Fin m => n r.succ) (fun r => hn _), offset_zero, after_zero]
    congr 2
    funext r
    rw [offset_succ, after_succ, hn, Nat.add_assoc]

/-- The 2D concatenation with zero blocks, block by block. -/
lemma block_ok [Zero α] (axis : ℕ) (a : Fin (m + 1) → Arr α) (n n' : Fin (m + 1) → ℕ) (s : List ℕ)
    (hs : ∀ r, (a r).shape = (s.set axis (n r)).set (axis + 1) (n' r)) (hax : axis + 1 < s.length) :
    ∃ c, blockConcat (List.ofFn a) axis = .ok c ∧
      c.shape = (s.set axis (∑ r, n r)).set (axis + 1) (∑ r, n' r) ∧
      ∀ (r r' : Fin (m + 1)) (e e' : ℕ) (i : List ℕ), e < n r → e' < n' r' → i.length = s.length →
        c.get ((i.set axis (offset n r + e)).set (axis + 1) (offset n' r' + e')) =
          if r = r' then (a r).get ((i.set axis e).set (axis + 1) e') else 0 := by
  have hn : ∀ r, (a r).shape.getD axis 0 = n r := fun r => by
    rw [hs, getD_set_ne (by omega), getD_set (by omega)]
  have hsh : ∀ r, ((a r).pad axis (0 + offset n r) (after n r)).shape =
      (s.set axis (∑ r, n r)).set (axis + 1) (n' r) := by
    intro r
    change (a r).shape.set axis _ = _
    rw [hn, Nat.zero_add, total, hs, List.set_comm _ _ (by omega), List.set_set]
  obtain ⟨c, h1, h2, h3⟩ := concat_ok (axis + 1) (fun r => (a r).pad axis (0 + offset n r) (after n r)) n'
    (s.set axis (∑ r, n r)) hsh (by simpa using hax)
  refine ⟨c, ?_, h2, ?_⟩
  · unfold blockConcat
    rw [if_neg, if_neg, padRows_ofFn axis a n hn, h1]
    · rw [not_not]
      intro x hx
      obtain ⟨r, rfl⟩ := List.mem_ofFn.1 hx
      rw [List.ofFn_succ]
      simp [Arr.ndim, hs]
    · rw [not_not]
      intro x hx
      obtain ⟨r, rfl⟩ := List.mem_ofFn.1 hx
      rw [Arr.ndim, hs]
      simp
      omega
  · intro r r' e e' i he he' hi
    rw [h3 r' e' _ he' (by simpa using hi)]
    change (if _ then _ else _) = _
    rw [getD_set_ne (by omega), getD_set (by omega), hn, Nat.zero_add]
    by_cases hr : r = r'
    · subst hr
      rw [if_pos (by omega), if_pos rfl]
      congr 1
      rw [List.set_comm _ _ (by omega), List.set_set]
      congr 2
      omega
    · rw [if_neg hr, if_neg]
      rintro ⟨h4, h5⟩
      exact hr (offset_inj n he (e' := offset n r + e - offset n r') (by omega) (by omega)).1

lemma inRange_set {p S : List ℕ} {s N x n : ℕ} (h : InRange p (S.set s N)) (hx : x < n) :
    InRange (p.set s x) (S.set s n) := by
  rw [inRange_iff] at h ⊢
  refine ⟨by simpa using h.1, fun k hk => ?_⟩
  by_cases hks : s = k
  · subst hks
    have hl : s < S.length := by simpa using hk
    have hl' : p.length = S.length := by simpa using h.1
    rw [getD_set (by omega), getD_set hl]
    exact hx
  · rw [getD_set_ne hks, getD_set_ne hks]
    have := h.2 k (by simpa using hk)
    rwa [getD_set_ne hks] at this

lemma interleave_set {S T : List ℕ} (h : S.length = T.length) (s x y : ℕ) :
    interleave (S.set s x) (T.set s y) = ((interleave S T).set (2 * s) x).set (2 * s + 1) y := by
  induction S generalizing T s with
  | nil => obtain rfl := List.length_eq_zero_iff.1 h.symm; simp [interleave]
  | cons a S ih =>
    cases T with
    | nil => simp at h
    | cons b T =>
      cases s with
      | zero => simp [interleave]
      | succ s => simp [interleave, ih (by simpa using h) s, Nat.mul_add]

/-- The place in storage order of the spatial axis `s`. -/
def rvi (rev : Bool) (l s : ℕ) : ℕ := if rev then l - 1 - s else s

lemma rv_set (rev : Bool) (p : List ℕ) (s x : ℕ) (h : s < p.length) :
    rv rev (p.set s x) = (rv rev p).set (rvi rev p.length s) x := by
  cases rev
  · rfl
  · simp only [rv, rvi, if_true]
    apply List.ext_getElem (by simp)
    intro k h1 h2
    simp only [List.length_reverse, List.length_set] at h1
    simp only [List.getElem_reverse, List.getElem_set, List.length_set]
    congr 1
    simp only [eq_iff_iff]
    omega

lemma rvi_lt (rev : Bool) {l s : ℕ} (h : s < l) : rvi rev l s < l := by
  unfold rvi; split <;> omega

lemma set_app (B l : List ℕ) (k x : ℕ) : B ++ l.set k x = (B ++ l).set (B.length + k) x := by
  rw [List.set_append_right _ _ (by omega), Nat.add_sub_cancel_left]

lemma full_set (rev : Bool) (b p q : List ℕ) (s x y : ℕ) (h : p.length = q.length) (hs : s < p.length) :
    b ++ pos false rev (p.set s x) (q.set s y) =
      ((b ++ pos false rev p q).set (b.length + 2 * rvi rev p.length s) x).set
        (b.length + 2 * rvi rev p.length s + 1) y := by
  rw [pos_full, pos_full, rv_set rev p s x hs, rv_set rev q s y (by omega), ← h,
    interleave_set (by simpa using h), set_app, set_app, Nat.add_assoc]

lemma diag_set (rev : Bool) (b p q q' : List ℕ) (s x : ℕ) (hs : s < p.length) :
    b ++ pos true rev (p.set s x) q' =
      (b ++ pos true rev p q).set (b.length + rvi rev p.length s) x := by
  rw [pos_diag, pos_diag, rv_set rev p s x hs, set_app]

/-- The block of a position. -/
lemma exists_shift {S p : List ℕ} {s : ℕ} {n : Fin m → ℕ} (hs : s < S.length)
    (hp : InRange p (S.set s (∑ r, n r))) :
    ∃ r e, e < n r ∧ p.set s (offset n r + e) = p ∧ InRange (p.set s e) (S.set s (n r)) := by
  have hl : p.length = S.length := by simpa using hp.length
  have : p.getD s 0 < ∑ r, n r := by
    have := (inRange_iff.1 hp).2 s (by simpa using hs)
    rwa [getD_set hs] at this
  obtain ⟨r, e, h1, h2⟩ := exists_block n this
  exact ⟨r, e, h1, by rw [← h2]; exact set_getD, inRange_set hp h1⟩

lemma shift_set {p : List ℕ} {s e : ℕ} (n : Fin m → ℕ) (r : Fin m) (h : s < p.length) :
    shift s n r (p.set s e) = p.set s (offset n r + e) := by
  unfold shift
  rw [getD_set h, List.set_set]

variable [Zero α]

/-- Concatenation along a spatial axis of arrays with all pairs of positions. -/
lemma spatial_full {B : List ℕ} {rev : Bool} {s : ℕ} {S T : List ℕ} (n n' : Fin (m + 1) → ℕ)
    (hs : s < S.length) (a : Fin (m + 1) → Arr α) (F : Fin (m + 1) → List ℕ → List ℕ → List ℕ → α)
    (h : ∀ r, Holds (a r) B (S.set s (n r)) (T.set s (n' r)) false rev (F r))
    (F' : List ℕ → List ℕ → List ℕ → α)
    (hF : ∀ r r' b p q, InRange p (S.set s (n r)) → InRange q (T.set s (n' r')) →
      F' b (shift s n r p) (shift s n' r' q) = if r = r' then F r b p q else 0) :
    ∃ c, blockConcat (List.ofFn a) (B.length + 2 * rvi rev S.length s) = .ok c ∧
      Holds c B (S.set s (∑ r, n r)) (T.set s (∑ r, n' r)) false rev F' := by
  have hST : S.length = T.length := by simpa using (h 0).rank
  have hv := rvi_lt rev hs
  have hlen : (B ++ pos false rev S T).length = B.length + 2 * S.length := by
    rw [List.length_append, pos_length _ _ hST]; simp
  obtain ⟨c, h1, h2, h3⟩ := block_ok (B.length + 2 * rvi rev S.length s) a n n' (B ++ pos false rev S T)
    (fun r => by rw [(h r).shape, full_set rev B S T s _ _ hST hs]) (by rw [hlen]; omega)
  refine ⟨c, h1, by simpa using hST, by simp, by rw [h2, full_set rev B S T s _ _ hST hs], ?_⟩
  intro b p q hb hp hq _
  obtain ⟨r, e, he, hp1, hp2⟩ := exists_shift hs hp
  obtain ⟨r', e', he', hq1, hq2⟩ := exists_shift (by omega) hq
  have hpl : p.length = S.length := by simpa using hp.length
  have hql : q.length = T.length := by simpa using hq.length
  rw [← hp1, ← hq1, full_set rev b p q s _ _ (by omega) (by omega), hb.length, hpl,
    h3 r r' e e' _ he he' (by
      rw [List.length_append, hb.length, pos_length _ _ (by omega : p.length = q.length), hlen]
      simp [hpl])]
  rw [← shift_set n r (by omega), ← shift_set n' r' (by omega), hF r r' b _ _ hp2 hq2]
  split
  · rename_i hr
    subst hr
    rw [← (h r).get b _ _ hb hp2 hq2 (by simp), full_set rev b p q s _ _ (by omega) (by omega),
      hb.length, hpl]
  · rfl

/-- Concatenation along a spatial axis of arrays with the diagonal of the positions. -/
lemma spatial_diag {B : List ℕ} {rev : Bool} {s : ℕ} {S : List ℕ} (n : Fin (m + 1) → ℕ)
    (hs : s < S.length) (a : Fin (m + 1) → Arr α) (F : Fin (m + 1) → List ℕ → List ℕ → List ℕ → α)
    (h : ∀ r, Holds (a r) B (S.set s (n r)) (S.set s (n r)) true rev (F r))
    (F' : List ℕ → List ℕ → List ℕ → α)
    (hF : ∀ r r' b p q, InRange p (S.set s (n r)) → InRange q (S.set s (n r')) →
      F' b (shift s n r p) (shift s n r' q) = if r = r' then F r b p q else 0) :
    ∃ c, concatE (List.ofFn a) (B.length + rvi rev S.length s) = .ok c ∧
      Holds c B (S.set s (∑ r, n r)) (S.set s (∑ r, n r)) true rev F' := by
  have hv := rvi_lt rev hs
  have hlen : (B ++ pos true rev S S).length = B.length + S.length := by
    rw [List.length_append, pos_length _ _ rfl]; simp
  obtain ⟨c, h1, h2, h3⟩ := concat_ok (B.length + rvi rev S.length s) a n (B ++ pos true rev S S)
    (fun r => by rw [(h r).shape, diag_set rev B S S _ s _ hs]) (by rw [hlen]; omega)
  refine ⟨c, h1, rfl, fun _ => rfl, by rw [h2, diag_set rev B S S _ s _ hs], ?_⟩
  intro b p q hb hp hq hpq
  obtain rfl := hpq rfl
  obtain ⟨r, e, he, hp1, hp2⟩ := exists_shift hs hp
  have hpl : p.length = S.length := by simpa using hp.length
  rw [← hp1, diag_set rev b p p _ s _ (by omega), hb.length, hpl,
    h3 r e _ he (by
      rw [List.length_append, hb.length, pos_length _ _ rfl, hlen]
      simp [hpl])]
  rw [← shift_set n r (by omega), hF r r b _ _ hp2 hp2, if_pos rfl,
    ← (h r).get b _ _ hb hp2 hp2 (fun _ => rfl), diag_set rev b p p _ s _ (by omega), hb.length, hpl]

/-- Concatenation along the batch of arrays with all pairs of examples. -/
lemma batch_full {diag rev : Bool} {S T : List ℕ} (n n' : Fin (m + 1) → ℕ)
    (a : Fin (m + 1) → Arr α) (F : Fin (m + 1) → List ℕ → List ℕ → List ℕ → α)
    (h : ∀ r, Holds (a r) [n r, n' r] S T diag rev (F r))
    (F' : List ℕ → List ℕ → List ℕ → α) (hF : BatchBlocks n n' F F') :
    ∃ c, blockConcat (List.ofFn a) 0 = .ok c ∧ Holds c [∑ r, n r, ∑ r, n' r] S T diag rev F' := by
  obtain ⟨c, h1, h2, h3⟩ := block_ok 0 a n n' ([0, 0] ++ pos diag rev S T)
    (fun r => by rw [(h r).shape]; simp) (by simp)
  refine ⟨c, h1, (h 0).rank, (h 0).square, by rw [h2]; simp, ?_⟩
  intro b p q hb hp hq hpq
  obtain ⟨i, b, rfl, hi, hb⟩ := inRange_cons_right.1 hb
  obtain ⟨j, b, rfl, hj, hb⟩ := inRange_cons_right.1 hb
  obtain rfl : b = [] := by simpa using hb.length
  obtain ⟨r, e, he, rfl⟩ := exists_block n hi
  obtain ⟨r', e', he', rfl⟩ := exists_block n' hj
  have := h3 r r' e e' ([0, 0] ++ pos diag rev p q) he he' (by
    rw [List.length_append, List.length_append, pos_length _ _ (by rw [hp.length, hq.length, (h 0).rank]),
      pos_length _ _ (h 0).rank, hp.length])
  simp only [List.cons_append, List.nil_append, List.set_cons_zero, List.set_cons_succ, Nat.zero_add]
    at this
  simp only [List.cons_append, List.nil_append]
  rw [this, hF r r' e e' p q he he']
  split
  · rename_i hr
    subst hr
    exact (h r).get [e, e'] p q (by simp [InRange, he, he']) hp hq hpq
  · rfl

/-- Concatenation along the batch of arrays with the diagonal of the batch. -/
lemma batch_diag {diag rev : Bool} {S T : List ℕ} (n : Fin (m + 1) → ℕ)
    (a : Fin (m + 1) → Arr α) (F : Fin (m + 1) → List ℕ → List ℕ → List ℕ → α)
    (h : ∀ r, Holds (a r) [n r] S T diag rev (fun b => F r (dbl b)))
    (F' : List ℕ → List ℕ → List ℕ → α) (hF : BatchBlocks n n F F') :
    ∃ c, concatE (List.ofFn a) 0 = .ok c ∧ Holds c [∑ r, n r] S T diag rev (fun b => F' (dbl b)) := by
  obtain ⟨c, h1, h2, h3⟩ := concat_ok 0 a n ([0] ++ pos diag rev S T)
    (fun r => by rw [(h r).shape]; simp) (by simp)
  refine ⟨c, h1, (h 0).rank, (h 0).square, by rw [h2]; simp, ?_⟩
  intro b p q hb hp hq hpq
  obtain ⟨i, b, rfl, hi, hb⟩ := inRange_cons_right.1 hb
  obtain rfl : b = [] := by simpa using hb.length
  obtain ⟨r, e, he, rfl⟩ := exists_block n hi
  have := h3 r e ([0] ++ pos diag rev p q) he (by
    rw [List.length_append, List.length_append, pos_length _ _ (by rw [hp.length, hq.length, (h 0).rank]),
      pos_length _ _ (h 0).rank, hp.length])
  simp only [List.cons_append, List.nil_append, List.set_cons_zero] at this
  simp only [List.cons_append, List.nil_append]
  rw [this]
  have e1 := hF r r e e p q he he
  rw [if_pos rfl] at e1
  change _ = F' [offset n r + e, offset n r + e] p q
  rw [e1]
  exact (h r).get [e] p q (by simp [InRange, *]) hp hq hpq

/-- The block of the index `d` and the index in it. -/
noncomputable def blk (n : Fin (m + 1) → ℕ) (d : ℕ) : Fin (m + 1) × ℕ :=
  open Classical in
  if h : ∃ x : Fin (m + 1) × ℕ, x.2 < n x.1 ∧ d = offset n x.1 + x.2 then h.choose else (0, d)

lemma blk_eq (n : Fin (m + 1) → ℕ) {r : Fin (m + 1)} {e : ℕ} (h : e < n r) :
    blk n (offset n r + e) = (r, e) := by
  have hx : ∃ x : Fin (m + 1) × ℕ, x.2 < n x.1 ∧ offset n r + e = offset n x.1 + x.2 := ⟨(r, e), h, rfl⟩
  unfold blk
  rw [dif_pos hx]
  obtain ⟨h1, h2⟩ := hx.choose_spec
  obtain ⟨h3, h4⟩ := offset_inj n h h1 h2
  exact Prod.ext h3.symm h4.symm

/-- The blocks arranged along a spatial axis. -/
noncomputable def catF (s : ℕ) (S T : Fin (m + 1) → List ℕ)
    (F : Fin (m + 1) → List ℕ → List ℕ → List ℕ → α) (b p q : List ℕ) : α :=
  let x := blk (sizes s S) (p.getD s 0)
  let y := blk (sizes s T) (q.getD s 0)
  if x.1 = y.1 then F x.1 b (p.set s x.2) (q.set s y.2) else 0

lemma catF_blocks (s : ℕ) (S T : Fin (m + 1) → List ℕ) (hS : ∀ r, s < (S r).length)
    (hT : ∀ r, s < (T r).length) (F : Fin (m + 1) → List ℕ → List ℕ → List ℕ → α) :
    SpatialBlocks s S T F (catF s S T F) := by
  intro r r' b p q hp hq
  have hpl := hp.length
  have hql := hq.length
  have h1 := (inRange_iff.1 hp).2 s (hS r)
  have h2 := (inRange_iff.1 hq).2 s (hT r')
  have := hS r
  have := hT r'
  unfold catF shift
  simp only
  rw [getD_set (by omega), getD_set (by omega), blk_eq _ h1, blk_eq _ h2]
  simp only
  rw [List.set_set, List.set_set, set_getD, set_getD]

/-- The blocks arranged along the batch. -/
noncomputable def batF (n n' : Fin (m + 1) → ℕ)
    (F : Fin (m + 1) → List ℕ → List ℕ → List ℕ → α) (b p q : List ℕ) : α :=
  let x := blk n (b.getD 0 0)
  let y := blk n' (b.getD 1 0)
  if x.1 = y.1 then F x.1 [x.2, y.2] p q else 0

lemma batF_blocks (n n' : Fin (m + 1) → ℕ) (F : Fin (m + 1) → List ℕ → List ℕ → List ℕ → α) :
    BatchBlocks n n' F (batF n n' F) := by
  intro r r' i j p q hi hj
  simp [batF, blk_eq _ hi, blk_eq _ hj]

end Cat
end NT
