import Verif.Lemmas.RulesConv
import Verif.Lemmas.TraceDiag

/-!
# The Jacobian rule of `conv_general_dilated`
-/

namespace NT.Rules
open NT Arr Spec ConvParams
variable {α : Type}

lemma freeAxes_of {n : ℕ} {D l : List ℕ} (hl : l.Pairwise (· < ·)) (h : ∀ x, x ∈ l ↔ x < n ∧ x ∉ D) : freeAxes n D = l :=
  List.Pairwise.eq_of_mem_iff (freeAxes_sorted _ _) hl fun {x} => by rw [mem_freeAxes, h]

lemma freeAxes_range' {m N : ℕ} (h : m ≤ N) : freeAxes N (List.range' m (N - m)) = List.range m :=
  freeAxes_of List.pairwise_lt_range fun x => by
    rw [List.mem_range, List.mem_range'_1]
    omega

/-- The last axes moved to the places `dst`. -/
lemma moveaxis_tail (a : Arr α) {m : ℕ} {dst : List ℕ} (hm : m ≤ a.ndim) (hl : dst.length = a.ndim - m) (hn : dst.Nodup) (hd : ∀ k ∈ dst, k < a.ndim) :
    (∀ s, s.length = a.ndim → a.shape = gather (freeAxes a.ndim dst) s ++ gather dst s → (a.moveaxis (List.range' m (a.ndim - m)) dst).shape = s) ∧
    ∀ k, k.length = a.ndim → (a.moveaxis (List.range' m (a.ndim - m)) dst).get k = a.get (gather (freeAxes a.ndim dst) k ++ gather dst k) := by
  have hfl : (freeAxes a.ndim dst).length = m := by
    have := (freeAxes_perm _ _ hn hd).length_eq
    simp only [List.length_append, List.length_range] at this
    omega
  have e : ∀ k : List ℕ, gather (List.range' m (a.ndim - m)) (gather (freeAxes a.ndim dst) k ++ gather dst k) = gather dst k ∧
      gather (freeAxes a.ndim (List.range' m (a.ndim - m))) (gather (freeAxes a.ndim dst) k ++ gather dst k) = gather (freeAxes a.ndim dst) k := fun k => by
    constructor
    · have := gather_range'_append (u := gather (freeAxes a.ndim dst) k) (v := gather dst k) (w := []) (s := m) (n := a.ndim - m) (by simp [gather, hfl]) (by simp [gather, hl])
      rwa [List.append_nil] at this
    · rw [freeAxes_range' hm]
      exact gather_range_append (by simp [gather, hfl])
  refine ⟨fun s hs he => ?_, fun k hk => ?_⟩
  · refine moveaxis_shape_eq a (by simp [hl]) hn hd hs ?_ ?_
    · rw [he, (e s).1]
    · rw [he, (e s).2]
  · refine moveaxis_read a (by simp [hl]) List.nodup_range' (fun k hk => ?_) hn hd (by simp [gather, hfl, hl]; omega) hk (e k).1 (e k).2
    rw [List.mem_range'_1] at hk
    omega

/-- The last axis split into several. -/
lemma reshape_split (a : Arr α) {u s T : List ℕ} {X : ℕ} (hs : a.shape = s ++ [X]) (hT : T.prod = X) {t : List ℕ} (hu : InRange u s) (ht : InRange t T) :
    (a.reshape (s ++ T)).get (u ++ t) = a.get (u ++ [ravel T t]) := by
  have hlt := ravel_lt ht
  refine reshape_get a _ ?_ ?_
  · rw [hs]
    exact (inRange_append hu.length).2 ⟨hu, inRange_cons.2 ⟨hT ▸ hlt, List.Forall₂.nil⟩⟩
  · rw [hs, ravel_append hu.length, ravel_append hu.length, hT]
    simp [ravel]

/-- The last two axes split into several. -/
lemma reshape_split2 (a : Arr α) {u s T U : List ℕ} {X Y : ℕ} (hs : a.shape = s ++ [X, Y]) (hT : T.prod = X) (hU : U.prod = Y) {t v : List ℕ} (hu : InRange u s)
    (ht : InRange t T) (hv : InRange v U) : (a.reshape (s ++ T ++ U)).get (u ++ t ++ v) = a.get (u ++ [ravel T t, ravel U v]) := by
  have hlt := ravel_lt ht
  have hlv := ravel_lt hv
  refine reshape_get a _ ?_ ?_
  · rw [hs]
    exact (inRange_append hu.length).2 ⟨hu, inRange_cons.2 ⟨hT ▸ hlt, inRange_cons.2 ⟨hU ▸ hlv, List.Forall₂.nil⟩⟩⟩
  · rw [hs, List.append_assoc, List.append_assoc, ravel_append hu.length, ravel_append hu.length, ravel_append ht.length, List.prod_append, hT, hU]
    simp [ravel]

lemma diagLast_get [Zero α] (a : Arr α) {u : List ℕ} {x y : ℕ} (h : u.length + 1 = a.ndim) :
    (diagLast a).get (u ++ [x, y]) = if x = y then a.get (u ++ [x]) else 0 := by
  unfold diagLast
  dsimp only
  have e1 : a.ndim - 1 = u.length := by omega
  have e2 : u ++ [x, y] = u ++ [x] ++ [y] := by simp
  have e3 : a.ndim = (u ++ [x]).length := by simp [h]
  rw [e1, List.getD_append_right _ _ _ _ (by omega), Nat.sub_self, ← h, List.getD_append_right _ _ _ _ (by omega), Nat.add_sub_cancel_left, e2, List.take_left' (by simp)]
  rfl

lemma ConvOk.filter {p : ConvParams} {lhs inp : List ℕ} {n : ℕ} (h : ConvOk p lhs inp n) :
    (List.range n).filter (fun i => i ∈ p.rhsSpec.drop 2) = freeAxes n [p.rhsSpec.getD 0 0, p.rhsSpec.getD 1 0] ∧
    (p.rhsSpec.drop 2).mergeSort = freeAxes n [p.rhsSpec.getD 0 0, p.rhsSpec.getD 1 0] ∧
    p.filterAxes = freeAxes n [p.rhsSpec.getD 0 0, p.rhsSpec.getD 1 0] := by
  have hm : ∀ x, x ∈ p.rhsSpec.drop 2 ↔ x < n ∧ x ∉ [p.rhsSpec.getD 0 0, p.rhsSpec.getD 1 0] := fun x => by
    rw [← h.R.mem]
    conv_rhs => rw [h.R.cons]
    simp only [List.mem_cons, List.not_mem_nil, or_false, List.getD_cons_zero, List.getD_cons_succ]
    constructor
    · refine fun hx => ⟨Or.inr (Or.inr hx), ?_⟩
      rintro (rfl | rfl)
      · exact h.R.zero_notMem hx
      · exact h.R.one_notMem hx
    · tauto
  have h1 : (List.range n).filter (fun i => i ∈ p.rhsSpec.drop 2) = freeAxes n [p.rhsSpec.getD 0 0, p.rhsSpec.getD 1 0] := by
    refine (freeAxes_of (List.pairwise_lt_range.filter _) fun x => ?_).symm
    rw [List.mem_filter, List.mem_range, decide_eq_true_eq, hm]
    tauto
  refine ⟨h1, (freeAxes_of ?_ fun x => ?_).symm, ?_⟩
  · have hle : (p.rhsSpec.drop 2).mergeSort.Pairwise (· ≤ ·) := List.pairwise_mergeSort' _ _
    have hnd : (p.rhsSpec.drop 2).mergeSort.Nodup := (List.mergeSort_perm _ _).nodup_iff.2 (h.R.nodup.sublist (List.drop_sublist _ _))
    exact (hle.and hnd).imp fun ⟨h1, h2⟩ => lt_of_le_of_ne h1 h2
  · rw [(List.mergeSort_perm _ _).mem_iff, hm]
  · unfold filterAxes
    rw [h.R.length]
    exact h1

lemma ConvOk.byDim {p : ConvParams} {lhs inp : List ℕ} {n : ℕ} (h : ConvOk p lhs inp n) (i : List ℕ) :
    p.byDim (gather (freeAxes n [p.rhsSpec.getD 0 0, p.rhsSpec.getD 1 0]) i) = spatial p.rhsSpec i := by
  unfold ConvParams.byDim spatial
  refine List.map_congr_left fun x hx => ?_
  rw [h.filter.2.2, getD_gather_mem]
  rw [← h.filter.1, List.mem_filter, decide_eq_true_eq, List.mem_range]
  exact ⟨h.R.mem.1 (List.mem_of_mem_drop hx), hx⟩

/-- One axis moved to the end. -/
lemma moveaxis_last (a : Arr α) {n c : ℕ} (hn : a.ndim = n) (hc : c < n) :
    (a.moveaxis [c] [n - 1]).shape = gather (freeAxes n [c]) a.shape ++ [a.shape.getD c 0] ∧
    ∀ k x, k.length = n → (a.moveaxis [c] [n - 1]).get (gather (freeAxes n [c]) k ++ [x]) = a.get (k.set c x) := by
  subst hn
  have hf : freeAxes a.ndim [a.ndim - 1] = List.range (a.ndim - 1) := freeAxes_of List.pairwise_lt_range fun x => by
    rw [List.mem_range, List.mem_singleton]
    omega
  have hfl : (freeAxes a.ndim [c]).length = a.ndim - 1 := by
    have := freeAxes_length (n := a.ndim) (D := [c]) (by simp) (by simpa using hc)
    simp only [List.length_singleton] at this
    omega
  have e : ∀ (k : List ℕ) x, gather [a.ndim - 1] (gather (freeAxes a.ndim [c]) k ++ [x]) = [x] ∧
      gather (freeAxes a.ndim [a.ndim - 1]) (gather (freeAxes a.ndim [c]) k ++ [x]) = gather (freeAxes a.ndim [c]) k := fun k x => by
    constructor
    · have := gather_range'_append (u := gather (freeAxes a.ndim [c]) k) (v := [x]) (w := []) (s := a.ndim - 1) (n := 1) (by simp [gather, hfl]) rfl
      simpa using this
    · rw [hf]
      exact gather_range_append (by simp [gather, hfl])
  refine ⟨?_, fun k x hk => ?_⟩
  · refine moveaxis_shape_eq a (src := [c]) (dst := [a.ndim - 1]) rfl (by simp) (by simp; omega) (by simp [gather, hfl]; omega) ?_ ?_
    · rw [(e _ _).1]
      rfl
    · rw [(e _ _).2]
  · refine moveaxis_read a (src := [c]) (dst := [a.ndim - 1]) rfl (by simp) (by simpa using hc) (by simp) (by simp; omega) (by simp [hk]) (by simp [gather, hfl]; omega) ?_ ?_
    · rw [(e _ _).1]
      show [(k.set c x).getD c 0] = _
      rw [getD_set_self (by omega)]
    · rw [(e _ _).2, NT.Emp.gather_set_off]
      rw [mem_freeAxes]
      simp

/-- Two axes moved to the end. -/
lemma moveaxis_last2 (a : Arr α) {n c d : ℕ} (hn : a.ndim = n) (hc : c < n) (hd : d < n) (hcd : c ≠ d) :
    (a.moveaxis [c, d] [n - 1, n - 2]).shape = gather (freeAxes n [c, d]) a.shape ++ [a.shape.getD d 0, a.shape.getD c 0] ∧
    ∀ k x y, k.length = n → (a.moveaxis [c, d] [n - 1, n - 2]).get (gather (freeAxes n [c, d]) k ++ [x, y]) = a.get ((k.set d x).set c y) := by
  subst hn
  have h2 : 2 ≤ a.ndim := by omega
  have hf : freeAxes a.ndim [a.ndim - 1, a.ndim - 2] = List.range (a.ndim - 2) := freeAxes_of List.pairwise_lt_range fun x => by
    simp only [List.mem_range, List.mem_cons, List.not_mem_nil, or_false]
    omega
  have hfl : (freeAxes a.ndim [c, d]).length = a.ndim - 2 := by
    have := freeAxes_length (n := a.ndim) (D := [c, d]) (by simpa using hcd) (by simp [hc, hd])
    simp only [List.length_cons, List.length_nil] at this
    omega
  have e : ∀ (k : List ℕ) x y, gather [a.ndim - 1, a.ndim - 2] (gather (freeAxes a.ndim [c, d]) k ++ [x, y]) = [y, x] ∧
      gather (freeAxes a.ndim [a.ndim - 1, a.ndim - 2]) (gather (freeAxes a.ndim [c, d]) k ++ [x, y]) = gather (freeAxes a.ndim [c, d]) k := fun k x y => by
    constructor
    · have hl : (gather (freeAxes a.ndim [c, d]) k).length = a.ndim - 2 := by simp [gather, hfl]
      show [(_ ++ _ : List ℕ).getD _ 0, (_ ++ _ : List ℕ).getD _ 0] = _
      rw [List.getD_append_right _ _ _ _ (by omega), List.getD_append_right _ _ _ _ (by omega), hl, Nat.sub_self, show a.ndim - 1 - (a.ndim - 2) = 1 by omega]
      rfl
    · rw [hf]
      exact gather_range_append (by simp [gather, hfl])
  have hnd : ([a.ndim - 1, a.ndim - 2] : List ℕ).Nodup := by simp; omega
  have hlt : ∀ k ∈ ([a.ndim - 1, a.ndim - 2] : List ℕ), k < a.ndim := by simp; omega
  refine ⟨?_, fun k x y hk => ?_⟩
  · refine moveaxis_shape_eq a rfl hnd hlt (by simp [gather, hfl]; omega) ?_ ?_
    · rw [(e _ _ _).1]
      rfl
    · rw [(e _ _ _).2]
  · refine moveaxis_read a (src := [c, d]) (dst := [a.ndim - 1, a.ndim - 2]) rfl (by simpa using hcd) (by simp [hc, hd]) hnd hlt (by simp [hk]) (by simp [gather, hfl]; omega) ?_ ?_
    · rw [(e _ _ _).1]
      show [((k.set d x).set c y).getD c 0, ((k.set d x).set c y).getD d 0] = _
      rw [getD_set_self (by simp; omega), getD_set_ne hcd.symm, getD_set_self (by omega)]
    · rw [(e _ _ _).2, NT.Emp.gather_set_off, NT.Emp.gather_set_off]
      · rw [mem_freeAxes]
        simp
      · rw [mem_freeAxes]
        simp

/-- Two axes after the first `m` moved to the end, in the opposite order. -/
lemma moveaxis_pair (a : Arr α) {m N : ℕ} (hN : a.ndim = N) {s q : List ℕ} {G c : ℕ} (hs : a.shape = s ++ ([G, c] ++ q)) (hm : s.length = m) :
    (a.moveaxis [m, m + 1] [N - 1, N - 2]).shape = s ++ q ++ [c, G] ∧
    ∀ u t x y, u.length = m → t.length = q.length → (a.moveaxis [m, m + 1] [N - 1, N - 2]).get (u ++ t ++ [y, x]) = a.get (u ++ ([x, y] ++ t)) := by
  subst hN
  have hN : a.ndim = m + 2 + q.length := by
    show a.shape.length = _
    rw [hs]
    simp [hm]
    omega
  have hf : freeAxes a.ndim [a.ndim - 1, a.ndim - 2] = List.range (m + q.length) := freeAxes_of List.pairwise_lt_range fun x => by
    simp only [List.mem_range, List.mem_cons, List.not_mem_nil, or_false]
    omega
  have hf' : freeAxes a.ndim [m, m + 1] = List.range m ++ List.range' (m + 2) q.length := freeAxes_of (by
      rw [List.pairwise_append]
      refine ⟨List.pairwise_lt_range, List.pairwise_lt_range', fun x hx y hy => ?_⟩
      rw [List.mem_range] at hx
      rw [List.mem_range'_1] at hy
      omega) fun x => by
    simp only [List.mem_append, List.mem_range, List.mem_range'_1, List.mem_cons, List.not_mem_nil, or_false]
    omega
  have e : ∀ (u t : List ℕ) x y, u.length = m → t.length = q.length → gather [a.ndim - 1, a.ndim - 2] (u ++ t ++ [y, x]) = [x, y] ∧
      gather (freeAxes a.ndim [a.ndim - 1, a.ndim - 2]) (u ++ t ++ [y, x]) = u ++ t ∧ gather [m, m + 1] (u ++ ([x, y] ++ t)) = [x, y] ∧
      gather (freeAxes a.ndim [m, m + 1]) (u ++ ([x, y] ++ t)) = u ++ t := fun u t x y hu ht => by
    refine ⟨?_, ?_, ?_, ?_⟩
    · have hl : (u ++ t).length = a.ndim - 2 := by simp [hu, ht]; omega
      show [(_ ++ _ : List ℕ).getD _ 0, (_ ++ _ : List ℕ).getD _ 0] = _
      rw [List.getD_append_right _ _ _ _ (by omega), List.getD_append_right _ _ _ _ (by omega), hl, Nat.sub_self, show a.ndim - 1 - (a.ndim - 2) = 1 by omega]
      rfl
    · rw [hf]
      exact gather_range_append (by simp [hu, ht])
    · exact gather_range'_append (u := u) (v := [x, y]) (w := t) (s := m) (n := 2) hu rfl
    · rw [hf', gather_append, gather_range_append hu, ← List.append_assoc]
      have := gather_range'_append (u := u ++ [x, y]) (v := t) (w := []) (s := m + 2) (n := q.length) (by simp [hu]) ht
      rw [List.append_nil] at this
      rw [this]
  have hnd : ([a.ndim - 1, a.ndim - 2] : List ℕ).Nodup := by simp; omega
  have hlt : ∀ k ∈ ([a.ndim - 1, a.ndim - 2] : List ℕ), k < a.ndim := by simp; omega
  refine ⟨?_, fun u t x y hu ht => ?_⟩
  · obtain ⟨e1, e2, e3, e4⟩ := e s q G c hm rfl
    refine moveaxis_shape_eq a rfl hnd hlt (by simp [hm]; omega) ?_ ?_
    · rw [e1, hs, e3]
    · rw [e2, hs, e4]
  · obtain ⟨e1, e2, e3, e4⟩ := e u t x y hu ht
    refine moveaxis_read a (src := [m, m + 1]) (dst := [a.ndim - 1, a.ndim - 2]) rfl (by simp) (by simp; omega) hnd hlt (by simp [hu, ht]; omega) (by simp [hu, ht]; omega) ?_ ?_
    · rw [e1, e3]
    · rw [e2, e4]

/-- The last two axes exchanged. -/
lemma moveaxis_swap (a : Arr α) {N : ℕ} (hN : a.ndim = N) {s : List ℕ} {G c : ℕ} (hs : a.shape = s ++ [G, c]) :
    (a.moveaxis [N - 1, N - 2] [N - 2, N - 1]).shape = s ++ [c, G] ∧
    ∀ u x y, u.length = s.length → (a.moveaxis [N - 1, N - 2] [N - 2, N - 1]).get (u ++ [y, x]) = a.get (u ++ [x, y]) := by
  subst hN
  have hN : a.ndim = s.length + 2 := by
    show a.shape.length = _
    rw [hs]
    simp
  have e : ∀ (u : List ℕ) x y, u.length = s.length → gather [a.ndim - 1, a.ndim - 2] (u ++ [x, y]) = [y, x] ∧ gather [a.ndim - 2, a.ndim - 1] (u ++ [x, y]) = [x, y] ∧
      gather (List.range s.length) (u ++ [x, y]) = u := fun u x y hu => by
    have e1 : (u ++ [x, y]).getD (a.ndim - 1) 0 = y := by
      rw [List.getD_append_right _ _ _ _ (by omega), hu, show a.ndim - 1 - s.length = 1 by omega]
      rfl
    have e2 : (u ++ [x, y]).getD (a.ndim - 2) 0 = x := by
      rw [List.getD_append_right _ _ _ _ (by omega), hu, show a.ndim - 2 - s.length = 0 by omega]
      rfl
    refine ⟨?_, ?_, gather_range_append hu⟩
    · show [(u ++ [x, y]).getD _ 0, (u ++ [x, y]).getD _ 0] = _
      rw [e1, e2]
    · show [(u ++ [x, y]).getD _ 0, (u ++ [x, y]).getD _ 0] = _
      rw [e1, e2]
  have hf : freeAxes a.ndim [a.ndim - 1, a.ndim - 2] = List.range s.length := freeAxes_of List.pairwise_lt_range fun x => by
    simp only [List.mem_range, List.mem_cons, List.not_mem_nil, or_false]
    omega
  have hf' : freeAxes a.ndim [a.ndim - 2, a.ndim - 1] = List.range s.length := freeAxes_of List.pairwise_lt_range fun x => by
    simp only [List.mem_range, List.mem_cons, List.not_mem_nil, or_false]
    omega
  have hnd : ([a.ndim - 2, a.ndim - 1] : List ℕ).Nodup := by simp; omega
  have hlt : ∀ k ∈ ([a.ndim - 2, a.ndim - 1] : List ℕ), k < a.ndim := by simp; omega
  refine ⟨?_, fun u x y hu => ?_⟩
  · refine moveaxis_shape_eq a rfl hnd hlt (by simp; omega) ?_ ?_
    · rw [hs, (e s _ _ rfl).1, (e s _ _ rfl).2.1]
    · rw [hs, hf, hf', (e s _ _ rfl).2.2, (e s _ _ rfl).2.2]
  · refine moveaxis_read a (src := [a.ndim - 1, a.ndim - 2]) (dst := [a.ndim - 2, a.ndim - 1]) rfl (by simp; omega) (by simp; omega) hnd hlt (by simp [hu]; omega) (by simp [hu]; omega) ?_ ?_
    · rw [(e u _ _ hu).1, (e u _ _ hu).2.1]
    · rw [hf, hf', (e u _ _ hu).2.2, (e u _ _ hu).2.2]

end NT.Rules
