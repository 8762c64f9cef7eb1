import Verif.Lemmas.Aggregate2
import Verif.Lemmas.KernelDot
import Verif.Lemmas.Rules3

/-!
# Aggregation of covariance arrays
-/

namespace NT.Aggregate
open NT Spec NT.Emp NT.KernelDot
open NT.Arr
open scoped BigOperators

variable {α : Type}

/-! ## `argsort` and transposition -/

lemma argsort_perm (l : List ℕ) : (argsort l).Perm (List.range l.length) := List.mergeSort_perm _ _

lemma gather_argsort {l : List ℕ} {n : ℕ} (h : l.Perm (List.range n)) : gather (argsort l) l = List.range n := by
  have hl : l.length = n := by simpa using h.length_eq
  have hp := gather_perm_right (hl ▸ argsort_perm l) h
  refine List.Perm.eq_of_pairwise (le := (· ≤ ·)) (fun a b _ _ h1 h2 => le_antisymm h1 h2) ?_ (List.pairwise_le_range) hp
  unfold gather argsort
  rw [List.pairwise_map]
  refine (List.pairwise_mergeSort (le := fun i j => decide (l.getD i 0 ≤ l.getD j 0)) ?_ ?_ _).imp ?_
  · intro a b c h1 h2
    simp only [decide_eq_true_eq] at *
    omega
  · intro a b
    simp only [Bool.or_eq_true, decide_eq_true_eq]
    omega
  · intro a b h
    simpa using h

lemma transpose_argsort (w : Arr α) {perm : List ℕ} {n : ℕ} (h : perm.Perm (List.range n)) (hn : w.ndim = n) :
    ∃ z, Kernel.transposeE w (argsort perm) = .ok z ∧ (∀ s, s.length = n → w.shape = gather perm s → z.shape = s) ∧
      ∀ x, x.length = n → z.get x = w.get (gather perm x) := by
  have hl : perm.length = n := by simpa using h.length_eq
  have hp : (argsort perm).Perm (List.range w.ndim) := by rw [hn, ← hl]; exact argsort_perm perm
  have key : ∀ x : List ℕ, x.length = n → gather (argsort perm) (gather perm x) = x := by
    intro x hx
    rw [gather_gather _ _ _ (fun k hk => by rw [hl, ← hn]; exact List.mem_range.1 (hp.mem_iff.1 hk)), gather_argsort h, gather_range_self _ _ hx]
  refine ⟨w.transpose (argsort perm), by unfold Kernel.transposeE; rw [if_pos hp], ?_, ?_⟩
  · intro s hs e
    show gather _ w.shape = s
    rw [e, key s hs]
  · intro x hx
    conv_lhs => rw [← key x hx]
    exact transpose_get w hp (by simp [hl, hn])

lemma transpose_forth (w : Arr α) {perm : List ℕ} {n : ℕ} (h : perm.Perm (List.range n)) (hn : w.ndim = n) :
    ∃ z, Kernel.transposeE w perm = .ok z ∧ z.shape = gather perm w.shape ∧ ∀ x, x.length = n → z.get (gather perm x) = w.get x := by
  subst hn
  exact ⟨w.transpose perm, by unfold Kernel.transposeE; rw [if_pos h], rfl, fun x hx => transpose_get w h hx⟩

/-! ## Buckets of axes -/

variable {n : ℕ} {agg : List ℕ} {ba ca : ℕ}

/-- The places of the aggregated axes among the spatial axes. -/
def axPos (ba ca : ℕ) (agg : List ℕ) : List ℕ := agg.map fun a => a - (if ba < a then 1 else 0) - (if ca < a then 1 else 0)

lemma axPos_eq (ba ca : ℕ) (agg : List ℕ) : axPos ba ca agg = agg.map (spIdx ba ca) := by
  unfold axPos spIdx
  refine List.map_congr_left fun a _ => ?_
  split_ifs <;> omega

lemma Axes.mem_spatial (h : Axes n agg ba ca) {a : ℕ} (ha : a ∈ agg) : a ∈ spatialAxes n ba ca :=
  mem_spatialAxes.2 ⟨h.lt a ha, fun e => h.nba (e ▸ ha), fun e => h.nca (e ▸ ha)⟩

lemma spIdx_getD (hne : ba ≠ ca) {a : ℕ} (ha : a ∈ spatialAxes n ba ca) :
    spIdx ba ca a < (spatialAxes n ba ca).length ∧ (spatialAxes n ba ca).getD (spIdx ba ca a) 0 = a := by
  obtain ⟨k, hk, rfl⟩ := List.mem_iff_getElem.1 ha
  have := congrArg (fun l => l[k]?) (map_spIdx (n := n) hne)
  simp only [List.getElem?_map, List.getElem?_eq_getElem hk, Option.map_some, List.getElem?_range hk, Option.some.injEq] at this
  rw [this]
  exact ⟨hk, List.getD_eq_getElem _ _ hk⟩

lemma axPos_lt (h : Axes n agg ba ca) : ∀ k ∈ axPos ba ca agg, k < (spatialAxes n ba ca).length := by
  rw [axPos_eq]
  intro k hk
  obtain ⟨a, ha, rfl⟩ := List.mem_map.1 hk
  exact (spIdx_getD h.ne (h.mem_spatial ha)).1

lemma gather_axPos (h : Axes n agg ba ca) (f : ℕ → ℕ) : gather (axPos ba ca agg) ((spatialAxes n ba ca).map f) = agg.map f := by
  rw [axPos_eq]
  unfold gather
  rw [List.map_map]
  refine List.map_congr_left fun a ha => ?_
  obtain ⟨h1, h2⟩ := spIdx_getD h.ne (h.mem_spatial ha)
  simp only [Function.comp]
  rw [List.getD_eq_getElem _ _ (by simpa using h1), List.getElem_map]
  rw [List.getD_eq_getElem _ _ h1] at h2
  rw [h2]

lemma axPos_nodup (h : Axes n agg ba ca) : (axPos ba ca agg).Nodup := by
  rw [axPos_eq]
  refine List.Nodup.map_on ?_ h.nodup
  intro x hx y hy e
  rw [← (spIdx_getD h.ne (h.mem_spatial hx)).2, ← (spIdx_getD h.ne (h.mem_spatial hy)).2, e]

lemma filter_shift (start m : ℕ) (l : List ℕ) :
    (List.range' start m).filter (fun a => decide (a ∉ l.map (· + start))) = (freeAxes m l).map (· + start) := by
  have e : List.range' start m = (List.range m).map (· + start) := by
    rw [List.range'_eq_map_range]
    exact List.map_congr_left fun a _ => Nat.add_comm _ _
  rw [e, List.filter_map]
  congr 1
  unfold freeAxes
  refine List.filter_congr fun a _ => ?_
  simp only [Function.comp, List.contains_eq_mem]
  rw [← decide_not, decide_eq_decide]
  refine not_congr ?_
  rw [List.mem_map]
  constructor
  · rintro ⟨b, hb, he⟩
    have : b = a := by omega
    exact this ▸ hb
  · exact fun h => ⟨a, h, rfl⟩

lemma bucket (agg : List ℕ) (ba ca start m : ℕ) :
    bucketAxes agg ba ca (start + 2 * m) start =
      ((axPos ba ca agg).map (· + start), (axPos ba ca agg).map (· + (start + m)),
        (freeAxes m (axPos ba ca agg)).map (· + start), (freeAxes m (axPos ba ca agg)).map (· + (start + m))) := by
  unfold bucketAxes
  have e1 : (start + 2 * m - start) / 2 = m := by omega
  have e2 : start + 2 * m - (start + m) = m := by omega
  have e3 : agg.map (fun a => a - (if ba < a then 1 else 0) - (if ca < a then 1 else 0) + start) = (axPos ba ca agg).map (· + start) := by
    unfold axPos; rw [List.map_map]; rfl
  have e4 : ((axPos ba ca agg).map (· + start)).map (· + m) = (axPos ba ca agg).map (· + (start + m)) := by
    rw [List.map_map]
    exact List.map_congr_left fun a _ => by simp [Nat.add_assoc]
  simp only [e1, e2, e3, e4, filter_shift]

lemma gather_first {l u p q : List ℕ} {st : ℕ} (hu : u.length = st) (hl : ∀ k ∈ l, k < p.length) : gather (l.map (· + st)) (u ++ p ++ q) = gather l p := by
  rw [List.append_assoc, Rules.gather_shift' _ _ _ hu, Rules.gather_left _ _ _ hl]

lemma gather_second {l u p q : List ℕ} {st m : ℕ} (hu : u.length = st) (hp : p.length = m) : gather (l.map (· + (st + m))) (u ++ p ++ q) = gather l q :=
  Rules.gather_shift' _ _ _ (by simp [hu, hp])

lemma gather_lead {u p q : List ℕ} {st : ℕ} (hu : u.length = st) : gather (List.range st) (u ++ p ++ q) = u :=
  gather_range u (p ++ q) st (by simp) hu.symm

/-- The permutation of `transpose`. -/
def restorePerm (start m : ℕ) (ax : List ℕ) : List ℕ :=
  List.range start ++ (freeAxes m ax).map (· + start) ++ ax.map (· + start) ++ (freeAxes m ax).map (· + (start + m)) ++ ax.map (· + (start + m))

/-- The permutation of `agg`. -/
def aggPerm (start m : ℕ) (ax : List ℕ) : List ℕ :=
  List.range start ++ ax.map (· + start) ++ ax.map (· + (start + m)) ++ (freeAxes m ax).map (· + start) ++ (freeAxes m ax).map (· + (start + m))

lemma restorePerm_perm {m : ℕ} {ax : List ℕ} (start : ℕ) (hn : ax.Nodup) (hl : ∀ k ∈ ax, k < m) :
    (restorePerm start m ax).Perm (List.range (start + 2 * m)) := by
  have hp := freeAxes_perm m ax hn hl
  have h1 := hp.map (· + start)
  have h2 := hp.map (· + (start + m))
  rw [List.map_append] at h1 h2
  have e : List.range (start + 2 * m) = List.range start ++ (List.range m).map (· + start) ++ (List.range m).map (· + (start + m)) := by
    have e0 : start + 2 * m = (start + m) + m := by omega
    rw [e0, List.range_add, List.range_add]
    congr 1
    · congr 1
      exact List.map_congr_left fun a _ => Nat.add_comm _ _
    · exact List.map_congr_left fun a _ => Nat.add_comm _ _
  rw [e]
  have := ((List.Perm.refl (List.range start)).append h1).append h2
  simpa [restorePerm, List.append_assoc] using this

lemma aggPerm_perm {m : ℕ} {ax : List ℕ} (start : ℕ) (hn : ax.Nodup) (hl : ∀ k ∈ ax, k < m) :
    (aggPerm start m ax).Perm (List.range (start + 2 * m)) := by
  refine List.Perm.trans ?_ (restorePerm_perm start hn hl)
  unfold aggPerm restorePerm
  simp only [List.append_assoc]
  refine List.Perm.append_left _ ?_
  set A := ax.map (· + start)
  set A' := ax.map (· + (start + m))
  set F := (freeAxes m ax).map (· + start)
  set F' := (freeAxes m ax).map (· + (start + m))
  -- A A' F F' ~ F A F' A'
  have h1 : (A ++ (A' ++ (F ++ F'))).Perm ((F ++ F') ++ (A ++ A')) := by
    have := List.perm_append_comm (l₁ := A ++ A') (l₂ := F ++ F')
    simpa using this
  refine h1.trans ?_
  rw [List.append_assoc]
  refine List.Perm.append_left _ ?_
  have := (List.perm_append_comm (l₁ := F') (l₂ := A)).append_right A'
  simpa using this

lemma gather_restore {m : ℕ} {ax u p q : List ℕ} {start : ℕ} (hl : ∀ k ∈ ax, k < m) (hu : u.length = start) (hp : p.length = m) :
    gather (restorePerm start m ax) (u ++ p ++ q) = u ++ gather (freeAxes m ax ++ ax) p ++ gather (freeAxes m ax ++ ax) q := by
  unfold restorePerm
  rw [gather_append, gather_append, gather_append, gather_append, gather_lead hu,
    gather_first hu (fun k hk => hp ▸ (mem_freeAxes.1 hk).1), gather_first hu (fun k hk => hp ▸ hl k hk),
    gather_second hu hp, gather_second hu hp, gather_append, gather_append]
  simp

lemma gather_agg {m : ℕ} {ax u p q : List ℕ} {start : ℕ} (hl : ∀ k ∈ ax, k < m) (hu : u.length = start) (hp : p.length = m) :
    gather (aggPerm start m ax) (u ++ p ++ q) = u ++ gather ax p ++ gather ax q ++ (gather (freeAxes m ax) p ++ gather (freeAxes m ax) q) := by
  unfold aggPerm
  rw [gather_append, gather_append, gather_append, gather_append, gather_lead hu,
    gather_first hu (fun k hk => hp ▸ hl k hk), gather_first hu (fun k hk => hp ▸ (mem_freeAxes.1 hk).1),
    gather_second hu hp, gather_second hu hp]
  simp

/-! ## The dense implementation: restoring the order of the axes -/

lemma unzip_holds {a : Arr α} {B S T : List ℕ} {F : List ℕ → List ℕ → List ℕ → α} (h : Holds a B S T false false F) {st : ℕ} (hst : st = B.length) :
    ∃ z, unzipAxes a st = .ok z ∧ z.shape = B ++ S ++ T ∧
      ∀ b p q, InRange b B → InRange p S → InRange q T → z.get (b ++ p ++ q) = F b p q := by
  subst hst
  have hs : a.shape = B ++ interleave S T ++ [] := by rw [h.shape]; simp [pos]
  obtain ⟨z, h1, h2, h3⟩ := unzipAxes_ok a B S T [] hs h.rank
  have hn : a.ndim = B.length + 2 * S.length := by unfold ndim; rw [hs]; simp [interleave_length h.rank]
  refine ⟨z, by rw [unzipAxes_none, hn]; exact h1, by rw [h2]; simp, ?_⟩
  intro b p q hb hp hq
  have := h3 b p q [] hb.length hp.length hq.length rfl
  rw [List.append_nil, List.append_nil] at this
  rw [this]
  exact h.get b p q hb hp hq (by simp)

lemma zip_holds {a : Arr α} {B S T : List ℕ} {F : List ℕ → List ℕ → List ℕ → α} (hr : S.length = T.length) (hs : a.shape = B ++ S ++ T)
    (hg : ∀ b p q, InRange b B → InRange p S → InRange q T → a.get (b ++ p ++ q) = F b p q) {st : ℕ} (hst : st = B.length) :
    ∃ z, zipAxes a st = .ok z ∧ Holds z B S T false false F := by
  subst hst
  obtain ⟨z, h1, h2, h3⟩ := zipAxes_ok a B S T [] (by rw [hs]; simp) hr
  have hn : a.ndim = B.length + 2 * S.length := by unfold ndim; rw [hs]; simp [hr]; omega
  refine ⟨z, by rw [zipAxes_none, hn]; exact h1, hr, by simp, by rw [h2]; simp [pos], ?_⟩
  intro b p q hb hp hq _
  have := h3 b p q [] hb.length hp.length hq.length rfl
  rw [List.append_nil, List.append_nil] at this
  simp only [pos, Bool.false_eq_true, if_false]
  rw [this]
  exact hg b p q hb hp hq

/-- The order in which the dense contraction leaves the spatial axes. -/
def order (m : ℕ) (ax : List ℕ) : List ℕ := freeAxes m ax ++ ax

lemma restore_holds {a : Arr α} {B S T : List ℕ} {F : List ℕ → List ℕ → List ℕ → α} {m : ℕ} (h : Axes n agg ba ca)
    (hm : m = (spatialAxes n ba ca).length) (hS : S.length = m) (hT : T.length = m) {db : Bool} (hB : B.length = if db then 1 else 2)
    (ha : Holds a B (gather (order m (axPos ba ca agg)) S) (gather (order m (axPos ba ca agg)) T) false false F) :
    ∃ z, restore agg ba ca a db = .ok z ∧
      Holds z B S T false false fun b p q => F b (gather (order m (axPos ba ca agg)) p) (gather (order m (axPos ba ca agg)) q) := by
  set ax := axPos ba ca agg with hax
  have hn := axPos_nodup h
  have hl : ∀ k ∈ ax, k < m := hm ▸ axPos_lt h
  have hol : (order m ax).length = m := by unfold order; simpa using (freeAxes_perm m ax hn hl).length_eq
  have hlt : ∀ k ∈ order m ax, k < m := fun k hk => List.mem_range.1 ((freeAxes_perm m ax hn hl).mem_iff.1 hk)
  obtain ⟨u, u1, u2, u3⟩ := unzip_holds ha hB.symm
  have hund : u.ndim = B.length + 2 * m := by unfold ndim; rw [u2]; simp [hol]; omega
  obtain ⟨t, t1, t2, t3⟩ := transpose_argsort u (restorePerm_perm B.length hn hl) hund
  have hts : t.shape = B ++ S ++ T := t2 _ (by simp [hS, hT]; omega) (by rw [gather_restore hl rfl hS, u2]; rfl)
  have htg : ∀ b p q, InRange b B → InRange p S → InRange q T → t.get (b ++ p ++ q) = F b (gather (order m ax) p) (gather (order m ax) q) := by
    intro b p q hb hp hq
    have lb := hb.length
    have lp := hp.length
    have lq := hq.length
    rw [t3 _ (by simp [lb, lp, lq, hS, hT]; omega), gather_restore hl lb (lp.trans hS)]
    exact u3 b _ _ hb (gather_inRange hp fun k hk => hS ▸ hlt k hk) (gather_inRange hq fun k hk => hT ▸ hlt k hk)
  obtain ⟨z, z1, z2⟩ := zip_holds (hS.trans hT.symm) hts htg hB.symm
  refine ⟨z, ?_, z2⟩
  unfold restore
  have hnd : a.ndim ≠ 0 := by
    unfold ndim
    rw [ha.shape]
    simp
    intro h0
    rw [h0] at hB
    cases db <;> simp at hB
  rw [if_neg hnd]
  simp only [u1, bind, Except.bind]
  have e := bucket agg ba ca B.length m
  rw [← hund, hB] at e
  have t1' := t1
  unfold restorePerm at t1'
  rw [hB] at t1'
  simp only [e, t1']
  exact z1

/-! ## The sparse implementation -/

lemma putAt_inRange' {T t i S : List ℕ} (hi : InRange i S) (ht : InRange t (gather T S)) : InRange (putAt T t i) S := by
  rw [inRange_iff]
  refine ⟨by rw [putAt_length]; exact hi.length, fun k hk => ?_⟩
  rw [putAt_getD (by rw [hi.length]; exact hk)]
  split_ifs with hkT
  · have h1 := List.idxOf_lt_length_iff.2 hkT
    have := (inRange_iff.1 ht).2 (T.idxOf k) (by simpa using h1)
    rw [gather_getD _ _ _ h1, List.getElem_idxOf] at this
    exact this
  · exact (inRange_iff.1 hi).2 k hk

/-- `pass_messages` at a pair of vertices. -/
lemma passMessages_get {G q1 q2 : List ℕ} {p1 p2 : Arr ℤ} {B1 B2 b1 b2 : ℕ} (hs1 : Senders G p1) (hs2 : Senders G p2) (h1 : IsEdgeList p1 B1 G.length)
    (h2 : IsEdgeList p2 B2 G.length) (hq1 : InRange q1 G) (hq2 : InRange q2 G) (k : Arr ℝ) (i : List ℕ) :
    (passMessages (idsOf G (vtx G p1 0 b1) (p1.shape.getD 1 0)) (idsOf G (vtx G p2 0 b2) (p2.shape.getD 1 0))
      (idsOf G (vtx G p1 1 b1) (p1.shape.getD 1 0)) (idsOf G (vtx G p2 1 b2) (p2.shape.getD 1 0)) k).get (ravel G q1 :: ravel G q2 :: i) =
      ∑ c ∈ box G, edgeWeight G p1 b1 c q1 * ∑ c' ∈ box G, edgeWeight G p2 b2 c' q2 * k.get (ravel G c :: ravel G c' :: i) := by
  set E1 := p1.shape.getD 1 0
  set E2 := p2.shape.getD 1 0
  set D := fun e => (segmentSum (takeRows (row (takeRows k (idsOf G (vtx G p1 0 b1) E1)) e) (idsOf G (vtx G p2 0 b2) E2)) (idsOf G (vtx G p2 1 b2) E2)
    (k.shape.getD 1 0)).get (ravel G q2 :: i) with hD
  have e1 := segment_sum (v := vtx G p1 1 b1) (E := E1) hq1 (fun e c hc => vtx_inRange h1 hq1 hc) D
  refine Eq.trans e1 ?_
  rw [← edge_sum (b := b1) rfl (fun e he hr => hs1.some h1 hq1 he hr) fun c => ∑ c' ∈ box G, edgeWeight G p2 b2 c' q2 * k.get (ravel G c :: ravel G c' :: i)]
  refine Finset.sum_congr rfl fun e he => ?_
  rw [Finset.mem_range] at he
  by_cases hr : vtx G p1 1 b1 e = some q1
  · obtain ⟨c, hc, hsc⟩ := hs1.some h1 hq1 he hr
    rw [if_pos hr, if_pos hr, hsc, hD]
    simp only
    rw [message_sum hs2 h2 hq2]
    refine Finset.sum_congr rfl fun c' _ => ?_
    congr 1
    exact takeRows_get he hsc k _
  · rw [if_neg hr, if_neg hr]

/-- `fn(s1, s2, r1, r2, k)`, the vectorised `pass_messages`. -/
def passAll (db : Bool) (s1 r1 s2 r2 : ℕ → List ℤ) (k : Arr ℝ) : Arr ℝ :=
  if db then vmap0 (k.shape.getD 0 0) fun b => passMessages (s1 b) (s2 b) (r1 b) (r2 b) (row k b)
  else vmap0 (k.shape.getD 0 0) fun b1 => vmap0 (k.shape.getD 1 0) fun b2 => passMessages (s1 b1) (s2 b2) (r1 b1) (r2 b2) (row (row k b1) b2)

lemma passAll_shape {db : Bool} {s1 r1 s2 r2 : ℕ → List ℤ} {k : Arr ℝ} {B R : List ℕ} {V1 V2 : ℕ} (hB : B.length = if db then 1 else 2)
    (hk : k.shape = B ++ [V1, V2] ++ R) : (passAll db s1 r1 s2 r2 k).shape = k.shape := by
  cases db
  · obtain ⟨n1, n2, rfl⟩ : ∃ n1 n2, B = [n1, n2] := List.length_eq_two.1 (by simpa using hB)
    simp [passAll, vmap0, passMessages, segmentSum, takeRows, row, hk]
  · obtain ⟨n1, rfl⟩ : ∃ n1, B = [n1] := List.length_eq_one_iff.1 (by simpa using hB)
    simp [passAll, vmap0, passMessages, segmentSum, takeRows, row, hk]

lemma passAll_get {G q1 q2 : List ℕ} {p1 p2 : Arr ℤ} {B1 B2 : ℕ} (hs1 : Senders G p1) (hs2 : Senders G p2) (h1 : IsEdgeList p1 B1 G.length)
    (h2 : IsEdgeList p2 B2 G.length) (hq1 : InRange q1 G) (hq2 : InRange q2 G) (k : Arr ℝ) {db : Bool} {b : List ℕ} (hb : b.length = if db then 1 else 2)
    {s1 r1 s2 r2 : ℕ → List ℤ} (e1 : ∀ b, s1 b = idsOf G (vtx G p1 0 b) (p1.shape.getD 1 0)) (e2 : ∀ b, r1 b = idsOf G (vtx G p1 1 b) (p1.shape.getD 1 0))
    (e3 : ∀ b, s2 b = idsOf G (vtx G p2 0 b) (p2.shape.getD 1 0)) (e4 : ∀ b, r2 b = idsOf G (vtx G p2 1 b) (p2.shape.getD 1 0)) (i : List ℕ) :
    (passAll db s1 r1 s2 r2 k).get (b ++ [ravel G q1, ravel G q2] ++ i) =
      ∑ c ∈ box G, edgeWeight G p1 ((dbl b).getD 0 0) c q1 * ∑ c' ∈ box G, edgeWeight G p2 ((dbl b).getD 1 0) c' q2 * k.get (b ++ [ravel G c, ravel G c'] ++ i) := by
  cases db
  · obtain ⟨b1, b2, rfl⟩ : ∃ n1 n2, b = [n1, n2] := List.length_eq_two.1 (by simpa using hb)
    have := passMessages_get (b1 := b1) (b2 := b2) hs1 hs2 h1 h2 hq1 hq2 (row (row k b1) b2) i
    rw [← e1, ← e2, ← e3, ← e4] at this
    exact this
  · obtain ⟨b1, rfl⟩ : ∃ n1, b = [n1] := List.length_eq_one_iff.1 (by simpa using hb)
    have := passMessages_get (b1 := b1) (b2 := b1) hs1 hs2 h1 h2 hq1 hq2 (row k b1) i
    rw [← e1, ← e2, ← e3, ← e4] at this
    exact this

/-- Merging the two groups of vertex axes. -/
lemma ravel_mid2 {B G R b c c' i : List ℕ} (hb : b.length = B.length) (hc : c.length = G.length) (hc' : c'.length = G.length) :
    ravel (B ++ [G.prod, G.prod] ++ R) (b ++ [ravel G c, ravel G c'] ++ i) = ravel (B ++ G ++ G ++ R) (b ++ c ++ c' ++ i) := by
  have h1 := ravel_mid (B := B ++ G) (G := G) (R := R) (b := b ++ c) (c := c') (i := i) (by simp [hb, hc]) hc'
  have h2 := ravel_mid (B := B) (G := G) (R := [G.prod] ++ R) (b := b) (c := c) (i := [ravel G c'] ++ i) hb hc
  rw [← h1]
  simpa using h2

lemma aggArray_holds {a : Arr ℝ} {B S T G : List ℕ} {F : List ℕ → List ℕ → List ℕ → ℝ} (h : Axes n agg ba ca)
    (hS : S.length = (spatialAxes n ba ca).length) (hT : T.length = (spatialAxes n ba ca).length) {db : Bool} (hB : B.length = if db then 1 else 2)
    (hGS : gather (axPos ba ca agg) S = G) (hGT : gather (axPos ba ca agg) T = G)
    (ha : Holds a B S T false false fun b => F (dbl b)) {p1 p2 : Arr ℤ} {B1 B2 : ℕ} (hs1 : Senders G p1) (hs2 : Senders G p2)
    (h1 : IsEdgeList p1 B1 G.length) (h2 : IsEdgeList p2 B2 G.length)
    {s1 r1 s2 r2 : ℕ → List ℤ} (e1 : ∀ b, s1 b = idsOf G (vtx G p1 0 b) (p1.shape.getD 1 0)) (e2 : ∀ b, r1 b = idsOf G (vtx G p1 1 b) (p1.shape.getD 1 0))
    (e3 : ∀ b, s2 b = idsOf G (vtx G p2 0 b) (p2.shape.getD 1 0)) (e4 : ∀ b, r2 b = idsOf G (vtx G p2 1 b) (p2.shape.getD 1 0)) :
    ∃ z, aggArray agg ba ca G.prod a db s1 r1 s2 r2 = .ok z ∧
      Holds z B S T false false fun b => aggregateCov G G (axPos ba ca agg) (edgeWeight G p1) (edgeWeight G p2) F (dbl b) := by
  have hn := axPos_nodup h
  have hl := axPos_lt h
  set m := (spatialAxes n ba ca).length with hm
  have hGl : G.length = agg.length := by rw [← hGS]; simp [axPos]
  have hal : (axPos ba ca agg).length = G.length := by rw [← hGS]; simp
  generalize hax : axPos ba ca agg = ax at *
  obtain ⟨u, u1, u2, u3⟩ := unzip_holds ha hB.symm
  have hund : u.ndim = B.length + 2 * m := by unfold ndim; rw [u2]; simp [hS, hT]; omega
  have hperm := aggPerm_perm B.length hn hl
  obtain ⟨w, w1, w2, w3⟩ := transpose_forth u hperm hund
  set R := gather (freeAxes m ax) S ++ gather (freeAxes m ax) T with hR
  have hws : w.shape = B ++ G ++ G ++ R := by rw [w2, u2, gather_agg hl rfl hS, hGS, hGT]
  have hplen : (aggPerm B.length m ax).length = B.length + 2 * m := by simpa using hperm.length_eq
  -- merging
  have d1 : w.shape.take B.length = B := by rw [hws, List.append_assoc, List.append_assoc, List.take_left]
  have d2 : w.shape.drop (B.length + 2 * agg.length) = R := by
    rw [hws, List.drop_left' (by simp [hGl]; omega)]
  have hprod : (B ++ [G.prod, G.prod] ++ R).prod = w.shape.prod := by rw [hws]; simp
  set k := w.reshape (B ++ [G.prod, G.prod] ++ R) with hk
  have kget : ∀ b c c' i, InRange b B → InRange c G → InRange c' G → InRange i R →
      k.get (b ++ [ravel G c, ravel G c'] ++ i) = w.get (b ++ c ++ c' ++ i) := by
    intro b c c' i hb hc hc' hi
    refine reshape_get w _ ?_ ?_
    · rw [hws]
      refine (inRange_append (by simp [hb.length, hc.length, hc'.length])).2 ⟨(inRange_append (by simp [hb.length, hc.length])).2
        ⟨(inRange_append hb.length).2 ⟨hb, hc⟩, hc'⟩, hi⟩
    · rw [hws]
      exact ravel_mid2 hb.length hc.length hc'.length
  set o := passAll db s1 r1 s2 r2 k with ho
  have hos : o.shape = B ++ [G.prod, G.prod] ++ R := passAll_shape hB rfl
  have hsz : w.shape.prod = o.shape.prod := by rw [hos, hprod]
  set v := o.reshape w.shape with hv
  have hvn : v.ndim = B.length + 2 * m := by show w.shape.length = _; rw [w2, gather_length, hplen]
  have vget : ∀ b c c' i, InRange b B → InRange c G → InRange c' G → InRange i R →
      v.get (b ++ c ++ c' ++ i) = o.get (b ++ [ravel G c, ravel G c'] ++ i) := by
    intro b c c' i hb hc hc' hi
    refine reshape_get o _ ?_ ?_
    · rw [hos]
      refine (inRange_append (by simp [hb.length])).2 ⟨(inRange_append hb.length).2 ⟨hb, ?_⟩, hi⟩
      exact List.Forall₂.cons (ravel_lt hc) (List.Forall₂.cons (ravel_lt hc') List.Forall₂.nil)
    · rw [hos, hws]
      exact (ravel_mid2 hb.length hc.length hc'.length).symm
  obtain ⟨t, t1, t2, t3⟩ := transpose_argsort v hperm hvn
  have hts : t.shape = B ++ S ++ T := t2 _ (by simp [hS, hT]; omega) (by show w.shape = _; rw [w2, u2])
  have htg : ∀ b p q, InRange b B → InRange p S → InRange q T →
      t.get (b ++ p ++ q) = aggregateCov G G ax (edgeWeight G p1) (edgeWeight G p2) F (dbl b) p q := by
    intro b p q hb hp hq
    have lb := hb.length
    have lp := hp.length
    have lq := hq.length
    have ip : InRange (gather ax p) G := hGS ▸ gather_inRange hp fun k hk => hS ▸ hl k hk
    have iq : InRange (gather ax q) G := hGT ▸ gather_inRange hq fun k hk => hT ▸ hl k hk
    have fp : InRange (gather (freeAxes m ax) p) (gather (freeAxes m ax) S) := gather_inRange hp fun k hk => hS ▸ (mem_freeAxes.1 hk).1
    have fq : InRange (gather (freeAxes m ax) q) (gather (freeAxes m ax) T) := gather_inRange hq fun k hk => hT ▸ (mem_freeAxes.1 hk).1
    have iR : InRange (gather (freeAxes m ax) p ++ gather (freeAxes m ax) q) R := (inRange_append (by simp)).2 ⟨fp, fq⟩
    rw [t3 _ (by simp [lb, lp, lq, hS, hT]; omega), gather_agg hl lb (lp.trans hS), vget _ _ _ _ hb ip iq iR,
      ho, passAll_get hs1 hs2 h1 h2 ip iq k (lb.trans hB) e1 e2 e3 e4]
    unfold aggregateCov
    refine Finset.sum_congr rfl fun c hc => ?_
    rw [Finset.mul_sum]
    refine Finset.sum_congr rfl fun c' hc' => ?_
    rw [mem_box] at hc hc'
    rw [kget _ _ _ _ hb hc hc' iR]
    have lc : c.length = ax.length := hc.length.trans hal.symm
    have lc' : c'.length = ax.length := hc'.length.trans hal.symm
    have ep : InRange (putAt ax c p) S := putAt_inRange' hp (by rw [hGS]; exact hc)
    have eq : InRange (putAt ax c' q) T := putAt_inRange' hq (by rw [hGT]; exact hc')
    have key := w3 (b ++ putAt ax c p ++ putAt ax c' q) (by simp [putAt_length, lb, lp, lq, hS, hT]; omega)
    rw [gather_agg hl lb (by rw [putAt_length, lp, hS]), gather_putAt hn (fun a ha => by rw [lp, hS]; exact hl a ha) lc,
      gather_putAt hn (fun a ha => by rw [lq, hT]; exact hl a ha) lc',
      gather_putAt_off (fun a ha hn => (mem_freeAxes.1 ha).2 hn) (fun a ha => by rw [lp, hS]; exact (mem_freeAxes.1 ha).1),
      gather_putAt_off (fun a ha hn => (mem_freeAxes.1 ha).2 hn) (fun a ha => by rw [lq, hT]; exact (mem_freeAxes.1 ha).1)] at key
    rw [key, u3 b _ _ hb ep eq]
    unfold gather
    ring
  obtain ⟨z, z1, z2⟩ := zip_holds (hS.trans hT.symm) hts htg hB.symm
  refine ⟨z, ?_, z2⟩
  unfold aggArray
  have hnd : a.ndim ≠ 0 := by
    unfold ndim
    rw [ha.shape]
    simp
    intro h0
    rw [h0] at hB
    cases db <;> simp at hB
  rw [if_neg hnd]
  simp only [u1, bind, Except.bind]
  have e := bucket agg ba ca B.length m
  rw [← hund, hB, hax] at e
  unfold aggPerm at w1 t1
  rw [hB] at w1 t1 d1 d2
  simp only [e, w1, d1, d2]
  have e5 : w.reshapeE (B ++ [G.prod, G.prod] ++ R) = .ok k := by unfold reshapeE; rw [if_pos hprod]
  have e6 : o.reshapeE w.shape = .ok v := by unfold reshapeE; rw [if_pos hsz]
  rw [e5]
  simp only
  have e7 : (if db = true then vmap0 (k.shape.getD 0 0) fun b => passMessages (s1 b) (s2 b) (r1 b) (r2 b) (row k b)
      else vmap0 (k.shape.getD 0 0) fun b1 => vmap0 (k.shape.getD 1 0) fun b2 => passMessages (s1 b1) (s2 b2) (r1 b1) (r2 b2) (row (row k b1) b2)) = o := rfl
  rw [e7, e6]
  simp only [t1]
  exact z1

end NT.Aggregate
