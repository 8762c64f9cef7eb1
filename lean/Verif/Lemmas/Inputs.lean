import Verif.Model.Inputs
import Verif.Lemmas.Dot

/-!
# Lemmas about the covariances of inputs
-/

namespace NT
namespace Inputs
open Arr Spec
variable {α : Type} [Field α]

lemma newAxis_eq (ba ca : ℕ) : ba - (if ba > ca then 1 else 0) = newAxis ba ca := by
  unfold newAxis; split <;> rfl

lemma newAxis_le {ba ca m : ℕ} (hne : ba ≠ ca) (hb : ba < m + 2) (hc : ca < m + 2) : newAxis ba ca ≤ m := by
  unfold newAxis; split <;> omega

lemma getD_actIdx_c (ba ca : ℕ) (b c : ℕ) (p : List ℕ) (hne : ba ≠ ca) (hb : ba < p.length + 2)
    (hc : ca < p.length + 2) : (actIdx ba ca b c p).getD ca 0 = c :=
  (gather_act ba ca b c p hne hb hc).2.2

lemma covDiagBatchDiagSpatial_holds (x : Arr α) (ba ca n C : ℕ) (S : List ℕ) (hne : ba ≠ ca)
    (hb : ba < S.length + 2) (hc : ca < S.length + 2) (hx : x.shape = actIdx ba ca n C S) :
    Holds (covDiagBatchDiagSpatial x ba ca) [n] S S true false fun b p q =>
      ((List.range C).map fun c => x.get (actIdx ba ca (b.getD 0 0) c p) *
        x.get (actIdx ba ca (b.getD 0 0) c q)).sum := by
  have hk := newAxis_le hne hb hc
  unfold covDiagBatchDiagSpatial
  simp only [newAxis_eq]
  set r := (x.map fun v => v ^ 2).sumAxis ca with hr
  have hrs : r.shape = S.insertIdx (newAxis ba ca) n := by
    show x.shape.eraseIdx ca = _
    rw [hx, actIdx_insert ba ca n C S hne hb hc, List.eraseIdx_insertIdx_self]
  obtain ⟨h1, h2⟩ := moveaxis_front r (newAxis ba ca) n S hk hrs
  refine ⟨rfl, fun _ => rfl, ?_, ?_⟩
  · rw [h1, pos_diag]; rfl
  · intro b p q hb' hp hq hpq
    obtain rfl := hpq rfl
    obtain ⟨i, hi, rfl⟩ : ∃ i, i < n ∧ b = [i] := by
      rw [inRange_cons_right] at hb'
      obtain ⟨a, t, ha, ht, e⟩ := hb'
      simp at e
      exact ⟨a, ht, by rw [ha, e]⟩
    rw [pos_diag]
    show (r.moveaxis _ _).get (i :: rv false p) = _
    rw [show rv false p = p from rfl, h2 i p hp.length]
    show ((List.range (x.shape.getD ca 0)).map fun c => (x.get _) ^ 2).sum = _
    rw [hx, getD_actIdx_c ba ca n C S hne hb hc]
    congr 1
    refine List.map_congr_left fun c _ => ?_
    rw [← actIdx_insert ba ca i c p hne (by rw [hp.length]; exact hb) (by rw [hp.length]; exact hc), pow_two]
    rfl

lemma gather3 (ba ca i c m : ℕ) (p : List ℕ) (hne : ba ≠ ca) (hb : ba < m + 2) (hc : ca < m + 2)
    (hp : p.length = m) : gather [ba] (actIdx ba ca i c p) = [i] ∧
      gather [ca] (actIdx ba ca i c p) = [c] ∧ gather (restAxes (m + 2) ba ca) (actIdx ba ca i c p) = p := by
  subst hp
  obtain ⟨g1, g2, g3⟩ := gather_act ba ca i c p hne hb hc
  exact ⟨by simpa [gather] using g2, by simpa [gather] using g3, g1⟩

lemma nodup2 {a b : ℕ} (h : a ≠ b) : ([a] ++ [b]).Nodup := by simp [h]

lemma covDiagBatchFullSpatial_holds (x : Arr α) (ba ca n C : ℕ) (S : List ℕ) (hne : ba ≠ ca)
    (hb : ba < S.length + 2) (hc : ca < S.length + 2) (hx : x.shape = actIdx ba ca n C S) :
    ∃ z, covDiagBatchFullSpatial x ba ca = .ok z ∧ Holds z [n] S S false false fun b p q =>
      ((List.range C).map fun c => x.get (actIdx ba ca (b.getD 0 0) c p) *
        x.get (actIdx ba ca (b.getD 0 0) c q)).sum := by
  have hnd : x.ndim = S.length + 2 := by
    unfold ndim; rw [hx, actIdx_length ba ca n C S hne hb hc]
  have hh : ([ba] ++ [ca]).Nodup ∧ ∀ k ∈ [ba] ++ [ca], k < x.ndim := ⟨nodup2 hne, by simp; omega⟩
  obtain ⟨r, hr, hrs, hrg⟩ := dotGeneral_ok x x [ca] [ca] [ba] [ba] hh hh rfl rfl
  have hfree : freeAxes x.ndim ([ba] ++ [ca]) = restAxes (S.length + 2) ba ca := by rw [hnd]; rfl
  have hg := fun i c p => gather3 ba ca i c S.length p hne hb hc
  rw [hfree] at hrs hrg
  obtain ⟨s1, s2, s3⟩ := hg n C S rfl
  rw [hx, s1, s3] at hrs
  obtain ⟨z, hz, hzs, hzg⟩ := zipAxes_ok r [n] S S [] (by simp [hrs]) rfl
  refine ⟨z, ?_, rfl, by simp, ?_, ?_⟩
  · unfold covDiagBatchFullSpatial
    rw [hr]
    have e : r.ndim = [n].length + 2 * S.length := by unfold ndim; rw [hrs]; simp; omega
    show zipAxes r 1 none = _
    rw [zipAxes_none, e]
    exact hz
  · rw [hzs, pos_full]; simp [rv]
  · intro b p q hb' hp hq _
    obtain ⟨i, rfl⟩ : ∃ i, b = [i] := by
      have := hb'.length
      exact List.length_eq_one_iff.1 this
    rw [pos_full]
    have := hzg [i] p q [] rfl hp.length hq.length rfl
    simp only [List.append_nil] at this
    show z.get ([i] ++ interleave p q) = _
    rw [this]
    have := hrg [i] p q (fun c => actIdx ba ca i (c.getD 0 0) p) (fun c => actIdx ba ca i (c.getD 0 0) q) rfl
      (by rw [restAxes_length _ _ _ hne hb hc]; exact hp.length) ?_ ?_
    · rw [this]
      have hcs : gather [ca] x.shape = [C] := by rw [hx]; exact s2
      rw [hcs, sumOver_singleton]
      rfl
    · intro c hcl
      obtain ⟨c, rfl⟩ := List.length_eq_one_iff.1 hcl
      obtain ⟨g1, g2, g3⟩ := hg i c p hp.length
      exact ⟨by rw [actIdx_length _ _ _ _ _ hne (by rw [hp.length]; exact hb) (by rw [hp.length]; exact hc), hp.length, hnd], g1, g3, g2⟩
    · intro c hcl
      obtain ⟨c, rfl⟩ := List.length_eq_one_iff.1 hcl
      obtain ⟨g1, g2, g3⟩ := hg i c q hq.length
      exact ⟨by rw [actIdx_length _ _ _ _ _ hne (by rw [hq.length]; exact hb) (by rw [hq.length]; exact hc), hq.length, hnd], g1, g3, g2⟩

lemma inRange_two {b : List ℕ} {n m : ℕ} (h : InRange b [n, m]) : ∃ i j, b = [i, j] ∧ i < n ∧ j < m := by
  rw [inRange_cons_right] at h
  obtain ⟨i, t, rfl, hi, h⟩ := h
  rw [inRange_cons_right] at h
  obtain ⟨j, t, rfl, hj, h⟩ := h
  rw [inRange_nil_right] at h
  exact ⟨i, j, by rw [h], hi, hj⟩

lemma actIdx_end (m i j : ℕ) (p : List ℕ) (hp : p.length = m) : actIdx m (m + 1) i j p = p ++ [i, j] := by
  have := (actIdx_join p [] [] i j).1
  simpa [hp] using this

lemma freeAxes_rest (m ba ca : ℕ) (_hne : ba ≠ ca) (hb : ba < m + 2) :
    freeAxes (m + 2) (restAxes (m + 2) ba ca ++ [ca]) = [ba] := by
  have hnd : (freeAxes (m + 2) (restAxes (m + 2) ba ca ++ [ca])).Nodup := List.nodup_range.filter _
  have hmem : ∀ k, k ∈ freeAxes (m + 2) (restAxes (m + 2) ba ca ++ [ca]) ↔ k = ba := by
    intro k
    simp only [freeAxes, restAxes, List.mem_filter, List.mem_range, List.contains_eq_mem, List.mem_append,
      Bool.not_eq_true', decide_eq_false_iff_not, not_or, List.mem_cons, List.not_mem_nil,
      or_false, not_and, not_not]
    constructor
    · rintro ⟨h1, h2, h3⟩
      by_contra h
      exact h3 (h2 h1 h)
    · rintro rfl
      exact ⟨hb, fun _ h => absurd rfl h, _hne⟩
  refine List.perm_singleton.1 ((List.perm_ext_iff_of_nodup hnd (by simp)).2 fun k => ?_)
  simp [hmem]

lemma covFullBatchDiagSpatial_holds (x y : Arr α) (ba ca n m C : ℕ) (S : List ℕ) (hne : ba ≠ ca)
    (hb : ba < S.length + 2) (hc : ca < S.length + 2) (hx : x.shape = actIdx ba ca n C S)
    (hy : y.shape = actIdx ba ca m C S) :
    ∃ z, covFullBatchDiagSpatial x y ba ca = .ok z ∧ Holds z [n, m] S S true false fun b p q =>
      ((List.range C).map fun c => x.get (actIdx ba ca (b.getD 0 0) c p) *
        y.get (actIdx ba ca (b.getD 1 0) c q)).sum := by
  have hnd : x.ndim = S.length + 2 := by
    unfold ndim; rw [hx, actIdx_length ba ca n C S hne hb hc]
  have hnd' : y.ndim = S.length + 2 := by
    unfold ndim; rw [hy, actIdx_length ba ca m C S hne hb hc]
  have hg := fun i c p => gather3 ba ca i c S.length p hne hb hc
  have hnod : (restAxes (S.length + 2) ba ca ++ [ca]).Nodup ∧
      ∀ k ∈ restAxes (S.length + 2) ba ca ++ [ca], k < S.length + 2 := by
    constructor
    · rw [List.nodup_append]
      refine ⟨List.nodup_range.filter _, by simp, ?_⟩
      intro a ha b hb hab
      simp [restAxes] at ha hb
      omega
    · intro k hk
      simp [restAxes] at hk
      omega
  obtain ⟨s1, s2, s3⟩ := hg n C S rfl
  obtain ⟨t1, t2, t3⟩ := hg m C S rfl
  obtain ⟨r, hr, hrs, hrg⟩ := dotGeneral_ok x y [ca] [ca] (restAxes (S.length + 2) ba ca)
    (restAxes (S.length + 2) ba ca) (by rw [hnd]; exact hnod) (by rw [hnd']; exact hnod)
    (by rw [hx, hy, s2, t2]) (by rw [hx, hy, s3, t3])
  rw [hnd, hnd', freeAxes_rest _ _ _ hne hb] at hrg hrs
  rw [hx, hy, s3, s1, t1] at hrs
  have hrs' : r.shape = actIdx S.length (S.length + 1) n m S := by
    rw [hrs, actIdx_end _ _ _ S rfl]; simp
  have hrnd : r.ndim = S.length + 2 := by unfold ndim; rw [hrs]; simp
  obtain ⟨h1, h2⟩ := moveaxis_front2 r S.length (S.length + 1) n m S (by omega) (by omega) (by omega) hrs'
  refine ⟨r.moveaxis [S.length, S.length + 1] [0, 1], ?_, rfl, fun _ => rfl, ?_, ?_⟩
  · unfold covFullBatchDiagSpatial
    have e : ((List.range x.ndim).filter fun i => !([ba, ca].contains i)) = restAxes (S.length + 2) ba ca := by
      rw [hnd]; rfl
    simp only [e, hr, bind, Except.bind, hrnd]
    rfl
  · rw [h1, pos_diag]; rfl
  · intro b p q hb' hp hq hpq
    obtain rfl := hpq rfl
    obtain ⟨i, j, rfl, hi, hj⟩ := inRange_two hb'
    rw [pos_diag]
    show (r.moveaxis _ _).get (i :: j :: p) = _
    rw [h2 i j p hp.length, actIdx_end _ _ _ p hp.length, show p ++ [i, j] = p ++ [i] ++ [j] by simp]
    have hl : ∀ k c, (actIdx ba ca k c p).length = S.length + 2 := by
      intro k c
      rw [actIdx_length _ _ _ _ _ hne (by rw [hp.length]; exact hb) (by rw [hp.length]; exact hc), hp.length]
    have := hrg p [i] [j] (fun c => actIdx ba ca i (c.getD 0 0) p) (fun c => actIdx ba ca j (c.getD 0 0) p)
      (by rw [restAxes_length _ _ _ hne hb hc]; exact hp.length) rfl ?_ ?_
    · rw [this, hx, s2, sumOver_singleton]
      rfl
    · intro c hcl
      obtain ⟨c, rfl⟩ := List.length_eq_one_iff.1 hcl
      obtain ⟨g1, g2, g3⟩ := hg i c p hp.length
      exact ⟨hl i c, g3, g1, g2⟩
    · intro c hcl
      obtain ⟨c, rfl⟩ := List.length_eq_one_iff.1 hcl
      obtain ⟨g1, g2, g3⟩ := hg j c p hp.length
      exact ⟨hl j c, g3, g1, g2⟩

lemma two_inserts (S T : List ℕ) (k n m : ℕ) (hS : S.length = T.length) (hk : k ≤ S.length) :
    S.insertIdx k n ++ T.insertIdx k m = actIdx k (S.length + 1 + k) n m (S ++ T) := by
  rw [insertIdx_app S k n hk, insertIdx_app T k m (by omega)]
  have := (actIdx_join (S.take k) (S.drop k ++ T.take k) (T.drop k) n m).1
  have e1 : (S.take k).length = k := by simp; omega
  have e2 : (S.drop k ++ T.take k).length = S.length := by simp; omega
  rw [e1, e2] at this
  rw [show S.length + 1 + k = k + 1 + S.length by omega]
  have e3 : S.take k ++ (S.drop k ++ T.take k) ++ T.drop k = S ++ T := by
    rw [List.append_assoc, List.append_assoc, List.take_append_drop, ← List.append_assoc,
      List.take_append_drop]
  rw [e3] at this
  rw [this]
  simp

lemma covFullBatchFullSpatial_holds (x y : Arr α) (ba ca n m C : ℕ) (S T : List ℕ) (hne : ba ≠ ca)
    (hST : S.length = T.length)
    (hb : ba < S.length + 2) (hc : ca < S.length + 2) (hx : x.shape = actIdx ba ca n C S)
    (hy : y.shape = actIdx ba ca m C T) :
    ∃ z, covFullBatchFullSpatial x y ba ca = .ok z ∧ Holds z [n, m] S T false false fun b p q =>
      ((List.range C).map fun c => x.get (actIdx ba ca (b.getD 0 0) c p) *
        y.get (actIdx ba ca (b.getD 1 0) c q)).sum := by
  have hbT : ba < T.length + 2 := by omega
  have hcT : ca < T.length + 2 := by omega
  have hnd : x.ndim = S.length + 2 := by
    unfold ndim; rw [hx, actIdx_length ba ca n C S hne hb hc]
  have hnd' : y.ndim = S.length + 2 := by
    unfold ndim; rw [hy, actIdx_length ba ca m C T hne hbT hcT, hST]
  have hk := newAxis_le hne hb hc
  set k := newAxis ba ca with hkd
  have hg : ∀ i c p, p.length = S.length →
      gather (freeAxes (S.length + 2) [ca]) (actIdx ba ca i c p) = p.insertIdx k i ∧
      gather [ca] (actIdx ba ca i c p) = [c] := by
    intro i c p hp
    rw [actIdx_insert ba ca i c p hne (by omega) (by omega)]
    have hl : (p.insertIdx k i).length = S.length + 1 := by
      rw [List.length_insertIdx, if_pos (by omega), hp]
    have := gather_free_one (p.insertIdx k i) ca c (by omega)
    rw [hl] at this
    exact this
  obtain ⟨s1, s2⟩ := hg n C S rfl
  obtain ⟨t1, t2⟩ := hg m C T hST.symm
  obtain ⟨r, hr, hrs, hrg⟩ := dotGeneral_ok x y [ca] [ca] [] [] ⟨by simp, by simp; omega⟩
    ⟨by simp, by simp; omega⟩ (by rw [hx, hy, s2, t2]) rfl
  simp only [List.nil_append, hnd, hnd'] at hrs hrg
  rw [hx, hy, s1, t1] at hrs
  simp only [gather, List.map_nil, List.nil_append] at hrs
  rw [two_inserts S T k n m hST hk] at hrs
  obtain ⟨h1, h2⟩ := moveaxis_front2 r k (S.length + 1 + k) n m (S ++ T) (by omega) (by simp; omega)
    (by simp; omega) hrs
  obtain ⟨z, hz, hzs, hzg⟩ := zipAxes_ok (r.moveaxis [k, S.length + 1 + k] [0, 1]) [n, m] S T []
    (by simp [h1]) hST
  refine ⟨z, ?_, hST, by simp, ?_, ?_⟩
  · unfold covFullBatchFullSpatial tensordot
    simp only [hr, bind, Except.bind, newAxis_eq, ← hkd, hnd]
    rw [zipAxes_none]
    have e : (r.moveaxis [k, S.length + 1 + k] [0, 1]).ndim = [n, m].length + 2 * S.length := by
      unfold ndim; rw [h1]; simp; omega
    rw [show S.length + 2 - 1 + k = S.length + 1 + k by omega, e]
    exact hz
  · rw [hzs, pos_full]; simp [rv]
  · intro b p q hb' hp hq _
    obtain ⟨i, j, rfl, hi, hj⟩ := inRange_two hb'
    have := hzg [i, j] p q [] rfl hp.length hq.length rfl
    simp only [List.append_nil] at this
    rw [pos_full]
    show z.get ([i, j] ++ interleave p q) = _
    rw [this]
    show (r.moveaxis _ _).get (i :: j :: (p ++ q)) = _
    have hp' := hp.length
    have hq' := hq.length
    rw [h2 i j (p ++ q) (by simp; omega)]
    have e := two_inserts p q k i j (by omega) (by omega)
    rw [hp'] at e
    rw [← e]
    have := hrg [] (p.insertIdx k i) (q.insertIdx k j) (fun c => actIdx ba ca i (c.getD 0 0) p)
      (fun c => actIdx ba ca j (c.getD 0 0) q) rfl ?_ ?_ ?_
    · rw [List.nil_append] at this
      rw [this, hx, s2, sumOver_singleton]
      rfl
    · have := congrArg List.length (hg i 0 p hp').1
      rw [gather_length] at this
      exact this.symm
    · intro c hcl
      obtain ⟨c, rfl⟩ := List.length_eq_one_iff.1 hcl
      obtain ⟨g1, g2⟩ := hg i c p hp'
      exact ⟨by rw [actIdx_length _ _ _ _ _ hne (by omega) (by omega)]; omega, rfl, g1, g2⟩
    · intro c hcl
      obtain ⟨c, rfl⟩ := List.length_eq_one_iff.1 hcl
      obtain ⟨g1, g2⟩ := hg j c q (by omega)
      exact ⟨by rw [actIdx_length _ _ _ _ _ hne (by omega) (by omega)]; omega, rfl, g1, g2⟩

end Inputs
end NT
