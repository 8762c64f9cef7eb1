import Verif.Model.Aggregate
import Verif.Spec.Aggregate
import Verif.Lemmas.MoveAxis2
import Verif.Lemmas.Empirical
import Verif.Lemmas.Box
import Verif.Props.C22
import Verif.Props.C16

/-!
# Aggregation of activations
-/

namespace NT.Aggregate
open NT Arr Spec NT.Emp
open scoped BigOperators

/-- The axes of an aggregation of inputs of rank `n`. -/
structure Axes (n : ℕ) (agg : List ℕ) (ba ca : ℕ) : Prop where
  sorted : agg.Pairwise (· < ·)
  lt : ∀ a ∈ agg, a < n
  hba : ba < n
  hca : ca < n
  ne : ba ≠ ca
  nba : ba ∉ agg
  nca : ca ∉ agg

variable {n : ℕ} {agg : List ℕ} {ba ca : ℕ}

lemma Axes.nodup (h : Axes n agg ba ca) : agg.Nodup := h.sorted.imp fun h => ne_of_lt h

/-- The axes of the result of the dense contraction, as axes of the inputs. -/
def densePerm (n : ℕ) (agg : List ℕ) (ba : ℕ) : List ℕ := [ba] ++ freeAxes n (ba :: agg) ++ agg

lemma Axes.consNodup (h : Axes n agg ba ca) : (ba :: agg).Nodup := List.nodup_cons.2 ⟨h.nba, h.nodup⟩

lemma Axes.consLt (h : Axes n agg ba ca) : ∀ k ∈ ba :: agg, k < n := by
  intro k hk
  rcases List.mem_cons.1 hk with rfl | hk
  · exact h.hba
  · exact h.lt k hk

lemma densePerm_perm (h : Axes n agg ba ca) : (densePerm n agg ba).Perm (List.range n) :=
  freeAxes_perm' n [ba] agg h.consNodup h.consLt

lemma free_eq (n : ℕ) (agg : List ℕ) (ba : ℕ) : C22.free n agg [ba] = freeAxes n (ba :: agg) := by
  unfold C22.free freeAxes
  refine List.filter_congr fun a _ => ?_
  by_cases h1 : a ∈ agg <;> by_cases h2 : a = ba <;> simp [h1, h2]

lemma outC (h : Axes n agg ba ca) :
    ([ba] ++ freeAxes n (ba :: agg))[Utils.axisAfterDot ca agg [ba] none]? = some ca := by
  have := C22.axisAfterDot_lhs n 0 agg [ba] [] [] ⟨by
    have := h.consNodup
    rw [List.nodup_append]
    refine ⟨h.nodup, by simp, ?_⟩
    rintro a ha b hb rfl
    rw [List.mem_singleton] at hb
    exact h.nba (hb ▸ ha), fun a ha => h.consLt a (by simpa [or_comm] using ha)⟩ ca h.hca h.nca
  rw [if_neg (by simp [h.ne.symm])] at this
  have h2 := congrArg (Option.map fun o => match o with | .batch _ => ba | .lhs a => a | .rhs a => a) this
  rw [← List.getElem?_map] at h2
  unfold C22.outputAxes at h2
  simpa [C22.free, List.map_append, List.map_map, Function.comp_def, ← free_eq] using h2

lemma axis_batch (agg : List ℕ) (ba : ℕ) : Utils.axisAfterDot ba agg [ba] none = 0 := by simp [Utils.axisAfterDot]

lemma dense_moves (h : Axes n agg ba ca) :
    Moves n (densePerm n agg ba) ([ba, ca] ++ agg) ([Utils.axisAfterDot ba agg [ba] none, Utils.axisAfterDot ca agg [ba] none] ++ List.range' (n - agg.length) agg.length) := by
  have hlen := (densePerm_perm h).length_eq
  simp only [densePerm, List.length_append, List.length_range, List.length_singleton] at hlen
  have hc := outC h
  obtain ⟨hlt, hget⟩ := List.getElem?_eq_some_iff.1 hc
  simp only [List.length_append, List.length_singleton] at hlt
  have hne : Utils.axisAfterDot ca agg [ba] none ≠ 0 := by
    intro e
    rw [e] at hc
    simp at hc
    exact h.ne hc
  rw [axis_batch]
  refine Moves.of_sorted (densePerm_perm h) ?_ ?_ ?_ ?_
  · rw [List.nodup_append]
    refine ⟨by simp [hne.symm], List.nodup_range', ?_⟩
    rintro a ha b hb rfl
    rw [List.mem_range'_1] at hb
    simp only [List.mem_cons, List.not_mem_nil, or_false] at ha
    omega
  · intro k hk
    simp only [List.mem_append, List.mem_cons, List.not_mem_nil, or_false, List.mem_range'_1] at hk
    omega
  · rw [gather_append]
    congr 1
    · unfold gather densePerm
      simp only [List.map_cons, List.map_nil]
      congr 1
      congr 1
      rw [List.getD_append _ _ _ _ (by simp; omega), List.getD_eq_getElem?_getD, hc]
      rfl
    · exact gather_range' ([ba] ++ freeAxes n (ba :: agg)) agg [] _ _ (by simp [densePerm]) (by simp; omega) rfl
  · unfold densePerm
    refine middle_sorted (freeAxes_sorted _ _) (by simp; omega) ?_ ?_
    · intro k hk
      simp only [List.length_singleton, Nat.lt_one_iff] at hk
      simp [hk]
    · intro k hk
      simp only [List.length_singleton, List.mem_append, List.mem_range'_1]
      right
      omega

lemma freeAxes_tail (K : ℕ) : freeAxes (1 + K + K) ([0] ++ List.range' 1 K) = List.range' (1 + K) K := by
  have e : List.range (1 + K + K) = ([0] ++ List.range' 1 K) ++ List.range' (1 + K) K := by
    have := range_split 1 K K
    rw [this]
    rfl
  unfold freeAxes
  rw [e, List.filter_append, List.filter_eq_nil_iff.2, List.filter_eq_self.2, List.nil_append]
  · intro a ha
    rw [List.mem_range'_1] at ha
    simp [List.contains_eq_mem, List.mem_range'_1]
    omega
  · intro a ha
    simp only [List.contains_eq_mem, ha, decide_true, Bool.not_true, Bool.false_eq_true, not_false_eq_true]

/-- The dense implementation. -/
lemma applyDense_ok (l : Layer) (x A : Arr ℝ) (hl : l.aggAxes x.ndim = .ok (agg, ba, ca)) (h : Axes x.ndim agg ba ca)
    (hA : A.shape = [x.shape.getD ba 0] ++ gather agg x.shape ++ gather agg x.shape) :
    ∃ y, l.applyDense x A = .ok y ∧ y.shape = x.shape ∧
      ∀ i, i.length = x.ndim → y.get i = aggregate (gather agg x.shape) agg ba (denseWeight A) x.get i := by
  have hAn : A.ndim = 1 + agg.length + agg.length := by unfold ndim; rw [hA]; simp; omega
  obtain ⟨z, hz, hzs, hzg⟩ := dotGeneral_ok x A agg (List.range' 1 agg.length) [ba] [0] ⟨h.consNodup, h.consLt⟩
    ⟨by
      refine List.nodup_cons.2 ⟨by simp, List.nodup_range'⟩, by
      intro k hk
      simp only [List.singleton_append, List.mem_cons, List.mem_range'_1] at hk
      omega⟩
    (by
      rw [gather_range' [x.shape.getD ba 0] (gather agg x.shape) (gather agg x.shape) 1 agg.length hA rfl (by simp)])
    (by rw [hA]; rfl)
  rw [hAn, freeAxes_tail] at hzs
  rw [hAn, freeAxes_tail] at hzg
  rw [gather_range' ([x.shape.getD ba 0] ++ gather agg x.shape) (gather agg x.shape) [] (1 + agg.length) agg.length (by rw [hA]; simp) (by simp; omega) (by simp)] at hzs
  have hzs' : z.shape = gather (densePerm x.ndim agg ba) x.shape := by
    rw [hzs]
    unfold densePerm
    rw [gather_append, gather_append]
    rfl
  have hzn : z.ndim = x.ndim := by
    unfold ndim
    rw [hzs']
    have := (densePerm_perm h).length_eq
    rw [List.length_range] at this
    rw [gather_length, this]
    rfl
  have hm := dense_moves h
  obtain ⟨b1, b2⟩ := hm.back z hzn
  refine ⟨_, ?_, b1 x.shape rfl hzs', ?_⟩
  · unfold Layer.applyDense
    simp only [hl, bind, Except.bind, hz, hzn]
    rfl
  · intro i hi
    refine (b2 i hi).trans ?_
    have := hzg [i.getD ba 0] (gather (freeAxes x.ndim (ba :: agg)) i) (gather agg i) (fun c => putAt agg c i)
      (fun c => [i.getD ba 0] ++ c ++ gather agg i) rfl (by simp) (fun c hc => ?_) (fun c hc => ?_)
    · unfold densePerm
      rw [gather_append, gather_append]
      refine this.trans ?_
      rw [sumOver_eq_box]
      unfold aggregate denseWeight
      exact Finset.sum_congr rfl fun c _ => mul_comm _ _
    · refine ⟨by rw [putAt_length, hi], ?_, ?_, ?_⟩
      · exact gather_putAt_off (by simp [h.nba]) (by simp [hi, h.hba])
      · refine gather_putAt_off (fun a ha hn => ?_) fun a ha => ?_
        · exact (mem_freeAxes.1 ha).2 (by simp [hn])
        · rw [hi]; exact (mem_freeAxes.1 ha).1
      · exact gather_putAt h.nodup (fun a ha => hi ▸ h.lt a ha) hc
    · refine ⟨by simp [hc]; omega, rfl, ?_, ?_⟩
      · exact gather_range' ([i.getD ba 0] ++ c) (gather agg i) [] _ _ (by simp) (by simp [hc]; omega) (by simp)
      · exact gather_range' [i.getD ba 0] c (gather agg i) _ _ rfl rfl hc.symm

end NT.Aggregate
