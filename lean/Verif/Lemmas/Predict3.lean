import Verif.Lemmas.Predict2
import Verif.Lemmas.Backend

/-!
# From matrices back to arrays
-/

namespace NT.Predict
open NT Arr Spec Matrix

/-- Two arrays with the same matrix have the same entries. -/
lemma view_entries {n : ℕ} {T S R s tj uj : List ℕ} {a b : Arr ℝ} (hs : s.length = n) (hT : ∀ k ∈ T, k < n)
    (hS : S = sizesAt (otherAxes n T) s) (hR : R = sizesAt T s) (h : viewAt tj n T S R a = viewAt uj n T S R b) {i : List ℕ}
    (hi : InRange i s) : a.get (tj ++ i) = b.get (uj ++ i) := by
  have hp : gather (otherAxes n T) i ∈ box S := by
    rw [mem_box, hS]
    exact gather_inRange hi fun k hk => by
      rw [hs]
      simpa using (List.mem_filter.1 hk).1
  have hr : gather T i ∈ box R := by
    rw [mem_box, hR]
    exact gather_inRange hi fun k hk => by
      rw [hs]
      exact hT k hk
  have := congrFun (congrFun h ⟨_, hp⟩) ⟨_, hr⟩
  simp only [viewAt] at this
  rwa [join_gather (hi.length.trans hs)] at this

lemma exists_joinIdx {n : ℕ} {T S R s : List ℕ} (hs : s.length = n) (hT : ∀ k ∈ T, k < n)
    (hS : S = sizesAt (otherAxes n T) s) (hR : R = sizesAt T s) {i : List ℕ} (hi : InRange i s) :
    ∃ (p : box S) (r : box R), i = joinIdx n T p.1 r.1 := by
  have hp : gather (otherAxes n T) i ∈ box S := by
    rw [mem_box, hS]
    exact gather_inRange hi fun k hk => by
      rw [hs]
      simpa using (List.mem_filter.1 hk).1
  have hr : gather T i ∈ box R := by
    rw [mem_box, hR]
    exact gather_inRange hi fun k hk => by
      rw [hs]
      exact hT k hk
  exact ⟨⟨_, hp⟩, ⟨_, hr⟩, (join_gather (hi.length.trans hs)).symm⟩

lemma initView_some {n : ℕ} {T S R : List ℕ} {f : Arr ℝ} (h : f.shape.length = n) :
    initView n T S R (some f) = viewAt [] n T S R f := by
  ext p r
  rw [initView_apply]
  simp only [viewAt, List.nil_append]
  split_ifs with h0
  · rw [h0] at h
    have : joinIdx n T p.1 r.1 = [] := by rw [← List.length_eq_zero_iff, join_length, ← h]; rfl
    rw [this]
  · rfl

lemma initView_view (n : ℕ) (T S R s : List ℕ) (f : Arr ℝ) :
    initView n T S R (some f) = viewAt [] n T S R ⟨s, initGet f⟩ := by
  ext p r
  rw [initView_apply]
  rfl

lemma outIs_eqv {n : ℕ} {T S R s : List ℕ} {t u : Arr ℝ} {a b : Arr ℝ} {F G : ℝ → Matrix (box S) (box R) ℝ} (hs : s.length = n)
    (hT : ∀ k ∈ T, k < n) (hS : S = sizesAt (otherAxes n T) s) (hR : R = sizesAt T s) (ha : OutIs (some a) t n T S R s F)
    (hb : OutIs (some b) u n T S R s G) (htu : t.shape = u.shape) (h : ∀ tj, InRange tj t.shape → F (t.get tj) = G (u.get tj)) :
    a ≋ b := by
  obtain ⟨a', ea, a1, a2⟩ := ha
  obtain ⟨b', eb, b1, b2⟩ := hb
  cases ea
  cases eb
  refine ⟨by rw [a1, b1, htu], fun i hi => ?_⟩
  rw [a1] at hi
  have hi2 : i.length = t.shape.length + s.length := by rw [hi.length, List.length_append]
  have hsplit := List.take_append_drop t.shape.length i
  rw [← hsplit] at hi ⊢
  have hl : (i.take t.shape.length).length = t.shape.length := by
    rw [List.length_take, hi2]
    omega
  rw [inRange_append hl] at hi
  refine view_entries hs hT hS hR ?_ hi.2
  rw [a2 _ hi.1, b2 _ (htu ▸ hi.1), h _ hi.1]

end NT.Predict
