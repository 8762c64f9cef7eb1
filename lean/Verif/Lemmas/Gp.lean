import Verif.Lemmas.Cho
import Verif.Model.Gp

/-!
# Matrices in `gp_inference`
-/

namespace NT.Predict
open NT Arr Spec Matrix

variable {bk : Backend}

/-- The matrix of an array whose first axes are rows and last axes columns. -/
def catMat (A B : List ℕ) (a : Arr ℝ) : Matrix (box A) (box B) ℝ := fun p q => a.get (p.1 ++ q.1)

lemma inter_even (h : ℕ) {p q : List ℕ} (hp : p.length = h) (hq : q.length = h) :
    joinIdx (2 * h) (List.range' 0 h 2) p q = interleave q p := by
  have hl : (interleave q p).length = 2 * h := by rw [interleave_length (by rw [hp, hq]), hq]
  have h1 := join_gather (n := 2 * h) (D := List.range' 0 h 2) hl
  have e1 : gather (List.range' 0 h 2) (interleave q p) = q := by
    have := gather_even [] q p [] (by rw [hp, hq])
    simpa [hq] using this
  have e2 : gather (otherAxes (2 * h) (List.range' 0 h 2)) (interleave q p) = p := by
    rw [free_even]
    have := gather_odd [] q p [] (by rw [hp, hq])
    simpa [hp, hq] using this
  rw [e1, e2] at h1
  exact h1

/-- Axes given as natural numbers. -/
lemma axesOf_nat (axes : List ℕ) (n : ℕ) (h : ∀ k ∈ axes, k < n) :
    axesOf bk (axes.map fun a : ℕ => (a : Int)) n = .ok (bk.setIter axes.toFinset) := by
  obtain ⟨F, f1, f2⟩ := C16.canonicalizeAxis_denotes (axes.map fun a : ℕ => (a : Int)) n (by
    intro i hi
    obtain ⟨a, ha, rfl⟩ := List.mem_map.1 hi
    exact ⟨a, h a ha, Or.inl rfl⟩)
  have hF : F = axes.toFinset := by
    ext d
    rw [f2, List.mem_toFinset]
    constructor
    · rintro ⟨i, hi, hd⟩
      obtain ⟨a, ha, rfl⟩ := List.mem_map.1 hi
      obtain ⟨h4, h5⟩ := hd
      have : a = d := by
        have := h a ha
        omega
      exact this ▸ ha
    · intro hd
      exact ⟨_, List.mem_map.2 ⟨d, hd, rfl⟩, h d hd, Or.inl rfl⟩
  unfold axesOf
  rw [f1, hF]

/-- Solving against the train axes of a test-train kernel. -/
lemma choPair_ok (hb : bk.Correct) (A : Arr ℝ) (S : List ℕ) (hA : A.shape = interleave S S) (reg : ℝ) (absolute : Bool)
    (hp : (regMat reg absolute (pairMat S S A)).PosDef) (b : Arr ℝ) (S' : List ℕ) (hS' : S'.length = S.length)
    (hbs : b.shape = interleave S' S) (hS0 : S.prod ≠ 0) (hev : bk.setIter (pyRange 0 (2 * S.length) 2).toFinset = pyRange 0 (2 * S.length) 2) :
    ∃ x, choSolve bk A reg absolute b ((getAxes (2 * S.length)).1.map fun a : ℕ => (a : Int)) = .ok x ∧ x.shape = S ++ S' ∧
      catMat S S' x = (regMat reg absolute (pairMat S S A))⁻¹ * (pairMat S' S b)ᵀ := by
  have hbn : b.ndim = 2 * S.length := by rw [ndim, hbs, interleave_length hS', hS']
  have hax : axesOf bk ((getAxes (2 * S.length)).1.map fun a : ℕ => (a : Int)) b.ndim = .ok (List.range' 0 S.length 2) := by
    rw [hbn]
    unfold getAxes
    rw [axesOf_nat _ _ (by
      intro k hk
      rw [even_axes] at hk
      obtain ⟨i, hi, rfl⟩ := List.mem_range'.1 hk
      omega), hev, even_axes]
  have hS1 : S = sizesAt (otherAxes b.ndim (List.range' 0 S.length 2)) b.shape := by
    rw [hbn, free_even, ← gather_eq_sizesAt, hbs]
    have := gather_odd [] S' S [] hS'
    simpa [hS'] using this.symm
  have hR1 : S' = sizesAt (List.range' 0 S.length 2) b.shape := by
    rw [← gather_eq_sizesAt, hbs]
    have := gather_even [] S' S [] hS'
    simpa [hS'] using this.symm
  obtain ⟨x, x1, x2, x3⟩ := choSolve_ok hb A S hA reg absolute hp b _ _ S' hax hS1 hR1 hS0
  refine ⟨x, x1, x2, ?_⟩
  have hv : viewAt [] b.ndim (List.range' 0 S.length 2) S S' b = (pairMat S' S b)ᵀ := by
    ext p r
    simp only [viewAt, List.nil_append, transpose_apply, pairMat]
    rw [hbn, inter_even S.length (mem_box.1 p.2).length ((mem_box.1 r.2).length.trans hS')]
  ext p r
  rw [← hv]
  exact x3 p r

/-- Contracting the train axes. -/
lemma pairCat_ok (k x : Arr ℝ) (S' S Q : List ℕ) (hk : k.shape = interleave S' S) (hS' : S'.length = S.length) (hx : x.shape = S ++ Q) :
    ∃ z, dotGeneral k x (getAxes (2 * S.length)).2.1 (getAxes (2 * S.length)).2.2.1 [] [] = .ok z ∧ z.shape = S' ++ Q ∧
      catMat S' Q z = pairMat S' S k * catMat S Q x := by
  obtain ⟨e, e1, e2, e3⟩ := pairDot_ok k x S' S [] Q hk hS' (by simpa using hx) 0 rfl
  have hfirst : pyRange 0 (2 * S.length / 2) 1 = List.range' 0 S.length := by
    rw [Nat.mul_div_cancel_left _ (by norm_num)]
    exact pyRange_one 0 _
  refine ⟨e, by unfold getAxes; rw [odd_axes, hfirst]; exact e1, by simpa using e2, ?_⟩
  ext p q
  have h5 := e3 p.1 [] q.1 (mem_box.1 p.2).length rfl (mem_box.1 q.2).length
  rw [List.nil_append] at h5
  rw [mul_apply]
  unfold catMat
  rw [h5, sum_box]
  exact Finset.sum_congr rfl fun r _ => rfl

/-- Contracting the leading axes of two arrays. -/
lemma catCat_ok (x z : Arr ℝ) (S P Q : List ℕ) (hx : x.shape = S ++ P) (hz : z.shape = S ++ Q) :
    ∃ w, dotGeneral x z (getAxes (2 * S.length)).2.2.1 (getAxes (2 * S.length)).2.2.1 [] [] = .ok w ∧ w.shape = P ++ Q ∧
      catMat P Q w = (catMat S P x)ᵀ * catMat S Q z := by
  have hfirst : (getAxes (2 * S.length)).2.2.1 = List.range' 0 S.length := by
    unfold getAxes
    dsimp only
    rw [Nat.mul_div_cancel_left _ (by norm_num)]
    exact pyRange_one 0 _
  rw [hfirst]
  have hxn : x.ndim = 0 + S.length + P.length := by simp [ndim, hx]
  have hzn : z.ndim = 0 + S.length + Q.length := by simp [ndim, hz]
  have hg : ∀ (a b : List ℕ), a.length = S.length → gather (List.range' 0 S.length) (a ++ b) = a := by
    intro a b ha
    have := gather_range'_append [] a b
    simpa [ha] using this
  have hg2 : ∀ (a b : List ℕ) n, a.length = S.length → b.length = n → gather (List.range' (0 + S.length) n) (a ++ b) = b := by
    intro a b n ha hb
    have := gather_range'_append a b []
    simpa [ha, hb] using this
  obtain ⟨w, w1, w2, w3⟩ := dotGeneral_ok x z (List.range' 0 S.length) (List.range' 0 S.length) [] []
    ⟨by simpa using List.nodup_range', by
      intro k hk
      simp only [List.nil_append, List.mem_range'_1] at hk
      omega⟩ ⟨by simpa using List.nodup_range', by
      intro k hk
      simp only [List.nil_append, List.mem_range'_1] at hk
      omega⟩ (by rw [hx, hz, hg _ _ rfl, hg _ _ rfl]) rfl
  have f1 : freeAxes x.ndim (List.range' 0 S.length) = List.range' (0 + S.length) P.length := by
    rw [hxn, free_mid]
    simp
  have f2 : freeAxes z.ndim (List.range' 0 S.length) = List.range' (0 + S.length) Q.length := by
    rw [hzn, free_mid]
    simp
  simp only [List.nil_append, f1, f2] at w2 w3
  refine ⟨w, w1, ?_, ?_⟩
  · rw [w2, hx, hz, hg2 _ _ _ rfl rfl, hg2 _ _ _ rfl rfl]
    simp [gather]
  · ext p q
    have hp := (mem_box.1 p.2).length
    have hq := (mem_box.1 q.2).length
    have h := w3 [] p.1 q.1 (fun c => c ++ p.1) (fun c => c ++ q.1) rfl (by simpa using hp)
      (fun c hc => by
        simp only [List.length_range'] at hc
        exact ⟨by simp [hxn, hc, hp], rfl, hg2 _ _ _ hc hp, hg _ _ hc⟩)
      (fun c hc => by
        simp only [List.length_range'] at hc
        exact ⟨by simp [hzn, hc, hq], rfl, hg2 _ _ _ hc hq, hg _ _ hc⟩)
    simp only [List.nil_append] at h
    rw [mul_apply]
    unfold catMat
    rw [h, sumOver_eq_box, hx, hg _ _ rfl, sum_box]
    exact Finset.sum_congr rfl fun r _ => rfl

/-- Exchanging the two halves of the axes. -/
lemma catT_ok (x : Arr ℝ) (P : List ℕ) (h : ℕ) (hh : P.length = h) (hx : x.shape = P ++ P) :
    (x.moveaxis (getAxes (2 * h)).2.2.1 (getAxes (2 * h)).2.2.2).shape = P ++ P ∧
      catMat P P (x.moveaxis (getAxes (2 * h)).2.2.1 (getAxes (2 * h)).2.2.2) = (catMat P P x)ᵀ := by
  subst hh
  have hfirst : (getAxes (2 * P.length)).2.2.1 = List.range' 0 P.length := by
    unfold getAxes
    dsimp only
    rw [Nat.mul_div_cancel_left _ (by norm_num)]
    exact pyRange_one 0 _
  have hlast : (getAxes (2 * P.length)).2.2.2 = List.range' P.length P.length := by
    unfold getAxes
    dsimp only
    rw [Nat.mul_div_cancel_left _ (by norm_num), pyRange_one]
    congr 1
    omega
  rw [hfirst, hlast]
  have hxn : x.ndim = 0 + P.length + P.length := by simp [ndim, hx]
  have hm := moveaxis_toEnd (D := List.range' 0 P.length) x List.nodup_range' (by
    intro k hk
    simp only [List.mem_range'_1] at hk
    omega)
  have hlen : x.ndim - (List.range' 0 P.length).length = P.length := by rw [hxn]; simp
  rw [hlen, List.length_range'] at hm
  have hother : otherAxes x.ndim (List.range' 0 P.length) = List.range' P.length P.length := by
    rw [← freeAxes_eq, hxn, free_mid]
    simp
  have hg : ∀ (a b : List ℕ), a.length = P.length → gather (List.range' 0 P.length) (a ++ b) = a := by
    intro a b ha
    have := gather_range'_append [] a b
    simpa [ha] using this
  have hg2 : ∀ (a b : List ℕ), a.length = P.length → b.length = P.length → gather (List.range' P.length P.length) (a ++ b) = b := by
    intro a b ha hb
    have := gather_range'_append a b []
    simpa [ha, hb] using this
  refine ⟨?_, ?_⟩
  · rw [hm.1, hother, ← gather_eq_sizesAt, ← gather_eq_sizesAt, hx, hg _ _ rfl, hg2 _ _ rfl rfl]
  · ext p q
    have hp := (mem_box.1 p.2).length
    have hq := (mem_box.1 q.2).length
    simp only [catMat, transpose_apply]
    rw [hm.2 p.1 q.1 (by rw [hother]; simpa using hp) (by simpa using hq)]
    have h1 := join_gather (n := x.ndim) (D := List.range' 0 P.length) (j := q.1 ++ p.1) (by simp [hxn, hp, hq])
    rw [hother, hg _ _ hq, hg2 _ _ hq hp] at h1
    rw [h1]

/-- Zipping the axes. -/
lemma catZip_ok (x : Arr ℝ) (P : List ℕ) (hx : x.shape = P ++ P) :
    ∃ z, zipAxes x = .ok z ∧ z.shape = interleave P P ∧ pairMat P P z = catMat P P x := by
  obtain ⟨z, z1, z2, z3⟩ := zipAxes_ok x [] P P [] (by simpa using hx) rfl
  have hn : x.ndim = 2 * P.length := by simp [ndim, hx]; omega
  refine ⟨z, ?_, by simpa using z2, ?_⟩
  · rw [← z1]
    simp [zipAxes, zipAxesCore, hn]
  · ext p q
    have := z3 [] p.1 q.1 [] rfl (mem_box.1 p.2).length (mem_box.1 q.2).length rfl
    simpa [pairMat, catMat] using this

lemma zipB_same {f : ℝ → ℝ → ℝ} (a b : Arr ℝ) (h : a.shape = b.shape) : zipB f a b = .ok ⟨a.shape, fun i => f (a.get i) (b.get i)⟩ := by
  unfold zipB
  rw [if_pos h]

end NT.Predict
