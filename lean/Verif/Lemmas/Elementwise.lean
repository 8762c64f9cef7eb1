import Verif.Model.Elementwise
import Verif.Lemmas.FanIn
import Verif.Lemmas.GaussPair
import Verif.Spec.Dual
import Verif.Props.C24
import Verif.Lemmas.Layout
import Verif.Tac

/-!
# Lemmas about elementwise layers
-/

namespace NT
open Arr Kernel Spec
variable {α : Type}

lemma diag_core (x : Arr α) (L A T : List ℕ) (hx : x.shape = L ++ interleave A A ++ T) :
    ∃ c d, unzipAxes x L.length (some (L.length + 2 * A.length)) = .ok c ∧
      diagonalBetween c L.length (some (L.length + 2 * A.length)) = .ok d ∧ d.shape = L ++ A ++ T ∧
      ∀ l p t, InRange l L → InRange p A → InRange t T → d.get (l ++ p ++ t) = x.get (l ++ interleave p p ++ t) := by
  obtain ⟨c, c1, c2, c3⟩ := unzipAxes_ok x L A A T hx rfl
  obtain ⟨d, d1, d2, d3⟩ := diagonalBetween_ok c L A T c2
  refine ⟨c, d, c1, d1, d2, ?_⟩
  intro l p t hl hp ht
  rw [d3 l p t hl hp ht, c3 l p p t hl.length hp.length hp.length ht.length]

lemma getDiagonal_core (cov : Arr α) (db ds : Bool) (L A T : List ℕ) (hx : cov.shape = L ++ interleave A A ++ T)
    (hs : 2 - (if db then 1 else 2) = L.length)
    (he : (if ds then (if db then 1 else 2) else cov.ndim) = L.length + 2 * A.length) :
    ∃ d, getDiagonal cov db ds = .ok d ∧ d.shape = L ++ A ++ T ∧
      ∀ l p t, InRange l L → InRange p A → InRange t T → d.get (l ++ p ++ t) = cov.get (l ++ interleave p p ++ t) := by
  obtain ⟨c, d, h1, h2, h3, h4⟩ := diag_core cov L A T hx
  refine ⟨d, ?_, h3, h4⟩
  unfold getDiagonal
  simp only [hs, he, h1, h2]

lemma inRange_one {i n : ℕ} : InRange [i] [n] ↔ i < n := by simp [InRange]

/-- The diagonal of a stored covariance, in every layout. -/
lemma getDiagonal_ok {cov : Arr α} {n : ℕ} {S : List ℕ} {db ds rev : Bool} {F : List ℕ → List ℕ → List ℕ → α}
    (h : Holds cov (batchShape db n) S S ds rev (fun b => F (dbl b))) :
    ∃ d, getDiagonal cov db ds = .ok d ∧ d.shape = n :: rv rev S ∧
      ∀ i p, i < n → InRange p S → d.get (i :: rv rev p) = F [i, i] p p := by
  have hs := h.shape
  have hg := h.get
  cases db <;> cases ds <;> simp only [batchShape, pos_full, pos_diag, if_true, Bool.false_eq_true, if_false] at hs hg
  · obtain ⟨d, d1, d2, d3⟩ := getDiagonal_core cov false false [] (n :: rv rev S) [] (by rw [hs]; simp [interleave]) rfl
      (by simp [ndim, hs, interleave_length]; ring)
    refine ⟨d, d1, by simpa using d2, ?_⟩
    intro i p hi hp
    have := d3 [] (i :: rv rev p) [] List.Forall₂.nil (List.Forall₂.cons hi (inRange_rv.2 hp)) List.Forall₂.nil
    simp only [List.nil_append, List.append_nil] at this
    rw [this]
    have := hg [i, i] p p (by simp [InRange, hi]) hp hp (by simp)
    simpa [interleave, dbl] using this
  · obtain ⟨d, d1, d2, d3⟩ := getDiagonal_core cov false true [] [n] (rv rev S) (by rw [hs]; simp [interleave]) rfl
      (by simp)
    refine ⟨d, d1, by simpa using d2, ?_⟩
    intro i p hi hp
    have := d3 [] [i] (rv rev p) List.Forall₂.nil (inRange_one.2 hi) (inRange_rv.2 hp)
    simp only [List.nil_append, List.singleton_append] at this
    rw [this]
    have := hg [i, i] p p (by simp [InRange, hi]) hp hp (by simp)
    simpa [interleave, dbl] using this
  · obtain ⟨d, d1, d2, d3⟩ := getDiagonal_core cov true false [n] (rv rev S) [] (by rw [hs]; simp) rfl
      (by simp [ndim, hs, interleave_length]; ring)
    refine ⟨d, d1, by simpa using d2, ?_⟩
    intro i p hi hp
    have := d3 [i] (rv rev p) [] (inRange_one.2 hi) (inRange_rv.2 hp) List.Forall₂.nil
    simp only [List.append_nil, List.singleton_append] at this
    rw [this]
    have := hg [i] p p (by simp [InRange, hi]) hp hp (by simp)
    simpa [dbl] using this
  · obtain ⟨d, d1, d2, d3⟩ := getDiagonal_core cov true true [n] [] (rv rev S) (by rw [hs]; simp [interleave]) rfl
      (by simp)
    refine ⟨d, d1, by simpa using d2, ?_⟩
    intro i p hi hp
    have := d3 [i] [] (rv rev p) (inRange_one.2 hi) List.Forall₂.nil (inRange_rv.2 hp)
    simp only [List.append_nil, List.singleton_append] at this
    rw [this]
    have := hg [i] p p (by simp [InRange, hi]) hp hp (by simp)
    simpa [interleave, dbl] using this

variable {γ : Type}

/-- `outer_prod` over batch and spatial axes. -/
lemma outer12_ok (op : α → α → γ) {x y : Arr α} {n m : ℕ} {S T : List ℕ} {ds rev : Bool} {f g : ℕ → List ℕ → α}
    (hx : x.shape = n :: rv rev S) (hxg : ∀ i p, i < n → InRange p S → x.get (i :: rv rev p) = f i p)
    (hy : y.shape = m :: rv rev T) (hyg : ∀ i p, i < m → InRange p T → y.get (i :: rv rev p) = g i p)
    (hr : S.length = T.length) (hsq : ds = true → S = T) (e : ℕ) (he : e = if ds then 1 else x.ndim) :
    Holds (outerProd x (some y) 0 e op) [n, m] S T ds rev
      (fun b p q => op (f (b.getD 0 0) p) (g (b.getD 1 0) q)) := by
  cases ds
  · have he' : e = ([] : List ℕ).length + (n :: rv rev S).length := by rw [he]; simp [ndim, hx]
    obtain ⟨h1, h2⟩ := outerProd_ok op x y [] (n :: rv rev S) (m :: rv rev T) [] (by simp [hx]) (by simp [hy]) (by simp [hr])
    rw [← he'] at h1 h2
    refine ⟨hr, hsq, ?_, ?_⟩
    · simp only [List.length_nil] at h1; rw [h1, pos_full]; simp [interleave]
    · intro b p q hb hp hq _
      obtain ⟨i, j, rfl, hi, hj⟩ : ∃ i j, b = [i, j] ∧ i < n ∧ j < m := by
        cases hb with
        | cons h1 h2 => cases h2 with
          | cons h2 h3 => cases h3; exact ⟨_, _, rfl, h1, h2⟩
      have := h2 [] (i :: rv rev p) (j :: rv rev q) [] List.Forall₂.nil (List.Forall₂.cons hi (inRange_rv.2 hp))
        (List.Forall₂.cons hj (inRange_rv.2 hq)) List.Forall₂.nil
      simp only [List.length_nil, List.nil_append, List.append_nil, interleave] at this
      rw [pos_full]
      simp only [List.cons_append, List.nil_append] at this ⊢
      rw [this, hxg i p hi hp, hyg j q hj hq]
      simp
  · obtain rfl := hsq rfl
    have he' : e = ([] : List ℕ).length + [n].length := by rw [he]; simp
    obtain ⟨h1, h2⟩ := outerProd_ok op x y [] [n] [m] (rv rev S) (by simp [hx]) (by simp [hy]) rfl
    rw [← he'] at h1 h2
    refine ⟨hr, hsq, ?_, ?_⟩
    · simp only [List.length_nil] at h1; rw [h1, pos_diag]; simp [interleave]
    · intro b p q hb hp hq hpq
      obtain rfl := hpq rfl
      obtain ⟨i, j, rfl, hi, hj⟩ : ∃ i j, b = [i, j] ∧ i < n ∧ j < m := by
        cases hb with
        | cons h1 h2 => cases h2 with
          | cons h2 h3 => cases h3; exact ⟨_, _, rfl, h1, h2⟩
      have := h2 [] [i] [j] (rv rev p) List.Forall₂.nil (inRange_one.2 hi) (inRange_one.2 hj) (inRange_rv.2 hp)
      simp only [List.length_nil, List.nil_append, interleave] at this
      rw [pos_diag]
      simp only [List.cons_append, List.nil_append] at this ⊢
      rw [this, hxg i p hi hp, hyg j p hj hq]
      simp

/-- `outer_prod` of a diagonal with itself in the layout of `cov1`. -/
lemma outer11_ok (op : α → α → γ) {x : Arr α} {n : ℕ} {S : List ℕ} {db ds rev : Bool} {f : ℕ → List ℕ → α}
    (hx : x.shape = n :: rv rev S) (hxg : ∀ i p, i < n → InRange p S → x.get (i :: rv rev p) = f i p)
    (s e : ℕ) (hs : s = if db then 1 else 0) (he : e = if ds then 1 else x.ndim) :
    Holds (outerProd x (some x) s e op) (batchShape db n) S S ds rev
      (fun b p q => op (f ((dbl b).getD 0 0) p) (f ((dbl b).getD 1 0) q)) := by
  cases db
  · obtain rfl : s = 0 := by rw [hs]; simp
    have := outer12_ok op (ds := ds) hx hxg hx hxg rfl (fun _ => rfl) e he
    refine ⟨this.rank, this.square, this.shape, ?_⟩
    intro b p q hb hp hq hpq
    rw [this.get b p q hb hp hq hpq]
    cases hb with
    | cons h1 h2 => cases h2 with
      | cons h2 h3 => cases h3; rfl
  · obtain rfl : s = 1 := by rw [hs]; simp
    cases ds
    · have he' : e = [n].length + (rv rev S).length := by rw [he]; simp [ndim, hx]; omega
      obtain ⟨h1, h2⟩ := outerProd_ok op x x [n] (rv rev S) (rv rev S) [] (by simp [hx]) (by simp [hx]) rfl
      rw [← he'] at h1 h2
      refine ⟨rfl, fun _ => rfl, ?_, ?_⟩
      · simp only [List.length_singleton] at h1; rw [h1, pos_full]; simp [batchShape]
      · intro b p q hb hp hq _
        obtain ⟨i, rfl, hi⟩ : ∃ i, b = [i] ∧ i < n := by
          simp only [batchShape, if_true] at hb
          cases hb with
          | cons h1 h2 => cases h2; exact ⟨_, rfl, h1⟩
        have := h2 [i] (rv rev p) (rv rev q) [] (inRange_one.2 hi) (inRange_rv.2 hp) (inRange_rv.2 hq) List.Forall₂.nil
        simp only [List.length_singleton, List.append_nil] at this
        rw [pos_full, this]
        simp only [List.cons_append, List.nil_append]
        rw [hxg i p hi hp, hxg i q hi hq]
        simp [dbl]
    · have he' : e = [n].length + ([] : List ℕ).length := by rw [he]; simp
      obtain ⟨h1, h2⟩ := outerProd_ok op x x [n] [] [] (rv rev S) (by simp [hx]) (by simp [hx]) rfl
      rw [← he'] at h1 h2
      refine ⟨rfl, fun _ => rfl, ?_, ?_⟩
      · simp only [List.length_singleton] at h1; rw [h1, pos_diag]; simp [batchShape, interleave]
      · intro b p q hb hp hq hpq
        obtain rfl := hpq rfl
        obtain ⟨i, rfl, hi⟩ : ∃ i, b = [i] ∧ i < n := by
          simp only [batchShape, if_true] at hb
          cases hb with
          | cons h1 h2 => cases h2; exact ⟨_, rfl, h1⟩
        have := h2 [i] [] [] (rv rev p) (inRange_one.2 hi) List.Forall₂.nil List.Forall₂.nil (inRange_rv.2 hp)
        simp only [List.length_singleton, List.append_nil, interleave] at this
        rw [pos_diag, this]
        simp only [List.cons_append, List.nil_append]
        rw [hxg i p hi hp]
        simp [dbl]

/-- What `get_diagonal_outer_prods` computes. -/
lemma getDiagonalOuterProds_ok {k : Kernel α} {L : Logical α} (hk : k.Stores L) (hc : L.Closed) (den : α → α)
    (op : α → α → γ) :
    ∃ p11 p12 p22,
      getDiagonalOuterProds (k.cov1.map den) (k.cov2.map (·.map den)) k.diagonalBatch k.diagonalSpatial op =
        .ok (p11, p12, p22) ∧
      Holds p12 [L.n1, L.n2] L.S1 L.S2 k.diagonalSpatial k.isReversed
        (fun b p q => op (den (L.k11 [b.getD 0 0, b.getD 0 0] p p)) (den (L.second [b.getD 1 0, b.getD 1 0] q q))) ∧
      Holds p11 (batchShape k.diagonalBatch L.n1) L.S1 L.S1 k.diagonalSpatial k.isReversed
        (fun b p q => op (den (L.k11 [(dbl b).getD 0 0, (dbl b).getD 0 0] p p))
          (den (L.k11 [(dbl b).getD 1 0, (dbl b).getD 1 0] q q))) ∧
      (∀ F, L.k22 = some F → Holds p22 (batchShape k.diagonalBatch L.n2) L.S2 L.S2 k.diagonalSpatial k.isReversed
        (fun b p q => op (den (F [(dbl b).getD 0 0, (dbl b).getD 0 0] p p))
          (den (F [(dbl b).getD 1 0, (dbl b).getD 1 0] q q)))) := by
  obtain ⟨d1, a1, a2, a3⟩ := getDiagonal_ok (F := fun b p q => den (L.k11 b p q)) (hk.cov1.map den)
  have h2 := hk.cov2
  cases e1 : k.cov2 <;> cases e2 : L.k22 <;> rw [e1, e2] at h2 <;> simp only [OptRel] at h2
  · obtain ⟨hn, hS⟩ := hc e2
    have hsec : L.second = L.k11 := by simp [Logical.second, e2]
    refine ⟨outerProd d1 (some d1) (if k.diagonalBatch then 1 else 0) (if k.diagonalSpatial then 1 else d1.ndim) op,
      outerProd d1 none 0 (if k.diagonalSpatial then 1 else d1.ndim) op,
      outerProd d1 (some d1) (if k.diagonalBatch then 1 else 0) (if k.diagonalSpatial then 1 else d1.ndim) op, ?_, ?_, ?_, ?_⟩
    · simp [getDiagonalOuterProds, getDiagonal?, a1, bind, Except.bind]
    · have := outer12_ok op (ds := k.diagonalSpatial) a2 a3 a2 a3 rfl (fun _ => rfl) _ rfl
      rw [hn, hS, hsec]
      exact this
    · exact outer11_ok op a2 a3 _ _ rfl rfl
    · simp
  · rename_i c F
    obtain ⟨d2, b1, b2, b3⟩ := getDiagonal_ok (F := fun b p q => den (F b p q)) (h2.map den)
    have hsec : L.second = F := by simp [Logical.second, e2]
    have hstop : (if k.diagonalSpatial then 1 else d1.ndim) = if k.diagonalSpatial then 1 else d2.ndim := by
      simp [ndim, a2, b2, hk.nngp.rank]
    refine ⟨outerProd d1 (some d1) (if k.diagonalBatch then 1 else 0) (if k.diagonalSpatial then 1 else d1.ndim) op,
      outerProd d1 (some d2) 0 (if k.diagonalSpatial then 1 else d1.ndim) op,
      outerProd d2 (some d2) (if k.diagonalBatch then 1 else 0) (if k.diagonalSpatial then 1 else d1.ndim) op, ?_, ?_, ?_, ?_⟩
    · simp [getDiagonalOuterProds, getDiagonal?, a1, b1, Except.map, bind, Except.bind]
    · rw [hsec]
      exact outer12_ok op a2 a3 b2 b3 hk.nngp.rank hk.nngp.square _ rfl
    · exact outer11_ok op a2 a3 _ _ rfl rfl
    · intro G hG
      obtain rfl : F = G := by simpa using hG
      exact outer11_ok op b2 b3 _ _ rfl hstop

/-- The logical content after an elementwise layer. -/
def DualFn.logical (D : DualFn γ) (L : Logical ℝ) : Logical ℝ where
  n1 := L.n1
  n2 := L.n2
  S1 := L.S1
  S2 := L.S2
  k12 b p q := D.nngp (L.k12 b p q) (D.op (D.den (L.k11 [b.getD 0 0, b.getD 0 0] p p))
    (D.den (L.second [b.getD 1 0, b.getD 1 0] q q)))
  k11 b p q := D.nngp (L.k11 b p q) (D.op (D.den (L.k11 [b.getD 0 0, b.getD 0 0] p p))
    (D.den (L.k11 [b.getD 1 0, b.getD 1 0] q q)))
  k22 := L.k22.map fun F b p q => D.nngp (F b p q) (D.op (D.den (F [b.getD 0 0, b.getD 0 0] p p))
    (D.den (F [b.getD 1 0, b.getD 1 0] q q)))
  ntk := L.ntk.map fun F b p q => F b p q * D.dot (L.k12 b p q) (D.op (D.den (L.k11 [b.getD 0 0, b.getD 0 0] p p))
    (D.den (L.second [b.getD 1 0, b.getD 1 0] q q)))

lemma DualFn.newCov_ok (D : DualFn γ) {C : ℝ → Prop} (hd : ∀ v, C v → D.diag v = D.nngp v (D.op (D.den v) (D.den v)))
    {cov : Arr ℝ} {p11 : Arr γ} {n : ℕ} {S : List ℕ} {db ds rev : Bool} {F : List ℕ → List ℕ → List ℕ → ℝ}
    (hF : ∀ i p, i < n → InRange p S → C (F [i, i] p p))
    (h : Holds cov (batchShape db n) S S ds rev (fun b => F (dbl b)))
    (h11 : Holds p11 (batchShape db n) S S ds rev
        (fun b p q => D.op (D.den (F [(dbl b).getD 0 0, (dbl b).getD 0 0] p p))
          (D.den (F [(dbl b).getD 1 0, (dbl b).getD 1 0] q q)))) :
    ∃ c, D.newCov (db && ds) cov p11 = .ok c ∧ Holds c (batchShape db n) S S ds rev
      (fun b p q => D.nngp (F (dbl b) p q) (D.op (D.den (F [(dbl b).getD 0 0, (dbl b).getD 0 0] p p))
          (D.den (F [(dbl b).getD 1 0, (dbl b).getD 1 0] q q)))) := by
  unfold DualFn.newCov
  by_cases hb : (db && ds) = true
  · rw [if_pos hb]
    simp only [Bool.and_eq_true] at hb
    obtain ⟨rfl, rfl⟩ := hb
    refine ⟨_, rfl, ?_⟩
    have := h.map D.diag
    refine ⟨this.rank, this.square, this.shape, ?_⟩
    intro b p q hb hp hq hpq
    rw [this.get b p q hb hp hq hpq]
    obtain rfl := hpq rfl
    obtain ⟨i, rfl, hi⟩ : ∃ i, b = [i] ∧ i < n := by
      simp only [batchShape, if_true] at hb
      cases hb with
      | cons h1 h2 => cases h2; exact ⟨_, rfl, h1⟩
    simpa [dbl] using hd _ (hF i p hi hp)
  · rw [if_neg hb]
    obtain ⟨c, c1, -, c3⟩ := zipB_holdsS (op := D.nngp) (by unfold batchShape; cases db <;> simp) (.inr h) (.inr h11)
    exact ⟨c, c1, c3 (.inl h)⟩

/-- The common kernel function, in every layout. -/
lemma DualFn.kernelFn_ok (D : DualFn γ) {k : Kernel ℝ} {L : Logical ℝ} (hk : k.Stores L) (hc : L.Closed) {C : ℝ → Prop}
    (hv : L.Vars C) (hd : ∀ v, C v → D.diag v = D.nngp v (D.op (D.den v) (D.den v))) :
    ∃ k', D.kernelFn k = .ok k' ∧ k'.Stores (D.logical L) ∧ k'.static = k.static ∧ k'.x1IsX2 = k.x1IsX2 ∧
      k'.mask1 = k.mask1 ∧ k'.mask2 = k.mask2 ∧ (∀ a, k'.ntk = some a → a.shape ≠ []) := by
  obtain ⟨p11, p12, p22, h0, h12, h11, h22⟩ := getDiagonalOuterProds_ok hk hc D.den D.op
  obtain ⟨nn, n1, -, n3⟩ := zipB_holdsS (op := D.nngp) (by simp) (.inr hk.nngp) (.inr h12)
  obtain ⟨dt, t1, -, t3⟩ := zipB_holdsS (op := D.dot) (by simp) (.inr hk.nngp) (.inr h12)
  have t4 := t3 (.inl hk.nngp)
  obtain ⟨c1, g1, g2⟩ := D.newCov_ok hd hv.one hk.cov1 h11
  have hN : ∃ nt, D.newNtk k.nngp p12 k.ntk = .ok nt ∧
      OptRel (fun a F => (a.shape = [] ∧ ∀ b p q, F b p q = a.get []) ∨
        Holds a [L.n1, L.n2] L.S1 L.S2 k.diagonalSpatial k.isReversed F) nt (D.logical L).ntk ∧
      (∀ a, nt = some a → a.shape ≠ []) := by
    have h := hk.ntk
    cases e1 : k.ntk <;> cases e2 : L.ntk <;> rw [e1, e2] at h <;> simp only [OptRel] at h
    · exact ⟨none, rfl, by simp [OptRel, DualFn.logical, e2], by simp⟩
    · obtain ⟨r, r1, -, r3⟩ := zipB_holdsS (op := fun x y : ℝ => x * y) (by simp) h (.inr t4)
      refine ⟨some r, by simp [DualFn.newNtk, t1, r1, Except.map], ?_, ?_⟩
      · simp only [DualFn.logical, e2, Option.map_some, OptRel]
        exact .inr (r3 (.inr t4))
      · intro a ha
        obtain rfl : r = a := by simpa using ha
        exact (r3 (.inr t4)).ne_nil (by simp)
  obtain ⟨nt, nt1, nt2, nt3⟩ := hN
  have hC : ∃ c2, D.newCov? (k.diagonalBatch && k.diagonalSpatial) k.cov2 p22 = .ok c2 ∧
      OptRel (fun c F => Holds c (batchShape k.diagonalBatch L.n2) L.S2 L.S2 k.diagonalSpatial
        k.isReversed (fun b => F (dbl b))) c2 (D.logical L).k22 := by
    have h := hk.cov2
    cases e1 : k.cov2 <;> cases e2 : L.k22 <;> rw [e1, e2] at h <;> simp only [OptRel] at h
    · exact ⟨none, rfl, by simp [OptRel, DualFn.logical, e2]⟩
    · obtain ⟨c2, f1, f2⟩ := D.newCov_ok hd (hv.two _ e2) h (h22 _ e2)
      refine ⟨some c2, by simp [DualFn.newCov?, f1, Except.map], ?_⟩
      simp only [DualFn.logical, e2, Option.map_some, OptRel]
      exact f2
  obtain ⟨c2, f1, f2⟩ := hC
  refine ⟨{ k with cov1 := c1, nngp := nn, cov2 := c2, ntk := nt }, ?_, ⟨n3 (.inl hk.nngp), g2, f2, nt2⟩, rfl, rfl, rfl, rfl, nt3⟩
  unfold DualFn.kernelFn
  simp only [h0, n1, nt1, g1, f1]

/-- The logical content after an elementwise layer whose formula for the variances need not be that for the covariances;
`d`: the layout is fully diagonal. -/
def DualFn.logicalAny (D : DualFn γ) (d : Bool) (L : Logical ℝ) : Logical ℝ :=
  { D.logical L with
    k11 := fun b p q => if d then D.diag (L.k11 b p q) else (D.logical L).k11 b p q
    k22 := L.k22.map fun F b p q => if d then D.diag (F b p q) else
      D.nngp (F b p q) (D.op (D.den (F [b.getD 0 0, b.getD 0 0] p p)) (D.den (F [b.getD 1 0, b.getD 1 0] q q))) }

lemma DualFn.newCov_any (D : DualFn γ) {cov : Arr ℝ} {p11 : Arr γ} {n : ℕ} {S : List ℕ} {db ds rev : Bool}
    {F : List ℕ → List ℕ → List ℕ → ℝ} (h : Holds cov (batchShape db n) S S ds rev (fun b => F (dbl b)))
    (h11 : Holds p11 (batchShape db n) S S ds rev
        (fun b p q => D.op (D.den (F [(dbl b).getD 0 0, (dbl b).getD 0 0] p p))
          (D.den (F [(dbl b).getD 1 0, (dbl b).getD 1 0] q q)))) :
    ∃ c, D.newCov (db && ds) cov p11 = .ok c ∧ Holds c (batchShape db n) S S ds rev
      (fun b p q => if (db && ds) = true then D.diag (F (dbl b) p q) else
        D.nngp (F (dbl b) p q) (D.op (D.den (F [(dbl b).getD 0 0, (dbl b).getD 0 0] p p))
          (D.den (F [(dbl b).getD 1 0, (dbl b).getD 1 0] q q)))) := by
  unfold DualFn.newCov
  by_cases hb : (db && ds) = true
  · simp only [hb, if_true]
    exact ⟨_, rfl, h.map D.diag⟩
  · simp only [hb]
    obtain ⟨c, c1, -, c3⟩ := zipB_holdsS (op := D.nngp) (by unfold batchShape; cases db <;> simp) (.inr h) (.inr h11)
    exact ⟨c, c1, c3 (.inl h)⟩

/-- `kernelFn_ok` without a condition on the variances. -/
lemma DualFn.kernelFn_any (D : DualFn γ) {k : Kernel ℝ} {L : Logical ℝ} (hk : k.Stores L) (hc : L.Closed) :
    ∃ k', D.kernelFn k = .ok k' ∧ k'.Stores (D.logicalAny (k.diagonalBatch && k.diagonalSpatial) L) ∧ k'.static = k.static ∧
      k'.x1IsX2 = k.x1IsX2 ∧ k'.mask1 = k.mask1 ∧ k'.mask2 = k.mask2 ∧ (∀ a, k'.ntk = some a → a.shape ≠ []) := by
  obtain ⟨p11, p12, p22, h0, h12, h11, h22⟩ := getDiagonalOuterProds_ok hk hc D.den D.op
  obtain ⟨nn, n1, -, n3⟩ := zipB_holdsS (op := D.nngp) (by simp) (.inr hk.nngp) (.inr h12)
  obtain ⟨dt, t1, -, t3⟩ := zipB_holdsS (op := D.dot) (by simp) (.inr hk.nngp) (.inr h12)
  have t4 := t3 (.inl hk.nngp)
  obtain ⟨c1, g1, g2⟩ := D.newCov_any hk.cov1 h11
  have hN : ∃ nt, D.newNtk k.nngp p12 k.ntk = .ok nt ∧
      OptRel (fun a F => (a.shape = [] ∧ ∀ b p q, F b p q = a.get []) ∨
        Holds a [L.n1, L.n2] L.S1 L.S2 k.diagonalSpatial k.isReversed F) nt (D.logical L).ntk ∧
      (∀ a, nt = some a → a.shape ≠ []) := by
    have h := hk.ntk
    cases e1 : k.ntk <;> cases e2 : L.ntk <;> rw [e1, e2] at h <;> simp only [OptRel] at h
    · exact ⟨none, rfl, by simp [OptRel, DualFn.logical, e2], by simp⟩
    · obtain ⟨r, r1, -, r3⟩ := zipB_holdsS (op := fun x y : ℝ => x * y) (by simp) h (.inr t4)
      refine ⟨some r, by simp [DualFn.newNtk, t1, r1, Except.map], ?_, ?_⟩
      · simp only [DualFn.logical, e2, Option.map_some, OptRel]
        exact .inr (r3 (.inr t4))
      · intro a ha
        obtain rfl : r = a := by simpa using ha
        exact (r3 (.inr t4)).ne_nil (by simp)
  obtain ⟨nt, nt1, nt2, nt3⟩ := hN
  have hC : ∃ c2, D.newCov? (k.diagonalBatch && k.diagonalSpatial) k.cov2 p22 = .ok c2 ∧
      OptRel (fun c F => Holds c (batchShape k.diagonalBatch L.n2) L.S2 L.S2 k.diagonalSpatial
        k.isReversed (fun b => F (dbl b))) c2 (D.logicalAny (k.diagonalBatch && k.diagonalSpatial) L).k22 := by
    have h := hk.cov2
    cases e1 : k.cov2 <;> cases e2 : L.k22 <;> rw [e1, e2] at h <;> simp only [OptRel] at h
    · exact ⟨none, rfl, by simp [OptRel, DualFn.logicalAny, e2]⟩
    · obtain ⟨c2, f1, f2⟩ := D.newCov_any h (h22 _ e2)
      refine ⟨some c2, by simp [DualFn.newCov?, f1, Except.map], ?_⟩
      simp only [DualFn.logicalAny, e2, Option.map_some, OptRel]
      exact f2
  obtain ⟨c2, f1, f2⟩ := hC
  refine ⟨{ k with cov1 := c1, nngp := nn, cov2 := c2, ntk := nt }, ?_, ⟨n3 (.inl hk.nngp), g2, f2, nt2⟩, rfl, rfl, rfl, rfl, nt3⟩
  unfold DualFn.kernelFn
  simp only [h0, n1, nt1, g1, f1]

/-- The formulas of the layer are the expectations, for variances satisfying `C`. -/
structure DualFn.Exact (D : DualFn γ) (C : ℝ → Prop) (φ dφ : ℝ → ℝ) : Prop where
  diag : ∀ v, C v → D.diag v = D.nngp v (D.op (D.den v) (D.den v))
  nngp : ∀ {P : MeasureTheory.Measure (ℝ × ℝ)} {q11 q12 q22 : ℝ}, GaussPair P q11 q12 q22 → C q11 → C q22 →
    D.nngp q12 (D.op (D.den q11) (D.den q22)) = ∫ x, φ x.1 * φ x.2 ∂P
  dot : ∀ {P : MeasureTheory.Measure (ℝ × ℝ)} {q11 q12 q22 : ℝ}, GaussPair P q11 q12 q22 → C q11 → C q22 →
    D.dot q12 (D.op (D.den q11) (D.den q22)) = ∫ x, dφ x.1 * dφ x.2 ∂P

lemma Logical.Vars.second {L : Logical ℝ} {C : ℝ → Prop} (hv : L.Vars C) (hc : L.Closed) (i : ℕ) (p : List ℕ)
    (hi : i < L.n2) (hp : InRange p L.S2) : C (L.second [i, i] p p) := by
  unfold Logical.second
  cases e : L.k22 with
  | none =>
    obtain ⟨h1, h2⟩ := hc e
    rw [h1] at hi
    rw [h2] at hp
    exact hv.one i p hi hp
  | some F => exact hv.two F e i p hi hp

lemma DualFn.Exact.dualOf {D : DualFn γ} {C : ℝ → Prop} {φ dφ : ℝ → ℝ} (h : D.Exact C φ dφ) {L : Logical ℝ} (hc : L.Closed)
    (hv : L.Vars C) : DualOf φ dφ L (D.logical L) where
  dims := rfl
  k12 i j p q hi hj hp hq P hP := h.nngp hP (hv.one i p hi hp) (hv.second hc j q hj hq)
  k11 i j p q hi hj hp hq P hP := h.nngp hP (hv.one i p hi hp) (hv.one j q hj hq)
  k22 := by
    simp only [DualFn.logical]
    cases e : L.k22 with
    | none => trivial
    | some F => exact fun i j p q hi hj hp hq P hP => h.nngp hP (hv.two F e i p hi hp) (hv.two F e j q hj hq)
  ntk := by
    simp only [DualFn.logical]
    cases e : L.ntk with
    | none => trivial
    | some F =>
      exact fun i j p q hi hj hp hq P hP =>
        congrArg (F [i, j] p q * ·) (h.dot hP (hv.one i p hi hp) (hv.second hc j q hj hq))

/-- Scaling of the output. -/
lemma dualOf_scale {φ dφ : ℝ → ℝ} {L L' : Logical ℝ} (h : DualOf φ dφ L L') (a : ℝ) :
    DualOf (fun x => a * φ x) (fun x => a * dφ x) L (C24.mapL L' (a ^ 2 * ·) (a ^ 2 * ·)) := by
  have e : ∀ (f : ℝ → ℝ) (P : MeasureTheory.Measure (ℝ × ℝ)),
      ∫ x, a * f x.1 * (a * f x.2) ∂P = a ^ 2 * ∫ x, f x.1 * f x.2 ∂P := by
    intro f P
    rw [← MeasureTheory.integral_const_mul]
    congr 1
    funext x
    ring
  refine ⟨h.dims, ?_, ?_, ?_, ?_⟩
  · intro i j p q hi hj hp hq P hP
    rw [e, ← h.k12 i j p q hi hj hp hq P hP]
    rfl
  · intro i j p q hi hj hp hq P hP
    rw [e, ← h.k11 i j p q hi hj hp hq P hP]
    rfl
  · have := h.k22
    cases e1 : L'.k22 <;> cases e2 : L.k22 <;> rw [e1, e2] at this <;> simp only [OptRel] at this
    · simp [C24.mapL, e1, OptRel]
    · simp only [C24.mapL, e1, Option.map_some, OptRel]
      intro i j p q hi hj hp hq P hP
      rw [e, ← this i j p q hi hj hp hq P hP]
  · have := h.ntk
    cases e1 : L'.ntk <;> cases e2 : L.ntk <;> rw [e1, e2] at this <;> simp only [OptRel] at this
    · simp [C24.mapL, e1, OptRel]
    · simp only [C24.mapL, e1, Option.map_some, OptRel]
      intro i j p q hi hj hp hq P hP
      rw [e, this i j p q hi hj hp hq P hP]
      ring

/-- Scaling of the input. -/
lemma dualOf_scale_in {φ dφ : ℝ → ℝ} {L L' : Logical ℝ} (b : ℝ) (hφ : Measurable φ) (hdφ : Measurable dφ)
    (h : DualOf φ dφ (C24.mapL L (b ^ 2 * ·) (b ^ 2 * ·)) L') :
    DualOf (fun x => φ (b * x)) (fun x => b * dφ (b * x)) L L' := by
  have hsec : (C24.mapL L (b ^ 2 * ·) (b ^ 2 * ·)).second = fun x p q => b ^ 2 * L.second x p q := by
    unfold Logical.second C24.mapL
    cases L.k22 <;> rfl
  have hP' : ∀ {P : MeasureTheory.Measure (ℝ × ℝ)} {q11 q12 q22 : ℝ}, GaussPair P q11 q12 q22 →
      GaussPair (P.map fun z => (b * z.1, b * z.2)) (b ^ 2 * q11) (b ^ 2 * q12) (b ^ 2 * q22) := by
    intro P q11 q12 q22 hP
    have := hP.map_pair b 0 0 b
    have e : (fun z : ℝ × ℝ => (b * z.1 + 0 * z.2, 0 * z.1 + b * z.2)) = fun z => (b * z.1, b * z.2) := by
      funext z; simp
    rw [e] at this
    convert this using 1 <;> ring
  have e : ∀ (f : ℝ → ℝ), Measurable f → ∀ (P : MeasureTheory.Measure (ℝ × ℝ)),
      ∫ x, f x.1 * f x.2 ∂(P.map fun z => (b * z.1, b * z.2)) = ∫ x, f (b * x.1) * f (b * x.2) ∂P := by
    intro f hf P
    rw [MeasureTheory.integral_map (by fun_prop) (by fun_prop)]
  have hk12 := h.k12
  have hk11 := h.k11
  have hk22 := h.k22
  have hntk := h.ntk
  rw [hsec] at hk12 hntk
  refine ⟨h.dims, ?_, ?_, ?_, ?_⟩
  · intro i j p q hi hj hp hq P hP
    rw [hk12 i j p q hi hj hp hq _ (hP' hP), e φ hφ]
  · intro i j p q hi hj hp hq P hP
    rw [hk11 i j p q hi hj hp hq _ (hP' hP), e φ hφ]
  · simp only [C24.mapL] at hk22
    cases e1 : L'.k22 <;> cases e2 : L.k22 <;> rw [e1, e2] at hk22 <;>
      simp only [OptRel, Option.map_some, Option.map_none] at hk22 ⊢
    intro i j p q hi hj hp hq P hP
    rw [hk22 i j p q hi hj hp hq _ (hP' hP), e φ hφ]
  · simp only [C24.mapL] at hntk
    cases e1 : L'.ntk <;> cases e2 : L.ntk <;> rw [e1, e2] at hntk <;>
      simp only [OptRel, Option.map_some, Option.map_none] at hntk ⊢
    intro i j p q hi hj hp hq P hP
    rw [hntk i j p q hi hj hp hq _ (hP' hP), e dφ hdφ]
    have e' : (fun x : ℝ × ℝ => b * dφ (b * x.1) * (b * dφ (b * x.2))) =
        fun x => b ^ 2 * (dφ (b * x.1) * dφ (b * x.2)) := by funext x; ring
    rw [e', MeasureTheory.integral_const_mul]
    ring

/-- The result of an elementwise layer, apart from the covariances. -/
structure AfterElementwise (k k' : Kernel ℝ) : Prop where
  isGaussian : k'.isGaussian = false
  static : k'.static = { k.static with isGaussian := false }
  x1IsX2 : k'.x1IsX2 = k.x1IsX2
  mask1 : k'.mask1 = k.mask1
  mask2 : k'.mask2 = k.mask2

lemma elementwise_ok {f : Kernel ℝ → Except Err (Kernel ℝ)} {k k0 : Kernel ℝ} {L : Logical ℝ} (hg : k.isGaussian = true)
    (hf : f k = .ok k0) (hs : k0.Stores L) (h1 : k0.static = k.static) (h2 : k0.x1IsX2 = k.x1IsX2) (h3 : k0.mask1 = k.mask1)
    (h4 : k0.mask2 = k.mask2) :
    ∃ k', elementwise f k = .ok k' ∧ k'.Stores L ∧ AfterElementwise k k' := by
  refine ⟨{ k0 with isGaussian := false }, ?_, ⟨hs.nngp, hs.cov1, hs.cov2, hs.ntk⟩, rfl, ?_, h2, h3, h4⟩
  · unfold elementwise
    simp [hg, hf]
  · rw [← h1]
    rfl

end NT
