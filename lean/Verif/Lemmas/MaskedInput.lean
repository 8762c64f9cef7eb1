import Verif.Lemmas.MaskedAlone
import Verif.Props.C80

/-!
# Kernels of padded inputs
-/

namespace NT.Masked
open NT NT.Network Arr Spec Semantics

section
variable {m : ℝ} {x1 x2 : Arr ℝ} {db ntk same : Bool} {B A C n1 n2 : ℕ} {S1 S2 : List ℕ} {len1 len2 : ℕ → List ℕ}

lemma value_pad {x : Arr ℝ} {n : ℕ} {S : List ℕ} {len : ℕ → List ℕ} (h : PaddedWith m x B A n C S len) {i c : ℕ} {p : List ℕ} (hi : i < n) (hc : c < C)
    (hp : InRange p S) (hl : ¬InRange p (len i)) : C35.value (some m) x (actIdx B A i c p) = 0 := if_pos ((h.value i hi c hc p hp).2 hl)

lemma value_keep {x : Arr ℝ} {n : ℕ} {S : List ℕ} {len : ℕ → List ℕ} (h : PaddedWith m x B A n C S len) {i c : ℕ} {p : List ℕ} (hi : i < n) (hc : c < C)
    (hl : InRange p (len i)) : C35.value (some m) x (actIdx B A i c p) = x.get (actIdx B A i c p) :=
  if_neg fun e => (h.value i hi c hc p (inRange_le hl (h.fits i hi))).1 e hl

lemma mean_zero {x y : Arr ℝ} {n n' : ℕ} {S S' : List ℕ} {len len' : ℕ → List ℕ} (h : PaddedWith m x B A n C S len) (h' : PaddedWith m y B A n' C S' len')
    {i j : ℕ} {p q : List ℕ} (hi : i < n) (hj : j < n') (hp : InRange p S) (hq : InRange q S') (hz : ¬(InRange p (len i) ∧ InRange q (len' j))) :
    C35.meanProd (some m) x y B A C [i, j] p q = 0 := by
  unfold C35.meanProd
  rw [Finset.sum_eq_zero, zero_div]
  intro c hc
  simp only [Finset.mem_range, List.getD_cons_zero, List.getD_cons_succ] at hc ⊢
  by_cases hl : InRange p (len i)
  · rw [value_pad h' hj hc hq fun g => hz ⟨hl, g⟩, mul_zero]
  · rw [value_pad h hi hc hp hl, zero_mul]

lemma mean_keep {x y u v : Arr ℝ} {n n' : ℕ} {S S' : List ℕ} {len len' : ℕ → List ℕ} (h : PaddedWith m x B A n C S len) (h' : PaddedWith m y B A n' C S' len')
    {i j : ℕ} {p q : List ℕ} (hi : i < n) (hj : j < n') (hu : ExampleOf u x B A i C len) (hv : ExampleOf v y B A j C len')
    (hp : InRange p (len i)) (hq : InRange q (len' j)) :
    C35.meanProd none u v B A C [0, 0] p q = C35.meanProd (some m) x y B A C [i, j] p q := by
  unfold C35.meanProd
  congr 1
  refine Finset.sum_congr rfl fun c hc => ?_
  simp only [Finset.mem_range, List.getD_cons_zero, List.getD_cons_succ] at hc ⊢
  rw [value_keep h hi hc hp, value_keep h' hj hc hq, ← hu.value c hc p hp, ← hv.value c hc q hq]
  rfl

lemma inputs_ok (hne : B ≠ A) (hB : B < S1.length + 2) (hA : A < S1.length + 2) (hr : S1.length = S2.length) (hC : 0 < C)
    (h1 : PaddedWith m x1 B A n1 C S1 len1) (h2 : PaddedWith m x2 B A n2 C S2 len2) :
    (paddedInputs m x1 x2 db ntk same B A C n1 n2 S1 S2 len1 len2).Ok where
  pairs := rfl
  two := by simp [paddedInputs, C35.second]
  axes := ⟨hne, hB, hA⟩
  rank := hr.symm
  shape1 := h1.shape
  shape2 := h2.shape
  len1 := h1.fits
  len2 := h2.fits
  mc := hC
  zero := by
    refine ⟨fun i hi j hj p q hp hq hz => mean_zero h1 h2 hi hj hp hq hz, fun i hi j hj p q hp hq hz => mean_zero h1 h1 hi hj hp hq hz,
      fun F hF i hi j hj p q hp hq hz => ?_, fun F hF i hi j hj p q hp hq hz => ?_⟩
    · obtain rfl : C35.meanProd (some m) x2 x2 B A C = F := by simpa [paddedInputs, C35.second] using hF
      exact mean_zero h2 h2 hi hj hp hq hz
    · cases ntk
      · simp [paddedInputs, C35.second] at hF
      · obtain rfl : (fun _ _ _ => (0 : ℝ)) = F := by simpa [paddedInputs, C35.second] using hF
        rfl

lemma mask_ok {x : Arr ℝ} {n : ℕ} {S : List ℕ} {len : ℕ → List ℕ} (h : PaddedWith m x B A n C S len) :
    MaskOf (x.map fun v => decide (v = m)) B A n C S len where
  shape := h.shape
  get i hi c hc p hp := by
    simp only [Arr.map, padding, ← decide_not]
    exact decide_eq_decide.2 (h.value i hi c hc p hp)

lemma inputs_batch {k : Kernel ℝ} (h1 : PaddedWith m x1 B A n1 C S1 len1) (h2 : PaddedWith m x2 B A n2 C S2 len2)
    (hs : k.Stores (C35.second (some m) x1 (some x2) ntk B A C n1 n2 S1 S2)) (ht : C35.Static k (some m) x1 (some x2) db false same B A) :
    Batch (paddedInputs m x1 x2 db ntk same B A C n1 n2 S1 S2 len1 len2) k := by
  refine ⟨⟨hs, ?_, by simp [paddedInputs], ?_⟩, ⟨_, ht.mask1, mask_ok h1⟩, ⟨_, ht.mask2, mask_ok h2⟩⟩
  · simp only [Kernel.static, paddedInputs, ht.diagonalBatch, ht.diagonalSpatial, ht.isReversed, ht.isGaussian, ht.isInput, ht.batchAxis, ht.channelAxis,
      ht.shape1, ht.shape2, Option.getD_some]
  · intro a ha h0
    have := hs.ntk
    rw [ha] at this
    cases ntk
    · simp [C35.second, OptRel] at this
    · simp only [C35.second, if_true, OptRel] at this
      rcases this with ⟨-, g⟩ | g
      · exact (g [] [] []).symm
      · exact absurd h0 (g.ne_nil (by simp))

lemma inputs_alone {y1 y2 : Arr ℝ} {same' : Bool} {i j : ℕ} (hi : i < n1) (hj : j < n2) (h1 : PaddedWith m x1 B A n1 C S1 len1)
    (h2 : PaddedWith m x2 B A n2 C S2 len2) (e1 : ExampleOf y1 x1 B A i C len1) (e2 : ExampleOf y2 x2 B A j C len2) :
    Alone i j (paddedInputs m x1 x2 db ntk same B A C n1 n2 S1 S2 len1 len2)
      (C80.inputState y1 (some y2) db false ntk same' B A C 1 1 (len1 i) (len2 j)) := by
  refine ⟨⟨⟨rfl, rfl, rfl, rfl⟩, fun p q hp hq => mean_keep h1 h2 hi hj e1 e2 hp hq, fun p q hp hq => mean_keep h1 h1 hi hi e1 e1 hp hq, ?_, ?_⟩, ?_, rfl⟩
  · exact fun p q hp hq => mean_keep h2 h2 hj hj e2 e2 hp hq
  · cases ntk
    · trivial
    · exact fun p q _ _ => rfl
  · simp only [C80.inputState, paddedInputs, e1.shape, e2.shape, Option.getD_some]

end

/-- What the descriptions of two kernels say about their arrays. -/
lemma same_kernel {t : Padded} {t' : State} {i j : ℕ} {K K' : Kernel ℝ} (ht : t.Ok) (hi : i < t.L.n1) (hj : j < t.L.n2) (hb : Batch t K) (ha : Alone i j t t')
    (hd : Describes t' K') : SameExamples K K' i j (t.len1 i) (t.len2 j) := by
  have e := hd.static.trans ha.info
  have e' := hb.core.static
  rw [← e'] at e
  simp only [Kernel.static, Kernel.Static.mk.injEq] at e
  obtain ⟨f1, f2, f3, f4, f5, -, -, f6, f7⟩ := e
  have hp : K.diagonalSpatial = false := by rw [hb.core.fields.2.2.2.1]; exact ht.pairs
  obtain ⟨z1, z2, z3, z4⟩ := ha.content.sizes
  have hK := hb.core.stores
  have hK' := hd.stores
  have get : ∀ {a a' : Arr ℝ} {b b' N N' S T S' T' : List ℕ} {F F' : List ℕ → List ℕ → List ℕ → ℝ}, Holds a N S T K.diagonalSpatial K.isReversed F →
      Holds a' N' S' T' K'.diagonalSpatial K'.isReversed F' → InRange b N → InRange b' N' → List.Forall₂ (· ≤ ·) S' S → List.Forall₂ (· ≤ ·) T' T →
      ∀ p q, InRange p S' → InRange q T' → F' b' p q = F b p q → a'.get (b' ++ pos false K.isReversed p q) = a.get (b ++ pos false K.isReversed p q) := by
    intro a a' b b' N N' S T S' T' F F' h h' hb hb' hS hT p q hp' hq' hF
    rw [f5, f2, hp] at h'
    rw [hp] at h
    rw [h.get b p q hb (inRange_le hp' hS) (inRange_le hq' hT) (by simp), h'.get b' p q hb' hp' hq' (by simp), hF]
  have two : ∀ {a b : ℕ} {n n' : ℕ}, a < n → b < n' → InRange [a, b] [n, n'] := fun h h' => .cons h (.cons h' .nil)
  have db : ∀ {a n : ℕ} (d : Bool), a < n → InRange (if d then [a] else [a, a]) (batchShape d n) ∧ dbl (if d then [a] else [a, a]) = [a, a] := by
    intro a n d h
    cases d
    · exact ⟨two h h, rfl⟩
    · exact ⟨.cons h .nil, rfl⟩
  refine ⟨⟨f1, f2, f3, f4, f5.trans hp, hp, f6, f7⟩, ?_, ?_, ?_, ?_⟩
  · intro p q hp' hq'
    refine get hK.nngp hK'.nngp (two hi hj) (two (by omega) (by omega)) ?_ ?_ p q (by rw [z3]; exact hp') (by rw [z4]; exact hq') (ha.content.k12 p q hp' hq')
    · rw [z3]; exact ht.len1 i hi
    · rw [z4]; exact ht.len2 j hj
  · intro p q hp' hq'
    have b1 := db K.diagonalBatch hi
    have b2 := db (n := t'.L.n1) K.diagonalBatch (show 0 < _ by omega)
    refine get hK.cov1 hK'.cov1 b1.1 (by rw [f4]; exact b2.1) ?_ ?_ p q (by rw [z3]; exact hp') (by rw [z3]; exact hq') ?_
    · rw [z3]; exact ht.len1 i hi
    · rw [z3]; exact ht.len1 i hi
    · simp only [b1.2, b2.2]; exact ha.content.k11 p q hp' hq'
  · have c1 := hK.cov2
    have c2 := hK'.cov2
    rcases optRel_some ha.content.k22 with ⟨-, g⟩ | ⟨F', F, g', g, hF⟩
    · exact absurd g ht.two
    · rw [g] at c1
      rw [g'] at c2
      cases h1 : K.cov2 <;> rw [h1] at c1
      · exact c1.elim
      cases h2 : K'.cov2 <;> rw [h2] at c2
      · exact c2.elim
      intro p q hp' hq'
      have b1 := db K.diagonalBatch hj
      have b2 := db (n := t'.L.n2) K.diagonalBatch (show 0 < _ by omega)
      refine get c1 c2 b1.1 (by rw [f4]; exact b2.1) ?_ ?_ p q (by rw [z4]; exact hp') (by rw [z4]; exact hq') ?_
      · rw [z4]; exact ht.len2 j hj
      · rw [z4]; exact ht.len2 j hj
      · simp only [b1.2, b2.2]; exact hF p q hp' hq'
  · have c1 := hK.ntk
    have c2 := hK'.ntk
    rcases optRel_some ha.content.ntk with ⟨g', g⟩ | ⟨F', F, g', g, hF⟩
    · rw [g] at c1
      rw [g'] at c2
      cases h1 : K.ntk <;> rw [h1] at c1
      · cases h2 : K'.ntk <;> rw [h2] at c2
        · trivial
        · exact c2.elim
      · exact c1.elim
    · rw [g] at c1
      rw [g'] at c2
      cases h1 : K.ntk <;> rw [h1] at c1
      · exact c1.elim
      rename_i a
      cases h2 : K'.ntk <;> rw [h2] at c2
      · exact c2.elim
      rename_i a'
      have val : ∀ {b : Arr ℝ} {N S T p q u : List ℕ} {G : List ℕ → List ℕ → List ℕ → ℝ}, ((b.shape = [] ∧ ∀ u p q, G u p q = b.get []) ∨
          Holds b N S T false K.isReversed G) → N ≠ [] → InRange u N → InRange p S → InRange q T → (spread b).get (u ++ pos false K.isReversed p q) = G u p q := by
        rintro b N S T p q u G (⟨h, g⟩ | h) hN hu hp hq
        · simp only [spread, h, if_true]; exact (g _ _ _).symm
        · simp only [spread, if_neg (h.ne_nil hN)]; exact h.get u p q hu hp hq (by simp)
      intro p q hp' hq'
      rw [hp] at c1
      rw [f5, f2, hp] at c2
      rw [val c1 (by simp) (two hi hj) (inRange_le hp' (ht.len1 i hi)) (inRange_le hq' (ht.len2 j hj)),
        val c2 (by simp) (two (by omega) (by omega)) (by rw [z3]; exact hp') (by rw [z4]; exact hq')]
      exact hF p q hp' hq'

end NT.Masked
