import Verif.Lemmas.Upsample2

/-!
# Lemmas on transposed convolutions of kernels
-/

namespace NT
open Arr Spec Kernel

/-- Both positions read by offset `k` along a pair of axes. -/
def upTap2 (pad : Padding) (n m : ℕ) (v : ℕ × ℕ) (o o' k : ℕ) : Option (ℕ × ℕ) :=
  match upTap pad n v o k, upTap pad m v o' k with
  | some p, some q => some (p, q)
  | _, _ => none

lemma upIdx_pair (pad : Padding) (n m : ℕ) (v : ℕ × ℕ) (o o' k l : ℕ) :
    alongAxes (upTap pad) [n, m] [v, v] [o, o'] [k, l] =
      match upTap pad n v o k, upTap pad m v o' l with
      | some p, some q => some [p, q]
      | _, _ => none := by
  simp only [alongAxes]
  cases upTap pad n v o k <;> cases upTap pad m v o' l <;> rfl

lemma zipUp_snoc (pad : Padding) (S : List ℕ) (ws : List (ℕ × ℕ)) (n : ℕ) (v : ℕ × ℕ) (h : S.length = ws.length) :
    List.zipWith (upOut pad) (S ++ [n]) (ws ++ [v]) = List.zipWith (upOut pad) S ws ++ [upOut pad n v] := by
  rw [List.zipWith_append h]; rfl

lemma convUpLast_ok (x : Arr ℝ) (P : List ℕ) (n m : ℕ) (hx : x.shape = P ++ [n, m]) (v : ℕ × ℕ) (pad : Padding) :
    (convUpLast x v pad).shape = P ++ [upOut pad n v, upOut pad m v] ∧
      ∀ p o o', p.length = P.length → (convUpLast x v pad).get (p ++ [o, o']) =
        (1 / (v.1 : ℝ)) * ∑ k ∈ Finset.range v.1,
          match upTap2 pad n m v o o' k with
          | some (a, b) => x.get (p ++ [a, b])
          | none => 0 := by
  have hnd : x.ndim - 2 = P.length := by unfold ndim; rw [hx]; simp
  have h1 : x.shape.take P.length = P := by rw [hx]; simp
  have h2 : x.shape.drop P.length = [n, m] := by rw [hx]; simp
  unfold convUpLast
  simp only [hnd, h1, h2]
  refine ⟨rfl, ?_⟩
  intro p o o' hp
  have h3 : (p ++ [o, o']).take P.length = p := by rw [← hp]; simp
  have h4 : (p ++ [o, o']).drop P.length = [o, o'] := by rw [← hp]; simp
  simp only [h3, h4]
  rw [sumOver_eq_box, box_sum_cons]
  simp only [box_sum_singleton]
  rw [Finset.mul_sum]
  refine Finset.sum_congr rfl fun k hk => ?_
  rw [Finset.sum_eq_single k]
  · rw [upIdx_pair]
    simp only [diagFilter, List.getD_cons_zero, List.getD_cons_succ, if_true]
    unfold upTap2
    cases upTap pad n v o k <;> cases upTap pad m v o' k <;> rfl
  · intro l _ hl
    simp [diagFilter, Ne.symm hl]
  · intro h; exact absurd hk h

/-- One iteration of the loop. -/
noncomputable def convUpStep (bn : ℕ) (pad : Padding) (vj : (ℕ × ℕ) × ℕ) (x : Arr ℝ) : Arr ℝ :=
  convUpLast (x.moveaxis [bn + 2 * vj.2, bn + 2 * vj.2 + 1] [x.ndim - 2, x.ndim - 1]) vj.1 pad

lemma convUpLoop_ok (pad : Padding) (ws : List (ℕ × ℕ)) : ∀ (x : Arr ℝ) (B S T V : List ℕ),
    x.shape = B ++ interleave S T ++ V → S.length = ws.length → T.length = ws.length →
    (ws.zipIdx.foldr (convUpStep B.length pad) x).shape =
      B ++ V ++ interleave (List.zipWith (upOut pad) S ws).reverse (List.zipWith (upOut pad) T ws).reverse ∧
    ∀ b o o' v, b.length = B.length → o.length = S.length → o'.length = T.length → v.length = V.length →
      (ws.zipIdx.foldr (convUpStep B.length pad) x).get (b ++ v ++ interleave o.reverse o'.reverse) =
        (1 / (((ws.map Prod.fst).prod : ℕ) : ℝ)) * ∑ g ∈ box (ws.map Prod.fst),
          read2 (fun p q => x.get (b ++ interleave p q ++ v)) (alongAxes (upTap pad) S ws o g) (alongAxes (upTap pad) T ws o' g) := by
  induction ws using List.reverseRecOn with
  | nil =>
    intro x B S T V hx hS hT
    obtain rfl := List.length_eq_zero_iff.1 hS
    obtain rfl := List.length_eq_zero_iff.1 hT
    refine ⟨by simpa [windowShape, interleave] using hx, ?_⟩
    intro b o o' v _ ho ho' _
    obtain rfl := List.length_eq_zero_iff.1 ho
    obtain rfl := List.length_eq_zero_iff.1 ho'
    simp [sum_box_nil, alongAxes, read2, interleave]
  | append_singleton ws w ih =>
    intro x B S T V hx hS hT
    have snoc : ∀ l : List ℕ, l.length = (ws ++ [w]).length → ∃ l' a, l = l' ++ [a] ∧ l'.length = ws.length := by
      intro l hl
      rcases List.eq_nil_or_concat l with h | ⟨l', a, h⟩
      · rw [h] at hl; simp at hl
      · refine ⟨l', a, by simpa using h, ?_⟩
        rw [h] at hl; simpa using hl
    obtain ⟨S, n, rfl, hS'⟩ := snoc S hS
    replace hS := hS'
    obtain ⟨T, m, rfl, hT'⟩ := snoc T hT
    replace hT := hT'
    have hST : S.length = T.length := by omega
    rw [interleave_snoc S T n m hST] at hx
    set x' := convUpStep B.length pad (w, ws.length) x with hx'
    have hl : B.length + 2 * ws.length = (B ++ interleave S T).length := by
      rw [List.length_append, interleave_length hST]; omega
    obtain ⟨m1, m2⟩ := moveaxis_pair x (B ++ interleave S T) V n m x.ndim (by rw [hx]; simp) rfl
    rw [← hl] at m1 m2
    obtain ⟨c1, c2⟩ := convUpLast_ok _ (B ++ interleave S T ++ V) n m m1 w pad
    have hf : (ws ++ [w]).zipIdx.foldr (convUpStep B.length pad) x = ws.zipIdx.foldr (convUpStep B.length pad) x' := by
      rw [List.zipIdx_append, List.foldr_append, Nat.zero_add]
      rfl
    have hxs : x'.shape = B ++ interleave S T ++ (V ++ [upOut pad n w, upOut pad m w]) := by
      rw [← List.append_assoc]; exact c1
    obtain ⟨i1, i2⟩ := ih x' B S T (V ++ [upOut pad n w, upOut pad m w]) hxs hS hT
    rw [hf]
    constructor
    · rw [i1, zipUp_snoc _ _ _ _ _ hS, zipUp_snoc _ _ _ _ _ hT]
      simp [interleave]
    · intro b o o' v hb ho ho' hv
      obtain ⟨o, a, rfl, ho1⟩ := snoc o (by simpa [hS] using ho)
      replace ho := ho1
      obtain ⟨o', a', rfl, ho1'⟩ := snoc o' (by simpa [hT] using ho')
      replace ho' := ho1'
      have e : b ++ v ++ interleave (o ++ [a]).reverse (o' ++ [a']).reverse =
          b ++ (v ++ [a, a']) ++ interleave o.reverse o'.reverse := by simp [interleave]
      rw [e, i2 b o o' (v ++ [a, a']) hb (by omega) (by omega) (by simp [hv])]
      rw [List.map_append, List.prod_append, box_sum_append]
      simp only [List.map_cons, List.map_nil, List.prod_cons, List.prod_nil, mul_one, box_sum_singleton]
      rw [Nat.cast_mul, ← one_div_mul_one_div, mul_assoc]
      congr 1
      rw [Finset.mul_sum]
      refine Finset.sum_congr rfl fun g hg => ?_
      have hgl : S.length = g.length := by
        rw [mem_box] at hg
        rw [hg.length]; simp [hS]
      have key : ∀ k : ℕ, read2 (fun p q => x.get (b ++ interleave p q ++ v))
          (alongAxes (upTap pad) (S ++ [n]) (ws ++ [w]) (o ++ [a]) (g ++ [k]))
          (alongAxes (upTap pad) (T ++ [m]) (ws ++ [w]) (o' ++ [a']) (g ++ [k])) =
          read2 (fun p q => match upTap2 pad n m w a a' k with
            | some (c, d) => x.get (b ++ interleave (p ++ [c]) (q ++ [d]) ++ v)
            | none => 0) (alongAxes (upTap pad) S ws o g) (alongAxes (upTap pad) T ws o' g) := by
        intro k
        rw [alongAxes_snoc _ _ _ _ _ _ _ _ _ hS (by omega) hgl, alongAxes_snoc _ _ _ _ _ _ _ _ _ hT (by omega) (by omega)]
        unfold upTap2
        cases alongAxes (upTap pad) S ws o g <;> cases alongAxes (upTap pad) T ws o' g <;>
          cases upTap pad n w a k <;> cases upTap pad m w a' k <;> rfl
      simp only [key]
      cases hp : alongAxes (upTap pad) S ws o g with
      | none => simp [read2]
      | some p =>
        cases hq : alongAxes (upTap pad) T ws o' g with
        | none => simp [read2]
        | some q =>
          have hpl := alongAxes_length (upTap pad) _ _ _ _ p hp
          have hql := alongAxes_length (upTap pad) _ _ _ _ q hq
          simp only [read2]
          have e2 : b ++ interleave p q ++ (v ++ [a, a']) = (b ++ interleave p q ++ v) ++ [a, a'] := by simp
          rw [e2]
          refine (c2 (b ++ interleave p q ++ v) a a' ?_).trans ?_
          · simp [hb, hv, interleave_length hST, interleave_length (show p.length = q.length by omega), hpl]
          · congr 1
            refine Finset.sum_congr rfl fun k _ => ?_
            cases upTap2 pad n m w a a' k with
            | none => rfl
            | some cd =>
              obtain ⟨c, d⟩ := cd
              simp only []
              rw [m2 (b ++ interleave p q) v c d ?_ hv, interleave_snoc p q c d (by omega)]
              · simp
              · rw [List.length_append, interleave_length (show p.length = q.length by omega)]
                omega

end NT
