import Verif.Model.Conv
import Verif.Lemmas.Pool
import Verif.Lemmas.Flatten
import Verif.Tac

/-!
# Lemmas on convolutions of kernels
-/

namespace NT
open Arr Spec Kernel

lemma moveaxis_pair {β : Type} (a : Arr β) (P V : List ℕ) (n m N : ℕ) (ha : a.shape = P ++ [n, m] ++ V)
    (hN : a.ndim = N) :
    (a.moveaxis [P.length, P.length + 1] [N - 2, N - 1]).shape = P ++ V ++ [n, m] ∧
      ∀ p v (i j : ℕ), p.length = P.length → v.length = V.length →
        (a.moveaxis [P.length, P.length + 1] [N - 2, N - 1]).get (p ++ v ++ [i, j]) = a.get (p ++ [i, j] ++ v) := by
  subst hN
  have hnd : a.ndim = P.length + 2 + V.length := by unfold ndim; rw [ha]; simp; omega
  have hperm := moveaxis_perm' a (src := [P.length, P.length + 1]) (dst := [a.ndim - 2, a.ndim - 1]) rfl (by simp)
    (by simp; omega)
  have hf : freeAxes (P.length + 2 + V.length) [P.length, P.length + 1] =
      List.range' 0 P.length ++ List.range' (P.length + 2) V.length := by
    unfold freeAxes
    rw [List.range_eq_range', ← List.range'_append_1, ← List.range'_append_1, List.filter_append, List.filter_append,
      filter_range'_out 0 P.length _ (by simp), filter_range'_out (0 + (P.length + 2)) V.length _ (by simp)]
    simp [List.range']
  have hP : moveaxisPerm a.ndim [P.length, P.length + 1] [a.ndim - 2, a.ndim - 1] =
      List.range' 0 P.length ++ List.range' (P.length + 2) V.length ++ [P.length, P.length + 1] := by
    rw [hnd]
    unfold moveaxisPerm
    rw [mergeSort_zip_of_sorted (by simp; omega)]
    simp only [List.zip_cons_cons, List.zip_nil_left, List.foldl_cons, List.foldl_nil]
    change pyInsert (pyInsert (freeAxes _ [P.length, P.length + 1]) _ _) _ _ = _
    rw [hf]
    have e1 := pyInsert_append' (List.range' 0 P.length ++ List.range' (P.length + 2) V.length) [] P.length
      (P.length + 2 + V.length - 2) (by simp; omega)
    rw [List.append_nil] at e1
    rw [e1]
    have e2 := pyInsert_append' (List.range' 0 P.length ++ List.range' (P.length + 2) V.length ++ [P.length]) []
      (P.length + 1) (P.length + 2 + V.length - 1) (by simp; omega)
    rw [List.append_nil] at e2
    rw [e2]
    simp
  have hg : ∀ (p v : List ℕ) (i j : ℕ), p.length = P.length → v.length = V.length →
      gather (List.range' 0 P.length ++ List.range' (P.length + 2) V.length ++ [P.length, P.length + 1])
        (p ++ [i, j] ++ v) = p ++ v ++ [i, j] := by
    intro p v i j hp hv
    rw [gather_append, gather_append]
    have h1 := gather_range' (x := p ++ [i, j] ++ v) [] p ([i, j] ++ v) 0 P.length (by simp) rfl hp.symm
    have h2 := gather_range' (x := p ++ [i, j] ++ v) (p ++ [i, j]) v [] (P.length + 2) V.length (by simp) (by simp [hp]) hv.symm
    have h3 := gather_range' (x := p ++ [i, j] ++ v) p [i, j] v P.length 2 rfl hp.symm rfl
    have h3' : gather [P.length, P.length + 1] (p ++ [i, j] ++ v) = [i, j] := h3
    rw [h1, h2, h3']
  constructor
  · show gather _ a.shape = _
    rw [hP, ha]
    exact hg P V n m rfl rfl
  · intro p v i j hp hv
    rw [← hg p v i j hp hv]
    unfold moveaxis
    rw [← hP]
    refine transpose_get a hperm ?_
    rw [hnd]; simp [hp, hv]; omega

/-- Both positions read by offset `k` along a pair of axes. -/
def tap2 (pad : Padding) (n m : ℕ) (v : ℕ × ℕ) (o o' k : ℕ) : Option (ℕ × ℕ) :=
  match tap1 n (padsOf pad n v.1 v.2).1 v.2 o k, tap1 m (padsOf pad m v.1 v.2).1 v.2 o' k with
  | some p, some q => some (p, q)
  | _, _ => none

lemma tapIdx_pair (pad : Padding) (n m : ℕ) (v : ℕ × ℕ) (o o' k l : ℕ) :
    tapIdx pad [n, m] [v, v] [o, o'] [k, l] =
      match tap1 n (padsOf pad n v.1 v.2).1 v.2 o k, tap1 m (padsOf pad m v.1 v.2).1 v.2 o' l with
      | some p, some q => some [p, q]
      | _, _ => none := by
  obtain ⟨w, s⟩ := v
  simp only [tapIdx]
  cases tap1 n (padsOf pad n w s).1 s o k <;> cases tap1 m (padsOf pad m w s).1 s o' l <;> rfl

/-- The output size along an axis. -/
def out1 (pad : Padding) (n : ℕ) (v : ℕ × ℕ) : ℕ :=
  windowOut ((padsOf pad n v.1 v.2).1 + n + (padsOf pad n v.1 v.2).2) v.1 v.2

lemma convLast_ok (x : Arr ℝ) (P : List ℕ) (n m : ℕ) (hx : x.shape = P ++ [n, m]) (v : ℕ × ℕ) (pad : Padding) :
    (convLast x v pad).shape = P ++ [out1 pad n v, out1 pad m v] ∧
      ∀ p o o', p.length = P.length → (convLast x v pad).get (p ++ [o, o']) =
        (1 / (v.1 : ℝ)) * ∑ k ∈ Finset.range v.1,
          match tap2 pad n m v o o' k with
          | some (a, b) => x.get (p ++ [a, b])
          | none => 0 := by
  have hnd : x.ndim - 2 = P.length := by unfold ndim; rw [hx]; simp
  have h1 : x.shape.take P.length = P := by rw [hx]; simp
  have h2 : x.shape.drop P.length = [n, m] := by rw [hx]; simp
  unfold convLast
  simp only [hnd, h1, h2]
  refine ⟨rfl, ?_⟩
  intro p o o' hp
  have h3 : (p ++ [o, o']).take P.length = p := by rw [← hp]; simp
  have h4 : (p ++ [o, o']).drop P.length = [o, o'] := by rw [← hp]; simp
  simp only [h3, h4]
  rw [sumOver_eq_box, box_sum_cons]
  simp only [box_sum_singleton]
  rw [Finset.mul_sum]
  refine Finset.sum_congr rfl fun k hk => ?_
  rw [Finset.sum_eq_single k]
  · rw [tapIdx_pair]
    simp only [diagFilter, List.getD_cons_zero, List.getD_cons_succ, if_true]
    unfold tap2
    cases tap1 n (padsOf pad n v.1 v.2).1 v.2 o k <;> cases tap1 m (padsOf pad m v.1 v.2).1 v.2 o' k <;> rfl
  · intro l _ hl
    simp [diagFilter, Ne.symm hl]
  · intro h; exact absurd hk h

/-- One iteration of the loop. -/
noncomputable def convStep (bn : ℕ) (pad : Padding) (vj : (ℕ × ℕ) × ℕ) (x : Arr ℝ) : Arr ℝ :=
  convLast (x.moveaxis [bn + 2 * vj.2, bn + 2 * vj.2 + 1] [x.ndim - 2, x.ndim - 1]) vj.1 pad

lemma tapIdx_snoc (pad : Padding) : ∀ (S : List ℕ) (ws : List (ℕ × ℕ)) (o g : List ℕ) (n : ℕ) (v : ℕ × ℕ) (a k : ℕ),
    S.length = ws.length → S.length = o.length → S.length = g.length →
    tapIdx pad (S ++ [n]) (ws ++ [v]) (o ++ [a]) (g ++ [k]) =
      match tapIdx pad S ws o g, tap1 n (padsOf pad n v.1 v.2).1 v.2 a k with
      | some p, some q => some (p ++ [q])
      | _, _ => none := by
  intro S
  induction S with
  | nil =>
    intro ws o g n v a k h1 h2 h3
    obtain rfl := List.length_eq_zero_iff.1 h1.symm
    obtain rfl := List.length_eq_zero_iff.1 h2.symm
    obtain rfl := List.length_eq_zero_iff.1 h3.symm
    obtain ⟨w, s⟩ := v
    simp only [List.nil_append, tapIdx]
    cases tap1 n (padsOf pad n w s).1 s a k <;> rfl
  | cons m S ih =>
    intro ws o g n v a k h1 h2 h3
    cases ws with
    | nil => simp at h1
    | cons u ws =>
    cases o with
    | nil => simp at h2
    | cons b o =>
    cases g with
    | nil => simp at h3
    | cons l g =>
      obtain ⟨w, s⟩ := u
      simp only [List.cons_append, tapIdx]
      rw [ih ws o g n v a k (by simpa using h1) (by simpa using h2) (by simpa using h3)]
      cases tap1 m (padsOf pad m w s).1 s b l <;> cases tapIdx pad S ws o g <;>
        cases tap1 n (padsOf pad n v.1 v.2).1 v.2 a k <;> rfl

lemma windowShape_snoc (pad : Padding) : ∀ (S : List ℕ) (ws : List (ℕ × ℕ)) (n : ℕ) (v : ℕ × ℕ), S.length = ws.length →
    windowShape pad (S ++ [n]) (ws ++ [v]) = windowShape pad S ws ++ [out1 pad n v] := by
  intro S
  induction S with
  | nil =>
    intro ws n v h1
    obtain rfl := List.length_eq_zero_iff.1 h1.symm
    rfl
  | cons m S ih =>
    intro ws n v h
    cases ws with
    | nil => simp at h
    | cons u ws =>
      obtain ⟨w, s⟩ := u
      simp only [List.cons_append, windowShape]
      rw [ih ws n v (by simpa using h)]

lemma windowShape_length (pad : Padding) : ∀ (S : List ℕ) (ws : List (ℕ × ℕ)), S.length = ws.length →
    (windowShape pad S ws).length = S.length := by
  intro S
  induction S with
  | nil => intro ws _; cases ws <;> rfl
  | cons m S ih =>
    intro ws h
    cases ws with
    | nil => simp at h
    | cons u ws => simp [windowShape, ih ws (by simpa using h)]

lemma tapIdx_length (pad : Padding) : ∀ (S : List ℕ) (ws : List (ℕ × ℕ)) (o g p : List ℕ),
    tapIdx pad S ws o g = some p → p.length = S.length := by
  intro S
  induction S with
  | nil => intro ws o g p h; cases ws <;> cases o <;> cases g <;> simp_all [tapIdx]
  | cons n S ih =>
    intro ws o g p h
    cases ws with
    | nil => cases o <;> cases g <;> simp [tapIdx] at h
    | cons v ws =>
      obtain ⟨w, s⟩ := v
      cases o <;> cases g <;> simp only [tapIdx, reduceCtorEq] at h
      split at h
      · rename_i r _ hr
        simp only [Option.some.injEq] at h
        subst h
        simp [ih _ _ _ _ hr]
      · simp at h

lemma convLoop_ok (pad : Padding) (ws : List (ℕ × ℕ)) : ∀ (x : Arr ℝ) (B S T V : List ℕ),
    x.shape = B ++ interleave S T ++ V → S.length = ws.length → T.length = ws.length →
    (ws.zipIdx.foldr (convStep B.length pad) x).shape =
      B ++ V ++ interleave (windowShape pad S ws).reverse (windowShape pad T ws).reverse ∧
    ∀ b o o' v, b.length = B.length → o.length = S.length → o'.length = T.length → v.length = V.length →
      (ws.zipIdx.foldr (convStep B.length pad) x).get (b ++ v ++ interleave o.reverse o'.reverse) =
        (1 / (((ws.map Prod.fst).prod : ℕ) : ℝ)) * ∑ g ∈ box (ws.map Prod.fst),
          read2 (fun p q => x.get (b ++ interleave p q ++ v)) (tapIdx pad S ws o g) (tapIdx pad T ws o' g) := by
  induction ws using List.reverseRecOn with
  | nil =>
    intro x B S T V hx hS hT
    obtain rfl := List.length_eq_zero_iff.1 hS
    obtain rfl := List.length_eq_zero_iff.1 hT
    refine ⟨by simpa [windowShape, interleave] using hx, ?_⟩
    intro b o o' v _ ho ho' _
    obtain rfl := List.length_eq_zero_iff.1 ho
    obtain rfl := List.length_eq_zero_iff.1 ho'
    simp [sum_box_nil, tapIdx, read2, interleave]
  | append_singleton ws w ih =>
    intro x B S T V hx hS hT
    have snoc : ∀ l : List ℕ, l.length = (ws ++ [w]).length → ∃ l' a, l = l' ++ [a] ∧ l'.length = ws.length := by
      intro l hl
      rcases List.eq_nil_or_concat l with h | ⟨l', a, h⟩
      · rw [h] at hl; simp at hl
      · refine ⟨l', a, by simpa using h, ?_⟩
        rw [h] at hl; simpa using hl
    obtain ⟨S, n, rfl, hS'⟩ := snoc S hS
    replace hS := hS'
    obtain ⟨T, m, rfl, hT'⟩ := snoc T hT
    replace hT := hT'
    have hST : S.length = T.length := by omega
    rw [interleave_snoc S T n m hST] at hx
    set x' := convStep B.length pad (w, ws.length) x with hx'
    have hl : B.length + 2 * ws.length = (B ++ interleave S T).length := by
      rw [List.length_append, interleave_length hST]; omega
    obtain ⟨m1, m2⟩ := moveaxis_pair x (B ++ interleave S T) V n m x.ndim (by rw [hx]; simp) rfl
    rw [← hl] at m1 m2
    obtain ⟨c1, c2⟩ := convLast_ok _ (B ++ interleave S T ++ V) n m m1 w pad
    have hf : (ws ++ [w]).zipIdx.foldr (convStep B.length pad) x = ws.zipIdx.foldr (convStep B.length pad) x' := by
      rw [List.zipIdx_append, List.foldr_append, Nat.zero_add]
      rfl
    have hxs : x'.shape = B ++ interleave S T ++ (V ++ [out1 pad n w, out1 pad m w]) := by
      rw [← List.append_assoc]; exact c1
    obtain ⟨i1, i2⟩ := ih x' B S T (V ++ [out1 pad n w, out1 pad m w]) hxs hS hT
    rw [hf]
    constructor
    · rw [i1, windowShape_snoc _ _ _ _ _ hS, windowShape_snoc _ _ _ _ _ hT]
      simp [interleave]
    · intro b o o' v hb ho ho' hv
      obtain ⟨o, a, rfl, ho1⟩ := snoc o (by simpa [hS] using ho)
      replace ho := ho1
      obtain ⟨o', a', rfl, ho1'⟩ := snoc o' (by simpa [hT] using ho')
      replace ho' := ho1'
      have e : b ++ v ++ interleave (o ++ [a]).reverse (o' ++ [a']).reverse =
          b ++ (v ++ [a, a']) ++ interleave o.reverse o'.reverse := by simp [interleave]
      rw [e, i2 b o o' (v ++ [a, a']) hb (by omega) (by omega) (by simp [hv])]
      rw [List.map_append, List.prod_append, box_sum_append]
      simp only [List.map_cons, List.map_nil, List.prod_cons, List.prod_nil, mul_one, box_sum_singleton]
      rw [Nat.cast_mul, ← one_div_mul_one_div, mul_assoc]
      congr 1
      rw [Finset.mul_sum]
      refine Finset.sum_congr rfl fun g hg => ?_
      have hgl : S.length = g.length := by
        rw [mem_box] at hg
        rw [hg.length]; simp [hS]
      have key : ∀ k : ℕ, read2 (fun p q => x.get (b ++ interleave p q ++ v))
          (tapIdx pad (S ++ [n]) (ws ++ [w]) (o ++ [a]) (g ++ [k]))
          (tapIdx pad (T ++ [m]) (ws ++ [w]) (o' ++ [a']) (g ++ [k])) =
          read2 (fun p q => match tap2 pad n m w a a' k with
            | some (c, d) => x.get (b ++ interleave (p ++ [c]) (q ++ [d]) ++ v)
            | none => 0) (tapIdx pad S ws o g) (tapIdx pad T ws o' g) := by
        intro k
        rw [tapIdx_snoc _ _ _ _ _ _ _ _ _ hS (by omega) hgl, tapIdx_snoc _ _ _ _ _ _ _ _ _ hT (by omega) (by omega)]
        unfold tap2
        cases tapIdx pad S ws o g <;> cases tapIdx pad T ws o' g <;>
          cases tap1 n (padsOf pad n w.1 w.2).1 w.2 a k <;> cases tap1 m (padsOf pad m w.1 w.2).1 w.2 a' k <;> rfl
      simp only [key]
      cases hp : tapIdx pad S ws o g with
      | none => simp [read2]
      | some p =>
        cases hq : tapIdx pad T ws o' g with
        | none => simp [read2]
        | some q =>
          have hpl := tapIdx_length pad _ _ _ _ p hp
          have hql := tapIdx_length pad _ _ _ _ q hq
          simp only [read2]
          have e2 : b ++ interleave p q ++ (v ++ [a, a']) = (b ++ interleave p q ++ v) ++ [a, a'] := by simp
          rw [e2]
          refine (c2 (b ++ interleave p q ++ v) a a' ?_).trans ?_
          · simp [hb, hv, interleave_length hST, interleave_length (show p.length = q.length by omega), hpl]
          · congr 1
            refine Finset.sum_congr rfl fun k _ => ?_
            cases tap2 pad n m w a a' k with
            | none => rfl
            | some cd =>
              obtain ⟨c, d⟩ := cd
              simp only []
              rw [m2 (b ++ interleave p q) v c d ?_ hv, interleave_snoc p q c d (by omega)]
              · simp
              · rw [List.length_append, interleave_length (show p.length = q.length by omega)]
                omega

end NT
