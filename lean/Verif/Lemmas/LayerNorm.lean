import Verif.Lemmas.Elementwise
import Verif.Lemmas.Box
import Verif.Model.LayerNorm
import Verif.Spec.LayerNorm
import Verif.Tac

/-!
# Broadcasting and group means
-/

namespace NT
open Arr Spec

variable {α β γ : Type}

/-- The shape `s'` broadcasts to `s`. -/
abbrev Widens (s' s : List ℕ) : Prop := List.Forall₂ (fun m n => m = n ∨ m = 1) s' s

lemma bcastIdx_inRange {i s' s : List ℕ} (hs : Widens s' s) (h : InRange i s) : InRange (bcastIdx s' i) s' := by
  unfold bcastIdx
  induction hs generalizing i with
  | nil => cases h; exact List.Forall₂.nil
  | cons h1 _ ih =>
    cases h with
    | cons h2 h3 =>
      rw [List.zipWith_cons_cons]
      refine List.Forall₂.cons ?_ (ih h3)
      split_ifs <;> omega

lemma bcastIdx_interleave (s t i j : List ℕ) (h1 : s.length = i.length) (h2 : t.length = j.length) (h3 : s.length = t.length) :
    bcastIdx (interleave s t) (interleave i j) = interleave (bcastIdx s i) (bcastIdx t j) := by
  unfold bcastIdx
  induction s generalizing t i j with
  | nil =>
    obtain rfl := List.length_eq_zero_iff.1 h3.symm
    rfl
  | cons a s ih =>
    match i, t, j with
    | b :: i, c :: t, d :: j =>
      simp only [interleave, List.zipWith_cons_cons]
      rw [ih t i j (by simpa using h1) (by simpa using h2) (by simpa using h3)]
    | [], _, _ => simp at h1
    | _, [], _ => simp at h3
    | _, c :: t, [] => simp at h2

lemma widens_interleave {s s' t t' : List ℕ} (h1 : Widens s' s) (h2 : Widens t' t) : Widens (interleave s' t') (interleave s t) := by
  induction h1 generalizing t t' with
  | nil => simp [interleave, Widens]
  | cons h _ ih =>
    cases h2 with
    | nil => simp [interleave, Widens]
    | cons h' h2 => exact List.Forall₂.cons h (List.Forall₂.cons h' (ih h2))

lemma widens_append {s s' t t' : List ℕ} (h1 : Widens s' s) (h2 : Widens t' t) : Widens (s' ++ t') (s ++ t) := by
  induction h1 with
  | nil => exact h2
  | cons h _ ih => exact List.Forall₂.cons h ih

/-- Broadcast to the shape `s`, the array has the entries `G`. -/
structure Bc (x : Arr α) (s : List ℕ) (G : List ℕ → α) : Prop where
  shape : Widens x.shape s
  get : ∀ i, InRange i s → x.get (bcastIdx x.shape i) = G i

/-- Broadcast to the layout, the array holds `F`. -/
structure HoldsBc (a : Arr α) (B S T : List ℕ) (diag rev : Bool) (F : List ℕ → List ℕ → List ℕ → α) : Prop where
  shape : Widens a.shape (B ++ pos diag rev S T)
  get : ∀ b p q, InRange b B → InRange p S → InRange q T → (diag = true → p = q) →
    a.get (bcastIdx a.shape (b ++ pos diag rev p q)) = F b p q

lemma inRange_layout {B S T b p q : List ℕ} {diag rev : Bool} (hr : S.length = T.length) (hb : InRange b B) (hp : InRange p S)
    (hq : InRange q T) : InRange (b ++ pos diag rev p q) (B ++ pos diag rev S T) := by
  rw [inRange_append hb.length]
  refine ⟨hb, ?_⟩
  cases diag
  · rw [pos_full, pos_full]
    exact (inRange_interleave (by simp [hp.length]) (by simp [hq.length]) (by simp [hr])).2 ⟨inRange_rv.2 hp, inRange_rv.2 hq⟩
  · rw [pos_diag, pos_diag]
    exact inRange_rv.2 hp

lemma bcast_dims {s s' : List ℕ} (h : Widens s' s) : List.zipWith bcastDim s s' = s := by
  induction h with
  | nil => rfl
  | cons h _ ih =>
    rw [List.zipWith_cons_cons, ih]
    congr 1
    unfold bcastDim
    split_ifs <;> omega

lemma bcastE_holds (op : α → β → γ) {a : Arr α} {p : Arr β} {B S T : List ℕ} {diag rev : Bool} {F : List ℕ → List ℕ → List ℕ → α}
    {G : List ℕ → List ℕ → List ℕ → β} (ha : Holds a B S T diag rev F) (hp : HoldsBc p B S T diag rev G) :
    ∃ c, bcastE op a p = .ok c ∧ Holds c B S T diag rev fun b p q => op (F b p q) (G b p q) := by
  have hs := hp.shape
  rw [← ha.shape] at hs
  refine ⟨bcast op a p, ?_, ha.rank, ha.square, ?_, ?_⟩
  · unfold bcastE
    rw [if_pos]
    refine hs.flip.imp fun m n h => ?_
    tauto
  · show List.zipWith bcastDim a.shape p.shape = _
    rw [bcast_dims hs, ha.shape]
  · intro b r q hb hr hq hd
    show op (a.get (bcastIdx a.shape _)) (p.get (bcastIdx p.shape _)) = _
    rw [hp.get b r q hb hr hq hd, ha.shape, bcastIdx_self (inRange_layout ha.rank hb hr hq), ha.get b r q hb hr hq hd]

lemma outer12_bc (op : α → α → γ) {x y : Arr α} {n m a b : ℕ} {S T ks kt : List ℕ} {ds rev : Bool} {f g : List ℕ → α}
    (hx : Bc x (n :: rv rev S) f) (hy : Bc y (m :: rv rev T) g) (sx : x.shape = a :: ks) (sy : y.shape = b :: kt)
    (hr : S.length = T.length) (hsq : ds = true → S = T ∧ ks = kt) (e : ℕ) (he : e = if ds then 1 else x.ndim) :
    HoldsBc (outerProd x (some y) 0 e op) [n, m] S T ds rev
      (fun b p q => op (f (b.getD 0 0 :: rv rev p)) (g (b.getD 1 0 :: rv rev q))) := by
  have wx := hx.shape
  have wy := hy.shape
  rw [sx] at wx
  rw [sy] at wy
  have lk : ks.length = S.length := by have := wx.length_eq; simpa using this
  have lt : kt.length = T.length := by have := wy.length_eq; simpa using this
  cases ds
  · have he' : e = ([] : List ℕ).length + (a :: ks).length := by rw [he]; simp [ndim, sx]
    obtain ⟨h1, h2⟩ := outerProd_ok op x y [] (a :: ks) (b :: kt) [] (by simp [sx]) (by simp [sy]) (by simp; omega)
    rw [← he'] at h1 h2
    simp only [List.length_nil, List.nil_append, List.append_nil] at h1 h2
    refine ⟨?_, ?_⟩
    · rw [h1, pos_full]
      exact widens_interleave wx wy
    · intro c p q hb hp hq _
      obtain ⟨i, j, rfl, hi, hj⟩ : ∃ i j, c = [i, j] ∧ i < n ∧ j < m := by
        cases hb with
        | cons h1 h2 => cases h2 with
          | cons h2 h3 => cases h3; exact ⟨_, _, rfl, h1, h2⟩
      have rp : InRange (i :: rv rev p) (n :: rv rev S) := List.Forall₂.cons hi (inRange_rv.2 hp)
      have rq : InRange (j :: rv rev q) (m :: rv rev T) := List.Forall₂.cons hj (inRange_rv.2 hq)
      have := h2 [] (bcastIdx (a :: ks) (i :: rv rev p)) (bcastIdx (b :: kt) (j :: rv rev q)) [] List.Forall₂.nil
        (bcastIdx_inRange wx rp) (bcastIdx_inRange wy rq) List.Forall₂.nil
      simp only [List.nil_append, List.append_nil] at this
      rw [h1, pos_full]
      show (outerProd x (some y) 0 e op).get (bcastIdx (interleave (a :: ks) (b :: kt)) (interleave (i :: rv rev p) (j :: rv rev q))) = _
      have lp := hp.length
      have lq := hq.length
      rw [bcastIdx_interleave _ _ _ _ (by simp; omega) (by simp; omega) (by simp; omega), this, ← sx, ← sy, hx.get _ rp, hy.get _ rq]
      simp
  · obtain ⟨rfl, rfl⟩ := hsq rfl
    have he' : e = ([] : List ℕ).length + [a].length := by rw [he]; simp
    obtain ⟨h1, h2⟩ := outerProd_ok op x y [] [a] [b] ks (by simp [sx]) (by simp [sy]) rfl
    rw [← he'] at h1 h2
    simp only [List.length_nil, List.nil_append] at h1 h2
    have h1' : (outerProd x (some y) 0 e op).shape = a :: b :: ks := h1
    refine ⟨?_, ?_⟩
    · rw [h1', pos_diag]
      cases wx with
      | cons w1 w2 => cases wy with
        | cons w3 w4 => exact List.Forall₂.cons w1 (List.Forall₂.cons w3 w2)
    · intro c p q hb hp hq hpq
      obtain rfl := hpq rfl
      obtain ⟨i, j, rfl, hi, hj⟩ : ∃ i j, c = [i, j] ∧ i < n ∧ j < m := by
        cases hb with
        | cons h1 h2 => cases h2 with
          | cons h2 h3 => cases h3; exact ⟨_, _, rfl, h1, h2⟩
      have rp : InRange (i :: rv rev p) (n :: rv rev S) := List.Forall₂.cons hi (inRange_rv.2 hp)
      have rq : InRange (j :: rv rev p) (m :: rv rev S) := List.Forall₂.cons hj (inRange_rv.2 hq)
      have ip := bcastIdx_inRange wx rp
      have iq := bcastIdx_inRange wy rq
      have gx := hx.get _ rp
      have gy := hy.get _ rq
      rw [sx] at gx
      rw [sy] at gy
      simp only [bcastIdx, List.zipWith_cons_cons] at ip iq gx gy
      cases ip with
      | cons i1 i2 => cases iq with
        | cons j1 j2 =>
          have := h2 [] [_] [_] _ List.Forall₂.nil (inRange_one.2 i1) (inRange_one.2 j1) i2
          simp only [List.nil_append, interleave, List.cons_append] at this
          rw [h1', pos_diag]
          simp only [bcastIdx, List.cons_append, List.nil_append, List.zipWith_cons_cons]
          rw [this, gx, gy]
          simp

lemma outer11_bc (op : α → α → γ) {x : Arr α} {n a : ℕ} {S ks : List ℕ} {db ds rev : Bool} {f : List ℕ → α}
    (hx : Bc x (n :: rv rev S) f) (sx : x.shape = a :: ks) (s e : ℕ) (hs : s = if db then 1 else 0) (he : e = if ds then 1 else x.ndim) :
    HoldsBc (outerProd x (some x) s e op) (batchShape db n) S S ds rev
      (fun b p q => op (f ((dbl b).getD 0 0 :: rv rev p)) (f ((dbl b).getD 1 0 :: rv rev q))) := by
  cases db
  · obtain rfl : s = 0 := by rw [hs]; simp
    have := outer12_bc op (ds := ds) hx hx sx sx rfl (fun _ => ⟨rfl, rfl⟩) e he
    refine ⟨this.shape, ?_⟩
    intro b p q hb hp hq hpq
    rw [this.get b p q hb hp hq hpq]
    cases hb with
    | cons h1 h2 => cases h2 with
      | cons h2 h3 => cases h3; rfl
  · obtain rfl : s = 1 := by rw [hs]; simp
    have wx := hx.shape
    rw [sx] at wx
    have lk : ks.length = S.length := by have := wx.length_eq; simpa using this
    have one : ∀ b, InRange b (batchShape true n) → ∃ i, b = [i] ∧ i < n := by
      intro b hb
      simp only [batchShape, if_true] at hb
      cases hb with
      | cons h1 h2 => cases h2; exact ⟨_, rfl, h1⟩
    have split : ∀ i p, i < n → InRange p S → (if a = 1 then 0 else i) < a ∧ InRange (bcastIdx ks (rv rev p)) ks ∧
        x.get ((if a = 1 then 0 else i) :: bcastIdx ks (rv rev p)) = f (i :: rv rev p) := by
      intro i p hi hp
      have rp : InRange (i :: rv rev p) (n :: rv rev S) := List.Forall₂.cons hi (inRange_rv.2 hp)
      have ip := bcastIdx_inRange wx rp
      have gx := hx.get _ rp
      rw [sx] at gx
      simp only [bcastIdx, List.zipWith_cons_cons] at ip gx
      cases ip with
      | cons i1 i2 => exact ⟨i1, i2, gx⟩
    cases ds
    · have he' : e = [a].length + ks.length := by rw [he]; simp [ndim, sx]; omega
      obtain ⟨h1, h2⟩ := outerProd_ok op x x [a] ks ks [] (by simp [sx]) (by simp [sx]) rfl
      rw [← he'] at h1 h2
      simp only [List.length_singleton, List.append_nil] at h1 h2
      refine ⟨?_, ?_⟩
      · rw [h1, pos_full]
        cases wx with
        | cons w1 w2 => exact List.Forall₂.cons w1 (widens_interleave w2 w2)
      · intro b p q hb hp hq _
        obtain ⟨i, rfl, hi⟩ := one b hb
        obtain ⟨i1, i2, i3⟩ := split i p hi hp
        obtain ⟨j1, j2, j3⟩ := split i q hi hq
        have := h2 [_] _ _ [] (inRange_one.2 i1) i2 j2 List.Forall₂.nil
        simp only [List.append_nil, List.cons_append, List.nil_append] at this
        have lp := hp.length
        have lq := hq.length
        rw [h1, pos_full, bcastIdx_append (show [a].length = [i].length from rfl), bcastIdx_interleave _ _ _ _ (by simp; omega) (by simp; omega) rfl]
        show (outerProd x (some x) 1 e op).get ((if a = 1 then 0 else i) :: interleave (bcastIdx ks (rv rev p)) (bcastIdx ks (rv rev q))) = _
        rw [this, i3, j3]
        simp [dbl]
    · have he' : e = [a].length + ([] : List ℕ).length := by rw [he]; simp
      obtain ⟨h1, h2⟩ := outerProd_ok op x x [a] [] [] ks (by simp [sx]) (by simp [sx]) rfl
      rw [← he'] at h1 h2
      simp only [List.length_singleton, List.append_nil, interleave] at h1 h2
      refine ⟨?_, ?_⟩
      · rw [h1, pos_diag]
        exact wx
      · intro b p q hb hp hq hpq
        obtain rfl := hpq rfl
        obtain ⟨i, rfl, hi⟩ := one b hb
        obtain ⟨i1, i2, i3⟩ := split i p hi hp
        have := h2 [_] [] [] _ (inRange_one.2 i1) List.Forall₂.nil List.Forall₂.nil i2
        simp only [List.append_nil, List.cons_append, List.nil_append, interleave] at this
        rw [h1, pos_diag]
        show (outerProd x (some x) 1 e op).get ((if a = 1 then 0 else i) :: bcastIdx ks (rv rev p)) = _
        rw [this, i3]
        simp [dbl]

end NT
