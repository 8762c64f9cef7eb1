import Verif.Lemmas.Upsample
import Verif.Lemmas.KernelDot

/-!
# Lemmas on transposed convolutions: folding several axes
-/

namespace NT
open Arr Spec Kernel

/-- The window sizes of the fold. -/
def foldSizes (M : List ℕ) (ts : List (Option ℕ)) : List ℕ := List.zipWith (fun m t => (foldWindow m t).1) M ts

lemma dil_fold : ∀ (M : List ℕ) (ts : List (Option ℕ)) (o h : List ℕ), M.length = ts.length → M.length = o.length →
    alongAxes dilTap M (List.zipWith foldWindow M ts)
      (List.zipWith (fun mt k => (mt.1 - mt.2.getD mt.1) / 2 + k) (M.zip ts) o) h = alongAxes foldPos M ts o h := by
  intro M
  induction M with
  | nil =>
    intro ts o h hl ho
    obtain rfl := List.length_eq_zero_iff.1 hl.symm
    obtain rfl := List.length_eq_zero_iff.1 ho.symm
    cases h <;> rfl
  | cons m M ih =>
    intro ts o h hl ho
    cases ts with
    | nil => simp at hl
    | cons t ts =>
    cases o with
    | nil => simp at ho
    | cons o os =>
    cases h with
    | nil => simp [alongAxes]
    | cons h hs =>
      simp only [List.zipWith_cons_cons, List.zip_cons_cons, alongAxes, ih ts os hs (by simpa using hl) (by simpa using ho), foldPos]

lemma samePadTranspose_ok (x : Arr ℝ) (ts : List (Option ℕ)) (hl : x.shape.length = ts.length) :
    (samePadTranspose x ts).shape = List.zipWith (fun m t => t.getD m) x.shape ts ∧
    ∀ o, o.length = x.shape.length → (samePadTranspose x ts).get o =
      ∑ h ∈ box (foldSizes x.shape ts), readTap x.get (alongAxes foldPos x.shape ts o h) := by
  refine ⟨rfl, fun o ho => ?_⟩
  show sumOver ((List.zipWith foldWindow x.shape ts).map Prod.fst) _ = _
  rw [sumOver_eq_box, List.map_zipWith]
  refine Finset.sum_congr rfl fun h _ => ?_
  exact congrArg _ (dil_fold _ _ _ _ hl ho.symm)

lemma readTap_cons (F : List ℕ → ℝ) (A : Option ℕ) (B : Option (List ℕ)) :
    readTap F (match A, B with
      | some p, some r => some (p :: r)
      | _, _ => none) = rd1 (fun a => readTap (fun r => F (a :: r)) B) A := by
  cases A <;> cases B <;> rfl

lemma bind_cons (A : Option ℕ) (B : Option (List ℕ)) (f : ℕ → Option ℕ) (g : List ℕ → Option (List ℕ)) (k : List ℕ → Option (List ℕ))
    (hk : ∀ a r, k (a :: r) = match f a, g r with
      | some p, some q => some (p :: q)
      | _, _ => none) :
    (match A, B with
      | some p, some r => some (p :: r)
      | _, _ => none : Option (List ℕ)).bind k = match A.bind f, B.bind g with
      | some p, some q => some (p :: q)
      | _, _ => none := by
  cases A <;> cases B <;> simp [hk]

lemma rd1_sum (s : Finset (List ℕ)) (F : ℕ → List ℕ → ℝ) (A : Option ℕ) :
    ∑ h ∈ s, rd1 (fun a => F a h) A = rd1 (fun a => ∑ h ∈ s, F a h) A := by
  cases A <;> simp [rd1]

/-- Folding all axes. -/
lemma fold_axes : ∀ (S : List ℕ) (ws : List (ℕ × ℕ)) (o g : List ℕ) (F : List ℕ → ℝ), PosDims S → PosWin ws → S.length = ws.length →
    InRange o (upDims .circular S ws) → InRange g (ws.map Prod.fst) →
    ∑ h ∈ box (foldSizes (upDims .valid S ws) ((upDims .same S ws).map some)),
      readTap F ((alongAxes foldPos (upDims .valid S ws) ((upDims .same S ws).map some) o h).bind
        fun p => alongAxes (upTap .valid) S ws p g) = readTap F (upIdx .circular S ws o g) := by
  intro S
  induction S with
  | nil =>
    intro ws o g F _ _ hl ho hg
    obtain rfl := List.length_eq_zero_iff.1 hl.symm
    obtain rfl := List.length_eq_zero_iff.1 ho.length
    obtain rfl := List.length_eq_zero_iff.1 hg.length
    simp [upDims, foldSizes, alongAxes, upIdx]
  | cons n S ih =>
    intro ws o g F hS hw hl ho hg
    cases ws with
    | nil => simp at hl
    | cons v ws =>
    obtain ⟨w, s⟩ := v
    cases o with
    | nil => simpa [upDims] using ho.length
    | cons o os =>
    cases g with
    | nil => simpa using hg.length
    | cons g gs =>
      have hu : ∀ pad, upDims pad (n :: S) ((w, s) :: ws) = upDim pad n w s :: upDims pad S ws := fun pad => rfl
      rw [hu, inRange_cons] at ho
      rw [List.map_cons, inRange_cons] at hg
      have hv := hw (w, s) (by simp)
      have hn := hS n (by simp)
      have IH := fun F => ih ws os gs F (fun m hm => hS m (by simp [hm])) (fun v hv => hw v (by simp [hv])) (by simpa using hl) ho.2 hg.2
      have hb : foldSizes (upDims .valid (n :: S) ((w, s) :: ws)) ((upDims .same (n :: S) ((w, s) :: ws)).map some) =
          (foldWindow (upDim .valid n w s) (some (n * s))).1 :: foldSizes (upDims .valid S ws) ((upDims .same S ws).map some) := rfl
      rw [hb, box_sum_cons]
      have step : ∀ h hs, readTap F ((alongAxes foldPos (upDims .valid (n :: S) ((w, s) :: ws))
          ((upDims .same (n :: S) ((w, s) :: ws)).map some) (o :: os) (h :: hs)).bind
            fun p => alongAxes (upTap .valid) (n :: S) ((w, s) :: ws) p (g :: gs)) =
          rd1 (fun a => readTap (fun r => F (a :: r)) ((alongAxes foldPos (upDims .valid S ws) ((upDims .same S ws).map some) os hs).bind
            fun p => alongAxes (upTap .valid) S ws p gs))
            ((foldPos (upDim .valid n w s) (some (n * s)) o h).bind fun t => upTap .valid n (w, s) t g) := by
        intro h hs
        rw [← readTap_cons]
        congr 1
        exact bind_cons _ _ _ _ _ fun a r => rfl
      simp only [step]
      rw [Finset.sum_congr rfl fun h _ => rd1_sum _ _ _]
      simp only [IH]
      rw [fold_axis _ n w s o g hn hv.1 hv.2 hg.1 ho.1]
      unfold upIdx
      simp only [alongAxes]
      exact (readTap_cons F _ _).symm

/-- The positions of `lax.conv_transpose`. -/
lemma upShape_dims (pad : Padding) (hp : pad ≠ .circular) : ∀ (S : List ℕ) (ws : List (ℕ × ℕ)), PosDims S → PosWin ws →
    List.zipWith (upOut pad) S ws = upDims pad S ws := by
  intro S
  induction S with
  | nil => intro ws _ _; rfl
  | cons n S ih =>
    intro ws hS hw
    cases ws with
    | nil => rfl
    | cons v ws =>
      obtain ⟨w, s⟩ := v
      have hv := hw (w, s) (by simp)
      have := ih ws (fun m hm => hS m (by simp [hm])) (fun v hv => hw v (by simp [hv]))
      unfold upDims at this ⊢
      rw [List.zipWith_cons_cons, List.zipWith_cons_cons, this, upOut_dim pad hp n w s (hS n (by simp)) hv.1 hv.2]

lemma upTap_idx (pad : Padding) (hp : pad ≠ .circular) : ∀ (S : List ℕ) (ws : List (ℕ × ℕ)) (o g : List ℕ), PosDims S → PosWin ws →
    alongAxes (upTap pad) S ws o g = upIdx pad S ws o g := by
  intro S
  induction S with
  | nil => intro ws o g _ _; cases ws <;> cases o <;> cases g <;> rfl
  | cons n S ih =>
    intro ws o g hS hw
    cases ws with
    | nil => cases o <;> cases g <;> rfl
    | cons v ws =>
    cases o with
    | nil => rfl
    | cons o os =>
    cases g with
    | nil => rfl
    | cons g gs =>
      obtain ⟨w, s⟩ := v
      have hv := hw (w, s) (by simp)
      have := ih ws os gs (fun m hm => hS m (by simp [hm])) (fun v hv => hw v (by simp [hv]))
      unfold upIdx at this ⊢
      simp only [alongAxes, this, upTap_pos pad hp n w s o g (hS n (by simp)) hv.1 hv.2]

lemma upPos_lt (pad : Padding) (n : ℕ) (v : ℕ × ℕ) (o f p : ℕ) (h : upPos pad n v o f = some p) : p < n := by
  unfold upPos at h
  dsimp only at h
  generalize (if pad = .circular then _ else _ : ℤ) = z at h
  split at h
  · rename_i hz
    simp only [Option.some.injEq] at h
    subst h
    obtain ⟨h1, h2, h3⟩ := hz
    have hv : 0 < v.2 := by
      rcases Nat.eq_zero_or_pos v.2 with h0 | h0
      · rw [h0] at h2; simp at h2; omega
      · exact h0
    have : z / v.2 < n := Int.ediv_lt_of_lt_mul (by omega) (by push_cast at h2; exact h2)
    have h4 : 0 ≤ z / v.2 := Int.ediv_nonneg h1 (by omega)
    omega
  · simp at h

lemma upIdx_inRange (pad : Padding) : ∀ (S : List ℕ) (ws : List (ℕ × ℕ)) (o f p : List ℕ), upIdx pad S ws o f = some p → InRange p S := by
  intro S
  induction S with
  | nil =>
    intro ws o f p h
    have := alongAxes_length _ _ _ _ _ _ h
    obtain rfl := List.length_eq_zero_iff.1 this
    exact List.Forall₂.nil
  | cons n S ih =>
    intro ws o f p h
    cases ws with
    | nil => cases o <;> cases f <;> simp [upIdx, alongAxes] at h
    | cons v ws =>
      cases o <;> cases f <;> simp only [upIdx, alongAxes, reduceCtorEq] at h
      split at h
      · rename_i q r hq hr
        simp only [Option.some.injEq] at h
        subst h
        rw [inRange_cons]
        exact ⟨upPos_lt _ _ _ _ _ _ hq, ih _ _ _ _ hr⟩
      · simp at h

/-- The batch axes are not folded. -/
lemma fold_ones : ∀ (B b : List ℕ), InRange b B →
    alongAxes foldPos B (List.replicate B.length none) b (List.replicate B.length 0) = some b := by
  intro B
  induction B with
  | nil => intro b hb; rw [inRange_nil_right] at hb; subst hb; rfl
  | cons n B ih =>
    intro b hb
    cases b with
    | nil => simpa using hb.length
    | cons b bs =>
      rw [inRange_cons] at hb
      simp only [List.length_cons, List.replicate_succ, alongAxes, foldPos_none n b hb.1, ih bs hb.2]

lemma foldSizes_ones (B : List ℕ) : foldSizes B (List.replicate B.length none) = List.replicate B.length 1 := by
  induction B with
  | nil => rfl
  | cons n B ih =>
    unfold foldSizes at ih ⊢
    simp only [List.length_cons, List.replicate_succ, List.zipWith_cons_cons, ih]
    rfl

lemma foldSizes_append (M N : List ℕ) (ts us : List (Option ℕ)) (h : M.length = ts.length) :
    foldSizes (M ++ N) (ts ++ us) = foldSizes M ts ++ foldSizes N us := List.zipWith_append h

lemma foldSizes_interleave : ∀ (M N : List ℕ) (ts us : List (Option ℕ)), M.length = N.length → M.length = ts.length → M.length = us.length →
    foldSizes (interleave M N) (interleave ts us) = interleave (foldSizes M ts) (foldSizes N us) := by
  intro M
  induction M with
  | nil =>
    intro N ts us h1 h2 h3
    obtain rfl := List.length_eq_zero_iff.1 h1.symm
    obtain rfl := List.length_eq_zero_iff.1 h2.symm
    obtain rfl := List.length_eq_zero_iff.1 h3.symm
    rfl
  | cons m M ih =>
    intro N ts us h1 h2 h3
    cases N with
    | nil => simp at h1
    | cons n N =>
    cases ts with
    | nil => simp at h2
    | cons t ts =>
    cases us with
    | nil => simp at h3
    | cons u us =>
      have := ih N ts us (by simpa using h1) (by simpa using h2) (by simpa using h3)
      unfold foldSizes at this ⊢
      simp only [interleave, List.zipWith_cons_cons, this]

lemma foldSizes_length (M : List ℕ) (ts : List (Option ℕ)) (h : M.length = ts.length) : (foldSizes M ts).length = M.length := by
  unfold foldSizes; simp [h]

end NT
