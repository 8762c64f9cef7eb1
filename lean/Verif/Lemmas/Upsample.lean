import Verif.Spec.Transposed
import Verif.Lemmas.Conv2
import Verif.Tac

/-!
# Lemmas on transposed convolutions: positions
-/

namespace NT
open Arr Spec Kernel

section Axes
variable {α : Type} (τ : ℕ → α → ℕ → ℕ → Option ℕ)

lemma alongAxes_append : ∀ (S : List ℕ) (ws : List α) (o f T : List ℕ) (vs : List α) (p g : List ℕ),
    S.length = ws.length → S.length = o.length → S.length = f.length →
    alongAxes τ (S ++ T) (ws ++ vs) (o ++ p) (f ++ g) = catOpt (alongAxes τ S ws o f) (alongAxes τ T vs p g) := by
  intro S
  induction S with
  | nil =>
    intro ws o f T vs p g h1 h2 h3
    obtain rfl := List.length_eq_zero_iff.1 h1.symm
    obtain rfl := List.length_eq_zero_iff.1 h2.symm
    obtain rfl := List.length_eq_zero_iff.1 h3.symm
    simp only [List.nil_append, alongAxes]
    generalize alongAxes τ T vs p g = a
    cases a <;> rfl
  | cons n S ih =>
    intro ws o f T vs p g h1 h2 h3
    cases ws with
    | nil => simp at h1
    | cons v ws =>
    cases o with
    | nil => simp at h2
    | cons o os =>
    cases f with
    | nil => simp at h3
    | cons f fs =>
      simp only [List.cons_append, alongAxes]
      rw [ih ws os fs T vs p g (by simpa using h1) (by simpa using h2) (by simpa using h3)]
      generalize τ n v o f = a
      generalize alongAxes τ S ws os fs = b
      generalize alongAxes τ T vs p g = c
      cases a <;> cases b <;> cases c <;> rfl

lemma alongAxes_interleave : ∀ (S T : List ℕ) (ws vs : List α) (o o' f f' : List ℕ), S.length = T.length → S.length = ws.length →
    S.length = vs.length → S.length = o.length → S.length = o'.length → S.length = f.length → S.length = f'.length →
    alongAxes τ (interleave S T) (interleave ws vs) (interleave o o') (interleave f f') =
      ilOpt (alongAxes τ S ws o f) (alongAxes τ T vs o' f') := by
  intro S
  induction S with
  | nil =>
    intro T ws vs o o' f f' h1 h2 h2' h3 h4 h5 h6
    obtain rfl := List.length_eq_zero_iff.1 h1.symm
    obtain rfl := List.length_eq_zero_iff.1 h2.symm
    obtain rfl := List.length_eq_zero_iff.1 h2'.symm
    obtain rfl := List.length_eq_zero_iff.1 h3.symm
    obtain rfl := List.length_eq_zero_iff.1 h4.symm
    obtain rfl := List.length_eq_zero_iff.1 h5.symm
    obtain rfl := List.length_eq_zero_iff.1 h6.symm
    rfl
  | cons n S ih =>
    intro T ws vs o o' f f' h1 h2 h2' h3 h4 h5 h6
    cases T with
    | nil => simp at h1
    | cons m T =>
    cases ws with
    | nil => simp at h2
    | cons v ws =>
    cases vs with
    | nil => simp at h2'
    | cons v' vs =>
    cases o with
    | nil => simp at h3
    | cons o os =>
    cases o' with
    | nil => simp at h4
    | cons o' os' =>
    cases f with
    | nil => simp at h5
    | cons f fs =>
    cases f' with
    | nil => simp at h6
    | cons f' fs' =>
      have := ih T ws vs os os' fs fs' (by simpa using h1) (by simpa using h2) (by simpa using h2') (by simpa using h3)
        (by simpa using h4) (by simpa using h5) (by simpa using h6)
      simp only [interleave, alongAxes, this]
      generalize τ n v o f = a
      generalize τ m v' o' f' = a'
      generalize alongAxes τ S ws os fs = b
      generalize alongAxes τ T vs os' fs' = b'
      cases a <;> cases a' <;> cases b <;> cases b' <;> rfl

lemma alongAxes_reverse (S : List ℕ) (ws : List α) (o f : List ℕ) (h : S.length = ws.length)
    (h2 : S.length = o.length) (h3 : S.length = f.length) :
    alongAxes τ S.reverse ws.reverse o.reverse f.reverse = (alongAxes τ S ws o f).map List.reverse := by
  induction S generalizing ws o f with
  | nil =>
    obtain rfl := List.length_eq_zero_iff.1 h.symm
    obtain rfl := List.length_eq_zero_iff.1 h2.symm
    obtain rfl := List.length_eq_zero_iff.1 h3.symm
    rfl
  | cons n S ih =>
    cases ws with
    | nil => simp at h
    | cons v ws =>
    cases o with
    | nil => simp at h2
    | cons o os =>
    cases f with
    | nil => simp at h3
    | cons f fs =>
      rw [List.reverse_cons, List.reverse_cons, List.reverse_cons, List.reverse_cons,
        alongAxes_append _ _ _ _ _ _ _ _ _ (by simpa using h) (by simpa using h2) (by simpa using h3),
        ih ws os fs (by simpa using h) (by simpa using h2) (by simpa using h3)]
      simp only [alongAxes]
      generalize τ n v o f = a
      generalize alongAxes τ S ws os fs = b
      cases a <;> cases b <;> simp [catOpt]

lemma alongAxes_length : ∀ (S : List ℕ) (ws : List α) (o f p : List ℕ),
    alongAxes τ S ws o f = some p → p.length = S.length := by
  intro S
  induction S with
  | nil => intro ws o f p h; cases ws <;> cases o <;> cases f <;> simp_all [alongAxes]
  | cons n S ih =>
    intro ws o f p h
    cases ws with
    | nil => cases o <;> cases f <;> simp [alongAxes] at h
    | cons v ws =>
      cases o <;> cases f <;> simp only [alongAxes, reduceCtorEq] at h
      split at h
      · rename_i r _ hr
        simp only [Option.some.injEq] at h
        subst h
        simp [ih _ _ _ _ hr]
      · simp at h

lemma alongAxes_snoc (S : List ℕ) (ws : List α) (o g : List ℕ) (n : ℕ) (v : α) (a k : ℕ)
    (h1 : S.length = ws.length) (h2 : S.length = o.length) (h3 : S.length = g.length) :
    alongAxes τ (S ++ [n]) (ws ++ [v]) (o ++ [a]) (g ++ [k]) =
      match alongAxes τ S ws o g, τ n v a k with
      | some p, some q => some (p ++ [q])
      | _, _ => none := by
  rw [alongAxes_append τ S ws o g [n] [v] [a] [k] h1 h2 h3]
  simp only [alongAxes]
  generalize alongAxes τ S ws o g = b
  cases τ n v a k <;> cases b <;> rfl

end Axes

/-- No axis is empty. -/
def PosDims (S : List ℕ) : Prop := ∀ n ∈ S, 0 < n

lemma upDims_rv (pad : Padding) (rev : Bool) (S : List ℕ) (ws : List (ℕ × ℕ)) (h : S.length = ws.length) :
    upDims pad (rv rev S) (rvW rev ws) = rv rev (upDims pad S ws) := by
  unfold rv rvW upDims
  cases rev
  · rfl
  · simp only [if_true]
    exact (List.reverse_zipWith h).symm

lemma upIdx_rv (pad : Padding) (rev : Bool) (S : List ℕ) (ws : List (ℕ × ℕ)) (o f : List ℕ) (h : S.length = ws.length)
    (h2 : S.length = o.length) (h3 : S.length = f.length) :
    upIdx pad (rv rev S) (rvW rev ws) (rv rev o) (rv rev f) = (upIdx pad S ws o f).map (rv rev) := by
  unfold rv rvW upIdx
  cases rev
  · simp
  · exact alongAxes_reverse _ S ws o f h h2 h3

lemma upDims_length (pad : Padding) (S : List ℕ) (ws : List (ℕ × ℕ)) (h : S.length = ws.length) :
    (upDims pad S ws).length = S.length := by
  unfold upDims; simp [h]

/-! ### One axis -/

lemma upOut_dim (pad : Padding) (hp : pad ≠ .circular) (n w s : ℕ) (hn : 0 < n) (hw : 0 < w) (hs : 0 < s) :
    upOut pad n (w, s) = upDim pad n w s := by
  obtain ⟨m, rfl⟩ : ∃ m, n = m + 1 := ⟨n - 1, by omega⟩
  have e : (m + 1) * s = m * s + s := by ring
  unfold upOut upDim windowOut upPads dilated
  rcases pad with _ | _ | _
  · exact absurd rfl hp
  · simp only [Nat.add_sub_cancel, if_neg (Nat.succ_ne_zero m), e, Nat.div_one]
    generalize m * s = q
    split_ifs <;> omega
  · simp only [Nat.add_sub_cancel, if_neg (Nat.succ_ne_zero m), e, Nat.div_one]
    generalize m * s = q
    split_ifs <;> omega

lemma upPads_shift (pad : Padding) (hp : pad ≠ .circular) (w s : ℕ) (hw : 0 < w) (hs : 0 < s) :
    (upPads pad w s).1 = upShift pad w s := by
  unfold upPads upShift
  rcases pad with _ | _ | _
  · exact absurd rfl hp
  · dsimp only
    split_ifs <;> omega
  · rfl

lemma upTap_pos (pad : Padding) (hp : pad ≠ .circular) (n w s o f : ℕ) (hn : 0 < n) (hw : 0 < w) (hs : 0 < s) :
    upTap pad n (w, s) o f = upPos pad n (w, s) o f := by
  obtain ⟨m, rfl⟩ : ∃ m, n = m + 1 := ⟨n - 1, by omega⟩
  unfold upTap upPos
  rw [upPads_shift pad hp w s hw hs]
  simp only [if_neg hp, dilated, if_neg (Nat.succ_ne_zero m), Nat.add_sub_cancel]
  generalize upShift pad w s = a
  by_cases ha : a ≤ o + f
  · obtain ⟨t, ht⟩ : ∃ t, o + f = a + t := ⟨o + f - a, by omega⟩
    have hz : ((o : ℤ) + f - a) = (t : ℤ) := by omega
    rw [hz, ht, Nat.add_sub_cancel_left]
    have hd : ((s : ℤ) ∣ (t : ℤ)) ↔ t % s = 0 := by rw [Int.natCast_dvd_natCast, Nat.dvd_iff_mod_eq_zero]
    have hlt : ((t : ℤ) < (((m + 1) * s : ℕ) : ℤ)) ↔ t < (m + 1) * s := by exact_mod_cast Iff.rfl
    simp only [hd, hlt]
    have hq : ((t : ℤ) / (s : ℤ)).toNat = t / s := by
      rw [← Int.natCast_div]; exact Int.toNat_natCast _
    rw [hq]
    have key : t % s = 0 → (t < m * s + 1 ↔ t < (m + 1) * s) := by
      intro h
      obtain ⟨c, rfl⟩ := Nat.dvd_of_mod_eq_zero h
      constructor
      · intro h'
        have : (m + 1) * s = m * s + s := by ring
        omega
      · intro h'
        rw [mul_comm] at h'
        have : c < m + 1 := lt_of_mul_lt_mul_right h' (Nat.zero_le s)
        have : s * c ≤ m * s := by rw [mul_comm]; exact Nat.mul_le_mul_right s (by omega)
        omega
    by_cases h0 : t % s = 0
    · have := key h0
      congr 1
      simp only [h0, and_true, eq_iff_iff]
      omega
    · simp [h0]
  · rw [if_neg (by omega), if_neg (by omega)]

/-- The entry of the array before folding that offset `h` reads, cropping included. -/
def foldPos (m : ℕ) (t : Option ℕ) (o h : ℕ) : Option ℕ := dilTap m (foldWindow m t) ((m - t.getD m) / 2 + o) h

/-- The value at an optional position. -/
def rd1 (F : ℕ → ℝ) : Option ℕ → ℝ
  | some p => F p
  | none => 0

lemma foldPos_none (m o : ℕ) (h : o < m) : foldPos m none o 0 = some o := by
  unfold foldPos foldWindow dilTap
  simp [h]

/-- Folding the result of a `'VALID'` transposed convolution onto an axis of size `n * s` is reading modulo `n * s`. -/
lemma fold_axis (F : ℕ → ℝ) (n w s o g : ℕ) (hn : 0 < n) (hw : 0 < w) (hs : 0 < s) (hg : g < w) (ho : o < n * s) :
    ∑ h ∈ Finset.range (foldWindow (upDim .valid n w s) (some (n * s))).1,
      rd1 F ((foldPos (upDim .valid n w s) (some (n * s)) o h).bind fun t => upTap .valid n (w, s) t g) =
      rd1 F (upPos .circular n (w, s) o g) := by
  have hout : 0 < n * s := Nat.mul_pos hn hs
  set out := n * s with hout'
  set e := w - s with he
  have hm : upDim .valid n w s = out + e := rfl
  rw [hm]
  set H := (out + e + out - 1) / out / 2 with hH
  have hW : (foldWindow (out + e) (some out)).1 = H * 2 + 1 := rfl
  have hc : (out + e - out) / 2 = e / 2 := by congr 1; omega
  have hHe : e ≤ 2 * H * out := by
    have h1 : (out + e + out - 1) / out ≤ 2 * H + 1 := by omega
    have h2 : out + e ≤ (out + e + out - 1) / out * out := by
      have := Nat.div_add_mod (out + e + out - 1) out
      have h3 := Nat.mod_lt (out + e + out - 1) hout
      rw [mul_comm] at this
      omega
    have h3 : (out + e + out - 1) / out * out ≤ (2 * H + 1) * out := Nat.mul_le_mul_right _ h1
    have h4 : (2 * H + 1) * out = 2 * H * out + out := by ring
    omega
  -- the position read by offset `h`, as an integer
  have hpos : ∀ h, foldPos (out + e) (some out) o h =
      if 0 ≤ (o : ℤ) + (e / 2 : ℕ) + (h - H) * out ∧ (o : ℤ) + (e / 2 : ℕ) + (h - H) * out < out + e then
        some ((o : ℤ) + (e / 2 : ℕ) + (h - H) * out).toNat else none := by
    intro h
    unfold foldPos dilTap
    simp only [hW, Option.getD_some, hc, Nat.add_sub_cancel]
    have h2 : (foldWindow (out + e) (some out)).2 = out := rfl
    simp only [h2]
    have hlo : H * 2 * out / 2 = H * out := by
      rw [show H * 2 * out = H * out * 2 by ring]; exact Nat.mul_div_cancel _ (by norm_num)
    rw [hlo]
    have hz : ((o : ℤ) + (e / 2 : ℕ) + (h - H) * out) = ((e / 2 + o + h * out : ℕ) : ℤ) - (H * out : ℕ) := by
      push_cast; ring
    rw [hz]
    by_cases h1 : H * out ≤ e / 2 + o + h * out
    · by_cases h3 : e / 2 + o + h * out < H * out + (out + e)
      · rw [if_pos ⟨h1, h3⟩, if_pos (by constructor <;> omega)]
        congr 1
        omega
      · rw [if_neg (by omega), if_neg (by omega)]
    · rw [if_neg (by omega), if_neg (by omega)]
  have hsh : upShift .circular w s = w - 1 - e / 2 := rfl
  have hew : e / 2 ≤ w - 1 := by omega
  have hsz : ((w - 1 - e / 2 : ℕ) : ℤ) = (w : ℤ) - 1 - (e / 2 : ℕ) := by omega
  set z0 : ℤ := (o : ℤ) + g - ((w : ℤ) - 1 - (e / 2 : ℕ)) with hz0
  -- the tap at a position
  have htap : ∀ h, (foldPos (out + e) (some out) o h).bind (fun t => upTap .valid n (w, s) t g) =
      if 0 ≤ z0 + (h - H) * out ∧ z0 + (h - H) * out < out ∧ (s : ℤ) ∣ z0 + (h - H) * out then
        some ((z0 + (h - H) * out) / s).toNat else none := by
    intro h
    rw [hpos]
    split
    · rename_i hin
      simp only [Option.bind_some]
      rw [upTap_pos .valid (by simp) n w s _ g hn hw hs]
      unfold upPos
      have h1 : upShift .valid w s = w - 1 := rfl
      simp only [h1, reduceCtorEq, if_false]
      rw [Int.toNat_of_nonneg hin.1]
      have h2 : (o : ℤ) + (e / 2 : ℕ) + (h - H) * out + g - ((w - 1 : ℕ) : ℤ) = z0 + (h - H) * out := by
        rw [hz0]; push_cast [Nat.cast_sub hw]; ring
      rw [h2, ← hout']
    · rename_i hin
      simp only [Option.bind_none]
      rw [if_neg]
      rintro ⟨h1, h2, c, h3⟩
      apply hin
      have h4 : (o : ℤ) + (e / 2 : ℕ) + (h - H) * out = z0 + (h - H) * out + ((w : ℤ) - 1 - g) := by rw [hz0]; ring
      rw [h4]
      refine ⟨by omega, ?_⟩
      -- a multiple of `s` below `n * s` is at most `(n - 1) * s`
      have h5 : z0 + (h - H) * out ≤ (out : ℤ) - s := by
        rw [h3] at h2 ⊢
        rw [hout'] at h2 ⊢
        push_cast at h2 ⊢
        have : c < n := by
          by_contra hcn
          push Not at hcn
          have : (n : ℤ) * s ≤ s * c := by rw [mul_comm]; exact mul_le_mul_of_nonneg_left hcn (by omega)
          omega
        have h6 : (s : ℤ) * c ≤ s * (n - 1) := mul_le_mul_of_nonneg_left (by omega) (by omega)
        linarith
      omega
  have hup : upPos .circular n (w, s) o g =
      if (s : ℤ) ∣ z0 % (out : ℕ) then some (z0 % (out : ℕ) / s).toNat else none := by
    unfold upPos
    simp only [hsh, if_true, hsz]
    rw [← hz0, ← hout']
    have h1 := Int.emod_nonneg z0 (show ((out : ℕ) : ℤ) ≠ 0 by omega)
    have h2 := Int.emod_lt_of_pos z0 (show (0 : ℤ) < ((out : ℕ) : ℤ) by omega)
    simp only [h1, h2, true_and]
  have hso : (s : ℤ) ∣ (out : ℕ) := by rw [hout']; exact_mod_cast Dvd.intro_left n rfl
  have hdm : z0 = z0 % (out : ℕ) + (out : ℕ) * (z0 / (out : ℕ)) := by rw [add_comm]; exact (Int.mul_ediv_add_emod z0 _).symm
  have hr0 := Int.emod_nonneg z0 (show ((out : ℕ) : ℤ) ≠ 0 by omega)
  have hr1 := Int.emod_lt_of_pos z0 (show (0 : ℤ) < ((out : ℕ) : ℤ) by omega)
  set r := z0 % (out : ℕ) with hr
  set j := z0 / (out : ℕ) with hj
  rw [hW, hup]
  simp only [htap]
  have hdv : ∀ x : ℤ, ((s : ℤ) ∣ z0 + x * out) ↔ (s : ℤ) ∣ r := by
    intro x
    rw [hdm, show r + (out : ℕ) * j + x * out = r + (out : ℤ) * (j + x) by ring]
    exact (Int.dvd_add_left (hso.mul_right _))
  by_cases hsr : (s : ℤ) ∣ r
  · rw [if_pos hsr]
    -- the only offset that reads inside
    have hjl : -(H : ℤ) ≤ -j := by
      by_contra hcon
      push Not at hcon
      have h1 : ((H : ℤ) + 1) * out ≤ j * out := mul_le_mul_of_nonneg_right (by omega) (by omega)
      have h2 : (e : ℤ) ≤ 2 * (H * out) := by have := hHe; rw [mul_assoc] at this; exact_mod_cast this
      have h3 : ((H : ℤ) + 1) * out = H * out + out := by ring
      have h4 : z0 = r + j * out := by rw [hdm]; ring
      generalize (H : ℤ) * out = X at *
      generalize j * (out : ℤ) = Y at *
      omega
    have hju : -j ≤ (H : ℤ) := by
      by_contra hcon
      push Not at hcon
      have h1 : j * out ≤ (-(H : ℤ) - 1) * out := mul_le_mul_of_nonneg_right (by omega) (by omega)
      have h2 : (e : ℤ) ≤ 2 * (H * out) := by have := hHe; rw [mul_assoc] at this; exact_mod_cast this
      have h3 : (-(H : ℤ) - 1) * out = -(H * out) - out := by ring
      have h4 : z0 = r + j * out := by rw [hdm]; ring
      have h5 : r ≤ (out : ℤ) - s := by
        obtain ⟨c, hc'⟩ := hsr
        rw [hc'] at hr1 ⊢
        rw [hout'] at hr1 ⊢
        push_cast at hr1 ⊢
        have : c < n := by
          by_contra hcn
          push Not at hcn
          have : (n : ℤ) * s ≤ s * c := by rw [mul_comm]; exact mul_le_mul_of_nonneg_left hcn (by omega)
          omega
        have h6 : (s : ℤ) * c ≤ s * (n - 1) := mul_le_mul_of_nonneg_left (by omega) (by omega)
        linarith
      have h7 : w ≤ e + s := by omega
      generalize (H : ℤ) * out = X at *
      generalize j * (out : ℤ) = Y at *
      omega
    obtain ⟨h0, hh0⟩ : ∃ h0 : ℕ, (h0 : ℤ) = H - j := ⟨(H - j).toNat, by omega⟩
    have hz : ∀ h : ℕ, z0 + ((h : ℤ) - H) * out = r + ((h : ℤ) - h0) * out := by
      intro h; rw [hdm, hh0]; ring
    rw [Finset.sum_eq_single h0]
    · rw [if_pos]
      · rw [hz, sub_self, zero_mul, add_zero]
      · refine ⟨?_, ?_, (hdv _).2 hsr⟩ <;> rw [hz, sub_self, zero_mul, add_zero]
        · exact hr0
        · exact hr1
    · intro h _ hne
      rw [if_neg, rd1]
      rintro ⟨h1, h2, -⟩
      rw [hz] at h1 h2
      rcases lt_or_gt_of_ne hne with hlt | hgt
      · have : ((h : ℤ) - h0) * out ≤ (-1) * out := mul_le_mul_of_nonneg_right (by omega) (by omega)
        omega
      · have : 1 * (out : ℤ) ≤ ((h : ℤ) - h0) * out := mul_le_mul_of_nonneg_right (by omega) (by omega)
        omega
    · intro hnot
      exfalso
      apply hnot
      rw [Finset.mem_range]
      omega
  · rw [if_neg hsr]
    refine Finset.sum_eq_zero fun h _ => ?_
    rw [if_neg (fun hh => hsr ((hdv _).1 hh.2.2))]
    rfl

end NT
