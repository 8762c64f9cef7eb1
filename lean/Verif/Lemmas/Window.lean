import Verif.Tac
import Verif.Spec.Window
import Verif.Lemmas.Box
import Verif.Lemmas.Layout
import Verif.Lemmas.Dense

/-!
Lemmas on sliding windows.
-/

namespace NT
open Arr Spec

/-! ### One axis -/

lemma samePads_fst (n w s : ℕ) :
    ((samePads n w s).1 : ℤ) = leftPad .same n w s ∧ leftPad .circular n w s = leftPad .same n w s := by
  refine ⟨?_, rfl⟩
  simp only [samePads, leftPad, outDim]
  have e : (((((n + s - 1) / s : ℕ) : ℤ)) - 1) * s + w - n = (((n + s - 1) / s * s : ℕ) : ℤ) + w - (n + s) := by
    push_cast; ring
  rw [e]
  generalize (n + s - 1) / s * s = t
  have : max 0 ((t : ℤ) + w - (n + s)) = ((t + w - (n + s) : ℕ) : ℤ) := by omega
  rw [this]
  omega

lemma samePads_out (n w s : ℕ) (hs : 0 < s) (hw : 0 < w) :
    windowOut ((samePads n w s).1 + n + (samePads n w s).2) w s = (n + s - 1) / s := by
  unfold windowOut samePads
  dsimp only
  set t := (n + s - 1) / s with ht
  set tot := t * s + w - (n + s) with htot
  have h0 : tot / 2 + n + (tot - tot / 2) = n + tot := by omega
  rw [h0]
  have hd : t * s ≤ n + s - 1 := Nat.div_mul_le_self _ _
  have hd2 : n + s - 1 < (t + 1) * s := by
    have := Nat.lt_div_mul_add (a := n + s - 1) hs
    rw [← ht] at this
    linarith [this]
  have hd3 : (t + 1) * s = t * s + s := by ring
  rcases Nat.eq_zero_or_pos t with h | h
  · rw [h] at hd hd2 hd3 htot ⊢
    simp only [zero_mul, zero_add] at *
    rw [if_pos (by omega)]
  · clear_value tot t
    obtain ⟨u, rfl⟩ : ∃ u, t = u + 1 := ⟨t - 1, by omega⟩
    have hu : (u + 1) * s = u * s + s := by ring
    have hu2 : (u + 1 + 1) * s = u * s + s + s := by ring
    rw [hu] at hd htot
    rw [hu2] at hd2
    rw [if_neg (by omega)]
    congr 1
    rw [Nat.div_eq_iff hs]
    constructor <;> omega

lemma windowOut_valid (n w s : ℕ) : windowOut (0 + n + 0) w s = outDim .valid n w s := by
  unfold windowOut outDim
  simp only [Nat.zero_add, Nat.add_zero]
  split_ifs <;> first | rfl | omega

lemma tap1_readPos (pad : Padding) (hp : pad ≠ .circular) (n w s o f : ℕ) :
    tap1 n (padsOf pad n w s).1 s o f = readPos pad n w s o f := by
  have : ((padsOf pad n w s).1 : ℤ) = leftPad pad n w s := by
    cases pad
    · exact absurd rfl hp
    · exact (samePads_fst n w s).1
    · rfl
  unfold tap1 readPos
  rw [← this]
  generalize (padsOf pad n w s).1 = lo
  cases pad
  · exact absurd rfl hp
  all_goals
    dsimp only
    rw [show ((o : ℤ) * s + f - lo) = ((o * s + f : ℕ) : ℤ) - lo by push_cast; ring]
    generalize o * s + f = z
    split_ifs <;> first | rfl | omega | (congr 1; omega)

lemma tap1_wrap (n w s o f : ℕ) (hs : 0 < s) (hw : 0 < w) (hf : f < w) (ho : o < outDim .circular n w s) :
    ∃ z, tap1 ((samePads n w s).1 + n + (samePads n w s).2) 0 s o f = some z ∧
      readPos .circular n w s o f = some (wrap1 n (samePads n w s).1 z) := by
  have h1 := samePads_out n w s hs hw
  have h2 : o < windowOut ((samePads n w s).1 + n + (samePads n w s).2) w s := by rw [h1]; exact ho
  unfold windowOut at h2
  split_ifs at h2 with h3
  · omega
  · generalize hm : (samePads n w s).1 + n + (samePads n w s).2 = m at *
    have h4 : o * s ≤ m - w := by
      have : o ≤ (m - w) / s := by omega
      exact (Nat.le_div_iff_mul_le hs).1 this
    refine ⟨o * s + f, ?_, ?_⟩
    · unfold tap1
      rw [if_pos (by omega)]
      simp
    · simp only [readPos, wrap1, (samePads_fst n w s).1, (samePads_fst n w s).2]
      push_cast
      rfl

/-! ### All axes -/

/-- The windows and strides are positive. -/
def PosWin (ws : List (ℕ × ℕ)) : Prop := ∀ v ∈ ws, 0 < v.1 ∧ 0 < v.2

lemma tapIdx_readIdx (pad : Padding) (hp : pad ≠ .circular) : ∀ (S : List ℕ) (ws : List (ℕ × ℕ)) (o f : List ℕ), PosWin ws →
    tapIdx pad S ws o f = readIdx pad S ws o f := by
  intro S
  induction S with
  | nil => intro ws o f _; cases ws <;> cases o <;> cases f <;> rfl
  | cons n S ih =>
    intro ws o f hw
    cases ws with
    | nil => cases o <;> cases f <;> rfl
    | cons v ws =>
      obtain ⟨w, s⟩ := v
      cases o with
      | nil => rfl
      | cons o os =>
        cases f with
        | nil => rfl
        | cons f fs =>
          simp only [tapIdx, readIdx, tap1_readPos pad hp n w s o f,
            ih ws os fs (fun v hv => hw v (by simp [hv]))]
          generalize readPos pad n w s o f = a
          generalize readIdx pad S ws os fs = b
          cases a <;> cases b <;> rfl

lemma windowShape_outDims (pad : Padding) (hp : pad ≠ .circular) : ∀ (S : List ℕ) (ws : List (ℕ × ℕ)), PosWin ws →
    windowShape pad S ws = outDims pad S ws := by
  intro S
  induction S with
  | nil => intro ws _; rfl
  | cons n S ih =>
    intro ws hw
    cases ws with
    | nil => rfl
    | cons v ws =>
      obtain ⟨w, s⟩ := v
      simp only [windowShape, outDims, ih ws (fun v hv => hw v (by simp [hv]))]
      congr 1
      obtain ⟨h1, h2⟩ := hw (w, s) (by simp)
      cases pad
      · exact absurd rfl hp
      · exact samePads_out n w s h2 h1
      · exact windowOut_valid n w s

/-- The padded shape. -/
def padShape (S : List ℕ) (ws : List (ℕ × ℕ)) : List ℕ :=
  List.zipWith (fun n (v : ℕ × ℕ) => (samePads n v.1 v.2).1 + n + (samePads n v.1 v.2).2) S ws

/-- The wrapped index. -/
def wrapIdx (S : List ℕ) (ws : List (ℕ × ℕ)) (i : List ℕ) : List ℕ :=
  List.zipWith (fun (nv : ℕ × ℕ × ℕ) k => wrap1 nv.1 (samePads nv.1 nv.2.1 nv.2.2).1 k) (S.zip ws) i

lemma windowShape_wrap : ∀ (S : List ℕ) (ws : List (ℕ × ℕ)), PosWin ws →
    windowShape .valid (padShape S ws) ws = outDims .circular S ws := by
  intro S
  induction S with
  | nil => intro ws _; rfl
  | cons n S ih =>
    intro ws hw
    cases ws with
    | nil => rfl
    | cons v ws =>
      obtain ⟨w, s⟩ := v
      have := ih ws (fun v hv => hw v (by simp [hv]))
      unfold padShape at this ⊢
      simp only [List.zipWith_cons_cons, windowShape, outDims, this]
      congr 1
      obtain ⟨h1, h2⟩ := hw (w, s) (by simp)
      simp only [padsOf, Nat.zero_add, Nat.add_zero]
      exact samePads_out n w s h2 h1

lemma tapIdx_wrap : ∀ (S : List ℕ) (ws : List (ℕ × ℕ)) (o f : List ℕ), PosWin ws → S.length = ws.length →
    InRange o (outDims .circular S ws) → InRange f (ws.map Prod.fst) →
    ∃ z, tapIdx .valid (padShape S ws) ws o f = some z ∧ readIdx .circular S ws o f = some (wrapIdx S ws z) := by
  intro S
  induction S with
  | nil =>
    intro ws o f _ hl ho hf
    cases ws with
    | nil =>
      simp only [outDims, List.map_nil, inRange_nil_right] at ho hf
      subst ho hf
      exact ⟨[], rfl, rfl⟩
    | cons => simp at hl
  | cons n S ih =>
    intro ws o f hw hl ho hf
    cases ws with
    | nil => simp at hl
    | cons v ws =>
      obtain ⟨w, s⟩ := v
      obtain ⟨h1, h2⟩ := hw (w, s) (by simp)
      simp only [outDims, List.map_cons] at ho hf
      cases o with
      | nil => simpa using ho.length
      | cons o os =>
        cases f with
        | nil => simpa using hf.length
        | cons f fs =>
          rw [inRange_cons] at ho hf
          obtain ⟨z, e1, e2⟩ := tap1_wrap n w s o f h2 h1 hf.1 ho.1
          obtain ⟨zs, e3, e4⟩ := ih ws os fs (fun v hv => hw v (by simp [hv])) (by simpa using hl) ho.2 hf.2
          refine ⟨z :: zs, ?_, ?_⟩
          · have : padShape (n :: S) ((w, s) :: ws) =
                ((samePads n w s).1 + n + (samePads n w s).2) :: padShape S ws := rfl
            simp only [this, tapIdx, padsOf, e1, e3]
          · simp only [readIdx, e2, e4, wrapIdx, List.zip_cons_cons, List.zipWith_cons_cons]

/-- Optional circular padding followed by a window sum. -/
noncomputable def windowed (pad : Padding) (x : Arr ℝ) (ws : List (ℕ × ℕ)) : Arr ℝ :=
  reduceWindow (if pad = .circular then samePadWrap x ws else x) ws (if pad = .circular then .valid else pad)

lemma windowed_ok (pad : Padding) (x : Arr ℝ) (ws : List (ℕ × ℕ)) (hw : PosWin ws) (hl : x.shape.length = ws.length) :
    (windowed pad x ws).shape = outDims pad x.shape ws ∧
      ∀ o, InRange o (outDims pad x.shape ws) →
        (windowed pad x ws).get o = ∑ f ∈ offsets ws, readTap x.get (readIdx pad x.shape ws o f) := by
  unfold windowed offsets
  by_cases hp : pad = .circular
  · subst hp
    simp only [if_true]
    refine ⟨windowShape_wrap _ _ hw, fun o ho => ?_⟩
    unfold reduceWindow
    dsimp only
    rw [sumOver_eq_box]
    refine Finset.sum_congr rfl fun f hf => ?_
    rw [mem_box] at hf
    obtain ⟨z, e1, e2⟩ := tapIdx_wrap x.shape ws o f hw hl ho hf
    have : (samePadWrap x ws).shape = padShape x.shape ws := rfl
    rw [this, e1, e2]
    rfl
  · simp only [if_neg hp]
    refine ⟨windowShape_outDims pad hp _ _ hw, fun o _ => ?_⟩
    unfold reduceWindow
    dsimp only
    rw [sumOver_eq_box]
    refine Finset.sum_congr rfl fun f _ => ?_
    rw [tapIdx_readIdx pad hp _ _ _ _ hw]

/-! ### Splitting the axes -/

/-- Concatenation of the positions read on two groups of axes. -/
def catOpt : Option (List ℕ) → Option (List ℕ) → Option (List ℕ)
  | some p, some q => some (p ++ q)
  | _, _ => none

lemma outDims_length (pad : Padding) : ∀ (S : List ℕ) (ws : List (ℕ × ℕ)), S.length = ws.length →
    (outDims pad S ws).length = S.length := by
  intro S
  induction S with
  | nil => intro ws _; rfl
  | cons n S ih =>
    intro ws h
    cases ws with
    | nil => simp at h
    | cons v ws => simpa [outDims] using ih ws (by simpa using h)

lemma outDims_append (pad : Padding) : ∀ (S : List ℕ) (ws : List (ℕ × ℕ)) (T : List ℕ) (vs : List (ℕ × ℕ)), S.length = ws.length →
    outDims pad (S ++ T) (ws ++ vs) = outDims pad S ws ++ outDims pad T vs := by
  intro S
  induction S with
  | nil => intro ws T vs h; cases ws <;> simp_all [outDims]
  | cons n S ih =>
    intro ws T vs h
    cases ws with
    | nil => simp at h
    | cons v ws => simp [outDims, ih ws T vs (by simpa using h)]

lemma readIdx_append (pad : Padding) : ∀ (S : List ℕ) (ws : List (ℕ × ℕ)) (o f T : List ℕ) (vs : List (ℕ × ℕ)) (p g : List ℕ),
    S.length = ws.length → S.length = o.length → S.length = f.length →
    readIdx pad (S ++ T) (ws ++ vs) (o ++ p) (f ++ g) = catOpt (readIdx pad S ws o f) (readIdx pad T vs p g) := by
  intro S
  induction S with
  | nil =>
    intro ws o f T vs p g h1 h2 h3
    cases ws <;> cases o <;> cases f <;> simp_all [readIdx]
    generalize readIdx pad T vs p g = a
    cases a <;> rfl
  | cons n S ih =>
    intro ws o f T vs p g h1 h2 h3
    cases ws with
    | nil => simp at h1
    | cons v ws =>
      cases o with
      | nil => simp at h2
      | cons o os =>
        cases f with
        | nil => simp at h3
        | cons f fs =>
          obtain ⟨w, s⟩ := v
          simp only [List.cons_append, readIdx]
          rw [ih ws os fs T vs p g (by simpa using h1) (by simpa using h2) (by simpa using h3)]
          generalize readPos pad n w s o f = a
          generalize readIdx pad S ws os fs = b
          generalize readIdx pad T vs p g = c
          cases a <;> cases b <;> cases c <;> rfl

lemma leftPad_one (pad : Padding) (n : ℕ) : leftPad pad n 1 1 = 0 := by
  cases pad <;> simp [leftPad, outDim]

lemma outDim_one (pad : Padding) (n : ℕ) : outDim pad n 1 1 = n := by
  cases pad <;> simp [outDim]
  split_ifs <;> omega

lemma readPos_one (pad : Padding) (n o : ℕ) (h : o < n) : readPos pad n 1 1 o 0 = some o := by
  unfold readPos
  rw [leftPad_one]
  cases pad
  · simp only [Nat.cast_one, mul_one, Nat.cast_zero, add_zero, sub_zero]
    rw [Int.emod_eq_of_lt (by omega) (by omega)]
    simp
  all_goals simp [h]

lemma outDims_ones (pad : Padding) : ∀ (B : List ℕ), outDims pad B (List.replicate B.length (1, 1)) = B
  | [] => rfl
  | n :: B => by
    simp only [List.length_cons, List.replicate_succ, outDims, outDim_one, outDims_ones pad B]

lemma readIdx_ones (pad : Padding) : ∀ (B b : List ℕ), InRange b B →
    readIdx pad B (List.replicate B.length (1, 1)) b (List.replicate B.length 0) = some b := by
  intro B
  induction B with
  | nil => intro b hb; rw [inRange_nil_right] at hb; subst hb; rfl
  | cons n B ih =>
    intro b hb
    cases b with
    | nil => simpa using hb.length
    | cons b bs =>
      rw [inRange_cons] at hb
      simp only [List.length_cons, List.replicate_succ, readIdx, readPos_one pad n b hb.1, ih bs hb.2]

lemma map_fst_replicate (n : ℕ) : (List.replicate n ((1, 1) : ℕ × ℕ)).map Prod.fst = List.replicate n 1 := by simp

lemma box_ones (n : ℕ) : box (List.replicate n 1) = {List.replicate n 0} := by
  ext p
  rw [mem_box, Finset.mem_singleton]
  induction n generalizing p with
  | zero => simp [inRange_nil_right]
  | succ n ih =>
    cases p with
    | nil => simp [List.replicate_succ, InRange]
    | cons a p =>
      simp only [List.replicate_succ, inRange_cons, ih, List.cons.injEq, Nat.lt_one_iff]

lemma offsets_ones_append (n : ℕ) (ws : List (ℕ × ℕ)) (g : List ℕ → ℝ) :
    ∑ f ∈ offsets (List.replicate n (1, 1) ++ ws), g f = ∑ f ∈ offsets ws, g (List.replicate n 0 ++ f) := by
  unfold offsets
  rw [List.map_append, map_fst_replicate, box_sum_append, box_ones, Finset.sum_singleton]

/-- A position of a pair of positions, interleaved. -/
def ilOpt : Option (List ℕ) → Option (List ℕ) → Option (List ℕ)
  | some p, some q => some (interleave p q)
  | _, _ => none

lemma outDims_interleave (pad : Padding) : ∀ (S T : List ℕ) (ws : List (ℕ × ℕ)), S.length = T.length → S.length = ws.length →
    outDims pad (interleave S T) (ws.flatMap fun v => [v, v]) = interleave (outDims pad S ws) (outDims pad T ws) := by
  intro S
  induction S with
  | nil => intro T ws _ _; cases T <;> simp_all [interleave, outDims]
  | cons n S ih =>
    intro T ws h1 h2
    cases T with
    | nil => simp at h1
    | cons m T =>
      cases ws with
      | nil => simp at h2
      | cons v ws =>
        have := ih T ws (by simpa using h1) (by simpa using h2)
        simp [interleave, outDims, this]

lemma readIdx_interleave (pad : Padding) : ∀ (S T : List ℕ) (ws : List (ℕ × ℕ)) (o o' f f' : List ℕ), S.length = T.length → S.length = ws.length →
    S.length = o.length → S.length = o'.length → S.length = f.length → S.length = f'.length →
    readIdx pad (interleave S T) (ws.flatMap fun v => [v, v]) (interleave o o') (interleave f f') =
      ilOpt (readIdx pad S ws o f) (readIdx pad T ws o' f') := by
  intro S
  induction S with
  | nil =>
    intro T ws o o' f f' h1 h2 h3 h4 h5 h6
    simp only [List.length_nil] at *
    obtain rfl := List.length_eq_zero_iff.1 h1.symm
    obtain rfl := List.length_eq_zero_iff.1 h2.symm
    obtain rfl := List.length_eq_zero_iff.1 h3.symm
    obtain rfl := List.length_eq_zero_iff.1 h4.symm
    obtain rfl := List.length_eq_zero_iff.1 h5.symm
    obtain rfl := List.length_eq_zero_iff.1 h6.symm
    rfl
  | cons n S ih =>
    intro T ws o o' f f' h1 h2 h3 h4 h5 h6
    cases T with
    | nil => simp at h1
    | cons m T =>
    cases ws with
    | nil => simp at h2
    | cons v ws =>
    cases o with
    | nil => simp at h3
    | cons o os =>
    cases o' with
    | nil => simp at h4
    | cons o' os' =>
    cases f with
    | nil => simp at h5
    | cons f fs =>
    cases f' with
    | nil => simp at h6
    | cons f' fs' =>
      have := ih T ws os os' fs fs' (by simpa using h1) (by simpa using h2) (by simpa using h3) (by simpa using h4)
        (by simpa using h5) (by simpa using h6)
      obtain ⟨w, s⟩ := v
      simp only [interleave, List.flatMap_cons, List.cons_append, List.nil_append, readIdx, this]
      generalize readPos pad n w s o f = a
      generalize readPos pad m w s o' f' = a'
      generalize readIdx pad S ws os fs = b
      generalize readIdx pad T ws os' fs' = b'
      cases a <;> cases a' <;> cases b <;> cases b' <;> rfl

lemma map_fst_double (ws : List (ℕ × ℕ)) :
    (ws.flatMap fun v => [v, v]).map Prod.fst = interleave (ws.map Prod.fst) (ws.map Prod.fst) := by
  induction ws with
  | nil => rfl
  | cons v ws ih => simp [interleave, ih]

lemma outDims_reverse (pad : Padding) (S : List ℕ) (ws : List (ℕ × ℕ)) (h : S.length = ws.length) :
    outDims pad S.reverse ws.reverse = (outDims pad S ws).reverse := by
  induction S generalizing ws with
  | nil => cases ws <;> simp_all [outDims]
  | cons n S ih =>
    cases ws with
    | nil => simp at h
    | cons v ws =>
      rw [List.reverse_cons, List.reverse_cons, outDims_append _ _ _ _ _ (by simpa using h), ih ws (by simpa using h)]
      simp [outDims]

lemma readIdx_reverse (pad : Padding) (S : List ℕ) (ws : List (ℕ × ℕ)) (o f : List ℕ) (h : S.length = ws.length)
    (h2 : S.length = o.length) (h3 : S.length = f.length) :
    readIdx pad S.reverse ws.reverse o.reverse f.reverse = (readIdx pad S ws o f).map List.reverse := by
  induction S generalizing ws o f with
  | nil => cases ws <;> cases o <;> cases f <;> simp_all [readIdx]
  | cons n S ih =>
    cases ws with
    | nil => simp at h
    | cons v ws =>
    cases o with
    | nil => simp at h2
    | cons o os =>
    cases f with
    | nil => simp at h3
    | cons f fs =>
      obtain ⟨w, s⟩ := v
      rw [List.reverse_cons, List.reverse_cons, List.reverse_cons, List.reverse_cons,
        readIdx_append _ _ _ _ _ _ _ _ _ (by simpa using h) (by simpa using h2) (by simpa using h3),
        ih ws os fs (by simpa using h) (by simpa using h2) (by simpa using h3)]
      simp only [readIdx]
      generalize readPos pad n w s o f = a
      generalize readIdx pad S ws os fs = b
      cases a <;> cases b <;> simp [catOpt]

/-- `rv` for windows. -/
def rvW (rev : Bool) (ws : List (ℕ × ℕ)) : List (ℕ × ℕ) := if rev then ws.reverse else ws

lemma outDims_rv (pad : Padding) (rev : Bool) (S : List ℕ) (ws : List (ℕ × ℕ)) (h : S.length = ws.length) :
    outDims pad (rv rev S) (rvW rev ws) = rv rev (outDims pad S ws) := by
  unfold rv rvW
  cases rev
  · rfl
  · exact outDims_reverse pad S ws h

lemma readIdx_rv (pad : Padding) (rev : Bool) (S : List ℕ) (ws : List (ℕ × ℕ)) (o f : List ℕ) (h : S.length = ws.length)
    (h2 : S.length = o.length) (h3 : S.length = f.length) :
    readIdx pad (rv rev S) (rvW rev ws) (rv rev o) (rv rev f) = (readIdx pad S ws o f).map (rv rev) := by
  unfold rv rvW
  cases rev
  · simp
  · exact readIdx_reverse pad S ws o f h h2 h3

/-! ### Ranges -/

lemma readPos_lt (pad : Padding) (n w s o f p : ℕ) (hn : 0 < n) (h : readPos pad n w s o f = some p) : p < n := by
  unfold readPos at h
  cases pad
  · simp only [Option.some.injEq] at h
    subst h
    have := Int.emod_lt_of_pos ((o : ℤ) * s + f - leftPad .circular n w s) (show (0 : ℤ) < n by omega)
    have := Int.emod_nonneg ((o : ℤ) * s + f - leftPad .circular n w s) (show (n : ℤ) ≠ 0 by omega)
    omega
  all_goals
    dsimp only at h
    split_ifs at h with h1
    simp only [Option.some.injEq] at h
    omega

lemma outDim_pos (pad : Padding) (n w s o : ℕ) (hw : 0 < w) (h : o < outDim pad n w s) : 0 < n := by
  unfold outDim at h
  by_contra hn
  have hn0 : n = 0 := by omega
  subst hn0
  cases pad
  · dsimp only at h
    rcases Nat.eq_zero_or_pos s with hs | hs
    · subst hs; simp at h
    · rw [Nat.div_eq_of_lt (by omega)] at h; omega
  · dsimp only at h
    rcases Nat.eq_zero_or_pos s with hs | hs
    · subst hs; simp at h
    · rw [Nat.div_eq_of_lt (by omega)] at h; omega
  · dsimp only at h
    rw [if_neg (by omega)] at h; omega

lemma readIdx_inRange (pad : Padding) : ∀ (S : List ℕ) (ws : List (ℕ × ℕ)) (o f p : List ℕ), PosWin ws →
    S.length = ws.length → InRange o (outDims pad S ws) → readIdx pad S ws o f = some p → InRange p S := by
  intro S
  induction S with
  | nil =>
    intro ws o f p _ hl ho h
    cases ws <;> cases o <;> cases f <;> simp_all [readIdx, inRange_nil_right]
  | cons n S ih =>
    intro ws o f p hw hl ho h
    cases ws with
    | nil => simp at hl
    | cons v ws =>
    obtain ⟨w, s⟩ := v
    simp only [outDims] at ho
    cases o with
    | nil => simpa using ho.length
    | cons o os =>
    rw [inRange_cons] at ho
    cases f with
    | nil => simp [readIdx] at h
    | cons f fs =>
      simp only [readIdx] at h
      cases h1 : readPos pad n w s o f with
      | none => simp [h1] at h
      | some a =>
        cases h2 : readIdx pad S ws os fs with
        | none => simp [h1, h2] at h
        | some b =>
          simp only [h1, h2, Option.some.injEq] at h
          subst h
          rw [inRange_cons]
          exact ⟨readPos_lt pad n w s o f a (outDim_pos pad n w s o (hw (w, s) (by simp)).1 ho.1) h1,
            ih ws os fs b (fun v hv => hw v (by simp [hv])) (by simpa using hl) ho.2 h2⟩

/-! ### Window sums of the arrays of a kernel -/

lemma rvW_length (rev : Bool) (ws : List (ℕ × ℕ)) : (rvW rev ws).length = ws.length := by
  unfold rvW; cases rev <;> simp

lemma rvW_map (rev : Bool) (ws : List (ℕ × ℕ)) : (rvW rev ws).map Prod.fst = rv rev (ws.map Prod.fst) := by
  unfold rvW rv; cases rev <;> simp

lemma double_length (ws : List (ℕ × ℕ)) : (ws.flatMap fun v => [v, v]).length = 2 * ws.length := by
  induction ws with
  | nil => rfl
  | cons v ws ih => simp [ih]; omega

lemma PosWin.append {ws vs : List (ℕ × ℕ)} (h : PosWin ws) (h' : PosWin vs) : PosWin (ws ++ vs) := by
  intro v hv
  rcases List.mem_append.1 hv with hv | hv
  · exact h v hv
  · exact h' v hv

lemma posWin_ones (n : ℕ) : PosWin (List.replicate n (1, 1)) := by
  intro v hv
  rw [List.eq_of_mem_replicate hv]
  simp

lemma PosWin.rvW {ws : List (ℕ × ℕ)} (h : PosWin ws) (rev : Bool) : PosWin (rvW rev ws) := by
  intro v hv
  unfold NT.rvW at hv
  cases rev <;> simp at hv <;> exact h v hv

lemma PosWin.double {ws : List (ℕ × ℕ)} (h : PosWin ws) : PosWin (ws.flatMap fun v => [v, v]) := by
  intro v hv
  simp only [List.mem_flatMap, List.mem_cons, List.not_mem_nil, or_false, or_self] at hv
  obtain ⟨a, ha, rfl⟩ := hv
  exact h v ha

/-- Window sums in the full layout: all pairs of positions of the two windows. -/
lemma windowed_full (pad : Padding) {a : Arr ℝ} {B S T : List ℕ} {rev : Bool} {F : List ℕ → List ℕ → List ℕ → ℝ}
    (h : Holds a B S T false rev F) (ws : List (ℕ × ℕ)) (hw : PosWin ws) (hl : S.length = ws.length) :
    Holds (windowed pad a (List.replicate B.length (1, 1) ++ (rvW rev ws).flatMap fun v => [v, v])) B
      (outDims pad S ws) (outDims pad T ws) false rev
      (fun b o o' => ∑ f ∈ offsets ws, ∑ f' ∈ offsets ws,
        read2 (F b) (readIdx pad S ws o f) (readIdx pad T ws o' f')) := by
  have hs := h.shape
  have hT : T.length = ws.length := by rw [← h.rank]; exact hl
  rw [pos_full] at hs
  obtain ⟨h1, h2⟩ := windowed_ok pad a (List.replicate B.length (1, 1) ++ (rvW rev ws).flatMap fun v => [v, v])
    ((posWin_ones _).append (hw.rvW rev).double) (by
      rw [hs, List.length_append, List.length_append, interleave_length (by simpa using h.rank), double_length, rvW_length]
      simp [hl])
  have hsh : outDims pad a.shape (List.replicate B.length (1, 1) ++ (rvW rev ws).flatMap fun v => [v, v]) =
      B ++ pos false rev (outDims pad S ws) (outDims pad T ws) := by
    rw [hs, outDims_append _ _ _ _ _ (by simp), outDims_ones, outDims_interleave _ _ _ _ (by simpa using h.rank)
      (by simp [rvW_length, hl]), outDims_rv _ _ _ _ hl, outDims_rv _ _ _ _ hT, pos_full]
  refine ⟨by rw [outDims_length _ _ _ hl, outDims_length _ _ _ hT, h.rank], by simp, h1.trans hsh, ?_⟩
  intro b o o' hb ho ho' _
  have lo := ho.length
  have lo' := ho'.length
  rw [outDims_length _ _ _ hl] at lo
  rw [outDims_length _ _ _ hT] at lo'
  rw [h2 _ (by
    rw [hsh, inRange_append hb.length]
    exact ⟨hb, pos_inRange (by rw [outDims_length _ _ _ hl, outDims_length _ _ _ hT, h.rank]) ho ho'⟩)]
  rw [offsets_ones_append]
  unfold offsets
  rw [map_fst_double, box_sum_interleave _ _ rfl, rvW_map]
  rw [box_sum_rv rev (ws.map Prod.fst) (fun p => ∑ q ∈ box (rv rev (ws.map Prod.fst)), readTap a.get
    (readIdx pad a.shape (List.replicate B.length (1, 1) ++ (rvW rev ws).flatMap fun v => [v, v])
      (b ++ pos false rev o o') (List.replicate B.length 0 ++ interleave p q)))]
  refine Finset.sum_congr rfl fun f hf => ?_
  rw [box_sum_rv rev (ws.map Prod.fst) (fun q => readTap a.get
    (readIdx pad a.shape (List.replicate B.length (1, 1) ++ (rvW rev ws).flatMap fun v => [v, v])
      (b ++ pos false rev o o') (List.replicate B.length 0 ++ interleave (rv rev f) q)))]
  refine Finset.sum_congr rfl fun f' hf' => ?_
  rw [mem_box] at hf hf'
  have lf := hf.length
  have lf' := hf'.length
  rw [List.length_map] at lf lf'
  rw [hs, readIdx_append _ _ _ _ _ _ _ _ _ (by simp) hb.length.symm (by simp), readIdx_ones _ _ _ hb, pos_full,
    readIdx_interleave _ _ _ _ _ _ _ _ (by simpa using h.rank) (by simp [rvW_length, hl]) (by simp [lo])
      (by simp [lo', h.rank]) (by simp; omega) (by simp; omega),
    readIdx_rv _ _ _ _ _ _ hl (by omega) (by omega), readIdx_rv _ _ _ _ _ _ hT (by omega) (by omega)]
  cases e1 : readIdx pad S ws o f with
  | none => rfl
  | some p =>
    cases e2 : readIdx pad T ws o' f' with
    | none => rfl
    | some q =>
      simp only [Option.map_some, ilOpt, catOpt, readTap, read2]
      rw [← pos_full]
      exact h.get b p q hb (readIdx_inRange pad _ _ _ _ _ hw hl ho e1) (readIdx_inRange pad _ _ _ _ _ hw hT ho' e2)
        (by simp)

/-- Window sums in the diagonal layout. -/
lemma windowed_diag (pad : Padding) {a : Arr ℝ} {B S : List ℕ} {F : List ℕ → List ℕ → List ℕ → ℝ}
    (h : Holds a B S S true false F) (ws : List (ℕ × ℕ)) (hw : PosWin ws) (hl : S.length = ws.length) :
    Holds (windowed pad a (List.replicate B.length (1, 1) ++ ws)) B (outDims pad S ws) (outDims pad S ws) true false
      (fun b o o' => ∑ f ∈ offsets ws, read2 (F b) (readIdx pad S ws o f) (readIdx pad S ws o' f)) := by
  have hs := h.shape
  rw [pos_diag] at hs
  change a.shape = B ++ S at hs
  obtain ⟨h1, h2⟩ := windowed_ok pad a (List.replicate B.length (1, 1) ++ ws)
    ((posWin_ones _).append hw) (by rw [hs]; simp [hl])
  have hsh : outDims pad a.shape (List.replicate B.length (1, 1) ++ ws) = B ++ outDims pad S ws := by
    rw [hs, outDims_append _ _ _ _ _ (by simp), outDims_ones]
  refine ⟨rfl, by simp, by rw [h1, hsh, pos_diag]; rfl, ?_⟩
  intro b o o' hb ho ho' hoo
  obtain rfl := hoo rfl
  have lo := ho.length
  rw [outDims_length _ _ _ hl] at lo
  rw [pos_diag]
  change (windowed _ _ _).get (b ++ o) = _
  rw [h2 _ (by rw [hsh, inRange_append hb.length]; exact ⟨hb, ho⟩), offsets_ones_append]
  refine Finset.sum_congr rfl fun f hf => ?_
  unfold offsets at hf
  rw [mem_box] at hf
  have lf := hf.length
  rw [List.length_map] at lf
  rw [hs, readIdx_append _ _ _ _ _ _ _ _ _ (by simp) hb.length.symm (by simp), readIdx_ones _ _ _ hb]
  cases e1 : readIdx pad S ws o f with
  | none => rfl
  | some p =>
    have r := readIdx_inRange pad _ _ _ _ _ hw hl ho e1
    have := h.get b p p hb r r (by simp)
    rw [pos_diag] at this
    exact this

end NT
