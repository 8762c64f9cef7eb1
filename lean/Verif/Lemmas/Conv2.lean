import Verif.Lemmas.Conv
import Verif.Lemmas.FanIn

/-!
# Convolutions of kernels in the three layouts
-/

namespace NT
open Arr Spec Kernel

lemma padShape_append (S T : List ℕ) (ws vs : List (ℕ × ℕ)) (h : S.length = ws.length) :
    padShape (S ++ T) (ws ++ vs) = padShape S ws ++ padShape T vs := by
  unfold padShape
  exact List.zipWith_append h

lemma padShape_length (S : List ℕ) (ws : List (ℕ × ℕ)) (h : S.length = ws.length) :
    (padShape S ws).length = S.length := by
  unfold padShape; simp [h]

lemma samePads_one (n : ℕ) : samePads n 1 1 = (0, 0) := by
  unfold samePads
  have h : (n + 1 - 1) / 1 * 1 + 1 - (n + 1) = 0 := by simp
  simp only [h]

lemma padShape_ones (B : List ℕ) : padShape B (List.replicate B.length (1, 1)) = B := by
  induction B with
  | nil => rfl
  | cons n B ih =>
    unfold padShape at ih ⊢
    simp only [List.length_cons, List.replicate_succ, List.zipWith_cons_cons, ih, samePads_one]
    simp

lemma padShape_interleave : ∀ (S T : List ℕ) (ws : List (ℕ × ℕ)), S.length = T.length → S.length = ws.length →
    padShape (interleave S T) (ws.flatMap fun v => [v, v]) = interleave (padShape S ws) (padShape T ws) := by
  intro S
  induction S with
  | nil => intro T ws h1 h2; cases T <;> simp_all [interleave, padShape]
  | cons n S ih =>
    intro T ws h1 h2
    cases T with
    | nil => simp at h1
    | cons m T =>
      cases ws with
      | nil => simp at h2
      | cons v ws =>
        have := ih T ws (by simpa using h1) (by simpa using h2)
        unfold padShape at this ⊢
        simp [interleave, this]

lemma wrapIdx_append (S T i j : List ℕ) (ws vs : List (ℕ × ℕ)) (h : S.length = ws.length) (hi : i.length = S.length) :
    wrapIdx (S ++ T) (ws ++ vs) (i ++ j) = wrapIdx S ws i ++ wrapIdx T vs j := by
  unfold wrapIdx
  rw [List.zip_append h, List.zipWith_append]
  rw [List.length_zip]; omega

lemma wrap1_self (n k : ℕ) (h : k < n) : wrap1 n 0 k = k := by
  unfold wrap1
  rw [Nat.cast_zero, sub_zero, Int.emod_eq_of_lt (by omega) (by omega)]
  simp

lemma wrapIdx_ones (B b : List ℕ) (hb : InRange b B) : wrapIdx B (List.replicate B.length (1, 1)) b = b := by
  induction B generalizing b with
  | nil => rw [inRange_nil_right] at hb; subst hb; rfl
  | cons n B ih =>
    cases b with
    | nil => simpa using hb.length
    | cons a b =>
      rw [inRange_cons] at hb
      have := ih b hb.2
      unfold wrapIdx at this ⊢
      simp only [List.length_cons, List.replicate_succ, List.zip_cons_cons, List.zipWith_cons_cons, this, samePads_one]
      rw [wrap1_self _ _ hb.1]

lemma wrapIdx_interleave : ∀ (S T : List ℕ) (ws : List (ℕ × ℕ)) (i j : List ℕ), S.length = T.length → S.length = ws.length →
    i.length = S.length → j.length = S.length →
    wrapIdx (interleave S T) (ws.flatMap fun v => [v, v]) (interleave i j) =
      interleave (wrapIdx S ws i) (wrapIdx T ws j) := by
  intro S
  induction S with
  | nil =>
    intro T ws i j h1 h2 h3 h4
    obtain rfl := List.length_eq_zero_iff.1 h1.symm
    rfl
  | cons n S ih =>
    intro T ws i j h1 h2 h3 h4
    cases T with
    | nil => simp at h1
    | cons m T =>
    cases ws with
    | nil => simp at h2
    | cons v ws =>
    cases i with
    | nil => simp at h3
    | cons a i =>
    cases j with
    | nil => simp at h4
    | cons b j =>
      have := ih T ws i j (by simpa using h1) (by simpa using h2) (by simpa using h3) (by simpa using h4)
      unfold wrapIdx at this ⊢
      simp [interleave, this]

/-- The padded array and the padding passed on. -/
noncomputable def padded (pad : Padding) (x : Arr ℝ) (ws : List (ℕ × ℕ)) : Arr ℝ :=
  if pad = .circular then samePadWrap x ws else x

/-- The padding passed on. -/
def rest (pad : Padding) : Padding := if pad = .circular then .valid else pad

/-- The shape of the padded array. -/
def paddedShape (pad : Padding) (S : List ℕ) (ws : List (ℕ × ℕ)) : List ℕ :=
  if pad = .circular then padShape S ws else S

lemma windowShape_padded (pad : Padding) (S : List ℕ) (ws : List (ℕ × ℕ)) (hw : PosWin ws) :
    windowShape (rest pad) (paddedShape pad S ws) ws = outDims pad S ws := by
  unfold rest paddedShape
  by_cases h : pad = .circular
  · subst h; simp only [if_true]; exact windowShape_wrap S ws hw
  · simp only [if_neg h]; exact windowShape_outDims pad h S ws hw

/-- Reading a pair of positions of the padded array. -/
lemma read_padded (pad : Padding) (a : Arr ℝ) (B S T : List ℕ) (ws : List (ℕ × ℕ)) (hw : PosWin ws)
    (hs : a.shape = B ++ interleave S T) (hS : S.length = ws.length) (hT : T.length = ws.length)
    (b o o' f : List ℕ) (hb : InRange b B) (ho : InRange o (outDims pad S ws)) (ho' : InRange o' (outDims pad T ws))
    (hf : InRange f (ws.map Prod.fst)) :
    read2 (fun p q => (padded pad a (List.replicate B.length (1, 1) ++ ws.flatMap fun v => [v, v])).get
        (b ++ interleave p q)) (tapIdx (rest pad) (paddedShape pad S ws) ws o f)
        (tapIdx (rest pad) (paddedShape pad T ws) ws o' f) =
      read2 (fun p q => a.get (b ++ interleave p q)) (readIdx pad S ws o f) (readIdx pad T ws o' f) := by
  unfold rest paddedShape padded
  by_cases h : pad = .circular
  · subst h
    simp only [if_true]
    obtain ⟨z, h1, h2⟩ := tapIdx_wrap S ws o f hw hS ho hf
    obtain ⟨z', h1', h2'⟩ := tapIdx_wrap T ws o' f hw hT ho' hf
    rw [h1, h2, h1', h2']
    simp only [read2]
    have l1 := tapIdx_length _ _ _ _ _ _ h1
    have l2 := tapIdx_length _ _ _ _ _ _ h1'
    rw [padShape_length _ _ hS] at l1
    rw [padShape_length _ _ hT] at l2
    show a.get (wrapIdx a.shape _ _) = _
    rw [hs, wrapIdx_append _ _ _ _ _ _ (by simp) hb.length, wrapIdx_ones _ _ hb,
      wrapIdx_interleave _ _ _ _ _ (by omega) hS l1 (by omega)]
  · simp only [if_neg h, tapIdx_readIdx pad h _ _ _ _ hw]

lemma padded_shape (pad : Padding) (a : Arr ℝ) (B S T : List ℕ) (ws : List (ℕ × ℕ))
    (hs : a.shape = B ++ interleave S T) (hS : S.length = ws.length) (hT : T.length = ws.length) :
    (padded pad a (List.replicate B.length (1, 1) ++ ws.flatMap fun v => [v, v])).shape =
      B ++ interleave (paddedShape pad S ws) (paddedShape pad T ws) := by
  unfold padded paddedShape
  by_cases h : pad = .circular
  · simp only [if_pos h]
    show padShape a.shape _ = _
    rw [hs, padShape_append _ _ _ _ (by simp), padShape_ones, padShape_interleave _ _ _ (by omega) hS]
  · simp only [if_neg h, hs]

lemma paddedShape_length (pad : Padding) (S : List ℕ) (ws : List (ℕ × ℕ)) (h : S.length = ws.length) :
    (paddedShape pad S ws).length = S.length := by
  unfold paddedShape; split
  · exact padShape_length _ _ h
  · rfl

/-- The average over filter offsets of the covariances of the positions read. -/
noncomputable def convLogical (pad : Padding) (ws : List (ℕ × ℕ)) (S T : List ℕ)
    (F : List ℕ → List ℕ → List ℕ → ℝ) (b o o' : List ℕ) : ℝ :=
  (∑ f ∈ offsets ws, read2 (F b) (readIdx pad S ws o f) (readIdx pad T ws o' f)) / ((ws.map Prod.fst).prod : ℕ)

/-- Convolution in the full layout; the order of the spatial axes is reversed. -/
lemma convShared_holds (pad : Padding) {a : Arr ℝ} {B S T : List ℕ} {rev : Bool} {F : List ℕ → List ℕ → List ℕ → ℝ}
    (h : Holds a B S T false rev F) (hB : B ≠ []) (ws : List (ℕ × ℕ)) (hw : PosWin ws) (hl : S.length = ws.length) :
    Holds (convShared a (rvW rev ws) pad B.length) B (outDims pad S ws) (outDims pad T ws) false (!rev)
      (convLogical pad ws S T F) := by
  have hs := h.shape
  have hT : T.length = ws.length := by rw [← h.rank]; exact hl
  rw [pos_full] at hs
  have hS' : (rv rev S).length = (rvW rev ws).length := by simp [rvW_length, hl]
  have hT' : (rv rev T).length = (rvW rev ws).length := by simp [rvW_length, hT]
  have hw' := hw.rvW rev
  set x := padded pad a (List.replicate B.length (1, 1) ++ (rvW rev ws).flatMap fun v => [v, v]) with hx
  have hxs := padded_shape pad a B _ _ _ hs hS' hT'
  rw [← hx] at hxs
  have e : convShared a (rvW rev ws) pad B.length =
      (rvW rev ws).zipIdx.foldr (convStep B.length (rest pad)) x := by
    unfold convShared
    rw [if_neg (by
      have := h.ne_nil hB
      unfold ndim
      exact fun h0 => this (List.length_eq_zero_iff.1 h0))]
    show convLoop x _ (rest pad) = _
    unfold convLoop
    have : x.ndim - (rvW rev ws).length * 2 = B.length := by
      unfold ndim
      rw [hxs, List.length_append, interleave_length (by
        rw [paddedShape_length _ _ _ hS', paddedShape_length _ _ _ hT']; omega), paddedShape_length _ _ _ hS', hS']
      omega
    rw [this]
    rfl
  obtain ⟨c1, c2⟩ := convLoop_ok (rest pad) (rvW rev ws) x B (paddedShape pad (rv rev S) (rvW rev ws))
    (paddedShape pad (rv rev T) (rvW rev ws)) [] (by rw [hxs]; simp)
    (by rw [paddedShape_length _ _ _ hS', hS']) (by rw [paddedShape_length _ _ _ hT', hT'])
  refine ⟨by rw [outDims_length _ _ _ hl, outDims_length _ _ _ hT, h.rank], by simp, ?_, ?_⟩
  · rw [e, c1, windowShape_padded _ _ _ hw', windowShape_padded _ _ _ hw', outDims_rv _ _ _ _ hl, outDims_rv _ _ _ _ hT,
      pos_full, rv_not, rv_not]
    simp
  · intro b o o' hb ho ho' _
    have lo := ho.length
    have lo' := ho'.length
    rw [outDims_length _ _ _ hl] at lo
    rw [outDims_length _ _ _ hT] at lo'
    have := c2 b (rv rev o) (rv rev o') [] hb.length (by simp [paddedShape_length _ _ _ hS', lo])
      (by simp [paddedShape_length _ _ _ hT', lo']) rfl
    rw [List.append_nil] at this
    rw [e, pos_full, rv_not, rv_not, this, rvW_map, box_sum_rv]
    unfold convLogical offsets
    rw [one_div, inv_mul_eq_div]
    congr 1
    · refine Finset.sum_congr rfl fun f hf => ?_
      rw [mem_box] at hf
      have lf := hf.length
      rw [List.length_map] at lf
      simp only [List.append_nil]
      rw [read_padded pad a B _ _ _ hw' hs hS' hT' b _ _ _ hb (by rw [outDims_rv _ _ _ _ hl, inRange_rv]; exact ho)
        (by rw [outDims_rv _ _ _ _ hT, inRange_rv]; exact ho') (by rw [rvW_map, inRange_rv]; exact hf),
        readIdx_rv _ _ _ _ _ _ hl (by omega) (by omega), readIdx_rv _ _ _ _ _ _ hT (by omega) (by omega)]
      cases e1 : readIdx pad S ws o f with
      | none => rfl
      | some p =>
        cases e2 : readIdx pad T ws o' f with
        | none => rfl
        | some q =>
          simp only [Option.map_some, read2]
          rw [← pos_full]
          exact h.get b p q hb (readIdx_inRange pad _ _ _ _ _ hw hl ho e1)
            (readIdx_inRange pad _ _ _ _ _ hw hT ho' e2) (by simp)
    · rw [← rvW_map, prod_rvW]

/-- Convolution in the diagonal layout. -/
lemma convDiagonal_holds (pad : Padding) {a : Arr ℝ} {B S : List ℕ} {F : List ℕ → List ℕ → List ℕ → ℝ}
    (h : Holds a B S S true false F) (hB : B ≠ []) (ws : List (ℕ × ℕ)) (hw : PosWin ws) (hl : S.length = ws.length) :
    Holds (convDiagonal a ws pad B.length) B (outDims pad S ws) (outDims pad S ws) true false
      (convLogical pad ws S S F) := by
  have := (windowed_diag pad h ws hw hl).map fun x => x / ((ws.map Prod.fst).prod : ℕ)
  unfold convDiagonal
  rw [if_neg (by
      have := h.ne_nil hB
      unfold ndim
      exact fun h0 => this (List.length_eq_zero_iff.1 h0))]
  exact this

lemma convLogical_rv (pad : Padding) (rev : Bool) (ws : List (ℕ × ℕ)) (hr : rvW rev ws = ws) (S T : List ℕ)
    (hS : S.length = ws.length) (hT : T.length = ws.length) (F : List ℕ → List ℕ → List ℕ → ℝ) (b o o' : List ℕ)
    (ho : o.length = S.length) (ho' : o'.length = T.length) :
    convLogical pad ws (rv rev S) (rv rev T) (fun b p q => F b (rv rev p) (rv rev q)) b (rv rev o) (rv rev o') =
      convLogical pad ws S T F b o o' := by
  unfold convLogical offsets
  congr 1
  have e : ∑ f ∈ box (ws.map Prod.fst), read2 (fun p q => F b (rv rev p) (rv rev q)) (readIdx pad (rv rev S) ws (rv rev o) f)
      (readIdx pad (rv rev T) ws (rv rev o') f) =
      ∑ f ∈ box (rv rev (ws.map Prod.fst)), read2 (fun p q => F b (rv rev p) (rv rev q))
        (readIdx pad (rv rev S) (rvW rev ws) (rv rev o) f) (readIdx pad (rv rev T) (rvW rev ws) (rv rev o') f) := by
    rw [← rvW_map, hr]
  rw [e, box_sum_rv]
  refine Finset.sum_congr rfl fun f hf => ?_
  rw [mem_box] at hf
  have lf := hf.length
  rw [List.length_map] at lf
  rw [readIdx_rv _ _ _ _ _ _ hS (by omega) (by omega), readIdx_rv _ _ _ _ _ _ hT (by omega) (by omega)]
  cases readIdx pad S ws o f with
  | none => rfl
  | some p =>
    cases readIdx pad T ws o' f with
    | none => rfl
    | some q => simp [read2]

lemma unzipAxes_none' {β : Type} (x : Arr β) (n : ℕ) : unzipAxes x n none = unzipAxes x n (some x.ndim) := rfl

lemma zipAxes_none' {β : Type} (x : Arr β) (n : ℕ) : zipAxes x n none = zipAxes x n (some x.ndim) := rfl

lemma diagonalBetween_none' {β : Type} (x : Arr β) (n : ℕ) : diagonalBetween x n none = diagonalBetween x n (some x.ndim) := rfl

/-- Convolution with weights of each position: no covariance between different positions. -/
lemma convUnshared_holds (pad : Padding) {a : Arr ℝ} {B S : List ℕ} {rev : Bool} {F : List ℕ → List ℕ → List ℕ → ℝ}
    (h : Holds a B S S false rev F) (hB : B ≠ []) (ws : List (ℕ × ℕ)) (hw : PosWin ws) (hl : S.length = ws.length)
    (hr : rvW rev ws = ws) :
    ∃ z, convUnshared a ws pad B.length = .ok z ∧
      Holds z B (outDims pad S ws) (outDims pad S ws) false rev
        (fun b o o' => if o = o' then convLogical pad ws S S F b o o' else 0) := by
  have hs := h.shape
  rw [pos_full] at hs
  set S' := rv rev S with hS'
  have lS' : S'.length = ws.length := by simp [hS', hl]
  obtain ⟨y, hy, hys, hyg⟩ := unzipAxes_ok a B S' S' [] (by simpa using hs) rfl
  have n1 : a.ndim = B.length + 2 * S'.length := by
    unfold ndim; rw [hs, List.length_append, interleave_length rfl]
  obtain ⟨d, hd, hds, hdg⟩ := diagonalBetween_ok y B S' [] (by simpa using hys)
  have n2 : y.ndim = B.length + 2 * S'.length := by
    unfold ndim; rw [hys]; simp; omega
  have hd' : Holds d B S' S' true false (fun b p q => F b (rv rev p) (rv rev q)) := by
    refine ⟨rfl, fun _ => rfl, by rw [hds, pos_diag]; simp [rv], ?_⟩
    intro b p q hb hp _ hpq
    obtain rfl := hpq rfl
    have h1 := hdg b p [] hb hp (by simp [inRange_nil_right])
    have h2 := hyg b p p [] hb.length hp.length hp.length rfl
    simp only [List.append_nil] at h1 h2
    have h3 := h.get b (rv rev p) (rv rev p) hb (by rw [← inRange_rv (rev := rev), rv_rv]; exact hp)
      (by rw [← inRange_rv (rev := rev), rv_rv]; exact hp) (by simp)
    rw [pos_full, rv_rv] at h3
    rw [pos_diag]
    show d.get (b ++ p) = _
    rw [h1, h2, h3]
  have hc := convDiagonal_holds pad hd' hB ws hw lS'
  set c := convDiagonal d ws pad B.length with hcdef
  set O := outDims pad S' ws with hO
  have lO : O.length = S'.length := outDims_length _ _ _ lS'
  have hcs : c.shape = B ++ O := by rw [hc.shape, pos_diag]; rfl
  have t1 : c.shape.take B.length = B := by rw [hcs]; simp
  have t2 : c.shape.drop B.length = O := by rw [hcs]; simp
  set out : Arr ℝ := ⟨B ++ O ++ O, fun i =>
      if (i.drop B.length).take O.length = i.drop (B.length + O.length) then
        c.get (i.take B.length ++ (i.drop B.length).take O.length) else 0⟩ with hout
  obtain ⟨z, hz, hzs, hzg⟩ := zipAxes_ok out B O O [] (by simp [hout]) rfl
  have n3 : out.ndim = B.length + 2 * O.length := by unfold ndim; simp [hout]; omega
  refine ⟨z, ?_, rfl, by simp, ?_, ?_⟩
  · unfold convUnshared
    rw [if_neg (by
      have := h.ne_nil hB
      unfold ndim
      exact fun h0 => this (List.length_eq_zero_iff.1 h0))]
    simp only [bind, Except.bind, unzipAxes_none', n1, hy, diagonalBetween_none', n2, hd, ← hcdef, t1, t2, zipAxes_none']
    rw [← hout, n3]
    exact hz
  · rw [hzs, pos_full, ← outDims_rv _ _ _ _ hl, hr]; simp [hO, hS']
  · intro b o o' hb ho ho' _
    have lo := ho.length
    have lo' := ho'.length
    rw [outDims_length _ _ _ hl] at lo lo'
    have lb := hb.length
    have h1 := hzg b (rv rev o) (rv rev o') [] lb (by simp; omega) (by simp; omega) rfl
    simp only [List.append_nil] at h1
    have e1 : (b ++ rv rev o ++ rv rev o').take B.length = b := by rw [← lb]; simp
    have e2 : ((b ++ rv rev o ++ rv rev o').drop B.length).take O.length = rv rev o := by
      rw [← lb, show O.length = (rv rev o).length by simp; omega]; simp
    have e3 : (b ++ rv rev o ++ rv rev o').drop (B.length + O.length) = rv rev o' := by
      rw [← lb, show b.length + O.length = (b ++ rv rev o).length by simp; omega]
      simp
    rw [pos_full, h1]
    simp only [hout, e1, e2, e3]
    have hinj : (rv rev o = rv rev o') ↔ o = o' := by
      constructor
      · intro h; have := congrArg (rv rev) h; simpa using this
      · rintro rfl; rfl
    simp only [hinj]
    split
    · rename_i heq
      subst heq
      have hor : InRange (rv rev o) O := by
        have := (inRange_rv (rev := rev)).2 ho
        rw [← outDims_rv _ _ _ _ hl, hr] at this
        exact this
      have h2 := hc.get b (rv rev o) (rv rev o) hb hor hor (by simp)
      rw [pos_diag] at h2
      refine Eq.trans h2 ?_
      exact convLogical_rv pad rev ws hr S S hl hl F b o o lo lo
    · rfl

end NT
