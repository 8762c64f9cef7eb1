import Verif.Lemmas.Upsample3

/-!
# Transposed convolutions of kernels in the two layouts
-/

namespace NT
open Arr Spec Kernel

/-- The average over filter offsets of the covariances of the positions that meet them. -/
noncomputable def upLogical (pad : Padding) (ws : List (ℕ × ℕ)) (S T : List ℕ)
    (F : List ℕ → List ℕ → List ℕ → ℝ) (b o o' : List ℕ) : ℝ :=
  (∑ f ∈ offsets ws, read2 (F b) (upIdx pad S ws o f) (upIdx pad T ws o' f)) / ((ws.map Prod.fst).prod : ℕ)

lemma read2_tap (G : List ℕ → List ℕ → ℝ) (a b : Option (List ℕ)) :
    read2 G a b = readTap (fun p => readTap (G p) b) a := by
  cases a <;> cases b <;> rfl

lemma readTap_bind (F : List ℕ → ℝ) (a : Option (List ℕ)) (τ : List ℕ → Option (List ℕ)) :
    readTap F (a.bind τ) = readTap (fun p => readTap F (τ p)) a := by
  cases a <;> rfl

lemma readTap_sum {ι : Type} (s : Finset ι) (F : ι → List ℕ → ℝ) (a : Option (List ℕ)) :
    ∑ h ∈ s, readTap (F h) a = readTap (fun p => ∑ h ∈ s, F h p) a := by
  cases a <;> simp [readTap]

lemma readTap_mul (c : ℝ) (F : List ℕ → ℝ) (a : Option (List ℕ)) : readTap (fun p => c * F p) a = c * readTap F a := by
  cases a <;> simp [readTap]

/-- Folding both positions of a covariance. -/
lemma fold_two (s1 s2 s : Finset (List ℕ)) (c : ℝ) (G : List ℕ → List ℕ → ℝ) (A A' U U' : List ℕ → Option (List ℕ))
    (τ τ' : List ℕ → List ℕ → Option (List ℕ))
    (h1 : ∀ g ∈ s, ∀ F, ∑ h ∈ s1, readTap F ((A h).bind fun p => τ p g) = readTap F (U g))
    (h2 : ∀ g ∈ s, ∀ F, ∑ h ∈ s2, readTap F ((A' h).bind fun p => τ' p g) = readTap F (U' g)) :
    ∑ h ∈ s1, ∑ h' ∈ s2, read2 (fun p q => c * ∑ g ∈ s, read2 G (τ p g) (τ' q g)) (A h) (A' h') =
      c * ∑ g ∈ s, read2 G (U g) (U' g) := by
  have e : ∀ h h', read2 (fun p q => c * ∑ g ∈ s, read2 G (τ p g) (τ' q g)) (A h) (A' h') =
      c * ∑ g ∈ s, read2 G ((A h).bind fun p => τ p g) ((A' h').bind fun p => τ' p g) := by
    intro h h'
    cases A h <;> cases A' h' <;> simp [read2, Option.bind]
  simp only [e, ← Finset.mul_sum]
  congr 1
  rw [Finset.sum_congr rfl fun h _ => Finset.sum_comm, Finset.sum_comm]
  refine Finset.sum_congr rfl fun g hg => ?_
  simp only [read2_tap]
  rw [Finset.sum_congr rfl fun h _ => readTap_sum _ _ _]
  simp only [h2 g hg]
  exact h1 g hg _

lemma upOut_one (pad : Padding) (n : ℕ) : upOut pad n (1, 1) = n := by
  unfold upOut upPads dilated windowOut
  cases pad <;> simp <;> split_ifs <;> omega

lemma upTap_one (pad : Padding) (n o : ℕ) (h : o < n) : upTap pad n (1, 1) o 0 = some o := by
  unfold upTap upPads dilated
  cases pad <;> simp [show n ≠ 0 by omega, Nat.mod_one] <;> omega

lemma zipUp_ones (pad : Padding) : ∀ B : List ℕ, List.zipWith (upOut pad) B (List.replicate B.length (1, 1)) = B
  | [] => rfl
  | n :: B => by
    rw [List.length_cons, List.replicate_succ, List.zipWith_cons_cons, upOut_one, zipUp_ones pad B]

lemma alongUp_ones (pad : Padding) : ∀ (B b : List ℕ), InRange b B →
    alongAxes (upTap pad) B (List.replicate B.length (1, 1)) b (List.replicate B.length 0) = some b := by
  intro B
  induction B with
  | nil => intro b hb; rw [inRange_nil_right] at hb; subst hb; rfl
  | cons n B ih =>
    intro b hb
    cases b with
    | nil => simpa using hb.length
    | cons b bs =>
      rw [inRange_cons] at hb
      simp only [List.length_cons, List.replicate_succ, alongAxes, upTap_one pad n b hb.1, ih bs hb.2]

lemma zipUp_interleave (pad : Padding) : ∀ (S T : List ℕ) (ws : List (ℕ × ℕ)), S.length = T.length → S.length = ws.length →
    List.zipWith (upOut pad) (interleave S T) (ws.flatMap fun v => [v, v]) =
      interleave (List.zipWith (upOut pad) S ws) (List.zipWith (upOut pad) T ws) := by
  intro S
  induction S with
  | nil =>
    intro T ws h1 h2
    obtain rfl := List.length_eq_zero_iff.1 h1.symm
    obtain rfl := List.length_eq_zero_iff.1 h2.symm
    rfl
  | cons n S ih =>
    intro T ws h1 h2
    cases T with
    | nil => simp at h1
    | cons m T =>
      cases ws with
      | nil => simp at h2
      | cons v ws => simp [interleave, ih T ws (by simpa using h1) (by simpa using h2)]

lemma poolTranspose_ok (pad : Padding) (a : Arr ℝ) (B S : List ℕ) (ws : List (ℕ × ℕ)) (hs : a.shape = B ++ S)
    (_hl : S.length = ws.length) :
    (poolTranspose a (List.replicate B.length (1, 1) ++ ws) pad).shape = B ++ List.zipWith (upOut pad) S ws ∧
    ∀ b o, InRange b B → o.length = S.length → (poolTranspose a (List.replicate B.length (1, 1) ++ ws) pad).get (b ++ o) =
      ∑ f ∈ offsets ws, readTap (fun p => a.get (b ++ p)) (alongAxes (upTap pad) S ws o f) := by
  constructor
  · show List.zipWith _ a.shape _ = _
    rw [hs, List.zipWith_append (by simp), zipUp_ones]
  · intro b o hb ho
    show sumOver ((List.replicate B.length (1, 1) ++ ws).map Prod.fst) _ = _
    rw [sumOver_eq_box]
    refine (offsets_ones_append B.length ws _).trans ?_
    refine Finset.sum_congr rfl fun f hf => ?_
    unfold offsets at hf
    rw [mem_box] at hf
    have lf := hf.length
    rw [List.length_map] at lf
    rw [hs, alongAxes_append _ _ _ _ _ _ _ _ _ (by simp) hb.length.symm (by simp), alongUp_ones _ _ _ hb]
    cases alongAxes (upTap pad) S ws o f <;> rfl

/-- The fold of an array with batch axes. -/
lemma fold_batch (x : Arr ℝ) (B M : List ℕ) (ts : List ℕ) (hx : x.shape = B ++ M) (hl : M.length = ts.length) :
    (samePadTranspose x (List.replicate B.length none ++ ts.map some)).shape = B ++ ts ∧
    ∀ b o, InRange b B → o.length = M.length → (samePadTranspose x (List.replicate B.length none ++ ts.map some)).get (b ++ o) =
      ∑ h ∈ box (foldSizes M (ts.map some)), readTap (fun p => x.get (b ++ p)) (alongAxes foldPos M (ts.map some) o h) := by
  obtain ⟨h1, h2⟩ := samePadTranspose_ok x (List.replicate B.length none ++ ts.map some) (by rw [hx]; simp [hl])
  have e1 : ∀ B : List ℕ, List.zipWith (fun m (t : Option ℕ) => t.getD m) B (List.replicate B.length none) = B := by
    intro B
    induction B with
    | nil => rfl
    | cons n B ih => simp [List.replicate_succ, ih]
  have e2 : ∀ M ts : List ℕ, M.length = ts.length → List.zipWith (fun m (t : Option ℕ) => t.getD m) M (ts.map some) = ts := by
    intro M
    induction M with
    | nil => intro ts h; obtain rfl := List.length_eq_zero_iff.1 h.symm; rfl
    | cons n M ih =>
      intro ts h
      cases ts with
      | nil => simp at h
      | cons t ts => simp [ih ts (by simpa using h)]
  constructor
  · rw [h1, hx, List.zipWith_append (by simp), e1, e2 _ _ hl]
  · intro b o hb ho
    rw [h2 _ (by rw [hx]; simp [hb.length, ho]), hx, foldSizes_append _ _ _ _ (by simp), foldSizes_ones, box_sum_append, box_ones,
      Finset.sum_singleton]
    refine Finset.sum_congr rfl fun h _ => ?_
    rw [alongAxes_append _ _ _ _ _ _ _ _ _ (by simp) hb.length.symm (by simp), fold_ones _ _ hb]
    cases alongAxes foldPos M (ts.map some) o h <;> rfl

/-- Transposed convolution in the diagonal layout. -/
lemma convUpDiagonal_holds (pad : Padding) {a : Arr ℝ} {B S : List ℕ} {F : List ℕ → List ℕ → List ℕ → ℝ}
    (h : Holds a B S S true false F) (hB : B ≠ []) (ws : List (ℕ × ℕ)) (hw : PosWin ws) (hS : PosDims S) (hl : S.length = ws.length) :
    Holds (convUpDiagonal a ws pad B.length) B (upDims pad S ws) (upDims pad S ws) true false (upLogical pad ws S S F) := by
  have hs := h.shape
  rw [pos_diag] at hs
  change a.shape = B ++ S at hs
  have hne : a.ndim ≠ 0 := by
    have := h.ne_nil hB
    unfold ndim
    exact fun h0 => this (List.length_eq_zero_iff.1 h0)
  -- the value read is that of the kernel
  have hF : ∀ b o f, InRange b B → readTap (fun p => a.get (b ++ p)) (upIdx pad S ws o f) =
      read2 (F b) (upIdx pad S ws o f) (upIdx pad S ws o f) := by
    intro b o f hb
    cases e : upIdx pad S ws o f with
    | none => rfl
    | some p =>
      have r := upIdx_inRange _ _ _ _ _ _ e
      have := h.get b p p hb r r (by simp)
      rw [pos_diag] at this
      exact this
  have main : ∀ y : Arr ℝ, y.shape = B ++ upDims pad S ws → (∀ b o, InRange b B → InRange o (upDims pad S ws) →
      y.get (b ++ o) = ∑ f ∈ offsets ws, readTap (fun p => a.get (b ++ p)) (upIdx pad S ws o f)) →
      Holds (y.map fun x : ℝ => x / (((ws.map Prod.fst).prod : ℕ) : ℝ)) B (upDims pad S ws) (upDims pad S ws) true false (upLogical pad ws S S F) := by
    intro y hy1 hy2
    refine ⟨rfl, by simp, by rw [pos_diag]; exact hy1, ?_⟩
    intro b o o' hb ho _ hoo
    obtain rfl := hoo rfl
    rw [pos_diag]
    show y.get (b ++ o) / _ = _
    rw [hy2 b o hb ho]
    unfold upLogical
    congr 1
    exact Finset.sum_congr rfl fun f _ => hF b o f hb
  unfold convUpDiagonal
  rw [if_neg hne]
  by_cases hp : pad = .circular
  · subst hp
    simp only [if_true]
    obtain ⟨p1, p2⟩ := poolTranspose_ok .valid a B S ws hs hl
    obtain ⟨q1, -⟩ := poolTranspose_ok .same a B S ws hs hl
    rw [upShape_dims .valid (by simp) _ _ hS hw] at p1
    rw [upShape_dims .same (by simp) _ _ hS hw] at q1
    have q2 : (poolTranspose a (List.replicate B.length (1, 1) ++ ws) .same).shape.drop B.length = upDims .same S ws := by
      rw [q1]; simp
    rw [q2]
    obtain ⟨f1, f2⟩ := fold_batch _ B _ (upDims .same S ws) p1 (by rw [upDims_length _ _ _ hl, upDims_length _ _ _ hl])
    refine main _ f1 ?_
    intro b o hb ho
    have lo := ho.length
    rw [upDims_length _ _ _ hl] at lo
    rw [f2 b o hb (by rw [lo, upDims_length _ _ _ hl])]
    have e : ∀ g, readTap (fun p => (poolTranspose a (List.replicate B.length (1, 1) ++ ws) .valid).get (b ++ p))
        (alongAxes foldPos (upDims .valid S ws) ((upDims .same S ws).map some) o g) =
        ∑ f ∈ offsets ws, readTap (fun p => a.get (b ++ p))
          ((alongAxes foldPos (upDims .valid S ws) ((upDims .same S ws).map some) o g).bind fun p => alongAxes (upTap .valid) S ws p f) := by
      intro g
      cases e : alongAxes foldPos (upDims .valid S ws) ((upDims .same S ws).map some) o g with
      | none => simp [readTap]
      | some p =>
        have lp := alongAxes_length _ _ _ _ _ _ e
        rw [upDims_length _ _ _ hl] at lp
        simp only [readTap, Option.bind_some]
        exact p2 b p hb lp
    simp only [e]
    rw [Finset.sum_comm]
    refine Finset.sum_congr rfl fun f hf => ?_
    unfold offsets at hf
    rw [mem_box] at hf
    exact fold_axes S ws o f _ hS hw hl ho hf
  · simp only [if_neg hp]
    obtain ⟨p1, p2⟩ := poolTranspose_ok pad a B S ws hs hl
    rw [upShape_dims pad hp _ _ hS hw] at p1
    refine main _ p1 ?_
    intro b o hb ho
    have lo := ho.length
    rw [upDims_length _ _ _ hl] at lo
    rw [p2 b o hb lo]
    refine Finset.sum_congr rfl fun f _ => ?_
    rw [upTap_idx pad hp _ _ _ _ hS hw]

lemma posDims_rv {S : List ℕ} (h : PosDims S) (rev : Bool) : PosDims (rv rev S) := by
  unfold rv
  cases rev
  · exact h
  · intro n hn; exact h n (by simpa using hn)

lemma zipUp_length (pad : Padding) (S : List ℕ) (ws : List (ℕ × ℕ)) (h : S.length = ws.length) :
    (List.zipWith (upOut pad) S ws).length = S.length := by simp [h]

lemma foldSizes_reverse (M : List ℕ) (ts : List (Option ℕ)) (h : M.length = ts.length) :
    foldSizes M.reverse ts.reverse = (foldSizes M ts).reverse := (List.reverse_zipWith h).symm

lemma map_interleave {α β : Type} (f : α → β) : ∀ (A B : List α), (interleave A B).map f = interleave (A.map f) (B.map f)
  | [], _ => by simp [interleave]
  | _ :: _, [] => by simp [interleave]
  | a :: A, b :: B => by simp [interleave, map_interleave f A B]

/-- Transposed convolution in the full layout; the order of the spatial axes is reversed. -/
lemma convUpFull_holds (pad : Padding) {a : Arr ℝ} {B S T : List ℕ} {rev : Bool} {F : List ℕ → List ℕ → List ℕ → ℝ}
    (h : Holds a B S T false rev F) (hB : B ≠ []) (ws : List (ℕ × ℕ)) (hw : PosWin ws) (hS : PosDims S) (hT0 : PosDims T)
    (hl : S.length = ws.length) :
    Holds (convUpFull a (rvW rev ws) pad B.length) B (upDims pad S ws) (upDims pad T ws) false (!rev)
      (upLogical pad ws S T F) := by
  have hs := h.shape
  have hT : T.length = ws.length := by rw [← h.rank]; exact hl
  rw [pos_full] at hs
  have hne : a.ndim ≠ 0 := by
    have := h.ne_nil hB
    unfold ndim
    exact fun h0 => this (List.length_eq_zero_iff.1 h0)
  set S' := rv rev S with hS'
  set T' := rv rev T with hT'
  set vs := rvW rev ws with hvs
  have lS' : S'.length = vs.length := by simp [hS', hvs, rvW_length, hl]
  have lT' : T'.length = vs.length := by simp [hT', hvs, rvW_length, hT]
  have hw' : PosWin vs := hw.rvW rev
  have pS' : PosDims S' := posDims_rv hS rev
  have pT' : PosDims T' := posDims_rv hT0 rev
  have hloop : ∀ p, convUpLoop a vs p = vs.zipIdx.foldr (convUpStep B.length p) a := by
    intro p
    unfold convUpLoop
    have : a.ndim - vs.length * 2 = B.length := by
      unfold ndim
      rw [hs, List.length_append, interleave_length (by omega)]
      omega
    rw [this]
    rfl
  have uS : upDims pad S' vs = rv rev (upDims pad S ws) := upDims_rv _ _ _ _ hl
  have uT : upDims pad T' vs = rv rev (upDims pad T ws) := upDims_rv _ _ _ _ hT
  -- what has to be shown of the entries
  have main : ∀ y : Arr ℝ, y.shape = B ++ interleave (upDims pad S' vs).reverse (upDims pad T' vs).reverse →
      (∀ b o o', InRange b B → InRange o (upDims pad S' vs) → InRange o' (upDims pad T' vs) →
        y.get (b ++ interleave o.reverse o'.reverse) = (1 / (((vs.map Prod.fst).prod : ℕ) : ℝ)) * ∑ g ∈ box (vs.map Prod.fst),
          read2 (fun p q => a.get (b ++ interleave p q)) (upIdx pad S' vs o g) (upIdx pad T' vs o' g)) →
      Holds y B (upDims pad S ws) (upDims pad T ws) false (!rev) (upLogical pad ws S T F) := by
    intro y hy1 hy2
    refine ⟨by rw [upDims_length _ _ _ hl, upDims_length _ _ _ hT, h.rank], by simp, ?_, ?_⟩
    · rw [hy1, uS, uT, pos_full, rv_not, rv_not]
    · intro b o o' hb ho ho' _
      have lo := ho.length
      have lo' := ho'.length
      rw [upDims_length _ _ _ hl] at lo
      rw [upDims_length _ _ _ hT] at lo'
      rw [pos_full, rv_not, rv_not, hy2 b (rv rev o) (rv rev o') hb (by rw [uS, inRange_rv]; exact ho) (by rw [uT, inRange_rv]; exact ho'),
        hvs, rvW_map, box_sum_rv]
      unfold upLogical offsets
      rw [one_div, inv_mul_eq_div]
      congr 1
      · refine Finset.sum_congr rfl fun f hf => ?_
        rw [mem_box] at hf
        have lf := hf.length
        rw [List.length_map] at lf
        rw [hS', hT', upIdx_rv _ _ _ _ _ _ hl (by omega) (by omega), upIdx_rv _ _ _ _ _ _ hT (by omega) (by omega)]
        cases e1 : upIdx pad S ws o f with
        | none => rfl
        | some p =>
          cases e2 : upIdx pad T ws o' f with
          | none => rfl
          | some q =>
            simp only [Option.map_some, read2]
            rw [← pos_full]
            exact h.get b p q hb (upIdx_inRange pad _ _ _ _ _ e1) (upIdx_inRange pad _ _ _ _ _ e2) (by simp)
      · rw [← rvW_map, prod_rvW]
  have hfull : ∀ p, p ≠ .circular → (convUpLoop a vs p).shape = B ++ interleave (upDims p S' vs).reverse (upDims p T' vs).reverse ∧
      ∀ b o o', b.length = B.length → o.length = S'.length → o'.length = T'.length →
        (convUpLoop a vs p).get (b ++ interleave o.reverse o'.reverse) = (1 / (((vs.map Prod.fst).prod : ℕ) : ℝ)) *
          ∑ g ∈ box (vs.map Prod.fst), read2 (fun p q => a.get (b ++ interleave p q)) (alongAxes (upTap p) S' vs o g)
            (alongAxes (upTap p) T' vs o' g) := by
    intro p hp
    obtain ⟨c1, c2⟩ := convUpLoop_ok p vs a B S' T' [] (by rw [hs]; simp) lS' lT'
    rw [hloop]
    constructor
    · rw [c1, upShape_dims p hp _ _ pS' hw', upShape_dims p hp _ _ pT' hw']; simp
    · intro b o o' hb ho ho'
      have := c2 b o o' [] hb ho ho' rfl
      simp only [List.append_nil] at this
      exact this
  unfold convUpFull
  rw [if_neg hne]
  by_cases hp : pad = .circular
  · subst hp
    simp only [if_true]
    obtain ⟨c1, c2⟩ := hfull .valid (by simp)
    have q1 : (poolTranspose a (List.replicate B.length (1, 1) ++ vs.flatMap fun v => [v, v]) .same).shape =
        B ++ interleave (upDims .same S' vs) (upDims .same T' vs) := by
      show List.zipWith _ a.shape _ = _
      rw [hs, List.zipWith_append (by simp), zipUp_ones, zipUp_interleave _ _ _ _ (by omega) lS',
        upShape_dims .same (by simp) _ _ pS' hw', upShape_dims .same (by simp) _ _ pT' hw']
    have lu : ∀ p, (upDims p S' vs).length = vs.length := fun p => by rw [upDims_length _ _ _ lS', lS']
    have lu' : ∀ p, (upDims p T' vs).length = vs.length := fun p => by rw [upDims_length _ _ _ lT', lT']
    rw [q1, reverseZippedList_eq B _ _ (by rw [lu, lu']), List.drop_left]
    obtain ⟨f1, f2⟩ := fold_batch _ B _ (interleave (upDims .same S' vs).reverse (upDims .same T' vs).reverse) c1 (by
      rw [interleave_length (by simp [lu, lu']), interleave_length (by simp [lu, lu'])]; simp [lu])
    refine main _ f1 ?_
    intro b o o' hb ho ho'
    have lo := ho.length
    have lo' := ho'.length
    rw [lu] at lo
    rw [lu'] at lo'
    rw [f2 b _ hb (by
      rw [interleave_length (by simp [lo, lo']), interleave_length (by simp [lu, lu'])]; simp [lu, lo]), map_interleave,
      List.map_reverse, List.map_reverse, foldSizes_interleave _ _ _ _ (by simp [lu, lu']) (by simp [lu]) (by simp [lu, lu']),
      foldSizes_reverse _ _ (by simp [lu]), foldSizes_reverse _ _ (by simp [lu']),
      box_sum_interleave _ _ (by simp [foldSizes, lu, lu']), box_sum_reverse]
    have e : ∀ h1 ∈ box (foldSizes (upDims .valid S' vs) ((upDims .same S' vs).map some)),
        ∑ h2 ∈ box (foldSizes (upDims .valid T' vs) ((upDims .same T' vs).map some)).reverse,
          readTap (fun p => (convUpLoop a vs .valid).get (b ++ p))
            (alongAxes foldPos (interleave (upDims .valid S' vs).reverse (upDims .valid T' vs).reverse)
              (interleave ((upDims .same S' vs).map some).reverse ((upDims .same T' vs).map some).reverse)
              (interleave o.reverse o'.reverse) (interleave h1.reverse h2)) =
        ∑ h2 ∈ box (foldSizes (upDims .valid T' vs) ((upDims .same T' vs).map some)),
          read2 (fun p q => (1 / (((vs.map Prod.fst).prod : ℕ) : ℝ)) * ∑ g ∈ box (vs.map Prod.fst),
            read2 (fun p q => a.get (b ++ interleave p q)) (alongAxes (upTap .valid) S' vs p g) (alongAxes (upTap .valid) T' vs q g))
            (alongAxes foldPos (upDims .valid S' vs) ((upDims .same S' vs).map some) o h1)
            (alongAxes foldPos (upDims .valid T' vs) ((upDims .same T' vs).map some) o' h2) := by
      intro h1 hh1
      rw [mem_box] at hh1
      have l1 := hh1.length
      rw [foldSizes_length _ _ (by simp [lu]), lu] at l1
      rw [box_sum_reverse]
      refine Finset.sum_congr rfl fun h2 hh2 => ?_
      rw [mem_box] at hh2
      have l2 := hh2.length
      rw [foldSizes_length _ _ (by simp [lu']), lu'] at l2
      rw [alongAxes_interleave _ _ _ _ _ _ _ _ _ (by simp [lu, lu']) (by simp [lu]) (by simp [lu, lu']) (by simp [lu, lo]) (by simp [lu, lo'])
        (by simp [lu, l1]) (by simp [lu, l2]),
        alongAxes_reverse _ _ _ _ _ (by simp [lu]) (by simp [lu, lo]) (by simp [lu, l1]),
        alongAxes_reverse _ _ _ _ _ (by simp [lu']) (by simp [lu', lo']) (by simp [lu', l2])]
      cases e1 : alongAxes foldPos (upDims .valid S' vs) ((upDims .same S' vs).map some) o h1 with
      | none => rfl
      | some p =>
        cases e2 : alongAxes foldPos (upDims .valid T' vs) ((upDims .same T' vs).map some) o' h2 with
        | none => rfl
        | some q =>
          have lp := alongAxes_length _ _ _ _ _ _ e1
          have lq := alongAxes_length _ _ _ _ _ _ e2
          rw [lu] at lp
          rw [lu'] at lq
          simp only [Option.map_some, ilOpt, readTap, read2]
          exact c2 b p q hb.length (by omega) (by omega)
    rw [Finset.sum_congr rfl e]
    refine fold_two _ _ _ _ _ _ _ _ _ (fun p g => alongAxes (upTap .valid) S' vs p g) (fun p g => alongAxes (upTap .valid) T' vs p g) ?_ ?_
    · intro g hg G
      rw [mem_box] at hg
      exact fold_axes S' vs o g G pS' hw' lS' ho hg
    · intro g hg G
      rw [mem_box] at hg
      exact fold_axes T' vs o' g G pT' hw' lT' ho' hg
  · simp only [if_neg hp]
    obtain ⟨c1, c2⟩ := hfull pad hp
    refine main _ c1 ?_
    intro b o o' hb ho ho'
    have lo := ho.length
    have lo' := ho'.length
    rw [upDims_length _ _ _ lS'] at lo
    rw [upDims_length _ _ _ lT'] at lo'
    rw [c2 b o o' hb.length lo lo']
    simp only [upTap_idx pad hp _ _ _ _ pS' hw', upTap_idx pad hp _ _ _ _ pT' hw']

end NT
