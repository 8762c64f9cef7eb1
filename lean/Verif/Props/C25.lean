import Verif.Lemmas.Act

/-!
# C25: masking a `Kernel`
-/

namespace NT.C25
open NT Arr Kernel Spec

variable {α : Type}

/-- Position `p` of example `i` is masked. -/
def Masked (m : Arr Bool) (ba ca i : Nat) (p : List Nat) : Bool := m.get (actIdx ba ca i 0 p)

/-- What masking means: entries at which either side is masked become zero. `M1`, `M2` are the masks of
the two inputs. A pair of examples is a list `[i, j]`. -/
def maskL [Zero α] (L : Logical α) (M1 M2 : Nat → List Nat → Bool) : Logical α where
  n1 := L.n1
  n2 := L.n2
  S1 := L.S1
  S2 := L.S2
  k12 := fun b p q => if M1 (b.getD 0 0) p || M2 (b.getD 1 0) q then 0 else L.k12 b p q
  k11 := fun b p q => if M1 (b.getD 0 0) p || M1 (b.getD 1 0) q then 0 else L.k11 b p q
  k22 := L.k22.map fun F b p q => if M2 (b.getD 0 0) p || M2 (b.getD 1 0) q then 0 else F b p q
  ntk := L.ntk.map fun F b p q => if M1 (b.getD 0 0) p || M2 (b.getD 1 0) q then 0 else F b p q

/-- A mask for activations with batch axis `ba`, channel axis `ca`, `n` examples, spatial shape `S`:
one channel. -/
def MaskShape (m : Arr Bool) (ba ca n : Nat) (S : List Nat) : Prop :=
  ba ≠ ca ∧ ba < S.length + 2 ∧ ca < S.length + 2 ∧ m.shape = actIdx ba ca n 1 S

lemma getD_act (ba ca b c : Nat) (p : List Nat) (hne : ba ≠ ca) (hb : ba < p.length + 2)
    (hc : ca < p.length + 2) : (actIdx ba ca b c p)[ca]? = some c := by
  have h := (gather_act ba ca b c p hne hb hc).2.2
  have hl := actIdx_length ba ca b c p hne hb hc
  rw [List.getElem?_eq_getElem (by omega)]
  simpa [List.getD_eq_getElem?_getD, List.getElem?_eq_getElem (show ca < (actIdx ba ca b c p).length by omega)] using h

lemma maskReshape_ok (k : Kernel α) (m : Arr Bool) (n : Nat) (S : List Nat)
    (hm : MaskShape m k.batchAxis k.channelAxis n S) :
    ∃ z, maskReshape k m = .ok z ∧ z.shape = n :: rv k.isReversed S ∧
      ∀ i p, p.length = S.length →
        z.get (i :: rv k.isReversed p) = Masked m k.batchAxis k.channelAxis i p := by
  obtain ⟨hne, hb, hc, hs⟩ := hm
  obtain ⟨h1, h2⟩ := moveaxis_act m _ _ n 1 S hne hb hc hs
  unfold maskReshape
  rw [if_neg (by rw [hs, getD_act _ _ _ _ _ hne hb hc]; simp)]
  refine ⟨_, rfl, ?_⟩
  set z := squeezeLast (m.moveaxis [k.batchAxis, k.channelAxis] [0, m.ndim - 1]) with hz
  have z1 : z.shape = n :: S := by
    rw [hz]
    unfold squeezeLast
    rw [ndim, h1]
    have : n :: (S ++ [1]) = (n :: S) ++ [1] := rfl
    rw [this, List.take_left' (by simp)]
  have z2 : ∀ i p, p.length = S.length → z.get (i :: p) = Masked m k.batchAxis k.channelAxis i p :=
    fun i p hp => h2 i p 0 hp
  cases hr : k.isReversed
  · simp only [Bool.false_eq_true, if_false]
    exact ⟨z1, z2⟩
  · simp only [if_true]
    obtain ⟨r1, r2⟩ := moveaxis_rev z n S z1
    refine ⟨r1, fun i p hp => ?_⟩
    rw [← z2 i p hp, ← r2 i p hp]
    rfl

lemma maskProd_ok (k : Kernel α) (m1 m2 : Arr Bool) (n1 n2 : Nat) (S1 S2 : List Nat)
    (h1 : MaskShape m1 k.batchAxis k.channelAxis n1 S1)
    (h2 : MaskShape m2 k.batchAxis k.channelAxis n2 S2) (hS : S1.length = S2.length)
    (hd : k.diagonalSpatial = true → S1 = S2) :
    ∃ z, maskProd k (some m1) (some m2) 2 = .ok (some z) ∧
      Holds z [n1, n2] S1 S2 k.diagonalSpatial k.isReversed (fun b p q =>
        Masked m1 k.batchAxis k.channelAxis (b.getD 0 0) p ||
        Masked m2 k.batchAxis k.channelAxis (b.getD 1 0) q) := by
  obtain ⟨x, ex, hx1, hx2⟩ := maskReshape_ok k m1 n1 S1 h1
  obtain ⟨y, ey, hy1, hy2⟩ := maskReshape_ok k m2 n2 S2 h2
  unfold maskProd
  simp only [ex, ey, bind, Except.bind, pure, Except.pure]
  refine ⟨_, rfl, hS, hd, ?_, ?_⟩
  · cases hds : k.diagonalSpatial
    · have hnd : x.ndim = 0 + (n1 :: rv k.isReversed S1).length := by simp [ndim, hx1]
      simp only [Bool.false_eq_true, if_false, hnd]
      have := (outerProd_ok or x y [] (n1 :: rv k.isReversed S1) (n2 :: rv k.isReversed S2) []
        (by simp [hx1]) (by simp [hy1]) (by simp [hS])).1
      rw [pos_full]
      simpa [interleave] using this
    · have := hd hds
      subst this
      rw [if_pos rfl]
      have := (outerProd_ok or x y [] [n1] [n2] (rv k.isReversed S1) (by simp [hx1]) (by simp [hy1])
        rfl).1
      rw [pos_diag]
      exact this
  · intro b p q hb hp hq hpq
    obtain ⟨i, b', rfl, hi, hb'⟩ := inRange_cons_right.1 hb
    obtain ⟨j, b'', rfl, hj, hb''⟩ := inRange_cons_right.1 hb'
    rw [inRange_nil_right] at hb''
    subst hb''
    simp only [List.getD_cons_zero, List.getD_cons_succ]
    rw [← hx2 i p hp.length, ← hy2 j q hq.length]
    cases hds : k.diagonalSpatial
    · have hnd : x.ndim = 0 + (n1 :: rv k.isReversed S1).length := by simp [ndim, hx1]
      simp only [Bool.false_eq_true, if_false, hnd]
      have := (outerProd_ok or x y [] (n1 :: rv k.isReversed S1) (n2 :: rv k.isReversed S2) []
        (by simp [hx1]) (by simp [hy1]) (by simp [hS])).2 [] (i :: rv k.isReversed p)
        (j :: rv k.isReversed q) [] (by simp) (by simp [hi, inRange_rv, hp])
        (by simp [hj, inRange_rv, hq]) (by simp)
      rw [pos_full]
      simpa [interleave] using this
    · have := hd hds
      subst this
      have := hpq hds
      subst this
      rw [if_pos rfl]
      have := (outerProd_ok or x y [] [n1] [n2] (rv k.isReversed S1) (by simp [hx1]) (by simp [hy1])
        rfl).2 [] [i] [j] (rv k.isReversed p) (by simp) (by simp [hi]) (by simp [hj]) (inRange_rv.2 hp)
      rw [pos_diag]
      simpa [interleave] using this

lemma maskProd_self (k : Kernel α) (m : Arr Bool) (n : Nat) (S : List Nat)
    (h : MaskShape m k.batchAxis k.channelAxis n S) :
    ∃ z, maskProd k (some m) (some m) k.batchNdim = .ok (some z) ∧
      Holds z (batchShape k.diagonalBatch n) S S k.diagonalSpatial k.isReversed (fun b p q =>
        Masked m k.batchAxis k.channelAxis ((dbl b).getD 0 0) p ||
        Masked m k.batchAxis k.channelAxis ((dbl b).getD 1 0) q) := by
  cases hb : k.diagonalBatch
  · obtain ⟨z, h1, h2⟩ := maskProd_ok k m m n n S S h h rfl (fun _ => rfl)
    have e : k.batchNdim = 2 := by simp [batchNdim, hb]
    rw [e]
    refine ⟨z, h1, ?_⟩
    have : batchShape false n = [n, n] := rfl
    rw [this]
    refine h2.congr ?_
    intro b p q hb _ _
    obtain ⟨i, b', rfl, hi, hb'⟩ := inRange_cons_right.1 hb
    obtain ⟨j, b'', rfl, hj, hb''⟩ := inRange_cons_right.1 hb'
    rw [inRange_nil_right] at hb''
    subst hb''
    rfl
  · have e : k.batchNdim = 1 := by simp [batchNdim, hb]
    rw [e]
    obtain ⟨x, ex, hx1, hx2⟩ := maskReshape_ok k m n S h
    unfold maskProd
    simp only [ex, bind, Except.bind, pure, Except.pure]
    have hbs : batchShape true n = [n] := rfl
    rw [hbs]
    refine ⟨_, rfl, rfl, fun _ => rfl, ?_, ?_⟩
    · cases hds : k.diagonalSpatial
      · have hnd : x.ndim = [n].length + (rv k.isReversed S).length := by simp [ndim, hx1]; omega
        simp only [Bool.false_eq_true, if_false, hnd]
        have := (outerProd_ok or x x [n] (rv k.isReversed S) (rv k.isReversed S) []
          (by simp [hx1]) (by simp [hx1]) rfl).1
        rw [pos_full]
        simpa using this
      · rw [if_pos rfl]
        have := (outerProd_ok or x x [n] [] [] (rv k.isReversed S) (by simp [hx1]) (by simp [hx1])
          rfl).1
        rw [pos_diag]
        simpa [interleave] using this
    · intro b p q hb hp hq hpq
      obtain ⟨i, b', rfl, hi, hb'⟩ := inRange_cons_right.1 hb
      rw [inRange_nil_right] at hb'
      subst hb'
      simp only [dbl, List.getD_cons_zero, List.getD_cons_succ]
      rw [← hx2 i p hp.length, ← hx2 i q hq.length]
      cases hds : k.diagonalSpatial
      · have hnd : x.ndim = [n].length + (rv k.isReversed S).length := by simp [ndim, hx1]; omega
        simp only [Bool.false_eq_true, if_false, hnd]
        have := (outerProd_ok or x x [n] (rv k.isReversed S) (rv k.isReversed S) []
          (by simp [hx1]) (by simp [hx1]) rfl).2 [i] (rv k.isReversed p)
          (rv k.isReversed q) [] (by simp [hi]) (by simp [inRange_rv, hp])
          (by simp [inRange_rv, hq]) (by simp)
        rw [pos_full]
        simpa using this
      · have := hpq hds
        subst this
        rw [if_pos rfl]
        have := (outerProd_ok or x x [n] [] [] (rv k.isReversed S) (by simp [hx1]) (by simp [hx1])
          rfl).2 [i] [] [] (rv k.isReversed p) (by simp [hi]) (by simp) (by simp) (inRange_rv.2 hp)
        rw [pos_diag]
        simpa [interleave] using this

lemma maskArr_holds [Zero α] {a : Arr α} {m : Arr Bool} {B S T : List Nat} {diag rev : Bool}
    {F : List Nat → List Nat → List Nat → α} {G : List Nat → List Nat → List Nat → Bool}
    (hB : B ≠ []) (ha : Holds a B S T diag rev F) (hm : Holds m B S T diag rev G) :
    Holds (maskArr a (some m)) B S T diag rev (fun b p q => if G b p q then 0 else F b p q) := by
  have hn : a.ndim ≠ 0 := by
    simp only [ndim, ha.shape, List.length_append]
    have := List.length_pos_iff.2 hB
    omega
  have e : maskArr a (some m) = bcast (fun b v => if b then 0 else v) m a := by
    simp [maskArr, hn]
  rw [e]
  refine ⟨ha.rank, ha.square, ?_, ?_⟩
  · simp only [bcast]
    rw [hm.shape, ha.shape, zipWith_bcastDim_self]
  · intro b p q hb hp hq hpq
    have hin : InRange (b ++ pos diag rev p q) (B ++ pos diag rev S T) := by
      rw [inRange_append hb.length]
      exact ⟨hb, pos_inRange ha.rank hp hq⟩
    simp only [bcast, hm.shape, ha.shape, bcastIdx_self hin]
    rw [hm.get b p q hb hp hq hpq, ha.get b p q hb hp hq hpq]

lemma maskArr_scalar [Zero α] {a : Arr α} {m : Arr Bool} {B S T : List Nat} {diag rev : Bool}
    {F : List Nat → List Nat → List Nat → α} {G : List Nat → List Nat → List Nat → Bool}
    (h0 : a.shape = []) (hF : ∀ b p q, F b p q = a.get []) (hm : Holds m B S T diag rev G) :
    Holds (maskArr a (some m)) B S T diag rev (fun b p q => if G b p q then 0 else F b p q) := by
  have hn : a.ndim = 0 := by simp [ndim, h0]
  refine ⟨hm.rank, hm.square, by simp [maskArr, hn, hm.shape], ?_⟩
  intro b p q hb hp hq hpq
  simp only [maskArr, hn, if_true, hF]
  rw [hm.get b p q hb hp hq hpq]

lemma batchShape_ne (d : Bool) (n : Nat) : batchShape d n ≠ [] := by
  unfold batchShape; cases d <;> simp

/-- After masking, the tangent kernel is an array with batch axes (a scalar is broadcast). -/
def NtkFull (k : Kernel α) : Prop := ∀ a, k.ntk = some a → a.shape ≠ []

lemma mask_aux [Zero α] (k : Kernel α) (L : Logical α) (hk : k.Stores L) (m1 m2 : Arr Bool)
    (h1 : MaskShape m1 k.batchAxis k.channelAxis L.n1 L.S1)
    (h2 : MaskShape m2 k.batchAxis k.channelAxis L.n2 L.S2) :
    ∃ k', k.mask (some m1) (some m2) = .ok k' ∧
      k'.Stores (maskL L (Masked m1 k.batchAxis k.channelAxis)
        (Masked m2 k.batchAxis k.channelAxis)) ∧
      k'.static = k.static ∧ k'.mask1 = some m1 ∧ k'.mask2 = some m2 ∧ NtkFull k' := by
  obtain ⟨z11, e11, h11⟩ := maskProd_self k m1 _ _ h1
  obtain ⟨z22, e22, h22⟩ := maskProd_self k m2 _ _ h2
  obtain ⟨z12, e12, h12⟩ := maskProd_ok k m1 m2 _ _ _ _ h1 h2 hk.nngp.rank hk.nngp.square
  unfold Kernel.mask
  simp only [e11, e22, e12, bind, Except.bind, pure, Except.pure]
  refine ⟨_, rfl, ⟨?_, ?_, ?_, ?_⟩, rfl, rfl, rfl, ?_⟩
  · exact maskArr_holds (by simp) hk.nngp h12
  · exact maskArr_holds (batchShape_ne _ _) hk.cov1 h11
  · have := hk.cov2
    simp only [maskL]
    cases e1 : k.cov2 <;> cases e2 : L.k22 <;> rw [e1, e2] at this <;>
      simp only [OptRel, Option.map_some, Option.map_none] at this ⊢
    exact maskArr_holds (batchShape_ne _ _) this h22
  · have := hk.ntk
    simp only [maskL]
    cases e1 : k.ntk <;> cases e2 : L.ntk <;> rw [e1, e2] at this <;>
      simp only [OptRel, Option.map_some, Option.map_none] at this ⊢
    rcases this with ⟨g1, g2⟩ | h
    · exact .inr (maskArr_scalar g1 g2 h12)
    · exact .inr (maskArr_holds (by simp) h h12)
  · intro a ha
    have := hk.ntk
    cases e1 : k.ntk <;> cases e2 : L.ntk <;> rw [e1, e2] at this <;>
      simp only [OptRel] at this
    · simp [e1] at ha
    · simp only [e1, Option.map_some, Option.some.injEq] at ha
      subst ha
      rcases this with ⟨g1, g2⟩ | h
      · rw [(maskArr_scalar g1 g2 h12).shape]; simp
      · rw [(maskArr_holds (by simp) h h12).shape]; simp

/-- Masking zeroes exactly the entries at which either side is masked, in every layout; masks are
recorded, flags and shapes stay. -/
theorem mask_zeroes [Zero α] (k : Kernel α) (L : Logical α) (hk : k.Stores L) (m1 m2 : Arr Bool)
    (h1 : MaskShape m1 k.batchAxis k.channelAxis L.n1 L.S1)
    (h2 : MaskShape m2 k.batchAxis k.channelAxis L.n2 L.S2) :
    ∃ k', k.mask (some m1) (some m2) = .ok k' ∧
      k'.Stores (maskL L (Masked m1 k.batchAxis k.channelAxis)
        (Masked m2 k.batchAxis k.channelAxis)) ∧
      k'.static = k.static ∧ k'.mask1 = some m1 ∧ k'.mask2 = some m2 := by
  obtain ⟨k', a, b, c, d, e, _⟩ := mask_aux k L hk m1 m2 h1 h2
  exact ⟨k', a, b, c, d, e⟩

/-- Without masks nothing changes. -/
theorem mask_none [Zero α] (k : Kernel α) :
    k.mask none none = .ok { k with mask1 := none, mask2 := none } := by
  unfold Kernel.mask
  simp only [maskProd, bind, Except.bind, pure, Except.pure, maskArr]
  cases k.cov2 <;> cases k.ntk <;> rfl

/-- One mask and a kernel of one set of inputs with itself (no `cov2`): the mask serves both sides. -/
theorem mask_symmetric [Zero α] (k : Kernel α) (L : Logical α) (hk : k.Stores L) (m : Arr Bool)
    (h : MaskShape m k.batchAxis k.channelAxis L.n1 L.S1) (hn : L.n2 = L.n1) (hS : L.S2 = L.S1)
    (hc : k.cov2 = none) :
    ∃ k', k.mask (some m) none = .ok k' ∧
      k'.Stores (maskL L (Masked m k.batchAxis k.channelAxis)
        (Masked m k.batchAxis k.channelAxis)) ∧
      k'.static = k.static ∧ k'.mask1 = some m ∧ k'.mask2 = none := by
  obtain ⟨k', e1, e2, e3, e4, e5⟩ := mask_zeroes k L hk m m h (by rw [hn, hS]; exact h)
  refine ⟨{ k' with mask2 := none }, ?_, ⟨e2.nngp, e2.cov1, e2.cov2, e2.ntk⟩, e3, e4, rfl⟩
  have hp : maskProd k (some m) none 2 = maskProd k (some m) (some m) 2 := by
    unfold maskProd
    simp only [bind, Except.bind, pure, Except.pure]
    cases maskReshape k m <;> rfl
  unfold Kernel.mask at e1 ⊢
  simp only [bind, Except.bind, pure, Except.pure] at e1 ⊢
  rw [hp]
  cases h11 : maskProd k (some m) (some m) k.batchNdim with
  | error e => rw [h11] at e1; simp at e1
  | ok z11 =>
    rw [h11] at e1
    simp only at e1 ⊢
    cases h12 : maskProd k (some m) (some m) 2 with
    | error e => rw [h12] at e1; simp at e1
    | ok z12 =>
      rw [h12] at e1
      simp only [Except.ok.injEq] at e1 ⊢
      subst e1
      simp [hc]

/-- A mask for the first inputs only: the code masks the second inputs with the mask of the first, also
if they are other inputs. -/
theorem second_mask_missing [Zero α] (k : Kernel α) (L : Logical α) (hk : k.Stores L) (m : Arr Bool)
    (h : MaskShape m k.batchAxis k.channelAxis L.n1 L.S1) (hn : L.n2 = L.n1) (hS : L.S2 = L.S1) :
    ∃ k', k.mask (some m) none = .ok k' ∧
      Holds k'.nngp [L.n1, L.n2] L.S1 L.S2 k.diagonalSpatial k.isReversed
        (maskL L (Masked m k.batchAxis k.channelAxis) (Masked m k.batchAxis k.channelAxis)).k12 := by
  obtain ⟨z, e, _⟩ := maskProd_self k m _ _ h
  obtain ⟨w, e', hw⟩ := maskProd_ok k m m L.n1 L.n2 L.S1 L.S2 h (by rw [hn, hS]; exact h)
    hk.nngp.rank hk.nngp.square
  have hp : maskProd k (some m) none 2 = maskProd k (some m) (some m) 2 := by
    unfold maskProd
    simp only [bind, Except.bind, pure, Except.pure]
    cases maskReshape k m <;> rfl
  unfold Kernel.mask
  simp only [e, hp, e', bind, Except.bind, pure, Except.pure]
  exact ⟨_, rfl, maskArr_holds (by simp) hk.nngp hw⟩

/-- Masking twice with the same masks is masking once. -/
theorem mask_idempotent [Zero α] (k : Kernel α) (L : Logical α) (hk : k.Stores L) (m1 m2 : Arr Bool)
    (h1 : MaskShape m1 k.batchAxis k.channelAxis L.n1 L.S1)
    (h2 : MaskShape m2 k.batchAxis k.channelAxis L.n2 L.S2) :
    ∃ k' k'', k.mask (some m1) (some m2) = .ok k' ∧ k'.mask (some m1) (some m2) = .ok k'' ∧
      k''.nngp ≋ k'.nngp ∧ k''.cov1 ≋ k'.cov1 ∧ OptRel (· ≋ ·) k''.cov2 k'.cov2 ∧
      OptRel (· ≋ ·) k''.ntk k'.ntk ∧ k''.static = k'.static := by
  obtain ⟨k', a1, a2, a3, -, -, a4⟩ := mask_aux k L hk m1 m2 h1 h2
  have hba : k'.batchAxis = k.batchAxis := congrArg Static.batchAxis a3
  have hca : k'.channelAxis = k.channelAxis := congrArg Static.channelAxis a3
  obtain ⟨k'', b1, b2, b3, -, -, b4⟩ := mask_aux k' _ a2 m1 m2 (by rw [hba, hca]; exact h1)
    (by rw [hba, hca]; exact h2)
  have hL : maskL (maskL L (Masked m1 k.batchAxis k.channelAxis)
        (Masked m2 k.batchAxis k.channelAxis)) (Masked m1 k'.batchAxis k'.channelAxis)
        (Masked m2 k'.batchAxis k'.channelAxis) = maskL L (Masked m1 k.batchAxis k.channelAxis)
        (Masked m2 k.batchAxis k.channelAxis) := by
    rw [hba, hca]
    unfold maskL
    simp only [Option.map_map, Logical.mk.injEq, true_and]
    refine ⟨?_, ?_, ?_, ?_⟩
    · funext b p q; split_ifs <;> rfl
    · funext b p q; split_ifs <;> rfl
    · congr 1; funext F b p q; simp only [Function.comp]; split_ifs <;> rfl
    · congr 1; funext F b p q; simp only [Function.comp]; split_ifs <;> rfl
  rw [hL] at b2
  obtain ⟨c1, c2, c3, c4⟩ := stores_eqv b2 a2 b3 b4 a4
  exact ⟨k', k'', a1, b1, c1, c2, c3, c4, b3⟩

/-- Only the second mask: `AttributeError`. -/
theorem first_mask_missing [Zero α] (k : Kernel α) (n : Nat) (S : List Nat) (m : Arr Bool)
    (h : MaskShape m k.batchAxis k.channelAxis n S) :
    k.mask none (some m) = .error .attributeError := by
  obtain ⟨z, e, _⟩ := maskProd_self k m n S h
  obtain ⟨w, e', _⟩ := maskReshape_ok k m n S h
  unfold Kernel.mask
  have e0 : maskProd k none none k.batchNdim = .ok none := rfl
  have e1 : maskProd k none (some m) 2 = .error .attributeError := by
    simp [maskProd, e', bind, Except.bind]
  simp only [e0, e, e1, bind, Except.bind]

section Examples
/-- Two examples with a 1 x 2 image. -/
def exL : Logical ℤ where
  n1 := 2
  n2 := 2
  S1 := [1, 2]
  S2 := [1, 2]
  k12 := fun b p q => 1 + b.sum + 10 * p.sum + 100 * q.sum
  k11 := fun b p q => 7 + b.sum + 10 * (p.sum * q.sum)
  k22 := some fun b p q => 9 + b.sum + 10 * (p.sum + q.sum)
  ntk := some fun b p q => 3 + b.sum - p.sum * q.sum

/-- Masks the second pixel of the first example. -/
def exM : Arr Bool := ofList [2, 1, 2, 1] [false, true, false, false]

/-- Masks the first pixel of the second example. -/
def exM2 : Arr Bool := ofList [2, 1, 2, 1] [false, false, true, false]

example (db ds rev : Bool) : ∃ k', (exL.encode db ds rev).mask (some exM) (some exM2) = .ok k' ∧
    k'.Stores (maskL exL (Masked exM 0 3) (Masked exM2 0 3)) := by
  obtain ⟨k', h1, h2, _⟩ := mask_zeroes _ _ (exL.encode_stores db ds rev (fun _ => rfl) rfl) exM exM2
    ⟨show 0 ≠ 3 by decide, show 0 < 4 by decide, show 3 < 4 by decide, rfl⟩
    ⟨show 0 ≠ 3 by decide, show 0 < 4 by decide, show 3 < 4 by decide, rfl⟩
  exact ⟨k', h1, h2⟩

example : (maskL exL (Masked exM 0 3) (Masked exM2 0 3)).k12 [0, 1] [0, 1] [0, 1] = 0 ∧
    (maskL exL (Masked exM 0 3) (Masked exM2 0 3)).k12 [0, 1] [0, 0] [0, 1] ≠ 0 ∧
    (maskL exL (Masked exM 0 3) (Masked exM2 0 3)).k12 [0, 1] [0, 0] [0, 0] = 0 := by decide

/-- Of the entry that should stay, the code makes zero: the second pixel of the first example of the second
inputs is not masked. -/
theorem second_mask_missing_wrong :
    ∃ k', (exL.encode true true false).mask (some exM) none = .ok k' ∧
      k'.nngp.get [1, 0, 0, 1] = 0 ∧
      (maskL exL (Masked exM 0 3) (fun _ _ => false)).k12 [1, 0] [0, 1] [0, 1] ≠ 0 := by
  obtain ⟨k', h1, h2⟩ := second_mask_missing _ _
    (exL.encode_stores true true false (fun _ => rfl) rfl) exM
    ⟨by decide, by decide, by decide, rfl⟩ rfl rfl
  refine ⟨k', h1, ?_, by decide⟩
  exact h2.get [1, 0] [0, 1] [0, 1] (by decide) (by decide) (by decide) (fun _ => rfl)
end Examples

end NT.C25
