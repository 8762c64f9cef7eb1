import Verif.Lemmas.Index

/-!
# C27: indexing a `Kernel`
-/

namespace NT.C27
open NT Arr Kernel Utils Spec

variable {α : Type}

/-- NumPy indexing with `l` takes activations with batch axis `ba`, channel axis `ca`, `n` examples,
spatial shape `S` (any number of channels) to activations with batch axis `ba'`, channel axis `ca'`, `n'`
examples, spatial shape `S'`; the result has at example `i`, position `p` what was at example `σ i`,
position `τ p`. -/
def Indexes (l : List Entry) (ba ca ba' ca' n n' : Nat) (S S' : List Nat) (σ : Nat → Nat)
    (τ : List Nat → List Nat) : Prop :=
  ∀ (γ : Type) (x : Arr γ) (c : Nat), x.shape = actIdx ba ca n c S →
    ∃ y, npIndex x l = .ok y ∧ y.shape = actIdx ba' ca' n' c S' ∧
      ∀ i j p, i < n' → j < c → InRange p S' → σ i < n ∧ InRange (τ p) S ∧
        y.get (actIdx ba' ca' i j p) = x.get (actIdx ba ca (σ i) j (τ p))

/-- `L'` is `L` with both inputs re-indexed. -/
structure Reindexed (L L' : Logical α) (σ1 σ2 : Nat → Nat) (τ1 τ2 : List Nat → List Nat) : Prop where
  k12 : ∀ i j p q, i < L'.n1 → j < L'.n2 → InRange p L'.S1 → InRange q L'.S2 →
    L'.k12 [i, j] p q = L.k12 [σ1 i, σ2 j] (τ1 p) (τ2 q)
  k11 : ∀ i j p q, i < L'.n1 → j < L'.n1 → InRange p L'.S1 → InRange q L'.S1 →
    L'.k11 [i, j] p q = L.k11 [σ1 i, σ1 j] (τ1 p) (τ1 q)
  k22 : OptRel (fun G F => ∀ i j p q, i < L'.n2 → j < L'.n2 → InRange p L'.S2 → InRange q L'.S2 →
    G [i, j] p q = F [σ2 i, σ2 j] (τ2 p) (τ2 q)) L'.k22 L.k22
  ntk : OptRel (fun G F => ∀ i j p q, i < L'.n1 → j < L'.n2 → InRange p L'.S1 → InRange q L'.S2 →
    G [i, j] p q = F [σ1 i, σ2 j] (τ1 p) (τ2 q)) L'.ntk L.ntk

/-! ### Indexing activations -/

lemma npIndexShape_one_slice (n m : Nat) (a b c : Option Int) (h : sliceLen n a b c = .ok m) :
    npIndexShape [n] [.slice a b c] = .ok [m] := by
  simp [npIndexShape, h, bind, Except.bind, pure, Except.pure]

lemma sliceAt_full (n k : Nat) : sliceAt n none none none k = k := by
  simp [sliceAt, sliceIndices]

/-- The three-part version of `Indexes`. -/
lemma npIndex_three {γ : Type} (x : Arr γ) (A B C : List Entry) (SA SB SC : List Nat) (e f : Entry)
    (u v : Nat) (oA oB oC ou ov : List Nat)
    (hx : x.shape = SA ++ u :: (SB ++ v :: SC))
    (hA : npIndexShape SA A = .ok oA) (hB : npIndexShape SB B = .ok oB) (hC : npIndexShape SC C = .ok oC)
    (he : npIndexShape [u] [e] = .ok ou) (hf : npIndexShape [v] [f] = .ok ov) :
    ∃ y, npIndex x (A ++ e :: (B ++ f :: C)) = .ok y ∧ y.shape = oA ++ (ou ++ (oB ++ (ov ++ oC))) ∧
      ∀ pA pB pC pu pv, pA.length = oA.length → pB.length = oB.length → pu.length = ou.length →
        pv.length = ov.length →
        y.get (pA ++ (pu ++ (pB ++ (pv ++ pC)))) = x.get (sourceIdx SA A pA ++ (sourceIdx [u] [e] pu ++
          (sourceIdx SB B pB ++ (sourceIdx [v] [f] pv ++ sourceIdx SC C pC)))) := by
  have lA := (npIndexShape_length hA).1
  have lB := (npIndexShape_length hB).1
  have hsh : npIndexShape (SA ++ ([u] ++ (SB ++ ([v] ++ SC)))) (A ++ ([e] ++ (B ++ ([f] ++ C)))) =
      .ok (oA ++ (ou ++ (oB ++ (ov ++ oC)))) := by
    refine (npIndexShape_append lA).2 ⟨_, _, hA, ?_, rfl⟩
    refine (npIndexShape_append rfl).2 ⟨_, _, he, ?_, rfl⟩
    refine (npIndexShape_append lB).2 ⟨_, _, hB, ?_, rfl⟩
    exact (npIndexShape_append rfl).2 ⟨_, _, hf, hC, rfl⟩
  have hx' : x.shape = SA ++ ([u] ++ (SB ++ ([v] ++ SC))) := hx
  have hidx : A ++ e :: (B ++ f :: C) = A ++ ([e] ++ (B ++ ([f] ++ C))) := rfl
  refine ⟨⟨oA ++ (ou ++ (oB ++ (ov ++ oC))),
    fun o => x.get (sourceIdx x.shape (A ++ e :: (B ++ f :: C)) o)⟩, ?_, rfl, ?_⟩
  · unfold npIndex
    rw [hidx]
    simp only [hx', hsh, bind, Except.bind, pure, Except.pure]
  · intro pA pB pC pu pv h1 h2 h3 h4
    simp only
    rw [hx', hidx, sourceIdx_append hA h1, sourceIdx_append he h3, sourceIdx_append hB h2,
      sourceIdx_append hf h4]

lemma npIndexShape_full (c : Nat) : npIndexShape [c] [full] = .ok [c] :=
  npIndexShape_one_slice c c none none none (C21.sliceLen_full c)

lemma take_exact {β : Type} (A R : List β) : (A ++ R).take A.length = A := by simp

lemma countP_take_three (A B C : List Entry) (e f : Entry) (he : isIntEntry e = false) :
    ((A ++ e :: (B ++ f :: C)).take A.length).countP isIntEntry = A.countP isIntEntry ∧
    ((A ++ e :: (B ++ f :: C)).take (A.length + 1 + B.length)).countP isIntEntry =
      A.countP isIntEntry + B.countP isIntEntry := by
  constructor
  · rw [take_exact]
  · have : A ++ e :: (B ++ f :: C) = (A ++ e :: B) ++ f :: C := by simp
    rw [this, show A.length + 1 + B.length = (A ++ e :: B).length by simp; omega, take_exact]
    simp [List.countP_append, he]

/-- One set of activations: shape and coordinates after indexing. -/
lemma indexes_of (l : List Entry) (ba ca n c : Nat) (S out : List Nat) (a b s : Option Int)
    (hne : ba ≠ ca) (hb : ba < S.length + 2) (hc : ca < S.length + 2)
    (hlb : l[ba]? = some (.slice a b s)) (hlc : l[ca]? = some full)
    (hout : npIndexShape (actIdx ba ca n c S) l = .ok out) :
    ∃ sp n' S', sliceLen n a b s = .ok n' ∧ npIndexShape S sp = .ok S' ∧
      out = actIdx (shiftAxis l ba) (shiftAxis l ca) n' c S' ∧
      (∀ k : Kernel α, k.batchAxis = ba → k.channelAxis = ca → k.spatialIdx l = sp) ∧
      Indexes l ba ca (shiftAxis l ba) (shiftAxis l ca) n n' S S' (sliceAt n a b s) (sourceIdx S sp) := by
  have hll : l.length = S.length + 2 := by
    rw [← (npIndexShape_length hout).1, actIdx_length _ _ _ _ _ hne hb hc]
  obtain ⟨A, B, C, x, y, hl, hcase⟩ := exists_actIdx ba ca hne l S.length hll hb hc
  have hsp : ∀ k : Kernel α, k.batchAxis = ba → k.channelAxis = ca → k.spatialIdx l = A ++ B ++ C := by
    intro k hkb hkc
    unfold spatialIdx
    rw [hkb, hkc, hl]
    have key : ∀ (m : List Entry) (o : Nat), (∀ j, o ≤ j → j < o + m.length → j ≠ ba ∧ j ≠ ca) →
        ((m.zipIdx o).filter fun p => decide (p.2 ≠ ba ∧ p.2 ≠ ca)).map (·.1) = m := by
      intro m o hm
      rw [List.filter_eq_self.2]
      · exact List.zipIdx_map_fst _ _
      · intro p hp
        have := List.mem_zipIdx hp
        simp only [decide_eq_true_eq]
        exact hm p.2 (by omega) (by omega)
    have hAl : A.length < l.length := by rw [hl]; simp
    rw [List.zipIdx_append, List.zipIdx_cons, List.zipIdx_append, List.zipIdx_cons]
    rw [List.filter_append, List.filter_cons, List.filter_append, List.filter_cons]
    rw [if_neg, if_neg]
    · rw [List.map_append, List.map_append, key A 0, key B, key C]
      · simp
      · intro j h1 h2
        rcases hcase with ⟨e1, e2, -⟩ | ⟨e1, e2, -⟩ <;> omega
      · intro j h1 h2
        rcases hcase with ⟨e1, e2, -⟩ | ⟨e1, e2, -⟩ <;> omega
      · intro j h1 h2
        rcases hcase with ⟨e1, e2, -⟩ | ⟨e1, e2, -⟩ <;> omega
    · rcases hcase with ⟨e1, e2, -⟩ | ⟨e1, e2, -⟩ <;> simp <;> omega
    · rcases hcase with ⟨e1, e2, -⟩ | ⟨e1, e2, -⟩ <;> simp <;> omega
  have gA : ∀ R, (A ++ x :: R)[A.length]? = some x := by intro R; simp
  have gB : (A ++ x :: (B ++ y :: C))[A.length + 1 + B.length]? = some y := by
    have : A ++ x :: (B ++ y :: C) = (A ++ x :: B) ++ y :: C := by simp
    rw [this, show A.length + 1 + B.length = (A ++ x :: B).length by simp; omega]
    simp
  -- the spatial shape in the same three parts
  obtain ⟨SA, SB, SC, hS, lA, lB⟩ : ∃ SA SB SC, S = SA ++ SB ++ SC ∧ SA.length = A.length ∧
      SB.length = B.length := by
    have : A.length + B.length ≤ S.length := by
      have := congrArg List.length hl
      simp at this
      omega
    refine ⟨S.take A.length, (S.drop A.length).take B.length, (S.drop A.length).drop B.length, ?_, ?_, ?_⟩
    · simp
    · simp; omega
    · simp; omega
  have lC : SC.length = C.length := by
    have h1 := congrArg List.length hl
    have h2 := congrArg List.length hS
    simp at h1 h2
    omega
  refine ⟨A ++ B ++ C, ?_⟩
  -- the general computation, `e`, `f` the entries at the two special axes
  have splitOut : ∀ u v, npIndexShape (SA ++ u :: (SB ++ v :: SC)) (A ++ x :: (B ++ y :: C)) = .ok out →
      ∃ oA ou oB ov oC, npIndexShape SA A = .ok oA ∧ npIndexShape [u] [x] = .ok ou ∧
        npIndexShape SB B = .ok oB ∧ npIndexShape [v] [y] = .ok ov ∧ npIndexShape SC C = .ok oC ∧
        out = oA ++ (ou ++ (oB ++ (ov ++ oC))) := by
    intro u v h
    obtain ⟨oA, r, h1, h2, rfl⟩ := (npIndexShape_append lA).1 h
    obtain ⟨ou, r, h3, h4, rfl⟩ := (npIndexShape_append (s := [u]) (e := [x]) rfl).1 h2
    obtain ⟨oB, r, h5, h6, rfl⟩ := (npIndexShape_append lB).1 h4
    obtain ⟨ov, r, h7, h8, rfl⟩ := (npIndexShape_append (s := [v]) (e := [y]) rfl).1 h6
    exact ⟨oA, ou, oB, ov, r, h1, h3, h5, h7, h8, rfl⟩
  have lout : ∀ {T : List Nat} {E : List Entry} {o : List Nat}, npIndexShape T E = .ok o →
      o.length = E.length - E.countP isIntEntry := by
    intro T E o h
    have := (npIndexShape_length h).2
    omega
  have cle : ∀ E : List Entry, E.countP isIntEntry ≤ E.length := fun E => List.countP_le_length
  have spOut : ∀ oA oB oC, npIndexShape SA A = .ok oA → npIndexShape SB B = .ok oB →
      npIndexShape SC C = .ok oC → npIndexShape S (A ++ B ++ C) = .ok (oA ++ oB ++ oC) := by
    intro oA oB oC h1 h2 h3
    rw [hS]
    refine (npIndexShape_append (by simp [lA, lB])).2 ⟨_, _, ?_, h3, rfl⟩
    exact (npIndexShape_append lA).2 ⟨_, _, h1, h2, rfl⟩
  have srcAll : ∀ oA oB oC pA pB pC, npIndexShape SA A = .ok oA → npIndexShape SB B = .ok oB →
      npIndexShape SC C = .ok oC → pA.length = oA.length → pB.length = oB.length →
      sourceIdx S (A ++ B ++ C) (pA ++ pB ++ pC) =
        sourceIdx SA A pA ++ sourceIdx SB B pB ++ sourceIdx SC C pC := by
    intro oA oB oC pA pB pC h1 h2 h3 h4 h5
    have h12 : npIndexShape (SA ++ SB) (A ++ B) = .ok (oA ++ oB) :=
      (npIndexShape_append lA).2 ⟨_, _, h1, h2, rfl⟩
    rw [hS, sourceIdx_append h12 (by simp [h4, h5]), sourceIdx_append h1 h4]
  have srcLen : ∀ {T : List Nat} {E : List Entry} {o p : List Nat}, npIndexShape T E = .ok o →
      InRange p o → (sourceIdx T E p).length = T.length := by
    intro T E o p h hp
    exact (sourceIdx_inRange h hp).length
  rcases hcase with ⟨e1, e2, -⟩ | ⟨e1, e2, -⟩
  · -- batch axis first
    rw [hl] at hlb hlc
    rw [e1, gA] at hlb
    rw [e2, gB] at hlc
    simp only [Option.some.injEq] at hlb hlc
    subst hlb hlc
    have act : ∀ u v, actIdx ba ca u v S = SA ++ u :: (SB ++ v :: SC) := by
      intro u v
      rw [hS, e1, e2, ← lA, ← lB]
      exact (actIdx_join SA SB SC u v).1
    rw [act, hl] at hout
    obtain ⟨oA, ou, oB, ov, oC, h1, h2, h3, h4, h5, ho⟩ := splitOut _ _ hout
    have hov : ov = [c] := by
      rw [npIndexShape_full] at h4
      exact (Except.ok.inj h4).symm
    obtain ⟨n', hn', hou⟩ : ∃ n', sliceLen n a b s = .ok n' ∧ ou = [n'] := by
      cases hh : sliceLen n a b s with
      | error z => simp [npIndexShape, hh, bind, Except.bind] at h2
      | ok n' =>
        rw [npIndexShape_one_slice n n' a b s hh] at h2
        exact ⟨n', rfl, (Except.ok.inj h2).symm⟩
    obtain ⟨s1, s2⟩ := countP_take_three A B C (.slice a b s) full rfl
    have cA := cle A
    have cB := cle B
    have ax1 : shiftAxis l ba = oA.length := by
      rw [shiftAxis_eq, hl, e1, s1, lout h1]
    have ax2 : shiftAxis l ca = oA.length + 1 + oB.length := by
      rw [shiftAxis_eq, hl, e2, s2, lout h1, lout h3]
      omega
    refine ⟨n', oA ++ oB ++ oC, hn', spOut _ _ _ h1 h3 h5, ?_, hsp, ?_⟩
    · rw [ax1, ax2, (actIdx_join oA oB oC n' c).1, ho, hou, hov]
      rfl
    · intro γ X c' hX
      rw [act] at hX
      obtain ⟨Y, y1, y2, y3⟩ := npIndex_three X A B C SA SB SC (.slice a b s) full n c' oA oB oC ou [c']
        hX h1 h3 h5 h2 (npIndexShape_full c')
      refine ⟨Y, by rw [hl]; exact y1, ?_, ?_⟩
      · rw [y2, ax1, ax2, (actIdx_join oA oB oC n' c').1, hou]
        rfl
      · intro i j p hi hj hp
        obtain ⟨pAB, pC, rfl, hpAB, hpC⟩ := inRange_append_right hp
        obtain ⟨pA, pB, rfl, hpA, hpB⟩ := inRange_append_right hpAB
        refine ⟨sliceAt_lt n a b s n' i hn' hi, sourceIdx_inRange (spOut _ _ _ h1 h3 h5) hp, ?_⟩
        rw [srcAll oA oB oC pA pB pC h1 h3 h5 hpA.length hpB.length]
        rw [ax1, ax2, ← hpA.length, ← hpB.length, (actIdx_join pA pB pC i j).1]
        have := y3 pA pB pC [i] [j] hpA.length hpB.length (by rw [hou]; rfl) rfl
        simp only [List.singleton_append] at this
        rw [this]
        rw [e1, e2, ← lA, ← lB, ← srcLen h1 hpA, ← srcLen h3 hpB, (actIdx_join _ _ _ _ _).1]
        simp only [sourceIdx, full, sliceAt_full, List.singleton_append]
  · -- channel axis first
    rw [hl] at hlb hlc
    rw [e1, gA] at hlc
    rw [e2, gB] at hlb
    simp only [Option.some.injEq] at hlb hlc
    subst hlb hlc
    have act : ∀ u v, actIdx ba ca u v S = SA ++ v :: (SB ++ u :: SC) := by
      intro u v
      rw [hS, e1, e2, ← lA, ← lB]
      exact (actIdx_join SA SB SC u v).2
    rw [act, hl] at hout
    obtain ⟨oA, ou, oB, ov, oC, h1, h2, h3, h4, h5, ho⟩ := splitOut _ _ hout
    have hou : ou = [c] := by
      rw [npIndexShape_full] at h2
      exact (Except.ok.inj h2).symm
    obtain ⟨n', hn', hov⟩ : ∃ n', sliceLen n a b s = .ok n' ∧ ov = [n'] := by
      cases hh : sliceLen n a b s with
      | error z => simp [npIndexShape, hh, bind, Except.bind] at h4
      | ok n' =>
        rw [npIndexShape_one_slice n n' a b s hh] at h4
        exact ⟨n', rfl, (Except.ok.inj h4).symm⟩
    obtain ⟨s1, s2⟩ := countP_take_three A B C full (.slice a b s) rfl
    have cA := cle A
    have cB := cle B
    have ax1 : shiftAxis l ca = oA.length := by
      rw [shiftAxis_eq, hl, e1, s1, lout h1]
    have ax2 : shiftAxis l ba = oA.length + 1 + oB.length := by
      rw [shiftAxis_eq, hl, e2, s2, lout h1, lout h3]
      omega
    refine ⟨n', oA ++ oB ++ oC, hn', spOut _ _ _ h1 h3 h5, ?_, hsp, ?_⟩
    · rw [ax1, ax2, (actIdx_join oA oB oC n' c).2, ho, hou, hov]
      rfl
    · intro γ X c' hX
      rw [act] at hX
      obtain ⟨Y, y1, y2, y3⟩ := npIndex_three X A B C SA SB SC full (.slice a b s) c' n oA oB oC [c'] ov
        hX h1 h3 h5 (npIndexShape_full c') h4
      refine ⟨Y, by rw [hl]; exact y1, ?_, ?_⟩
      · rw [y2, ax1, ax2, (actIdx_join oA oB oC n' c').2, hov]
        rfl
      · intro i j p hi hj hp
        obtain ⟨pAB, pC, rfl, hpAB, hpC⟩ := inRange_append_right hp
        obtain ⟨pA, pB, rfl, hpA, hpB⟩ := inRange_append_right hpAB
        refine ⟨sliceAt_lt n a b s n' i hn' hi, sourceIdx_inRange (spOut _ _ _ h1 h3 h5) hp, ?_⟩
        rw [srcAll oA oB oC pA pB pC h1 h3 h5 hpA.length hpB.length]
        rw [ax1, ax2, ← hpA.length, ← hpB.length, (actIdx_join pA pB pC i j).2]
        have := y3 pA pB pC [j] [i] hpA.length hpB.length rfl (by rw [hov]; rfl)
        simp only [List.singleton_append] at this
        rw [this]
        rw [e1, e2, ← lA, ← lB, ← srcLen h1 hpA, ← srcLen h3 hpB, (actIdx_join _ _ _ _ _).2]
        simp only [sourceIdx, full, sliceAt_full, List.singleton_append]

lemma canonical_self (l : List Entry) (h : Entry.ellipsis ∉ l) : canonicalizeIdx (.tuple l) l.length = l := by
  unfold canonicalizeIdx
  simp only
  rw [C21.fold_no_ellipsis l.length l h]
  simp

lemma sliceShapeLoop_known : ∀ (l : List Entry) (sh : List Nat) (a m : Nat),
    sliceShapeLoop a m l (sh.map Int.ofNat) = .ok (sh, [])
  | [], sh, a, m => by
    simp only [sliceShapeLoop, List.map_map]
    have : (Int.toNat ∘ Int.ofNat : Nat → Nat) = id := rfl
    rw [this, List.map_id]
  | _ :: _, [], a, m => by simp [sliceShapeLoop]
  | e :: l, n :: sh, a, m => by
    have h : ¬ ((n : Int) < 0) := by omega
    simp [sliceShapeLoop, sliceShapeLoop_known l sh, bind, Except.bind, pure, Except.pure, h]

lemma sliceShape_known (l : List Entry) (sh out : List Nat) (h : Entry.ellipsis ∉ l)
    (ho : npIndexShape sh l = .ok out) :
    sliceShape (sh.map Int.ofNat) (.tuple l) = .ok (out.map Int.ofNat) := by
  unfold sliceShape
  have hl := (npIndexShape_length ho).1
  rw [List.length_map, hl, canonical_self l h]
  simp [sliceShapeLoop_known, ho, bind, Except.bind, pure, Except.pure]

lemma no_ellipsis {s : List Nat} {e : List Entry} {o : List Nat} (h : npIndexShape s e = .ok o) :
    Entry.ellipsis ∉ e := by
  intro hm
  obtain ⟨A, B, rfl⟩ := List.append_of_mem hm
  obtain ⟨sA, sB, rfl, hA⟩ : ∃ sA sB, s = sA ++ sB ∧ sA.length = A.length := by
    have := (npIndexShape_length h).1
    simp at this
    exact ⟨s.take A.length, s.drop A.length, by simp, by simp; omega⟩
  obtain ⟨a, b, -, hb, -⟩ := (npIndexShape_append hA).1 h
  cases sB <;> simp [npIndexShape] at hb

/-- The content re-indexed: examples by the slice `a:b:s`, positions by the entries `sp`. -/
def reindexed (L : Logical α) (a b s : Option Int) (sp : List Entry) (n1' n2' : Nat) (S1' S2' : List Nat) : Logical α where
  n1 := n1'
  n2 := n2'
  S1 := S1'
  S2 := S2'
  k12 := fun x p q => L.k12 [sliceAt L.n1 a b s (x.getD 0 0), sliceAt L.n2 a b s (x.getD 1 0)] (sourceIdx L.S1 sp p) (sourceIdx L.S2 sp q)
  k11 := fun x p q => L.k11 [sliceAt L.n1 a b s (x.getD 0 0), sliceAt L.n1 a b s (x.getD 1 0)] (sourceIdx L.S1 sp p) (sourceIdx L.S1 sp q)
  k22 := L.k22.map fun F x p q => F [sliceAt L.n2 a b s (x.getD 0 0), sliceAt L.n2 a b s (x.getD 1 0)] (sourceIdx L.S2 sp p) (sourceIdx L.S2 sp q)
  ntk := L.ntk.map fun F x p q => F [sliceAt L.n1 a b s (x.getD 0 0), sliceAt L.n2 a b s (x.getD 1 0)] (sourceIdx L.S1 sp p) (sourceIdx L.S2 sp q)

/-- The entries of an index at the axes other than `ba` and `ca`. -/
def otherEntries (l : List Entry) (ba ca : Nat) : List Entry := (l.zipIdx.filter fun p => decide (p.2 ≠ ba ∧ p.2 ≠ ca)).map (·.1)

/-- Indexing a kernel in terms of its content. -/
lemma getItem_content (k : Kernel α) (L : Logical α) (hk : k.Stores L) (idx : Idx) (l : List Entry)
    (hl : C21.Means k.shape1.length idx l) (c1 c2 : Nat) (a b s : Option Int)
    (hne : k.batchAxis ≠ k.channelAxis) (hb : k.batchAxis < L.S1.length + 2)
    (hc : k.channelAxis < L.S1.length + 2)
    (hs1 : k.shape1 = actIdx k.batchAxis k.channelAxis L.n1 c1 L.S1)
    (hs2 : k.shape2 = actIdx k.batchAxis k.channelAxis L.n2 c2 L.S2)
    (hm1 : ∀ m, k.mask1 = some m → m.shape = actIdx k.batchAxis k.channelAxis L.n1 1 L.S1)
    (hm2 : ∀ m, k.mask2 = some m → m.shape = actIdx k.batchAxis k.channelAxis L.n2 1 L.S2)
    (hlb : l[k.batchAxis]? = some (.slice a b s)) (hlc : l[k.channelAxis]? = some full)
    (out1 out2 : List Nat) (ho1 : npIndexShape k.shape1 l = .ok out1)
    (ho2 : npIndexShape k.shape2 l = .ok out2) :
    ∃ k' n1' n2' S1' S2', k.getItem idx = .ok k' ∧ sliceLen L.n1 a b s = .ok n1' ∧ sliceLen L.n2 a b s = .ok n2' ∧
      npIndexShape L.S1 (otherEntries l k.batchAxis k.channelAxis) = .ok S1' ∧ npIndexShape L.S2 (otherEntries l k.batchAxis k.channelAxis) = .ok S2' ∧
      k'.Stores (reindexed L a b s (otherEntries l k.batchAxis k.channelAxis) n1' n2' S1' S2') ∧
      Indexes l k.batchAxis k.channelAxis (shiftAxis l k.batchAxis) (shiftAxis l k.channelAxis) L.n1 n1' L.S1 S1' (sliceAt L.n1 a b s)
        (sourceIdx L.S1 (otherEntries l k.batchAxis k.channelAxis)) ∧
      Indexes l k.batchAxis k.channelAxis (shiftAxis l k.batchAxis) (shiftAxis l k.channelAxis) L.n2 n2' L.S2 S2' (sliceAt L.n2 a b s)
        (sourceIdx L.S2 (otherEntries l k.batchAxis k.channelAxis)) ∧
      out1 = actIdx (shiftAxis l k.batchAxis) (shiftAxis l k.channelAxis) n1' c1 S1' ∧
      out2 = actIdx (shiftAxis l k.batchAxis) (shiftAxis l k.channelAxis) n2' c2 S2' ∧
      OptRel (fun m m' => npIndex m l = .ok m') k.mask1 k'.mask1 ∧
      OptRel (fun m m' => npIndex m l = .ok m') k.mask2 k'.mask2 ∧
      k'.static = { k.static with
        batchAxis := shiftAxis l k.batchAxis, channelAxis := shiftAxis l k.channelAxis, shape1 := out1, shape2 := out2 } ∧
      k'.x1IsX2 = k.x1IsX2 ∧ (∀ z, k'.ntk = some z → z.shape = [] → k.ntk = some z) := by
  have hr := hk.nngp.rank
  have hell := no_ellipsis ho1
  have ho1' := ho1
  have ho2' := ho2
  rw [hs1] at ho1'
  rw [hs2] at ho2'
  obtain ⟨sp, n1', S1', e1, e2, e3, e4, i1⟩ := indexes_of (α := α) l k.batchAxis k.channelAxis L.n1 c1 L.S1
    out1 a b s hne hb hc hlb hlc ho1'
  obtain ⟨sp', n2', S2', f1, f2, f3, f4, i2⟩ := indexes_of (α := α) l k.batchAxis k.channelAxis L.n2 c2
    L.S2 out2 a b s hne (hr ▸ hb) (hr ▸ hc) hlb hlc ho2'
  have hsp : k.spatialIdx l = sp := e4 k rfl rfl
  have : sp' = sp := (f4 k rfl rfl).symm.trans hsp
  subst this
  have hB : ∀ n m n' m', sliceLen n a b s = .ok n' → sliceLen m a b s = .ok m' →
      npIndexShape [n, m] [.slice a b s, .slice a b s] = .ok [n', m'] := by
    intro n m n' m' h1 h2
    simp [npIndexShape, h1, h2, bind, Except.bind, pure, Except.pure]
  have hBc : ∀ n n', sliceLen n a b s = .ok n' → npIndexShape (batchShape k.diagonalBatch n)
      (if k.diagonalBatch then [.slice a b s] else [.slice a b s, .slice a b s]) =
        .ok (batchShape k.diagonalBatch n') := by
    intro n n' h
    cases k.diagonalBatch
    · exact hB n n n' n' h h
    · exact npIndexShape_one_slice n n' a b s h
  obtain ⟨z12, g1, g2⟩ := npIndex_holds hk.nngp [.slice a b s, .slice a b s] sp' (hB _ _ _ _ e1 f1) e2 f2
  obtain ⟨z11, g3, g4⟩ := npIndex_holds hk.cov1 _ sp' (hBc _ _ e1) e2 e2
  have srcB : ∀ n m (F : List Nat → List Nat → List Nat → α) x p q,
      InRange x (batchShape k.diagonalBatch m) →
      F (dbl (sourceIdx (batchShape k.diagonalBatch n)
        (if k.diagonalBatch then [.slice a b s] else [.slice a b s, .slice a b s]) x)) p q =
      F [sliceAt n a b s ((dbl x).getD 0 0), sliceAt n a b s ((dbl x).getD 1 0)] p q := by
    intro n m F x p q hx
    cases hd : k.diagonalBatch
    · rw [hd] at hx
      have hx' : InRange x [m, m] := hx
      obtain ⟨i, x', rfl, -, hx'⟩ := inRange_cons_right.1 hx'
      obtain ⟨j, x'', rfl, -, hx''⟩ := inRange_cons_right.1 hx'
      rw [inRange_nil_right] at hx''
      subst hx''
      rfl
    · rw [hd] at hx
      have hx' : InRange x [m] := hx
      obtain ⟨i, x', rfl, -, hx'⟩ := inRange_cons_right.1 hx'
      rw [inRange_nil_right] at hx'
      subst hx'
      rfl
  have srcP : ∀ n m (F : List Nat → List Nat → List Nat → α) x p q, InRange x [n, m] →
      F (sourceIdx [L.n1, L.n2] [.slice a b s, .slice a b s] x) p q =
      F [sliceAt L.n1 a b s (x.getD 0 0), sliceAt L.n2 a b s (x.getD 1 0)] p q := by
    intro n m F x p q hx
    obtain ⟨i, x', rfl, -, hx'⟩ := inRange_cons_right.1 hx
    obtain ⟨j, x'', rfl, -, hx''⟩ := inRange_cons_right.1 hx'
    rw [inRange_nil_right] at hx''
    subst hx''
    rfl
  have hsp2 : otherEntries l k.batchAxis k.channelAxis = sp' := hsp
  rw [hsp2]
  let L' : Logical α := reindexed L a b s sp' n1' n2' S1' S2'
  have h22 : ∃ z, onOpt (npIndex · ((if k.diagonalBatch then [.slice a b s] else
        [.slice a b s, .slice a b s]) ++
        if k.diagonalSpatial then rvE k.isReversed sp' else doubleTuple (rvE k.isReversed sp'))) k.cov2 =
        .ok z ∧
      OptRel (fun c F => Holds c (batchShape k.diagonalBatch n2') S2' S2' k.diagonalSpatial k.isReversed
        (fun b => F (dbl b))) z L'.k22 := by
    have := hk.cov2
    cases e : k.cov2 <;> cases e' : L.k22 <;> rw [e, e'] at this <;> simp only [OptRel] at this
    · exact ⟨none, rfl, by simp [L', reindexed, e', OptRel]⟩
    · obtain ⟨z, h1, h2⟩ := npIndex_holds this _ sp' (hBc _ _ f1) f2 f2
      refine ⟨some z, by simp only [onOpt, h1, Except.map], ?_⟩
      simp only [L', reindexed, e', OptRel, Option.map_some]
      exact h2.congr fun x p q hx _ _ => srcB L.n2 n2' _ x _ _ hx
  have hnt : ∃ z, indexNtk k.ntk ([.slice a b s, .slice a b s] ++
          if k.diagonalSpatial then rvE k.isReversed sp' else
            doubleTuple (rvE k.isReversed sp')) = .ok z ∧
      OptRel (fun c F => (c.shape = [] ∧ ∀ b p q, F b p q = c.get []) ∨
        Holds c [n1', n2'] S1' S2' k.diagonalSpatial k.isReversed F) z L'.ntk ∧
      (∀ y, z = some y → y.shape = [] → k.ntk = some y) := by
    have := hk.ntk
    cases e : k.ntk <;> cases e' : L.ntk <;> rw [e, e'] at this <;> simp only [OptRel] at this
    · exact ⟨none, rfl, by simp [L', reindexed, e', OptRel], by simp⟩
    · rename_i x F
      rcases this with ⟨h0, hF⟩ | this
      · refine ⟨some x, by simp [indexNtk, ndim, h0], ?_, fun y hy _ => by rw [hy]⟩
        simp only [L', reindexed, e', OptRel, Option.map_some]
        exact .inl ⟨h0, fun _ _ _ => hF _ _ _⟩
      · obtain ⟨z, h1, h2⟩ := npIndex_holds this [.slice a b s, .slice a b s] sp' (hB _ _ _ _ e1 f1) e2 f2
        refine ⟨some z, ?_, ?_, fun y hy h0 => ?_⟩
        · have hn : x.ndim ≠ 0 := by simp [ndim, this.shape]
          simp only [indexNtk, if_neg hn, h1, Except.map]
        · simp only [L', reindexed, e', OptRel, Option.map_some]
          exact .inr (h2.congr fun y p q hy _ _ => srcP n1' n2' F y _ _ hy)
        · rw [← Option.some.inj hy] at h0
          rw [h2.shape] at h0
          simp at h0
  have hmask : ∀ (om : Option (Arr Bool)) (n n' : Nat) (S S' : List Nat) σ τ,
      (∀ m, om = some m → m.shape = actIdx k.batchAxis k.channelAxis n 1 S) →
      Indexes l k.batchAxis k.channelAxis (shiftAxis l k.batchAxis) (shiftAxis l k.channelAxis) n n' S S' σ τ →
      ∃ z, onOpt (npIndex · l) om = .ok z ∧
        OptRel (fun m m' => npIndex m l = .ok m') om z := by
    intro om n n' S S' σ τ hm hi
    cases om with
    | none => exact ⟨none, rfl, trivial⟩
    | some m =>
      obtain ⟨y, hy, -⟩ := hi Bool m 1 (hm m rfl)
      exact ⟨some y, by simp [onOpt, hy, Except.map], hy⟩
  obtain ⟨z22, e22, h22⟩ := h22
  obtain ⟨zn, en, hn, hn0⟩ := hnt
  obtain ⟨m1, em1, hm1⟩ := hmask k.mask1 _ _ _ _ _ _ hm1 i1
  obtain ⟨m2, em2, hm2⟩ := hmask k.mask2 _ _ _ _ _ _ hm2 i2
  have hcan := (C21.canonicalizeIdx_means _ _ _ hl).1
  have toNat : ∀ x : List Nat, (x.map Int.ofNat).map Int.toNat = x := by
    intro x
    rw [List.map_map]
    have : (Int.toNat ∘ Int.ofNat : Nat → Nat) = id := rfl
    rw [this, List.map_id]
  have rvE_eq : (if k.isReversed then sp'.reverse else sp') = rvE k.isReversed sp' := rfl
  refine ⟨{ k with
        nngp := z12, ntk := zn, cov1 := z11, cov2 := z22
        channelAxis := shiftAxis l k.channelAxis
        batchAxis := shiftAxis l k.batchAxis
        shape1 := out1, shape2 := out2
        mask1 := m1, mask2 := m2 }, n1', n2', S1', S2', ?_, e1, f1, e2, f2, ⟨?_, ?_, h22, hn⟩, i1, i2, e3, f3, hm1, hm2, rfl, rfl, hn0⟩
  · unfold Kernel.getItem
    simp only [hcan, hlb, hlc, hsp, rvE_eq]
    rw [if_neg (by simp), if_neg (by simp [isIntEntry])]
    simp only [bind, Except.bind, pure, Except.pure, sliceShape_known l _ out1 hell ho1,
      sliceShape_known l _ out2 hell ho2, g1, g3, en, e22, em1, em2, toNat]
  · exact g2.congr fun x p q hx _ _ => srcP n1' n2' _ x _ _ hx
  · exact g4.congr fun x p q hx _ _ => srcB L.n1 n1' _ x _ _ hx

/-- Indexing a kernel gives the kernel of the indexed activations.  `l` is the index with one entry per
axis that `idx` means (C21).  NumPy accepts the index for both sets of activations; the batch entry is a
slice and the channel axis is not indexed. -/
theorem getItem_indexes (k : Kernel α) (L : Logical α) (hk : k.Stores L) (idx : Idx) (l : List Entry)
    (hl : C21.Means k.shape1.length idx l) (c1 c2 : Nat) (a b s : Option Int)
    (hne : k.batchAxis ≠ k.channelAxis) (hb : k.batchAxis < L.S1.length + 2)
    (hc : k.channelAxis < L.S1.length + 2)
    (hs1 : k.shape1 = actIdx k.batchAxis k.channelAxis L.n1 c1 L.S1)
    (hs2 : k.shape2 = actIdx k.batchAxis k.channelAxis L.n2 c2 L.S2)
    (hm1 : ∀ m, k.mask1 = some m → m.shape = actIdx k.batchAxis k.channelAxis L.n1 1 L.S1)
    (hm2 : ∀ m, k.mask2 = some m → m.shape = actIdx k.batchAxis k.channelAxis L.n2 1 L.S2)
    (hlb : l[k.batchAxis]? = some (.slice a b s)) (hlc : l[k.channelAxis]? = some full)
    (out1 out2 : List Nat) (ho1 : npIndexShape k.shape1 l = .ok out1)
    (ho2 : npIndexShape k.shape2 l = .ok out2) :
    ∃ k' L' σ1 σ2 τ1 τ2, k.getItem idx = .ok k' ∧ k'.Stores L' ∧ Reindexed L L' σ1 σ2 τ1 τ2 ∧
      Indexes l k.batchAxis k.channelAxis k'.batchAxis k'.channelAxis L.n1 L'.n1 L.S1 L'.S1 σ1 τ1 ∧
      Indexes l k.batchAxis k.channelAxis k'.batchAxis k'.channelAxis L.n2 L'.n2 L.S2 L'.S2 σ2 τ2 ∧
      k'.shape1 = actIdx k'.batchAxis k'.channelAxis L'.n1 c1 L'.S1 ∧
      k'.shape2 = actIdx k'.batchAxis k'.channelAxis L'.n2 c2 L'.S2 ∧
      OptRel (fun m m' => npIndex m l = .ok m') k.mask1 k'.mask1 ∧
      OptRel (fun m m' => npIndex m l = .ok m') k.mask2 k'.mask2 ∧
      k'.isReversed = k.isReversed ∧ k'.diagonalBatch = k.diagonalBatch ∧
      k'.diagonalSpatial = k.diagonalSpatial := by
  obtain ⟨k', n1', n2', S1', S2', e1, -, -, -, -, h1, h2, h3, h4, h5, h6, h7, h8, -⟩ :=
    getItem_content k L hk idx l hl c1 c2 a b s hne hb hc hs1 hs2 hm1 hm2 hlb hlc out1 out2 ho1 ho2
  have g1 : k'.batchAxis = shiftAxis l k.batchAxis := congrArg Kernel.Static.batchAxis h8
  have g2 : k'.channelAxis = shiftAxis l k.channelAxis := congrArg Kernel.Static.channelAxis h8
  have g3 : k'.shape1 = out1 := congrArg Kernel.Static.shape1 h8
  have g4 : k'.shape2 = out2 := congrArg Kernel.Static.shape2 h8
  rw [← g1, ← g2] at h2 h3 h4 h5
  refine ⟨k', _, _, _, _, _, e1, h1, ⟨fun _ _ _ _ _ _ _ _ => rfl, fun _ _ _ _ _ _ _ _ => rfl, ?_, ?_⟩, h2, h3, g3.trans h4, g4.trans h5, h6, h7,
    congrArg Kernel.Static.isReversed h8, congrArg Kernel.Static.diagonalBatch h8, congrArg Kernel.Static.diagonalSpatial h8⟩
  · cases e : L.k22 with
    | none => simp [reindexed, e, OptRel]
    | some F => simp [reindexed, e, OptRel]
  · cases e : L.ntk with
    | none => simp [reindexed, e, OptRel]
    | some F => simp [reindexed, e, OptRel]

/-- Indexing the channel axis is not supported. -/
theorem channel_index_raises (k : Kernel α) (idx : Idx) (l : List Entry)
    (hl : C21.Means k.shape1.length idx l) (hb : k.batchAxis < k.shape1.length) (e : Entry)
    (hlc : l[k.channelAxis]? = some e) (he : e ≠ full) : k.getItem idx = .error .notImplemented := by
  obtain ⟨h1, h2, -⟩ := C21.canonicalizeIdx_means _ _ _ hl
  have hb' : l[k.batchAxis]? = some l[k.batchAxis] := List.getElem?_eq_getElem _
  unfold Kernel.getItem
  simp only [h1, hlc, hb']
  rw [if_pos he]

/-- Indexing the batch axis with an integer is not supported. -/
theorem batch_int_raises (k : Kernel α) (idx : Idx) (l : List Entry)
    (hl : C21.Means k.shape1.length idx l) (hc : k.channelAxis < k.shape1.length) (i : Int)
    (hlb : l[k.batchAxis]? = some (.int i)) : k.getItem idx = .error .notImplemented := by
  obtain ⟨h1, h2, -⟩ := C21.canonicalizeIdx_means _ _ _ hl
  have hc' : l[k.channelAxis]? = some l[k.channelAxis] := List.getElem?_eq_getElem _
  unfold Kernel.getItem
  simp only [h1, hlb, hc']
  by_cases h : l[k.channelAxis] ≠ full
  · rw [if_pos h]
  · rw [if_neg h, if_pos (show isIntEntry (.int i) = true from rfl)]

section Examples
/-- Channels-first activations: batch axis 0, channel axis 1. -/
def exL : Logical ℕ where
  n1 := 3
  n2 := 4
  S1 := [2, 3, 4]
  S2 := [2, 3, 4]
  k12 := fun b p q => b.getD 0 0 + 10 * p.getD 0 0 + 100 * p.getD 1 0 + 1000 * q.getD 2 0
  k11 := fun b p q => b.getD 0 0 + p.getD 0 0 * q.getD 0 0
  k22 := none
  ntk := some fun b p q => b.getD 0 0 + p.getD 0 0 * q.getD 0 0

/-- A reversed kernel. -/
def exK : Kernel ℕ :=
  { exL.encode true false true with
    batchAxis := 1, channelAxis := 3, shape1 := [2, 3, 3, 7, 4], shape2 := [2, 4, 3, 7, 4] }

lemma exK_stores : exK.Stores exL := by
  have h := exL.encode_stores true false true (by simp) rfl
  exact ⟨h.nngp, h.cov1, h.cov2, h.ntk⟩

/-- `x[1, ::2, ..., 1:3]` -/
def exIdx : List Entry := [.int 1, .slice none none (some 2), full, full, .slice (some 1) (some 3) none]

example : ∃ k' L' σ1 σ2 τ1 τ2, exK.getItem (.tuple ([.int 1, .slice none none (some 2)] ++
      .ellipsis :: [.slice (some 1) (some 3) none])) = .ok k' ∧
    k'.Stores L' ∧ Reindexed exL L' σ1 σ2 τ1 τ2 ∧
    Indexes exIdx 1 3 k'.batchAxis k'.channelAxis 3 L'.n1 [2, 3, 4] L'.S1 σ1 τ1 ∧
    Indexes exIdx 1 3 k'.batchAxis k'.channelAxis 4 L'.n2 [2, 3, 4] L'.S2 σ2 τ2 := by
  obtain ⟨k', L', a, b, c, d, h1, h2, h3, h4, h5, -⟩ := getItem_indexes exK exL exK_stores _ exIdx
    (C21.Means.ellipsis [.int 1, .slice none none (some 2)] [.slice (some 1) (some 3) none]
      (by decide) (by decide) (by decide)) 7 7 none none (some 2) (by decide) (by decide) (by decide)
    rfl rfl (by simp [exK, Logical.encode]) (by simp [exK, Logical.encode]) rfl rfl [2, 3, 7, 2] [2, 3, 7, 2]
    rfl rfl
  exact ⟨k', L', a, b, c, d, h1, h2, h3, h4, h5⟩

example : exK.getItem (.tuple [full, .int 0]) = .error .notImplemented :=
  batch_int_raises exK _ _ (C21.Means.plain _ (by decide) (by decide)) (by decide) 0 rfl

example : exK.getItem (.tuple [full, full, full, .int 0]) = .error .notImplemented :=
  channel_index_raises exK _ _ (C21.Means.plain _ (by decide) (by decide)) (by decide) (.int 0) rfl
    (by decide)
end Examples

end NT.C27
