import Verif.Tac
import Verif.Spec.Pick
import Verif.Lemmas.Swap
import Verif.Lemmas.Closed
import Mathlib.Data.List.GetD

/-!
Layers that treat the examples one by one do the same to a kernel and to the kernel of selected examples.
-/

namespace NT.Semantics
open NT NT.Network NT.Spec

variable {σ : Pick}

/-- A selection continued to all numbers, beyond those of the examples. -/
structure Full (σ : Pick) (L : Logical ℝ) : Prop where
  one : ∀ i, i < σ.m1 ↔ σ.f i < L.n1
  two : ∀ i, i < σ.m2 ↔ σ.g i < L.n2
  closed : L.k22 = none → σ.m1 = σ.m2 ∧ σ.f = σ.g
  far1 : ∀ i, ¬ i < σ.m1 → σ.f i = L.n1 + i
  far2 : ∀ i, ¬ i < σ.m2 → σ.g i = L.n2 + i

lemma pick_second {L : Logical ℝ} (h : Full σ L) : (L.pick σ).second = pick2 σ.g σ.g L.second := by
  unfold Logical.pick Logical.second
  cases hk : L.k22 with
  | none => simp [(h.closed hk).2]
  | some F => simp

lemma closed_pick {L : Logical ℝ} (h : Full σ L) (hc : L.Closed) : (L.pick σ).Closed := by
  intro hn
  have : L.k22 = none := by simpa [Logical.pick] using hn
  exact ⟨(h.closed this).1.symm, (hc this).2⟩

lemma dense_pick (d : Dense) (C : ℕ) (L : Logical ℝ) : (C52.after d C L).pick σ = C52.after d C (L.pick σ) := by
  refine logical_ext rfl rfl rfl rfl rfl rfl ?_ ?_
  · cases h : L.k22 <;> simp [Logical.pick, C52.after, h, pick2]; rfl
  · cases h : L.ntk <;> simp [Logical.pick, C52.after, h, pick2]; rfl

lemma conv_pick (d : Conv) (C : ℕ) (L : Logical ℝ) : (C53.after d C L).pick σ = C53.after d C (L.pick σ) := by
  refine logical_ext rfl rfl rfl rfl rfl rfl ?_ ?_
  · cases h : L.k22 <;> simp [Logical.pick, C53.after, h, pick2]; rfl
  · cases h : L.ntk <;> simp [Logical.pick, C53.after, h, pick2]; rfl

lemma convTranspose_pick (d : ConvTranspose) (C : ℕ) (L : Logical ℝ) : (C97.after d C L).pick σ = C97.after d C (L.pick σ) := by
  refine logical_ext rfl rfl rfl rfl rfl rfl ?_ ?_
  · cases h : L.k22 <;> simp [Logical.pick, C97.after, h, pick2]; rfl
  · cases h : L.ntk <;> simp [Logical.pick, C97.after, h, pick2]; rfl

lemma lin_pick {ι : Type} (s : List ℕ → Finset ι) (w : List ℕ → List ℕ → ι → ℝ) (t : List ℕ → List ℕ → ι → Option (List ℕ))
    (out : List ℕ → List ℕ) (L : Logical ℝ) : (linLogical s w t out L).pick σ = linLogical s w t out (L.pick σ) := by
  refine logical_ext rfl rfl rfl rfl rfl rfl ?_ ?_
  · cases h : L.k22 <;> simp [Logical.pick, linLogical, h, pick2]; rfl
  · cases h : L.ntk <;> simp [Logical.pick, linLogical, h, pick2]; rfl

lemma offDiag_pick {L : Logical ℝ} (h : C54.OffDiagZero L) : C54.OffDiagZero (L.pick σ) where
  k12 b p q hpq := h.k12 _ _ _ hpq
  k11 b p q hpq := h.k11 _ _ _ hpq
  k22 F hF b p q hpq := by
    simp only [Logical.pick, Option.map_eq_some_iff] at hF
    obtain ⟨G, hG, rfl⟩ := hF
    exact h.k22 G hG _ _ _ hpq
  ntk F hF b p q hpq := by
    simp only [Logical.pick, Option.map_eq_some_iff] at hF
    obtain ⟨G, hG, rfl⟩ := hF
    exact h.ntk G hG _ _ _ hpq

lemma flat_pick (L : Logical ℝ) : (C55.flat L).pick σ = C55.flat (L.pick σ) := by
  refine logical_ext rfl rfl rfl rfl rfl rfl ?_ ?_
  · cases h : L.k22 <;> simp [Logical.pick, C55.flat, h]; rfl
  · cases h : L.ntk <;> simp [Logical.pick, C55.flat, h]; rfl

lemma drop_pick (rate : ℝ) (F : List ℕ → List ℕ → List ℕ → ℝ) {f : ℕ → ℕ} (hf : f.Injective) :
    pick2 f f (C56.drop rate F) = C56.drop rate (pick2 f f F) := by
  funext b p q
  simp only [pick2, C56.drop, List.getD_cons_zero, List.getD_cons_succ, hf.eq_iff]

lemma dropout_pick (rate : ℝ) (same : Bool) (L : Logical ℝ) (hf : σ.f.Injective) (hg : σ.g.Injective)
    (hs : same = true → σ.f = σ.g) : (C56.after rate same L).pick σ = C56.after rate same (L.pick σ) := by
  refine logical_ext rfl rfl rfl rfl ?_ ?_ ?_ ?_
  · cases same
    · rfl
    · simp only [Logical.pick, C56.after, if_true, ← hs rfl]
      exact drop_pick _ _ hf
  · exact drop_pick _ _ hf
  · cases h : L.k22 <;> simp [Logical.pick, C56.after, h, drop_pick _ _ hg]
  · cases same
    · rfl
    · simp only [Logical.pick, C56.after, if_true, ← hs rfl]
      cases h : L.ntk <;> simp [drop_pick _ _ hf]

lemma group_pick (n m : ℕ) (S : List ℕ) (A : ℕ → Prop) (f : ℕ → ℕ) (hf : ∀ i, i < m ↔ f i < n) (v : ℕ → List ℕ → ℝ) (i : ℕ) (p : List ℕ) :
    groupMean n S false A v (f i) p = groupMean m S false A (fun i => v (f i)) i p := by
  classical
  have h1 : ∀ (n i : ℕ), i < n → group n S false A i p =
      (({i} : Finset ℕ) ×ˢ (box S).filter fun x => ∀ j, j < S.length → ¬ A j → x.getD j 0 = p.getD j 0) := by
    intro n i hi
    ext ⟨a, q⟩
    simp only [group, Finset.mem_filter, Finset.mem_product, Finset.mem_range, Finset.mem_singleton, true_implies]
    constructor
    · rintro ⟨⟨-, h2⟩, h3, h4⟩
      exact ⟨h3, h2, h4⟩
    · rintro ⟨rfl, h2, h4⟩
      exact ⟨⟨hi, h2⟩, rfl, h4⟩
  have h2 : ∀ (n i : ℕ), ¬ i < n → group n S false A i p = ∅ := by
    intro n i hi
    refine Finset.filter_eq_empty_iff.2 ?_
    rintro ⟨a, q⟩ ha ⟨h3, -⟩
    simp only [Finset.mem_product, Finset.mem_range] at ha
    exact hi (h3 rfl ▸ ha.1)
  unfold groupMean
  by_cases hi : i < m
  · rw [h1 n _ ((hf i).1 hi), h1 m i hi]
    simp
  · rw [h2 n _ fun h => hi ((hf i).2 h), h2 m i hi]
    simp

lemma norm_pick (L : Logical ℝ) (eps : ℝ) (A : ℕ → Prop) (h : Full σ L) :
    (normalised L eps false A).pick σ = normalised (L.pick σ) eps false A := by
  have e1 : ∀ i p, groupMean L.n1 L.S1 false A (fun i p => eps + L.k11 [i, i] p p) (σ.f i) p =
      groupMean σ.m1 L.S1 false A (fun i p => eps + (L.pick σ).k11 [i, i] p p) i p := fun i p => group_pick _ _ _ _ _ h.one _ _ _
  have e2 : ∀ i p, groupMean L.n2 L.S2 false A (fun i p => eps + L.second [i, i] p p) (σ.g i) p =
      groupMean σ.m2 L.S2 false A (fun i p => eps + (L.pick σ).second [i, i] p p) i p := by
    intro i p
    rw [pick_second h]
    exact group_pick _ _ _ _ _ h.two _ _ _
  refine logical_ext rfl rfl rfl rfl ?_ ?_ ?_ ?_
  · funext b p q
    simp only [normalised]
    show _ / √(groupMean L.n1 L.S1 false A _ (σ.f (b.getD 0 0)) p * groupMean L.n2 L.S2 false A _ (σ.g (b.getD 1 0)) q) = _
    rw [e1, e2]
    rfl
  · funext b p q
    simp only [normalised]
    show _ / √(groupMean L.n1 L.S1 false A _ (σ.f (b.getD 0 0)) p * groupMean L.n1 L.S1 false A _ (σ.f (b.getD 1 0)) q) = _
    rw [e1, e1]
    rfl
  · simp only [normalised]
    cases hk : L.k22
    · simp [Logical.pick, hk]
    · simp only [Logical.pick, hk, Option.map_some, Option.some.injEq]
      funext b p q
      show _ / √(groupMean L.n2 L.S2 false A _ (σ.g (b.getD 0 0)) p * groupMean L.n2 L.S2 false A _ (σ.g (b.getD 1 0)) q) = _
      rw [e2, e2]
      simp only [Logical.pick, hk, Option.map_some]
      rfl
  · simp only [normalised]
    cases hk : L.ntk
    · simp [Logical.pick, hk]
    · simp only [Logical.pick, hk, Option.map_some, Option.some.injEq]
      funext b p q
      show _ / √(groupMean L.n1 L.S1 false A _ (σ.f (b.getD 0 0)) p * groupMean L.n2 L.S2 false A _ (σ.g (b.getD 1 0)) q) = _
      rw [e1, e2]
      simp only [Logical.pick, hk, Option.map_some]
      rfl

lemma entrywise_pick (N T : ℝ → ℝ → ℝ → ℝ) (L : Logical ℝ) (h : Full σ L) :
    (entrywise N T L).pick σ = entrywise N T (L.pick σ) := by
  refine logical_ext rfl rfl rfl rfl ?_ rfl ?_ ?_
  · simp only [entrywise, pick_second h]
    rfl
  · cases hk : L.k22 <;> simp [Logical.pick, entrywise, hk]; rfl
  · simp only [entrywise, pick_second h]
    cases hn : L.ntk
    · simp [Logical.pick, hn]
    · simp only [Logical.pick, hn, Option.map_some, Option.some.injEq]
      rfl

lemma vars_pick {L : Logical ℝ} {C : ℝ → Prop} (hf : Full σ L) (h : L.Vars C) : (L.pick σ).Vars C where
  one i p hi hp := h.one (σ.f i) p ((hf.one i).1 hi) hp
  two F hF i p hi hp := by
    simp only [Logical.pick, Option.map_eq_some_iff] at hF
    obtain ⟨G, hG, rfl⟩ := hF
    exact h.two G hG (σ.g i) p ((hf.two i).1 hi) hp

lemma getD_set_ne (l : List ℕ) {a b : ℕ} (v : ℕ) (h : a ≠ b) : (l.set b v).getD a 0 = l.getD a 0 := by
  simp only [List.getD_eq_getElem?_getD, List.getElem?_set_ne h.symm]

lemma getD_set_self (l : List ℕ) {a : ℕ} (v : ℕ) (h : a < l.length) : (l.set a v).getD a 0 = v := by
  simp [List.getD_eq_getElem?_getD, h]

lemma eraseIdx_set (l : List ℕ) {a b : ℕ} (v : ℕ) (h : a ≠ b) :
    (l.set b v).eraseIdx a = (l.eraseIdx a).set (if b < a then b else b - 1) v := by
  refine List.ext_getElem? fun i => ?_
  rw [List.getElem?_eraseIdx]
  simp only [List.getElem?_set, List.getElem?_eraseIdx, List.length_eraseIdx]
  split_ifs <;> first | rfl | omega

lemma outAxes_ba (C : Contraction) (a : ℕ) (h : Sum.inl a ∈ C.outAxes) : a ≠ C.ba := by
  unfold Contraction.outAxes at h
  split at h <;> simp at h <;> tauto

lemma outShape_pick (C : Contraction) (s t : List ℕ) (m : ℕ) : C.outShape (s.set C.ba m) t = C.outShape s t := by
  refine List.map_congr_left fun a ha => ?_
  rcases a with a | a
  · exact getD_set_ne _ _ (outAxes_ba C a ha)
  · rfl

lemma otherIdx_pick (C : Contraction) (hC : C.Ok) (hb : C.ba ∉ C.bs) (i j : ℕ) (P c : List ℕ) : C.otherIdx i P c = C.otherIdx j P c := by
  refine List.map_congr_left fun a _ => ?_
  by_cases h : a ∈ C.obs ++ C.ocs
  · simp only [h, if_true]
    have hlt : (C.obs ++ C.ocs).idxOf a < (C.bs ++ C.cs).length := by
      have := List.idxOf_lt_length_of_mem h
      simp only [List.length_append, hC.lenB, hC.lenC] at this ⊢
      exact this
    have : (C.bs ++ C.cs).getD ((C.obs ++ C.ocs).idxOf a) 0 ≠ C.ba := by
      rw [List.getD_eq_getElem _ _ hlt]
      intro e
      have := List.getElem_mem hlt
      rw [e] at this
      rcases List.mem_append.1 this with h | h
      · exact hb h
      · exact hC.batch h
    rw [if_neg this, if_neg this]
  · simp only [h, if_false]

lemma match_pick {C : Contraction} (hC : C.Ok) (hb : C.ba ∉ C.bs) {s t : List ℕ} (m : ℕ) (h : KernelDot.Match C s t) :
    KernelDot.Match C (s.set C.ba m) t := by
  refine ⟨h.len, fun j hj => ?_⟩
  rw [h.eq j hj]
  refine (getD_set_ne _ _ ?_).symm
  have hlt : (C.obs ++ C.ocs).idxOf j < (C.bs ++ C.cs).length := by
    have := List.idxOf_lt_length_of_mem hj
    simp only [List.length_append, hC.lenB, hC.lenC] at this ⊢
    exact this
  rw [List.getD_eq_getElem _ _ hlt]
  intro e
  have := List.getElem_mem hlt
  rw [e] at this
  rcases List.mem_append.1 this with h | h
  · exact hb h
  · exact hC.batch h

lemma covar_pick (C : Contraction) (hC : C.Ok) (hb : C.ba ∉ C.bs) (s s' : List ℕ) (m m' : ℕ) (o o' : List ℕ → ℝ) (f g : ℕ → ℕ)
    (F : List ℕ → List ℕ → List ℕ → ℝ) :
    pick2 f g (C.covar s s' o o' F) = C.covar (s.set C.ba m) (s'.set C.ba m') o o' (pick2 f g F) := by
  have e : ∀ (s : List ℕ) (m : ℕ), C.cs.map ((s.set C.ba m).getD · 0) = C.cs.map (s.getD · 0) := fun s m =>
    List.map_congr_left fun a ha => getD_set_ne _ _ (KernelDot.cs_lt hC ha).2.2
  funext b p q
  simp only [pick2, Contraction.covar, e, List.getD_cons_zero, List.getD_cons_succ]
  refine Finset.sum_congr rfl fun u _ => Finset.sum_congr rfl fun v _ => ?_
  rw [otherIdx_pick C hC hb (f _) (b.getD 0 0), otherIdx_pick C hC hb (g _) (b.getD 1 0)]

lemma contraction_pick (C : Contraction) (hC : C.Ok) (hb : C.ba ∉ C.bs) (s s' t : List ℕ) (o : List ℕ → ℝ) (L : Logical ℝ) :
    (C.logical s s' t t o o L).pick σ = C.logical (s.set C.ba σ.m1) (s'.set C.ba σ.m2) t t o o (L.pick σ) := by
  refine logical_ext rfl rfl (outShape_pick _ _ _ _).symm (outShape_pick _ _ _ _).symm (covar_pick C hC hb _ _ _ _ _ _ _ _ _)
    (covar_pick C hC hb _ _ _ _ _ _ _ _ _) ?_ ?_
  · cases h : L.k22
    · simp [Logical.pick, Contraction.logical, h]
    · simp only [Logical.pick, Contraction.logical, h, Option.map_some, Option.some.injEq]
      exact covar_pick C hC hb _ _ _ _ _ _ _ _ _
  · cases h : L.ntk
    · simp [Logical.pick, Contraction.logical, h]
    · simp only [Logical.pick, Contraction.logical, h, Option.map_some, Option.some.injEq]
      exact covar_pick C hC hb _ _ _ _ _ _ _ _ _

lemma pyGetNat_set {l : List ℕ} {i : ℤ} {C b : ℕ} (m : ℕ) (h : pyGetNat l i = .ok C) (hb : i % (l.length : ℤ) ≠ b) :
    pyGetNat (l.set b m) i = .ok C := by
  unfold pyGetNat at h ⊢
  split at h
  · rename_i hi
    rw [List.length_set, if_pos hi]
    rw [← h]
    congr 1
    refine getD_set_ne _ _ fun e => hb ?_
    have : 0 ≤ i % (l.length : ℤ) := Int.emod_nonneg _ (by omega)
    omega
  · cases h

lemma injective_of {f : ℕ → ℕ} {m n : ℕ} (h1 : ∀ i, i < m ↔ f i < n) (h2 : ∀ i, ¬ i < m → f i = n + i)
    (h3 : ∀ i j, i < m → j < m → f i = f j → i = j) : f.Injective := by
  intro i j h
  by_cases hi : i < m <;> by_cases hj : j < m
  · exact h3 i j hi hj h
  · exact absurd ((h1 j).2 (h ▸ (h1 i).1 hi)) hj
  · exact absurd ((h1 i).2 (h ▸ (h1 j).1 hj)) hi
  · rw [h2 i hi, h2 j hj] at h
    omega

lemma actIdx_setBatch (B A n c w : ℕ) (S : List ℕ) (hne : B ≠ A) (hB : B < S.length + 2) (hA : A < S.length + 2) :
    (actIdx B A n c S).set B w = actIdx B A w c S := by
  have comm : ∀ x : ℕ, actIdx B A x c S = actIdx A B c x S := by
    intro x
    unfold actIdx
    split_ifs <;> first | rfl | omega
  rw [comm, comm, actIdx_insert A B c n S (Ne.symm hne) hA hB, actIdx_insert A B c w S (Ne.symm hne) hA hB]
  generalize S.insertIdx (newAxis A B) c = l
  clear hne hB hA comm
  induction B generalizing l with
  | zero => rfl
  | succ B ih =>
    cases l with
    | nil => rfl
    | cons y l => simpa using ih l

lemma npIndexShape_set' {m : ℕ} : ∀ {s : List ℕ} {l : List Utils.Entry} {o : List ℕ} {a : ℕ}, Utils.npIndexShape s l = .ok o → l[a]? = some Utils.full →
    Utils.npIndexShape (s.set a m) l = .ok (o.set (a - (l.take a).countP Kernel.isIntEntry) m) := by
  intro s
  induction s with
  | nil =>
    intro l o a h ha
    cases l with
    | nil => simp at ha
    | cons e l => simp [Utils.npIndexShape] at h
  | cons n s ih =>
    intro l o a h ha
    cases l with
    | nil => simp at ha
    | cons e l =>
      cases a with
      | zero =>
        simp only [List.getElem?_cons_zero, Option.some.injEq] at ha
        subst ha
        simp only [Utils.full, Utils.npIndexShape, bind, Except.bind, pure, Except.pure, List.set_cons_zero, C21.sliceLen_full] at h ⊢
        cases h1 : Utils.npIndexShape s l with
        | error x => rw [h1] at h; cases h
        | ok r =>
          rw [h1] at h
          obtain rfl := Except.ok.inj h
          simp
      | succ a =>
        simp only [List.getElem?_cons_succ] at ha
        have hc : (l.take a).countP Kernel.isIntEntry ≤ a := le_trans List.countP_le_length (by simp)
        cases e with
        | int i =>
          simp only [Utils.npIndexShape, bind, Except.bind, List.set_cons_succ] at h ⊢
          cases h0 : Utils.arangeAt n i with
          | error x => rw [h0] at h; cases h
          | ok v =>
            rw [h0] at h
            have := ih h ha
            simp only [List.take_succ_cons, List.countP_cons, Kernel.isIntEntry, if_true]
            rw [this]
            congr 2
            omega
        | slice x y z =>
          simp only [Utils.npIndexShape, bind, Except.bind, pure, Except.pure, List.set_cons_succ] at h ⊢
          cases h0 : Utils.sliceLen n x y z with
          | error x => rw [h0] at h; cases h
          | ok v =>
            rw [h0] at h
            cases h1 : Utils.npIndexShape s l with
            | error x => rw [h1] at h; cases h
            | ok r =>
              rw [h1] at h
              obtain rfl := Except.ok.inj h
              have e1 : (a + 1 - ((Utils.Entry.slice x y z :: l).take (a + 1)).countP Kernel.isIntEntry) = (a - (l.take a).countP Kernel.isIntEntry) + 1 := by
                simp only [List.take_succ_cons, List.countP_cons, Kernel.isIntEntry]
                simp
                omega
              rw [e1, List.set_cons_succ]
              simp only [ih h1 ha]
        | ellipsis => simp [Utils.npIndexShape] at h

lemma npIndexShape_set {m : ℕ} {s : List ℕ} {l : List Utils.Entry} {o : List ℕ} {a : ℕ} (h : Utils.npIndexShape s l = .ok o) (ha : l[a]? = some Utils.full) :
    Utils.npIndexShape (s.set a m) l = .ok (o.set (Kernel.shiftAxis l a) m) := by
  rw [shiftAxis_eq]
  exact npIndexShape_set' h ha

/-- A layer that treats the examples one by one does the same to the kernel of selected examples. -/
lemma layer_pick_other {l : Layer} {s t : State} (hf : Full σ s.L) (hl : LayerSem l s t) (hp : l.PerExample σ s) (hi : ∀ i, l ≠ .index i) :
    LayerSem l (s.pick σ) ((t.pick σ).withShapes (s.info.shape1.set s.info.batchAxis σ.m1) (s.info.shape2.set s.info.batchAxis σ.m2)) := by
  cases l with
  | dense d =>
    obtain ⟨h1, h0, C, h2, h3, rfl⟩ := hl
    exact ⟨h1, h0, C, pyGetNat_set _ h2 hp.1, pyGetNat_set _ h3 hp.2, state_ext (dense_pick _ _ _) rfl rfl rfl⟩
  | conv d =>
    obtain ⟨h1, h0, h2, h3, h4, h5, h6, h7, rfl⟩ := hl
    have e : ∀ (l : List ℕ) (m : ℕ), (l.set s.info.batchAxis m).getD d.channelAxis 0 = l.getD d.channelAxis 0 := fun l m => getD_set_ne _ _ hp
    refine ⟨h1, h0, h2, h3, h4, h5, h6, ?_, state_ext ?_ rfl rfl rfl⟩
    · exact (e _ _).trans (h7.trans (e _ _).symm)
    · show (C53.after d (s.info.shape1.getD d.channelAxis 0) s.L).pick σ = C53.after d ((s.info.shape1.set _ _).getD d.channelAxis 0) (s.L.pick σ)
      rw [e]
      exact conv_pick _ _ _
  | convTranspose d =>
    obtain ⟨h1, h0, h2, h3, h4, h5, h6, h7, h8, rfl⟩ := hl
    have e : ∀ (l : List ℕ) (m : ℕ), (l.set s.info.batchAxis m).getD d.conv.channelAxis 0 = l.getD d.conv.channelAxis 0 := fun l m => getD_set_ne _ _ hp
    refine ⟨h1, h0, h2, h3, h4, h5, h6, h7, ?_, state_ext ?_ rfl rfl rfl⟩
    · exact (e _ _).trans (h8.trans (e _ _).symm)
    · show (C97.after d (s.info.shape1.getD d.conv.channelAxis 0) s.L).pick σ =
        C97.after d ((s.info.shape1.set _ _).getD d.conv.channelAxis 0) (s.L.pick σ)
      rw [e]
      exact convTranspose_pick _ _ _
  | pool d =>
    obtain ⟨h1, h2, h3, h4, rfl⟩ := hl
    exact ⟨h1, h2, h3, fun h => ⟨(h4 h).1, (h4 h).2.1, offDiag_pick (h4 h).2.2.1, (h4 h).2.2.2⟩, state_ext (lin_pick _ _ _ _ _) rfl rfl rfl⟩
  | globalPool d =>
    obtain ⟨h1, h2, rfl⟩ := hl
    refine ⟨fun h => offDiag_pick (h1 h), ?_, state_ext (lin_pick _ _ _ _ _) ?_ rfl rfl⟩
    · simp only [State.pick, List.length_set]; exact h2
    · simp only [State.pick, State.withShapes, List.length_set]
  | flatten f =>
    obtain ⟨bo, co, h1, h2, h3, rfl⟩ := hl
    exact ⟨bo, co, h1, h2, h3, state_ext (flat_pick _) rfl rfl rfl⟩
  | dropout d =>
    obtain ⟨h0, h1, ⟨hm, rfl⟩ | ⟨hm, h2, h3, h4, rfl⟩⟩ := hl
    · exact ⟨h0, h1, .inl ⟨hm, rfl⟩⟩
    · obtain ⟨i1, i2, i3, i4⟩ := hp hm
      have j1 : σ.f.Injective := injective_of hf.one hf.far1 i1
      have j2 : σ.g.Injective := injective_of hf.two hf.far2 i2
      have j3 : s.same = true → σ.f = σ.g := fun h => by
        funext i
        by_cases hi : i < σ.m1
        · exact (i4 h).2 i hi
        · rw [hf.far1 i hi, hf.far2 i (by rw [← (i4 h).1]; exact hi), h4 h]
      refine ⟨h0, h1, .inr ⟨hm, h2, h3, fun h => (i4 (i3 ▸ h)).1, state_ext ?_ rfl rfl rfl⟩⟩
      show (C56.after d.rate s.same s.L).pick σ = C56.after d.rate σ.same (s.L.pick σ)
      rw [i3]
      exact dropout_pick _ _ _ j1 j2 j3
  | layerNorm axis eps ba ca =>
    obtain ⟨h1, h2, h0, h3, h9, h10, b, c, ax, rfl, h4, h5, h6, h7, h8, rfl⟩ := hl
    have hb := hp b ax rfl h7
    refine ⟨h1, h2, h0, ?_, ?_, h10, b, c, ax, rfl, h4, ?_, ?_, ?_, h8, state_ext ?_ rfl rfl rfl⟩
    · simp only [State.pick, List.length_set]; exact h3
    · simpa only [State.pick, List.length_set] using h9
    · simpa only [State.pick, List.length_set] using h5
    · simpa only [State.pick, List.length_set] using h6
    · simpa only [State.pick, List.length_set] using h7
    · simp only [State.pick, State.withShapes, List.length_set, hb, decide_false]
      exact norm_pick _ _ _ hf
  | act f =>
    obtain ⟨h1, C, φ, dφ, N, T, h2, h3, rfl⟩ := hl
    exact ⟨h1, C, φ, dφ, N, T, h2, vars_pick hf h3, state_ext (entrywise_pick _ _ _ hf) rfl rfl rfl⟩
  | dotGeneral other isLhs inputC otherC inputB otherB =>
    obtain ⟨h1, h2, h3, h4, h5, h6, h7, h8, h9, h10, rfl⟩ := hl
    have hC : contraction (s.pick σ).info other.ndim isLhs inputC otherC inputB otherB =
        contraction s.info other.ndim isLhs inputC otherC inputB otherB := by
      unfold contraction
      simp only [State.pick, List.length_set]
    have e : ∀ (l : List ℕ) (m : ℕ), (spatialAxes s.info.shape1.length s.info.batchAxis s.info.channelAxis).map ((l.set s.info.batchAxis m).getD · 0) =
        (spatialAxes s.info.shape1.length s.info.batchAxis s.info.channelAxis).map (l.getD · 0) := by
      intro l m
      refine List.map_congr_left fun a ha => getD_set_ne _ _ ?_
      simp [spatialAxes] at ha
      exact ha.2.1
    have hba : s.info.batchAxis < s.info.shape1.length := h1.ba
    unfold LayerSem
    dsimp only
    rw [hC]
    refine ⟨h1, ?_, ?_, ?_, ?_, ?_, match_pick h1 hp _ h7, match_pick h1 hp _ h8, fun h => ⟨(h9 h).1, ?_⟩, h10, state_ext ?_ rfl rfl rfl⟩
    · simpa only [State.pick, List.length_set] using h2
    · exact (getD_set_self _ _ hba).symm
    · exact (getD_set_self _ _ (by rw [h2]; exact hba)).symm
    · simp only [State.pick, List.length_set, e]; exact h5
    · simp only [State.pick, List.length_set, e]; exact h6
    · have := (h9 h).2
      rw [← outShape_pick _ s.info.shape1 _ σ.m1, ← outShape_pick _ s.info.shape2 _ σ.m2] at this
      exact this
    · exact contraction_pick _ h1 hp _ _ _ _ _
  | index i => exact absurd rfl (hi i)
  | resize d =>
    obtain ⟨B, A, oS, h, rfl⟩ := hl
    obtain ⟨c1, hs1⟩ := h.shape1
    obtain ⟨c2, hs2⟩ := h.shape2
    refine ⟨B, A, oS, ⟨h.args, h.str, h.method, h.axis, h.rank1, h.rank2, ⟨c1, ?_⟩, ⟨c2, ?_⟩, h.diagonal, h.reversed⟩, state_ext (lin_pick _ _ _ _ _) rfl rfl rfl⟩
    · show s.info.shape1.set s.info.batchAxis σ.m1 = _
      rw [hs1, h.axis]
      exact actIdx_setBatch _ _ _ _ _ _ h.args.ne (by rw [h.rank1]; exact h.args.hB) (by rw [h.rank1]; exact h.args.hA)
    · show s.info.shape2.set s.info.batchAxis σ.m2 = _
      rw [hs2, h.axis]
      exact actIdx_setBatch _ _ _ _ _ _ h.args.ne (by rw [h.rank2]; exact h.args.hB) (by rw [h.rank2]; exact h.args.hA)
  | attention d =>
    obtain ⟨c, h, rfl⟩ := hl
    refine ⟨c, ⟨h.scaling, h.pairs, h.axes, h.rank, ?_, ?_, h.same, h.psd⟩, state_ext (Attn.layer_pick σ fun e => (hf.closed e).2).symm rfl rfl rfl⟩
    · show s.info.shape1.set s.info.batchAxis σ.m1 = _
      rw [h.shape1]
      exact actIdx_setBatch _ _ _ _ _ _ h.axes.1 h.axes.2.1 h.axes.2.2
    · show s.info.shape2.set s.info.batchAxis σ.m2 = _
      rw [h.shape2]
      exact actIdx_setBatch _ _ _ _ _ _ h.axes.1 (by rw [h.rank]; exact h.axes.2.1) (by rw [h.rank]; exact h.axes.2.2)
  | identity =>
    obtain rfl := hl
    rfl

lemma index_pick {i : Utils.Idx} {s t : State} (hl : LayerSem (.index i) s t) (hp : (Layer.index i).PerExample σ s) :
    ∃ a b, LayerSem (.index i) (s.pick σ) ((t.pick σ).withShapes a b) := by
  obtain ⟨l, a, b, st, n1', n2', S1', S2', out1, out2, h, rfl⟩ := hl
  have hb : l[s.info.batchAxis]? = some Utils.full := hp l h.means
  obtain ⟨rfl, rfl, rfl⟩ : a = none ∧ b = none ∧ st = none := by
    have := h.batch.symm.trans hb
    simpa [Utils.full] using this
  obtain ⟨c1, hs1⟩ := h.shape1
  obtain ⟨c2, hs2⟩ := h.shape2
  refine ⟨out1.set (Kernel.shiftAxis l s.info.batchAxis) σ.m1, out2.set (Kernel.shiftAxis l s.info.batchAxis) σ.m2, l, none, none, none, σ.m1, σ.m2, S1', S2', out1.set (Kernel.shiftAxis l s.info.batchAxis) σ.m1, out2.set (Kernel.shiftAxis l s.info.batchAxis) σ.m2,
    ⟨?_, h.axes, h.rank, ⟨c1, ?_⟩, ⟨c2, ?_⟩, h.batch, h.channel, ?_, ?_, C21.sliceLen_full _, C21.sliceLen_full _, h.S1, h.S2⟩, ?_⟩
  · simpa only [State.pick, List.length_set] using h.means
  · simp only [State.pick, hs1]
    exact actIdx_setBatch _ _ _ _ _ _ h.axes.1 h.axes.2.1 h.axes.2.2
  · simp only [State.pick, hs2]
    exact actIdx_setBatch _ _ _ _ _ _ h.axes.1 (by rw [h.rank]; exact h.axes.2.1) (by rw [h.rank]; exact h.axes.2.2)
  · exact npIndexShape_set h.out1 hb
  · exact npIndexShape_set h.out2 hb
  · refine state_ext ?_ rfl rfl rfl
    refine logical_ext rfl rfl rfl rfl ?_ ?_ ?_ ?_
    · simp only [State.pick, State.withShapes, indexed, Logical.pick, C27.reindexed, C27.sliceAt_full]
      rfl
    · simp only [State.pick, State.withShapes, indexed, Logical.pick, C27.reindexed, C27.sliceAt_full]
      rfl
    · simp only [State.pick, State.withShapes, indexed, Logical.pick, C27.reindexed, C27.sliceAt_full]
      cases s.L.k22 <;> rfl
    · simp only [State.pick, State.withShapes, indexed, Logical.pick, C27.reindexed, C27.sliceAt_full]
      cases s.L.ntk <;> rfl

/-- A layer that treats the examples one by one does the same to the kernel of selected examples. -/
theorem layer_pick {l : Layer} {s t : State} (hf : Full σ s.L) (hl : LayerSem l s t) (hp : l.PerExample σ s) :
    ∃ a b, LayerSem l (s.pick σ) ((t.pick σ).withShapes a b) := by
  by_cases hi : ∃ i, l = .index i
  · obtain ⟨i, rfl⟩ := hi
    exact index_pick hl hp
  · push Not at hi
    exact ⟨_, _, layer_pick_other hf hl hp hi⟩

/-- The number of examples and the presence of a second input do not change. -/
lemma layer_fits {l : Layer} {s t : State} (hf : Full σ s.L) (hl : LayerSem l s t) (hp : l.PerExample σ s) : Full σ t.L := by
  have key : t.L.n1 = s.L.n1 ∧ t.L.n2 = s.L.n2 ∧ (t.L.k22 = none → s.L.k22 = none) := by
    cases l with
    | dense d =>
      obtain ⟨h1, h0, C, h2, h3, rfl⟩ := hl
      simp [C52.after]
    | conv d =>
      obtain ⟨h1, h0, h2, h3, h4, h5, h6, h7, rfl⟩ := hl
      simp [C53.after]
    | convTranspose d =>
      obtain ⟨h1, h0, h2, h3, h4, h5, h6, h7, h8, rfl⟩ := hl
      simp [C97.after]
    | pool d =>
      obtain ⟨h1, h2, h3, h4, rfl⟩ := hl
      simp [C54.pooled, linLogical]
    | globalPool d =>
      obtain ⟨h1, h2, rfl⟩ := hl
      simp [C54.globalPooled, linLogical]
    | flatten f =>
      obtain ⟨bo, co, h1, h2, h3, rfl⟩ := hl
      simp [C55.flat]
    | dropout d =>
      obtain ⟨h0, h1, ⟨hm, rfl⟩ | ⟨hm, h2, h3, h4, rfl⟩⟩ := hl
      · simp
      · simp [C56.after]
    | layerNorm axis eps ba ca =>
      obtain ⟨h1, h2, h0, h3, h9, h10, b, c, ax, rfl, h4, h5, h6, h7, h8, rfl⟩ := hl
      simp [normalised]
    | act f =>
      obtain ⟨h1, C, φ, dφ, N, T, h2, h3, rfl⟩ := hl
      simp [entrywise]
    | dotGeneral other isLhs inputC otherC inputB otherB =>
      obtain ⟨h1, h2, h3, h4, h5, h6, h7, h8, h9, h10, rfl⟩ := hl
      simp [Contraction.logical]
    | index i =>
      obtain ⟨l, a, b, st, n1', n2', S1', S2', out1, out2, h, rfl⟩ := hl
      have hb : l[s.info.batchAxis]? = some Utils.full := hp l h.means
      obtain ⟨rfl, rfl, rfl⟩ : a = none ∧ b = none ∧ st = none := by
        have := h.batch.symm.trans hb
        simpa [Utils.full] using this
      have e1 := h.n1
      have e2 := h.n2
      rw [C21.sliceLen_full] at e1 e2
      exact ⟨(Except.ok.inj e1).symm, (Except.ok.inj e2).symm, by simp [indexed, C27.reindexed]⟩
    | resize d =>
      obtain ⟨B, A, oS, -, rfl⟩ := hl
      simp [C95.resizedSpatial, linLogical]
    | attention d =>
      obtain ⟨c, -, rfl⟩ := hl
      obtain ⟨v1, v2, -, -⟩ := Attn.layer_shapes d c (fun _ _ => false) (fun _ _ => false) s.L
      exact ⟨v1, v2, Attn.layer_none.1⟩
    | identity =>
      obtain rfl := hl
      simp
  obtain ⟨e1, e2, e3⟩ := key
  exact ⟨fun i => by rw [e1]; exact hf.one i, fun i => by rw [e2]; exact hf.two i, fun h => hf.closed (e3 h), by rw [e1]; exact hf.far1, by rw [e2]; exact hf.far2⟩

lemma sum_pick {m : ℕ} {c2 cn : Bool} {L : Fin (m + 1) → Logical ℝ} (h2 : ∀ r, (L r).k22.isSome = c2) (hn : ∀ r, (L r).ntk.isSome = cn) :
    (C38.sumL c2 cn L).pick σ = C38.sumL c2 cn fun r => (L r).pick σ := by
  refine logical_ext rfl rfl rfl rfl rfl rfl ?_ ?_
  · cases c2
    · rfl
    · simp only [C38.sumL, Logical.pick, if_true, Option.map_some, Option.some.injEq]
      funext b p q
      refine Finset.sum_congr rfl fun r _ => ?_
      have := h2 r
      cases h : (L r).k22 <;> simp_all [pick2]
  · cases cn
    · rfl
    · simp only [C38.sumL, Logical.pick, if_true, Option.map_some, Option.some.injEq]
      funext b p q
      refine Finset.sum_congr rfl fun r _ => ?_
      have := hn r
      cases h : (L r).ntk <;> simp_all [pick2]

lemma prod_pick {m : ℕ} {c2 cn : Bool} {L : Fin (m + 1) → Logical ℝ} (h2 : ∀ r, (L r).k22.isSome = c2) (hn : ∀ r, (L r).ntk.isSome = cn) :
    (C39.prodL c2 cn L).pick σ = C39.prodL c2 cn fun r => (L r).pick σ := by
  refine logical_ext rfl rfl rfl rfl rfl rfl ?_ ?_
  · cases c2
    · rfl
    · simp only [C39.prodL, Logical.pick, if_true, Option.map_some, Option.some.injEq]
      funext b p q
      refine Finset.prod_congr rfl fun r _ => ?_
      have := h2 r
      cases h : (L r).k22 <;> simp_all [pick2]
  · cases cn
    · rfl
    · simp only [C39.prodL, Logical.pick, if_true, Option.map_some, Option.some.injEq]
      funext b p q
      refine Finset.sum_congr rfl fun r _ => ?_
      have := hn r
      cases h : (L r).ntk <;> simp_all [pick2]

lemma channel_pick {m : ℕ} {w : Fin (m + 1) → ℕ} {c2 cn : Bool} {L : Fin (m + 1) → Logical ℝ} (h2 : ∀ r, (L r).k22.isSome = c2)
    (hn : ∀ r, (L r).ntk.isSome = cn) : (C40.channelL w c2 cn L).pick σ = C40.channelL w c2 cn fun r => (L r).pick σ := by
  refine logical_ext rfl rfl rfl rfl rfl rfl ?_ ?_
  · cases c2
    · rfl
    · simp only [C40.channelL, Logical.pick, if_true, Option.map_some, Option.some.injEq]
      funext b p q
      simp only [pick2]
      congr 1
      refine Finset.sum_congr rfl fun r _ => ?_
      have := h2 r
      cases h : (L r).k22 <;> simp_all [pick2]
  · cases cn
    · rfl
    · simp only [C40.channelL, Logical.pick, if_true, Option.map_some, Option.some.injEq]
      funext b p q
      simp only [pick2]
      congr 1
      refine Finset.sum_congr rfl fun r _ => ?_
      have := hn r
      cases h : (L r).ntk <;> simp_all [pick2]

lemma catF_pick {m : ℕ} (f g : ℕ → ℕ) (c : ℕ) (S T : Fin (m + 1) → List ℕ) (F : Fin (m + 1) → List ℕ → List ℕ → List ℕ → ℝ) :
    pick2 f g (Cat.catF c S T F) = Cat.catF c S T fun r => pick2 f g (F r) := rfl

lemma spatial_pick {m c : ℕ} {c2 cn : Bool} {L : Fin (m + 1) → Logical ℝ} (h2 : ∀ r, (L r).k22.isSome = c2)
    (hn : ∀ r, (L r).ntk.isSome = cn) : (C40.spatialL c c2 cn L).pick σ = C40.spatialL c c2 cn fun r => (L r).pick σ := by
  refine logical_ext rfl rfl rfl rfl rfl rfl ?_ ?_
  · cases c2
    · rfl
    · simp only [C40.spatialL, Logical.pick, if_true, Option.map_some, Option.some.injEq, catF_pick]
      congr 1
      funext r
      obtain ⟨F, hF⟩ := Option.isSome_iff_exists.1 (h2 r)
      rw [hF]
      rfl
  · cases cn
    · rfl
    · simp only [C40.spatialL, Logical.pick, if_true, Option.map_some, Option.some.injEq, catF_pick]
      congr 1
      funext r
      obtain ⟨F, hF⟩ := Option.isSome_iff_exists.1 (hn r)
      rw [hF]
      rfl

lemma alike_pick {m : ℕ} {s : Fin (m + 1) → State} (h : Alike s) : Alike fun r => (s r).pick σ :=
  ⟨h.diagonalBatch, h.diagonalSpatial, h.batchAxis, h.channelAxis, h.notReversed, fun _ => rfl, h.full, h.gaussian⟩

lemma sameLayout_pick {m : ℕ} {s : Fin (m + 1) → State} (h : SameLayout s) : SameLayout fun r => (s r).pick σ where
  diagonalBatch := h.diagonalBatch
  diagonalSpatial := h.diagonalSpatial
  batchAxis := h.batchAxis
  channelAxis := h.channelAxis
  notReversed := h.notReversed
  sizes r := ⟨rfl, rfl, (h.sizes r).2.2.1, (h.sizes r).2.2.2⟩
  same _ := rfl
  full := h.full

lemma majority_pick {m : ℕ} (s : Fin (m + 1) → State) : majority (fun r => (s r).pick σ) = majority s := by
  unfold majority
  rw [countP_ofFn (f := fun r => (s r).pick σ) (p := fun x => x.info.isReversed) (g := s) (q := fun x => x.info.isReversed) fun r => rfl]

lemma isSome_pick {m : ℕ} {s : Fin (m + 1) → State} {c2 cn : Bool} (h2 : ∀ r, (s r).L.k22.isSome = c2) (hn : ∀ r, (s r).L.ntk.isSome = cn) :
    (∀ r, ((s r).pick σ).L.k22.isSome = c2) ∧ ∀ r, ((s r).pick σ).L.ntk.isSome = cn :=
  ⟨fun r => by rw [← h2 r]; simp [State.pick, Logical.pick], fun r => by rw [← hn r]; simp [State.pick, Logical.pick]⟩

/-- Every fan-in layer does the same to the kernels of selected examples. -/
theorem fan_pick {f : Fan} {m : ℕ} {s : Fin (m + 1) → State} {t : State} (hf : FanSem f s t)
    (hne : ∀ axis, f = .concat axis → axis % ((s 0).info.shape1.length : ℤ) ≠ (s 0).info.batchAxis) :
    ∃ u1 u2, FanSem f (fun r => (s r).pick σ) ((t.pick σ).withShapes u1 u2) := by
  cases f with
  | sum =>
    obtain ⟨h1, h2, h3, c2, cn, h4, h5, rfl⟩ := hf
    obtain ⟨g4, g5⟩ := isSome_pick (σ := σ) h4 h5
    refine ⟨((s 0).pick σ).info.shape1, ((s 0).pick σ).info.shape2, sameLayout_pick h1, h2, fun r => ?_, c2, cn, g4, g5, state_ext (sum_pick h4 h5) ?_ rfl rfl⟩
    · simp only [State.pick, (h3 r).1, (h3 r).2, h1.batchAxis r, and_self]
    · rw [majority_pick]
      rfl
  | prod =>
    obtain ⟨h1, h3, c2, cn, h4, h5, rfl⟩ := hf
    obtain ⟨g4, g5⟩ := isSome_pick (σ := σ) h4 h5
    refine ⟨((s 0).pick σ).info.shape1, ((s 0).pick σ).info.shape2, sameLayout_pick h1, fun r => ?_, c2, cn, g4, g5, state_ext (prod_pick h4 h5) ?_ rfl rfl⟩
    · simp only [State.pick, (h3 r).1, (h3 r).2, h1.batchAxis r, and_self]
    · rw [majority_pick]
      rfl
  | concat axis =>
    have hna := hne axis rfl
    rcases hf with hf | hf | hf
    rotate_left
    · obtain ⟨h1, ax, c, g1, g2, g3, g6, g8, g9, g10, c2, cn, h4, h5, rfl⟩ := hf
      obtain ⟨i4, i5⟩ := isSome_pick (σ := σ) h4 h5
      have hn : ax ≠ (s 0).info.batchAxis := fun e => hna (by rw [g1, e])
      refine ⟨((s 0).pick σ).info.shape1.set ax (∑ r, ((s r).pick σ).info.shape1.getD ax 0),
        ((s 0).pick σ).info.shape2.set ax (∑ r, ((s r).pick σ).info.shape2.getD ax 0), Or.inr (Or.inl ⟨alike_pick h1, ax, c, ?_, ?_, ?_, ?_, fun r => ?_,
        fun r => ⟨rfl, rfl⟩, g10, c2, cn, i4, i5, state_ext (spatial_pick h4 h5) ?_ rfl rfl⟩)⟩
      · simpa only [State.pick, List.length_set] using g1
      · simp only [State.pick, List.length_set]
        exact g2
      · simpa only [State.pick, List.length_set] using g3
      · simpa only [State.pick, List.length_set] using g6
      · simp only [State.pick, eraseIdx_set _ _ hn, h1.batchAxis r, (g8 r).1, (g8 r).2, and_self]
      · unfold joined
        rw [majority_pick]
        rfl
    · exact absurd hf.2.2.2.1 hna
    obtain ⟨h1, h2, h0, h3, h6, w, h7, h8, h9, c2, cn, h4, h5, rfl⟩ := hf
    have hn : (s 0).info.batchAxis ≠ (s 0).info.channelAxis := fun e => hna (by rw [h3, e])
    obtain ⟨g4, g5⟩ := isSome_pick (σ := σ) h4 h5
    refine ⟨((s 0).pick σ).info.shape1.set (s 0).info.channelAxis (∑ r, ((s r).pick σ).info.shape1.getD (s 0).info.channelAxis 0),
      ((s 0).pick σ).info.shape2.set (s 0).info.channelAxis (∑ r, ((s r).pick σ).info.shape2.getD (s 0).info.channelAxis 0), Or.inl ⟨sameLayout_pick h1, ?_, ?_, ?_,
      fun r => ?_, w, h7, fun r => ?_, fun r => ?_, c2, cn, g4, g5, state_ext (channel_pick h4 h5) ?_ rfl rfl⟩⟩
    · simpa [State.pick] using h2
    · simpa only [State.pick, List.length_set] using h0
    · simpa only [State.pick, List.length_set] using h3
    · simp only [State.pick, eraseIdx_set _ _ hn.symm, h1.batchAxis r, (h6 r).1, (h6 r).2, and_self]
    · simp only [State.pick]
      rw [getD_set_ne _ _ (by rw [h1.batchAxis r, h1.channelAxis r]; exact hn.symm)]
      exact h8 r
    · simp only [State.pick]
      rw [getD_set_ne _ _ (by rw [h1.batchAxis r, h1.channelAxis r]; exact hn.symm)]
      exact h9 r
    · rw [majority_pick]
      rfl

lemma fan_fits {f : Fan} {m : ℕ} {s : Fin (m + 1) → State} {t : State} (h0 : Full σ (s 0).L) (hf : FanSem f s t)
    (hne : ∀ axis, f = .concat axis → axis % ((s 0).info.shape1.length : ℤ) ≠ (s 0).info.batchAxis) : Full σ t.L := by
  have key : t.L.n1 = (s 0).L.n1 ∧ t.L.n2 = (s 0).L.n2 ∧ (t.L.k22 = none → (s 0).L.k22 = none) := by
    cases f with
    | sum =>
      obtain ⟨h1, h2, h3, c2, cn, h4, h5, rfl⟩ := hf
      refine ⟨rfl, rfl, fun h => ?_⟩
      have := h4 0
      cases c2 <;> simp_all [C38.sumL]
    | prod =>
      obtain ⟨h1, h3, c2, cn, h4, h5, rfl⟩ := hf
      refine ⟨rfl, rfl, fun h => ?_⟩
      have := h4 0
      cases c2 <;> simp_all [C39.prodL]
    | concat axis =>
      rcases hf with hf | hf | hf
      · obtain ⟨h1, h2, h0, h3, h6, w, h7, h8, h9, c2, cn, h4, h5, rfl⟩ := hf
        refine ⟨rfl, rfl, fun h => ?_⟩
        have := h4 0
        cases c2 <;> simp_all [C40.channelL]
      · obtain ⟨h1, ax, c, g1, g2, g3, g6, g8, g9, g10, c2, cn, h4, h5, rfl⟩ := hf
        refine ⟨rfl, rfl, fun h => ?_⟩
        have := h4 0
        cases c2
        · exact Option.isSome_eq_false_iff.1 this |> Option.isNone_iff_eq_none.1
        · cases h
      · exact absurd hf.2.2.2.1 (hne axis rfl)
  obtain ⟨e1, e2, e3⟩ := key
  exact ⟨fun i => by rw [e1]; exact h0.one i, fun i => by rw [e2]; exact h0.two i, fun h => h0.closed (e3 h), by rw [e1]; exact h0.far1, by rw [e2]; exact h0.far2⟩

/-- It is a special case of `NetSem`. -/
theorem perExample_sem {net : Net} {v w : Vals State} (h : PerExample σ net v w) : NetSem net v w := by
  induction h with
  | layer hc hl _ _ _ => exact .layer hc hl
  | fanOut => exact .fanOut
  | fanIn hc hf _ _ _ => exact .fanIn hc hf
  | seq _ _ ih1 ih2 => exact .seq ih1 ih2
  | par _ ih => exact .par ih

/-- A network does the same to the kernels of selected examples. -/
theorem net_pick {net : Net} {v w : Vals State} (h : PerExample σ net v w) : ∀ {v' : Vals State},
    Rel (fun s t => t = s.pick σ ∧ Full σ s.L) v v' → ∃ w', NetSem net v' w' ∧ Rel (fun s t => t = s.pick σ ∧ Full σ s.L) w w' := by
  induction h with
  | @layer l out s t hc hl hp e1 e2 =>
    intro x hx
    cases hx with
    | one _ s' hs =>
      obtain ⟨rfl, hf⟩ := hs
      obtain ⟨a, b, hab⟩ := layer_pick hf hl hp
      refine ⟨_, .layer (closed_pick hf hc) hab, .one _ _ ⟨?_, (layer_fits hf hl hp : Full σ t.L)⟩⟩
      simp only [State.pick, State.withShapes, e1, e2]
  | fanOut =>
    intro x hx
    exact ⟨_, .fanOut, rel_replicate hx _⟩
  | @fanIn f out m s t hc hf hne e1 e2 =>
    intro x hx
    obtain ⟨u', rfl, hu⟩ := rel_ofFn hx
    have : u' = fun r => .one ((s r).pick σ) := by
      funext r
      have := hu r
      generalize u' r = z at this
      cases this with
      | one _ b h => rw [h.1]
    subst this
    have hfit : ∀ r, Full σ (s r).L := fun r => by
      have := hu r
      cases this with
      | one _ _ h => exact h.2
    obtain ⟨u1, u2, hf'⟩ := fan_pick (σ := σ) hf hne
    refine ⟨_, .fanIn (fun r => closed_pick (hfit r) (hc r)) hf', .one _ _ ⟨?_, (fan_fits (hfit 0) hf hne : Full σ t.L)⟩⟩
    simp only [State.pick, State.withShapes, e1, e2]
  | seq _ _ ih1 ih2 =>
    intro x hx
    obtain ⟨y, h1, h2⟩ := ih1 hx
    obtain ⟨z, h3, h4⟩ := ih2 h2
    exact ⟨z, .seq h1 h3, h4⟩
  | @par n branches u v h ih =>
    intro x hx
    obtain ⟨u', rfl, hu⟩ := rel_ofFn hx
    choose y h1 h2 using fun i => ih i (hu i)
    exact ⟨_, .par h1, rel_many h2⟩

/-- The continuation of a selection. -/
def extend (σ : Pick) (n1 n2 : ℕ) : Pick :=
  { σ with
    f := fun i => if i < σ.m1 then σ.f i else n1 + i
    g := fun i => if i < σ.m2 then σ.g i else n2 + i }

lemma extend_full {L : Logical ℝ} (hc : L.Closed) (h : σ.Fits L) : Full (extend σ L.n1 L.n2) L where
  one i := by
    by_cases hi : i < σ.m1
    · simpa [extend, hi] using h.one i hi
    · simp [extend, hi]
  two i := by
    by_cases hi : i < σ.m2
    · simpa [extend, hi] using h.two i hi
    · simp [extend, hi]
  closed hn := by
    obtain ⟨h1, h2⟩ := h.closed hn
    refine ⟨h1, ?_⟩
    funext i
    by_cases hi : i < σ.m1
    · have : i < σ.m2 := h1 ▸ hi
      simp only [extend, hi, this, if_true, h2 i hi]
    · have : ¬ i < σ.m2 := h1 ▸ hi
      simp only [extend, hi, this, if_false, (hc hn).1]
  far1 i hi := if_neg hi
  far2 i hi := if_neg hi

lemma perExample_extend {net : Net} {v w : Vals State} (n1 n2 : ℕ) (h : PerExample σ net v w) : PerExample (extend σ n1 n2) net v w := by
  induction h with
  | @layer l out s t hc hl hp e1 e2 =>
    refine .layer hc hl ?_ e1 e2
    cases l with
    | dropout d =>
      intro hm
      obtain ⟨i1, i2, i3, i4⟩ := hp hm
      have a1 : ∀ i, i < σ.m1 → (extend σ n1 n2).f i = σ.f i := fun i hi => if_pos hi
      have a2 : ∀ i, i < σ.m2 → (extend σ n1 n2).g i = σ.g i := fun i hi => if_pos hi
      refine ⟨fun i j hi hj h => i1 i j hi hj ?_, fun i j hi hj h => i2 i j hi hj ?_, i3, fun h => ⟨(i4 h).1, fun i hi => ?_⟩⟩
      · rwa [a1 i hi, a1 j hj] at h
      · rwa [a2 i hi, a2 j hj] at h
      · rw [a1 i hi, a2 i ((i4 h).1 ▸ hi)]
        exact (i4 h).2 i hi
    | _ => exact hp
  | fanOut => exact .fanOut
  | fanIn hc hf hn e1 e2 => exact .fanIn hc hf hn e1 e2
  | seq _ _ ih1 ih2 => exact .seq ih1 ih2
  | par _ ih => exact .par ih

end NT.Semantics
