import Verif.Tac
import Verif.Lemmas.Pick
import Verif.Props.C80

/-!
# C82: the kernel of selected examples
-/

namespace NT.C82
open NT NT.Network NT.Spec NT.Semantics NT.Arr NT.Kernel

variable {σ : Pick}

lemma holds_split {a : Arr ℝ} {B S T : List ℕ} {ds rev : Bool} {F : List ℕ → List ℕ → List ℕ → ℝ} (h : Holds a B S T ds rev F) {t : List ℕ}
    (ht : InRange t (pos ds rev S T)) : ∃ p q, t = pos ds rev p q ∧ InRange p S ∧ InRange q T ∧ (ds = true → p = q) := by
  obtain ⟨p, q, rfl, hp, hpq, hq⟩ := inRange_pos h.rank ht
  refine ⟨p, q, rfl, hp, ?_, hpq⟩
  cases ds
  · exact hq rfl
  · rw [← hpq rfl, ← h.square rfl]; exact hp

lemma pickedArr2 {a a' : Arr ℝ} {n1 n2 m1 m2 : ℕ} {S T : List ℕ} {ds rev : Bool} {f g f' g' : ℕ → ℕ} {F : List ℕ → List ℕ → List ℕ → ℝ}
    (hf : ∀ i, i < m1 → f i < n1 ∧ f' i = f i) (hg : ∀ i, i < m2 → g i < n2 ∧ g' i = g i) (h : Holds a [n1, n2] S T ds rev F)
    (h' : Holds a' [m1, m2] S T ds rev (pick2 f' g' F)) : PickedArr2 m1 m2 f g a a' := by
  refine ⟨n1, n2, _, h.shape, h'.shape, fun i j t hi hj ht => ?_⟩
  obtain ⟨p, q, rfl, hp, hq, hpq⟩ := holds_split h ht
  have e := h.get [f i, g j] p q (by simp [InRange, hf i hi, hg j hj]) hp hq hpq
  have e' := h'.get [i, j] p q (by simp [InRange, hi, hj]) hp hq hpq
  refine (e'.trans ?_).trans e.symm
  simp only [pick2, List.getD_cons_zero, List.getD_cons_succ, (hf i hi).2, (hg j hj).2]

lemma pickedCov {a a' : Arr ℝ} {n m : ℕ} {S : List ℕ} {db ds rev : Bool} {f f' : ℕ → ℕ} {F : List ℕ → List ℕ → List ℕ → ℝ}
    (hf : ∀ i, i < m → f i < n ∧ f' i = f i) (h : Holds a (batchShape db n) S S ds rev fun b => F (dbl b))
    (h' : Holds a' (batchShape db m) S S ds rev fun b => pick2 f' f' F (dbl b)) : PickedCov db m f a a' := by
  cases db
  · refine pickedArr2 (F := fun b => F (dbl b)) hf hf h (h'.congr fun b p q hb _ _ => ?_)
    obtain ⟨i, j, rfl⟩ : ∃ i j, b = [i, j] := by
      rcases b with _ | ⟨i, _ | ⟨j, _ | ⟨l, b⟩⟩⟩ <;> simp_all [InRange, batchShape]
    rfl
  · refine ⟨n, _, h.shape, h'.shape, fun i t hi ht => ?_⟩
    obtain ⟨p, q, rfl, hp, hq, hpq⟩ := holds_split h ht
    have e := h.get [f i] p q (by simp [InRange, batchShape, hf i hi]) hp hq hpq
    have e' := h'.get [i] p q (by simp [InRange, batchShape, hi]) hp hq hpq
    refine (e'.trans ?_).trans e.symm
    simp only [pick2, dbl, List.getD_cons_zero, List.getD_cons_succ, (hf i hi).2]

lemma zeroOn {a : Arr ℝ} {n1 n2 m1 m2 : ℕ} {S T : List ℕ} {ds rev : Bool} {f g : ℕ → ℕ} {F : List ℕ → List ℕ → List ℕ → ℝ}
    (hf : ∀ i, i < m1 → f i < n1) (hg : ∀ i, i < m2 → g i < n2) (h : Holds a [n1, n2] S T ds rev F)
    (h0 : ∀ i j p q, i < m1 → j < m2 → F [f i, g j] p q = 0) : ZeroOn m1 m2 f g a := by
  refine .inr ⟨n1, n2, _, h.shape, fun i j t hi hj ht => ?_⟩
  obtain ⟨p, q, rfl, hp, hq, hpq⟩ := holds_split h ht
  exact (h.get [f i, g j] p q (by simp [InRange, hf i hi, hg j hj]) hp hq hpq).trans (h0 i j p q hi hj)

lemma picked_of {s : State} {k k' : Kernel ℝ} {N1 N2 : ℕ} (hf : Full (extend σ N1 N2) s.L) (h : Describes s k)
    (h' : Describes (s.pick (extend σ N1 N2)) k') : Picked σ k k' := by
  have e : k'.static = { k.static with shape1 := k.shape1.set k.batchAxis σ.m1, shape2 := k.shape2.set k.batchAxis σ.m2 } := by
    rw [h'.static]
    show ({ s.info with shape1 := _, shape2 := _ } : Kernel.Static) = _
    rw [← h.static]
    rfl
  have ds : k'.diagonalSpatial = k.diagonalSpatial := congrArg Static.diagonalSpatial e
  have rv : k'.isReversed = k.isReversed := congrArg Static.isReversed e
  have db : k'.diagonalBatch = k.diagonalBatch := congrArg Static.diagonalBatch e
  have f1 : ∀ i, i < σ.m1 → σ.f i < s.L.n1 ∧ (extend σ N1 N2).f i = σ.f i := by
    intro i hi
    have h1 : (extend σ N1 N2).f i = σ.f i := if_pos hi
    exact ⟨h1 ▸ (hf.one i).1 hi, h1⟩
  have f2 : ∀ i, i < σ.m2 → σ.g i < s.L.n2 ∧ (extend σ N1 N2).g i = σ.g i := by
    intro i hi
    have h1 : (extend σ N1 N2).g i = σ.g i := if_pos hi
    exact ⟨h1 ▸ (hf.two i).1 hi, h1⟩
  have s1 := h.stores
  have s2 := h'.stores
  have nn := s2.nngp
  have c1 := s2.cov1
  have c2 := s1.cov2
  have c2' := s2.cov2
  have t1 := s1.ntk
  have t2 := s2.ntk
  rw [ds, rv] at nn c1 c2' t2
  rw [db] at c1 c2'
  refine ⟨pickedArr2 f1 f2 s1.nngp nn, ?_, pickedCov f1 s1.cov1 c1, ?_, e⟩
  · cases e1 : s.L.ntk with
    | none =>
      rw [e1] at t1
      simp only [State.pick, Logical.pick, e1] at t2
      cases g1 : k.ntk <;> cases g2 : k'.ntk <;> rw [g1] at t1 <;> rw [g2] at t2 <;> simp_all [OptRel]
    | some F =>
      rw [e1] at t1
      simp only [State.pick, Logical.pick, e1, Option.map_some] at t2
      cases g1 : k.ntk with
      | none => rw [g1] at t1; simp [OptRel] at t1
      | some a =>
        cases g2 : k'.ntk with
        | none => rw [g2] at t2; simp [OptRel] at t2
        | some a' =>
          rw [g1] at t1
          rw [g2] at t2
          simp only [OptRel] at t1 t2 ⊢
          rcases t1 with ⟨g3, g4⟩ | g3
          · have z := h.zero a g1 g3
            refine .inl ⟨.inl g3, .inl ⟨g3, z⟩, ?_⟩
            rcases t2 with ⟨g5, g6⟩ | g5
            · exact .inl ⟨g5, h'.zero a' g2 g5⟩
            · exact zeroOn (fun _ h => h) (fun _ h => h) g5 fun i j p q _ _ => by rw [pick2, g4, z]
          · rcases t2 with ⟨g5, g6⟩ | g5
            · have z := h'.zero a' g2 g5
              refine .inl ⟨.inr g5, ?_, .inl ⟨g5, z⟩⟩
              refine zeroOn (fun i hi => (f1 i hi).1) (fun i hi => (f2 i hi).1) g3 fun i j p q hi hj => ?_
              have := g6 [i, j] p q
              rw [z] at this
              simpa only [pick2, List.getD_cons_zero, List.getD_cons_succ, (f1 i hi).2, (f2 j hj).2] using this
            · exact .inr (pickedArr2 f1 f2 g3 g5)
  · cases e1 : s.L.k22 with
    | none =>
      rw [e1] at c2
      simp only [State.pick, Logical.pick, e1] at c2'
      cases g1 : k.cov2 <;> cases g2 : k'.cov2 <;> rw [g1] at c2 <;> rw [g2] at c2' <;> simp_all [OptRel]
    | some F =>
      rw [e1] at c2
      simp only [State.pick, Logical.pick, e1, Option.map_some] at c2'
      cases g1 : k.cov2 <;> cases g2 : k'.cov2 <;> rw [g1] at c2 <;> rw [g2] at c2' <;> simp only [OptRel] at c2 c2' ⊢
      exact pickedCov f2 c2 c2'

lemma rel_pick {τ : Pick} {R : Kernel ℝ → State → Prop} {x : Vals (Kernel ℝ)} {v : Vals State}
    (h : Rel (fun k s => R k (s.pick τ) ∧ Full τ s.L) x v) :
    ∃ v', Rel R x v' ∧ Rel (fun s t => t = s.pick τ ∧ Full τ s.L) v v' := by
  induction h with
  | one a b h => exact ⟨.one (b.pick τ), .one _ _ h.1, .one _ _ ⟨rfl, h.2⟩⟩
  | many l m hl h ih =>
    choose u h1 h2 using ih
    refine ⟨.many (List.ofFn fun i : Fin m.length => u i.1 (by rw [hl]; exact i.2) i.2), .many _ _ (by simp [hl]) fun i p q => ?_, .many _ _ (by simp) fun i p q => ?_⟩
    · rw [List.getElem_ofFn]
      exact h1 i p (by simpa using q)
    · rw [List.getElem_ofFn]
      exact h2 i (by rw [hl]; exact p) p

lemma rel_trans3 {N1 N2 : ℕ} {w w' : Vals State} (hw : Rel (fun s t => t = s.pick (extend σ N1 N2) ∧ Full (extend σ N1 N2) s.L) w w') :
    ∀ {y y' : Vals (Kernel ℝ)}, Rel (fun k s => Describes s k) y w → Rel (fun k s => Describes s k) y' w' → Rel (Picked σ) y y' := by
  induction hw with
  | one s t h =>
    intro y y' h1 h2
    cases h1 with
    | one k _ h1 =>
      cases h2 with
      | one k' _ h2 => exact .one _ _ (picked_of h.2 h1 (h.1 ▸ h2))
  | many l m hl h ih =>
    intro y y' h1 h2
    cases h1 with
    | many a _ ha h1 =>
      cases h2 with
      | many b _ hb h2 =>
        refine .many _ _ (by rw [ha, hl, hb]) fun i p q => ?_
        exact ih i (by rw [← ha]; exact p) (by rw [← hb]; exact q) (h1 i p (by rw [← ha]; exact p)) (h2 i q (by rw [← hb]; exact q))

lemma rel_mono {A B : Type} {R R' : A → B → Prop} (hR : ∀ a b, R a b → R' a b) {x : Vals A} {v : Vals B} (h : Rel R x v) : Rel R' x v := by
  induction h with
  | one a b h => exact .one _ _ (hR _ _ h)
  | many l m hl h ih => exact .many _ _ hl ih

/-- A kernel described by the content `L` is described by any content with the same entries. -/
lemma describes_congr {s : State} {M : Logical ℝ} {k : Kernel ℝ} (h : Describes s k) (e1 : M.n1 = s.L.n1) (e2 : M.n2 = s.L.n2) (e3 : M.S1 = s.L.S1)
    (e4 : M.S2 = s.L.S2) (h12 : ∀ i j p q, i < M.n1 → j < M.n2 → InRange p M.S1 → InRange q M.S2 → s.L.k12 [i, j] p q = M.k12 [i, j] p q)
    (h11 : ∀ i j p q, i < M.n1 → j < M.n1 → InRange p M.S1 → InRange q M.S1 → s.L.k11 [i, j] p q = M.k11 [i, j] p q)
    (h22 : OptRel (fun F G => ∀ i j p q, i < M.n2 → j < M.n2 → InRange p M.S2 → InRange q M.S2 → F [i, j] p q = G [i, j] p q) s.L.k22 M.k22)
    (ht : OptRel (fun F G => (∀ i j p q, i < M.n1 → j < M.n2 → InRange p M.S1 → InRange q M.S2 → F [i, j] p q = G [i, j] p q) ∧
      (s.full = true ∨ ∀ b p q, G b p q = F b p q)) s.L.ntk M.ntk) : Describes { s with L := M } k := by
  have key : ∀ {n n' : ℕ} {b : List ℕ}, InRange b [n, n'] → ∃ i j, b = [i, j] ∧ i < n ∧ j < n' := by
    intro n n' b hb
    rcases b with _ | ⟨i, _ | ⟨j, _ | ⟨l, b⟩⟩⟩ <;> simp_all [InRange]
  have key2 : ∀ {n : ℕ} {db : Bool} {b : List ℕ}, InRange b (batchShape db n) → ∃ i j, dbl b = [i, j] ∧ i < n ∧ j < n := by
    intro n db b hb
    cases db
    · obtain ⟨i, j, rfl, hi, hj⟩ := key hb
      exact ⟨i, j, rfl, hi, hj⟩
    · rcases b with _ | ⟨i, _ | ⟨j, b⟩⟩ <;> simp_all [InRange, batchShape, dbl]
  have s1 := h.stores
  refine ⟨⟨?_, ?_, ?_, ?_⟩, h.static, h.same, h.mask1, h.mask2, h.full, h.zero⟩
  · have := s1.nngp
    rw [← e1, ← e2, ← e3, ← e4] at this
    refine this.congr fun b p q hb hp hq => ?_
    obtain ⟨i, j, rfl, hi, hj⟩ := key hb
    exact h12 i j p q hi hj hp hq
  · have := s1.cov1
    rw [← e1, ← e3] at this
    refine this.congr fun b p q hb hp hq => ?_
    obtain ⟨i, j, e, hi, hj⟩ := key2 hb
    rw [e]
    exact h11 i j p q hi hj hp hq
  · have := s1.cov2
    rw [← e2, ← e4] at this
    cases g1 : k.cov2 <;> cases g2 : s.L.k22 <;> cases g3 : M.k22 <;> rw [g1, g2] at this <;> rw [g2, g3] at h22 <;> simp only [OptRel] at this h22 ⊢
    refine this.congr fun b p q hb hp hq => ?_
    obtain ⟨i, j, e, hi, hj⟩ := key2 hb
    rw [e]
    exact h22 i j p q hi hj hp hq
  · have := s1.ntk
    rw [← e1, ← e2, ← e3, ← e4] at this
    cases g1 : k.ntk <;> cases g2 : s.L.ntk <;> cases g3 : M.ntk <;> rw [g1, g2] at this <;> rw [g2, g3] at ht <;> simp only [OptRel] at this ht ⊢
    rename_i a F G
    have hk : Holds a [M.n1, M.n2] M.S1 M.S2 k.diagonalSpatial k.isReversed F → Holds a [M.n1, M.n2] M.S1 M.S2 k.diagonalSpatial k.isReversed G := by
      refine fun hF => hF.congr fun b p q hb hp hq => ?_
      obtain ⟨i, j, rfl, hi, hj⟩ := key hb
      exact ht.1 i j p q hi hj hp hq
    rcases this with ⟨g4, g5⟩ | g4
    · rcases ht.2 with g6 | g6
      · exact absurd g4 (h.full g6 a g1)
      · exact .inl ⟨g4, fun b p q => (g6 b p q).trans (g5 b p q)⟩
    · exact .inr (hk g4)

lemma select_aux {net : Net} {v w : Vals State} (h : PerExample σ net v w) {N1 N2 : ℕ}
    (hv : Every (fun s => s.L.n1 = N1 ∧ s.L.n2 = N2 ∧ s.L.Closed ∧ σ.Fits s.L ∧ ∀ F, s.L.ntk = some F → s.full = true ∨ ∀ b p q, F b p q = 0) v)
    {x x' : Vals (Kernel ℝ)} (hx : Rel (fun k s => Describes s k) x v) (hx' : Rel (fun k s => Describes (s.pick σ) k) x' v) :
    ∃ y y' w', net.run x = .ok y ∧ net.run x' = .ok y' ∧ Rel (fun k s => Describes s k) y w ∧ Rel (fun k s => Describes s k) y' w' ∧
      Rel (fun s t => t = s.pick (extend σ N1 N2) ∧ Full (extend σ N1 N2) s.L) w w' := by
  have hx2 : Rel (fun k s => Describes (s.pick (extend σ N1 N2)) k ∧ Full (extend σ N1 N2) s.L) x' v := by
    have := rel_every hx' hv
    refine rel_mono (fun k s hs => ?_) this
    obtain ⟨h1, rfl, rfl, h3, h4, h5⟩ := hs
    refine ⟨?_, extend_full h3 h4⟩
    have a1 : ∀ i, i < σ.m1 → (extend σ s.L.n1 s.L.n2).f i = σ.f i := fun i hi => if_pos hi
    have a2 : ∀ i, i < σ.m2 → (extend σ s.L.n1 s.L.n2).g i = σ.g i := fun i hi => if_pos hi
    refine describes_congr (M := s.L.pick (extend σ s.L.n1 s.L.n2)) h1 rfl rfl rfl rfl ?_ ?_ ?_ ?_
    · intro i j p q hi hj _ _
      simp only [State.pick, Logical.pick, pick2, List.getD_cons_zero, List.getD_cons_succ, a1 i hi, a2 j hj]
    · intro i j p q hi hj _ _
      simp only [State.pick, Logical.pick, pick2, List.getD_cons_zero, List.getD_cons_succ, a1 i hi, a1 j hj]
    · simp only [State.pick, Logical.pick]
      cases s.L.k22 with
      | none => trivial
      | some F =>
        intro i j p q hi hj _ _
        simp only [pick2, List.getD_cons_zero, List.getD_cons_succ, a2 i hi, a2 j hj]
    · have hz' : ∀ F, s.L.ntk = some F → s.full = true ∨ ∀ b p q, F b p q = 0 := h5
      simp only [State.pick, Logical.pick]
      cases hn : s.L.ntk with
      | none => trivial
      | some F =>
        refine ⟨fun i j p q hi hj _ _ => ?_, (hz' F hn).imp id fun h b p q => ?_⟩
        · simp only [pick2, List.getD_cons_zero, List.getD_cons_succ, a1 i hi, a2 j hj]
        · simp only [pick2, h]
  obtain ⟨v', h1, h2⟩ := rel_pick (R := fun k s => Describes s k) hx2
  obtain ⟨w', h3, h4⟩ := net_pick (perExample_extend N1 N2 h) h2
  obtain ⟨y, e1, f1⟩ := net_sound (perExample_sem h) hx
  obtain ⟨y', e2, f2⟩ := net_sound h3 h1
  exact ⟨y, y', w', e1, e2, f1, f2, h4⟩

/-- What a network computes from the kernels of selected examples is the selection from what it computes from the kernels of all examples.  `v`
describes the kernels given to the network for all (`N1` and `N2`) examples, `PerExample` says that every layer is applied as documented and treats
the examples one by one.  A tangent kernel is an array, or 0 as that of the inputs.  Missing for the full property: `Aggregate`
and masked inputs
(for these see the file with suffix `Masked`). -/
theorem network_select_partial {net : Net} {v w : Vals State} (h : PerExample σ net v w) {N1 N2 : ℕ}
    (hv : Every (fun s => s.L.n1 = N1 ∧ s.L.n2 = N2 ∧ s.L.Closed ∧ σ.Fits s.L ∧ ∀ F, s.L.ntk = some F → s.full = true ∨ ∀ b p q, F b p q = 0) v)
    {x x' : Vals (Kernel ℝ)} (hx : Rel (fun k s => Describes s k) x v) (hx' : Rel (fun k s => Describes (s.pick σ) k) x' v) :
    ∃ y y', net.run x = .ok y ∧ net.run x' = .ok y' ∧ Rel (Picked σ) y y' := by
  obtain ⟨y, y', w', h1, h2, h3, h4, h5⟩ := select_aux h hv hx hx'
  exact ⟨y, y', h1, h2, rel_trans3 h5 h3 h4⟩

lemma set_act {B A : ℕ} (hne : B ≠ A) {m : ℕ} (hB : B < m + 2) (hA : A < m + 2) (b b' c : ℕ) (p : List ℕ) (hp : p.length = m) :
    (actIdx B A b c p).set B b' = actIdx B A b' c p ∧ (actIdx B A b c p).getD B 0 = b := by
  refine ⟨?_, (gather_act B A b c p hne (by omega) (by omega)).2.1⟩
  obtain ⟨u, v, h, ⟨h1, h2, e⟩ | ⟨h1, h2, e⟩⟩ := actIdx_split (β := ℕ) B A hne m hB hA
  · rw [e _ _ _ hp, e _ _ _ hp]
    have : (p.take u).length = u := by simp; omega
    rw [List.set_append_right _ _ (by omega)]
    simp [h1, this]
  · rw [e _ _ _ hp, e _ _ _ hp]
    have : (p.take u).length = u := by simp; omega
    have h3 : ((p.drop u).take v).length = v := by simp; omega
    rw [List.set_append_right _ _ (by omega), h2, this, show u + 1 + v - u = v + 1 by omega, List.set_cons_succ, List.set_append_right _ _ (by omega), h3]
    simp

lemma inRange_act {B A : ℕ} (hne : B ≠ A) {S : List ℕ} (hB : B < S.length + 2) (hA : A < S.length + 2) {n C i c : ℕ} {p : List ℕ} (hi : i < n) (hc : c < C)
    (hp : InRange p S) : InRange (actIdx B A i c p) (actIdx B A n C S) := by
  have hl := hp.length
  unfold actIdx
  split
  · exact inRange_insert (inRange_insert hp (by omega) hi) (by rw [List.length_insertIdx]; split <;> omega) hc
  · exact inRange_insert (inRange_insert hp (by omega) hc) (by rw [List.length_insertIdx]; split <;> omega) hi

lemma takes_get {B A : ℕ} (hne : B ≠ A) {S : List ℕ} (hB : B < S.length + 2) (hA : A < S.length + 2) {n m C : ℕ} {x x' : Arr ℝ} {f : ℕ → ℕ}
    (hx : x.shape = actIdx B A n C S) (h : Takes m f B x x') :
    x'.shape = actIdx B A m C S ∧ ∀ i c p, i < m → c < C → InRange p S → x'.get (actIdx B A i c p) = x.get (actIdx B A (f i) c p) := by
  have hs : x'.shape = actIdx B A m C S := by
    rw [h.shape, hx]
    exact (set_act hne hB hA _ _ _ _ rfl).1
  refine ⟨hs, fun i c p hi hc hp => ?_⟩
  rw [h.get _ (by rw [hs]; exact inRange_act hne hB hA hi hc hp), (set_act hne hB hA i 0 c p hp.length).2,
    (set_act hne hB hA i (f i) c p hp.length).1]

lemma meanProd_takes {B A : ℕ} (hne : B ≠ A) {S T : List ℕ} (hST : S.length = T.length) (hB : B < S.length + 2) (hA : A < S.length + 2) {n m n' m' C : ℕ}
    {x x' y y' : Arr ℝ} {f g : ℕ → ℕ} (hx : x.shape = actIdx B A n C S) (h : Takes m f B x x') (hy : y.shape = actIdx B A n' C T) (h' : Takes m' g B y y')
    {i j : ℕ} {p q : List ℕ} (hi : i < m) (hj : j < m') (hp : InRange p S) (hq : InRange q T) :
    C35.meanProd none x' y' B A C [i, j] p q = C35.meanProd none x y B A C [f i, g j] p q := by
  unfold C35.meanProd
  congr 1
  refine Finset.sum_congr rfl fun c hc => ?_
  have hc := Finset.mem_range.1 hc
  simp only [List.getD_cons_zero, List.getD_cons_succ]
  show x'.get _ * y'.get _ = x.get _ * y.get _
  rw [(takes_get hne hB hA hx h).2 i c p hi hc hp, (takes_get hne (by omega) (by omega) hy h').2 j c q hj hc hq]

lemma inputs_aux (x1 x1' : Arr ℝ) (x2 x2' : Option (Arr ℝ)) (db ds ntk same : Bool) (ba ca : ℤ) (n1 n2 C : ℕ) (S1 S2 : List ℕ) (B A : ℕ)
    (hB : (B : ℤ) = ba % (S1.length + 2)) (hA : (A : ℤ) = ca % (S1.length + 2)) (hne : B ≠ A) (hS : S1.length = S2.length)
    (hds : ds = true → S1 = S2) (h1 : x1.shape = actIdx B A n1 C S1) (h2 : (x2.getD x1).shape = actIdx B A n2 C S2)
    (hf : ∀ i, i < σ.m1 → σ.f i < n1) (hg : ∀ i, i < σ.m2 → σ.g i < n2) (hn : x2 = none → σ.m1 = σ.m2 ∧ ∀ i, i < σ.m1 → σ.f i = σ.g i)
    (t1 : Takes σ.m1 σ.f B x1 x1') (t2 : OptRel (Takes σ.m2 σ.g B) x2 x2') {net : Net} {w : Vals State}
    (h : PerExample σ net (.one (C80.inputState x1 x2 db ds ntk same B A C n1 n2 S1 S2)) w) :
    ∃ k k' y y' w', Inputs.inputsToKernel x1 x2 db ds ntk ba (some ca) none same = .ok k ∧
      Inputs.inputsToKernel x1' x2' db ds ntk ba (some ca) none σ.same = .ok k' ∧
      net.run (.one k) = .ok y ∧ net.run (.one k') = .ok y' ∧ Rel (fun k s => Describes s k) y w ∧ Rel (fun k s => Describes s k) y' w' ∧
      Rel (fun s t => t = s.pick (extend σ n1 n2) ∧ Full (extend σ n1 n2) s.L) w w' := by
  have hBl : B < S1.length + 2 := by
    have := Int.emod_lt_of_pos ba (b := (S1.length : ℤ) + 2) (by omega)
    omega
  have hAl : A < S1.length + 2 := by
    have := Int.emod_lt_of_pos ca (b := (S1.length : ℤ) + 2) (by omega)
    omega
  have hcl : x2 = none → n2 = n1 ∧ S2 = S1 := by
    rintro rfl
    rw [Option.getD_none, h1] at h2
    have := (C56.actIdx_inj B A C hS hBl hAl hne).1 h2
    exact ⟨this.1.symm, this.2.symm⟩
  have t2' : Takes σ.m2 σ.g B (x2.getD x1) (x2'.getD x1') := by
    cases x2 with
    | none =>
      cases x2' with
      | none =>
        obtain ⟨h5, h6⟩ := hn rfl
        refine ⟨by rw [← h5]; exact t1.shape, fun i hi => ?_⟩
        have h7 := t1.get i hi
        rw [Option.getD_none, Option.getD_none, ← h6]
        · exact h7
        · have hs := (takes_get hne hBl hAl h1 t1).1
          have hi' : InRange i x1'.shape := hi
          have := (inRange_iff.1 hi').2 B (by rw [hs, actIdx_length B A _ _ _ hne hBl hAl]; exact hBl)
          rw [hs, (set_act hne hBl hAl _ 0 _ _ rfl).2] at this
          exact this
      | some _ => simp [OptRel] at t2
    | some a =>
      cases x2' with
      | none => simp [OptRel] at t2
      | some b => exact t2
  have s1 := (takes_get hne hBl hAl h1 t1).1
  have s2 := (takes_get hne (by omega) (by omega) h2 t2').1
  obtain ⟨k, e1, f1, g1⟩ := C35.second_moment none db ds ntk same x1 x2 ba ca n1 n2 C S1 S2 B A hB hA hne hS hds h1 h2
  obtain ⟨k', e2, f2, g2⟩ := C35.second_moment none db ds ntk σ.same x1' x2' ba ca σ.m1 σ.m2 C S1 S2 B A hB hA hne hS hds s1 s2
  have hd := C80.input_describes f2 g2
  have hd' : Describes ((C80.inputState x1 x2 db ds ntk same B A C n1 n2 S1 S2).pick σ) k' := by
    have := describes_congr (M := (C35.second none x1 x2 ntk B A C n1 n2 S1 S2).pick σ) hd rfl rfl rfl rfl
      (fun i j p q hi hj hp hq => meanProd_takes hne hS hBl hAl h1 t1 h2 t2' hi hj hp hq)
      (fun i j p q hi hj hp hq => meanProd_takes hne rfl hBl hAl h1 t1 h1 t1 hi hj hp hq) ?_ ?_
    · convert this using 1
      refine state_ext rfl ?_ rfl rfl
      simp only [State.pick, C80.inputState, t1.shape, t2'.shape]
    · cases x2 with
      | none => cases x2' <;> simp_all [OptRel, C80.inputState, C35.second, Logical.pick]
      | some a =>
        cases x2' with
        | none => simp [OptRel] at t2
        | some b =>
          intro i j p q hi hj hp hq
          exact meanProd_takes hne rfl (by omega) (by omega) h2 t2' h2 t2' hi hj hp hq
    · cases ntk
      · simp [OptRel, C80.inputState, C35.second, Logical.pick]
      · simp [OptRel, C80.inputState, C35.second, Logical.pick, pick2]
  obtain ⟨y, y', w', h3, h4, h5⟩ := select_aux h (N1 := n1) (N2 := n2) (.one _ ⟨rfl, rfl,
    fun hk => hcl (by simpa [C80.inputState, C35.second] using hk), ⟨hf, hg, fun hk => hn (by simpa [C80.inputState, C35.second] using hk)⟩,
    fun F hF => .inr fun b p q => by cases ntk <;> simp [C80.inputState, C35.second] at hF; rw [← hF]⟩) (.one _ _ (C80.input_describes f1 g1))
    (x' := .one k') (.one _ _ hd')
  exact ⟨k, k', y, y', w', e1, e2, h3, h4, h5⟩

/-- The whole computation, from the two batches of inputs: `kernel_fn(x1[f], x2[g])` is the block of the selected examples of `kernel_fn(x1, x2)`; also
without second inputs, where the same examples are selected on both sides. -/
theorem inputs_select_partial (x1 x1' : Arr ℝ) (x2 x2' : Option (Arr ℝ)) (db ds ntk same : Bool) (ba ca : ℤ) (n1 n2 C : ℕ) (S1 S2 : List ℕ) (B A : ℕ)
    (hB : (B : ℤ) = ba % (S1.length + 2)) (hA : (A : ℤ) = ca % (S1.length + 2)) (hne : B ≠ A) (hS : S1.length = S2.length)
    (hds : ds = true → S1 = S2) (h1 : x1.shape = actIdx B A n1 C S1) (h2 : (x2.getD x1).shape = actIdx B A n2 C S2)
    (hf : ∀ i, i < σ.m1 → σ.f i < n1) (hg : ∀ i, i < σ.m2 → σ.g i < n2) (hn : x2 = none → σ.m1 = σ.m2 ∧ ∀ i, i < σ.m1 → σ.f i = σ.g i)
    (t1 : Takes σ.m1 σ.f B x1 x1') (t2 : OptRel (Takes σ.m2 σ.g B) x2 x2') {net : Net} {w : Vals State}
    (h : PerExample σ net (.one (C80.inputState x1 x2 db ds ntk same B A C n1 n2 S1 S2)) w) :
    ∃ k k' y y', Inputs.inputsToKernel x1 x2 db ds ntk ba (some ca) none same = .ok k ∧
      Inputs.inputsToKernel x1' x2' db ds ntk ba (some ca) none σ.same = .ok k' ∧
      net.run (.one k) = .ok y ∧ net.run (.one k') = .ok y' ∧ Rel (Picked σ) y y' := by
  obtain ⟨k, k', y, y', w', e1, e2, h3, h4, h5, h6, h7⟩ :=
    inputs_aux x1 x1' x2 x2' db ds ntk same ba ca n1 n2 C S1 S2 B A hB hA hne hS hds h1 h2 hf hg hn t1 t2 h
  exact ⟨k, k', y, y', e1, e2, h3, h4, rel_trans3 h7 h5 h6⟩

/-! ### A concrete case: the residual network of C80, examples 2 and 0 of three against four copies of example 1 -/

lemma dense_per {s : State} {n1 n2 C : ℕ} (h : C80.Good n1 n2 C s) (hb : s.info.batchAxis = 0) :
    ∃ t, (∀ σ, PerExample σ (.layer (.dense C80.dense8) fun s => s.set 1 8) (.one s) (.one t)) ∧ C80.Good n1 n2 8 t ∧ C80.layout t = C80.layout s ∧
      t.full = true ∧ t.info.isGaussian = true ∧ t.info.isInput = false := by
  have hl : LayerSem (.dense C80.dense8) s
      { s with L := C52.after C80.dense8 C s.L, info := { s.info with isGaussian := true, isInput := false }, full := true } := by
    refine ⟨by simp [C80.dense8], by simp [C80.dense8], C, ?_, ?_, rfl⟩
    · rw [h.shape1]; simp [C80.dense8, pyGetNat]
    · rw [h.shape2]; simp [C80.dense8, pyGetNat]
  have hcl := layer_closed h.closed hl
  refine ⟨_, fun σ => .layer h.closed hl ?_ ?_ ?_, ⟨?_, ?_, hcl, C80.vars_dense h.vars⟩, ?_, rfl, rfl, rfl⟩
  · simp [Layer.PerExample, C80.dense8, h.shape1, h.shape2, hb]
  · simp [h.shape1, hb]
  · simp [h.shape2, hb]
  · simp [State.withShapes, h.shape1]
  · simp [State.withShapes, h.shape2]
  · simp [State.withShapes, C80.layout, C52.after]

lemma act_per {s : State} {n1 n2 C : ℕ} (h : C80.Good n1 n2 C s) (hg : s.info.isGaussian = true) {f : Kernel ℝ → Except Err (Kernel ℝ)} {φ : ℝ → ℝ}
    (hf : ∃ C dφ N T, (∀ v, 0 ≤ v → C v) ∧ Nonlinearity f C φ dφ N T) :
    ∃ t, (∀ σ, PerExample σ (.layer (.act f) id) (.one s) (.one t)) ∧ C80.Good n1 n2 C t ∧ C80.layout t = C80.layout s ∧ t.full = true := by
  obtain ⟨C1, d1, N1, T1, p1, a1⟩ := hf
  have hl : LayerSem (.act f) s { s with L := entrywise N1 T1 s.L, info := { s.info with isGaussian := false }, full := true } :=
    ⟨hg, C1, _, d1, N1, T1, a1, ⟨fun i p hi hp => p1 _ (h.vars.one i p hi hp), fun F hF i p hi hp => p1 _ (h.vars.two F hF i p hi hp)⟩, rfl⟩
  have hcl := layer_closed h.closed hl
  refine ⟨_, fun σ => .layer h.closed hl trivial rfl rfl, ⟨?_, ?_, hcl, vars_entrywise a1 p1 h.vars⟩, ?_, rfl⟩
  · exact h.shape1
  · exact h.shape2
  · simp [State.withShapes, C80.layout, entrywise]

/-- The network treats the examples one by one. -/
lemma resnet_per {s : State} {n1 n2 C : ℕ} (h : C80.Good n1 n2 C s) (hr : s.info.isReversed = false) (hb : s.info.batchAxis = 0) :
    ∃ t, (∀ σ, PerExample σ C80.resnet (.one s) (.one t)) ∧ t.full = true ∧ (t.L.S1 = s.L.S1 ∧ t.L.S2 = s.L.S2) ∧
      t.info = ⟨true, false, false, s.info.diagonalBatch, s.info.diagonalSpatial, [n1, 8], [n2, 8], 0, s.info.channelAxis⟩ := by
  obtain ⟨s1, e1, g1, l1, f1, q1, i1⟩ := dense_per h hb
  obtain ⟨s2, e2, g2, l2, f2⟩ := act_per g1 q1 (abRelu_nonlinearity 0 1)
  have l12 : C80.layout s2 = C80.layout s := l2.trans l1
  have b2 : s2.info.batchAxis = 0 := by
    simp only [C80.layout, Prod.mk.injEq] at l12
    rw [l12.2.2.1, hb]
  obtain ⟨s3, e3, g3, l3, f3, q3, i3⟩ := dense_per g2 b2
  obtain ⟨s4, e4, g4, l4, f4⟩ := act_per g3 q3 (erf_nonlinearity 1 1 0)
  have l7 : C80.layout s3 = C80.layout s := l3.trans l12
  have l47 : C80.layout s4 = C80.layout s := l4.trans l7
  have b4 : s4.info.batchAxis = 0 := by
    simp only [C80.layout, Prod.mk.injEq] at l47
    rw [l47.2.2.1, hb]
  obtain ⟨s5, e5, g5, l5, f5, q5, i5⟩ := dense_per g4 b4
  have e0 : ∀ σ, PerExample σ (.layer .identity id) (.one s3) (.one s3) := fun σ => .layer (s := s3) (t := s3) (out := id) g3.closed rfl trivial rfl rfl
  have l6 : C80.layout s5 = C80.layout s3 := l5.trans l4
  simp only [C80.layout, Prod.mk.injEq] at l6 l7
  have hfan : FanSem .sum ![s3, s5] { s3 with
      L := C38.sumL s3.L.k22.isSome s3.L.ntk.isSome fun r => ((![s3, s5] : Fin 2 → State) r).L
      info := { s3.info with isReversed := majority (![s3, s5] : Fin 2 → State) } } := by
    refine ⟨⟨?_, ?_, ?_, ?_, ?_, ?_, ?_, ?_⟩, .inl ?_, ?_, s3.L.k22.isSome, s3.L.ntk.isSome, ?_, ?_, rfl⟩
    all_goals first | (intro r; fin_cases r; done) | (intro r; fin_cases r) | (intro _ r; fin_cases r)
    all_goals simp_all [g3.shape1, g3.shape2, g5.shape1, g5.shape2]
  have hp : ∀ σ, PerExample σ (.par 2 ![.layer .identity id,
      .seq (.layer (.act fun k => (erfDual.kernelFn (k.mul 1)).map fun k => (k.mul 1).add 0) id) (.layer (.dense C80.dense8) fun s => s.set 1 8)])
      (.many (List.ofFn ![.one s3, .one s3])) (.many (List.ofFn ![.one s3, .one s5])) := by
    refine fun σ => .par fun i => ?_
    fin_cases i
    · exact e0 σ
    · exact .seq (e4 σ) (e5 σ)
  have hm : majority (![s3, s5] : Fin 2 → State) = false := by
    have h3 : s3.info.isReversed = false := by rw [l7.2.2.2.2.1]; exact hr
    have h5 : s5.info.isReversed = false := by rw [l6.2.2.2.2.1]; exact h3
    simp [majority, h3, h5]
  have hf : ∀ σ, _ := fun σ => PerExample.fanIn (σ := σ) (out := fun s => s.getD 0 []) (fun r => by fin_cases r; exacts [g3.closed, g5.closed]) hfan
    (by simp) (by simp [List.ofFn_succ]) (by simp [List.ofFn_succ])
  refine ⟨_, fun σ => .seq (e1 σ) (.seq (e2 σ) (.seq (e3 σ) (.seq .fanOut (.seq (hp σ) (hf σ))))), f3, ⟨l7.2.2.2.2.2.2.2.2.1, l7.2.2.2.2.2.2.2.2.2.1⟩, ?_⟩
  simp [State.withShapes, List.ofFn_succ, g3.shape1, g3.shape2, q3, i3, hm, l7.1, l7.2.1, l7.2.2.1, l7.2.2.2.1, hb]

/-- A selection of two of the first and four of the second inputs. -/
def someExamples : Pick where
  m1 := 2
  m2 := 4
  f i := 2 - 2 * i
  g _ := 1
  same := false

example (x1 x2 : Arr ℝ) (db ds same : Bool) (h1 : x1.shape = [3, 5]) (h2 : x2.shape = [2, 5]) :
    ∃ k k' y y', Inputs.inputsToKernel x1 (some x2) db ds true 0 (some (-1)) none same = .ok k ∧
      Inputs.inputsToKernel ⟨[2, 5], fun i => x1.get (i.set 0 (2 - 2 * i.getD 0 0))⟩ (some ⟨[4, 5], fun i => x2.get (i.set 0 1)⟩) db ds true 0 (some (-1)) none false
        = .ok k' ∧
      C80.resnet.run (.one k) = .ok y ∧ C80.resnet.run (.one k') = .ok y' ∧ Rel (Picked someExamples) y y' := by
  obtain ⟨t, ht, -⟩ := resnet_per (C80.input_good x1 x2 db ds true same 3 2 5 h1 h2) rfl rfl
  refine inputs_select_partial x1 _ (some x2) (some _) db ds true same 0 (-1) 3 2 5 [] [] 0 1 (by simp) (by simp) (by simp) rfl (by simp) h1 h2 ?_ ?_
    (by simp) ⟨?_, ?_⟩ ⟨?_, ?_⟩ (ht someExamples)
  · intro i _
    show 2 - 2 * i < 3
    omega
  · intro i _
    show 1 < 2
    omega
  · rw [h1]; rfl
  · intro i _; rfl
  · rw [h2]; rfl
  · intro i _; rfl

end NT.C82
