import Verif.Tac
import Verif.Lemmas.Semantics
import Verif.Lemmas.AttentionNet2

/-!
The layers keep the agreement of the two inputs of a kernel without covariances of the second.
-/

namespace NT.Semantics
open NT NT.Network NT.Spec

lemma layer_closed {l : Layer} {s t : State} (hc : s.L.Closed) (hl : LayerSem l s t) : t.L.Closed := by
  cases l with
  | dense d =>
    obtain ⟨-, -, C, -, -, rfl⟩ := hl
    intro h
    exact hc (by simpa [C52.after] using h)
  | conv d =>
    obtain ⟨-, -, -, -, -, -, -, -, rfl⟩ := hl
    intro h
    have := hc (by simpa [C53.after] using h)
    simp only [C53.after]
    exact ⟨this.1, by rw [this.2]⟩
  | convTranspose d =>
    obtain ⟨-, -, -, -, -, -, -, -, -, rfl⟩ := hl
    intro h
    have := hc (by simpa [C97.after] using h)
    simp only [C97.after]
    exact ⟨this.1, by rw [this.2]⟩
  | pool d =>
    obtain ⟨-, -, -, -, rfl⟩ := hl
    intro h
    have := hc (by simpa [C54.pooled, linLogical] using h)
    simp only [C54.pooled, linLogical]
    exact ⟨this.1, by rw [this.2]⟩
  | globalPool d =>
    obtain ⟨-, -, rfl⟩ := hl
    intro h
    have := hc (by simpa [C54.globalPooled, linLogical] using h)
    exact ⟨this.1, by simp [C54.globalPooled, linLogical]⟩
  | flatten f =>
    obtain ⟨bo, co, -, -, -, rfl⟩ := hl
    intro h
    have := hc (by simpa [C55.flat] using h)
    exact ⟨this.1, by simp [C55.flat]⟩
  | dropout d =>
    obtain ⟨-, -, ⟨-, rfl⟩ | ⟨-, -, -, -, rfl⟩⟩ := hl
    · exact hc
    · intro h
      exact hc (by simpa [C56.after] using h)
  | layerNorm axis eps ba ca =>
    obtain ⟨-, -, -, -, -, -, b, c, ax, -, -, -, -, -, -, rfl⟩ := hl
    intro h
    exact hc (by simpa [normalised] using h)
  | act f =>
    obtain ⟨-, C, φ, dφ, N, T, -, -, rfl⟩ := hl
    intro h
    exact hc (by simpa [entrywise] using h)
  | dotGeneral other isLhs inputC otherC inputB otherB =>
    obtain ⟨hok, h0, n1, n2, S1, S2, -, -, -, -, rfl⟩ := hl
    intro h
    have := hc (by simpa [Contraction.logical] using h)
    refine ⟨this.1, ?_⟩
    have h3 := this.2
    rw [S1, S2] at h3
    have e : ∀ a, a < s.info.shape1.length → a ≠ s.info.batchAxis → a ≠ s.info.channelAxis →
        s.info.shape2.getD a 0 = s.info.shape1.getD a 0 := fun a g1 g2 g3 =>
      List.map_inj_left.1 h3 a (by simp [spatialAxes, g1, g2, g3])
    simp only [Contraction.logical, Contraction.outShape]
    refine List.map_inj_left.2 fun x hx => ?_
    rcases x with a | a
    · have hm : a < s.info.shape1.length ∧ a ≠ s.info.batchAxis ∧ a ≠ s.info.channelAxis := by
        generalize hC : contraction s.info other.ndim isLhs inputC otherC inputB otherB = C at hok hx
        have e1 : s.info.shape1.length = C.n := by rw [← hC]; rfl
        have e2 : s.info.batchAxis = C.ba := by rw [← hC]; rfl
        have e3 : s.info.channelAxis = C.ca := by rw [← hC]; rfl
        rw [e1, e2, e3]
        have hx' : (a ∈ C.bs ∧ a ≠ C.ba) ∨ (a < C.n ∧ a ≠ C.ba ∧ a ≠ C.ca) := by
          unfold Contraction.outAxes at hx
          split at hx <;> simp at hx <;> tauto
        rcases hx' with ⟨g1, g2⟩ | g
        · exact ⟨hok.lt a (by simp [g1]), g2, fun g => hok.chan (by simp [← g, g1])⟩
        · exact g
      exact e a hm.1 hm.2.1 hm.2.2
    · rfl
  | index i =>
    obtain ⟨l, a, b, st, n1', n2', S1', S2', out1, out2, h, rfl⟩ := hl
    intro hn
    obtain ⟨h1, h2⟩ := hc (by simpa [indexed, C27.reindexed] using hn)
    have e1 := h.n2
    rw [h1] at e1
    have e2 := h.S2
    rw [h2] at e2
    exact ⟨Except.ok.inj (e1.symm.trans h.n1), Except.ok.inj (e2.symm.trans h.S1)⟩
  | resize d =>
    obtain ⟨B, A, oS, -, rfl⟩ := hl
    intro h
    have := hc (by simpa [C95.resizedSpatial, linLogical] using h)
    simp only [C95.resizedSpatial, linLogical]
    exact ⟨this.1, by rw [this.2]⟩
  | attention d =>
    obtain ⟨c, -, rfl⟩ := hl
    intro h
    obtain ⟨v1, v2, v3, v4⟩ := Attn.layer_shapes d c (fun _ _ => false) (fun _ _ => false) s.L
    simp only [v1, v2, v3, v4]
    exact hc (Attn.layer_none.1 h)
  | identity => cases hl; exact hc

lemma fan_closed {f : Fan} {m : ℕ} {s : Fin (m + 1) → State} {t : State} (hc : ∀ r, (s r).L.Closed) (hf : FanSem f s t) : t.L.Closed := by
  cases f with
  | sum =>
    obtain ⟨-, -, -, c2, cn, h4, -, rfl⟩ := hf
    intro h
    refine hc 0 ?_
    have := h4 0
    cases c2 <;> simp_all [C38.sumL]
  | prod =>
    obtain ⟨-, -, c2, cn, h4, -, rfl⟩ := hf
    intro h
    refine hc 0 ?_
    have := h4 0
    cases c2 <;> simp_all [C39.prodL]
  | concat axis =>
    rcases hf with hf | hf | hf
    rotate_left
    · obtain ⟨-, ax, c, -, -, -, -, -, -, -, c2, cn, h4, -, rfl⟩ := hf
      intro h
      have hn : ∀ r, (s r).L.k22 = none := fun r => by
        have := h4 r
        cases c2 <;> simp_all [C40.spatialL]
      have hc' := fun r => hc r (hn r)
      exact ⟨(hc' 0).1, by simp only [C40.spatialL, (hc' _).2]⟩
    · obtain ⟨-, -, -, -, -, -, -, c2, cn, h4, -, rfl⟩ := hf
      intro h
      have hn : ∀ r, (s r).L.k22 = none := fun r => by
        have := h4 r
        cases c2 <;> simp_all [C40.batchL]
      have hc' := fun r => hc r (hn r)
      exact ⟨by simp only [C40.batchL, (hc' _).1], (hc' 0).2⟩
    obtain ⟨-, -, -, -, -, w, -, -, -, c2, cn, h4, -, rfl⟩ := hf
    intro h
    refine hc 0 ?_
    have := h4 0
    cases c2 <;> simp_all [C40.channelL]

/-- Every member of a value satisfies `P`. -/
inductive Every {A : Type} (P : A → Prop) : Vals A → Prop
  | one (a : A) : P a → Every P (.one a)
  | many (l : List (Vals A)) : (∀ v ∈ l, Every P v) → Every P (.many l)

lemma rel_every {A B : Type} {R : A → B → Prop} {P : B → Prop} {x : Vals A} {v : Vals B} (h : Rel R x v) (hv : Every P v) :
    Rel (fun a b => R a b ∧ P b) x v := by
  induction h with
  | one a b h =>
    cases hv with
    | one _ hb => exact .one _ _ ⟨h, hb⟩
  | many l m hl h ih =>
    cases hv with
    | many _ hb => exact .many _ _ hl fun i h1 h2 => ih i h1 h2 (hb _ (List.getElem_mem h2))

/-- What every layer keeps, a network keeps. -/
theorem net_every {P : State → Prop} (hs : ∀ s a b, P s → P (s.withShapes a b))
    (hl : ∀ {l s t}, s.L.Closed → P s → LayerSem l s t → P t)
    (hf : ∀ {f} {m : ℕ} {s : Fin (m + 1) → State} {t}, (∀ r, (s r).L.Closed) → (∀ r, P (s r)) → FanSem f s t → P t)
    {net : Net} {v w : Vals State} (h : NetSem net v w) : Every P v → Every P w := by
  induction h with
  | @layer l out s t hc h =>
    rintro ⟨⟩
    exact .one _ (hs _ _ _ (hl hc ‹_› h))
  | @fanOut n v =>
    intro hv
    exact .many _ fun x hx => by rw [List.eq_of_mem_replicate hx]; exact hv
  | @fanIn f out m s t hc h =>
    intro hv
    cases hv with
    | many _ hv =>
      refine .one _ (hs _ _ _ (hf hc (fun r => ?_) h))
      have := hv (.one (s r)) ((List.mem_ofFn' _ _).2 ⟨r, rfl⟩)
      cases this
      assumption
  | seq _ _ ih1 ih2 => exact fun hv => ih2 (ih1 hv)
  | @par n branches u v h ih =>
    intro hv
    cases hv with
    | many _ hv =>
      refine .many _ fun x hx => ?_
      obtain ⟨i, rfl⟩ := (List.mem_ofFn' _ _).1 hx
      exact ih i (hv _ ((List.mem_ofFn' _ _).2 ⟨i, rfl⟩))

lemma net_closed {net : Net} {v w : Vals State} (h : NetSem net v w) (hv : Every (fun s => s.L.Closed) v) :
    Every (fun s => s.L.Closed) w :=
  net_every (P := fun s => s.L.Closed) (fun _ _ _ h => h) (fun hc _ hl => layer_closed hc hl) (fun hc _ hf => fan_closed hc hf) h hv

end NT.Semantics
