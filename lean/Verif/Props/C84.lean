import Verif.Tac
import Verif.Lemmas.Explicit
import Verif.Props.C83

/-!
# C84: `kernel_fn(x, None)` and `kernel_fn(x, x)`
-/

namespace NT.C84
open NT NT.Network NT.Spec NT.Semantics NT.Arr NT.Kernel

lemma completed_of {s : State} {k k' : Kernel ℝ} (hc : s.L.Closed) (hn : s.L.k22 = none) (h : Describes s k) (h' : Describes s.explicit k') : Completed k k' := by
  have e : k'.static = k.static := by
    rw [h'.static, h.static]
    rfl
  have ds : k'.diagonalSpatial = k.diagonalSpatial := congrArg Static.diagonalSpatial e
  have rv : k'.isReversed = k.isReversed := congrArg Static.isReversed e
  have db : k'.diagonalBatch = k.diagonalBatch := congrArg Static.diagonalBatch e
  have s1 := h.stores
  have s2 := h'.stores
  have c2 := s1.cov2
  have c2' := s2.cov2
  have c1' := s2.cov1
  have nn := s2.nngp
  have t1 := s1.ntk
  have t2 := s2.ntk
  rw [ds, rv] at nn c1' c2' t2
  rw [db] at c1' c2'
  simp only [State.explicit, Logical.explicit] at nn c1' c2' t2
  refine ⟨nn.eqv s1.nngp, ?_, c1'.eqv s1.cov1, ?_, ?_, e, ?_, by rw [h.mask1, h'.mask1], by rw [h.mask2, h'.mask2]⟩
  · cases e1 : s.L.ntk with
    | none =>
      rw [e1] at t1 t2
      cases f1 : k.ntk <;> cases f2 : k'.ntk <;> rw [f1] at t1 <;> rw [f2] at t2 <;> simp_all [OptRel]
    | some F =>
      rw [e1] at t1 t2
      cases f1 : k.ntk with
      | none => rw [f1] at t1; simp [OptRel] at t1
      | some a =>
        cases f2 : k'.ntk with
        | none => rw [f2] at t2; simp [OptRel] at t2
        | some a' =>
          rw [f1] at t1
          rw [f2] at t2
          simp only [OptRel] at t1 t2 ⊢
          have hz : ∀ {b : Arr ℝ}, b.shape = [] → b.get [] = 0 → ∀ i, InRange i b.shape → b.get i = 0 := by
            intro b hb h0 i hi
            rw [hb] at hi
            cases hi
            exact h0
          rcases t1 with ⟨g1, g2⟩ | g1
          · have z := h.zero a f1 g1
            rcases t2 with ⟨g3, g4⟩ | g3
            · exact .inl ⟨.inl g1, hz g1 z, hz g3 (h'.zero a' f2 g3)⟩
            · exact .inl ⟨.inl g1, hz g1 z, C80.holds_zero g3 fun b p q => by rw [g2, z]⟩
          · rcases t2 with ⟨g3, g4⟩ | g3
            · have z := h'.zero a' f2 g3
              exact .inl ⟨.inr g3, C80.holds_zero g1 fun b p q => by rw [g4, z], hz g3 z⟩
            · exact .inr (g3.eqv g1)
  · cases f2 : k'.cov2 with
    | none => rw [f2] at c2'; exact c2'.elim
    | some c =>
      rw [f2] at c2'
      refine ⟨c, rfl, ?_⟩
      simp only [OptRel] at c2'
      rw [(hc hn).1, (hc hn).2, second_none hn] at c2'
      exact c2'.eqv s1.cov1
  · rw [hn] at c2
    cases f1 : k.cov2 with
    | some c => rw [f1] at c2; exact c2.elim
    | none => rfl
  · refine ⟨by rw [h.same.1, h'.same.1], fun i hi => ?_⟩
    rw [h'.same.1] at hi
    cases hi
    rw [h.same.2, h'.same.2]
    rfl

lemma rel_trans3 {w w' : Vals State} (hw : Rel (fun s t => t = s.explicit) w w') : ∀ {y y' : Vals (Kernel ℝ)},
    Rel (fun k s => (Describes s k ∧ s.L.Closed) ∧ s.L.k22 = none) y w → Rel (fun k s => Describes s k) y' w' → Rel Completed y y' := by
  induction hw with
  | one s t h =>
    intro y y' h1 h2
    cases h1 with
    | one k _ h1 =>
      cases h2 with
      | one k' _ h2 => exact .one _ _ (completed_of h1.1.2 h1.2 h1.1.1 (h ▸ h2))
  | many l m hl h ih =>
    intro y y' h1 h2
    cases h1 with
    | many a _ ha h1 =>
      cases h2 with
      | many b _ hb h2 =>
        refine .many _ _ (by rw [ha, hl, hb]) fun i p q => ?_
        exact ih i (by rw [← ha]; exact p) (by rw [← hb]; exact q) (h1 i p (by rw [← ha]; exact p)) (h2 i q (by rw [← hb]; exact q))

lemma input_explicit (x : Arr ℝ) (db ds ntk same : Bool) (B A C n : ℕ) (S : List ℕ) :
    C80.inputState x (some x) db ds ntk same B A C n n S S = (C80.inputState x none db ds ntk same B A C n n S S).explicit := rfl

/-- `kernel_fn(x, None)` and `kernel_fn(x, x)` of a network: both calls succeed and return the same `nngp`, `ntk`, `cov1` and static fields; `cov2`
of the first is `None` and that of the second is `cov1`.  Missing for the full property: as in C80. -/
theorem none_is_self_partial (x : Arr ℝ) (db ds ntk same : Bool) (ba ca : ℤ) (n C : ℕ) (S : List ℕ) (B A : ℕ)
    (hB : (B : ℤ) = ba % (S.length + 2)) (hA : (A : ℤ) = ca % (S.length + 2)) (hne : B ≠ A) (h1 : x.shape = actIdx B A n C S) {net : Net} {w : Vals State}
    (h : NetSem net (.one (C80.inputState x none db ds ntk same B A C n n S S)) w) :
    ∃ k k' y y', Inputs.inputsToKernel x none db ds ntk ba (some ca) none same = .ok k ∧
      Inputs.inputsToKernel x (some x) db ds ntk ba (some ca) none same = .ok k' ∧
      net.run (.one k) = .ok y ∧ net.run (.one k') = .ok y' ∧ Rel Completed y y' := by
  obtain ⟨k, e1, f1, g1⟩ := C35.second_moment none db ds ntk same x none ba ca n n C S S B A hB hA hne rfl (fun _ => rfl) h1 h1
  obtain ⟨k', e2, f2, g2⟩ := C35.second_moment none db ds ntk same x (some x) ba ca n n C S S B A hB hA hne rfl (fun _ => rfl) h1 h1
  have hc : Every (fun s => s.L.Closed) (.one (C80.inputState x none db ds ntk same B A C n n S S)) := .one _ fun _ => ⟨rfl, rfl⟩
  obtain ⟨w', h3, h4⟩ := net_explicit h (v' := .one (C80.inputState x (some x) db ds ntk same B A C n n S S)) (.one _ _ rfl)
  obtain ⟨y, r1, d1⟩ := net_sound h (.one _ _ (C80.input_describes f1 g1))
  obtain ⟨y', r2, d2⟩ := net_sound h3 (.one _ _ (C80.input_describes f2 g2))
  exact ⟨k, k', y, y', e1, e2, r1, r2, rel_trans3 h4 (rel_every (rel_every d1 (net_closed h hc)) (net_none h (.one _ rfl))) d2⟩

lemma eqv_trans {α : Type} {a b c : Arr α} (h : a ≋ b) (h' : b ≋ c) : a ≋ c :=
  ⟨h.1.trans h'.1, fun i hi => (h.2 i hi).trans (h'.2 i (h.1 ▸ hi))⟩

lemma input_good_none (x : Arr ℝ) (db ds ntk same : Bool) (n C : ℕ) (h : x.shape = [n, C]) :
    C80.Good n n C (C80.inputState x none db ds ntk same 0 1 C n n [] []) := by
  refine ⟨h, h, fun _ => ⟨rfl, rfl⟩, (C80.input_good x x db ds ntk same n n C h h).vars.one, fun F hF => ?_⟩
  simp [C80.inputState, C35.second] at hF

example (x : Arr ℝ) (db ds same : Bool) (h : x.shape = [4, 3]) :
    ∃ k k' y y', Inputs.inputsToKernel x none db ds true 0 (some (-1)) none same = .ok k ∧
      Inputs.inputsToKernel x (some x) db ds true 0 (some (-1)) none same = .ok k' ∧
      C80.resnet.run (.one k) = .ok y ∧ C80.resnet.run (.one k') = .ok y' ∧ Rel Completed y y' := by
  obtain ⟨t, ht, -⟩ := C80.resnet_sem (input_good_none x db ds true same 4 3 h) rfl
  exact none_is_self_partial x db ds true same 0 (-1) 4 3 [] 0 1 (by simp) (by simp) (by simp) h ht

end NT.C84
