import Verif.Lemmas.Layout
import Verif.Props.C12

/-!
# C12: `Kernel.reverse`
-/

namespace NT.C12
open NT Arr Kernel Spec

variable {α : Type}

lemma reverseZipped_scalar (a : Arr α) (h : a.shape = []) :
    ∃ z, reverseZipped a 2 = .ok z ∧ z.shape = [] ∧ z.get [] = a.get [] := by
  obtain ⟨sh, g⟩ := a
  simp only at h
  subst h
  refine ⟨(⟨[], g⟩ : Arr α).moveaxis [] [], by simp [reverseZipped, reverseSource, pyRange, ndim], ?_, rfl⟩
  simp [moveaxis, moveaxisPerm, Arr.transpose, gather, ndim]

lemma kernel_reverse_aux (k : Kernel α) (L : Logical α) (hk : k.Stores L)
    (hd : k.diagonalSpatial = false) :
    ∃ k', k.reverse = .ok k' ∧ k'.Stores L ∧ k'.isReversed = !k.isReversed ∧
      k'.ntk.map ndim = k.ntk.map ndim ∧
      { k' with cov1 := k.cov1, nngp := k.nngp, cov2 := k.cov2, ntk := k.ntk,
                isReversed := k.isReversed } = k := by
  have hb1 : (batchShape k.diagonalBatch L.n1).length = k.batchNdim := batchShape_length _ _
  have hb2 : (batchShape k.diagonalBatch L.n2).length = k.batchNdim := batchShape_length _ _
  obtain ⟨z12, e12, h12⟩ := Holds.reverse (hd ▸ hk.nngp)
  obtain ⟨z11, e11, h11⟩ := Holds.reverse (hd ▸ hk.cov1)
  rw [hb1] at e11
  have h22 : ∃ z, onOpt (reverseZipped · k.batchNdim) k.cov2 = .ok z ∧
      OptRel (fun c F => Holds c (batchShape k.diagonalBatch L.n2) L.S2 L.S2 k.diagonalSpatial
        (!k.isReversed) (fun b => F (dbl b))) z L.k22 := by
    have := hk.cov2
    cases e : k.cov2 with
    | none =>
      rw [e] at this
      cases e' : L.k22 with
      | none => exact ⟨none, rfl, trivial⟩
      | some F => simp [e', OptRel] at this
    | some c =>
      rw [e] at this
      cases e' : L.k22 with
      | none => simp [e', OptRel] at this
      | some F =>
        rw [e'] at this
        simp only [OptRel] at this
        obtain ⟨z, h1, h2⟩ := Holds.reverse (hd ▸ this)
        rw [hb2] at h1
        exact ⟨some z, by simp [onOpt, h1, Except.map], by rw [hd]; exact h2⟩
  have hn : ∃ z, onOpt (reverseZipped · 2) k.ntk = .ok z ∧
      OptRel (fun a F => (a.shape = [] ∧ ∀ b p q, F b p q = a.get []) ∨
        Holds a [L.n1, L.n2] L.S1 L.S2 k.diagonalSpatial (!k.isReversed) F) z L.ntk ∧
      z.map ndim = k.ntk.map ndim := by
    have := hk.ntk
    cases e : k.ntk with
    | none =>
      rw [e] at this
      cases e' : L.ntk with
      | none => exact ⟨none, rfl, trivial, rfl⟩
      | some F => simp [e', OptRel] at this
    | some c =>
      rw [e] at this
      cases e' : L.ntk with
      | none => simp [e', OptRel] at this
      | some F =>
        rw [e'] at this
        simp only [OptRel] at this
        rcases this with ⟨h0, h1⟩ | this
        · obtain ⟨z, g1, g2, g3⟩ := reverseZipped_scalar c h0
          exact ⟨some z, by simp [onOpt, g1, Except.map], .inl ⟨g2, fun b p q => by rw [h1, g3]⟩,
            by simp [ndim, g2, h0]⟩
        · obtain ⟨z, h1, h2⟩ := Holds.reverse (hd ▸ this)
          exact ⟨some z, by simp only [onOpt]; rw [show (2 : ℕ) = [L.n1, L.n2].length from rfl, h1]; rfl,
            .inr (by rw [hd]; exact h2), by
              simp only [Option.map_some, ndim, h2.shape, this.shape, hd, List.length_append,
                pos_length _ _ this.rank]⟩
  obtain ⟨z22, e22, h22⟩ := h22
  obtain ⟨zn, en, hn, hr⟩ := hn
  refine ⟨{ k with cov1 := z11, nngp := z12, cov2 := z22, ntk := zn, isReversed := !k.isReversed },
    ?_, ⟨?_, ?_, h22, hn⟩, rfl, hr, rfl⟩
  · unfold Kernel.reverse
    rw [e11, e22, en]
    have e12' : reverseZipped k.nngp 2 = .ok z12 := e12
    rw [e12']
    rfl
  · simp only; rw [hd]; exact h12
  · simp only; rw [hd]; exact h11

/-- `Kernel.reverse` of a kernel that stores full spatial covariances flips `is_reversed`, and the
result stores the same covariances: every entry keeps its logical coordinates.  Nothing else
changes. -/
theorem kernel_reverse_stores (k : Kernel α) (L : Logical α) (hk : k.Stores L)
    (hd : k.diagonalSpatial = false) :
    ∃ k', k.reverse = .ok k' ∧ k'.Stores L ∧ k'.isReversed = !k.isReversed ∧
      { k' with cov1 := k.cov1, nngp := k.nngp, cov2 := k.cov2, ntk := k.ntk,
                isReversed := k.isReversed } = k := by
  obtain ⟨k', h1, h2, h3, _, h4⟩ := kernel_reverse_aux k L hk hd
  exact ⟨k', h1, h2, h3, h4⟩

/-- Equality of optional arrays. -/
def OptEq : Option (Arr α) → Option (Arr α) → Prop := OptRel (· ≋ ·)

/-- Reversing twice gives back the kernel. -/
theorem kernel_reverse_involutive (k : Kernel α) (L : Logical α) (hk : k.Stores L)
    (hd : k.diagonalSpatial = false) :
    ∃ k' k'', k.reverse = .ok k' ∧ k'.reverse = .ok k'' ∧ k''.isReversed = k.isReversed ∧
      k''.nngp ≋ k.nngp ∧ k''.cov1 ≋ k.cov1 ∧ OptEq k''.cov2 k.cov2 ∧ OptEq k''.ntk k.ntk := by
  obtain ⟨k', h1, h2, h3, hn1, h4⟩ := kernel_reverse_aux k L hk hd
  have hd' : k'.diagonalSpatial = k.diagonalSpatial := by rw [← h4]
  have hb' : k'.diagonalBatch = k.diagonalBatch := by rw [← h4]
  obtain ⟨k'', g1, g2, g3, hn2, g4⟩ := kernel_reverse_aux k' L h2 (hd'.trans hd)
  have hd'' : k''.diagonalSpatial = k.diagonalSpatial := by rw [← hd', ← g4]
  have hb'' : k''.diagonalBatch = k.diagonalBatch := by rw [← hb', ← g4]
  have hr : k''.isReversed = k.isReversed := by rw [g3, h3]; simp
  refine ⟨k', k'', h1, g1, hr, ?_, ?_, ?_, ?_⟩
  · have := g2.nngp
    rw [hr, hd''] at this
    exact this.eqv hk.nngp
  · have := g2.cov1
    rw [hr, hd'', hb''] at this
    exact this.eqv hk.cov1
  · have a := g2.cov2
    have b := hk.cov2
    rw [hr, hd'', hb''] at a
    unfold OptEq
    cases e1 : k''.cov2 <;> cases e2 : k.cov2 <;> cases e3 : L.k22 <;> rw [e1, e3] at a <;>
      rw [e2, e3] at b <;> simp only [OptRel] at a b ⊢
    exact a.eqv b
  · have hnn := hn2.trans hn1
    have a := g2.ntk
    have b := hk.ntk
    rw [hr, hd''] at a
    unfold OptEq
    cases e1 : k''.ntk <;> cases e2 : k.ntk <;> cases e3 : L.ntk <;> rw [e1, e3] at a <;>
      rw [e2, e3] at b <;> simp only [OptRel] at a b ⊢
    rcases a with ⟨a0, a1⟩ | a <;> rcases b with ⟨b0, b1⟩ | b
    · refine ⟨by rw [a0, b0], fun i hi => ?_⟩
      rw [a0] at hi
      have : i = [] := by simpa using hi.length
      subst this
      rw [← a1 [] [] [], ← b1 [] [] []]
    · exfalso
      rw [e1, e2] at hnn
      simp [ndim, a0, b.shape] at hnn
    · exfalso
      rw [e1, e2] at hnn
      simp [ndim, b0, a.shape] at hnn
    · exact a.eqv b

section Examples
/-- One by two spatial positions, two and one examples. -/
def exL : Logical ℤ where
  n1 := 2
  n2 := 1
  S1 := [1, 2]
  S2 := [1, 3]
  k12 := fun b p q => b.sum + 10 * p.sum + 100 * q.sum
  k11 := fun b p q => 7 * b.sum + 10 * (p.sum * q.sum)
  k22 := some fun b p q => 9 * b.sum + 10 * (p.sum + q.sum)
  ntk := some fun b p q => b.sum - p.sum * q.sum

example : ∃ k' k'', (exL.encode true false true).reverse = .ok k' ∧ k'.Stores exL ∧
    k'.isReversed = false ∧ k'.reverse = .ok k'' ∧
    k''.nngp ≋ (exL.encode true false true).nngp := by
  have hs := exL.encode_stores true false true (by simp) rfl
  obtain ⟨k', h1, h2, h3, _⟩ := kernel_reverse_stores _ _ hs rfl
  obtain ⟨k1, k'', g1, g2, _, g3, _⟩ := kernel_reverse_involutive _ _ hs rfl
  rw [h1] at g1
  cases g1
  exact ⟨k', k'', h1, h2, h3, g2, g3⟩
end Examples

end NT.C12
