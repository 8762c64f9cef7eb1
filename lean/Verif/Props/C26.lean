import Verif.Lemmas.Act

/-!
# C26: `Kernel.transpose`

Full claim: `transpose(axes)` relabels spatial positions as `jnp.transpose` of the activations does, in
every layout.  Proved for kernels that are not reversed.  For reversed kernels the code permutes the
stored (reversed) order; `transpose_entries` says what happens, `reversed_wrong` is a kernel for which
this is not the transposed one.
-/

namespace NT.C26
open NT Arr Kernel Spec

variable {α : Type}

/-- The position `p` after `jnp.transpose` with `axes`: entry `k` is entry `axes[k]` of `p`. -/
def permuted (axes p : List Nat) : List Nat := axes.map fun a => p.getD a 0

/-- `L'` is `L` with spatial positions relabelled by `f`. -/
structure Relabelled (f : List Nat → List Nat) (L L' : Logical α) : Prop where
  n1 : L'.n1 = L.n1
  n2 : L'.n2 = L.n2
  S1 : L'.S1 = f L.S1
  S2 : L'.S2 = f L.S2
  k12 : ∀ b p q, InRange p L.S1 → InRange q L.S2 → L'.k12 b (f p) (f q) = L.k12 b p q
  k11 : ∀ b p q, InRange p L.S1 → InRange q L.S1 → L'.k11 b (f p) (f q) = L.k11 b p q
  k22 : OptRel (fun G F => ∀ b p q, InRange p L.S2 → InRange q L.S2 → G b (f p) (f q) = F b p q)
    L'.k22 L.k22
  ntk : OptRel (fun G F => ∀ b p q, InRange p L.S1 → InRange q L.S2 → G b (f p) (f q) = F b p q)
    L'.ntk L.ntk

lemma permuteAxes_full (axes : List Nat) (nb : Nat) :
    permuteAxes false axes nb = List.range nb ++ axes.flatMap fun a => [nb + 2 * a, nb + 2 * a + 1] := by
  unfold permuteAxes
  simp only [Bool.false_eq_true, if_false]
  congr 1
  rw [List.flatMap_map]
  congr 1
  funext a
  rw [show 2 * (nb + a) - nb = nb + 2 * a by omega]

lemma permuteAxes_diag (axes : List Nat) (nb : Nat) :
    permuteAxes true axes nb = List.range nb ++ axes.map (nb + ·) := by
  simp [permuteAxes]

lemma flatMap_range (nb n : Nat) :
    (List.range n).flatMap (fun a => [nb + 2 * a, nb + 2 * a + 1]) = List.range' nb (2 * n) := by
  induction n with
  | zero => rfl
  | succ n ih =>
    rw [List.range_succ, List.flatMap_append, ih, show 2 * (n + 1) = 2 * n + 2 by ring,
      ← List.range'_append_1]
    rfl

lemma permuteAxes_perm (diag : Bool) (axes : List Nat) (nb n : Nat) (h : axes.Perm (List.range n)) :
    (permuteAxes diag axes nb).Perm (List.range (nb + if diag then n else 2 * n)) := by
  cases diag
  · rw [permuteAxes_full, List.range_add]
    refine List.Perm.append_left _ ?_
    refine (h.flatMap_right _).trans ?_
    rw [flatMap_range, List.range'_eq_map_range]
    rfl
  · rw [permuteAxes_diag, List.range_add]
    exact List.Perm.append_left _ (h.map _)

lemma gather_shift (axes b p : List Nat) : gather (axes.map (b.length + ·)) (b ++ p) = gather axes p := by
  unfold gather
  rw [List.map_map]
  apply List.map_congr_left
  intro a _
  exact getD_append_len b p a 0

lemma interleave_getD (p q : List Nat) (h : p.length = q.length) (a : Nat) :
    (interleave p q).getD (2 * a) 0 = p.getD a 0 ∧ (interleave p q).getD (2 * a + 1) 0 = q.getD a 0 := by
  induction p generalizing q a with
  | nil => cases q with
    | nil => simp [interleave]
    | cons _ _ => simp at h
  | cons x p ih =>
    cases q with
    | nil => simp at h
    | cons y q =>
      cases a with
      | zero => simp [interleave]
      | succ a =>
        have := ih q (by simpa using h) a
        rw [show 2 * (a + 1) = 2 * a + 1 + 1 by ring]
        simpa [interleave] using this

lemma gather_permuteAxes (diag : Bool) (axes b p q : List Nat) (h : p.length = q.length) :
    gather (permuteAxes diag axes b.length) (b ++ pos diag false p q) =
      b ++ pos diag false (gather axes p) (gather axes q) := by
  have hb : ∀ t, gather (List.range b.length) (b ++ t) = b := fun t => gather_range b t _ rfl rfl
  cases diag
  · rw [permuteAxes_full, gather_append, hb, pos_full, pos_full]
    congr 1
    simp only [rv, Bool.false_eq_true, if_false]
    induction axes with
    | nil => rfl
    | cons a axes ih =>
      have h1 := getD_append_len b (interleave p q) (2 * a) 0
      have h2 := getD_append_len b (interleave p q) (2 * a + 1) 0
      obtain ⟨e1, e2⟩ := interleave_getD p q h a
      rw [e1] at h1
      rw [e2] at h2
      have : gather ((a :: axes).flatMap fun a => [b.length + 2 * a, b.length + 2 * a + 1])
          (b ++ interleave p q) = (b ++ interleave p q).getD (b.length + 2 * a) 0 ::
          (b ++ interleave p q).getD (b.length + (2 * a + 1)) 0 ::
          gather (axes.flatMap fun a => [b.length + 2 * a, b.length + 2 * a + 1])
            (b ++ interleave p q) := by
        simp [gather, Nat.add_assoc]
      rw [this, h1, h2, ih]
      rfl
  · rw [permuteAxes_diag, gather_append, hb, pos_diag, pos_diag]
    congr 1
    simp only [rv, Bool.false_eq_true, if_false]
    exact gather_shift axes b p

/-- How positions move: `axes` act on the stored order. -/
def moved (rev : Bool) (axes p : List Nat) : List Nat := rv rev (gather axes (rv rev p))

/-- The inverse. -/
def unmoved (rev : Bool) (axes : List Nat) (n : Nat) (p : List Nat) : List Nat :=
  rv rev (scatter axes n (rv rev p))

lemma unmoved_moved (rev : Bool) (axes : List Nat) (n : Nat) (h : axes.Perm (List.range n))
    (p : List Nat) (hp : p.length = n) : unmoved rev axes n (moved rev axes p) = p := by
  unfold unmoved moved
  rw [rv_rv, scatter_gather h (by simpa using hp), rv_rv]

lemma moved_unmoved (rev : Bool) (axes : List Nat) (n : Nat) (h : axes.Perm (List.range n))
    (p : List Nat) (hp : p.length = n) : moved rev axes (unmoved rev axes n p) = p := by
  unfold unmoved moved
  rw [rv_rv, gather_scatter h (by simpa using hp), rv_rv]

lemma inRange_moved (rev : Bool) (axes : List Nat) (n : Nat) (h : axes.Perm (List.range n))
    (p S : List Nat) (hp : p.length = n) (hS : S.length = n) :
    InRange (moved rev axes p) (moved rev axes S) ↔ InRange p S := by
  unfold moved
  rw [inRange_rv, inRange_gather h (by simpa using hp) (by simpa using hS), inRange_rv]

lemma pos_rv (diag rev : Bool) (p q : List Nat) : pos diag rev p q = pos diag false (rv rev p) (rv rev q) := by
  cases diag
  · rw [pos_full, pos_full]; simp [rv]
  · rw [pos_diag, pos_diag]; simp [rv]

lemma transposeE_holds {a : Arr α} {B S T : List Nat} {diag rev : Bool}
    {F : List Nat → List Nat → List Nat → α} (ha : Holds a B S T diag rev F) (axes : List Nat)
    (h : axes.Perm (List.range S.length)) :
    ∃ z, transposeE a (permuteAxes diag axes B.length) = .ok z ∧
      Holds z B (moved rev axes S) (moved rev axes T) diag rev
        (fun b p q => F b (unmoved rev axes S.length p) (unmoved rev axes S.length q)) := by
  have hnd : a.ndim = B.length + if diag then S.length else 2 * S.length := by
    unfold ndim
    rw [ha.shape, List.length_append, pos_length _ _ ha.rank]
  have hp := permuteAxes_perm diag axes B.length S.length h
  rw [← hnd] at hp
  have hlen : axes.length = S.length := by simpa using h.length_eq
  have hg : ∀ b p q, b.length = B.length → p.length = q.length →
      gather (permuteAxes diag axes B.length) (b ++ pos diag rev p q) =
        b ++ pos diag rev (moved rev axes p) (moved rev axes q) := by
    intro b p q hb hpq
    rw [pos_rv, ← hb, gather_permuteAxes _ _ _ _ _ (by simpa using hpq),
      pos_rv diag rev (moved rev axes p)]
    unfold moved
    rw [rv_rv, rv_rv]
  refine ⟨a.transpose (permuteAxes diag axes B.length), by unfold transposeE; rw [if_pos hp], ?_, ?_, ?_, ?_⟩
  · simp [moved]
  · intro hd
    rw [ha.square hd]
  · show gather _ a.shape = _
    rw [ha.shape, hg _ _ _ rfl ha.rank]
  · intro b p q hb hp' hq' hpq
    have lp : p.length = S.length := by simpa [moved, hlen] using hp'.length
    have lq : q.length = S.length := by simpa [moved, hlen] using hq'.length
    have ep := moved_unmoved rev axes _ h p lp
    have eq := moved_unmoved rev axes _ h q lq
    have lu : ∀ x, (unmoved rev axes S.length x).length = S.length := by intro x; simp [unmoved]
    have ip : InRange (unmoved rev axes S.length p) S := by
      rw [← inRange_moved rev axes _ h _ _ (lu p) rfl, ep]; exact hp'
    have iq : InRange (unmoved rev axes S.length q) T := by
      rw [← inRange_moved rev axes _ h _ _ (lu q) ha.rank.symm, eq]; exact hq'
    rw [← ha.get b _ _ hb ip iq (fun hd => by rw [hpq hd])]
    have := hg b (unmoved rev axes S.length p) (unmoved rev axes S.length q) hb.length
      (by rw [lu, lu])
    rw [ep, eq] at this
    rw [← this]
    refine transpose_get a hp ?_
    rw [List.length_append, pos_length _ _ (by rw [lu, lu]), lu, hnd, hb.length]

/-- The relabelled content. -/
def moveL (rev : Bool) (axes : List Nat) (L : Logical α) : Logical α where
  n1 := L.n1
  n2 := L.n2
  S1 := moved rev axes L.S1
  S2 := moved rev axes L.S2
  k12 := fun b p q => L.k12 b (unmoved rev axes L.S1.length p) (unmoved rev axes L.S1.length q)
  k11 := fun b p q => L.k11 b (unmoved rev axes L.S1.length p) (unmoved rev axes L.S1.length q)
  k22 := L.k22.map fun F b p q => F b (unmoved rev axes L.S1.length p) (unmoved rev axes L.S1.length q)
  ntk := L.ntk.map fun F b p q => F b (unmoved rev axes L.S1.length p) (unmoved rev axes L.S1.length q)

lemma moveL_relabelled (rev : Bool) (axes : List Nat) (L : Logical α) (hS : L.S1.length = L.S2.length)
    (h : axes.Perm (List.range L.S1.length)) : Relabelled (moved rev axes) L (moveL rev axes L) := by
  have u : ∀ {p S}, InRange p S → S.length = L.S1.length →
      unmoved rev axes L.S1.length (moved rev axes p) = p := fun hp hS =>
    unmoved_moved rev axes _ h _ (hp.length.trans hS)
  refine ⟨rfl, rfl, rfl, rfl, ?_, ?_, ?_, ?_⟩
  · intro b p q hp hq
    simp only [moveL, u hp rfl, u hq hS.symm]
  · intro b p q hp hq
    simp only [moveL, u hp rfl, u hq rfl]
  · cases e : L.k22 with
    | none => simp [moveL, e, OptRel]
    | some F =>
      simp only [moveL, e, OptRel, Option.map_some]
      intro b p q hp hq
      rw [u hp hS.symm, u hq hS.symm]
  · cases e : L.ntk with
    | none => simp [moveL, e, OptRel]
    | some F =>
      simp only [moveL, e, OptRel, Option.map_some]
      intro b p q hp hq
      rw [u hp rfl, u hq hS.symm]

/-- What the code does in every layout: `axes` permute the spatial axes in stored order. -/
theorem transpose_entries (k : Kernel α) (L : Logical α) (hk : k.Stores L) (axes : List Nat)
    (h : axes.Perm (List.range L.S1.length)) (hn : ∀ a, k.ntk = some a → a.shape ≠ []) :
    ∃ k' L', k.transpose (some axes) = .ok k' ∧ k'.Stores L' ∧ k'.static = k.static ∧
      Relabelled (fun p => if k.isReversed then (permuted axes p.reverse).reverse else permuted axes p)
        L L' := by
  have hS := hk.nngp.rank
  have hb1 : (batchShape k.diagonalBatch L.n1).length = k.batchNdim := batchShape_length _ _
  have hb2 : (batchShape k.diagonalBatch L.n2).length = k.batchNdim := batchShape_length _ _
  obtain ⟨z12, e12, h12⟩ := transposeE_holds hk.nngp axes h
  obtain ⟨z11, e11, h11⟩ := transposeE_holds hk.cov1 axes h
  rw [hb1] at e11
  have h22 : ∃ z, onOpt (transposeE · (permuteAxes k.diagonalSpatial axes k.batchNdim)) k.cov2 = .ok z ∧
      OptRel (fun c F => Holds c (batchShape k.diagonalBatch L.n2) (moved k.isReversed axes L.S2)
        (moved k.isReversed axes L.S2) k.diagonalSpatial k.isReversed (fun b => F (dbl b))) z
        (moveL k.isReversed axes L).k22 := by
    have := hk.cov2
    cases e : k.cov2 <;> cases e' : L.k22 <;> rw [e, e'] at this <;> simp only [OptRel] at this
    · exact ⟨none, rfl, by simp [moveL, e', OptRel]⟩
    · obtain ⟨z, h1, h2⟩ := transposeE_holds this axes (hS ▸ h)
      rw [hb2] at h1
      refine ⟨some z, by simp [onOpt, h1, Except.map], ?_⟩
      simp only [moveL, e', OptRel, Option.map_some, hS]
      exact h2
  have hnt : ∃ z, onOpt (transposeE · (permuteAxes k.diagonalSpatial axes 2)) k.ntk = .ok z ∧
      OptRel (fun a F => (a.shape = [] ∧ ∀ b p q, F b p q = a.get []) ∨
        Holds a [L.n1, L.n2] (moved k.isReversed axes L.S1) (moved k.isReversed axes L.S2)
          k.diagonalSpatial k.isReversed F) z (moveL k.isReversed axes L).ntk := by
    have := hk.ntk
    cases e : k.ntk <;> cases e' : L.ntk <;> rw [e, e'] at this <;> simp only [OptRel] at this
    · exact ⟨none, rfl, by simp [moveL, e', OptRel]⟩
    · rcases this with ⟨h0, -⟩ | this
      · exact absurd h0 (hn _ e)
      · obtain ⟨z, h1, h2⟩ := transposeE_holds this axes h
        have h1' : transposeE _ (permuteAxes k.diagonalSpatial axes 2) = .ok z := h1
        refine ⟨some z, by simp [onOpt, h1', Except.map], ?_⟩
        simp only [moveL, e', OptRel, Option.map_some]
        exact .inr h2
  obtain ⟨z22, e22, h22⟩ := h22
  obtain ⟨zn, en, hn⟩ := hnt
  refine ⟨{ k with cov1 := z11, nngp := z12, cov2 := z22, ntk := zn }, moveL k.isReversed axes L,
    ?_, ⟨?_, ?_, h22, hn⟩, rfl, ?_⟩
  · unfold Kernel.transpose
    have e12' : transposeE k.nngp (permuteAxes k.diagonalSpatial axes 2) = .ok z12 := e12
    simp only [Option.getD_some, e11, e22, en, e12', bind, Except.bind, pure, Except.pure]
  · exact h12
  · exact h11
  · have e : (fun p => if k.isReversed then (permuted axes p.reverse).reverse else permuted axes p) =
        moved k.isReversed axes := by
      funext p
      unfold moved rv
      split_ifs <;> rfl
    rw [e]
    exact moveL_relabelled _ _ _ hS h

/-- A kernel that is not reversed: the kernel of the transposed activations. -/
theorem transpose_permutes_partial (k : Kernel α) (L : Logical α) (hk : k.Stores L) (axes : List Nat)
    (h : axes.Perm (List.range L.S1.length)) (hn : ∀ a, k.ntk = some a → a.shape ≠ [])
    (hr : k.isReversed = false) :
    ∃ k' L', k.transpose (some axes) = .ok k' ∧ k'.Stores L' ∧ k'.static = k.static ∧
      Relabelled (permuted axes) L L' := by
  have := transpose_entries k L hk axes h hn
  simpa only [hr, Bool.false_eq_true, if_false] using this

/-- A scalar tangent kernel (the initial value of an input kernel) raises `ValueError`. -/
theorem scalar_ntk_raises (k : Kernel α) (L : Logical α) (hk : k.Stores L) (axes : List Nat)
    (h : axes.Perm (List.range L.S1.length)) (a : Arr α) (ha : k.ntk = some a) (h0 : a.shape = []) :
    k.transpose (some axes) = .error .valueError := by
  have hb1 : (batchShape k.diagonalBatch L.n1).length = k.batchNdim := batchShape_length _ _
  have hb2 : (batchShape k.diagonalBatch L.n2).length = k.batchNdim := batchShape_length _ _
  obtain ⟨z12, e12, -⟩ := transposeE_holds hk.nngp axes h
  obtain ⟨z11, e11, -⟩ := transposeE_holds hk.cov1 axes h
  rw [hb1] at e11
  have e12' : transposeE k.nngp (permuteAxes k.diagonalSpatial axes 2) = .ok z12 := e12
  have e22 : ∃ z, onOpt (transposeE · (permuteAxes k.diagonalSpatial axes k.batchNdim)) k.cov2 =
      .ok z := by
    have := hk.cov2
    cases e : k.cov2 <;> cases e' : L.k22 <;> rw [e, e'] at this <;> simp only [OptRel] at this
    · exact ⟨none, rfl⟩
    · obtain ⟨z, h1, -⟩ := transposeE_holds this axes (hk.nngp.rank ▸ h)
      rw [hb2] at h1
      exact ⟨some z, by simp [onOpt, h1, Except.map]⟩
  obtain ⟨z22, e22⟩ := e22
  have en : onOpt (transposeE · (permuteAxes k.diagonalSpatial axes 2)) k.ntk = .error .valueError := by
    rw [ha]
    simp only [onOpt, transposeE, Except.map]
    rw [if_neg]
    intro hp
    have := hp.length_eq
    simp [ndim, h0, permuteAxes] at this
  unfold Kernel.transpose
  simp only [Option.getD_some, e11, e22, en, e12', bind, Except.bind]

lemma perm_of_permuteAxes (diag : Bool) (axes : List Nat) (nb n : Nat)
    (h : (permuteAxes diag axes nb).Perm (List.range (nb + if diag then n else 2 * n))) :
    axes.Perm (List.range n) := by
  rw [List.range_add] at h
  cases diag
  · rw [permuteAxes_full, List.perm_append_left_iff] at h
    simp only [Bool.false_eq_true, if_false] at h
    have h2 : (List.range (2 * n)).map (nb + ·) =
        (List.range n).flatMap fun a => [nb + 2 * a, nb + 2 * a + 1] := by
      rw [flatMap_range, List.range'_eq_map_range]
    rw [h2] at h
    let f : Nat → Option Nat := fun x => if (x - nb) % 2 = 0 then some ((x - nb) / 2) else none
    have hf : ∀ l : List Nat, (l.flatMap fun a => [nb + 2 * a, nb + 2 * a + 1]).filterMap f = l := by
      intro l
      induction l with
      | nil => rfl
      | cons a l ih =>
        rw [List.flatMap_cons, List.filterMap_append, ih]
        have h1 : f (nb + 2 * a) = some a := by
          simp only [f]
          rw [show nb + 2 * a - nb = 2 * a by omega, if_pos (by omega)]
          congr 1
          omega
        have h2 : f (nb + 2 * a + 1) = none := by
          simp only [f]
          rw [if_neg (by omega)]
        simp [h1, h2]
    have := h.filterMap f
    rwa [hf, hf] at this
  · rw [permuteAxes_diag, List.perm_append_left_iff] at h
    simp only [if_true] at h
    exact (List.map_perm_map_iff (fun a b hab => by simpa using hab)).1 h

/-- `axes` that are no permutation of the spatial axes raise `ValueError`. -/
theorem bad_axes_raise (k : Kernel α) (L : Logical α) (hk : k.Stores L) (axes : List Nat)
    (h : ¬ (axes.Perm (List.range L.S1.length))) : k.transpose (some axes) = .error .valueError := by
  have hb1 : (batchShape k.diagonalBatch L.n1).length = k.batchNdim := batchShape_length _ _
  have hnd : k.cov1.ndim = k.batchNdim +
      if k.diagonalSpatial then L.S1.length else 2 * L.S1.length := by
    unfold ndim
    rw [hk.cov1.shape, List.length_append, pos_length _ _ rfl, hb1]
  have e : transposeE k.cov1 (permuteAxes k.diagonalSpatial axes k.batchNdim) = .error .valueError := by
    unfold transposeE
    rw [if_neg]
    intro hp
    rw [hnd] at hp
    exact h (perm_of_permuteAxes _ _ _ _ hp)
  unfold Kernel.transpose
  simp only [Option.getD_some, e, bind, Except.bind]

section Examples
/-- Spatial shape 2 x 3 x 4. -/
def exL : Logical ℕ where
  n1 := 2
  n2 := 1
  S1 := [2, 3, 4]
  S2 := [2, 3, 4]
  k12 := fun b p q => b.getD 0 0 + 10 * p.getD 0 0 + 100 * p.getD 1 0 + 1000 * q.getD 2 0
  k11 := fun b p q => b.getD 0 0 + p.getD 0 0 * q.getD 0 0
  k22 := none
  ntk := none

example : ∃ k' L', (exL.encode true false false).transpose (some [2, 0, 1]) = .ok k' ∧ k'.Stores L' ∧
    L'.S1 = [4, 2, 3] ∧ L'.k12 [1, 0] [3, 1, 2] [2, 0, 0] = exL.k12 [1, 0] [1, 2, 3] [0, 0, 2] := by
  obtain ⟨k', L', h1, h2, -, h3⟩ := transpose_permutes_partial _ _
    (exL.encode_stores true false false (by simp) rfl) [2, 0, 1] (by decide) (by simp [Logical.encode, exL]) rfl
  exact ⟨k', L', h1, h2, h3.S1, h3.k12 [1, 0] [1, 2, 3] [0, 0, 2] (by decide) (by decide)⟩

example : (exL.encode true false false).transpose (some [0, 2, 2]) = .error .valueError :=
  bad_axes_raise _ _ (exL.encode_stores true false false (by simp) rfl) _ (by decide)

/-- For a reversed kernel the result is not the kernel of the transposed activations: it does not even
have the right spatial shape. -/
theorem reversed_wrong : ∃ k', (exL.encode true false true).transpose (some [2, 0, 1]) = .ok k' ∧
    ∀ L', k'.Stores L' → ¬ Relabelled (permuted [2, 0, 1]) exL L' := by
  obtain ⟨k', L', h1, h2, h3, h4⟩ := transpose_entries _ _
    (exL.encode_stores true false true (by simp) rfl) [2, 0, 1] (by decide) (by simp [Logical.encode, exL])
  refine ⟨k', h1, ?_⟩
  intro M hM hR
  have hr : k'.isReversed = true := congrArg Static.isReversed h3
  have hd : k'.diagonalSpatial = false := congrArg Static.diagonalSpatial h3
  have s1 := h2.nngp.shape
  have s2 := hM.nngp.shape
  rw [s1, h4.n1, h4.n2, h4.S1, h4.S2, hR.n1, hR.n2, hR.S1, hR.S2, hd, hr] at s2
  revert s2
  decide
end Examples

end NT.C26
