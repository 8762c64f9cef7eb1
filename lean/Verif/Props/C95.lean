import Verif.Lemmas.Resize
import Verif.Lemmas.Inputs
import Verif.Props.C54
import Verif.Lemmas.FanIn
import Mathlib.Algebra.Order.Floor.Ring
import Mathlib.Data.List.GetD

/-!
# C95: the kernels of `ImageResize` are the covariances of the resized activations
-/

set_option linter.unusedSectionVars false

namespace NT.C95
open NT Arr Kernel Spec MeasureTheory ImageResize

variable {E : Type} [NormedAddCommGroup E] [InnerProductSpace ℝ E] [CompleteSpace E] [MeasurableSpace E]

/-- The layer is given one entry of `shape` per axis of inputs with `m` spatial axes, batch axis `B` and channel axis `A`: `ob` for the batch,
`oS` for the spatial axes, `-1` (`none`) for the channels. -/
structure Args (d : ImageResize) (B A : ℕ) (ob : Option ℕ) (oS : List (Option ℕ)) : Prop where
  shape : d.shape = actIdx B A ob none oS
  ne : B ≠ A
  hB : B < oS.length + 2
  hA : A < oS.length + 2
  batch : d.batchAxis % (oS.length + 2) = B
  channel : d.channelAxis % (oS.length + 2) = A

variable {d : ImageResize} {B A : ℕ} {ob : Option ℕ} {oS : List (Option ℕ)}

lemma Args.length (h : Args d B A ob oS) : d.shape.length = oS.length + 2 := by
  rw [h.shape, actIdx_length _ _ _ _ _ h.ne h.hB h.hA]

lemma Args.ba (h : Args d B A ob oS) : d.ba = B := by
  unfold ImageResize.ba
  rw [h.length]
  push_cast
  rw [h.batch]
  simp

lemma Args.ca (h : Args d B A ob oS) : d.ca = A := by
  unfold ImageResize.ca
  rw [h.length]
  push_cast
  rw [h.channel]
  simp

lemma getD_act {β : Type} (B A : ℕ) (b c : β) (p : List β) (x : β) (hne : B ≠ A) (hB : B < p.length + 2) (hA : A < p.length + 2) :
    (actIdx B A b c p).getD B x = b ∧ (actIdx B A b c p).getD A x = c := by
  obtain ⟨u, v, h, ⟨q1, q2, e⟩ | ⟨q1, q2, e⟩⟩ := actIdx_split (β := β) B A hne p.length hB hA
  · have hu : (p.take u).length = u := by simp; omega
    have hv : ((p.drop u).take v).length = v := by simp; omega
    rw [e b c p rfl, q1, q2]
    constructor
    · rw [List.getD_append_right _ _ _ _ (by omega), hu]; simp
    · rw [List.getD_append_right _ _ _ _ (by omega), hu, show u + 1 + v - u = v + 1 by omega, List.getD_cons_succ,
        List.getD_append_right _ _ _ _ (by omega), hv]
      simp
  · have hu : (p.take u).length = u := by simp; omega
    have hv : ((p.drop u).take v).length = v := by simp; omega
    rw [e b c p rfl, q1, q2]
    constructor
    · rw [List.getD_append_right _ _ _ _ (by omega), hu, show u + 1 + v - u = v + 1 by omega, List.getD_cons_succ,
        List.getD_append_right _ _ _ _ (by omega), hv]
      simp
    · rw [List.getD_append_right _ _ _ _ (by omega), hu]; simp

lemma Args.reqBatch (h : Args d B A ob oS) : d.reqDiagonalBatch = ob.isNone := by
  unfold ImageResize.reqDiagonalBatch
  rw [h.ba, h.shape, (getD_act B A ob none oS none h.ne h.hB h.hA).1]

lemma Args.reqSpatial (h : Args d B A ob oS) (hr : d.reqDiagonalSpatial = true) : ∀ o ∈ oS, o = none := by
  intro o ho
  unfold ImageResize.reqDiagonalSpatial at hr
  rw [h.ba, h.ca, h.length, List.all_eq_true] at hr
  obtain ⟨u, v, huv, hs⟩ := actIdx_split (β := Option ℕ) B A h.ne oS.length h.hB h.hA
  obtain ⟨i, hi, rfl⟩ := List.getElem_of_mem ho
  have hu : (oS.take u).length = u := by simp; omega
  have hv : ((oS.drop u).take v).length = v := by simp; omega
  have main : ∀ x y, ∃ j < oS.length + 2, j ≠ u ∧ j ≠ u + 1 + v ∧
      (oS.take u ++ x :: ((oS.drop u).take v ++ y :: (oS.drop u).drop v)).getD j none = oS[i] := by
    intro x y
    have e0 : oS.getD i none = oS[i] := List.getD_eq_getElem _ _ hi
    rcases Nat.lt_or_ge i u with c | c
    · refine ⟨i, by omega, by omega, by omega, ?_⟩
      rw [List.getD_append _ _ _ _ (by omega), ← e0]
      simp [c]
    · rcases Nat.lt_or_ge i (u + v) with c' | c'
      · refine ⟨i + 1, by omega, by omega, by omega, ?_⟩
        rw [List.getD_append_right _ _ _ _ (by omega), hu, show i + 1 - u = (i - u) + 1 by omega, List.getD_cons_succ,
          List.getD_append _ _ _ _ (by omega), ← e0]
        simp only [List.getD_eq_getElem?_getD, List.getElem?_take, List.getElem?_drop]
        rw [if_pos (by omega), show u + (i - u) = i by omega]
      · refine ⟨i + 2, by omega, by omega, by omega, ?_⟩
        rw [List.getD_append_right _ _ _ _ (by omega), hu, show i + 2 - u = (i + 1 - u) + 1 by omega, List.getD_cons_succ,
          List.getD_append_right _ _ _ _ (by omega), hv, show i + 1 - u - v = (i - u - v) + 1 by omega, List.getD_cons_succ, ← e0]
        simp only [List.getD_eq_getElem?_getD, List.getElem?_drop]
        rw [show u + (v + (i - u - v)) = i by omega]
  rcases hs with ⟨h1, h2, e⟩ | ⟨h1, h2, e⟩
  all_goals
    obtain ⟨j, hj, c1, c2, c3⟩ := main _ _
    rw [← e _ _ _ rfl] at c3
    have := hr j (List.mem_range.2 hj)
    rw [h.shape, c3] at this
    have hc : [B, A].contains j = false := by simp; omega
    rw [hc, Bool.or_false, Option.isNone_iff_eq_none] at this
    exact this

lemma sizes_none {S : List ℕ} (h : ∀ o ∈ oS, o = none) (hl : S.length = oS.length) : sizes oS S = S := by
  induction oS generalizing S with
  | nil => cases S <;> simp_all [sizes]
  | cons o oS ih =>
    obtain ⟨n, S, rfl⟩ := List.exists_cons_of_length_eq_add_one hl
    obtain rfl : o = none := h o (by simp)
    have := ih (S := S) (fun o ho => h o (by simp [ho])) (by simpa using hl)
    simp only [sizes, List.zipWith_cons_cons, Option.getD_none] at this ⊢
    rw [this]

/-- The kernel of the resized activations. -/
noncomputable def resized (w : ℕ → ℕ → ℕ → ℕ → ℝ) (ob : Option ℕ) (oS : List (Option ℕ)) (L : Logical ℝ) : Logical ℝ where
  n1 := ob.getD L.n1
  n2 := ob.getD L.n2
  S1 := sizes oS L.S1
  S2 := sizes oS L.S2
  k12 := resizedF w [L.n1, L.n2] [ob.getD L.n1, ob.getD L.n2] L.S1 (sizes oS L.S1) L.S2 (sizes oS L.S2) L.k12
  k11 := resizedF w [L.n1, L.n1] [ob.getD L.n1, ob.getD L.n1] L.S1 (sizes oS L.S1) L.S1 (sizes oS L.S1) L.k11
  k22 := L.k22.map (resizedF w [L.n2, L.n2] [ob.getD L.n2, ob.getD L.n2] L.S2 (sizes oS L.S2) L.S2 (sizes oS L.S2))
  ntk := L.ntk.map (resizedF w [L.n1, L.n2] [ob.getD L.n1, ob.getD L.n2] L.S1 (sizes oS L.S1) L.S2 (sizes oS L.S2))

/-- A batch that is not resized. -/
lemma resizedF_dbl (w : ℕ → ℕ → ℕ → ℕ → ℝ) (n : ℕ) (S S' T T' : List ℕ) (F : List ℕ → List ℕ → List ℕ → ℝ) (b p q : List ℕ) (hb : InRange b [n]) :
    resizedF w [n] [n] S S' T T' (fun b => F (dbl b)) b p q = resizedF w [n, n] [n, n] S S' T T' F (dbl b) p q := by
  obtain ⟨i, rfl⟩ := List.length_eq_one_iff.1 hb.length
  rw [inRange_cons] at hb
  have e : ∀ (N b' : List ℕ), InRange b' N → ∀ G : List ℕ → List ℕ → List ℕ → ℝ,
      resizedF w N N S S' T T' G b' p q = ∑ u ∈ box S, ∑ v ∈ box T, axesWeight w S S' u p * axesWeight w T T' v q * G b' u v := by
    intro N b' hb' G
    unfold resizedF
    have : ∀ b ∈ box N, ∑ u ∈ box S, ∑ v ∈ box T, axesWeight w N N b b' * axesWeight w S S' u p * axesWeight w T T' v q * G b u v =
        axesWeight w N N b b' * ∑ u ∈ box S, ∑ v ∈ box T, axesWeight w S S' u p * axesWeight w T T' v q * G b u v := by
      intro b _
      rw [Finset.mul_sum]
      refine Finset.sum_congr rfl fun u _ => ?_
      rw [Finset.mul_sum]
      exact Finset.sum_congr rfl fun v _ => by ring
    rw [Finset.sum_congr rfl this, sum_axesWeight_self N b' hb']
  rw [e [n] [i] (inRange_cons.2 hb), e [n, n] (dbl [i]) (inRange_cons.2 ⟨hb.1, inRange_cons.2 hb⟩)]

lemma pos_pal {S T : List ℕ} (ds rev : Bool) (h : rev = true → S.reverse = S ∧ T.reverse = T) : pos ds false S T = pos ds rev S T := by
  cases rev
  · rfl
  · obtain ⟨h1, h2⟩ := h rfl
    unfold pos
    rw [h1, h2]
    simp

lemma resize_zero (a : Arr ℝ) (ha : a.shape = []) (ds : Bool) (s1 s2 : List ℕ) (db : Bool) : d.resize ds s1 s2 db a = .ok a := by
  unfold ImageResize.resize
  rw [if_pos (by unfold ndim; rw [ha]; rfl)]

lemma resize_array (h : Args d B A ob oS) {a : Arr ℝ} {n1 n2 : ℕ} {S T : List ℕ} {db ds rev : Bool} {F : List ℕ → List ℕ → List ℕ → ℝ} {C1 C2 : ℕ}
    (ha : Holds a (n1 :: if db then [] else [n2]) S T ds rev F) (hS : S.length = oS.length) (hds : ds = true → ∀ o ∈ oS, o = none)
    (hrev : rev = true → (sizes oS S).reverse = sizes oS S ∧ (sizes oS T).reverse = sizes oS T) :
    ∃ a', d.resize ds (sizes d.shape (actIdx B A n1 C1 S)) (sizes d.shape (actIdx B A n2 C2 T)) db a = .ok a' ∧
      Holds a' (ob.getD n1 :: if db then [] else [ob.getD n2]) (sizes oS S) (sizes oS T) ds rev
        (resizedF d.weight (n1 :: if db then [] else [n2]) (ob.getD n1 :: if db then [] else [ob.getD n2]) S (sizes oS S) T (sizes oS T) F) := by
  have hT : T.length = oS.length := by rw [← ha.rank]; exact hS
  unfold ImageResize.resize
  rw [if_neg (by unfold ndim; rw [ha.shape]; simp)]
  rw [h.shape, sizes_actIdx _ _ _ _ _ _ _ _ hS.symm, sizes_actIdx _ _ _ _ _ _ _ _ hT.symm]
  have l1 := sizes_length hS.symm
  have l2 := sizes_length hT.symm
  have hB := h.hB
  have hA := h.hA
  have e := kShape_eq d db ds (ob.getD n1) (ob.getD n2) C1 C2 (sizes oS S) (sizes oS T) (by omega) (by rw [h.ba, h.ca]; exact h.ne)
    (by rw [h.ba]; omega) (by rw [h.ca]; omega)
  rw [h.ba, h.ca] at e
  simp only [Option.getD_none]
  rw [e, pos_pal ds rev hrev]
  refine resize_holds ha ?_ l1 l2 fun e => ⟨sizes_none (hds e) hS, sizes_none (hds e) hT⟩
  cases db <;> rfl

/-- In every layout the layer may be given by its declared requirements, the output kernel holds the covariances of the resized activations.
Missing: kernels with reversed spatial axes, if the output sizes read differently backwards (see `resize_reversed_wrong`); methods given as
`jax.image.ResizeMethod` (see `resize_enum_raises`). -/
theorem resize_kernel_formula_partial (h : Args d B A ob oS) (hstr : d.isStr = true) (hm : d.method = .nearest ∨ d.method = .linear)
    (k : Kernel ℝ) (L : Logical ℝ) (C1 C2 : ℕ) (hk : k.Stores L) (hl : L.S1.length = oS.length)
    (h1 : k.shape1 = actIdx B A L.n1 C1 L.S1) (h2 : k.shape2 = actIdx B A L.n2 C2 L.S2)
    (hdb : k.diagonalBatch = true → d.reqDiagonalBatch = true) (hds : k.diagonalSpatial = true → d.reqDiagonalSpatial = true)
    (hrev : k.isReversed = true → (sizes oS L.S1).reverse = sizes oS L.S1 ∧ (sizes oS L.S2).reverse = sizes oS L.S2)
    (hn : ∀ a, k.ntk = some a → a.shape = [] → a.get [] = 0) :
    ∃ k', d.kernelFn k = .ok k' ∧ k'.Stores (resized d.weight ob oS L) ∧ k'.static = k.static ∧ k'.x1IsX2 = k.x1IsX2 ∧
      k'.mask1 = k.mask1 ∧ k'.mask2 = k.mask2 ∧ ∀ a, k'.ntk = some a → a.shape = [] → k.ntk = some a := by
  have hl2 : L.S2.length = oS.length := by rw [← hk.nngp.rank]; exact hl
  have hB := h.hB
  have hA := h.hA
  have hds' := fun e => h.reqSpatial (hds e)
  have hdb' : k.diagonalBatch = true → ob = none := fun e => by
    have := hdb e
    rwa [h.reqBatch, Option.isNone_iff_eq_none] at this
  have r1 : resolve d.shape k.shape1 = .ok (sizes d.shape (actIdx B A L.n1 C1 L.S1)) := by
    rw [h1]
    refine resolve_eq ?_
    rw [h.length, actIdx_length _ _ _ _ _ h.ne (by omega) (by omega), hl]
  have r2 : resolve d.shape k.shape2 = .ok (sizes d.shape (actIdx B A L.n2 C2 L.S2)) := by
    rw [h2]
    refine resolve_eq ?_
    rw [h.length, actIdx_length _ _ _ _ _ h.ne (by omega) (by omega), hl2]
  -- the two kinds of arrays
  have cross := fun (a : Arr ℝ) (F : List ℕ → List ℕ → List ℕ → ℝ) (ha : Holds a [L.n1, L.n2] L.S1 L.S2 k.diagonalSpatial k.isReversed F) =>
    resize_array (C1 := C1) (C2 := C2) (db := false) h ha hl hds' hrev
  have auto : ∀ (a : Arr ℝ) (n C : ℕ) (S : List ℕ) (F : List ℕ → List ℕ → List ℕ → ℝ), S.length = oS.length →
      (k.isReversed = true → (sizes oS S).reverse = sizes oS S) →
      Holds a (batchShape k.diagonalBatch n) S S k.diagonalSpatial k.isReversed (fun b => F (dbl b)) →
      ∃ a', d.resize k.diagonalSpatial (sizes d.shape (actIdx B A n C S)) (sizes d.shape (actIdx B A n C S)) k.diagonalBatch a = .ok a' ∧
        Holds a' (batchShape k.diagonalBatch (ob.getD n)) (sizes oS S) (sizes oS S) k.diagonalSpatial k.isReversed
          (fun b => resizedF d.weight [n, n] [ob.getD n, ob.getD n] S (sizes oS S) S (sizes oS S) F (dbl b)) := by
    intro a n C S F hS hr ha
    have eb : ∀ m, batchShape k.diagonalBatch m = m :: if k.diagonalBatch = true then [] else [m] := by
      intro m; unfold batchShape; split_ifs <;> rfl
    rw [eb] at ha
    obtain ⟨a', e1, e2⟩ := resize_array (C1 := C) (C2 := C) (db := k.diagonalBatch) h ha hS hds' fun e => ⟨hr e, hr e⟩
    refine ⟨a', e1, ?_⟩
    rw [eb]
    refine e2.congr fun b p q hb hp hq => ?_
    cases hdk : k.diagonalBatch
    · rw [hdk] at hb
      simp only [Bool.false_eq_true, if_false] at hb ⊢
      obtain ⟨i, j, rfl, -, -⟩ := Inputs.inRange_two hb
      unfold resizedF
      refine Finset.sum_congr rfl fun b0 hb0 => ?_
      obtain ⟨i, j, rfl, -, -⟩ := Inputs.inRange_two (mem_box.1 hb0)
      rfl
    · obtain rfl := hdb' hdk
      rw [hdk] at hb
      simp only [if_true, Option.getD_none] at hb ⊢
      exact resizedF_dbl _ _ _ _ _ _ _ _ _ _ hb
  obtain ⟨c1, e1, f1⟩ := auto k.cov1 L.n1 C1 L.S1 L.k11 hl (fun e => (hrev e).1) hk.cov1
  obtain ⟨nn, e2, f2⟩ := cross k.nngp L.k12 hk.nngp
  have hc2 : ∃ c2, d.resizeOpt k.diagonalSpatial (sizes d.shape (actIdx B A L.n2 C2 L.S2)) (sizes d.shape (actIdx B A L.n2 C2 L.S2)) k.diagonalBatch
      k.cov2 = .ok c2 ∧ OptRel (fun c F => Holds c (batchShape k.diagonalBatch (ob.getD L.n2)) (sizes oS L.S2) (sizes oS L.S2) k.diagonalSpatial
        k.isReversed (fun b => F (dbl b))) c2 (resized d.weight ob oS L).k22 := by
    have := hk.cov2
    unfold resized
    dsimp only
    cases a1 : k.cov2 <;> cases a2 : L.k22 <;> simp only [a1, a2, OptRel] at this
    · exact ⟨none, rfl, trivial⟩
    · obtain ⟨c, g1, g2⟩ := auto _ L.n2 C2 L.S2 _ hl2 (fun e => (hrev e).2) this
      refine ⟨some c, ?_, g2⟩
      dsimp only [ImageResize.resizeOpt]
      rw [g1]
      rfl
  have hnt : ∃ nt, d.resizeOpt k.diagonalSpatial (sizes d.shape (actIdx B A L.n1 C1 L.S1)) (sizes d.shape (actIdx B A L.n2 C2 L.S2)) false
      k.ntk = .ok nt ∧ OptRel (fun a F => (a.shape = [] ∧ ∀ b p q, F b p q = a.get []) ∨
        Holds a [ob.getD L.n1, ob.getD L.n2] (sizes oS L.S1) (sizes oS L.S2) k.diagonalSpatial k.isReversed F) nt (resized d.weight ob oS L).ntk ∧
      ∀ a, nt = some a → a.shape = [] → k.ntk = some a := by
    have := hk.ntk
    unfold resized
    dsimp only
    cases a1 : k.ntk with
    | none => cases a2 : L.ntk <;> simp only [a1, a2, OptRel] at this; exact ⟨none, rfl, trivial, nofun⟩
    | some a =>
      cases a2 : L.ntk with
      | none => simp only [a1, a2, OptRel] at this
      | some F =>
        simp only [a1, a2, OptRel] at this
        dsimp only [ImageResize.resizeOpt]
        rcases this with ⟨t1, t2⟩ | t
        · rw [resize_zero a t1]
          refine ⟨some a, rfl, .inl ⟨t1, fun b p q => ?_⟩, fun _ e _ => e⟩
          rw [hn a a1 t1]
          refine Finset.sum_eq_zero fun x _ => Finset.sum_eq_zero fun y _ => Finset.sum_eq_zero fun z _ => ?_
          rw [t2, hn a a1 t1, mul_zero]
        · obtain ⟨c, g1, g2⟩ := cross a F t
          refine ⟨some c, ?_, .inr g2, fun x e hx => absurd hx ?_⟩
          · rw [g1]
            rfl
          · obtain rfl := Option.some.inj e
            exact g2.ne_nil (by simp)
  obtain ⟨c2, e3, f3⟩ := hc2
  obtain ⟨nt, e4, f4, f5⟩ := hnt
  refine ⟨{ k with cov1 := c1, nngp := nn, cov2 := c2, ntk := nt }, ?_, ⟨f2, f1, f3, f4⟩, rfl, rfl, rfl, rfl, f5⟩
  unfold ImageResize.kernelFn
  rw [hstr]
  have hsup : supported d.method = true := by rcases hm with e | e <;> rw [e] <;> rfl
  have hch : d.shape.getD d.ca none = none := by
    rw [h.ca, h.shape]
    exact (getD_act B A ob none oS none h.ne h.hB h.hA).2
  rw [hsup, hch, r1, r2]
  simp only [Bool.not_true, Bool.false_eq_true, if_false, Option.isSome_none]
  simp only [bind, Except.bind, e1, e2, e3, e4]
  rfl

/-- The kernel of the activations resized along spatial axes only. -/
noncomputable def resizedSpatial (w : ℕ → ℕ → ℕ → ℕ → ℝ) (oS : List (Option ℕ)) (L : Logical ℝ) : Logical ℝ :=
  linLogical box (fun S p u => axesWeight w S (sizes oS S) u p) (fun _ _ u => some u) (sizes oS) L

lemma resizedF_batch (w : ℕ → ℕ → ℕ → ℕ → ℝ) (N S S' T T' : List ℕ) (F : List ℕ → List ℕ → List ℕ → ℝ) (b p q : List ℕ) (hb : InRange b N) :
    resizedF w N N S S' T T' F b p q = ∑ u ∈ box S, ∑ v ∈ box T, axesWeight w S S' u p * axesWeight w T T' v q * F b u v := by
  unfold resizedF
  have : ∀ b' ∈ box N, ∑ u ∈ box S, ∑ v ∈ box T, axesWeight w N N b' b * axesWeight w S S' u p * axesWeight w T T' v q * F b' u v =
      axesWeight w N N b' b * ∑ u ∈ box S, ∑ v ∈ box T, axesWeight w S S' u p * axesWeight w T T' v q * F b' u v := by
    intro b' _
    rw [Finset.mul_sum]
    refine Finset.sum_congr rfl fun u _ => ?_
    rw [Finset.mul_sum]
    exact Finset.sum_congr rfl fun v _ => by ring
  rw [Finset.sum_congr rfl this, sum_axesWeight_self N b hb]

lemma dbl_inRange {db : Bool} {m : ℕ} {b : List ℕ} (h : InRange b (batchShape db m)) : InRange (dbl b) [m, m] := by
  cases db
  · obtain ⟨i, j, rfl, -, -⟩ := Inputs.inRange_two h
    exact h
  · obtain ⟨i, rfl⟩ := List.length_eq_one_iff.1 (by simpa [batchShape] using h.length)
    simp only [batchShape, if_true, InRange, List.forall₂_cons] at h
    simp [dbl, InRange, h.1]

/-- If the batch keeps its size, the kernel entries of two examples are those of the two, resized along the spatial axes.
Missing: as in `resize_kernel_formula_partial`. -/
theorem resize_spatial_formula_partial (h : Args d B A none oS) (hstr : d.isStr = true) (hm : d.method = .nearest ∨ d.method = .linear)
    (k : Kernel ℝ) (L : Logical ℝ) (C1 C2 : ℕ) (hk : k.Stores L) (hl : L.S1.length = oS.length)
    (h1 : k.shape1 = actIdx B A L.n1 C1 L.S1) (h2 : k.shape2 = actIdx B A L.n2 C2 L.S2)
    (hds : k.diagonalSpatial = true → d.reqDiagonalSpatial = true)
    (hrev : k.isReversed = true → (sizes oS L.S1).reverse = sizes oS L.S1 ∧ (sizes oS L.S2).reverse = sizes oS L.S2)
    (hn : ∀ a, k.ntk = some a → a.shape = [] → a.get [] = 0) :
    ∃ k', d.kernelFn k = .ok k' ∧ k'.Stores (resizedSpatial d.weight oS L) ∧ k'.static = k.static ∧ k'.x1IsX2 = k.x1IsX2 ∧
      k'.mask1 = k.mask1 ∧ k'.mask2 = k.mask2 ∧ ∀ a, k'.ntk = some a → a.shape = [] → k.ntk = some a := by
  obtain ⟨k', e1, e2, e3, e4, e5, e6, e7⟩ := resize_kernel_formula_partial h hstr hm k L C1 C2 hk hl h1 h2 (fun _ => by rw [h.reqBatch]; rfl) hds hrev hn
  refine ⟨k', e1, ⟨?_, ?_, ?_, ?_⟩, e3, e4, e5, e6, e7⟩
  · exact e2.nngp.congr fun b p q hb _ _ => resizedF_batch _ _ _ _ _ _ _ _ _ _ hb
  · refine e2.cov1.congr fun b p q hb _ _ => resizedF_batch _ _ _ _ _ _ _ _ _ _ (dbl_inRange hb)
  · have := e2.cov2
    simp only [resized, resizedSpatial, linLogical] at this ⊢
    cases a1 : k'.cov2 <;> cases a2 : L.k22 <;> simp only [a1, a2, OptRel, Option.map] at this ⊢
    exact this.congr fun b p q hb _ _ => resizedF_batch _ _ _ _ _ _ _ _ _ _ (dbl_inRange hb)
  · have hz := hk.ntk
    have := e2.ntk
    simp only [resized, resizedSpatial, linLogical] at this ⊢
    cases a1 : k'.ntk <;> cases a2 : L.ntk <;> simp only [a1, a2, OptRel, Option.map] at this ⊢
    rename_i a F
    rcases this with ⟨t1, t2⟩ | t
    · have hka := e7 a a1 t1
      simp only [hka, a2, OptRel] at hz
      rcases hz with ⟨-, z⟩ | z
      · refine .inl ⟨t1, fun b p q => ?_⟩
        rw [hn a hka t1]
        refine Finset.sum_eq_zero fun y _ => Finset.sum_eq_zero fun z' _ => ?_
        simp only [read2, z, hn a hka t1, mul_zero]
      · exact absurd t1 (z.ne_nil (by simp))
    · exact .inr (t.congr fun b p q hb _ _ => resizedF_batch _ _ _ _ _ _ _ _ _ _ hb)

/-- `apply_fn` replaces each image by weighted sums over examples and positions. -/
theorem resize_apply_entries (h : Args d B A ob oS) (x : Arr ℝ) (n C : ℕ) (S : List ℕ) (hl : S.length = oS.length)
    (hx : x.shape = actIdx B A n C S) :
    ∃ y, d.apply x = .ok y ∧ y.shape = actIdx B A (ob.getD n) C (sizes oS S) ∧ ∀ i < ob.getD n, ∀ c < C, ∀ p, InRange p (sizes oS S) →
      y.get (actIdx B A i c p) =
        ∑ j ∈ Finset.range n, ∑ q ∈ box S, axisWeight d.weight n (ob.getD n) j i * axesWeight d.weight S (sizes oS S) q p * x.get (actIdx B A j c q) := by
  have hB := h.hB
  have hA := h.hA
  have hr : resolve d.shape x.shape = .ok (actIdx B A (ob.getD n) C (sizes oS S)) := by
    rw [resolve_eq, hx, h.shape, sizes_actIdx _ _ _ _ _ _ _ _ hl.symm]
    · rfl
    · rw [h.length, hx, actIdx_length _ _ _ _ _ h.ne (by omega) (by omega), hl]
  have ls := sizes_length hl.symm
  unfold ImageResize.apply
  rw [hr]
  simp only [bind, Except.bind]
  refine ⟨_, imageResize_ok ?_, rfl, fun i _ c hc p hp => ?_⟩
  · unfold ndim
    rw [hx, actIdx_length _ _ _ _ _ h.ne (by omega) (by omega), actIdx_length _ _ _ _ _ h.ne (by omega) (by omega), ls]
  · dsimp only
    rw [hx, box_sum_actIdx B A n C S h.ne (by omega) (by omega)]
    refine Finset.sum_congr rfl fun j _ => ?_
    rw [Finset.sum_comm]
    refine Finset.sum_congr rfl fun q hq => ?_
    have lq := (mem_box.1 hq).length
    have lp := hp.length
    have key : ∀ c' ∈ Finset.range C, axesWeight d.weight (actIdx B A n C S) (actIdx B A (ob.getD n) C (sizes oS S)) (actIdx B A j c' q)
        (actIdx B A i c p) * x.get (actIdx B A j c' q) = if c' = c then
          axisWeight d.weight n (ob.getD n) j i * axesWeight d.weight S (sizes oS S) q p * x.get (actIdx B A j c' q) else 0 := by
      intro c' _
      rw [axesWeight_actIdx B A h.ne ls lq (by omega) (by omega) (by omega)]
      simp only [axisWeight, if_true]
      split_ifs <;> simp
    rw [Finset.sum_congr rfl key, Finset.sum_ite_eq' (Finset.range C) c, if_pos (Finset.mem_range.2 hc)]

/-- Examples and positions as one index. -/
noncomputable def merged (L : Logical ℝ) : Logical ℝ where
  n1 := 1
  n2 := 1
  S1 := L.n1 :: L.S1
  S2 := L.n2 :: L.S2
  k12 _ p q := L.k12 [p.headD 0, q.headD 0] p.tail q.tail
  k11 _ p q := L.k11 [p.headD 0, q.headD 0] p.tail q.tail
  k22 := L.k22.map fun F _ p q => F [p.headD 0, q.headD 0] p.tail q.tail
  ntk := L.ntk.map fun F _ p q => F [p.headD 0, q.headD 0] p.tail q.tail

/-- Examples and positions as one index. -/
def mergedX (x : ℕ → ℕ → List ℕ → E → ℝ) (_ c : ℕ) (p : List ℕ) : E → ℝ := x (p.headD 0) c p.tail

lemma merged_kernel {μ : Measure E} {C : ℕ} {x1 x2 : ℕ → ℕ → List ℕ → E → ℝ} {L : Logical ℝ} (h : ChannelKernelOf μ C x1 x2 L) :
    ChannelKernelOf μ C (mergedX x1) (mergedX x2) (merged L) := by
  refine ⟨?_, ?_, ?_, ?_⟩
  · intro i j p q _ _ hp hq
    obtain ⟨a, p, rfl, ha, hp⟩ := inRange_cons_right.1 hp
    obtain ⟨b, q, rfl, hb, hq⟩ := inRange_cons_right.1 hq
    exact h.k12 a b p q ha hb hp hq
  · intro i j p q _ _ hp hq
    obtain ⟨a, p, rfl, ha, hp⟩ := inRange_cons_right.1 hp
    obtain ⟨b, q, rfl, hb, hq⟩ := inRange_cons_right.1 hq
    exact h.k11 a b p q ha hb hp hq
  · intro F hF i j p q _ _ hp hq
    obtain ⟨a, p, rfl, ha, hp⟩ := inRange_cons_right.1 hp
    obtain ⟨b, q, rfl, hb, hq⟩ := inRange_cons_right.1 hq
    simp only [merged, Option.map_eq_some_iff] at hF
    obtain ⟨G, hG, rfl⟩ := hF
    exact h.k22 G hG a b p q ha hb hp hq
  · intro F hF i j p q _ _ hp hq
    obtain ⟨a, p, rfl, ha, hp⟩ := inRange_cons_right.1 hp
    obtain ⟨b, q, rfl, hb, hq⟩ := inRange_cons_right.1 hq
    simp only [merged, Option.map_eq_some_iff] at hF
    obtain ⟨G, hG, rfl⟩ := hF
    exact h.ntk G hG a b p q ha hb hp hq

lemma merged_regular {μ : Measure E} {C n1 n2 : ℕ} {S1 S2 : List ℕ} {x1 x2 : ℕ → ℕ → List ℕ → E → ℝ} :
    Regular μ C n1 n2 S1 S2 x1 x2 ↔ Regular μ C 1 1 (n1 :: S1) (n2 :: S2) (mergedX x1) (mergedX x2) := by
  constructor
  · intro h
    refine ⟨?_, ?_, ?_, ?_, ?_⟩
    · intro _ _ c hc p hp
      obtain ⟨a, p, rfl, ha, hp⟩ := inRange_cons_right.1 hp
      exact h.sq1 a ha c hc p hp
    · intro _ _ c hc p hp
      obtain ⟨a, p, rfl, ha, hp⟩ := inRange_cons_right.1 hp
      exact h.sq2 a ha c hc p hp
    · intro _ _ c hc p hp
      obtain ⟨a, p, rfl, ha, hp⟩ := inRange_cons_right.1 hp
      exact h.diff1 a ha c hc p hp
    · intro _ _ c hc p hp
      obtain ⟨a, p, rfl, ha, hp⟩ := inRange_cons_right.1 hp
      exact h.diff2 a ha c hc p hp
    · intro _ _ _ _ c hc c' hc' p q hp hq
      obtain ⟨a, p, rfl, ha, hp⟩ := inRange_cons_right.1 hp
      obtain ⟨b, q, rfl, hb, hq⟩ := inRange_cons_right.1 hq
      exact h.grad a ha b hb c hc c' hc' p q hp hq
  · intro h
    exact ⟨fun a ha c hc p hp => h.sq1 0 one_pos c hc (a :: p) (inRange_cons.2 ⟨ha, hp⟩),
      fun a ha c hc p hp => h.sq2 0 one_pos c hc (a :: p) (inRange_cons.2 ⟨ha, hp⟩),
      fun a ha c hc p hp => h.diff1 0 one_pos c hc (a :: p) (inRange_cons.2 ⟨ha, hp⟩),
      fun a ha c hc p hp => h.diff2 0 one_pos c hc (a :: p) (inRange_cons.2 ⟨ha, hp⟩),
      fun a ha b hb c hc c' hc' p q hp hq => h.grad 0 one_pos 0 one_pos c hc c' hc' (a :: p) (b :: q) (inRange_cons.2 ⟨ha, hp⟩)
        (inRange_cons.2 ⟨hb, hq⟩)⟩

lemma resizedF_merged (w : ℕ → ℕ → ℕ → ℕ → ℝ) (n m n' m' : ℕ) (S S' T T' : List ℕ) (F : List ℕ → List ℕ → List ℕ → ℝ) (i j : ℕ) (p q : List ℕ) :
    ∑ u ∈ box (n :: S), ∑ v ∈ box (m :: T), axesWeight w (n :: S) (n' :: S') u (i :: p) * axesWeight w (m :: T) (m' :: T') v (j :: q) *
      read2 (fun p q => F [p.headD 0, q.headD 0] p.tail q.tail) (some u) (some v) = resizedF w [n, m] [n', m'] S S' T T' F [i, j] p q := by
  unfold resizedF
  rw [box_sum_cons, box_sum_cons]
  refine Finset.sum_congr rfl fun a _ => ?_
  rw [box_sum_singleton]
  simp only [box_sum_cons]
  rw [Finset.sum_comm]
  refine Finset.sum_congr rfl fun b _ => Finset.sum_congr rfl fun u _ => Finset.sum_congr rfl fun v _ => ?_
  simp only [read2, List.headD_cons, List.tail_cons, axesWeight]
  ring

/-- If the input kernel holds the channel averages of the second moments and tangent kernels of random activations, the output kernel holds
those of the activations resized by `apply_fn`. Missing: as in `resize_kernel_formula_partial`. -/
theorem resize_kernel_exact_partial (μ : Measure E) (h : Args d B A ob oS) (hstr : d.isStr = true) (hm : d.method = .nearest ∨ d.method = .linear)
    (X1 X2 : E → Arr ℝ) (C : ℕ) (k : Kernel ℝ) (L : Logical ℝ) (hk : k.Stores L) (hl : L.S1.length = oS.length)
    (h1 : k.shape1 = actIdx B A L.n1 C L.S1) (h2 : k.shape2 = actIdx B A L.n2 C L.S2)
    (hdb : k.diagonalBatch = true → d.reqDiagonalBatch = true) (hds : k.diagonalSpatial = true → d.reqDiagonalSpatial = true)
    (hrev : k.isReversed = true → (sizes oS L.S1).reverse = sizes oS L.S1 ∧ (sizes oS L.S2).reverse = sizes oS L.S2)
    (hn : ∀ a, k.ntk = some a → a.shape = [] → a.get [] = 0)
    (hX1 : ∀ θ, (X1 θ).shape = k.shape1) (hX2 : ∀ θ, (X2 θ).shape = k.shape2)
    (hR : Regular μ C L.n1 L.n2 L.S1 L.S2 (chan X1 B A) (chan X2 B A)) (hL : ChannelKernelOf μ C (chan X1 B A) (chan X2 B A) L) :
    ∃ k' L' Y1 Y2, d.kernelFn k = .ok k' ∧ k'.Stores L' ∧ (∀ θ, d.apply (X1 θ) = .ok (Y1 θ)) ∧ (∀ θ, d.apply (X2 θ) = .ok (Y2 θ)) ∧
      (L'.n1, L'.n2, L'.S1, L'.S2, L'.k22.isSome, L'.ntk.isSome) =
        (ob.getD L.n1, ob.getD L.n2, sizes oS L.S1, sizes oS L.S2, L.k22.isSome, L.ntk.isSome) ∧
      (∀ θ, (Y1 θ).shape = actIdx B A L'.n1 C L'.S1) ∧ (∀ θ, (Y2 θ).shape = actIdx B A L'.n2 C L'.S2) ∧
      ChannelKernelOf μ C (chan Y1 B A) (chan Y2 B A) L' ∧ Regular μ C L'.n1 L'.n2 L'.S1 L'.S2 (chan Y1 B A) (chan Y2 B A) := by
  obtain ⟨k', hk', hst, -⟩ := resize_kernel_formula_partial h hstr hm k L C C hk hl h1 h2 hdb hds hrev hn
  have hl2 : L.S2.length = oS.length := by rw [← hk.nngp.rank]; exact hl
  choose Y1 y1 s1 g1 using fun θ => resize_apply_entries h (X1 θ) L.n1 C L.S1 hl ((hX1 θ).trans h1)
  choose Y2 y2 s2 g2 using fun θ => resize_apply_entries h (X2 θ) L.n2 C L.S2 hl2 ((hX2 θ).trans h2)
  have key : ∀ (X Y : E → Arr ℝ) (n : ℕ) (S : List ℕ), (∀ θ, ∀ i < ob.getD n, ∀ c < C, ∀ p, InRange p (sizes oS S) →
      (Y θ).get (actIdx B A i c p) = ∑ j ∈ Finset.range n, ∑ q ∈ box S,
        axisWeight d.weight n (ob.getD n) j i * axesWeight d.weight S (sizes oS S) q p * (X θ).get (actIdx B A j c q)) →
      ∀ i < 1, ∀ c < C, ∀ o, InRange o (sizes (ob :: oS) (n :: S)) → mergedX (chan Y B A) i c o =
        tapSum (box (n :: S)) (fun u => axesWeight d.weight (n :: S) (sizes (ob :: oS) (n :: S)) u o) (fun u => some u) (mergedX (chan X B A) i c) := by
    intro X Y n S g i _ c hc o ho
    obtain ⟨a, p, rfl, ha, hp⟩ := inRange_cons_right.1 ho
    funext θ
    unfold mergedX chan tapSum
    rw [box_sum_cons]
    exact g θ a ha c hc p hp
  obtain ⟨e1, e2⟩ := linLogical_exact μ C (fun S => box S) (fun S o u => axesWeight d.weight S (sizes (ob :: oS) S) u o) (fun _ _ u => some u)
    (fun S => sizes (ob :: oS) S) (mergedX (chan X1 B A)) (mergedX (chan X2 B A)) (mergedX (chan Y1 B A)) (mergedX (chan Y2 B A)) (merged L)
    (merged_kernel hL) (merged_regular.1 hR)
    (fun o _ u hu p e => by simp only [Option.some.injEq] at e; subst e; exact mem_box.1 hu)
    (fun o _ u hu p e => by simp only [Option.some.injEq] at e; subst e; exact mem_box.1 hu)
    (key X1 Y1 L.n1 L.S1 g1) (key X2 Y2 L.n2 L.S2 g2)
  refine ⟨k', _, Y1, Y2, hk', hst, y1, y2, by simp [resized], s1, s2, ⟨?_, ?_, ?_, ?_⟩, merged_regular.2 e2⟩
  · intro i j p q hi hj hp hq
    have := e1.k12 0 0 (i :: p) (j :: q) one_pos one_pos (inRange_cons.2 ⟨hi, hp⟩) (inRange_cons.2 ⟨hj, hq⟩)
    exact (resizedF_merged _ _ _ _ _ _ _ _ _ _ _ _ _ _).symm.trans this
  · intro i j p q hi hj hp hq
    have := e1.k11 0 0 (i :: p) (j :: q) one_pos one_pos (inRange_cons.2 ⟨hi, hp⟩) (inRange_cons.2 ⟨hj, hq⟩)
    exact (resizedF_merged _ _ _ _ _ _ _ _ _ _ _ _ _ _).symm.trans this
  · intro F hF i j p q hi hj hp hq
    simp only [resized, Option.map_eq_some_iff] at hF
    obtain ⟨G, hG, rfl⟩ := hF
    have := e1.k22 _ (by simp only [linLogical, merged, hG, Option.map_some]; rfl) 0 0 (i :: p) (j :: q) one_pos one_pos (inRange_cons.2 ⟨hi, hp⟩) (inRange_cons.2 ⟨hj, hq⟩)
    exact (resizedF_merged _ _ _ _ _ _ _ _ _ _ _ _ _ _).symm.trans this
  · intro F hF i j p q hi hj hp hq
    simp only [resized, Option.map_eq_some_iff] at hF
    obtain ⟨G, hG, rfl⟩ := hF
    have := e1.ntk _ (by simp only [linLogical, merged, hG, Option.map_some]; rfl) 0 0 (i :: p) (j :: q) one_pos one_pos (inRange_cons.2 ⟨hi, hp⟩) (inRange_cons.2 ⟨hj, hq⟩)
    exact (resizedF_merged _ _ _ _ _ _ _ _ _ _ _ _ _ _).symm.trans this

/-! ### What goes wrong -/

/-- If the spatial axes of the kernel are reversed, as after a convolution, and the output sizes read differently backwards, the output kernel
does not describe activations with these sizes: the sizes are assigned to the wrong axes. -/
theorem resize_reversed_wrong (h : Args d B A ob oS) (k k' : Kernel ℝ) (L : Logical ℝ) (C1 C2 : ℕ) (hk : k.Stores L)
    (hl : L.S1.length = oS.length) (h1 : k.shape1 = actIdx B A L.n1 C1 L.S1) (h2 : k.shape2 = actIdx B A L.n2 C2 L.S2)
    (hr : k.isReversed = true) (hp : (sizes oS L.S1).reverse ≠ sizes oS L.S1) (hk' : d.kernelFn k = .ok k') :
    k'.isReversed = true ∧ ¬ ∃ L', L'.S1 = sizes oS L.S1 ∧ L'.S2 = sizes oS L.S2 ∧ k'.Stores L' := by
  have hl2 : L.S2.length = oS.length := by rw [← hk.nngp.rank]; exact hl
  have hB := h.hB
  have hA := h.hA
  have r1 : resolve d.shape k.shape1 = .ok (actIdx B A (ob.getD L.n1) C1 (sizes oS L.S1)) := by
    rw [resolve_eq, h1, h.shape, sizes_actIdx _ _ _ _ _ _ _ _ hl.symm]
    · rfl
    · rw [h.length, h1, actIdx_length _ _ _ _ _ h.ne (by omega) (by omega), hl]
  have r2 : resolve d.shape k.shape2 = .ok (actIdx B A (ob.getD L.n2) C2 (sizes oS L.S2)) := by
    rw [resolve_eq, h2, h.shape, sizes_actIdx _ _ _ _ _ _ _ _ hl2.symm]
    · rfl
    · rw [h.length, h2, actIdx_length _ _ _ _ _ h.ne (by omega) (by omega), hl2]
  have ls1 := sizes_length hl.symm
  have ls2 := sizes_length hl2.symm
  have e := kShape_eq d false k.diagonalSpatial (ob.getD L.n1) (ob.getD L.n2) C1 C2 (sizes oS L.S1) (sizes oS L.S2) (by omega)
    (by rw [h.ba, h.ca]; exact h.ne) (by rw [h.ba]; omega) (by rw [h.ca]; omega)
  rw [h.ba, h.ca] at e
  unfold ImageResize.kernelFn at hk'
  rw [r1, r2] at hk'
  split_ifs at hk'
  simp only [bind, Except.bind] at hk'
  split at hk'
  · cases hk'
  split at hk'
  · cases hk'
  rename_i nn hnn
  split at hk'
  · cases hk'
  split at hk'
  · cases hk'
  simp only [pure, Except.pure, Except.ok.injEq] at hk'
  subst hk'
  refine ⟨hr, ?_⟩
  rintro ⟨L', s1, s2, hst⟩
  have hs := hst.nngp.shape
  dsimp only at hs
  have hnn' : nn.shape = [ob.getD L.n1, ob.getD L.n2] ++ pos k.diagonalSpatial false (sizes oS L.S1) (sizes oS L.S2) := by
    unfold ImageResize.resize at hnn
    rw [if_neg (by unfold ndim; rw [hk.nngp.shape]; simp)] at hnn
    unfold imageResize at hnn
    split_ifs at hnn
    simp only [Except.ok.injEq] at hnn
    rw [← hnn]
    exact e
  rw [hnn', s1, s2, hr] at hs
  have hs' := (List.append_inj hs rfl).2
  apply hp
  cases hd : k.diagonalSpatial
  · rw [hd, pos_full, pos_full] at hs'
    have := congrArg evens hs'
    rw [evens_interleave (by simp; omega), evens_interleave (by simp; omega)] at this
    exact this.symm
  · rw [hd, pos_diag, pos_diag] at hs'
    exact hs'.symm

/-- With a method given as `jax.image.ResizeMethod`, which the documentation allows, the kernel function fails on every kernel. -/
theorem resize_enum_raises (d : ImageResize) (k : Kernel ℝ) (h : d.isStr = false) : d.kernelFn k = .error .nameError := by
  unfold ImageResize.kernelFn
  rw [h]
  rfl

/-- With a method given by its name, cubic and Lanczos methods and resizing the channels are refused. -/
theorem resize_refuses (d : ImageResize) (k : Kernel ℝ) (h : d.isStr = true) :
    ((∃ w, d.method = .other w) → d.kernelFn k = .error .notImplemented) ∧
      (d.method = .nearest ∨ d.method = .linear → (∃ s, d.shape.getD d.ca none = some s) → d.kernelFn k = .error .valueError) := by
  constructor
  · rintro ⟨w, hw⟩
    unfold ImageResize.kernelFn
    rw [h, hw]
    rfl
  · rintro hm ⟨s, hs⟩
    unfold ImageResize.kernelFn
    rw [h, hs]
    rcases hm with e | e <;> rw [e] <;> rfl

/-! ### Masks -/

lemma triangleAt_nonneg (a : Bool) (n m i j : ℕ) : 0 ≤ triangleAt a n m i j := le_max_left _ _

lemma weight_nonneg {m : ResizeMethod} (hm : m = .nearest ∨ m = .linear) (a : Bool) (n n' i j : ℕ) : 0 ≤ m.weight a n n' i j := by
  rcases hm with rfl | rfl
  · simp only [ResizeMethod.weight, nearestWeight]
    split_ifs <;> simp
  · simp only [ResizeMethod.weight, linearWeight]
    split_ifs
    · refine div_nonneg (triangleAt_nonneg _ _ _ _ _) (List.sum_nonneg fun x hx => ?_)
      obtain ⟨k, -, rfl⟩ := List.mem_map.1 hx
      exact triangleAt_nonneg _ _ _ _ _
    · exact le_refl _

lemma axesWeight_nonneg {w : ℕ → ℕ → ℕ → ℕ → ℝ} (hw : ∀ n m i j, 0 ≤ w n m i j) : ∀ N M I J : List ℕ, 0 ≤ axesWeight w N M I J := by
  intro N
  induction N with
  | nil => intros; simp [axesWeight]
  | cons n N ih =>
    intro M I J
    cases M with
    | nil => simp [axesWeight]
    | cons m M =>
    cases I with
    | nil => simp [axesWeight]
    | cons i I =>
    cases J with
    | nil => simp [axesWeight]
    | cons j J =>
      simp only [axesWeight]
      refine mul_nonneg ?_ (ih _ _ _)
      unfold axisWeight
      split_ifs
      · exact zero_le_one
      · exact le_refl _
      · exact hw _ _ _ _

/-- An output is masked if and only if all inputs that contribute to it are masked. -/
theorem resize_mask (d : ImageResize) (hm : d.method = .nearest ∨ d.method = .linear) (mask : Arr Bool) (hl : d.shape.length = mask.shape.length) :
    ∃ m, d.maskFn mask = .ok m ∧ m.shape = sizes d.shape mask.shape ∧ ∀ o, m.get o = true ↔
      ∀ i, InRange i mask.shape → axesWeight d.weight mask.shape (sizes d.shape mask.shape) i o ≠ 0 → mask.get i = true := by
  unfold ImageResize.maskFn
  rw [resolve_eq hl]
  simp only [bind, Except.bind]
  rw [imageResize_ok (by unfold ndim; exact sizes_length hl)]
  refine ⟨_, rfl, rfl, fun o => ?_⟩
  change (!decide ((∑ i ∈ box mask.shape, axesWeight d.weight mask.shape (sizes d.shape mask.shape) i o * if mask.get i = true then 0 else 1) ≠ 0)) =
    true ↔ _
  rw [Bool.not_eq_true', decide_eq_false_iff_not, not_not, Finset.sum_eq_zero_iff_of_nonneg]
  · constructor
    · intro hz i hi hne
      have := hz i (mem_box.2 hi)
      cases hmi : mask.get i
      · simp only [hmi, Bool.false_eq_true, if_false, mul_one] at this
        exact absurd this hne
      · rfl
    · intro hz i hi
      by_cases hne : axesWeight d.weight mask.shape (sizes d.shape mask.shape) i o = 0
      · rw [hne, zero_mul]
      · rw [hz i (mem_box.1 hi) hne]; simp
  · intro i _
    refine mul_nonneg (axesWeight_nonneg (fun _ _ _ _ => weight_nonneg hm _ _ _ _ _) _ _ _ _) ?_
    split_ifs <;> simp

/-! ### Constant images -/

lemma near_int (n m j : ℕ) (hn : 0 < n) (hj : j < m) :
    ∃ i < n, |(j + 1 / 2) * ((n : ℝ) / m) - 1 / 2 - i| ≤ 1 / 2 ∧ -(1 / 2) ≤ (j + 1 / 2) * ((n : ℝ) / m) - 1 / 2 ∧
      (j + 1 / 2) * ((n : ℝ) / m) - 1 / 2 ≤ n - 1 / 2 := by
  have hm : (0 : ℝ) < m := by exact_mod_cast Nat.lt_of_le_of_lt (Nat.zero_le _) hj
  have hn' : (0 : ℝ) < n := by exact_mod_cast hn
  have hj' : (j : ℝ) + 1 ≤ m := by exact_mod_cast hj
  have e : (j + 1 / 2 : ℝ) * ((n : ℝ) / m) = (j + 1 / 2) / m * n := by ring
  have h1 : (0 : ℝ) ≤ (j + 1 / 2) / m * n := by positivity
  have h2 : ((j : ℝ) + 1 / 2) / m < 1 := by rw [div_lt_one hm]; linarith
  have h3 : ((j : ℝ) + 1 / 2) / m * n < n := by nlinarith
  rw [e]
  refine ⟨⌊((j : ℝ) + 1 / 2) / m * n⌋₊, ?_, ?_, by linarith, by linarith⟩
  · exact (Nat.floor_lt h1).2 h3
  · have f1 := Nat.floor_le h1
    have f2 := Nat.lt_floor_add_one (((j : ℝ) + 1 / 2) / m * n)
    rw [abs_le]
    constructor <;> linarith

/-- The weights of an output add up to one. -/
lemma weight_sum {m : ResizeMethod} (hm : m = .nearest ∨ m = .linear) (a : Bool) (n n' j : ℕ) (hn : 0 < n) (hj : j < n') :
    ∑ i ∈ Finset.range n, axisWeight (m.weight a) n n' i j = 1 := by
  unfold axisWeight
  split_ifs with hnn
  · rw [Finset.sum_ite_eq', if_pos (Finset.mem_range.2 (by omega))]
  rcases hm with rfl | rfl
  · simp only [ResizeMethod.weight, nearestWeight]
    rw [Finset.sum_ite_eq', if_pos]
    rw [Finset.mem_range, Nat.div_lt_iff_lt_mul (by omega)]
    rw [mul_comm n]
    exact Nat.mul_lt_mul_of_pos_right (by omega) hn
  · simp only [ResizeMethod.weight, linearWeight]
    obtain ⟨i, hi, h1, h2, h3⟩ := near_int n n' j hn hj
    have hs : ((List.range n).map fun k => triangleAt a n n' k j).sum = ∑ k ∈ Finset.range n, triangleAt a n n' k j := by
      rw [Finset.sum_eq_multiset_sum, Finset.range_val, ← Multiset.coe_range, Multiset.map_coe, Multiset.sum_coe]
    have hti : 1 / 2 ≤ triangleAt a n n' i j := by
      unfold triangleAt triangle
      refine le_max_of_le_right ?_
      rw [abs_div]
      have hsc : (1 : ℝ) ≤ |if a = true then max ((n : ℝ) / n') 1 else 1| := by
        split_ifs
        · exact (le_max_right _ _).trans (le_abs_self _)
        · simp
      have : |(j + 1 / 2) * ((n : ℝ) / n') - 1 / 2 - i| / |if a = true then max ((n : ℝ) / n') 1 else 1| ≤ 1 / 2 := by
        rw [div_le_iff₀ (by linarith)]
        linarith
      linarith
    have htot : 1 / 2 ≤ ∑ k ∈ Finset.range n, triangleAt a n n' k j :=
      hti.trans (Finset.single_le_sum (f := fun k => triangleAt a n n' k j) (fun k _ => triangleAt_nonneg _ _ _ _ _) (Finset.mem_range.2 hi))
    have hbig : (1000 : ℝ) / 2 ^ 23 < |∑ k ∈ Finset.range n, triangleAt a n n' k j| :=
      lt_of_lt_of_le (lt_of_lt_of_le (by norm_num) htot) (le_abs_self _)
    simp only [hs]
    rw [Finset.sum_congr rfl fun x _ => if_pos ⟨h2, h3, hbig⟩, ← Finset.sum_div, div_self (by linarith)]

lemma axesWeight_sum {m : ResizeMethod} (hm : m = .nearest ∨ m = .linear) (a : Bool) : ∀ (S S' p : List ℕ), 0 ∉ S → S.length = S'.length →
    InRange p S' → ∑ q ∈ box S, axesWeight (m.weight a) S S' q p = 1 := by
  intro S
  induction S with
  | nil =>
    intro S' p _ hl hp
    obtain rfl := List.length_eq_zero_iff.1 hl.symm
    rw [sum_box_nil]
    rfl
  | cons n S ih =>
    intro S' p h0 hl hp
    obtain ⟨n', S', rfl⟩ := List.exists_cons_of_length_eq_add_one hl.symm
    obtain ⟨j, p, rfl, hj, hp⟩ := inRange_cons_right.1 hp
    rw [box_sum_cons]
    simp only [axesWeight]
    simp only [List.mem_cons, not_or] at h0
    rw [Finset.sum_congr rfl fun i _ => by rw [← Finset.mul_sum, ih S' p h0.2 (by simpa using hl) hp, mul_one]]
    exact weight_sum hm a n n' j (by omega) hj

/-- A channel with the same value at all positions of all examples keeps it. -/
theorem resize_constant (h : Args d B A ob oS) (hm : d.method = .nearest ∨ d.method = .linear) (x : Arr ℝ) (n C : ℕ) (S : List ℕ)
    (hl : S.length = oS.length) (hx : x.shape = actIdx B A n C S) (hn : 0 < n) (h0 : 0 ∉ S) (v : ℕ → ℝ)
    (hv : ∀ j < n, ∀ c < C, ∀ q, InRange q S → x.get (actIdx B A j c q) = v c) :
    ∃ y, d.apply x = .ok y ∧ ∀ i < ob.getD n, ∀ c < C, ∀ p, InRange p (sizes oS S) → y.get (actIdx B A i c p) = v c := by
  obtain ⟨y, h1, -, h2⟩ := resize_apply_entries h x n C S hl hx
  refine ⟨y, h1, fun i hi c hc p hp => ?_⟩
  rw [h2 i hi c hc p hp]
  have e : ∀ j ∈ Finset.range n, ∑ q ∈ box S, axisWeight d.weight n (ob.getD n) j i * axesWeight d.weight S (sizes oS S) q p *
      x.get (actIdx B A j c q) = axisWeight d.weight n (ob.getD n) j i * v c := by
    intro j hj
    rw [Finset.sum_congr rfl fun q hq => by rw [hv j (Finset.mem_range.1 hj) c hc q (mem_box.1 hq), mul_assoc, mul_comm _ (v c), ← mul_assoc],
      ← Finset.mul_sum]
    have := axesWeight_sum hm d.antialias S (sizes oS S) p h0 (sizes_length hl.symm).symm hp
    unfold ImageResize.weight
    rw [this, mul_one]
  rw [Finset.sum_congr rfl e, ← Finset.sum_mul]
  have := weight_sum hm d.antialias n (ob.getD n) i hn hi
  unfold ImageResize.weight
  rw [this, one_mul]

/-! ### Concrete cases -/

/-- Images of size 5 by 3 are resized to 2 by `m`, batches of 2 to 4 examples. -/
def exD (method : ResizeMethod) (ob om : Option ℕ) : ImageResize := ⟨[ob, some 2, om, none], method, true, true, 0, -1⟩

lemma exArgs (method : ResizeMethod) (ob om : Option ℕ) : Args (exD method ob om) 0 3 ob [some 2, om] :=
  ⟨rfl, by decide, by simp, by simp, rfl, rfl⟩

/-- The batch is resized too. -/
example (a b : ℕ → ℕ → List ℕ → ℝ) (method : ResizeMethod) (hm : method = .nearest ∨ method = .linear) :
    ∃ k' L' Y1 Y2, (exD method (some 4) (some 7)).kernelFn
        { (lin1L 2 a b 2 2 [5, 3] [5, 3]).encode false false false with shape1 := [2, 5, 3, 2], shape2 := [2, 5, 3, 2] } = .ok k' ∧
      k'.Stores L' ∧ (∀ θ, (exD method (some 4) (some 7)).apply (C54.exX a θ) = .ok (Y1 θ)) ∧
      (∀ θ, (exD method (some 4) (some 7)).apply (C54.exX b θ) = .ok (Y2 θ)) ∧ (L'.n1, L'.S1) = (4, [2, 7]) ∧
      ChannelKernelOf (ProbabilityTheory.gaussianReal 0 1) 2 (chan Y1 0 3) (chan Y2 0 3) L' := by
  have hst := Logical.encode_stores (lin1L 2 a b 2 2 [5, 3] [5, 3]) false false false (by simp) rfl
  obtain ⟨k', L', Y1, Y2, h1, h2, h3, h4, h5, -, -, h6, -⟩ := resize_kernel_exact_partial (ProbabilityTheory.gaussianReal 0 1)
    (exArgs method (some 4) (some 7)) rfl hm (C54.exX a) (C54.exX b) 2
    { (lin1L 2 a b 2 2 [5, 3] [5, 3]).encode false false false with shape1 := [2, 5, 3, 2], shape2 := [2, 5, 3, 2] } _
    ⟨hst.nngp, hst.cov1, hst.cov2, hst.ntk⟩ rfl rfl rfl (by intro h; cases h) (by intro h; cases h) (by intro h; cases h) (by
      intro x hx hs
      simp only [Logical.encode, lin1L, Option.map_some, Option.some.injEq] at hx
      rw [← hx] at hs
      simp [holdArr] at hs) (fun θ => rfl) (fun θ => rfl) (C54.exX_regular a b) (C54.exX_kernel a b)
  refine ⟨k', L', Y1, Y2, h1, h2, h3, h4, ?_, h6⟩
  simp only [Prod.mk.injEq] at h5
  rw [h5.1, h5.2.2.1]
  rfl

/-- With reversed axes the output sizes 2, 2 are fine, the sizes 2, 3 are not. -/
example (a b : ℕ → ℕ → List ℕ → ℝ) (method : ResizeMethod) (hm : method = .nearest ∨ method = .linear) :
    let L := lin1L 2 a b 2 2 [5, 3] [5, 3]
    let k := { L.encode true false true with shape1 := [2, 5, 3, 2], shape2 := [2, 5, 3, 2] }
    (∃ k', (exD method none (some 2)).kernelFn k = .ok k' ∧ k'.Stores (resized (exD method none (some 2)).weight none [some 2, some 2] L)) ∧
      (∃ k', (exD method none (some 2)).kernelFn k = .ok k' ∧ k'.Stores (resizedSpatial (exD method none (some 2)).weight [some 2, some 2] L)) ∧
      ∀ k', (exD method none none).kernelFn k = .ok k' → ¬ ∃ L', L'.S1 = [2, 3] ∧ L'.S2 = [2, 3] ∧ k'.Stores L' := by
  intro L k
  have hst := Logical.encode_stores L true false true (by simp) rfl
  have hk : k.Stores L := ⟨hst.nngp, hst.cov1, hst.cov2, hst.ntk⟩
  have hz : ∀ x, k.ntk = some x → x.shape = [] → x.get [] = 0 := by
    intro x hx hs
    simp only [k, L, Logical.encode, lin1L, Option.map_some, Option.some.injEq] at hx
    rw [← hx] at hs
    simp [holdArr] at hs
  refine ⟨?_, ?_, ?_⟩
  · obtain ⟨k', h1, h2, -⟩ := resize_kernel_formula_partial (exArgs method none (some 2)) rfl hm k L 2 2 hk rfl rfl rfl (fun _ => rfl)
      (by intro h; cases h) (fun _ => ⟨rfl, rfl⟩) hz
    exact ⟨k', h1, h2⟩
  · obtain ⟨k', h1, h2, -⟩ := resize_spatial_formula_partial (exArgs method none (some 2)) rfl hm k L 2 2 hk rfl rfl rfl
      (by intro h; cases h) (fun _ => ⟨rfl, rfl⟩) hz
    exact ⟨k', h1, h2⟩
  · intro k' hk'
    exact (resize_reversed_wrong (exArgs method none none) k k' L 2 2 hk rfl rfl rfl rfl (by
      change [3, 2] ≠ [2, 3]; decide) hk').2

/-- The kernel function does return in that case. -/
example (a b : ℕ → ℕ → List ℕ → ℝ) : ∃ k', (exD .linear none none).kernelFn
    { (lin1L 2 a b 2 2 [5, 3] [5, 3]).encode true false true with shape1 := [2, 5, 3, 2], shape2 := [2, 5, 3, 2] } = .ok k' := ⟨_, rfl⟩

/-- Spatially diagonal kernels may be given if only the batch is resized. -/
example : (⟨[some 4, none, none, none], .linear, true, true, 0, -1⟩ : ImageResize).reqDiagonalSpatial = true ∧
    (⟨[some 4, none, none, none], .linear, true, true, 0, -1⟩ : ImageResize).reqDiagonalBatch = false ∧
    (exD .linear none none).reqDiagonalSpatial = false ∧ (exD .linear none none).reqDiagonalBatch = true := by decide

/-- A mask of four pixels becomes one of two: the first output depends on a pixel that is not masked. -/
example : ∃ m, (⟨[some 2], .nearest, true, true, 0, 0⟩ : ImageResize).maskFn ⟨[4], fun i => decide (i ≠ [1])⟩ = .ok m ∧ m.shape = [2] ∧
    m.get [0] = false ∧ m.get [1] = true := by
  obtain ⟨m, h1, h2, h3⟩ := resize_mask ⟨[some 2], .nearest, true, true, 0, 0⟩ (.inl rfl) ⟨[4], fun i => decide (i ≠ [1])⟩ rfl
  refine ⟨m, h1, h2, ?_, ?_⟩
  · rw [← Bool.not_eq_true, h3]
    intro h
    have := h [1] (by decide) (by
      simp [ImageResize.weight, ResizeMethod.weight, nearestWeight, axesWeight, axisWeight, sizes])
    simp at this
  · rw [h3]
    intro i hi hne
    obtain ⟨t, rfl⟩ := List.length_eq_one_iff.1 hi.length
    rw [decide_eq_true_iff]
    rintro ⟨rfl⟩
    simp [ImageResize.weight, ResizeMethod.weight, nearestWeight, axesWeight, axisWeight, sizes] at hne

/-- An enum as method. -/
example (k : Kernel ℝ) : (⟨[none, some 2, some 2, none], .linear, false, true, 0, -1⟩ : ImageResize).kernelFn k = .error .nameError :=
  resize_enum_raises _ k rfl

end NT.C95
