import Verif.Lemmas.LayerNorm2

/-!
# The kernel of `LayerNorm`
-/

namespace NT
open Arr Spec

lemma HoldsBc.congr {α : Type} {a : Arr α} {B S T : List ℕ} {diag rev : Bool} {F G : List ℕ → List ℕ → List ℕ → α}
    (h : HoldsBc a B S T diag rev F) (e : ∀ b p q, InRange b B → InRange p S → InRange q T → F b p q = G b p q) :
    HoldsBc a B S T diag rev G :=
  ⟨h.shape, fun b p q hb hp hq hpq => (h.get b p q hb hp hq hpq).trans (e b p q hb hp hq)⟩

lemma mem_group {n : ℕ} {S : List ℕ} {batch : Bool} {A : ℕ → Prop} {i : ℕ} {p : List ℕ} {x : ℕ × List ℕ} :
    x ∈ group n S batch A i p ↔ x.1 < n ∧ InRange x.2 S ∧ (batch = false → x.1 = i) ∧
      ∀ j, j < S.length → ¬ A j → x.2.getD j 0 = p.getD j 0 := by
  classical
  unfold group
  rw [Finset.mem_filter, Finset.mem_product, Finset.mem_range, mem_box, and_assoc]

/-- Averaging a diagonal gives the group means. -/
lemma mean_diagonal {d : Arr ℝ} {n : ℕ} {S : List ℕ} {rev : Bool} {G : ℕ → List ℕ → ℝ} (hs : d.shape = n :: rv rev S)
    (hg : ∀ i p, i < n → InRange p S → d.get (i :: rv rev p) = G i p) (kax : Finset ℕ) (batch : Bool) (F : List Bool)
    (hF : F.length = S.length) (hfl : flagsOf kax (1 + S.length) = batch :: (if rev then F.reverse else F))
    (hb : ∀ a ∈ kax, a < 1 + S.length) :
    ∃ y f, meanKeep d kax none = .ok y ∧
      y.shape = (if batch then 1 else n) :: keepShape (if rev then F.reverse else F) (rv rev S) ∧ Bc y (n :: rv rev S) f ∧
      ∀ i p, i < n → InRange p S → f (i :: rv rev p) = groupMean n S batch (fun a => F.getD a false = true) G i p := by
  have hnd : d.ndim = 1 + S.length := by simp [ndim, hs]; omega
  obtain ⟨y, h1, h2, h3⟩ := meanKeep_bc d kax (by rw [hnd]; exact hb)
  rw [hnd, hfl] at h2 h3
  rw [hs] at h2 h3
  refine ⟨y, _, h1, h2, h3, ?_⟩
  intro i p hi hp
  rw [agrees_group n S batch rev F hF d.get i p hp, agrees_group n S batch rev F hF (fun _ => (1 : ℕ)) i p hp]
  unfold groupMean
  congr 1
  · refine Finset.sum_congr rfl fun x hx => ?_
    have := mem_group.1 hx
    exact hg _ _ this.1 this.2.1
  · simp

/-- The three outer products of the averaged diagonals. -/
lemma normProds_ok {k : Kernel ℝ} {L : Logical ℝ} (hk : k.Stores L) (hc : L.Closed) (den : ℝ → ℝ) (kax : Finset ℕ) (batch : Bool)
    (F : List Bool) (hF : F.length = L.S1.length)
    (hfl : flagsOf kax (1 + L.S1.length) = batch :: (if k.isReversed then F.reverse else F))
    (hb : ∀ a ∈ kax, a < 1 + L.S1.length) :
    let v1 := groupMean L.n1 L.S1 batch (fun a => F.getD a false = true) fun i p => den (L.k11 [i, i] p p)
    let v2 := groupMean L.n2 L.S2 batch (fun a => F.getD a false = true) fun i p => den (L.second [i, i] p p)
    ∃ p11 p12 p22,
      getDiagonalOuterProds (k.cov1.map den) (k.cov2.map (·.map den)) k.diagonalBatch k.diagonalSpatial (fun u v : ℝ => u * v)
        (fun d => meanKeep d kax none) (fun d => meanKeep d kax none) = .ok (p11, p12, p22) ∧
      HoldsBc p12 [L.n1, L.n2] L.S1 L.S2 k.diagonalSpatial k.isReversed (fun b p q => v1 (b.getD 0 0) p * v2 (b.getD 1 0) q) ∧
      HoldsBc p11 (batchShape k.diagonalBatch L.n1) L.S1 L.S1 k.diagonalSpatial k.isReversed
        (fun b p q => v1 ((dbl b).getD 0 0) p * v1 ((dbl b).getD 1 0) q) ∧
      (∀ G, L.k22 = some G → HoldsBc p22 (batchShape k.diagonalBatch L.n2) L.S2 L.S2 k.diagonalSpatial k.isReversed
        (fun b p q => v2 ((dbl b).getD 0 0) p * v2 ((dbl b).getD 1 0) q)) := by
  intro v1 v2
  have inB : ∀ n (b : List ℕ), InRange b (batchShape k.diagonalBatch n) → (dbl b).getD 0 0 < n ∧ (dbl b).getD 1 0 < n := by
    intro n b hb
    cases hdb : k.diagonalBatch <;> rw [hdb] at hb <;> simp only [batchShape, Bool.false_eq_true, if_false, if_true] at hb
    · cases hb with
      | cons h1 h2 => cases h2 with
        | cons h2 h3 => cases h3; exact ⟨h1, h2⟩
    · cases hb with
      | cons h1 h2 => cases h2; exact ⟨h1, h1⟩
  have in2 : ∀ n m (b : List ℕ), InRange b [n, m] → b.getD 0 0 < n ∧ b.getD 1 0 < m := by
    intro n m b hb
    cases hb with
    | cons h1 h2 => cases h2 with
      | cons h2 h3 => cases h3; exact ⟨h1, h2⟩
  obtain ⟨d1, a1, a2, a3⟩ := getDiagonal_ok (F := fun b p q => den (L.k11 b p q)) (hk.cov1.map den)
  obtain ⟨y1, f1, b1, b2, b3, b4⟩ := mean_diagonal a2 a3 kax batch F hF hfl hb
  have h11 : HoldsBc (outerProd y1 (some y1) (if k.diagonalBatch then 1 else 0) (if k.diagonalSpatial then 1 else y1.ndim)
      fun u v : ℝ => u * v) (batchShape k.diagonalBatch L.n1) L.S1 L.S1 k.diagonalSpatial k.isReversed
        (fun b p q => v1 ((dbl b).getD 0 0) p * v1 ((dbl b).getD 1 0) q) := by
    refine (outer11_bc _ b3 b2 _ _ rfl rfl).congr fun b p q hb hp hq => ?_
    obtain ⟨h1, h2⟩ := inB _ b hb
    rw [b4 _ p h1 hp, b4 _ q h2 hq]
  have h2 := hk.cov2
  cases e1 : k.cov2 <;> cases e2 : L.k22 <;> rw [e1, e2] at h2 <;> simp only [OptRel] at h2
  · obtain ⟨hn, hS⟩ := hc e2
    have hsec : L.second = L.k11 := by simp [Logical.second, e2]
    have hv : v2 = v1 := by simp only [v1, v2, hn, hS, hsec]
    refine ⟨_, outerProd y1 none 0 (if k.diagonalSpatial then 1 else y1.ndim) (fun u v : ℝ => u * v),
      outerProd y1 (some y1) (if k.diagonalBatch then 1 else 0) (if k.diagonalSpatial then 1 else y1.ndim) (fun u v : ℝ => u * v),
      ?_, ?_, h11, ?_⟩
    · simp [getDiagonalOuterProds, getDiagonal?, a1, b1, bind, Except.bind]
    · have := outer12_bc (fun u v : ℝ => u * v) (ds := k.diagonalSpatial) b3 b3 b2 b2 rfl (fun _ => ⟨rfl, rfl⟩) _ rfl
      rw [hv, hn, hS]
      refine HoldsBc.congr this fun b p q hb hp hq => ?_
      obtain ⟨h1, h2⟩ := in2 _ _ b hb
      rw [b4 _ p h1 hp, b4 _ q h2 hq]
    · simp
  · rename_i c G
    obtain ⟨d2, c1, c2, c3⟩ := getDiagonal_ok (F := fun b p q => den (G b p q)) (h2.map den)
    have hrank := hk.nngp.rank
    obtain ⟨y2, f2, g1, g2, g3, g4⟩ := mean_diagonal c2 c3 kax batch F (by omega) (by rw [← hrank]; exact hfl) (by rw [← hrank]; exact hb)
    have hsec : L.second = G := by simp [Logical.second, e2]
    have hstop : (if k.diagonalSpatial then 1 else y1.ndim) = if k.diagonalSpatial then 1 else y2.ndim := by
      have w1 := b3.shape.length_eq
      have w2 := g3.shape.length_eq
      simp only [List.length_cons, rv_length] at w1 w2
      simp only [ndim, w1, w2, hrank]
    have hv2 : v2 = groupMean L.n2 L.S2 batch (fun a => F.getD a false = true) fun i p => den (G [i, i] p p) := by
      simp only [v2, hsec]
    refine ⟨_, outerProd y1 (some y2) 0 (if k.diagonalSpatial then 1 else y1.ndim) (fun u v : ℝ => u * v),
      outerProd y2 (some y2) (if k.diagonalBatch then 1 else 0) (if k.diagonalSpatial then 1 else y1.ndim) (fun u v : ℝ => u * v),
      ?_, ?_, h11, ?_⟩
    · simp [getDiagonalOuterProds, getDiagonal?, a1, b1, c1, g1, Except.map, bind, Except.bind]
    · refine (outer12_bc (fun u v : ℝ => u * v) b3 g3 b2 g2 hrank (fun h => ⟨hk.nngp.square h, by rw [hk.nngp.square h]⟩) _ rfl).congr
        fun b p q hb hp hq => ?_
      obtain ⟨h1, h2⟩ := in2 _ _ b hb
      rw [b4 _ p h1 hp, g4 _ q h2 hq, hv2]
    · intro H hH
      rw [hstop]
      refine (outer11_bc (fun u v : ℝ => u * v) g3 g2 _ _ rfl rfl).congr fun b p q hb hp hq => ?_
      obtain ⟨h1, h2⟩ := inB _ b hb
      rw [g4 _ p h1 hp, g4 _ q h2 hq, hv2]

/-- The kernel after `LayerNorm`, for the axes that the code averages. -/
lemma layerNorm_core {k : Kernel ℝ} {L : Logical ℝ} (hk : k.Stores L) (hc : L.Closed) (hg : k.isGaussian = true)
    (hm1 : k.mask1 = none) (hm2 : k.mask2 = none) (hntk : ∀ a, k.ntk = some a → a.shape ≠ []) (axis : List Int) (eps : ℝ)
    (batchAxis channelAxis : Int) (ax : Finset ℕ) (hax : Utils.canonicalizeAxis axis k.shape1.length = .ok ax)
    (hca : (channelAxis % (k.shape1.length : ℤ)).toNat ∈ ax) (batch : Bool) (F : List Bool) (hF : F.length = L.S1.length)
    (hfl : flagsOf (layerNormAxes ax k.shape1.length (batchAxis % (k.shape1.length : ℤ)).toNat
      (channelAxis % (k.shape1.length : ℤ)).toNat batchAxis k.isReversed) (1 + L.S1.length) =
        batch :: (if k.isReversed then F.reverse else F))
    (hb : ∀ a ∈ layerNormAxes ax k.shape1.length (batchAxis % (k.shape1.length : ℤ)).toNat
      (channelAxis % (k.shape1.length : ℤ)).toNat batchAxis k.isReversed, a < 1 + L.S1.length) :
    ∃ k', layerNormKernelFn axis eps batchAxis channelAxis k = .ok k' ∧
      k'.Stores (normalised L eps batch fun a => F.getD a false = true) ∧ k'.static = k.static ∧ k'.x1IsX2 = k.x1IsX2 ∧
      k'.mask1 = none ∧ k'.mask2 = none ∧ (∀ a, k'.ntk = some a → a.shape ≠ []) := by
  obtain ⟨p11, p12, p22, h0, h12, h11, h22⟩ := normProds_ok hk hc (fun v => eps + v) _ batch F hF hfl hb
  have hnd : 1 + L.S1.length ≤ k.cov1.ndim := by
    rw [ndim, hk.cov1.shape]
    cases k.diagonalBatch <;> cases k.diagonalSpatial <;> cases k.isReversed <;>
      simp [batchShape, pos, interleave_length] <;> omega
  obtain ⟨nn, n1, n2⟩ := bcastE_holds (fun u v : ℝ => u / Real.sqrt v) hk.nngp h12
  obtain ⟨c1, d1, d2⟩ := bcastE_holds (fun u v : ℝ => u / Real.sqrt v) hk.cov1 h11
  have hc2 : ∃ c2, divSqrt? k.cov2 p22 = .ok c2 ∧
      OptRel (fun c F => Holds c (batchShape k.diagonalBatch L.n2) L.S2 L.S2 k.diagonalSpatial k.isReversed (fun b => F (dbl b)))
        c2 (normalised L eps batch fun a => F.getD a false = true).k22 := by
    have h2 := hk.cov2
    cases e1 : k.cov2 <;> cases e2 : L.k22 <;> rw [e1, e2] at h2 <;> simp only [OptRel] at h2
    · exact ⟨none, rfl, by simp [normalised, e2, OptRel]⟩
    · rename_i c G
      obtain ⟨c2, g1, g2⟩ := bcastE_holds (fun u v : ℝ => u / Real.sqrt v) h2 (h22 G e2)
      refine ⟨some c2, by simp [divSqrt?, divSqrt, g1, Except.map], ?_⟩
      simp only [normalised, e2, Option.map_some, OptRel]
      exact g2
  obtain ⟨c2, c2a, c2b⟩ := hc2
  have ht : ∃ t, divSqrt? k.ntk p12 = .ok t ∧ (∀ a, t = some a → a.shape ≠ []) ∧
      OptRel (fun a F => (a.shape = [] ∧ ∀ b p q, F b p q = a.get []) ∨
        Holds a [L.n1, L.n2] L.S1 L.S2 k.diagonalSpatial k.isReversed F) t
        (normalised L eps batch fun a => F.getD a false = true).ntk := by
    have h2 := hk.ntk
    cases e1 : k.ntk <;> cases e2 : L.ntk <;> rw [e1, e2] at h2 <;> simp only [OptRel] at h2
    · exact ⟨none, rfl, by simp, by simp [normalised, e2, OptRel]⟩
    · rename_i a G
      obtain ⟨t, g1, g2⟩ := bcastE_holds (fun u v : ℝ => u / Real.sqrt v) (h2.resolve_left fun h => hntk a e1 h.1) h12
      refine ⟨some t, by simp [divSqrt?, divSqrt, g1, Except.map], ?_, ?_⟩
      · intro a ha
        obtain rfl : t = a := by simpa using ha
        rw [g2.shape]
        simp
      · simp only [normalised, e2, Option.map_some, OptRel]
        exact .inr g2
  obtain ⟨t, ta, tb, tc⟩ := ht
  refine ⟨{ k with cov1 := c1, nngp := nn, cov2 := c2, ntk := t }, ?_, ⟨n2, d2, c2b, tc⟩, rfl, rfl, hm1, hm2, tb⟩
  unfold layerNormKernelFn
  simp only [hg, Bool.not_true, Bool.false_eq_true, if_false, bind, Except.bind, hax]
  rw [if_neg (not_not.2 hca)]
  simp only [hm1, hm2, prepareMask]
  rw [if_pos fun a ha => lt_of_lt_of_le (hb a ha) hnd]
  simp only [h0, divSqrt, n1, ta, d1, c2a, pure, Except.pure]

end NT
