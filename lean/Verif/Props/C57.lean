import Verif.Lemmas.LayerNorm3
import Verif.Props.C42

/-!
# C57: the kernel of `LayerNorm`
-/

namespace NT.C57
open NT Arr Kernel Spec

/-- Is the `j`-th spatial axis (of the axes of the inputs that are not batch or channel) among the normalised axes `ax`? -/
def Among (ax : Finset ℕ) (ndim ba ca j : ℕ) : Prop := ∃ a ∈ ax, (spatialAxes ndim ba ca)[j]? = some a

lemma spatialAxes_eq (n ba ca : ℕ) : spatialAxes n ba ca = restAxes n ba ca := by
  unfold spatialAxes restAxes
  refine List.filter_congr fun a _ => ?_
  by_cases h : a = ba <;> by_cases h' : a = ca <;> simp [h, h']

lemma spatialAxes_length {n ba ca : ℕ} (hne : ba ≠ ca) (hb : ba < n) (hc : ca < n) : (spatialAxes n ba ca).length = n - 2 := by
  rw [spatialAxes_eq]
  rcases lt_or_gt_of_ne hne with h | h
  · obtain ⟨v, rfl⟩ := Nat.exists_eq_add_of_le (show ba + 1 ≤ ca by omega)
    obtain ⟨w, rfl⟩ := Nat.exists_eq_add_of_le (show ba + 1 + v + 1 ≤ n by omega)
    rw [restAxes_split ba v w ba _ (.inl ⟨rfl, rfl⟩)]
    simp; omega
  · obtain ⟨v, rfl⟩ := Nat.exists_eq_add_of_le (show ca + 1 ≤ ba by omega)
    obtain ⟨w, rfl⟩ := Nat.exists_eq_add_of_le (show ca + 1 + v + 1 ≤ n by omega)
    rw [restAxes_split ca v w _ ca (.inr ⟨rfl, rfl⟩)]
    simp; omega

lemma canonicalize_lt {axis : List Int} {n : ℕ} {ax : Finset ℕ} (h : Utils.canonicalizeAxis axis n = .ok ax) : ∀ a ∈ ax, a < n := by
  unfold Utils.canonicalizeAxis at h
  cases e : axis.mapM (Utils.arangeAt n) with
  | error x => rw [e] at h; cases h
  | ok l =>
    rw [e] at h
    obtain rfl : l.toFinset = ax := by simpa [bind, Except.bind, pure, Except.pure] using h
    intro a ha
    rw [List.mem_toFinset] at ha
    clear h
    induction axis generalizing l with
    | nil =>
      obtain rfl : [] = l := by simpa [pure, Except.pure] using e
      cases ha
    | cons z axis ih =>
      rw [List.mapM_cons] at e
      cases e1 : Utils.arangeAt n z with
      | error x => rw [e1] at e; cases e
      | ok b =>
        cases e2 : axis.mapM (Utils.arangeAt n) with
        | error x => rw [e1, e2] at e; cases e
        | ok l' =>
          rw [e1, e2] at e
          obtain rfl : b :: l' = l := by simpa [bind, Except.bind, pure, Except.pure] using e
          rcases List.mem_cons.1 ha with rfl | ha
          · unfold Utils.arangeAt at e1
            split_ifs at e1 <;> simp at e1 <;> omega
          · exact ih l' e2 ha

lemma among_iff (ax : Finset ℕ) (ndim ba ca j : ℕ) :
    (((spatialAxes ndim ba ca).map fun a => decide (a ∈ ax)).getD j false = true) ↔ Among ax ndim ba ca j := by
  unfold Among
  rw [List.getD_eq_getElem?_getD, List.getElem?_map]
  cases (spatialAxes ndim ba ca)[j]? <;> simp

/-- **C57, the kernel.**  For a Gaussian, unmasked kernel and a non-negative batch axis: every covariance (in all layouts) is divided by
the geometric mean of the two variances, each plus `eps` and averaged over the normalised batch and spatial axes; nothing else changes. -/
theorem kernel_normalised {k : Kernel ℝ} {L : Logical ℝ} (hk : k.Stores L) (hc : L.Closed) (hg : k.isGaussian = true)
    (hm1 : k.mask1 = none) (hm2 : k.mask2 = none) (hntk : ∀ a, k.ntk = some a → a.shape ≠ []) (axis : List Int) (eps : ℝ)
    (ba ca : ℕ) (channelAxis : Int) (hnd : k.shape1.length = L.S1.length + 2) (hne : ba ≠ ca) (hba : ba < k.shape1.length)
    (hca : channelAxis % (k.shape1.length : ℤ) = ca) (ax : Finset ℕ)
    (hax : Utils.canonicalizeAxis axis k.shape1.length = .ok ax) (hmem : ca ∈ ax) :
    ∃ k', layerNormKernelFn axis eps ba channelAxis k = .ok k' ∧
      k'.Stores (normalised L eps (decide (ba ∈ ax)) (Among ax k.shape1.length ba ca)) ∧ k'.static = k.static ∧
      k'.x1IsX2 = k.x1IsX2 ∧ k'.mask1 = none ∧ k'.mask2 = none ∧ (∀ a, k'.ntk = some a → a.shape ≠ []) := by
  have hlt := canonicalize_lt hax
  have hca' : ca < k.shape1.length := hlt ca hmem
  have e1 : (channelAxis % (k.shape1.length : ℤ)).toNat = ca := by rw [hca]; simp
  have e2 : ((ba : ℤ) % (k.shape1.length : ℤ)).toNat = ba := by
    rw [Int.emod_eq_of_lt (by omega) (by omega)]; simp
  have hl := spatialAxes_length hne hba hca'
  have hl' : L.S1.length = (spatialAxes k.shape1.length ba ca).length := by omega
  obtain ⟨f1, f2⟩ := flags_layerNormAxes ax k.shape1.length ba ca k.isReversed hlt L.S1.length hl'
  have := layerNorm_core hk hc hg hm1 hm2 hntk axis eps ba channelAxis ax hax (by rw [e1]; exact hmem)
    (decide (ba ∈ ax)) ((spatialAxes k.shape1.length ba ca).map fun a => decide (a ∈ ax)) (by simp [hl'])
    (by rw [e1, e2]; exact f1) (by rw [e1, e2]; exact f2)
  have e3 : (fun a => ((spatialAxes k.shape1.length ba ca).map fun a => decide (a ∈ ax)).getD a false = true) =
      Among ax k.shape1.length ba ca := by
    funext j
    exact propext (among_iff _ _ _ _ j)
  rw [e3] at this
  exact this

/-- The case of the theorem: normalisation over the height and the channels of `N W H C` images. -/
example (db ds rev : Bool) : ∃ k', layerNormKernelFn [1, -1] 1 0 (-1)
      { C42.exL.encode db ds rev with isGaussian := true, shape1 := [2, 2, 5], shape2 := [3, 2, 5] } = .ok k' ∧
    k'.Stores (normalised C42.exL 1 false (Among {1, 2} 3 0 2)) := by
  have hs := C42.exL_stores db ds rev
  obtain ⟨k', h1, h2, -⟩ := kernel_normalised
    (k := { C42.exL.encode db ds rev with isGaussian := true, shape1 := [2, 2, 5], shape2 := [3, 2, 5] })
    (L := C42.exL) ⟨hs.nngp, hs.cov1, hs.cov2, hs.ntk⟩ C42.exL_closed rfl rfl rfl
    (by
      intro a ha
      simp [Logical.encode, C42.exL] at ha
      subst ha
      simp [holdArr])
    [1, -1] 1 0 2 (-1) rfl (by decide) (show 0 < 3 by decide) (show (-1 : ℤ) % 3 = 2 by decide) {1, 2} rfl (by decide)
  exact ⟨k', h1, h2⟩

/-- **C57, errors.** -/
theorem errors (axis : List Int) (eps : ℝ) (batchAxis channelAxis : Int) (k : Kernel ℝ) :
    (k.isGaussian = false → layerNormKernelFn axis eps batchAxis channelAxis k = .error .notImplemented) ∧
    (k.isGaussian = true → ∀ ax, Utils.canonicalizeAxis axis k.shape1.length = .ok ax →
      (channelAxis % (k.shape1.length : ℤ)).toNat ∉ ax → layerNormKernelFn axis eps batchAxis channelAxis k = .error .valueError) := by
  constructor
  · intro h
    simp [layerNormKernelFn, h]
  · intro h ax hax hn
    simp [layerNormKernelFn, h, hax, hn, bind, Except.bind]

/-- Members of a group have the same group. -/
lemma group_eq {n : ℕ} {S : List ℕ} {batch : Bool} {A : ℕ → Prop} {i : ℕ} {p : List ℕ} {x : ℕ × List ℕ}
    (hx : x ∈ group n S batch A i p) : group n S batch A x.1 x.2 = group n S batch A i p := by
  obtain ⟨-, -, h3, h4⟩ := mem_group.1 hx
  ext y
  rw [mem_group, mem_group]
  refine and_congr_right fun _ => and_congr_right fun _ => and_congr ?_ ?_
  · exact ⟨fun h e => (h e).trans (h3 e), fun h e => (h e).trans (h3 e).symm⟩
  · exact ⟨fun h j hj hA => (h j hj hA).trans (h4 j hj hA), fun h j hj hA => (h j hj hA).trans (h4 j hj hA).symm⟩

lemma self_mem_group {n : ℕ} {S : List ℕ} (batch : Bool) (A : ℕ → Prop) {i : ℕ} {p : List ℕ} (hi : i < n) (hp : InRange p S) :
    (i, p) ∈ group n S batch A i p := mem_group.2 ⟨hi, hp, fun _ => rfl, fun _ _ _ => rfl⟩

lemma groupMean_pos {n : ℕ} {S : List ℕ} {batch : Bool} {A : ℕ → Prop} {f : ℕ → List ℕ → ℝ}
    (hf : ∀ i p, i < n → InRange p S → 0 < f i p) {i : ℕ} {p : List ℕ} (hi : i < n) (hp : InRange p S) :
    0 < groupMean n S batch A f i p := by
  have hm := self_mem_group batch A hi hp
  unfold groupMean
  refine div_pos (Finset.sum_pos (fun x hx => ?_) ⟨_, hm⟩) (by exact_mod_cast Finset.card_pos.2 ⟨_, hm⟩)
  obtain ⟨h1, h2, -⟩ := mem_group.1 hx
  exact hf _ _ h1 h2

/-- The averages of variances that were divided by their averages are 1. -/
lemma groupMean_self {n : ℕ} {S : List ℕ} {batch : Bool} {A : ℕ → Prop} {f : ℕ → List ℕ → ℝ}
    (hf : ∀ i p, i < n → InRange p S → 0 < f i p) {i : ℕ} {p : List ℕ} (hi : i < n) (hp : InRange p S) :
    groupMean n S batch A (fun i p => f i p / √(groupMean n S batch A f i p * groupMean n S batch A f i p)) i p = 1 := by
  have hpos := groupMean_pos (batch := batch) (A := A) hf hi hp
  have e : ∀ x ∈ group n S batch A i p, f x.1 x.2 / √(groupMean n S batch A f x.1 x.2 * groupMean n S batch A f x.1 x.2) =
      f x.1 x.2 / groupMean n S batch A f i p := by
    intro x hx
    have : groupMean n S batch A f x.1 x.2 = groupMean n S batch A f i p := by
      unfold groupMean
      rw [group_eq hx]
    rw [this, Real.sqrt_mul_self hpos.le]
  rw [groupMean, Finset.sum_congr rfl e, ← Finset.sum_div, div_div, mul_comm, ← div_div]
  exact div_self hpos.ne'

/-- **C57, unit variances.**  Without `eps` the normalised variances of the first and of the second inputs have mean 1 over the
normalised axes... -/
theorem unit_mean {L : Logical ℝ} (hv : L.Vars (fun v => 0 < v)) (batch : Bool) (A : ℕ → Prop) :
    (∀ i p, i < L.n1 → InRange p L.S1 →
      groupMean L.n1 L.S1 batch A (fun i p => (normalised L 0 batch A).k11 [i, i] p p) i p = 1) ∧
    (∀ G G', L.k22 = some G → (normalised L 0 batch A).k22 = some G' → ∀ i p, i < L.n2 → InRange p L.S2 →
      groupMean L.n2 L.S2 batch A (fun i p => G' [i, i] p p) i p = 1) := by
  constructor
  · intro i p hi hp
    have := groupMean_self (batch := batch) (A := A) (f := fun i p => L.k11 [i, i] p p) hv.one hi hp
    simpa [normalised] using this
  · intro G G' hG hG' i p hi hp
    have hs : L.second = G := by simp [Logical.second, hG]
    obtain rfl : _ = G' := by simpa [normalised, hG] using hG'
    have := groupMean_self (batch := batch) (A := A) (f := fun i p => G [i, i] p p) (hv.two G hG) hi hp
    simpa [hs] using this

/-- ... and are all 1 if only the channels are normalised. -/
theorem unit_variances {L : Logical ℝ} (hv : L.Vars (fun v => 0 < v)) :
    (normalised L 0 false fun _ => False).Vars (fun v => v = 1) := by
  have one : ∀ (n : ℕ) (S : List ℕ) (f : ℕ → List ℕ → ℝ) (i : ℕ) (p : List ℕ), i < n → InRange p S →
      groupMean n S false (fun _ => False) f i p = f i p := by
    intro n S f i p hi hp
    have : group n S false (fun _ => False) i p = {(i, p)} := by
      ext x
      rw [mem_group, Finset.mem_singleton]
      constructor
      · rintro ⟨h1, h2, h3, h4⟩
        refine Prod.ext (h3 rfl) (List.ext_getElem (by rw [h2.length, hp.length]) fun j hj hj' => ?_)
        have := h4 j (by rw [← h2.length]; exact hj) (by simp)
        simpa [List.getD, hj, hj'] using this
      · rintro rfl
        exact ⟨hi, hp, fun _ => rfl, fun _ _ _ => rfl⟩
    simp [groupMean, this]
  obtain ⟨h1, h2⟩ := unit_mean hv false fun _ => False
  refine ⟨fun i p hi hp => ?_, fun G hG i p hi hp => ?_⟩
  · have := h1 i p hi hp
    rwa [one L.n1 L.S1 _ _ _ hi hp] at this
  · cases e : L.k22 with
    | none => simp [normalised, e] at hG
    | some G0 =>
      have := h2 G0 G e hG i p hi hp
      rwa [one L.n2 L.S2 _ _ _ hi hp] at this

example : (normalised C42.exL 0 false fun _ => False).Vars (fun v => v = 1) := unit_variances C42.exL_vars

example (i : ℕ) (hi : i < 2) (p : List ℕ) (hp : InRange p [2]) : groupMean 2 [2] true (fun _ => True)
    (fun i p => (normalised C42.exL 0 true fun _ => True).k11 [i, i] p p) i p = 1 := (unit_mean C42.exL_vars true fun _ => True).1 i p hi hp

/-- **C57, idempotence.**  Without `eps`, a second `LayerNorm` over the same axes leaves the kernel as it is. -/
theorem idempotent {k : Kernel ℝ} {L : Logical ℝ} (hk : k.Stores L) (hc : L.Closed) (hv : L.Vars (fun v => 0 < v)) (hg : k.isGaussian = true)
    (hm1 : k.mask1 = none) (hm2 : k.mask2 = none) (hntk : ∀ a, k.ntk = some a → a.shape ≠ []) (axis : List Int)
    (ba ca : ℕ) (channelAxis : Int) (hnd : k.shape1.length = L.S1.length + 2) (hne : ba ≠ ca) (hba : ba < k.shape1.length)
    (hca : channelAxis % (k.shape1.length : ℤ) = ca) (ax : Finset ℕ)
    (hax : Utils.canonicalizeAxis axis k.shape1.length = .ok ax) (hmem : ca ∈ ax) :
    ∃ k' k'', layerNormKernelFn axis 0 ba channelAxis k = .ok k' ∧ layerNormKernelFn axis 0 ba channelAxis k' = .ok k'' ∧
      k''.static = k'.static ∧ k''.nngp ≋ k'.nngp ∧ k''.cov1 ≋ k'.cov1 ∧ OptRel (· ≋ ·) k''.cov2 k'.cov2 ∧
      OptRel (· ≋ ·) k''.ntk k'.ntk := by
  obtain ⟨k', h1, h2, h3, -, h5, h6, h7⟩ := kernel_normalised hk hc hg hm1 hm2 hntk axis 0 ba ca channelAxis hnd hne hba hca ax hax hmem
  have hsh : k'.shape1 = k.shape1 := congrArg Kernel.Static.shape1 h3
  have hg' : k'.isGaussian = true := (congrArg Kernel.Static.isGaussian h3).trans hg
  obtain ⟨k'', g1, g2, g3, -, -, -, g7⟩ := kernel_normalised h2
    (by
      intro e
      refine hc ?_
      cases e0 : L.k22 with
      | none => rfl
      | some G => simp [normalised, e0] at e)
    hg' h5 h6 h7 axis 0 ba ca channelAxis (by rw [hsh]; exact hnd) hne (by rw [hsh]; exact hba)
    (by rw [hsh]; exact hca) ax (by rw [hsh]; exact hax) hmem
  rw [hsh] at g2
  refine ⟨k', k'', h1, g1, g3, ?_⟩
  refine stores_eqv (L := normalised L 0 (decide (ba ∈ ax)) (Among ax k.shape1.length ba ca)) ?_ h2 g3 g7 h7
  generalize decide (ba ∈ ax) = batch at *
  generalize Among ax k.shape1.length ba ca = A at *
  obtain ⟨u1, u2⟩ := unit_mean hv batch A
  have w1 : ∀ i p, i < L.n1 → InRange p L.S1 →
      groupMean L.n1 L.S1 batch A (fun i p => 0 + (normalised L 0 batch A).k11 [i, i] p p) i p = 1 := by
    intro i p hi hp
    simpa only [zero_add] using u1 i p hi hp
  have w2 : ∀ i p, i < L.n2 → InRange p L.S2 →
      groupMean L.n2 L.S2 batch A (fun i p => 0 + (normalised L 0 batch A).second [i, i] p p) i p = 1 := by
    intro i p hi hp
    simp only [zero_add]
    cases e : L.k22 with
    | none =>
      obtain ⟨hn, hS⟩ := hc e
      have : (normalised L 0 batch A).second = (normalised L 0 batch A).k11 := by simp [Logical.second, normalised, e]
      rw [this, hn, hS]
      exact u1 i p (hn ▸ hi) (hS ▸ hp)
    | some G =>
      obtain ⟨G', hG'⟩ : ∃ G', (normalised L 0 batch A).k22 = some G' := ⟨_, by simp only [normalised, e, Option.map_some]; rfl⟩
      have : (normalised L 0 batch A).second = G' := by simp [Logical.second, hG']
      rw [this]
      exact u2 G G' e hG' i p hi hp
  generalize hM : normalised L 0 batch A = M at *
  have d1 : M.n1 = L.n1 := by rw [← hM]; rfl
  have d2 : M.n2 = L.n2 := by rw [← hM]; rfl
  have d3 : M.S1 = L.S1 := by rw [← hM]; rfl
  have d4 : M.S2 = L.S2 := by rw [← hM]; rfl
  rw [← d1, ← d3] at w1
  rw [← d2, ← d4] at w2
  have in2 : ∀ n m (b : List ℕ), InRange b [n, m] → b.getD 0 0 < n ∧ b.getD 1 0 < m := by
    intro n m b hb
    cases hb with
    | cons h1 h2 => cases h2 with
      | cons h2 h3 => cases h3; exact ⟨h1, h2⟩
  have inB : ∀ (db : Bool) n (b : List ℕ), InRange b (batchShape db n) → (dbl b).getD 0 0 < n ∧ (dbl b).getD 1 0 < n := by
    intro db n b hb
    cases db <;> simp only [batchShape, Bool.false_eq_true, if_false, if_true] at hb
    · cases hb with
      | cons h1 h2 => cases h2 with
        | cons h2 h3 => cases h3; exact ⟨h1, h2⟩
    · cases hb with
      | cons h1 h2 => cases h2; exact ⟨h1, h1⟩
  refine ⟨g2.nngp.congr ?_, g2.cov1.congr ?_, ?_, ?_⟩
  · intro b p q hb hp hq
    obtain ⟨i1, i2⟩ := in2 _ _ b hb
    simp only [normalised, w1 _ p i1 hp, w2 _ q i2 hq, mul_one, Real.sqrt_one, div_one]
  · intro b p q hb hp hq
    obtain ⟨i1, i2⟩ := inB _ _ b hb
    simp only [normalised, w1 _ p i1 hp, w1 _ q i2 hq, mul_one, Real.sqrt_one, div_one]
  · have h := g2.cov2
    cases e1 : k''.cov2 <;> cases e2 : M.k22 <;> rw [e1] at h <;> simp only [normalised, e2, Option.map_some, Option.map_none, OptRel] at h ⊢
    refine h.congr ?_
    intro b p q hb hp hq
    obtain ⟨i1, i2⟩ := inB _ _ b hb
    simp only [w2 _ p i1 hp, w2 _ q i2 hq, mul_one, Real.sqrt_one, div_one]
  · have h := g2.ntk
    cases e1 : k''.ntk <;> cases e2 : M.ntk <;> rw [e1] at h <;> simp only [normalised, e2, Option.map_some, Option.map_none, OptRel] at h ⊢
    rename_i a G
    refine .inr ((h.resolve_left fun h => g7 a e1 h.1).congr ?_)
    intro b p q hb hp hq
    obtain ⟨i1, i2⟩ := in2 _ _ b hb
    simp only [w1 _ p i1 hp, w2 _ q i2 hq, mul_one, Real.sqrt_one, div_one]

/-- One image of height 2 and width 1 whose variances depend on the height. -/
noncomputable def tallL : Logical ℝ where
  n1 := 1
  n2 := 1
  S1 := [2, 1]
  S2 := [2, 1]
  k12 _ p _ := 1 + p.getD 0 0
  k11 _ p _ := 1 + p.getD 0 0
  k22 := none
  ntk := none

noncomputable def tallK : Kernel ℝ := { tallL.encode false false false with isGaussian := true, shape1 := [1, 2, 1, 5], shape2 := [1, 2, 1, 5] }

lemma tallK_stores : tallK.Stores tallL := by
  have h := tallL.encode_stores false false false (fun _ => rfl) rfl
  exact ⟨h.nngp, h.cov1, h.cov2, h.ntk⟩

lemma tallL_closed : tallL.Closed := fun _ => ⟨rfl, rfl⟩

lemma tall_positions (x : List ℕ) : InRange x [2, 1] ↔ x = [0, 0] ∨ x = [1, 0] := by
  constructor
  · rintro (_ | ⟨h1, _ | ⟨h2, ⟨⟩⟩⟩)
    rename_i a b
    obtain rfl : b = 0 := by omega
    have : a = 0 ∨ a = 1 := by omega
    rcases this with rfl | rfl <;> simp
  · rintro (rfl | rfl) <;> simp [InRange]

/-- **C57 fails for a negative batch axis.**  `LayerNorm(axis=(1, 3), batch_axis=-4)` on `N H W C` inputs averages over the width, not over
the height (linear.py:2533-2534 leaves the batch axis among the spatial axes). -/
theorem negative_batch_axis_wrong : ∃ (k : Kernel ℝ) (L : Logical ℝ) (k' : Kernel ℝ), k.Stores L ∧ L.Closed ∧ L.Vars (fun v => 0 < v) ∧
    k.isGaussian = true ∧ k.shape1.length = 4 ∧ layerNormKernelFn [1, 3] 0 (-4) 3 k = .ok k' ∧
    ¬ k'.Stores (normalised L 0 false (Among {1, 3} 4 0 3)) := by
  obtain ⟨k', h1, h2, h3, -⟩ := layerNorm_core tallK_stores tallL_closed rfl rfl rfl (by intro a ha; cases ha) [1, 3] 0 (-4) 3 {1, 3} rfl
    (by decide) false [false, true] rfl (by decide) (by decide)
  refine ⟨tallK, tallL, k', tallK_stores, tallL_closed, ⟨?_, by simp [tallL]⟩, rfl, rfl, h1, fun h => ?_⟩
  · intro i p _ _
    simp only [tallL]
    positivity
  · have p0 : InRange [0, 0] [2, 1] := (tall_positions _).2 (.inl rfl)
    have e : ∀ A B, k'.Stores (normalised tallL 0 false A) → k'.Stores (normalised tallL 0 false B) →
        (normalised tallL 0 false A).k12 [0, 0] [0, 0] [0, 0] = (normalised tallL 0 false B).k12 [0, 0] [0, 0] [0, 0] := by
      intro A B hA hB
      rw [← hA.nngp.get [0, 0] [0, 0] [0, 0] (by simp [InRange, normalised, tallL]) p0 p0 (fun _ => rfl),
        ← hB.nngp.get [0, 0] [0, 0] [0, 0] (by simp [InRange, normalised, tallL]) p0 p0 (fun _ => rfl)]
    have := e _ _ h2 h
    have m1 : groupMean 1 [2, 1] false (fun a => [false, true].getD a false = true) (fun _ p => 0 + (1 + (p.getD 0 0 : ℝ))) 0 [0, 0] = 1 := by
      have : group 1 [2, 1] false (fun a => [false, true].getD a false = true) 0 [0, 0] = {(0, [0, 0])} := by
        ext ⟨i, x⟩
        simp only [mem_group, tall_positions, Finset.mem_singleton, Prod.mk.injEq]
        constructor
        · rintro ⟨-, h2 | h2, h3, h4⟩
          · exact ⟨h3 trivial, h2⟩
          · subst h2
            have := h4 0 (by simp) (by simp)
            simp at this
        · rintro ⟨rfl, rfl⟩
          simp
      rw [groupMean, this]; simp
    have m2 : groupMean 1 [2, 1] false (Among {1, 3} 4 0 3) (fun _ p => 0 + (1 + (p.getD 0 0 : ℝ))) 0 [0, 0] = 3 / 2 := by
      have : group 1 [2, 1] false (Among {1, 3} 4 0 3) 0 [0, 0] = {(0, [0, 0]), (0, [1, 0])} := by
        have hs : spatialAxes 4 0 3 = [1, 2] := by decide
        ext ⟨i, x⟩
        simp only [mem_group, tall_positions, Finset.mem_insert, Finset.mem_singleton, Prod.mk.injEq]
        constructor
        · rintro ⟨-, h2 | h2, h3, -⟩
          · exact .inl ⟨h3 trivial, h2⟩
          · exact .inr ⟨h3 trivial, h2⟩
        · rintro (⟨rfl, rfl⟩ | ⟨rfl, rfl⟩)
          · simp
          · refine ⟨by simp, .inr rfl, fun _ => rfl, fun j hj hA => ?_⟩
            have : j = 0 ∨ j = 1 := by simp at hj; omega
            rcases this with rfl | rfl
            · exact absurd ⟨1, by simp, by rw [hs]; rfl⟩ hA
            · rfl
      rw [groupMean, this, Finset.sum_pair (by simp), Finset.card_pair (by simp)]
      norm_num
    simp only [normalised, tallL, Logical.second, Option.getD_none, List.getD_cons_zero, List.getD_cons_succ] at this
    rw [m1, m2, Real.sqrt_mul_self (by norm_num), Real.sqrt_mul_self (by norm_num)] at this
    norm_num at this

end NT.C57
