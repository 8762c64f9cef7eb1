import Verif.Lemmas.Inputs

/-!
# C35: the input kernel is the empirical second moment of the inputs
-/

set_option linter.unusedSectionVars false

namespace NT.C35
open NT Arr Inputs Kernel

variable {α : Type} [Field α] [DecidableEq α]

/-- The entry of `x` at an index, with masked entries (those equal to the mask constant) read as 0. -/
def value (mc : Option α) (x : Arr α) (i : List ℕ) : α :=
  match mc with
  | none => x.get i
  | some c => if x.get i = c then 0 else x.get i

/-- Mean over the `C` channels of `x[i, p] y[j, q]`. -/
def meanProd (mc : Option α) (x y : Arr α) (ba ca C : ℕ) (b p q : List ℕ) : α :=
  (∑ c ∈ Finset.range C, value mc x (actIdx ba ca (b.getD 0 0) c p) * value mc y (actIdx ba ca (b.getD 1 0) c q)) / C

/-- The information the input kernel must hold. -/
def second (mc : Option α) (x1 : Arr α) (x2 : Option (Arr α)) (ntk : Bool) (ba ca C n1 n2 : ℕ) (S1 S2 : List ℕ) :
    Logical α where
  n1 := n1
  n2 := n2
  S1 := S1
  S2 := S2
  k12 := meanProd mc x1 (x2.getD x1) ba ca C
  k11 := meanProd mc x1 x1 ba ca C
  k22 := x2.map fun x2 => meanProd mc x2 x2 ba ca C
  ntk := if ntk then some fun _ _ _ => 0 else none

lemma masked_shape (x : Arr α) (mc : Option α) : (maskedArray x mc).1.shape = x.shape := by
  cases mc <;> rfl

lemma masked_get (x : Arr α) (mc : Option α) (i : List ℕ) : (maskedArray x mc).1.get i = value mc x i := by
  cases mc <;> rfl

lemma cov_holds (x y : Arr α) (ds : Bool) (ba ca n m C : ℕ) (S T : List ℕ) (hne : ba ≠ ca)
    (hST : S.length = T.length) (hds : ds = true → S = T)
    (hb : ba < S.length + 2) (hc : ca < S.length + 2) (hx : x.shape = actIdx ba ca n C S)
    (hy : y.shape = actIdx ba ca m C T) :
    ∃ z, cov x (some y) ds ba ca = .ok z ∧ Holds z [n, m] S T ds false (meanProd none x y ba ca C) := by
  have hC : x.shape.getD ca 0 = C := by rw [hx, getD_actIdx_c ba ca n C S hne hb hc]
  cases ds
  · obtain ⟨z, hz, hh⟩ := covFullBatchFullSpatial_holds x y ba ca n m C S T hne hST hb hc hx hy
    refine ⟨divBy z C, ?_, ?_⟩
    · simp only [cov, Option.getD_some, Bool.false_eq_true, if_false, hz, bind, Except.bind, hC]
    · refine (hh.map fun v => v / (C : α)).congr ?_
      intro b p q _ _ _
      simp only [meanProd, sum_range_list, value]
  · obtain rfl := hds rfl
    obtain ⟨z, hz, hh⟩ := covFullBatchDiagSpatial_holds x y ba ca n m C S hne hb hc hx hy
    refine ⟨divBy z C, ?_, ?_⟩
    · simp only [cov, Option.getD_some, if_true, hz, bind, Except.bind, hC]
    · refine (hh.map fun v => v / (C : α)).congr ?_
      intro b p q _ _ _
      simp only [meanProd, sum_range_list, value]

lemma covDiagBatch_holds (x : Arr α) (ds : Bool) (ba ca n C : ℕ) (S : List ℕ) (hne : ba ≠ ca)
    (hb : ba < S.length + 2) (hc : ca < S.length + 2) (hx : x.shape = actIdx ba ca n C S) :
    ∃ z, covDiagBatch x ds ba ca = .ok z ∧
      Holds z [n] S S ds false (fun b => meanProd none x x ba ca C (dbl b)) := by
  have hC : x.shape.getD ca 0 = C := by rw [hx, getD_actIdx_c ba ca n C S hne hb hc]
  have fin : ∀ z, Holds z [n] S S ds false (fun b p q =>
      ((List.range C).map fun c => x.get (actIdx ba ca (b.getD 0 0) c p) *
        x.get (actIdx ba ca (b.getD 0 0) c q)).sum) →
      Holds (divBy z C) [n] S S ds false (fun b => meanProd none x x ba ca C (dbl b)) := by
    intro z hh
    refine (hh.map fun v => v / (C : α)).congr ?_
    intro b p q hb _ _
    obtain ⟨i, rfl⟩ := List.length_eq_one_iff.1 hb.length
    simp only [meanProd, sum_range_list, value, dbl]
    rfl
  cases ds
  · obtain ⟨z, hz, hh⟩ := covDiagBatchFullSpatial_holds x ba ca n C S hne hb hc hx
    exact ⟨divBy z C, by simp only [covDiagBatch, Bool.false_eq_true, if_false, hz, bind, Except.bind, hC], fin z hh⟩
  · exact ⟨_, by simp only [covDiagBatch, if_true, bind, Except.bind, hC],
      fin _ (covDiagBatchDiagSpatial_holds x ba ca n C S hne hb hc hx)⟩

lemma meanProd_masked (mc : Option α) (x y : Arr α) (ba ca C : ℕ) :
    meanProd none (maskedArray x mc).1 (maskedArray y mc).1 ba ca C = meanProd mc x y ba ca C := by
  funext b p q
  simp only [meanProd, value, masked_get]

lemma getXCovMask_ok (mc : Option α) (db ds : Bool) (x : Arr α) (ba ca n C : ℕ) (S : List ℕ) (hne : ba ≠ ca)
    (hb : ba < S.length + 2) (hc : ca < S.length + 2) (hx : x.shape = actIdx ba ca n C S) :
    ∃ c, getXCovMask mc db ds ba ca x = .ok ((maskedArray x mc).1, c, mc.map fun c => x.map fun v => decide (v = c)) ∧
      Holds c (batchShape db n) S S ds false (fun b => meanProd mc x x ba ca C (dbl b)) := by
  have hnd : ¬ x.ndim < 2 := by
    unfold ndim; rw [hx, actIdx_length ba ca n C S hne hb hc]; omega
  have hm : (maskedArray x mc).2 = mc.map fun c => x.map fun v => decide (v = c) := by cases mc <;> rfl
  have hx' := (masked_shape x mc).trans hx
  unfold getXCovMask
  rw [if_neg hnd, ← hm]
  rw [← meanProd_masked]
  cases db
  · obtain ⟨z, hz, hh⟩ := cov_holds (maskedArray x mc).1 (maskedArray x mc).1 ds ba ca n n C S S hne rfl
      (fun _ => rfl) hb hc hx' hx'
    refine ⟨z, ?_, ?_⟩
    · simp only [Bool.false_eq_true, if_false]
      rw [hz]
    · refine hh.congr ?_
      intro b p q hb _ _
      obtain ⟨i, j, rfl, -, -⟩ := inRange_two hb
      rfl
  · obtain ⟨z, hz, hh⟩ := covDiagBatch_holds (maskedArray x mc).1 ds ba ca n C S hne hb hc hx'
    refine ⟨z, ?_, hh⟩
    simp only [if_true]
    rw [hz]

/-- The facts about the result besides the covariances. -/
structure Static (k : Kernel α) (mc : Option α) (x1 : Arr α) (x2 : Option (Arr α)) (db ds same : Bool) (ba ca : ℕ) :
    Prop where
  diagonalBatch : k.diagonalBatch = db
  diagonalSpatial : k.diagonalSpatial = ds
  isReversed : k.isReversed = false
  isGaussian : k.isGaussian = false
  isInput : k.isInput = false
  batchAxis : k.batchAxis = ba
  channelAxis : k.channelAxis = ca
  shape1 : k.shape1 = x1.shape
  shape2 : k.shape2 = (x2.getD x1).shape
  mask1 : k.mask1 = mc.map fun c => x1.map fun v => decide (v = c)
  mask2 : k.mask2 = x2.bind fun x2 => mc.map fun c => x2.map fun v => decide (v = c)
  same : k.x1IsX2 = ⟨[], fun _ => same⟩

lemma build_ok (mc : Option α) (db ds ntk same : Bool) (x1 : Arr α) (x2 : Option (Arr α)) (ba ca n1 n2 C : ℕ)
    (S1 S2 : List ℕ) (hne : ba ≠ ca) (hS : S1.length = S2.length) (hds : ds = true → S1 = S2)
    (hb : ba < S1.length + 2) (hc : ca < S1.length + 2)
    (h1 : x1.shape = actIdx ba ca n1 C S1) (h2 : (x2.getD x1).shape = actIdx ba ca n2 C S2) :
    ∃ k, build x1 x2 db ds ntk ba ca mc same = .ok k ∧
      k.Stores (second mc x1 x2 ntk ba ca C n1 n2 S1 S2) ∧ Static k mc x1 x2 db ds same ba ca := by
  obtain ⟨c1, hc1, hh1⟩ := getXCovMask_ok mc db ds x1 ba ca n1 C S1 hne hb hc h1
  have hb' : ba < S2.length + 2 := by omega
  have hc' : ca < S2.length + 2 := by omega
  obtain ⟨c2, hc2, hh2⟩ := getXCovMask_ok mc db ds (x2.getD x1) ba ca n2 C S2 hne hb' hc' h2
  obtain ⟨z, hz, hh⟩ := cov_holds (maskedArray x1 mc).1 (maskedArray (x2.getD x1) mc).1 ds ba ca n1 n2 C S1 S2 hne
    hS hds hb hc ((masked_shape _ _).trans h1) ((masked_shape _ _).trans h2)
  rw [meanProd_masked] at hh
  have hntk : OptRel (fun (a : Arr α) (F : List ℕ → List ℕ → List ℕ → α) =>
      (a.shape = [] ∧ ∀ b p q, F b p q = a.get []) ∨ Holds a [n1, n2] S1 S2 ds false F)
      (if ntk then some ⟨[], fun _ => 0⟩ else none) (if ntk then some fun _ _ _ => 0 else none) := by
    cases ntk
    · trivial
    · exact .inl ⟨rfl, fun _ _ _ => rfl⟩
  unfold build
  rw [hc1]
  cases x2 with
  | none =>
    have hz' : cov (maskedArray x1 mc).1 none ds ba ca = .ok z := hz
    simp only [getXCovMaskOpt, Option.map_none]
    rw [hz']
    refine ⟨_, rfl, ⟨hh, hh1, trivial, hntk⟩, ?_⟩
    exact ⟨rfl, rfl, rfl, rfl, rfl, rfl, rfl, masked_shape _ _, masked_shape _ _, rfl, rfl, rfl⟩
  | some x2 =>
    simp only [Option.getD_some] at hc2 hz hh2
    simp only [getXCovMaskOpt, hc2, Except.map, Option.map_some]
    rw [hz]
    refine ⟨_, rfl, ⟨hh, hh1, hh2, hntk⟩, ?_⟩
    exact ⟨rfl, rfl, rfl, rfl, rfl, rfl, rfl, masked_shape _ _, masked_shape _ _, rfl, rfl, rfl⟩

/-- For inputs of any rank, any (possibly negative) positions of the batch and channel axes and each of
the four layouts, the kernel holds the channel means of products, and a zero tangent kernel. -/
theorem second_moment (mc : Option α) (db ds ntk same : Bool) (x1 : Arr α) (x2 : Option (Arr α)) (ba ca : ℤ)
    (n1 n2 C : ℕ) (S1 S2 : List ℕ) (B A : ℕ) (hB : (B : ℤ) = ba % (S1.length + 2))
    (hA : (A : ℤ) = ca % (S1.length + 2)) (hne : B ≠ A) (hS : S1.length = S2.length) (hds : ds = true → S1 = S2)
    (h1 : x1.shape = actIdx B A n1 C S1) (h2 : (x2.getD x1).shape = actIdx B A n2 C S2) :
    ∃ k, inputsToKernel x1 x2 db ds ntk ba (some ca) mc same = .ok k ∧
      k.Stores (second mc x1 x2 ntk B A C n1 n2 S1 S2) ∧ Static k mc x1 x2 db ds same B A := by
  have hBl : B < S1.length + 2 := by
    have := Int.emod_lt_of_pos ba (b := (S1.length : ℤ) + 2) (by omega)
    omega
  have hAl : A < S1.length + 2 := by
    have := Int.emod_lt_of_pos ca (b := (S1.length : ℤ) + 2) (by omega)
    omega
  have hnd : x1.ndim = S1.length + 2 := by
    unfold ndim; rw [h1, actIdx_length B A n1 C S1 hne hBl hAl]
  have e1 : (ba % (x1.ndim : ℤ)).toNat = B := by rw [hnd]; push_cast; omega
  have e2 : (ca % (x1.ndim : ℤ)).toNat = A := by rw [hnd]; push_cast; omega
  unfold inputsToKernel
  rw [if_neg (by omega)]
  simp only [e1, e2]
  exact build_ok mc db ds ntk same x1 x2 B A n1 n2 C S1 S2 hne hS hds hBl hAl h1 h2

/-- A 2 x 2 x 2 input in the channels-first format. -/
def exX : Arr ℚ := ⟨[2, 2, 2], fun i => (ravel [2, 2, 2] i : ℚ)⟩

example : ∃ k, inputsToKernel exX (some exX) true false true 0 (some (-2)) none true = .ok k ∧
    k.Stores (second none exX (some exX) true 0 1 2 2 2 [2] [2]) ∧
    (second none exX (some exX) true 0 1 2 2 2 [2] [2]).k12 [0, 1] [0] [1] = 7 := by
  obtain ⟨k, h, hs, -⟩ := second_moment none true false true true exX (some exX) 0 (-2) 2 2 2 [2] [2] 0 1
    (by decide) (by decide) (by decide) rfl (by simp) rfl rfl
  refine ⟨k, h, hs, ?_⟩
  simp only [second, meanProd, Option.getD_some, Finset.sum_range_succ, Finset.sum_range_zero]
  norm_num [value, exX, actIdx, ravel]

example : ∃ k, inputsToKernel exX none false true false (-3) (some 1) (some 2) true = .ok k ∧
    k.Stores (second (some 2) exX none false 0 1 2 2 2 [2] [2]) := by
  obtain ⟨k, h, hs, -⟩ := second_moment (some 2) false true false true exX none (-3) 1 2 2 2 [2] [2] 0 1
    (by decide) (by decide) (by decide) rfl (by simp) rfl rfl
  exact ⟨k, h, hs⟩

/-- The diagonal layouts hold the corresponding entries of the full one: the full kernel and the kernel in
any other layout store the same information. -/
theorem layouts_agree (mc : Option α) (db ntk same : Bool) (x1 : Arr α) (x2 : Option (Arr α)) (ba ca : ℤ)
    (n1 n2 C : ℕ) (S : List ℕ) (B A : ℕ) (hB : (B : ℤ) = ba % (S.length + 2))
    (hA : (A : ℤ) = ca % (S.length + 2)) (hne : B ≠ A)
    (h1 : x1.shape = actIdx B A n1 C S) (h2 : (x2.getD x1).shape = actIdx B A n2 C S) :
    ∃ k kd, inputsToKernel x1 x2 false false ntk ba (some ca) mc same = .ok k ∧
      inputsToKernel x1 x2 db true ntk ba (some ca) mc same = .ok kd ∧
      (∀ i j p, i < n1 → j < n2 → InRange p S →
        kd.nngp.get (i :: j :: p) = k.nngp.get (i :: j :: Spec.interleave p p)) ∧
      (∀ i p, i < n1 → InRange p S →
        kd.cov1.get ((if db then [i] else [i, i]) ++ p) = k.cov1.get (i :: i :: Spec.interleave p p)) := by
  obtain ⟨k, hk, hs, ht⟩ := second_moment mc false false ntk same x1 x2 ba ca n1 n2 C S S B A hB hA hne rfl
    (by simp) h1 h2
  obtain ⟨kd, hkd, hsd, htd⟩ := second_moment mc db true ntk same x1 x2 ba ca n1 n2 C S S B A hB hA hne rfl
    (by simp) h1 h2
  refine ⟨k, kd, hk, hkd, ?_, ?_⟩
  · intro i j p hi hj hp
    have r : InRange [i, j] [n1, n2] := by simp [hi, hj]
    have g := hs.nngp.get [i, j] p p r hp hp (fun _ => rfl)
    have gd := hsd.nngp.get [i, j] p p r hp hp (fun _ => rfl)
    rw [ht.diagonalSpatial, ht.isReversed, pos_full] at g
    rw [htd.diagonalSpatial, htd.isReversed, pos_diag] at gd
    exact gd.trans g.symm
  · intro i p hi hp
    have g := hs.cov1.get [i, i] p p (by rw [ht.diagonalBatch]; simp [batchShape, second, hi]) hp hp (fun _ => rfl)
    rw [ht.diagonalSpatial, ht.isReversed, pos_full] at g
    have gd := hsd.cov1.get (if db then [i] else [i, i]) p p
      (by rw [htd.diagonalBatch]; cases db <;> simp [batchShape, second, hi]) hp hp (fun _ => rfl)
    rw [htd.diagonalSpatial, htd.isReversed, pos_diag] at gd
    refine gd.trans (Eq.trans ?_ g.symm)
    cases db <;> rfl

example : ∃ k kd, inputsToKernel exX none false false true 0 (some (-1)) none true = .ok k ∧
    inputsToKernel exX none true true true 0 (some (-1)) none true = .ok kd ∧
    kd.nngp.get [0, 1, 1] = k.nngp.get [0, 1, 1, 1] := by
  obtain ⟨k, kd, h1, h2, h3, -⟩ := layouts_agree none true true true exX none 0 (-1) 2 2 2 [2] 0 2
    (by decide) (by decide) (by decide) rfl rfl
  exact ⟨k, kd, h1, h2, h3 0 1 [1] (by decide) (by decide) (by simp)⟩

lemma indices_perm (S : List ℕ) : ((List.range S.prod).map (unravel S)).Perm (indices S) := by
  have h2 : ((List.range S.prod).map (unravel S)).Nodup :=
    List.Nodup.map_on (by
      intro a ha b hb h
      rw [List.mem_range] at ha hb
      rw [← ravel_unravel ha, h, ravel_unravel hb]) List.nodup_range
  rw [List.perm_ext_iff_of_nodup h2 (nodup_indices S)]
  intro i
  simp only [List.mem_map, List.mem_range, mem_indices]
  constructor
  · rintro ⟨k, hk, rfl⟩
    exact inRange_unravel hk
  · intro h
    exact ⟨ravel S i, ravel_lt h, unravel_ravel h⟩

/-- Mean over all entries of an example (`s` entries) of `x[i] y[j]`; the example number is at axis `ba`. -/
def meanAll (mc : Option α) (x y : Arr α) (ba : ℕ) (S : List ℕ) (b : List ℕ) : α :=
  ((indices S).map fun p => value mc x (p.insertIdx ba (b.getD 0 0)) * value mc y (p.insertIdx ba (b.getD 1 0))).sum /
    S.prod

/-- The information of the kernel of flattened inputs. -/
def flatSecond (mc : Option α) (x1 : Arr α) (x2 : Option (Arr α)) (ntk : Bool) (ba n1 n2 : ℕ) (S : List ℕ) :
    Logical α where
  n1 := n1
  n2 := n2
  S1 := []
  S2 := []
  k12 := fun b _ _ => meanAll mc x1 (x2.getD x1) ba S b
  k11 := fun b _ _ => meanAll mc x1 x1 ba S b
  k22 := x2.map fun x2 b _ _ => meanAll mc x2 x2 ba S b
  ntk := if ntk then some fun _ _ _ => 0 else none

lemma flatten_ok (x : Arr α) (ba n : ℕ) (S : List ℕ) (hb : ba ≤ S.length) (hx : x.shape = S.insertIdx ba n) :
    (Inputs.flatten ba x).shape = [n, S.prod] ∧
      ∀ i c, i < n → c < S.prod → (Inputs.flatten ba x).get [i, c] = x.get ((unravel S c).insertIdx ba i) := by
  have e1 : x.shape.getD ba 0 = n := by
    rw [hx, List.getD_eq_getElem?_getD, List.getElem?_insertIdx_self, if_pos hb]
    rfl
  have e2 : x.shape.eraseIdx ba = S := by rw [hx, List.eraseIdx_insertIdx_self]
  obtain ⟨h1, h2⟩ := moveaxis_front x ba n S hb hx
  constructor
  · show [x.shape.getD ba 0, (x.shape.eraseIdx ba).prod] = _
    rw [e1, e2]
  · intro i c hi hc
    unfold Inputs.flatten
    have hu := inRange_unravel hc
    rw [e1, e2, reshape_get (x.moveaxis [ba] [0]) [n, S.prod] (i := [i, c]) (j := i :: unravel S c)]
    · exact h2 i _ hu.length
    · rw [h1]
      simp [hi, hu]
    · rw [h1]
      simp [ravel, ravel_unravel hc]

lemma value_flatten (mc : Option α) (x : Arr α) (ba n : ℕ) (S : List ℕ) (hb : ba ≤ S.length)
    (hx : x.shape = S.insertIdx ba n) (i c : ℕ) (hi : i < n) (hc : c < S.prod) :
    value mc (Inputs.flatten ba x) [i, c] = value mc x ((unravel S c).insertIdx ba i) := by
  have := (flatten_ok x ba n S hb hx).2 i c hi hc
  unfold value
  cases mc <;> simp only [this]

lemma meanProd_flatten (mc : Option α) (x y : Arr α) (ba n m : ℕ) (S : List ℕ) (hb : ba ≤ S.length)
    (hx : x.shape = S.insertIdx ba n) (hy : y.shape = S.insertIdx ba m) (i j : ℕ) (hi : i < n) (hj : j < m) :
    meanProd mc (Inputs.flatten ba x) (Inputs.flatten ba y) 0 1 S.prod [i, j] [] [] = meanAll mc x y ba S [i, j] := by
  unfold meanProd meanAll
  congr 1
  rw [← ((indices_perm S).map _).sum_eq, ← sum_range_list, List.map_map]
  congr 1
  refine List.map_congr_left fun c hc => ?_
  rw [List.mem_range] at hc
  show value mc _ [i, c] * value mc _ [j, c] = _
  rw [value_flatten mc x ba n S hb hx i c hi hc, value_flatten mc y ba m S hb hy j c hj hc]
  rfl

/-- When no channel axis is given, the whole example is treated as one vector: the kernel holds the mean
of products over all entries of the examples and has no spatial axes. -/
theorem second_moment_flattened (mc : Option α) (db ds ntk same : Bool) (x1 : Arr α) (x2 : Option (Arr α)) (ba : ℤ)
    (n1 n2 : ℕ) (S : List ℕ) (B : ℕ) (hB : (B : ℤ) = ba % (S.length + 1))
    (h1 : x1.shape = S.insertIdx B n1) (h2 : (x2.getD x1).shape = S.insertIdx B n2) :
    ∃ k, inputsToKernel x1 x2 db ds ntk ba none mc same = .ok k ∧
      k.Stores (flatSecond mc x1 x2 ntk B n1 n2 S) ∧ k.diagonalBatch = db ∧ k.diagonalSpatial = false ∧
      k.shape1 = [n1, S.prod] ∧ k.shape2 = [n2, S.prod] ∧ k.batchAxis = 0 ∧ k.channelAxis = 1 := by
  have hBl : B ≤ S.length := by
    have := Int.emod_lt_of_pos ba (b := (S.length : ℤ) + 1) (by omega)
    omega
  have hnd : x1.ndim = S.length + 1 := by
    unfold ndim; rw [h1, List.length_insertIdx, if_pos hBl]
  have e1 : (ba % (x1.ndim : ℤ)).toNat = B := by rw [hnd]; push_cast; omega
  have f1 := (flatten_ok x1 B n1 S hBl h1).1
  have f2 := (flatten_ok (x2.getD x1) B n2 S hBl h2).1
  have hg : (x2.map (Inputs.flatten B)).getD (Inputs.flatten B x1) = Inputs.flatten B (x2.getD x1) := by
    cases x2 <;> rfl
  obtain ⟨k, hk, hs, ht⟩ := build_ok mc db false ntk same (Inputs.flatten B x1) (x2.map (Inputs.flatten B)) 0 1 n1 n2
    S.prod [] [] (by decide) rfl (by simp) (by simp) (by simp) f1 (by rw [hg]; exact f2)
  refine ⟨k, ?_, ?_, ht.diagonalBatch, ht.diagonalSpatial, ht.shape1.trans f1, ?_, ht.batchAxis, ht.channelAxis⟩
  · unfold inputsToKernel
    rw [if_neg (by omega)]
    simp only [e1]
    exact hk
  · obtain ⟨s1, s2, s3, s4⟩ := hs
    have bs : ∀ (n : ℕ) b, InRange b (batchShape k.diagonalBatch n) → ∃ i j, dbl b = [i, j] ∧ i < n ∧ j < n := by
      intro n b hb
      cases e : k.diagonalBatch
      · rw [e] at hb
        obtain ⟨i, j, rfl, hi, hj⟩ := inRange_two hb
        exact ⟨i, j, rfl, hi, hj⟩
      · rw [e] at hb
        simp only [batchShape, if_true] at hb
        rw [inRange_cons_right] at hb
        obtain ⟨i, t, rfl, hi, h⟩ := hb
        rw [inRange_nil_right] at h
        subst h
        exact ⟨i, i, rfl, hi, hi⟩
    refine ⟨s1.congr ?_, s2.congr ?_, ?_, s4⟩
    · intro b p q hb hp hq
      obtain ⟨i, j, rfl, hi, hj⟩ := inRange_two hb
      simp only [second, inRange_nil_right] at hp hq
      subst hp hq
      simp only [second, flatSecond, hg]
      exact meanProd_flatten mc x1 (x2.getD x1) B n1 n2 S hBl h1 h2 i j hi hj
    · intro b p q hb hp hq
      obtain ⟨i, j, e, hi, hj⟩ := bs n1 b hb
      simp only [second, inRange_nil_right] at hp hq
      subst hp hq
      simp only [second, flatSecond, e]
      exact meanProd_flatten mc x1 x1 B n1 n1 S hBl h1 h1 i j hi hj
    · cases x2 with
      | none => exact s3
      | some x2 =>
        simp only [second, flatSecond, Option.map_some] at s3 ⊢
        cases e : k.cov2 with
        | none => rw [e] at s3; exact s3
        | some c =>
          rw [e] at s3
          refine Holds.congr s3 ?_
          intro b p q hb hp hq
          obtain ⟨i, j, e, hi, hj⟩ := bs n2 b hb
          simp only [inRange_nil_right] at hp hq
          subst hp hq
          simp only [e]
          exact meanProd_flatten mc x2 x2 B n2 n2 S hBl h2 h2 i j hi hj
  · rw [ht.shape2, hg]
    exact f2

example : ∃ k, inputsToKernel exX none true true true 1 none none true = .ok k ∧
    k.Stores (flatSecond none exX none true 1 2 2 [2, 2]) ∧
    (flatSecond none exX none true 1 2 2 [2, 2]).k12 [0, 1] [] [] = 31 / 2 := by
  obtain ⟨k, h, hs, -⟩ := second_moment_flattened none true true true true exX none 1 2 2 [2, 2] 1
    (by decide) rfl rfl
  refine ⟨k, h, hs, ?_⟩
  simp [flatSecond, meanAll, indices, value, exX, ravel, List.range_succ]
  norm_num

/-- Inputs with fewer than two axes are rejected when a channel axis is named. -/
theorem rank_too_low (mc : Option α) (db ds ntk same : Bool) (x1 : Arr α) (x2 : Option (Arr α)) (ba ca : ℤ)
    (h : x1.ndim < 2) :
    ∃ e, inputsToKernel x1 x2 db ds ntk ba (some ca) mc same = .error e ∧
      (x1.ndim = 1 → e = .valueError) := by
  unfold inputsToKernel
  by_cases h0 : x1.ndim = 0
  · exact ⟨_, by rw [if_pos h0], by omega⟩
  · refine ⟨.valueError, ?_, fun _ => rfl⟩
    rw [if_neg h0]
    simp only [build, getXCovMask, if_pos h]

example : inputsToKernel (⟨[3], fun _ => 1⟩ : Arr ℚ) none true false true 0 (some (-1)) none true =
    .error .valueError := by
  obtain ⟨e, h, h'⟩ := rank_too_low none true false true true (⟨[3], fun _ => 1⟩ : Arr ℚ) none 0 (-1) (by decide)
  rw [h, h' rfl]

/-- Inputs with different numbers of channels are rejected, in every layout. -/
theorem channels_differ (mc : Option α) (db ds ntk same : Bool) (x1 x2 : Arr α) (ba ca : ℤ)
    (n1 n2 C D : ℕ) (S T : List ℕ) (B A : ℕ) (hB : (B : ℤ) = ba % (S.length + 2))
    (hA : (A : ℤ) = ca % (S.length + 2)) (hne : B ≠ A) (hST : S.length = T.length)
    (h1 : x1.shape = actIdx B A n1 C S) (h2 : x2.shape = actIdx B A n2 D T) (hCD : C ≠ D) :
    inputsToKernel x1 (some x2) db ds ntk ba (some ca) mc same = .error .typeError := by
  have hBl : B < S.length + 2 := by
    have := Int.emod_lt_of_pos ba (b := (S.length : ℤ) + 2) (by omega)
    omega
  have hAl : A < S.length + 2 := by
    have := Int.emod_lt_of_pos ca (b := (S.length : ℤ) + 2) (by omega)
    omega
  have hnd : x1.ndim = S.length + 2 := by
    unfold ndim; rw [h1, actIdx_length B A n1 C S hne hBl hAl]
  have e1 : (ba % (x1.ndim : ℤ)).toNat = B := by rw [hnd]; push_cast; omega
  have e2 : (ca % (x1.ndim : ℤ)).toNat = A := by rw [hnd]; push_cast; omega
  unfold inputsToKernel
  rw [if_neg (by omega)]
  simp only [e1, e2]
  obtain ⟨c1, hc1, -⟩ := getXCovMask_ok mc db ds x1 B A n1 C S hne hBl hAl h1
  obtain ⟨c2, hc2, -⟩ := getXCovMask_ok mc db ds x2 B A n2 D T hne (by omega) (by omega) h2
  have g : gather [A] (maskedArray x1 mc).1.shape ≠ gather [A] (maskedArray x2 mc).1.shape := by
    rw [masked_shape, masked_shape, h1, h2, (gather3 B A n1 C S.length S hne hBl hAl rfl).2.1,
      (gather3 B A n2 D S.length T hne hBl hAl hST.symm).2.1]
    simpa using hCD
  have hcov : cov (maskedArray x1 mc).1 (some (maskedArray x2 mc).1) ds B A = .error .typeError := by
    unfold cov covFullBatchDiagSpatial covFullBatchFullSpatial tensordot dotGeneral
    simp only [Option.getD_some]
    cases ds <;> simp [g, bind, Except.bind]
  unfold build
  simp only [hc1, getXCovMaskOpt, hc2, Except.map, Option.map_some]
  rw [hcov]

example : inputsToKernel exX (some ⟨[5, 3, 2], fun _ => 1⟩) true false true 0 (some 1) none true =
    .error .typeError :=
  channels_differ none true false true true exX _ 0 1 2 5 2 3 [2] [2] 0 1 (by decide) (by decide) (by decide) rfl
    rfl rfl (by decide)

end NT.C35
