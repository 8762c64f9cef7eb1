import Verif.Lemmas.Ntk
import Verif.Lemmas.Box
import Verif.Spec.Ntk
import Mathlib.Algebra.BigOperators.Field

/-!
# Jacobians and vector products
-/

namespace NT.Emp

open NT.Arr NT.Spec NT.Utils NT.Network

variable {α : Type}

lemma sumOver_append [AddCommMonoid α] (A B : List ℕ) (f : List ℕ → α) :
    sumOver (A ++ B) f = sumOver A fun p => sumOver B fun q => f (p ++ q) := by
  simp only [sumOver_eq_box, box_sum_append]

lemma getD_app_left {i p : List ℕ} {a : ℕ} (h : a < i.length) : (i ++ p).getD a 0 = i.getD a 0 := List.getD_append _ _ _ _ h

lemma range_add' (n m : ℕ) : List.range (n + m) = List.range n ++ List.range' n m := by
  rw [List.range_eq_range', List.range_eq_range', ← List.range'_append_1, zero_add]

/-- Parameter axes do not appear in the result. -/
lemma pairIdx_params {n m : ℕ} {T D i j p q : List ℕ} (hi : i.length = n) (hj : j.length = n) :
    pairIdx (n + m) (T ++ List.range' n m) D (i ++ p) (j ++ q) = pairIdx n T D i j := by
  unfold pairIdx
  rw [range_add', List.flatMap_append]
  have h2 : ((List.range' n m).flatMap fun a => if a ∈ T ++ List.range' n m then [] else if a ∈ D then [(i ++ p).getD a 0] else
      [(i ++ p).getD a 0, (j ++ q).getD a 0]) = [] := by
    rw [List.flatMap_eq_nil_iff]
    intro a ha
    rw [if_pos (List.mem_append_right _ ha)]
  rw [h2, List.append_nil]
  refine List.flatMap_congr fun a ha => ?_
  have ha := List.mem_range.1 ha
  rw [getD_app_left (hi ▸ ha), getD_app_left (hj ▸ ha)]
  have hmem : a ∈ T ++ List.range' n m ↔ a ∈ T := by
    rw [List.mem_append, List.mem_range'_1]
    constructor
    · rintro (h | h)
      · exact h
      · omega
    · exact Or.inl
  simp only [hmem]

lemma putAt_params {n : ℕ} {T i t p q : List ℕ} (hi : i.length = n) (hT : ∀ a ∈ T, a < n) (ht : t.length = T.length) (hpq : p.length = q.length) :
    putAt (T ++ List.range' n q.length) (t ++ p) (i ++ q) = putAt T t i ++ p := by
  refine ext_getD (by simp [putAt, hpq]) fun a ha => ?_
  rw [putAt_length, List.length_append] at ha
  rw [putAt_getD (by simpa using ha)]
  by_cases h : a < n
  · have e1 : (putAt T t i ++ p).getD a 0 = (putAt T t i).getD a 0 := getD_app_left (by rw [putAt_length]; omega)
    have e2 : (i ++ q).getD a 0 = i.getD a 0 := getD_app_left (by omega)
    rw [e1, e2, putAt_getD (by omega)]
    by_cases hm : a ∈ T
    · rw [if_pos (List.mem_append_left _ hm), if_pos hm, List.idxOf_append_of_mem hm, getD_app_left]
      rw [ht]; exact List.idxOf_lt_length_iff.2 hm
    · rw [if_neg, if_neg hm]
      rw [List.mem_append, List.mem_range'_1]
      rintro (h' | h')
      · exact hm h'
      · omega
  · have hm : a ∉ T := fun hm => h (hT a hm)
    have hr : a ∈ List.range' n q.length := List.mem_range'_1.2 (by omega)
    rw [if_pos (List.mem_append_right _ hr), List.idxOf_append_of_notMem hm, List.getD_append_right _ _ _ _ (by omega),
      List.getD_append_right _ _ _ _ (by rw [putAt_length]; omega), putAt_length]
    congr 1
    have hk : (List.range' n q.length)[a - n]? = some a := by
      rw [List.getElem?_range' (by omega)]; simp; omega
    have hnd : (List.range' n q.length).Nodup := List.nodup_range'
    have hlt : a - n < (List.range' n q.length).length := by simp; omega
    have : (List.range' n q.length)[a - n] = a := by
      rw [List.getElem?_eq_getElem hlt] at hk; simpa using hk
    have h5 := List.Nodup.idxOf_getElem hnd (a - n) hlt
    rw [this] at h5
    rw [h5]
    omega

lemma sizesAt_params {n : ℕ} {T S Q : List ℕ} (hS : S.length = n) (hT : ∀ a ∈ T, a < n) :
    sizesAt (T ++ List.range' n Q.length) (S ++ Q) = sizesAt T S ++ Q := by
  unfold sizesAt
  rw [List.map_append]
  congr 1
  · exact List.map_congr_left fun a ha => getD_app_left (hS ▸ hT a ha)
  · refine ext_getD (by simp) fun k hk => ?_
    simp only [List.length_map, List.length_range'] at hk
    have hk' : k < (List.range' n Q.length).length := by simpa using hk
    have : (gather (List.range' n Q.length) (S ++ Q)).getD k 0 = (S ++ Q).getD (List.range' n Q.length)[k] 0 := gather_getD _ _ _ hk'
    unfold gather at this
    rw [this, List.getElem_range', List.getD_append_right _ _ _ _ (by omega)]
    congr 1
    omega

/-- `contract`, empirical.py:558-561. -/
lemma contractLeaf_red [Field α] {n : ℕ} {S1 S2 Q T D : List ℕ} {x y : Arr α} (h1 : S1.length = n) (h2 : S2.length = n)
    (hx : x.shape = S1 ++ Q) (hy : y.shape = S2 ++ Q) (aT : Axes n T) (aD : Axes n D) (hdis : ∀ a ∈ T, a ∉ D)
    (hT : sizesAt T S1 = sizesAt T S2) (hD : sizesAt D S1 = sizesAt D S2) :
    ∃ z, (∀ size, contractLeaf n size T D x y = .ok (divBy z (size : α))) ∧
      Reduced S1 S2 T D (fun i j => sumOver Q fun p => x.get (i ++ p) * y.get (j ++ p)) z := by
  have hxn : x.ndim = n + Q.length := by unfold ndim; rw [hx, List.length_append, h1]
  have hyn : y.ndim = n + Q.length := by unfold ndim; rw [hy, List.length_append, h2]
  have aT' : Axes (n + Q.length) (T ++ List.range' n Q.length) := by
    refine ⟨List.pairwise_append.2 ⟨aT.1, List.pairwise_lt_range', fun a ha b hb => ?_⟩, fun a ha => ?_⟩
    · have := aT.2 a ha; have := List.mem_range'_1.1 hb; omega
    · rcases List.mem_append.1 ha with h | h
      · have := aT.2 a h; omega
      · have := List.mem_range'_1.1 h; omega
  have aD' : Axes (n + Q.length) D := ⟨aD.1, fun a ha => by have := aD.2 a ha; omega⟩
  have hok : AxesOk (n + Q.length) ((T ++ List.range' n Q.length).map Int.ofNat) (D.map Int.ofNat) (T ++ List.range' n Q.length) D := by
    refine ⟨axesList_self aT', axesList_self aD', fun a ha hD => ?_⟩
    rcases List.mem_append.1 ha with h | h
    · exact hdis a h hD
    · have := aD.2 a hD; have := List.mem_range'_1.1 h; omega
  have hDs : ∀ S : List ℕ, S.length = n → sizesAt D (S ++ Q) = sizesAt D S := fun S hS =>
    List.map_congr_left fun a ha => getD_app_left (hS ▸ aD.2 a ha)
  obtain ⟨z, hz, hr⟩ := dot_reduced x y hxn hyn hok (by rw [hx, hy, sizesAt_params h1 aT.2, sizesAt_params h2 aT.2, hT])
    (by rw [hx, hy, hDs S1 h1, hDs S2 h2, hD])
  refine ⟨z, ?_, ⟨?_, ?_⟩⟩
  · intro size
    unfold contractLeaf
    rw [hxn, Nat.add_sub_cancel_left, hz]; rfl
  · rw [hr.shape, hx, hy, List.length_append, h1, pairIdx_params h1 h2]
  · intro i j hi hj hij
    have hil : i.length = n := by rw [hi.1, h1]
    have hjl : j.length = n := by rw [hj.1, h2]
    have hoff : ∀ (k S : List ℕ), S.length = n → InRangeOff T k S → InRangeOff (T ++ List.range' n Q.length) (k ++ Q) (S ++ Q) := by
      intro k S hS hk
      refine ⟨by rw [List.length_append, List.length_append, hk.1], fun a ha hm => ?_⟩
      rw [List.length_append] at ha
      have han : a < n := by
        by_contra h
        exact hm (List.mem_append_right _ (List.mem_range'_1.2 (by omega)))
      have hkn : k.length = n := by rw [hk.1, hS]
      rw [getD_app_left (by omega), getD_app_left (by omega)]
      exact hk.2 a (by omega) fun h => hm (List.mem_append_left _ h)
    have := hr.get (i ++ Q) (j ++ Q) (by rw [hx]; exact hoff i S1 h1 hi) (by rw [hy]; exact hoff j S2 h2 hj) (fun a ha => by
      rw [getD_app_left (hil ▸ aD.2 a ha), getD_app_left (hjl ▸ aD.2 a ha)]; exact hij a ha)
    rw [hx, List.length_append, h1, pairIdx_params hil hjl, sizesAt_params h1 aT.2, sumOver_append] at this
    rw [h1, this]
    unfold sumOver
    congr 1
    refine List.map_congr_left fun t ht => ?_
    congr 1
    refine List.map_congr_left fun p hp => ?_
    have htl : t.length = T.length := by simpa [sizesAt] using (mem_indices.1 ht).length
    have hpl : p.length = Q.length := (mem_indices.1 hp).length
    rw [putAt_params hil aT.2 htl hpl, putAt_params hjl aT.2 htl hpl]

lemma contractLeaf_ok [Field α] {n : ℕ} {S1 S2 Q T D : List ℕ} {x y : Arr α} (h1 : S1.length = n) (h2 : S2.length = n)
    (hx : x.shape = S1 ++ Q) (hy : y.shape = S2 ++ Q) (aT : Axes n T) (aD : Axes n D) (hdis : ∀ a ∈ T, a ∉ D)
    (hT : sizesAt T S1 = sizesAt T S2) (hD : sizesAt D S1 = sizesAt D S2) :
    ∃ z, contractLeaf n (sizesAt T S1).prod T D x y = .ok z ∧
      ReducedMean S1 S2 T D (fun i j => sumOver Q fun p => x.get (i ++ p) * y.get (j ++ p)) z := by
  obtain ⟨z, h, hr⟩ := contractLeaf_red h1 h2 hx hy aT aD hdis hT hD
  exact ⟨_, h _, divBy_reduced hr⟩

lemma addSame_mean [Field α] {S1 S2 T D : List ℕ} {K K' : List ℕ → List ℕ → α} {x y : Arr α} (hx : ReducedMean S1 S2 T D K x)
    (hy : ReducedMean S1 S2 T D K' y) : ReducedMean S1 S2 T D (fun i j => K i j + K' i j) (addSame x y) := by
  refine ⟨hx.shape, fun i j hi hj hij => ?_⟩
  show x.get _ + y.get _ = _
  rw [hx.get i j hi hj hij, hy.get i j hi hj hij, ← add_div]
  congr 1
  simp only [sumOver_eq_box, Finset.sum_add_distrib]

lemma fold_mean [Field α] {S1 S2 T D : List ℕ} : ∀ (l : List (Arr α × (List ℕ → List ℕ → α))) (K : List ℕ → List ℕ → α) (x : Arr α),
    ReducedMean S1 S2 T D K x → (∀ y ∈ l, ReducedMean S1 S2 T D y.2 y.1) →
    ReducedMean S1 S2 T D (fun i j => K i j + (l.map fun y => y.2 i j).sum) ((l.map Prod.fst).foldl addSame x) := by
  intro l
  induction l with
  | nil => intro K x hx _; simpa using hx
  | cons y l ih =>
    intro K x hx h
    have := ih _ _ (addSame_mean hx (h y (by simp))) fun z hz => h z (by simp [hz])
    simpa [add_assoc] using this

section

variable {L : ℕ} {P : Fin L → List ℕ} {f1 f2 : Params P → Arr ℝ} {θ : Params P}

/-- The inner product of gradients as a sum over the entries of all leaves. -/
lemma tangent_sum (i j : List ℕ) : tangentAt f1 f2 θ i j = ∑ l, ∑ p : {p // p ∈ box (P l)},
    fderiv ℝ (fun θ => (f1 θ).get i) θ (EuclideanSpace.single ⟨l, p⟩ 1) * fderiv ℝ (fun θ => (f2 θ).get j) θ (EuclideanSpace.single ⟨l, p⟩ 1) := by
  unfold tangentAt
  have h : ∀ (g : Params P → ℝ) q, (gradient g θ) q = fderiv ℝ g θ (EuclideanSpace.single q 1) := by
    intro g q
    have : inner ℝ (gradient g θ) (EuclideanSpace.single q (1 : ℝ)) = fderiv ℝ g θ (EuclideanSpace.single q 1) := by
      unfold gradient; simp
    rw [← this, real_inner_comm, EuclideanSpace.inner_single_left]; simp
  rw [PiLp.inner_apply, Fintype.sum_sigma]
  refine Finset.sum_congr rfl fun l _ => Finset.sum_congr rfl fun p _ => ?_
  rw [h, h]; simp [mul_comm]

lemma jacobianLeaf_get (f : Params P → Arr ℝ) (l : Fin L) {i p : List ℕ} (hi : i.length = (f θ).ndim) (hp : p ∈ box (P l)) :
    (jacobianLeaf f θ l).get (i ++ p) = fderiv ℝ (fun θ => (f θ).get i) θ (EuclideanSpace.single ⟨l, ⟨p, hp⟩⟩ 1) := by
  unfold jacobianLeaf
  simp only [← hi, List.take_left, List.drop_left, hp, dif_pos]

lemma leaf_sum (l : Fin L) {i j : List ℕ} (hi : i.length = (f1 θ).ndim) (hj : j.length = (f2 θ).ndim) :
    (sumOver (P l) fun p => (jacobianLeaf f1 θ l).get (i ++ p) * (jacobianLeaf f2 θ l).get (j ++ p)) = ∑ p : {p // p ∈ box (P l)},
    fderiv ℝ (fun θ => (f1 θ).get i) θ (EuclideanSpace.single ⟨l, p⟩ 1) * fderiv ℝ (fun θ => (f2 θ).get j) θ (EuclideanSpace.single ⟨l, p⟩ 1) := by
  rw [sumOver_eq_box, ← Finset.sum_coe_sort]
  refine Finset.sum_congr rfl fun p _ => ?_
  rw [jacobianLeaf_get f1 l hi p.2, jacobianLeaf_get f2 l hj p.2]

lemma putAt_inRange {T t i S : List ℕ} (hi : InRangeOff T i S) (ht : InRange t (sizesAt T S)) : InRange (putAt T t i) S := by
  rw [inRange_iff]
  refine ⟨by rw [putAt_length, hi.1], fun a ha => ?_⟩
  rw [putAt_getD (by rw [hi.1]; exact ha)]
  split_ifs with h
  · have hk := List.idxOf_lt_length_iff.2 h
    have := (inRange_iff.1 ht).2 (T.idxOf a) (by simp only [sizesAt, List.length_map]; exact hk)
    rw [show sizesAt T S = gather T S from rfl, gather_getD _ _ _ hk] at this
    simpa using this
  · exact hi.2 a ha h

lemma mean_congr {α : Type} [Field α] {S1 S2 T D : List ℕ} {K K' : List ℕ → List ℕ → α} {x : Arr α} (hx : ReducedMean S1 S2 T D K x)
    (hT : sizesAt T S1 = sizesAt T S2) (h : ∀ i j, InRange i S1 → InRange j S2 → K i j = K' i j) : ReducedMean S1 S2 T D K' x := by
  refine ⟨hx.shape, fun i j hi hj hij => ?_⟩
  rw [hx.get i j hi hj hij]
  congr 1
  unfold sumOver
  congr 1
  exact List.map_congr_left fun t ht => h _ _ (putAt_inRange hi (mem_indices.1 ht)) (putAt_inRange hj (hT ▸ mem_indices.1 ht))

/-- Entries of the NTK-vector product. -/
lemma ntkVp_get (v : Arr ℝ) (i : List ℕ) : (ntkVp f1 f2 θ v).get i = ∑ j ∈ box (f2 θ).shape, tangentAt f1 f2 θ i j * v.get j := by
  show fderiv ℝ (fun θ => (f1 θ).get i) θ (∑ j ∈ box (f2 θ).shape, v.get j • gradient (fun θ => (f2 θ).get j) θ) = _
  rw [map_sum]
  refine Finset.sum_congr rfl fun j _ => ?_
  rw [map_smul, smul_eq_mul, mul_comm]
  congr 1
  unfold tangentAt
  conv_rhs => arg 2; rw [gradient]
  rw [InnerProductSpace.toDual_symm_apply]

lemma ntkFull_get {i j : List ℕ} (hi : InRange i (f1 θ).shape) (hj : InRange j (f2 θ).shape) :
    (ntkFull f1 f2 θ).get (i ++ j) = tangentAt f1 f2 θ i j := by
  have e1 : ∀ k, InRange k (f1 θ).shape → (stdBasis (f1 θ).shape).get (ravel (f1 θ).shape i :: k) = if k = i then 1 else 0 := by
    intro k hk
    have h1 := ravel_lt hi
    have h2 := ravel_lt hk
    unfold stdBasis eye
    rw [reshape_get _ _ (j := [ravel (f1 θ).shape i, ravel (f1 θ).shape k]) (by simp [InRange, h1, h2]) (by simp [ravel])]
    simp only [List.getD_cons_zero, List.getD_cons_succ]
    by_cases h : k = i
    · rw [h]; simp
    · rw [if_neg h, if_neg]
      exact fun h' => h (ravel_inj hi hk h').symm
  unfold ntkFull
  simp only
  rw [reshape_get _ _ (j := ravel (f1 θ).shape i :: j) (by exact List.Forall₂.cons (ravel_lt hi) hj)
    (by rw [ravel_append hi.length]; rfl)]
  simp only [List.headD_cons, List.tail_cons, linearTranspose]
  rw [Finset.sum_congr rfl fun k hk => by rw [e1 k (mem_box.1 hk)]]
  simp only [ite_mul, one_mul, zero_mul, Finset.sum_ite_eq', mem_box.2 hi, if_true]
  rw [ntkVp_get]
  simp [unitAt, mem_box.2 hj]

/-- The NTK by NTK-vector products. -/
lemma ntkVectorProducts_ok {n : ℕ} {trace diagonal : List ℤ} {T D : List ℕ} (h1 : (f1 θ).ndim = n) (h2 : (f2 θ).ndim = n)
    (h : ReducedAxes n trace diagonal T D) (hT : sizesAt T (f1 θ).shape = sizesAt T (f2 θ).shape)
    (hD : sizesAt D (f1 θ).shape = sizesAt D (f2 θ).shape) :
    ∃ z, ntkVectorProducts f1 f2 θ trace diagonal = .ok z ∧ ReducedMean (f1 θ).shape (f2 θ).shape T D (tangentAt f1 f2 θ) z := by
  obtain ⟨z, hz, hr⟩ := traceAndDiagonal_ok (N := ntkFull f1 f2 θ) h1 h2 rfl (axesOk h) hT hD
  exact ⟨z, hz, mean_congr hr hT fun i j hi hj => ntkFull_get hi hj⟩

end

section

variable {m : ℕ} {P : Fin (m + 1) → List ℕ} {f1 f2 : Params P → Arr ℝ} {θ : Params P}

lemma mapM_ofFn {β γ : Type} (g : β → Except Err γ) : ∀ (m : ℕ) (u : Fin m → β) (v : Fin m → γ), (∀ l, g (u l) = .ok (v l)) →
    (List.ofFn u).mapM g = .ok (List.ofFn v) := by
  intro m
  induction m with
  | zero => intro u v _; simp [pure, Except.pure]
  | succ m ih =>
    intro u v h
    rw [List.ofFn_succ, List.ofFn_succ, List.mapM_cons, h 0, ih _ (fun l => v l.succ) fun l => h l.succ]
    rfl

/-- The NTK by contraction of Jacobians. -/
lemma ntkJacobian_ok {n : ℕ} {trace diagonal : List ℤ} {T D : List ℕ} (h1 : (f1 θ).ndim = n) (h2 : (f2 θ).ndim = n)
    (h : ReducedAxes n trace diagonal T D) (hnd : DistinctAxes n trace) (hT : sizesAt T (f1 θ).shape = sizesAt T (f2 θ).shape)
    (hD : sizesAt D (f1 θ).shape = sizesAt D (f2 θ).shape) :
    ∃ z, ntkJacobian f1 f2 θ trace diagonal = .ok z ∧ ReducedMean (f1 θ).shape (f2 θ).shape T D (tangentAt f1 f2 θ) z := by
  have ok := axesOk h
  have hl : ∀ l, ∃ z, contractLeaf n (sizesAt T (f1 θ).shape).prod T D (jacobianLeaf f1 θ l) (jacobianLeaf f2 θ l) = .ok z ∧
      ReducedMean (f1 θ).shape (f2 θ).shape T D
        (fun i j => sumOver (P l) fun p => (jacobianLeaf f1 θ l).get (i ++ p) * (jacobianLeaf f2 θ l).get (j ++ p)) z :=
    fun l => contractLeaf_ok h1 h2 rfl rfl (axesList_axes ok.trace) (axesList_axes ok.diagonal) ok.disjoint hT hD
  choose z hz hr using hl
  have hm : ((List.ofFn (jacobianLeaf f1 θ)).zip (List.ofFn (jacobianLeaf f2 θ))).mapM
      (fun xy => contractLeaf n (sizesAt T (f1 θ).shape).prod T D xy.1 xy.2) = .ok (List.ofFn z) := by
    have : (List.ofFn (jacobianLeaf f1 θ)).zip (List.ofFn (jacobianLeaf f2 θ)) = List.ofFn fun l => (jacobianLeaf f1 θ l, jacobianLeaf f2 θ l) := by
      refine List.ext_getElem (by simp) fun k hk hk' => by simp [-List.ofFn_succ]
    rw [this]
    exact mapM_ofFn _ _ _ _ hz
  have hres : ntkJacobian f1 f2 θ trace diagonal = .ok ((List.ofFn fun l : Fin m => z l.succ).foldl addSame (z 0)) := by
    unfold ntkJacobian jacobianContraction
    rw [sizeAtRaw_ok h1 h.trace hnd, show (f1 θ).shape.length = n from h1, ok.trace, ok.diagonal]
    simp only [bind, Except.bind, hm]
    rw [List.ofFn_succ]
    rfl
  refine ⟨_, hres, ?_⟩
  have := fold_mean (List.ofFn fun l : Fin m => (z l.succ, fun i j => sumOver (P l.succ) fun p => (jacobianLeaf f1 θ l.succ).get (i ++ p) *
    (jacobianLeaf f2 θ l.succ).get (j ++ p))) _ _ (hr 0) (by
      intro y hy
      obtain ⟨l, rfl⟩ := (List.mem_ofFn' _ _).1 hy
      exact hr l.succ)
  rw [List.map_ofFn] at this
  refine mean_congr this hT fun i j hi hj => ?_
  rw [tangent_sum, Fin.sum_univ_succ, leaf_sum 0 hi.length hj.length, List.map_ofFn, List.sum_ofFn]
  congr 1
  refine Finset.sum_congr rfl fun l _ => ?_
  exact leaf_sum l.succ hi.length hj.length

end

end NT.Emp
