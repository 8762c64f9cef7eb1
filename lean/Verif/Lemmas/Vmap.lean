import Verif.Spec.Vmap
import Verif.Lemmas.Ntk2
import Verif.Lemmas.RulesConv2
import Verif.Tac

/-!
# Lemmas about `vmap_axes`
-/

namespace NT.Emp
open NT NT.Spec
open NT.Arr

/-! ## Indices -/

lemma free_one {N a : ℕ} (_h : a < N) : freeAxes N [a] = List.range a ++ List.range' (a + 1) (N - a - 1) := by
  refine Rules.freeAxes_of ?_ fun x => ?_
  · rw [List.pairwise_append]
    refine ⟨List.pairwise_lt_range, List.pairwise_lt_range', fun x hx y hy => ?_⟩
    rw [List.mem_range] at hx
    obtain ⟨i, hi, rfl⟩ := List.mem_range'.1 hy
    omega
  · simp only [List.mem_append, List.mem_range, List.mem_range'_1, List.mem_singleton]
    omega

lemma gather_one {N a : ℕ} (h : a < N) {k : List ℕ} (hk : k.length = N) : gather (freeAxes N [a]) k = k.eraseIdx a := by
  rw [free_one h]
  refine List.ext_getElem (by simp [gather, List.length_eraseIdx, hk, h]; omega) fun x h1 h2 => ?_
  rw [List.getElem_eraseIdx]
  simp only [gather, List.getElem_map]
  have hx : x < N - 1 := by simpa [List.length_eraseIdx, hk, h] using h2
  by_cases hxa : x < a
  · rw [List.getElem_append_left (by simpa using hxa), dif_pos hxa]
    simp only [List.getElem_range]
    rw [List.getD_eq_getElem _ _ (by omega)]
  · rw [List.getElem_append_right (by simpa using hxa), dif_neg hxa]
    simp only [List.length_range, List.getElem_range']
    rw [List.getD_eq_getElem _ _ (by omega)]
    congr 1
    omega

lemma put_back {k : List ℕ} {a e : ℕ} (h : a < k.length) : (k.eraseIdx a).take a ++ e :: (k.eraseIdx a).drop a = k.set a e := by
  rw [List.set_eq_take_append_cons_drop, if_pos h, List.eraseIdx_eq_take_drop_succ]
  have : (k.take a).length = a := by simp; omega
  rw [List.take_append_of_le_length (by omega), List.take_take, Nat.min_self]
  congr 2
  rw [List.drop_append, List.drop_eq_nil_of_le (by omega), this]
  simp

lemma example_eqv {x : Arr ℝ} {a n e : ℕ} (h : x.shape[a]? = some n) : exampleOf (some a) x e ≋ oneExample (some a) x e := by
  have ha : a < x.shape.length := (List.getElem?_eq_some_iff.1 h).1
  have hN : (x.take e a).ndim + 1 = x.shape.length := by
    show (x.shape.eraseIdx a).length + 1 = _
    rw [List.length_eraseIdx, if_pos ha]; omega
  have hs : (exampleOf (some a) x e).shape = x.shape.set a 1 := by
    simp only [exampleOf, expandDims, List.length_singleton, hN]
    refine List.ext_getElem (by simp) fun y h1 h2 => ?_
    simp only [List.getElem_map, List.getElem_range, List.mem_singleton, List.getElem_set]
    by_cases hy : y = a
    · rw [if_pos hy, if_pos hy.symm]
    rw [if_neg hy, if_neg (Ne.symm hy)]
    have hy' : y < x.shape.length := by simpa using h2
    have hm : y ∈ freeAxes x.shape.length [a] := by
      rw [mem_freeAxes]; exact ⟨hy', by simpa using hy⟩
    have hi := List.idxOf_lt_length_iff.2 hm
    have := gather_getD (freeAxes x.shape.length [a]) x.shape _ hi
    rw [gather_one ha rfl] at this
    rw [show (x.take e a).shape = x.shape.eraseIdx a from rfl, this, List.getElem_idxOf hi, List.getD_eq_getElem _ _ hy']
  refine ⟨hs, fun k hk => ?_⟩
  rw [hs] at hk
  have hl : k.length = x.shape.length := by rw [hk.length, List.length_set]
  show x.get ((gather (freeAxes ((x.take e a).ndim + 1) [a]) k).take a ++ e :: (gather (freeAxes ((x.take e a).ndim + 1) [a]) k).drop a) = x.get (k.set a e)
  rw [hN, gather_one ha hl, put_back (by omega)]

lemma examples_eqv {axes : List (Option ℕ)} {X : List (Arr ℝ)} {n : ℕ} (h : ∀ ax ∈ axes.zip X, ∀ a ∈ ax.1, ax.2.shape[a]? = some n) (e : ℕ) :
    List.Forall₂ (fun x y : Arr ℝ => x ≋ y) (examplesOf axes X e) (List.zipWith (fun a x => oneExample a x e) axes X) := by
  unfold examplesOf
  induction axes generalizing X with
  | nil => exact .nil
  | cons a axes ih =>
    cases X with
    | nil => exact .nil
    | cons x X =>
      simp only [List.zipWith_cons_cons]
      refine .cons ?_ (ih fun ax hax => h ax (by simp only [List.zip_cons_cons, List.mem_cons]; exact .inr hax))
      cases a with
      | none => exact ⟨rfl, fun _ _ => rfl⟩
      | some a => exact example_eqv (h (some a, x) (by simp) a rfl)

/-! ## The stacked function -/

section
variable {L : ℕ} {P : Fin L → List ℕ} {f : ApplyFn P} {axes : List (Option ℕ)} {o n : ℕ} {X : List (Arr ℝ)}

lemma _root_.NT.Spec.OneByOne.pos (h : OneByOne f axes o X n) (θ : Params P) : o < (f θ X).shape.length := (List.getElem?_eq_some_iff.1 (h.out θ)).1

lemma _root_.NT.Spec.OneByOne.exampleEqv (h : OneByOne f axes o X n) (hf : OfEntries f) (θ : Params P) (e : ℕ) :
    f θ (examplesOf axes X e) ≋ f θ (List.zipWith (fun a x => oneExample a x e) axes X) := hf.eqv θ _ _ (examples_eqv h.sizes e)

lemma _root_.NT.Spec.OneByOne.exampleShape (h : OneByOne f axes o X n) (hf : OfEntries f) (θ : Params P) (e : ℕ) :
    (f θ (examplesOf axes X e)).shape = (f θ X).shape.set o 1 := (h.exampleEqv hf θ e).1.trans (h.shape θ e)

lemma _root_.NT.Spec.OneByOne.fShape (h : OneByOne f axes o X n) (hf : OfEntries f) (θ : Params P) (e : ℕ) :
    (fParams f (some o) (examplesOf axes X e) θ).shape = (f θ X).shape.eraseIdx o := by
  show (f θ (examplesOf axes X e)).shape.eraseIdx o = _
  rw [h.exampleShape hf, List.eraseIdx_set_eq]

/-- The part of the output for one example. -/
lemma _root_.NT.Spec.OneByOne.fGet (h : OneByOne f axes o X n) (hf : OfEntries f) (θ : Params P) {k : List ℕ} (hk : InRange k (f θ X).shape) :
    (fParams f (some o) (examplesOf axes X (k.getD o 0)) θ).get (k.eraseIdx o) = (f θ X).get k := by
  have ho := h.pos θ
  have hl := hk.length
  have hs := h.exampleShape hf θ (k.getD o 0)
  show (if (f θ (examplesOf axes X (k.getD o 0))).shape.getD o 0 = 0 then 0 else _) = _
  have h1 : (f θ (examplesOf axes X (k.getD o 0))).shape.getD o 0 = 1 := by
    rw [hs, List.getD_eq_getElem?_getD, List.getElem?_set_self ho]
    rfl
  rw [h1, if_neg one_ne_zero, put_back (by omega), h.get θ k hk]
  refine (h.exampleEqv hf θ _).2 _ ?_
  rw [hs, inRange_iff]
  refine ⟨by simp [hl], fun a ha => ?_⟩
  simp only [List.length_set] at ha
  simp only [List.getD_eq_getElem?_getD, List.getElem?_set]
  have hk' := (inRange_iff.1 hk).2 a ha
  simp only [List.getD_eq_getElem?_getD] at hk'
  by_cases hoa : o = a
  · subst hoa
    simp [hl, ho]
  · simpa [hoa] using hk'

lemma shapeConst (hf : OfEntries f) (θ θ' : Params P) : (f θ X).shape = (f θ' X).shape := hf.shape θ θ' X

/-- Its derivatives. -/
lemma _root_.NT.Spec.OneByOne.fDeriv (h : OneByOne f axes o X n) (hf : OfEntries f) (θ : Params P) {k : List ℕ} (hk : InRange k (f θ X).shape) :
    (fun θ => (fParams f (some o) (examplesOf axes X (k.getD o 0)) θ).get (k.eraseIdx o)) = fun θ => (f θ X).get k := by
  funext θ'
  exact h.fGet hf θ' (by rw [hf.shape θ' θ]; exact hk)

lemma inRange_erase {k S : List ℕ} (h : InRange k S) (o : ℕ) : InRange (k.eraseIdx o) (S.eraseIdx o) := by
  induction h generalizing o with
  | nil => exact .nil
  | cons h1 h2 ih =>
    cases o with
    | zero => exact h2
    | succ o => exact .cons h1 (ih o)

lemma stack_shape {S R : List ℕ} (ho : S[o]? = some n) : (S.eraseIdx o ++ R).take o ++ n :: (S.eraseIdx o ++ R).drop o = S ++ R := by
  obtain ⟨h1, h2⟩ := List.getElem?_eq_some_iff.1 ho
  have e : S.set o n = S := by rw [← h2]; exact List.set_getElem_self h1
  have hl : o ≤ (S.eraseIdx o).length := by rw [List.length_eraseIdx, if_pos h1]; omega
  rw [List.take_append_of_le_length hl, List.drop_append_of_le_length hl, ← List.cons_append, ← List.append_assoc, put_back h1, e]

/-- The Jacobians of the examples, stacked, are those of the network. -/
lemma _root_.NT.Spec.OneByOne.jacobian (h : OneByOne f axes o X n) (hf : OfEntries f) (θ : Params P) (l : Fin L) :
    (stackAt o n fun e => jacobianLeaf (fParams f (some o) (examplesOf axes X e)) θ l).shape = (f θ X).shape ++ P l ∧
    ∀ k p, InRange k (f θ X).shape → p ∈ box (P l) →
      (stackAt o n fun e => jacobianLeaf (fParams f (some o) (examplesOf axes X e)) θ l).get (k ++ p) = (jacobianLeaf (fun θ => f θ X) θ l).get (k ++ p) := by
  have ho := h.pos θ
  constructor
  · show ((fParams f (some o) (examplesOf axes X 0) θ).shape ++ P l).take o ++ n :: ((fParams f (some o) (examplesOf axes X 0) θ).shape ++ P l).drop o = _
    rw [h.fShape hf, stack_shape (h.out θ)]
  · intro k p hk hp
    have hl := hk.length
    show (jacobianLeaf (fParams f (some o) (examplesOf axes X ((k ++ p).getD o 0))) θ l).get ((k ++ p).eraseIdx o) = _
    rw [List.getD_append _ _ _ _ (by omega), List.eraseIdx_append_of_lt_length (by omega),
      jacobianLeaf_get _ l (i := k.eraseIdx o) (p := p) _ hp, jacobianLeaf_get (fun θ => f θ X) l (i := k) (p := p) hl hp, h.fDeriv hf θ hk]
    show _ = (fParams f (some o) (examplesOf axes X (k.getD o 0)) θ).shape.length
    rw [h.fShape hf, (inRange_erase hk o).length]

/-- The inner products of gradients of parts of the outputs for two examples. -/
lemma tangent_examples {X2 : List (Arr ℝ)} {n2 : ℕ} (h : OneByOne f axes o X n) (h2 : OneByOne f axes o X2 n2) (hf : OfEntries f) (θ : Params P) {i j : List ℕ}
    (hi : InRange i (f θ X).shape) (hj : InRange j (f θ X2).shape) :
    tangentAt (fParams f (some o) (examplesOf axes X (i.getD o 0))) (fParams f (some o) (examplesOf axes X2 (j.getD o 0))) θ (i.eraseIdx o) (j.eraseIdx o) =
      tangentAt (fun θ => f θ X) (fun θ => f θ X2) θ i j := by
  unfold tangentAt
  rw [h.fDeriv hf θ hi, h2.fDeriv hf θ hj]

/-- The NTKs of pairs of examples, stacked, are that of the network. -/
lemma full_examples {X2 : List (Arr ℝ)} {n2 : ℕ} (h : OneByOne f axes o X n) (h2 : OneByOne f axes o X2 n2) (hf : OfEntries f) (θ : Params P) :
    (stackPairs ((f θ X).ndim + o) o n n2 fun e1 e2 =>
        ntkFull (fParams f (some o) (examplesOf axes X e1)) (fParams f (some o) (examplesOf axes X2 e2)) θ).shape = (f θ X).shape ++ (f θ X2).shape ∧
    ∀ i j, InRange i (f θ X).shape → InRange j (f θ X2).shape →
      (stackPairs ((f θ X).ndim + o) o n n2 fun e1 e2 =>
        ntkFull (fParams f (some o) (examplesOf axes X e1)) (fParams f (some o) (examplesOf axes X2 e2)) θ).get (i ++ j) =
      tangentAt (fun θ => f θ X) (fun θ => f θ X2) θ i j := by
  have ho := h.pos θ
  have ho2 := h2.pos θ
  have hsh : ∀ e1 e2, (ntkFull (fParams f (some o) (examplesOf axes X e1)) (fParams f (some o) (examplesOf axes X2 e2)) θ).shape =
      (f θ X).shape.eraseIdx o ++ (f θ X2).shape.eraseIdx o := by
    intro e1 e2
    show (fParams f (some o) (examplesOf axes X e1) θ).shape ++ (fParams f (some o) (examplesOf axes X2 e2) θ).shape = _
    rw [h.fShape hf, h2.fShape hf]
  constructor
  · show ((ntkFull _ _ θ).shape.take o ++ n :: (ntkFull _ _ θ).shape.drop o).take _ ++ n2 :: ((ntkFull _ _ θ).shape.take o ++ n :: (ntkFull _ _ θ).shape.drop o).drop _ = _
    rw [hsh, stack_shape (h.out θ), List.take_append, List.drop_append, List.take_of_length_le (by unfold ndim; omega),
      List.drop_eq_nil_of_le (by unfold ndim; omega), List.nil_append, List.append_assoc]
    congr 1
    rw [show (f θ X).ndim + o - (f θ X).shape.length = o by unfold ndim; omega]
    have := stack_shape (S := (f θ X2).shape) (R := []) (h2.out θ)
    simpa using this
  · intro i j hi hj
    have li := hi.length
    have lj := hj.length
    show (ntkFull (fParams f (some o) (examplesOf axes X (((i ++ j).eraseIdx ((f θ X).ndim + o)).getD o 0)))
      (fParams f (some o) (examplesOf axes X2 ((i ++ j).getD ((f θ X).ndim + o) 0))) θ).get (((i ++ j).eraseIdx ((f θ X).ndim + o)).eraseIdx o) = _
    have e1 : (i ++ j).getD ((f θ X).ndim + o) 0 = j.getD o 0 := by
      rw [List.getD_append_right _ _ _ _ (by unfold ndim; omega)]
      congr 1
      unfold ndim; omega
    have e2 : (i ++ j).eraseIdx ((f θ X).ndim + o) = i ++ j.eraseIdx o := by
      rw [List.eraseIdx_append_of_length_le (by unfold ndim; omega)]
      congr 2
      unfold ndim; omega
    rw [e1, e2, List.getD_append _ _ _ _ (by omega), List.eraseIdx_append_of_lt_length (by omega), ntkFull_get, tangent_examples h h2 hf θ hi hj]
    · rw [h.fShape hf]; exact inRange_erase hi o
    · rw [h2.fShape hf]; exact inRange_erase hj o

/-! ## Axes -/

lemma modAxis_ok {m : ℕ} {a : Option ℤ} {b : Option ℕ} (h : IsAxis m a b) : modAxis a m = .ok b := by
  cases a <;> cases b <;> simp only [IsAxis] at h
  · rfl
  · rename_i a b
    obtain ⟨hb, h⟩ := h
    rw [modAxis, if_neg (by omega)]
    have : a % (m : ℤ) = b := by
      rcases h with rfl | h
      · exact Int.emod_eq_of_lt (by omega) (by omega)
      · rw [show a = b + (-1) * (m : ℤ) by omega, Int.add_mul_emod_self_right]
        exact Int.emod_eq_of_lt (by omega) (by omega)
    rw [this]; rfl

lemma mapSize_ok {n : ℕ} (h : ∀ ax ∈ axes.zip X, ∀ a ∈ ax.1, ax.2.shape[a]? = some n) (hl : axes.length = X.length) (hm : mapped axes) : mapSize axes X = .ok n := by
  have key : ∀ l : List (Option ℕ × Arr ℝ), (∀ ax ∈ l, ∀ a ∈ ax.1, ax.2.shape[a]? = some n) →
      (l.filterMap fun ax => ax.1.bind fun a => ax.2.shape[a]?) = List.replicate (l.countP fun ax => ax.1.isSome) n := by
    intro l
    induction l with
    | nil => intro _; rfl
    | cons ax l ih =>
      intro h
      have ih := ih fun bx hbx => h bx (List.mem_cons_of_mem _ hbx)
      obtain ⟨a, x⟩ := ax
      cases a with
      | none => simpa using ih
      | some a =>
        have := h (some a, x) (by simp) a rfl
        simp only [List.filterMap_cons, Option.bind_some, this, List.countP_cons, Option.isSome_some, if_true, ih, List.replicate_succ]
  have hp : 0 < (axes.zip X).countP fun ax => ax.1.isSome := by
    rw [List.countP_pos_iff]
    obtain ⟨a, ha, hs⟩ := hm
    obtain ⟨i, hi, rfl⟩ := List.mem_iff_getElem.1 ha
    exact ⟨(axes[i], X[i]), List.mem_iff_getElem.2 ⟨i, by simp; omega, by simp⟩, hs⟩
  unfold mapSize
  rw [key _ h]
  obtain ⟨c, hc⟩ : ∃ c, (axes.zip X).countP (fun ax => ax.1.isSome) = c + 1 := ⟨_, (Nat.succ_pred_eq_of_pos hp).symm⟩
  dsimp only
  rw [hc, List.replicate_succ, List.headD_cons, if_pos]
  refine ⟨by simp, fun s hs => ?_⟩
  rw [← List.replicate_succ] at hs
  exact List.eq_of_mem_replicate hs

lemma canonicalize_opt {V : VmapAxes} {fx : Arr ℝ} {o : Option ℕ} (hi : List.Forall₂ (fun ax b => IsAxis ax.2.ndim ax.1 b) (V.inp.zip X) axes)
    (ho : IsAxis fx.ndim V.out o) : canonicalizeAxes V X fx = .ok (axes, o) := by
  have key : ∀ (l : List (Option ℤ × Arr ℝ)) (b : List (Option ℕ)), List.Forall₂ (fun ax b => IsAxis ax.2.ndim ax.1 b) l b →
      l.mapM (fun ax => modAxis ax.1 ax.2.ndim) = .ok b := by
    intro l b hl
    induction hl with
    | nil => rfl
    | cons h1 h2 ih => rw [List.mapM_cons, modAxis_ok h1, ih]; rfl
  unfold canonicalizeAxes
  rw [key _ _ hi, modAxis_ok ho]
  rfl

lemma canonicalize_ok {V : VmapAxes} {fx : Arr ℝ} (h : Names V X fx axes o) : canonicalizeAxes V X fx = .ok (axes, some o) := canonicalize_opt h.inp h.out

lemma mapSize_cases (axes : List (Option ℕ)) (X : List (Arr ℝ)) : (∃ n, mapSize axes X = .ok n) ∨ mapSize axes X = .error .valueError := by
  unfold mapSize
  dsimp only
  split_ifs
  · exact Or.inl ⟨_, rfl⟩
  · exact Or.inr rfl

lemma mapSize_error {ax bx : Option ℕ × Arr ℝ} {a b : ℕ} (ha : ax ∈ axes.zip X) (hb : bx ∈ axes.zip X) (ea : ax.1 = some a) (eb : bx.1 = some b)
    (hne : ax.2.shape[a]? ≠ bx.2.shape[b]?) : mapSize axes X = .error .valueError := by
  unfold mapSize
  dsimp only
  rw [if_neg]
  rintro ⟨hl, hs⟩
  have all : ∀ cx ∈ axes.zip X, ∀ c, cx.1 = some c → ∃ s, cx.2.shape[c]? = some s := by
    intro cx hc c ec
    by_contra hn
    have hnone : cx.2.shape[c]? = none := by
      cases h : cx.2.shape[c]? with
      | none => rfl
      | some s => exact absurd ⟨s, h⟩ hn
    have key : ∀ l : List (Option ℕ × Arr ℝ), (l.filterMap fun ax => ax.1.bind fun a => ax.2.shape[a]?).length ≤ l.countP (fun ax => ax.1.isSome) ∧
        (cx ∈ l → (l.filterMap fun ax => ax.1.bind fun a => ax.2.shape[a]?).length < l.countP (fun ax => ax.1.isSome)) := by
      intro l
      induction l with
      | nil => exact ⟨le_rfl, fun h => absurd h (by simp)⟩
      | cons d l ih =>
        obtain ⟨i1, i2⟩ := ih
        obtain ⟨d1, d2⟩ := d
        cases d1 with
        | none =>
          simp only [List.filterMap_cons, Option.bind_none, List.countP_cons, Option.isSome_none]
          refine ⟨by simpa using i1, fun h => ?_⟩
          rcases List.mem_cons.1 h with h | h
          · rw [h] at ec
            cases ec
          · simpa using i2 h
        | some d1 =>
          simp only [List.filterMap_cons, Option.bind_some, List.countP_cons, Option.isSome_some, if_true]
          constructor
          · cases d2.shape[d1]? <;> simp <;> omega
          · intro h
            rcases List.mem_cons.1 h with h | h
            · rw [h] at ec hnone
              cases ec
              rw [hnone]
              simp only
              omega
            · have := i2 h
              cases d2.shape[d1]? <;> simp <;> omega
    exact absurd hl (by have := (key (axes.zip X)).2 hc; omega)
  obtain ⟨s, es⟩ := all ax ha a ea
  obtain ⟨t, et⟩ := all bx hb b eb
  have m1 := hs s (List.mem_filterMap.2 ⟨ax, ha, by rw [ea]; exact es⟩)
  have m2 := hs t (List.mem_filterMap.2 ⟨bx, hb, by rw [eb]; exact et⟩)
  exact hne (by rw [es, et, m1, m2])

lemma squeezable_ok (h : OneByOne f axes o X n) (hf : OfEntries f) (θ : Params P) (e : ℕ) : squeezable (some o) (f θ (examplesOf axes X e)) := by
  intro a ha
  obtain rfl : o = a := by simpa using ha
  rw [h.exampleShape hf, List.getD_eq_getElem?_getD, List.getElem?_set_self (h.pos θ)]
  rfl

lemma jacobiansV_ok (h : OneByOne f axes o X n) (hf : OfEntries f) (hm : mapped axes) (θ : Params P) :
    jacobiansV f θ axes (some o) X = .ok fun l => stackAt o n fun e => jacobianLeaf (fParams f (some o) (examplesOf axes X e)) θ l := by
  unfold jacobiansV
  rw [if_pos hm, mapSize_ok h.sizes h.length hm]
  show (if _ then _ else _) = _
  rw [if_pos (squeezable_ok h hf θ 0)]

lemma ntkFullV_ok {X2 : List (Arr ℝ)} {n2 : ℕ} (h : OneByOne f axes o X n) (h2 : OneByOne f axes o X2 n2) (hf : OfEntries f) (hm : mapped axes) (θ : Params P) (same : Bool) :
    ntkFullV f θ axes (some o) X X2 same = .ok (stackPairs ((f θ X).ndim + o) o n n2 fun e1 e2 =>
      ntkFull (fParams f (some o) (examplesOf axes X e1)) (fParams f (some o) (examplesOf axes X2 e2)) θ) := by
  unfold ntkFullV
  rw [if_pos hm, mapSize_ok h.sizes h.length hm, mapSize_ok h2.sizes h2.length hm]
  show (if _ then _ else _) = _
  rw [if_pos ⟨squeezable_ok h hf θ 0, squeezable_ok h2 hf θ 0⟩]

end

/-! ## Contraction of arrays that hold Jacobians -/

section
variable {m : ℕ} {P : Fin (m + 1) → List ℕ} {f1 f2 : Params P → Arr ℝ} {θ : Params P}

lemma jacobianContraction_ok {trace diagonal : List ℤ} {T D : List ℕ} (hn : (f1 θ).ndim = (f2 θ).ndim)
    (h : ReducedAxes (f1 θ).ndim trace diagonal T D) (hnd : DistinctAxes (f1 θ).ndim trace) (hT : sizesAt T (f1 θ).shape = sizesAt T (f2 θ).shape)
    (hD : sizesAt D (f1 θ).shape = sizesAt D (f2 θ).shape) {j1 j2 : Fin (m + 1) → Arr ℝ}
    (g1 : ∀ l, (j1 l).shape = (f1 θ).shape ++ P l ∧ ∀ k p, InRange k (f1 θ).shape → p ∈ box (P l) → (j1 l).get (k ++ p) = (jacobianLeaf f1 θ l).get (k ++ p))
    (g2 : ∀ l, (j2 l).shape = (f2 θ).shape ++ P l ∧ ∀ k p, InRange k (f2 θ).shape → p ∈ box (P l) → (j2 l).get (k ++ p) = (jacobianLeaf f2 θ l).get (k ++ p)) :
    ∃ z, jacobianContraction (f1 θ).shape trace diagonal (List.ofFn j1) (List.ofFn j2) = .ok z ∧
      ReducedMean (f1 θ).shape (f2 θ).shape T D (tangentAt f1 f2 θ) z := by
  have ok := axesOk h
  have hl : ∀ l, ∃ z, contractLeaf (f1 θ).ndim (sizesAt T (f1 θ).shape).prod T D (j1 l) (j2 l) = .ok z ∧
      ReducedMean (f1 θ).shape (f2 θ).shape T D (fun i j => sumOver (P l) fun p => (j1 l).get (i ++ p) * (j2 l).get (j ++ p)) z :=
    fun l => contractLeaf_ok rfl hn.symm (g1 l).1 (g2 l).1 (axesList_axes ok.trace) (axesList_axes ok.diagonal) ok.disjoint hT hD
  choose z hz hr using hl
  have hm : ((List.ofFn j1).zip (List.ofFn j2)).mapM
      (fun xy => contractLeaf (f1 θ).ndim (sizesAt T (f1 θ).shape).prod T D xy.1 xy.2) = .ok (List.ofFn z) := by
    have : (List.ofFn j1).zip (List.ofFn j2) = List.ofFn fun l => (j1 l, j2 l) := by
      refine List.ext_getElem (by simp) fun k hk hk' => by simp [-List.ofFn_succ]
    rw [this]
    exact mapM_ofFn _ _ _ _ hz
  have hres : jacobianContraction (f1 θ).shape trace diagonal (List.ofFn j1) (List.ofFn j2) =
      .ok ((List.ofFn fun l : Fin m => z l.succ).foldl addSame (z 0)) := by
    unfold jacobianContraction
    rw [sizeAtRaw_ok rfl h.trace hnd, show (f1 θ).shape.length = (f1 θ).ndim from rfl, ok.trace, ok.diagonal]
    simp only [bind, Except.bind, hm]
    rw [List.ofFn_succ]
    rfl
  refine ⟨_, hres, ?_⟩
  have := fold_mean (List.ofFn fun l : Fin m => (z l.succ, fun i j => sumOver (P l.succ) fun p => (j1 l.succ).get (i ++ p) * (j2 l.succ).get (j ++ p))) _ _ (hr 0) (by
      intro y hy
      obtain ⟨l, rfl⟩ := (List.mem_ofFn' _ _).1 hy
      exact hr l.succ)
  rw [List.map_ofFn] at this
  refine mean_congr this hT fun i j hi hj => ?_
  have key : ∀ l, (sumOver (P l) fun p => (j1 l).get (i ++ p) * (j2 l).get (j ++ p)) =
      sumOver (P l) fun p => (jacobianLeaf f1 θ l).get (i ++ p) * (jacobianLeaf f2 θ l).get (j ++ p) := by
    intro l
    rw [sumOver_eq_box, sumOver_eq_box]
    exact Finset.sum_congr rfl fun p hp => by rw [(g1 l).2 i p hi hp, (g2 l).2 j p hj hp]
  rw [tangent_sum, Fin.sum_univ_succ, key 0, leaf_sum 0 hi.length hj.length, List.map_ofFn, List.sum_ofFn]
  congr 1
  refine Finset.sum_congr rfl fun l _ => ?_
  exact (key l.succ).trans (leaf_sum l.succ hi.length hj.length)

end

end NT.Emp
