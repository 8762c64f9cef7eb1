import Verif.Lemmas.RulesConv4

/-!
# The rules of `conv_general_dilated`
-/

namespace NT.Rules
open NT Arr Spec ConvParams
variable {α : Type}

/-- The parameters without groups. -/
def ConvParams.one (p : ConvParams) : ConvParams := { p with featureGroups := 1, batchGroups := 1 }

lemma convE_one {p : ConvParams} {lhs inp : List ℕ} (hf : 0 < p.featureGroups) (hb : 0 < p.batchGroups) (h1 : inp.getD (p.rhsSpec.getD 0 0) 0 = 1) :
    convE p lhs inp = p.one := by
  obtain ⟨lS, rS, oS, st, pa, ld, rd, f, b⟩ := p
  unfold convE one
  dsimp only at *
  rw [h1]
  split <;> dsimp only <;> split <;> simp only [ConvParams.mk.injEq, true_and, and_true] <;> rw [h1] at * <;> omega

/-- Nothing trimmed: the groups change only where there is nothing to sum. -/
lemma convE_self {p : ConvParams} (lhs : Arr α) [Zero α] {inp : List ℕ} {n : ℕ} (h : ConvOk p lhs.shape inp n) (hF : 0 < inp.getD (p.rhsSpec.getD 0 0) 0) :
    ConvOk (convE p lhs.shape inp) lhs.shape inp n ∧ convOut (convE p lhs.shape inp) lhs.shape inp = convOut p lhs.shape inp ∧
      ∀ o i, InRange o (convOut p lhs.shape inp) → InRange i inp → convJac (convE p lhs.shape inp) lhs inp o i = convJac p lhs inp o i := by
  have hf := Nat.le_of_dvd hF h.fdvd
  have hb := Nat.le_of_dvd hF h.bdvd
  obtain ⟨⟨hg1, hg2⟩, hg3⟩ := h.groups
  have hO := h.outShape (lhs.shape.getD (p.lhsSpec.getD 0 0) 0 / p.batchGroups) (inp.getD (p.rhsSpec.getD 0 0) 0) (spatial p.rhsSpec inp)
  by_cases c1 : lhs.shape.getD (p.lhsSpec.getD 1 0) 0 < p.featureGroups
  · have h0 : inp.getD (p.rhsSpec.getD 1 0) 0 = 0 := by
      rw [h.channels] at c1
      rcases Nat.eq_zero_or_pos (inp.getD (p.rhsSpec.getD 1 0) 0) with e | e
      · exact e
      · have := Nat.le_mul_of_pos_right p.featureGroups e
        omega
    have hc := h.channels
    rw [h0, Nat.mul_zero] at hc
    have hno : ∀ i, ¬ InRange i inp := fun i hi => by
      have := (inRange_iff.1 hi).2 (p.rhsSpec.getD 1 0) (by rw [h.lenI]; exact h.R.one)
      omega
    by_cases c2 : lhs.shape.getD (p.lhsSpec.getD 0 0) 0 < p.batchGroups
    · have hn0 : lhs.shape.getD (p.lhsSpec.getD 0 0) 0 = 0 := Nat.eq_zero_of_dvd_of_lt h.ndvd c2
      have e : convE p lhs.shape inp = p.one := by
        unfold convE one
        rw [if_pos (Or.inl c1), if_pos (Or.inr c2)]
      rw [e]
      refine ⟨⟨h.L, h.R, h.O, h.lenL, h.lenI, ⟨⟨one_pos, one_pos⟩, Or.inl rfl⟩, ?_, one_dvd _, one_dvd _, one_dvd _⟩, ?_, fun o i _ hi => (hno i hi).elim⟩
      · show lhs.shape.getD (p.lhsSpec.getD 1 0) 0 = 1 * inp.getD (p.rhsSpec.getD 1 0) 0
        omega
      · show p.outShape (lhs.shape.getD (p.lhsSpec.getD 0 0) 0 / 1) _ _ _ = p.outShape (lhs.shape.getD (p.lhsSpec.getD 0 0) 0 / p.batchGroups) _ _ _
        rw [hn0, Nat.zero_div, Nat.zero_div]
        rfl
    · have e : convE p lhs.shape inp = { p with featureGroups := 1 } := by
        unfold convE
        rw [if_pos (Or.inl c1), if_neg (by dsimp only; omega)]
      rw [e]
      refine ⟨⟨h.L, h.R, h.O, h.lenL, h.lenI, ⟨⟨one_pos, hg2⟩, Or.inl rfl⟩, ?_, one_dvd _, h.bdvd, h.ndvd⟩, rfl, fun o i _ hi => (hno i hi).elim⟩
      show lhs.shape.getD (p.lhsSpec.getD 1 0) 0 = 1 * inp.getD (p.rhsSpec.getD 1 0) 0
      omega
  · by_cases c2 : lhs.shape.getD (p.lhsSpec.getD 0 0) 0 < p.batchGroups
    · have hn0 : lhs.shape.getD (p.lhsSpec.getD 0 0) 0 = 0 := Nat.eq_zero_of_dvd_of_lt h.ndvd c2
      have e : convE p lhs.shape inp = { p with batchGroups := 1 } := by
        have c0 : ¬ (lhs.shape.getD (p.lhsSpec.getD 1 0) 0 < p.featureGroups ∨ inp.getD (p.rhsSpec.getD 0 0) 0 < p.featureGroups) := by omega
        unfold convE
        rw [if_neg c0, if_pos (Or.inr c2)]
      rw [e]
      refine ⟨⟨h.L, h.R, h.O, h.lenL, h.lenI, ⟨⟨hg1, one_pos⟩, Or.inr rfl⟩, h.channels, h.fdvd, one_dvd _, one_dvd _⟩, ?_, fun o i ho _ => ?_⟩
      · show p.outShape (lhs.shape.getD (p.lhsSpec.getD 0 0) 0 / 1) _ _ _ = p.outShape (lhs.shape.getD (p.lhsSpec.getD 0 0) 0 / p.batchGroups) _ _ _
        rw [hn0, Nat.zero_div, Nat.zero_div]
      · have := (inRange_iff.1 ho).2 (p.outSpec.getD 0 0) (by unfold convOut; rw [hO.1]; exact h.O.zero)
        unfold convOut at this
        rw [hO.2.1, hn0, Nat.zero_div] at this
        omega
    · have e : convE p lhs.shape inp = p := by
        have c0 : ¬ (lhs.shape.getD (p.lhsSpec.getD 1 0) 0 < p.featureGroups ∨ inp.getD (p.rhsSpec.getD 0 0) 0 < p.featureGroups) := by omega
        unfold convE
        rw [if_neg c0, if_neg (by omega)]
      rw [e]
      exact ⟨h, rfl, fun _ _ _ _ => rfl⟩

lemma trim_single {as S : List ℕ} {a : ℕ} (h : ∀ x, x ∈ as ↔ x = a) : trim as S = S.set a 1 := by
  refine ext_getD' (by simp [length_trim]) fun x hx => ?_
  rw [length_trim] at hx
  rw [getD_trim _ _ _ hx]
  by_cases hxa : x = a
  · subst hxa
    rw [if_pos ((h x).2 rfl), getD_set_self hx]
  · rw [if_neg fun e => hxa ((h x).1 e), getD_set_ne hxa]

lemma squash_single {as k : List ℕ} {a : ℕ} (h : ∀ x, x ∈ as ↔ x = a) : squash as k = k.set a 0 := by
  refine ext_getD' (by simp [length_squash]) fun x hx => ?_
  rw [length_squash] at hx
  rw [getD_squash]
  by_cases hxa : x = a
  · subst hxa
    rw [if_pos ((h x).2 rfl), getD_set_self hx]
  · rw [if_neg fun e => hxa ((h x).1 e), getD_set_ne hxa]

lemma trim_nil (S : List ℕ) : trim [] S = S := by
  refine ext_getD' (length_trim _ _) fun x hx => ?_
  rw [length_trim] at hx
  rw [getD_trim _ _ _ hx]
  simp

lemma squash_nil (k : List ℕ) : squash [] k = k := by
  refine ext_getD' (length_squash _ _) fun x hx => ?_
  rw [getD_squash]
  simp

lemma inRange_set_one {k S : List ℕ} {a : ℕ} (ha : a < S.length) (h : InRange k (S.set a 1)) : k.getD a 0 = 0 := by
  have := (inRange_iff.1 h).2 a (by simpa using ha)
  rw [getD_set_self ha] at this
  omega

/-- The rule on the trimmed filter. -/
lemma convRule_cut [Field α] {p : ConvParams} {lhs : List ℕ} (x : Arr α) {inp out : List ℕ} {n : ℕ} (hf : 0 < p.featureGroups) (hb : 0 < p.batchGroups)
    (hr : p.rhsSpec.getD 0 0 < inp.length) (h : ConvOk p.one x.shape (inp.set (p.rhsSpec.getD 0 0) 1) n)
    (ho : convOut p.one x.shape (inp.set (p.rhsSpec.getD 0 0) 1) = out.set (p.outSpec.getD 1 0) 1) :
    ∃ j, convRule p lhs (inp.set (p.rhsSpec.getD 0 0) 1) x (out.set (p.outSpec.getD 1 0) 1) = .ok j ∧
      j.shape = out.set (p.outSpec.getD 1 0) 1 ++ inp.set (p.rhsSpec.getD 0 0) 1 ∧
      ∀ o i, InRange o (out.set (p.outSpec.getD 1 0) 1) → InRange i (inp.set (p.rhsSpec.getD 0 0) 1) →
        j.get (o ++ i) = p.read x (o.getD (p.outSpec.getD 0 0) 0) (i.getD (p.rhsSpec.getD 1 0) 0) (spatial p.outSpec o) (spatial p.rhsSpec i) := by
  have hl : out.length = n := by
    have := congrArg List.length ho
    rw [List.length_set] at this
    rw [← this]
    exact (h.outShape ..).1
  obtain ⟨j, j1, j2, j3⟩ := convJ_ok (out := out.set (p.outSpec.getD 1 0) 1) x h (by rw [List.length_set, hl])
  rw [ho] at j2 j3
  refine ⟨j, ?_, j2, fun o i ho hi => ?_⟩
  · unfold convRule
    rw [convE_one hf hb (getD_set_self hr)]
    exact j1
  · rw [j3 o i ho hi]
    unfold convJac one
    dsimp only
    rw [inRange_set_one (by rw [hl]; exact h.O.one) ho, inRange_set_one hr hi, if_pos rfl, Nat.zero_div, Nat.zero_mul, Nat.zero_mul, Nat.zero_add, Nat.zero_add]
    rfl

/-- Nothing is trimmed. -/
lemma conv_compact_none [Field α] {p : ConvParams} (lhs : Arr α) {inp : List ℕ} {n : ℕ} {s' s : Structure} (hs : Part s' s 1 inp) (h : ConvOk p lhs.shape inp n)
    (hF : 0 < inp.getD (p.rhsSpec.getD 0 0) 0) (h1 : s'.outTrace = []) (h2 : s'.inTrace = []) (h3 : s'.outDiagonal = []) (h4 : s'.inDiagonal = [])
    (h5 : s'.outBroadcast = []) :
    ∃ j, compact (convRule p lhs.shape) s' 1 inp lhs (convOut p lhs.shape inp) = .ok j ∧ Expands s' 1 (convOut p lhs.shape inp) inp j (convJac p lhs inp) := by
  obtain ⟨e1, e2, e3⟩ := convE_self lhs h hF
  obtain ⟨j, j1, j2, j3⟩ := convJ_ok (out := convOut p lhs.shape inp) lhs e1 (h.outShape ..).1
  rw [e2] at j2 j3
  have t1 : trimIn s' 1 inp = inp := by
    rw [trimIn_eq hs [] fun x => by unfold diagAxes; rw [h4]; rfl, h2]
    exact trim_nil _
  have t2 : trimOut s' (convOut p lhs.shape inp) = convOut p lhs.shape inp := by
    unfold trimOut
    rw [h1, h3, h5]
    exact trim_nil _
  have t3 : diagIns s' 1 = [] := by unfold diagIns diagPairs; rw [h3]; rfl
  refine ⟨j, ?_, ⟨?_, fun o i ho hi hne => ?_, fun o i ho hi _ _ => ?_⟩⟩
  · unfold compact
    rw [h3, h4, t1, t2]
    exact j1
  · rw [h1, h2, h5, t3, j2, List.append_nil, trim_nil, trim_nil]
  · refine absurd ⟨?_, ?_⟩ hne
    · unfold tracePairs
      rw [h1]
      intro q hq
      cases hq
    · unfold diagPairs
      rw [h3]
      intro q hq
      cases hq
  · rw [h1, h2, h5, t3, List.append_nil, squash_nil, squash_nil, j3 o i ho hi, e3 o i ho hi]

/-- The output features are traced. -/
lemma conv_compact_trace [Field α] {p : ConvParams} (lhs : Arr α) {inp : List ℕ} {n : ℕ} {s' s : Structure} (hs : Part s' s 1 inp) (h : ConvOk p lhs.shape inp n)
    (g1 : p.featureGroups = 1) (g2 : p.batchGroups = 1) (h1 : ∀ x, x ∈ s'.outTrace ↔ x = p.outSpec.getD 1 0) (h2 : ∀ x, x ∈ s'.inTrace ↔ x = p.rhsSpec.getD 0 0)
    (h0 : ∀ q, q ∈ tracePairs s' ↔ q = (p.outSpec.getD 1 0, p.rhsSpec.getD 0 0)) (h3 : s'.outDiagonal = []) (h4 : s'.inDiagonal = [])
    (h5 : s'.outBroadcast = []) :
    ∃ j, compact (convRule p lhs.shape) s' 1 inp lhs (convOut p lhs.shape inp) = .ok j ∧ Expands s' 1 (convOut p lhs.shape inp) inp j (convJac p lhs inp) := by
  have hr : p.rhsSpec.getD 0 0 < inp.length := by rw [h.lenI]; exact h.R.zero
  have hO := h.outShape (lhs.shape.getD (p.lhsSpec.getD 0 0) 0 / p.batchGroups) (inp.getD (p.rhsSpec.getD 0 0) 0) (spatial p.rhsSpec inp)
  have hone : p.one = p := by
    obtain ⟨lS, rS, oS, st, pa, ld, rd, f, b⟩ := p
    dsimp only at g1 g2
    subst g1 g2
    rfl
  have hsp : spatial p.rhsSpec (inp.set (p.rhsSpec.getD 0 0) 1) = spatial p.rhsSpec inp := Emp.gather_set_off h.R.zero_notMem
  have hcut : ConvOk p.one lhs.shape (inp.set (p.rhsSpec.getD 0 0) 1) n := by
    rw [hone]
    refine ⟨h.L, h.R, h.O, h.lenL, by rw [List.length_set]; exact h.lenI, h.groups, ?_, by rw [g1]; exact one_dvd _, by rw [g2]; exact one_dvd _, h.ndvd⟩
    rw [getD_set_ne h.R.ne.symm]
    exact h.channels
  have hout : convOut p.one lhs.shape (inp.set (p.rhsSpec.getD 0 0) 1) = (convOut p lhs.shape inp).set (p.outSpec.getD 1 0) 1 := by
    rw [hone]
    unfold convOut
    rw [getD_set_self hr, hsp]
    exact (h.outShape_set_one ..).symm
  obtain ⟨j, j1, j2, j3⟩ := convRule_cut (lhs := lhs.shape) (out := convOut p lhs.shape inp) lhs h.groups.1.1 h.groups.1.2 hr hcut hout
  have t1 : trimIn s' 1 inp = inp.set (p.rhsSpec.getD 0 0) 1 := by
    rw [trimIn_eq hs [] fun x => by unfold diagAxes; rw [h4]; rfl, List.append_nil]
    exact trim_single h2
  have t2 : trimOut s' (convOut p lhs.shape inp) = (convOut p lhs.shape inp).set (p.outSpec.getD 1 0) 1 := by
    unfold trimOut
    rw [h3, h5, List.append_nil, List.append_nil]
    exact trim_single h1
  have t3 : diagIns s' 1 = [] := by unfold diagIns diagPairs; rw [h3]; rfl
  have hol : ∀ o, InRange o (convOut p lhs.shape inp) → o.getD (p.outSpec.getD 1 0) 0 < inp.getD (p.rhsSpec.getD 0 0) 0 := fun o ho => by
    have := (inRange_iff.1 ho).2 (p.outSpec.getD 1 0) (by unfold convOut; rw [hO.1]; exact h.O.one)
    unfold convOut at this
    rwa [hO.2.2.1] at this
  refine ⟨j, ?_, ⟨?_, fun o i ho hi hne => ?_, fun o i ho hi ha _ => ?_⟩⟩
  · unfold compact
    rw [h3, h4, t1, t2]
    exact j1
  · rw [h5, t3, j2, List.append_nil, List.append_nil, trim_single h1, trim_single h2]
  · unfold convJac
    dsimp only
    refine if_neg fun e => hne ⟨fun q hq => ?_, ?_⟩
    · obtain rfl := (h0 q).1 hq
      exact e
    · unfold diagPairs
      rw [h3]
      intro q hq
      cases hq
  · have e := ha _ ((h0 _).2 rfl)
    dsimp only at e
    rw [h5, t3, List.append_nil, List.append_nil, squash_single h1, squash_single h2, j3 _ _ (inRange_set_both ho one_pos) (inRange_set_both hi one_pos)]
    unfold convJac
    dsimp only
    rw [if_pos e, g1, g2, Nat.div_one, Nat.div_eq_of_lt (hol o ho), Nat.zero_mul, Nat.zero_mul, Nat.zero_add, Nat.zero_add, getD_set_ne h.O.ne,
      getD_set_ne h.R.ne.symm]
    have hsp1 : spatial p.outSpec (o.set (p.outSpec.getD 1 0) 0) = spatial p.outSpec o := Emp.gather_set_off h.O.one_notMem
    have hsp2 : spatial p.rhsSpec (i.set (p.rhsSpec.getD 0 0) 0) = spatial p.rhsSpec i := Emp.gather_set_off h.R.zero_notMem
    rw [hsp1, hsp2]

lemma slices_shape (a b : ℕ) (k : List ℕ) (x : Arr α) : (slices [(a, b)] k x).shape = x.shape.set a 1 := trim_single fun y => by simp

/-- The entry of the padded operand, of a slice. -/
lemma read_slices [Zero α] {p : ConvParams} {n : ℕ} (lhs : Arr α) (hL : SpecOk p.lhsSpec n) (hd : p.dims = n - 2) {a b B C B' C' : ℕ} {k y q : List ℕ} (ha : a ∉ p.lhsSpec.drop 2)
    (hp : ∀ v : List ℕ, v.length = n - 2 → addAt [(a, b)] k (ConvParams.place p.lhsSpec (B :: C :: v)) = ConvParams.place p.lhsSpec (B' :: C' :: v)) :
    p.read (slices [(a, b)] k lhs) B C y q = p.read lhs B' C' y q := by
  have hsz : ∀ i, i < p.dims → (slices [(a, b)] k lhs).shape.getD (p.lhsSpec.getD (i + 2) 0) 0 = lhs.shape.getD (p.lhsSpec.getD (i + 2) 0) 0 := fun i hi => by
    rw [slices_shape]
    refine getD_set_ne fun e => ha ?_
    rw [← e, List.getD_eq_getElem _ _ (by rw [hL.length]; omega)]
    refine List.mem_drop_iff_getElem.2 ⟨i, by rw [hL.length]; omega, ?_⟩
    simp only [Nat.add_comm]
  unfold ConvParams.read
  dsimp only
  refine if_congr (forall_congr' fun i => ⟨fun h hi => ?_, fun h hi => ?_⟩) ?_ rfl
  · have := h hi
    rwa [hsz i hi] at this
  · rw [hsz i hi]
    exact h hi
  · show lhs.get (addAt _ _ _) = _
    rw [hp _ (by simp [hd])]

/-- The output features are on the diagonal with the axis `a` of the operand. -/
lemma conv_compact_diag [Field α] {p : ConvParams} (lhs : Arr α) {inp : List ℕ} {n a : ℕ} {s' s : Structure} (hs : Part s' s 1 inp) (h : ConvOk p lhs.shape inp n)
    (hcut : ConvOk p.one (lhs.shape.set a 1) (inp.set (p.rhsSpec.getD 0 0) 1) n)
    (hout : convOut p.one (lhs.shape.set a 1) (inp.set (p.rhsSpec.getD 0 0) 1) = (convOut p lhs.shape inp).set (p.outSpec.getD 1 0) 1)
    (hsz : lhs.shape.getD a 0 = inp.getD (p.rhsSpec.getD 0 0) 0)
    (hval : ∀ o i k, InRange o (convOut p lhs.shape inp) → InRange i inp → o.getD (p.outSpec.getD 1 0) 0 = i.getD (p.rhsSpec.getD 0 0) 0 →
      k.getD (p.outSpec.getD 1 0) 0 = o.getD (p.outSpec.getD 1 0) 0 → convJac p lhs inp o i =
        p.read (slices [(a, p.outSpec.getD 1 0)] k lhs) (o.getD (p.outSpec.getD 0 0) 0) (i.getD (p.rhsSpec.getD 1 0) 0) (spatial p.outSpec o) (spatial p.rhsSpec i))
    (h1 : s'.outTrace = []) (h2 : s'.inTrace = []) (h3 : s'.outDiagonal = [p.outSpec.getD 1 0]) (h4 : s'.inDiagonal = [[some a, some (p.rhsSpec.getD 0 0)]])
    (h5 : s'.outBroadcast = []) :
    ∃ j, compact (convRule p lhs.shape) s' 1 inp lhs (convOut p lhs.shape inp) = .ok j ∧ Expands s' 1 (convOut p lhs.shape inp) inp j (convJac p lhs inp) := by
  have hr : p.rhsSpec.getD 0 0 < inp.length := by rw [h.lenI]; exact h.R.zero
  have hO := h.outShape (lhs.shape.getD (p.lhsSpec.getD 0 0) 0 / p.batchGroups) (inp.getD (p.rhsSpec.getD 0 0) 0) (spatial p.rhsSpec inp)
  have hlen : (convOut p lhs.shape inp).length = n := hO.1
  have hfe : (convOut p lhs.shape inp).getD (p.outSpec.getD 1 0) 0 = inp.getD (p.rhsSpec.getD 0 0) 0 := hO.2.2.1
  have ho1 := h.O.one
  generalize hYo : convOut p lhs.shape inp = out at *
  have hsing : ∀ (c x : ℕ), x ∈ [c] ↔ x = c := fun c x => by simp
  have t1 : trimIn s' 1 inp = inp.set (p.rhsSpec.getD 0 0) 1 := by
    rw [trimIn_eq hs [p.rhsSpec.getD 0 0] fun x => by unfold diagAxes; rw [h4]; rfl, h2]
    exact trim_single (hsing _)
  have t2 : trimOut s' out = out.set (p.outSpec.getD 1 0) 1 := by
    unfold trimOut
    rw [h1, h3, h5]
    exact trim_single (hsing _)
  have tp : diagPairs s' 1 = [(p.outSpec.getD 1 0, p.rhsSpec.getD 0 0)] := by unfold diagPairs; rw [h3, h4]; rfl
  have t3 : diagIns s' 1 = [p.rhsSpec.getD 0 0] := by unfold diagIns; rw [tp]; rfl
  have hsetO : trim [p.outSpec.getD 1 0] (out ++ inp.set (p.rhsSpec.getD 0 0) 1) = out.set (p.outSpec.getD 1 0) 1 ++ inp.set (p.rhsSpec.getD 0 0) 1 := by
    rw [trim_single (hsing _), List.set_append_left _ _ (by omega)]
  obtain ⟨j, j1, j2, j3⟩ := compact_gives (rule := convRule (α := α) p lhs.shape) (s := s') (idx := 1) (inp := inp) (other := lhs) (out := out)
    (Y := out ++ inp.set (p.rhsSpec.getD 0 0) 1) [(a, p.outSpec.getD 1 0)] (by rw [h3, h4]; rfl) (by simp) (by simp) (by
      intro q hq
      obtain rfl := List.mem_singleton.1 hq
      dsimp only
      rw [List.getD_append _ _ _ _ (by omega), hfe, hsz])
    (G := fun x k => p.read x (k.getD (p.outSpec.getD 0 0) 0) (k.getD (n + p.rhsSpec.getD 1 0) 0) (spatial p.outSpec k) (spatial p.rhsSpec (k.drop n))) (by
      intro x hx
      have hx : x.shape = lhs.shape.set a 1 := hx.trans (trim_single (hsing _))
      have hcut' : ConvOk p.one x.shape (inp.set (p.rhsSpec.getD 0 0) 1) n := by rw [hx]; exact hcut
      obtain ⟨j, j1, j2, j3⟩ := convRule_cut (lhs := lhs.shape) (out := out) x h.groups.1.1 h.groups.1.2 hr hcut' (by rw [hx]; exact hout)
      refine ⟨j, by rw [t1, t2]; exact j1, j2.trans hsetO.symm, fun k hk => ?_⟩
      have hk : InRange k (out.set (p.outSpec.getD 1 0) 1 ++ inp.set (p.rhsSpec.getD 0 0) 1) := hsetO ▸ hk
      have hk1 := hk.length
      rw [List.length_append, List.length_set, List.length_set, hlen, h.lenI] at hk1
      have hkt : k.take n ++ k.drop n = k := List.take_append_drop _ _
      have htl : (k.take n).length = n := by rw [List.length_take]; omega
      have hk' := hk
      rw [← hkt] at hk'
      obtain ⟨hk2, hk3⟩ := (inRange_append (by rw [htl, List.length_set, hlen])).1 hk'
      have := j3 _ _ hk2 hk3
      rw [hkt] at this
      rw [this]
      have q1 : (k.take n).getD (p.outSpec.getD 0 0) 0 = k.getD (p.outSpec.getD 0 0) 0 := by
        conv_rhs => rw [← hkt]
        rw [List.getD_append _ _ _ _ (by rw [htl]; exact h.O.zero)]
      have q2 : (k.drop n).getD (p.rhsSpec.getD 1 0) 0 = k.getD (n + p.rhsSpec.getD 1 0) 0 := by
        conv_rhs => rw [← hkt]
        rw [List.getD_append_right _ _ _ _ (by omega), htl, Nat.add_sub_cancel_left]
      have q3 : spatial p.outSpec (k.take n) = spatial p.outSpec k := by
        refine List.map_congr_left fun c hc => ?_
        conv_rhs => rw [← hkt]
        rw [List.getD_append _ _ _ _ (by rw [htl]; exact h.O.mem.1 (List.mem_of_mem_drop hc))]
      rw [q1, q2, q3])
  refine ⟨j, j1, ⟨?_, fun o i ho hi hne => ?_, fun o i ho hi _ ha => ?_⟩⟩
  · rw [j2, h1, h2, h5, t3, List.append_nil, List.nil_append, trim_nil, trim_single (hsing _)]
  · unfold convJac
    dsimp only
    refine if_neg fun e => hne ⟨?_, fun q hq => ?_⟩
    · unfold tracePairs
      rw [h1]
      intro q hq
      cases hq
    · rw [tp] at hq
      obtain rfl := List.mem_singleton.1 hq
      exact e
  · have e := ha _ (by rw [tp]; exact List.mem_singleton.2 rfl)
    dsimp only at e
    have hol := ho.length.trans hlen
    rw [h1, h2, h5, t3, List.append_nil, List.nil_append, squash_nil, squash_single (hsing _),
      j3 _ ((inRange_append ho.length).2 ⟨ho, inRange_set_both hi one_pos⟩)]
    rw [show List.map (fun x : ℕ × ℕ => x.2) [(a, p.outSpec.getD 1 0)] = [p.outSpec.getD 1 0] from rfl, squash_single (hsing _), List.set_append_left _ _ (by omega)]
    have hsl : (o.set (p.outSpec.getD 1 0) 0).length = n := by rw [List.length_set, hol]
    have hsp1 : spatial p.outSpec (o.set (p.outSpec.getD 1 0) 0 ++ i.set (p.rhsSpec.getD 0 0) 0) = spatial p.outSpec o := by
      refine List.map_congr_left fun c hc => ?_
      rw [List.getD_append _ _ _ _ (by rw [hsl]; exact h.O.mem.1 (List.mem_of_mem_drop hc)), getD_set_ne (show c ≠ p.outSpec.getD 1 0 from fun e => h.O.one_notMem (e ▸ hc))]
    have hsp2 : spatial p.rhsSpec (i.set (p.rhsSpec.getD 0 0) 0) = spatial p.rhsSpec i := Emp.gather_set_off h.R.zero_notMem
    rw [List.getD_append _ _ _ _ (by rw [hsl]; exact h.O.zero), List.getD_append_right _ _ _ _ (by omega), hsp1, List.drop_append_of_le_length (by omega),
      List.drop_eq_nil_of_le (by omega), List.nil_append, hsp2, hsl, Nat.add_sub_cancel_left, getD_set_ne h.O.ne, getD_set_ne h.R.ne.symm]
    exact hval o i _ ho hi e (List.getD_append _ _ _ _ (by omega))

lemma outShape_set_off {p : ConvParams} {lhs inp ks : List ℕ} {n a b f : ℕ} (h : ConvOk p lhs inp n) (ha : a ∉ p.lhsSpec.drop 2) :
    p.outShape b f (lhs.set a 1) ks = p.outShape b f lhs ks := by
  unfold ConvParams.outShape
  congr 3
  refine List.map_congr_left fun i hi => ?_
  have hi := List.mem_range.1 hi
  rw [h.dims] at hi
  rw [getD_set_ne fun e => ha ?_]
  rw [← e, List.getD_eq_getElem _ _ (by rw [h.L.length]; omega)]
  refine List.mem_drop_iff_getElem.2 ⟨i, by rw [h.L.length]; omega, ?_⟩
  simp only [Nat.add_comm]

/-- A part of a structure with one diagonal axis. -/
lemma part_diag {s' : Structure} {o : ℕ} {l : List (Option ℕ)} {idx : ℕ} {inp : List ℕ}
    (hs : Part s' { inDiagonal := [l], outDiagonal := [o] } idx inp) :
    s'.outTrace = [] ∧ s'.inTrace = [] ∧ s'.outBroadcast = [] ∧ ((s'.outDiagonal = [] ∧ s'.inDiagonal = []) ∨ (s'.outDiagonal = [o] ∧ s'.inDiagonal = [l])) := by
  have hz : tracePairs s' = [] := List.eq_nil_iff_forall_not_mem.2 fun x hx => by simpa [tracePairs] using hs.trace x hx
  have h1 : s'.outTrace = [] := by
    rcases List.zip_eq_nil_iff.1 hz with h | h
    · exact h
    · exact List.length_eq_zero_iff.1 (by rw [hs.traceLen, h]; rfl)
  have h2 : s'.inTrace = [] := List.length_eq_zero_iff.1 (by rw [← hs.traceLen, h1]; rfl)
  refine ⟨h1, h2, List.eq_nil_iff_forall_not_mem.2 fun x hx => by simpa using hs.broadcast x hx, ?_⟩
  have hd : (s'.outDiagonal.zip s'.inDiagonal).Sublist [(o, l)] := hs.diag
  have e1 : (s'.outDiagonal.zip s'.inDiagonal).map Prod.fst = s'.outDiagonal := List.map_fst_zip hs.diagLen.le
  have e2 : (s'.outDiagonal.zip s'.inDiagonal).map Prod.snd = s'.inDiagonal := List.map_snd_zip hs.diagLen.ge
  rcases List.sublist_singleton.1 hd with h | h
  · left
    rw [h] at e1 e2
    exact ⟨e1.symm, e2.symm⟩
  · right
    rw [h] at e1 e2
    exact ⟨e1.symm, e2.symm⟩

lemma addAt_single (a b : ℕ) (k q : List ℕ) : addAt [(a, b)] k q = q.set a (q.getD a 0 + k.getD b 0) := rfl

/-- Depthwise: as many features as groups. -/
lemma conv_depthwise [Field α] {p : ConvParams} (lhs : Arr α) {inp : List ℕ} {n : ℕ} {s' : Structure} (h : ConvOk p lhs.shape inp n)
    (hF : 0 < inp.getD (p.rhsSpec.getD 0 0) 0) (c1 : inp.getD (p.rhsSpec.getD 0 0) 0 = p.featureGroups) (c2 : inp.getD (p.rhsSpec.getD 1 0) 0 = 1)
    (hs : Part s' { inDiagonal := [[some (p.lhsSpec.getD 1 0), some (p.rhsSpec.getD 0 0)]], outDiagonal := [p.outSpec.getD 1 0] } 1 inp) :
    ∃ j, compact (convRule p lhs.shape) s' 1 inp lhs (convOut p lhs.shape inp) = .ok j ∧ Expands s' 1 (convOut p lhs.shape inp) inp j (convJac p lhs inp) := by
  obtain ⟨h1, h2, h5, ⟨h3, h4⟩ | ⟨h3, h4⟩⟩ := part_diag hs
  · exact conv_compact_none lhs hs h hF h1 h2 h3 h4 h5
  have hb : p.batchGroups = 1 := by
    rcases h.groups.2 with e | e
    · have := h.bdvd
      rw [c1, e] at this
      exact Nat.dvd_one.1 this
    · exact e
  have hr : p.rhsSpec.getD 0 0 < inp.length := by rw [h.lenI]; exact h.R.zero
  have hl1 : p.lhsSpec.getD 1 0 < lhs.shape.length := by rw [h.lenL]; exact h.L.one
  have hO := h.outShape (lhs.shape.getD (p.lhsSpec.getD 0 0) 0 / p.batchGroups) (inp.getD (p.rhsSpec.getD 0 0) 0) (spatial p.rhsSpec inp)
  have hsp : spatial p.rhsSpec (inp.set (p.rhsSpec.getD 0 0) 1) = spatial p.rhsSpec inp := Emp.gather_set_off h.R.zero_notMem
  refine conv_compact_diag lhs hs h ?_ ?_ ?_ ?_ h1 h2 h3 h4 h5
  · refine ⟨h.L, h.R, h.O, by rw [List.length_set]; exact h.lenL, by rw [List.length_set]; exact h.lenI, ⟨⟨one_pos, one_pos⟩, Or.inl rfl⟩, ?_, one_dvd _, one_dvd _, one_dvd _⟩
    show (lhs.shape.set (p.lhsSpec.getD 1 0) 1).getD (p.lhsSpec.getD 1 0) 0 = 1 * (inp.set (p.rhsSpec.getD 0 0) 1).getD (p.rhsSpec.getD 1 0) 0
    rw [getD_set_self hl1, getD_set_ne h.R.ne.symm, c2]
  · rw [convOut, convOut, h.outShape_set_one]
    show p.outShape ((lhs.shape.set (p.lhsSpec.getD 1 0) 1).getD (p.lhsSpec.getD 0 0) 0 / 1) ((inp.set (p.rhsSpec.getD 0 0) 1).getD (p.rhsSpec.getD 0 0) 0)
      (lhs.shape.set (p.lhsSpec.getD 1 0) 1) (spatial p.rhsSpec (inp.set (p.rhsSpec.getD 0 0) 1)) = _
    rw [getD_set_ne h.L.ne, getD_set_self hr, hsp, hb]
    exact outShape_set_off h h.L.one_notMem
  · rw [h.channels, c1, c2, Nat.mul_one]
  · intro o i k ho hi e hk
    have hol : o.getD (p.outSpec.getD 1 0) 0 < inp.getD (p.rhsSpec.getD 0 0) 0 := by
      have := (inRange_iff.1 ho).2 (p.outSpec.getD 1 0) (by unfold convOut; rw [hO.1]; exact h.O.one)
      unfold convOut at this
      rwa [hO.2.2.1] at this
    have hi1 : i.getD (p.rhsSpec.getD 1 0) 0 = 0 := by
      have := (inRange_iff.1 hi).2 (p.rhsSpec.getD 1 0) (by rw [h.lenI]; exact h.R.one)
      omega
    unfold convJac
    dsimp only
    rw [if_pos e, hb, Nat.div_one, Nat.div_eq_of_lt hol, Nat.zero_mul, Nat.zero_add, c1, Nat.div_self h.groups.1.1, Nat.div_one, c2, Nat.mul_one, hi1, Nat.add_zero]
    refine (read_slices (C' := o.getD (p.outSpec.getD 1 0) 0) lhs h.L h.dims h.L.one_notMem fun v hv => ?_).symm
    rw [addAt_single, (h.L.place_getD hv).2.1, hk, Nat.zero_add]
    refine h.L.ext (by rw [List.length_set]; exact h.L.place_length) h.L.place_length ?_ ?_ ?_
    · rw [getD_set_ne h.L.ne, (h.L.place_getD hv).1, (h.L.place_getD hv).1]
    · rw [getD_set_self (by rw [h.L.place_length]; exact h.L.one), (h.L.place_getD hv).2.1]
    · rw [(h.L.place_getD hv).2.2]
      exact (Emp.gather_set_off h.L.one_notMem).trans (h.L.place_getD hv).2.2

/-- As many inputs and features as groups of the batch. -/
lemma conv_batchwise [Field α] {p : ConvParams} (lhs : Arr α) {inp : List ℕ} {n : ℕ} {s' : Structure} (h : ConvOk p lhs.shape inp n)
    (hF : 0 < inp.getD (p.rhsSpec.getD 0 0) 0) (c1 : lhs.shape.getD (p.lhsSpec.getD 0 0) 0 = p.batchGroups) (c2 : inp.getD (p.rhsSpec.getD 0 0) 0 = p.batchGroups)
    (hs : Part s' { inDiagonal := [[some (p.lhsSpec.getD 0 0), some (p.rhsSpec.getD 0 0)]], outDiagonal := [p.outSpec.getD 1 0] } 1 inp) :
    ∃ j, compact (convRule p lhs.shape) s' 1 inp lhs (convOut p lhs.shape inp) = .ok j ∧ Expands s' 1 (convOut p lhs.shape inp) inp j (convJac p lhs inp) := by
  obtain ⟨h1, h2, h5, ⟨h3, h4⟩ | ⟨h3, h4⟩⟩ := part_diag hs
  · exact conv_compact_none lhs hs h hF h1 h2 h3 h4 h5
  have hf : p.featureGroups = 1 := by
    rcases h.groups.2 with e | e
    · exact e
    · have := h.fdvd
      rw [c2, e] at this
      exact Nat.dvd_one.1 this
  have hb0 := h.groups.1.2
  have hr : p.rhsSpec.getD 0 0 < inp.length := by rw [h.lenI]; exact h.R.zero
  have hl0 : p.lhsSpec.getD 0 0 < lhs.shape.length := by rw [h.lenL]; exact h.L.zero
  have hO := h.outShape (lhs.shape.getD (p.lhsSpec.getD 0 0) 0 / p.batchGroups) (inp.getD (p.rhsSpec.getD 0 0) 0) (spatial p.rhsSpec inp)
  have hsp : spatial p.rhsSpec (inp.set (p.rhsSpec.getD 0 0) 1) = spatial p.rhsSpec inp := Emp.gather_set_off h.R.zero_notMem
  refine conv_compact_diag lhs hs h ?_ ?_ ?_ ?_ h1 h2 h3 h4 h5
  · refine ⟨h.L, h.R, h.O, by rw [List.length_set]; exact h.lenL, by rw [List.length_set]; exact h.lenI, ⟨⟨one_pos, one_pos⟩, Or.inl rfl⟩, ?_, one_dvd _, one_dvd _, one_dvd _⟩
    show (lhs.shape.set (p.lhsSpec.getD 0 0) 1).getD (p.lhsSpec.getD 1 0) 0 = 1 * (inp.set (p.rhsSpec.getD 0 0) 1).getD (p.rhsSpec.getD 1 0) 0
    rw [getD_set_ne h.L.ne.symm, getD_set_ne h.R.ne.symm, h.channels, hf]
  · rw [convOut, convOut, h.outShape_set_one]
    show p.outShape ((lhs.shape.set (p.lhsSpec.getD 0 0) 1).getD (p.lhsSpec.getD 0 0) 0 / 1) ((inp.set (p.rhsSpec.getD 0 0) 1).getD (p.rhsSpec.getD 0 0) 0)
      (lhs.shape.set (p.lhsSpec.getD 0 0) 1) (spatial p.rhsSpec (inp.set (p.rhsSpec.getD 0 0) 1)) = _
    rw [getD_set_self hl0, getD_set_self hr, hsp, c1, Nat.div_self hb0, Nat.div_one]
    exact outShape_set_off h h.L.zero_notMem
  · rw [c1, c2]
  · intro o i k ho hi e hk
    have hol : o.getD (p.outSpec.getD 1 0) 0 < inp.getD (p.rhsSpec.getD 0 0) 0 := by
      have := (inRange_iff.1 ho).2 (p.outSpec.getD 1 0) (by unfold convOut; rw [hO.1]; exact h.O.one)
      unfold convOut at this
      rwa [hO.2.2.1] at this
    have ho0 : o.getD (p.outSpec.getD 0 0) 0 = 0 := by
      have := (inRange_iff.1 ho).2 (p.outSpec.getD 0 0) (by unfold convOut; rw [hO.1]; exact h.O.zero)
      unfold convOut at this
      rw [hO.2.1, c1, Nat.div_self hb0] at this
      omega
    unfold convJac
    dsimp only
    rw [if_pos e, hf, Nat.div_one, Nat.div_eq_of_lt hol, Nat.zero_mul, Nat.zero_add, c1, c2, Nat.div_self hb0, Nat.div_one, Nat.mul_one, ho0, Nat.add_zero]
    refine (read_slices (B' := o.getD (p.outSpec.getD 1 0) 0) lhs h.L h.dims h.L.zero_notMem fun v hv => ?_).symm
    rw [addAt_single, (h.L.place_getD hv).1, hk, Nat.zero_add]
    refine h.L.ext (by rw [List.length_set]; exact h.L.place_length) h.L.place_length ?_ ?_ ?_
    · rw [getD_set_self (by rw [h.L.place_length]; exact h.L.zero), (h.L.place_getD hv).1]
    · rw [getD_set_ne h.L.ne.symm, (h.L.place_getD hv).2.1, (h.L.place_getD hv).2.1]
    · rw [(h.L.place_getD hv).2.2]
      exact (Emp.gather_set_off h.L.zero_notMem).trans (h.L.place_getD hv).2.2

/-- The structure of a convolution with a diagonal axis passes the checks. -/
lemma checked_diag {o a r : ℕ} {lhs inp out : List ℕ} (h1 : lhs.getD a 0 = out.getD o 0) (h2 : inp.getD r 0 = out.getD o 0) :
    checked { inDiagonal := [[some a, some r]], outDiagonal := [o] } 1 [lhs, inp] out = .ok { inDiagonal := [[some a, some r]], outDiagonal := [o] } := by
  unfold checked
  rw [if_neg (by simp), if_neg (by simp), if_neg (by simp [gather]), if_neg (by simp), if_pos]
  intro p hp
  obtain rfl := List.mem_singleton.1 hp
  refine ⟨rfl, by simp, fun ix hix i hi => ?_⟩
  have hix : ix < 2 := hix
  obtain rfl | rfl : ix = 0 ∨ ix = 1 := by omega
  · obtain rfl := Option.some.inj hi
    exact h1
  · obtain rfl := Option.some.inj hi
    exact h2

lemma convS_cases {p : ConvParams} {lhs inp : List ℕ} {s : Structure} (hS : convS p 1 lhs inp = .ok s) :
    (∃ a, s = { inDiagonal := [[some a, some (p.rhsSpec.getD 0 0)]], outDiagonal := [p.outSpec.getD 1 0] }) ∨
      s = { inTrace := [p.rhsSpec.getD 0 0], inTraceIdxs := [1], outTrace := [p.outSpec.getD 1 0] } ∨ s = {} := by
  unfold convS at hS
  rw [if_neg (by simp)] at hS
  split_ifs at hS
  · exact Or.inl ⟨_, (Except.ok.inj hS).symm⟩
  · exact Or.inl ⟨_, (Except.ok.inj hS).symm⟩
  · exact Or.inr (Or.inl (Except.ok.inj hS).symm)
  · exact Or.inr (Or.inr (Except.ok.inj hS).symm)

/-- The assertion of the structure rule holds. -/
lemma convS_ok {p : ConvParams} {lhs inp : List ℕ} (hv : p.Valid lhs inp) : ∃ s, convS p 1 lhs inp = .ok s := by
  have h := (convOk_of hv).channels
  unfold convS
  rw [if_neg (by simp)]
  split_ifs with c1 c2
  · exact ⟨_, rfl⟩
  · rw [c1.2, Nat.mul_one] at h
    exact absurd h c2
  · exact ⟨_, rfl⟩
  · exact ⟨_, rfl⟩
  · exact ⟨_, rfl⟩

/-- The rules of `conv_general_dilated`, for the filter. -/
lemma rules_conv [Field α] {p : ConvParams} (lhs : Arr α) {inp : List ℕ} {s : Structure} (hv : p.Valid lhs.shape inp) (hF : 0 < inp.getD (p.rhsSpec.getD 0 0) 0)
    (hS : convS p 1 lhs.shape inp = .ok s) :
    RulesOk (fun w => p.conv lhs w) (convRule p lhs.shape) s 1 [lhs.shape, inp] inp lhs (convOut p lhs.shape inp) (convJac p lhs inp) := by
  have h := convOk_of hv
  have hO := h.outShape (lhs.shape.getD (p.lhsSpec.getD 0 0) 0 / p.batchGroups) (inp.getD (p.rhsSpec.getD 0 0) 0) (spatial p.rhsSpec inp)
  have hlen : (convOut p lhs.shape inp).length = inp.length := hO.1
  have hfe : (convOut p lhs.shape inp).getD (p.outSpec.getD 1 0) 0 = inp.getD (p.rhsSpec.getD 0 0) 0 := hO.2.2.1
  obtain ⟨e1, e2, e3⟩ := convE_self lhs h hF
  have hfull : ∃ j, convRule p lhs.shape inp lhs (convOut p lhs.shape inp) = .ok j ∧ j.shape = convOut p lhs.shape inp ++ inp ∧
      ∀ o i, InRange o (convOut p lhs.shape inp) → InRange i inp → j.get (o ++ i) = convJac p lhs inp o i := by
    obtain ⟨j, j1, j2, j3⟩ := convJ_ok (out := convOut p lhs.shape inp) lhs e1 hlen
    rw [e2] at j2 j3
    exact ⟨j, j1, j2, fun o i ho hi => (j3 o i ho hi).trans (e3 o i ho hi)⟩
  have hjac := conv_jacobian lhs hv
  unfold convS at hS
  rw [if_neg (by simp)] at hS
  split_ifs at hS with c1 c2 c3 c4
  · obtain rfl := Except.ok.inj hS
    exact ⟨checked_diag (by rw [hfe, c2, c1.1]) hfe.symm, hjac, hfull, fun s' hs => conv_depthwise lhs h hF c1.1 c1.2 hs⟩
  · obtain rfl := Except.ok.inj hS
    exact ⟨checked_diag (by rw [hfe, c3.1, c3.2]) hfe.symm, hjac, hfull, fun s' hs => conv_batchwise lhs h hF c3.1 c3.2 hs⟩
  · obtain rfl := Except.ok.inj hS
    refine ⟨?_, hjac, hfull, fun s' hs => ?_⟩
    · unfold checked
      rw [if_neg (by simp), if_neg, if_neg, if_neg (by simp), if_pos (by simp)]
      · simp only [gather, List.map_cons, List.map_nil]
        rw [hfe]
        simp
      · rintro (⟨a, ha, h2⟩ | ⟨a, ha, h2⟩)
        · obtain rfl := List.mem_singleton.1 ha
          have := h.O.one
          omega
        · obtain rfl := List.mem_singleton.1 ha
          have := h.R.zero
          have h2 : inp.length ≤ p.rhsSpec.getD 0 0 := h2
          omega
    · have h3 : s'.outDiagonal = [] := by
        have := hs.diag
        rw [List.zip_nil_left, List.sublist_nil, List.zip_eq_nil_iff] at this
        rcases this with h | h
        · exact h
        · exact List.length_eq_zero_iff.1 (by rw [hs.diagLen, h]; rfl)
      have h4 : s'.inDiagonal = [] := List.length_eq_zero_iff.1 (by rw [← hs.diagLen, h3]; rfl)
      have h5 : s'.outBroadcast = [] := List.eq_nil_iff_forall_not_mem.2 fun x hx => by simpa using hs.broadcast x hx
      have htr : ∀ q ∈ tracePairs s', q = (p.outSpec.getD 1 0, p.rhsSpec.getD 0 0) := fun q hq => by simpa [tracePairs] using hs.trace q hq
      have f1 : (tracePairs s').map Prod.fst = s'.outTrace := List.map_fst_zip hs.traceLen.le
      have f2 : (tracePairs s').map Prod.snd = s'.inTrace := List.map_snd_zip hs.traceLen.ge
      by_cases h0 : tracePairs s' = []
      · rw [h0] at f1 f2
        exact conv_compact_none lhs hs h hF f1.symm f2.symm h3 h4 h5
      · obtain ⟨q, hq⟩ := List.exists_mem_of_ne_nil _ h0
        have hq' := htr q hq
        subst hq'
        refine conv_compact_trace lhs hs h c4.2 (c4.1.trans c4.2) (fun x => ?_) (fun x => ?_) (fun q' => ⟨htr q', fun e => e ▸ hq⟩) h3 h4 h5
        · rw [← f1]
          refine ⟨fun hx => ?_, fun hx => List.mem_map.2 ⟨_, hq, hx.symm⟩⟩
          obtain ⟨q', hq', rfl⟩ := List.mem_map.1 hx
          rw [htr q' hq']
        · rw [← f2]
          refine ⟨fun hx => ?_, fun hx => List.mem_map.2 ⟨_, hq, hx.symm⟩⟩
          obtain ⟨q', hq', rfl⟩ := List.mem_map.1 hx
          rw [htr q' hq']
  · obtain rfl := Except.ok.inj hS
    refine ⟨?_, hjac, hfull, fun s' hs => ?_⟩
    · unfold checked
      simp [gather]
    · have h3 : s'.outDiagonal = [] := by
        have := hs.diag
        rw [List.zip_nil_left, List.sublist_nil, List.zip_eq_nil_iff] at this
        rcases this with h | h
        · exact h
        · exact List.length_eq_zero_iff.1 (by rw [hs.diagLen, h]; rfl)
      have h4 : s'.inDiagonal = [] := List.length_eq_zero_iff.1 (by rw [← hs.diagLen, h3]; rfl)
      have h5 : s'.outBroadcast = [] := List.eq_nil_iff_forall_not_mem.2 fun x hx => by simpa using hs.broadcast x hx
      have h0 : tracePairs s' = [] := List.eq_nil_iff_forall_not_mem.2 fun x hx => by simpa [tracePairs] using hs.trace x hx
      have f1 : (tracePairs s').map Prod.fst = s'.outTrace := List.map_fst_zip hs.traceLen.le
      have f2 : (tracePairs s').map Prod.snd = s'.inTrace := List.map_snd_zip hs.traceLen.ge
      rw [h0] at f1 f2
      exact conv_compact_none lhs hs h hF f1.symm f2.symm h3 h4 h5

end NT.Rules
