import Verif.Props.C97
import Verif.Lemmas.Resize

/-!
# C98: a transposed convolution is the adjoint of a convolution
-/

namespace NT.C98
open NT Arr Kernel Spec

/-- The mirrored filter offset. -/
def flip (F f : List ℕ) : List ℕ := List.zipWith (fun w k => w - 1 - k) F f

lemma box_sum_flip : ∀ (F : List ℕ) (G : List ℕ → ℝ), ∑ f ∈ box F, G (flip F f) = ∑ f ∈ box F, G f := by
  intro F
  induction F with
  | nil =>
    intro G
    refine Finset.sum_congr rfl fun f hf => ?_
    rw [mem_box, inRange_nil_right] at hf
    subst hf
    rfl
  | cons w F ih =>
    intro G
    rw [box_sum_cons, box_sum_cons]
    have : ∀ t, ∑ q ∈ box F, G (flip (w :: F) (t :: q)) = ∑ q ∈ box F, G ((w - 1 - t) :: q) := fun t =>
      ih fun q => G ((w - 1 - t) :: q)
    simp only [this]
    exact Finset.sum_range_reflect (fun t => ∑ q ∈ box F, G (t :: q)) w

lemma inRange_flip : ∀ {F f : List ℕ}, InRange f F → InRange (flip F f) F := by
  intro F
  induction F with
  | nil => intro f h; rw [inRange_nil_right] at h; subst h; exact List.Forall₂.nil
  | cons w F ih =>
    intro f h
    cases f with
    | nil => simpa using h.length
    | cons k f =>
      rw [inRange_cons] at h
      show InRange ((w - 1 - k) :: flip F f) (w :: F)
      rw [inRange_cons]
      exact ⟨by omega, ih h.2⟩

lemma flip_flip : ∀ {F f : List ℕ}, InRange f F → flip F (flip F f) = f := by
  intro F
  induction F with
  | nil => intro f h; rw [inRange_nil_right] at h; subst h; rfl
  | cons w F ih =>
    intro f h
    cases f with
    | nil => simpa using h.length
    | cons k f =>
      rw [inRange_cons] at h
      show (w - 1 - (w - 1 - k)) :: flip F (flip F f) = k :: f
      rw [ih h.2]
      congr 1
      omega

lemma outDim_up (pad : Padding) (n w s : ℕ) (hn : 0 < n) (hw : 0 < w) (hs : 0 < s) : outDim pad (upDim pad n w s) w s = n := by
  obtain ⟨m, rfl⟩ : ∃ m, n = m + 1 := ⟨n - 1, by omega⟩
  have e : (m + 1) * s = m * s + s := by ring
  have key : ∀ r, r < s → (m * s + r) / s = m := by
    intro r hr
    rw [Nat.add_comm, Nat.add_mul_div_right _ _ hs, Nat.div_eq_of_lt hr, Nat.zero_add]
  have same : ((m + 1) * s + s - 1) / s = m + 1 := by
    rw [show (m + 1) * s + s - 1 = (s - 1) + (m + 1) * s by omega, Nat.add_mul_div_right _ _ hs, Nat.div_eq_of_lt (by omega), Nat.zero_add]
  cases pad with
  | valid =>
    show (if w ≤ (m + 1) * s + (w - s) then ((m + 1) * s + (w - s) - w) / s + 1 else 0) = m + 1
    rw [if_pos (by rw [e]; omega)]
    by_cases h : w ≤ s
    · rw [show (m + 1) * s + (w - s) - w = m * s + (s - w) by rw [e]; omega, key _ (by omega)]
    · rw [show (m + 1) * s + (w - s) - w = m * s + 0 by rw [e]; omega, key _ (by omega)]
  | same => exact same
  | circular => exact same

lemma leftPad_up (pad : Padding) (hp : pad ≠ .valid) (n w s : ℕ) (hn : 0 < n) (hw : 0 < w) (hs : 0 < s) :
    leftPad pad (upDim pad n w s) w s = ((w - s) / 2 : ℕ) := by
  have h := outDim_up pad n w s hn hw hs
  have hu : upDim pad n w s = n * s := by cases pad <;> simp_all [upDim]
  have : leftPad pad (upDim pad n w s) w s = max 0 (((outDim pad (upDim pad n w s) w s : ℤ) - 1) * s + w - (upDim pad n w s : ℕ)) / 2 := by
    cases pad <;> simp_all [leftPad]
  rw [this, h, hu]
  have e : ((n : ℤ) - 1) * s + w - (n * s : ℕ) = w - s := by push_cast; ring
  rw [e]
  omega

/-- The reads of a transposed convolution are those of the convolution, backwards. -/
lemma upPos_adj (pad : Padding) (n w s o f i : ℕ) (hw : 0 < w) (hs : 0 < s) (ho : o < upDim pad n w s) (hi : i < n) (hf : f < w) :
    upPos pad n (w, s) o f = some i ↔ readPos pad (upDim pad n w s) w s i (w - 1 - f) = some o := by
  have hn : 0 < n := by omega
  have his : i * s + s ≤ n * s := by
    calc i * s + s = (i + 1) * s := by ring
      _ ≤ n * s := Nat.mul_le_mul_right _ hi
  have e0 : ((w - 1 - f : ℕ) : ℤ) = w - 1 - f := by omega
  -- the left side
  have left : ∀ z : ℤ, ((if 0 ≤ z ∧ z < (n * s : ℕ) ∧ (s : ℤ) ∣ z then some (z / s).toNat else none) = some i ↔ z = (i * s : ℕ)) := by
    intro z
    constructor
    · intro h
      split_ifs at h with c
      obtain ⟨c1, c2, ⟨t, rfl⟩⟩ := c
      have hs' : (s : ℤ) ≠ 0 := by positivity
      rw [Int.mul_ediv_cancel_left _ hs', Option.some.injEq] at h
      have ht : 0 ≤ t := by
        by_contra hneg
        have : (s : ℤ) * t < 0 := mul_neg_of_pos_of_neg (by positivity) (by omega)
        omega
      push_cast
      rw [← h, Int.toNat_of_nonneg ht, mul_comm]
    · rintro rfl
      have hs' : (s : ℤ) ≠ 0 := by positivity
      rw [if_pos ⟨by positivity, by exact_mod_cast (by omega : i * s < n * s), ⟨i, by push_cast; ring⟩⟩]
      push_cast
      rw [Int.mul_ediv_cancel _ hs']
      rfl
  have right : ∀ (z : ℤ) (N : ℕ), ((if 0 ≤ z ∧ z < N then some z.toNat else none) = some o ↔ z = o ∧ z < N) := by
    intro z N
    constructor
    · intro h
      split_ifs at h with c
      rw [Option.some.injEq] at h
      omega
    · rintro ⟨rfl, h⟩
      rw [if_pos ⟨by positivity, h⟩]
      rfl
  cases pad with
  | valid =>
    simp only [upPos, readPos, upShift, reduceCtorEq, if_false]
    rw [left, right, e0]
    simp only [upDim, leftPad] at ho ⊢
    push_cast
    omega
  | same =>
    simp only [upPos, readPos, upShift, reduceCtorEq, if_false]
    rw [left, right, e0, leftPad_up .same (by simp) n w s hn hw hs]
    simp only [upDim] at ho ⊢
    have e1 : ((w - 1 - (w - s) / 2 : ℕ) : ℤ) = w - 1 - ((w - s) / 2 : ℕ) := by omega
    rw [e1]
    generalize (w - s) / 2 = l
    push_cast
    omega
  | circular =>
    simp only [upPos, readPos, upShift, if_true]
    rw [left, e0, leftPad_up .circular (by simp) n w s hn hw hs]
    simp only [upDim] at ho ⊢
    have e1 : ((w - 1 - (w - s) / 2 : ℕ) : ℤ) = w - 1 - ((w - s) / 2 : ℕ) := by omega
    rw [e1]
    set l : ℤ := (((w - s) / 2 : ℕ) : ℤ)
    have hN : (0 : ℤ) < (n * s : ℕ) := by exact_mod_cast (by omega : 0 < n * s)
    have hi' : ((i * s : ℕ) : ℤ) % (n * s : ℕ) = (i * s : ℕ) :=
      Int.emod_eq_of_lt (by positivity) (by exact_mod_cast (by omega : i * s < n * s))
    have ho' : (o : ℤ) % (n * s : ℕ) = o := Int.emod_eq_of_lt (by positivity) (by exact_mod_cast ho)
    have r : (∀ a : ℤ, some (a % (n * s : ℕ)).toNat = some o ↔ a % (n * s : ℕ) = o) := by
      intro a
      have := Int.emod_nonneg a hN.ne'
      rw [Option.some.injEq]
      omega
    rw [r]
    constructor
    · intro h
      rw [← ho']
      rw [← hi'] at h
      have h2 : ((n * s : ℕ) : ℤ) ∣ (o + f - (w - 1 - l)) - (i * s : ℕ) := Int.ModEq.dvd (Int.ModEq.symm h)
      apply Int.ModEq.symm
      apply (Int.modEq_iff_dvd).2
      have : (i : ℤ) * s + (w - 1 - f) - l - o = -((o + f - (w - 1 - l)) - (i * s : ℕ)) := by push_cast; ring
      rw [this]
      exact (dvd_neg).2 h2
    · intro h
      rw [← hi']
      rw [← ho'] at h
      have h2 : ((n * s : ℕ) : ℤ) ∣ (i * s + (w - 1 - f) - l) - o := Int.ModEq.dvd (Int.ModEq.symm h)
      apply Int.ModEq.symm
      apply (Int.modEq_iff_dvd).2
      have : (o : ℤ) + f - (w - 1 - l) - (i * s : ℕ) = -((i * s + (w - 1 - f) - l) - o) := by push_cast; ring
      rw [this]
      exact (dvd_neg).2 h2

lemma outDims_up (pad : Padding) : ∀ (S : List ℕ) (ws : List (ℕ × ℕ)), PosDims S → PosWin ws → S.length = ws.length →
    outDims pad (upDims pad S ws) ws = S := by
  intro S
  induction S with
  | nil => intro ws _ _ _; cases ws <;> rfl
  | cons n S ih =>
    intro ws hS hw hl
    cases ws with
    | nil => simp at hl
    | cons v ws =>
      obtain ⟨w, s⟩ := v
      have hv := hw (w, s) (by simp)
      show outDim pad (upDim pad n w s) w s :: outDims pad (upDims pad S ws) ws = n :: S
      rw [outDim_up pad n w s (hS n (by simp)) hv.1 hv.2,
        ih ws (fun m hm => hS m (by simp [hm])) (fun v hv => hw v (by simp [hv])) (by simpa using hl)]

lemma upIdx_adj (pad : Padding) : ∀ (S : List ℕ) (ws : List (ℕ × ℕ)) (q p f : List ℕ), PosWin ws → S.length = ws.length →
    InRange q (upDims pad S ws) → InRange p S → InRange f (ws.map Prod.fst) →
    (upIdx pad S ws q f = some p ↔ readIdx pad (upDims pad S ws) ws p (flip (ws.map Prod.fst) f) = some q) := by
  intro S
  induction S with
  | nil =>
    intro ws q p f _ hl hq hp hf
    obtain rfl := List.length_eq_zero_iff.1 hl.symm
    obtain rfl := List.length_eq_zero_iff.1 hq.length
    obtain rfl := List.length_eq_zero_iff.1 hp.length
    obtain rfl := List.length_eq_zero_iff.1 hf.length
    exact Iff.rfl
  | cons n S ih =>
    intro ws q p f hw hl hq hp hf
    cases ws with
    | nil => simp at hl
    | cons v ws =>
    obtain ⟨w, s⟩ := v
    have hv := hw (w, s) (by simp)
    cases q with
    | nil => simpa [upDims] using hq.length
    | cons o q =>
    cases p with
    | nil => simpa using hp.length
    | cons i p =>
    cases f with
    | nil => simpa using hf.length
    | cons g f =>
      rw [show upDims pad (n :: S) ((w, s) :: ws) = upDim pad n w s :: upDims pad S ws from rfl] at hq ⊢
      rw [inRange_cons] at hq hp
      rw [List.map_cons, inRange_cons] at hf
      have h1 := upPos_adj pad n w s o g i hv.1 hv.2 hq.1 hp.1 hf.1
      have h2 := ih ws q p f (fun v hv => hw v (by simp [hv])) (by simpa using hl) hq.2 hp.2 hf.2
      unfold upIdx at h2 ⊢
      show (match upPos pad n (w, s) o g, alongAxes (upPos pad) S ws q f with
        | some p, some r => some (p :: r)
        | _, _ => none) = some (i :: p) ↔
        (match readPos pad (upDim pad n w s) w s i (w - 1 - g), readIdx pad (upDims pad S ws) ws p (flip (ws.map Prod.fst) f) with
        | some p, some r => some (p :: r)
        | _, _ => none) = some (o :: q)
      have aux : ∀ (a : Option ℕ) (b : Option (List ℕ)) (c : ℕ) (r : List ℕ), (match a, b with
        | some p, some r => some (p :: r)
        | _, _ => none) = some (c :: r) ↔ a = some c ∧ b = some r := by
        intro a b c r
        cases a <;> cases b <;> simp
      rw [aux, aux, h1, h2]

/-- The reads of one filter entry, summed against any function. -/
lemma sum_adj (pad : Padding) (S : List ℕ) (ws : List (ℕ × ℕ)) (hw : PosWin ws) (hS : PosDims S) (hl : S.length = ws.length)
    (f : List ℕ) (hf : InRange f (ws.map Prod.fst)) (X Y : List ℕ → ℝ) :
    ∑ q ∈ box (upDims pad S ws), readTap X (upIdx pad S ws q f) * Y q =
      ∑ p ∈ box S, X p * readTap Y (readIdx pad (upDims pad S ws) ws p (flip (ws.map Prod.fst) f)) := by
  have e1 : ∀ q, readTap X (upIdx pad S ws q f) * Y q = ∑ p ∈ box S, if upIdx pad S ws q f = some p then X p * Y q else 0 := by
    intro q
    cases e : upIdx pad S ws q f with
    | none => simp [readTap]
    | some p =>
      have hp := upIdx_inRange pad _ _ _ _ _ e
      simp only [Option.some.injEq, Finset.sum_ite_eq, mem_box, hp, if_true, readTap]
  have e2 : ∀ p ∈ box S, X p * readTap Y (readIdx pad (upDims pad S ws) ws p (flip (ws.map Prod.fst) f)) =
      ∑ q ∈ box (upDims pad S ws), if readIdx pad (upDims pad S ws) ws p (flip (ws.map Prod.fst) f) = some q then X p * Y q else 0 := by
    intro p hp
    rw [mem_box] at hp
    cases e : readIdx pad (upDims pad S ws) ws p (flip (ws.map Prod.fst) f) with
    | none => simp [readTap]
    | some q =>
      have hq := readIdx_inRange pad (upDims pad S ws) ws p _ q hw (by rw [upDims_length _ _ _ hl, hl])
        (by rw [outDims_up pad S ws hS hw hl]; exact hp) e
      simp only [Option.some.injEq, Finset.sum_ite_eq, mem_box, hq, if_true, readTap]
  rw [Finset.sum_congr rfl fun q _ => e1 q, Finset.sum_congr rfl e2, Finset.sum_comm]
  refine Finset.sum_congr rfl fun p hp => Finset.sum_congr rfl fun q hq => ?_
  rw [mem_box] at hp hq
  have := upIdx_adj pad S ws q p f hw hl hq hp hf
  by_cases h : upIdx pad S ws q f = some p
  · rw [if_pos h, if_pos (this.1 h)]
  · rw [if_neg h, if_neg (fun h' => h (this.2 h'))]

/-- The factor that a layer with `C` input channels applies to its filters. -/
noncomputable def factor (d : Conv) (C : ℕ) : ℝ :=
  if d.param = .standard then 1 / Real.sqrt d.s.1 else d.wStd / Real.sqrt (C * (d.filter.map Prod.fst).prod : ℕ)

/-- `W'` is `W` with mirrored filter positions and swapped channels. -/
def Mirrored (F : List ℕ) (C D : ℕ) (W W' : Arr ℝ) : Prop :=
  W.shape = F ++ [C, D] ∧ W'.shape = F ++ [D, C] ∧
    ∀ f a b, InRange f F → a < C → b < D → W'.get (f ++ [b, a]) = W.get (flip F f ++ [a, b])

/-- **A transposed convolution is the adjoint of the convolution.**  Let `ConvTranspose` and `Conv` have the same filter
sizes, strides, padding and axes, and let the filters of the second be those of the first, mirrored and with input and
output channels swapped.  Then the output of `ConvTranspose` on `x` has the shape of the inputs of `Conv` whose outputs
have the shape of `x`, and `⟨ConvTranspose x, y⟩ = ⟨x, Conv y⟩` for all `x`, `y`, up to the factors that the layers
apply to their filters. -/
theorem adjoint (t : ConvTranspose) (c : Conv) (ht : t.conv.param ≠ .other) (hc : c.param ≠ .other) (hsh : c.sharedWeights = true)
    (e1 : c.filter = t.conv.filter) (e2 : c.padding = t.conv.padding) (e3 : c.batchAxis = t.conv.batchAxis)
    (e4 : c.channelAxis = t.conv.channelAxis) (hw : ∀ v ∈ c.filter, 0 < v.1 ∧ 0 < v.2) (S : List ℕ) (hS : ∀ n ∈ S, 0 < n)
    (hl : S.length = c.filter.length) (hB : c.batchAxis < S.length + 2) (hA : c.channelAxis < S.length + 2)
    (hne : c.batchAxis ≠ c.channelAxis) (n C D : ℕ) (W W' x y : Arr ℝ)
    (hW : Mirrored (c.filter.map Prod.fst) C D W W') (hx : x.shape = actIdx c.batchAxis c.channelAxis n C S)
    (hy : y.shape = actIdx c.batchAxis c.channelAxis n D (upDims c.padding S c.filter)) :
    ∃ u v, t.apply W none x = .ok u ∧ c.apply W' none y = .ok v ∧ u.shape = y.shape ∧ v.shape = x.shape ∧
      factor c D * ∑ i ∈ box y.shape, u.get i * y.get i = factor t.conv C * ∑ i ∈ box x.shape, x.get i * v.get i := by
  obtain ⟨hW1, hW2, hW3⟩ := hW
  obtain ⟨u, hu, hus, hug⟩ := C97.apply_ok t ht (by rw [← e1]; exact hw) W x none n C D S hS (by rw [← e1]; exact hl)
    (by rw [← e3]; exact hB) (by rw [← e4]; exact hA) (by rw [← e3, ← e4]; exact hne) (by rw [← e1]; exact hW1)
    (by rw [← e3, ← e4]; exact hx) (by simp)
  have lu : (upDims c.padding S c.filter).length = S.length := upDims_length _ _ _ hl
  obtain ⟨v, hv, hvs, hvg⟩ := C53.apply_ok c hc hsh hw W' y none n D C (upDims c.padding S c.filter) (by rw [lu, hl])
    (by rw [lu]; exact hB) (by rw [lu]; exact hA) hne hW2 hy (by simp)
  rw [outDims_up c.padding S c.filter hS hw hl] at hvs hvg
  rw [← e1, ← e2, ← e3, ← e4] at hus
  rw [← e1, ← e2, ← e3, ← e4] at hug
  refine ⟨u, v, hu, hv, by rw [hus, hy], by rw [hvs, hx], ?_⟩
  set B := c.batchAxis
  set A := c.channelAxis
  set ws := c.filter with hws
  set pad := c.padding
  set F := ws.map Prod.fst with hF
  set O := upDims pad S ws with hO
  have g1 : (C53.toDense t.conv).gain (t.conv.fanIn C) = factor t.conv C := rfl
  have g2 : (C53.toDense c).gain (c.fanIn D) = factor c D := rfl
  rw [g1] at hug
  rw [g2] at hvg
  simp only [Dense.biasTerm, add_zero] at hug hvg
  rw [hy, hx, box_sum_actIdx B A n D O hne (by omega) (by omega), box_sum_actIdx B A n C S hne hB hA, Finset.mul_sum, Finset.mul_sum]
  refine Finset.sum_congr rfl fun i hi => ?_
  rw [Finset.mem_range] at hi
  have split : ∀ (G : List ℕ → ℝ) (K : ℕ), ∑ g ∈ box (F ++ [K]), G g = ∑ f ∈ box F, ∑ k ∈ Finset.range K, G (f ++ [k]) := by
    intro G K
    rw [box_sum_append]
    exact Finset.sum_congr rfl fun f _ => box_sum_singleton K _
  have tk : ∀ f ∈ box F, ∀ k, (f ++ [k]).take ws.length = f ∧ (f ++ [k]).getD ws.length 0 = k := by
    intro f hf k
    rw [mem_box] at hf
    have lf : f.length = ws.length := by rw [hf.length, hF]; simp
    exact ⟨by rw [← lf]; simp, by rw [← lf]; exact getD_append_len f [k] 0 0⟩
  -- the left side
  have L : ∀ o ∈ Finset.range D, ∑ q ∈ box O, u.get (actIdx B A i o q) * y.get (actIdx B A i o q) =
      factor t.conv C * ∑ a ∈ Finset.range C, ∑ f ∈ box F, W.get (f ++ [a, o]) *
        ∑ q ∈ box O, readTap (fun p => x.get (actIdx B A i a p)) (upIdx pad S ws q f) * y.get (actIdx B A i o q) := by
    intro o ho
    rw [Finset.mem_range] at ho
    have h1 : ∀ q ∈ box O, u.get (actIdx B A i o q) * y.get (actIdx B A i o q) = factor t.conv C *
        ∑ f ∈ box F, ∑ a ∈ Finset.range C, W.get (f ++ [a, o]) * (readTap (fun p => x.get (actIdx B A i a p)) (upIdx pad S ws q f) *
          y.get (actIdx B A i o q)) := by
      intro q hq
      rw [mem_box] at hq
      rw [hug i o q hi ho hq, split, mul_assoc, Finset.sum_mul]
      congr 1
      refine Finset.sum_congr rfl fun f hf => ?_
      rw [Finset.sum_mul]
      refine Finset.sum_congr rfl fun a _ => ?_
      rw [(tk f hf a).1, (tk f hf a).2, List.append_assoc, mul_assoc]
      rfl
    rw [Finset.sum_congr rfl h1, ← Finset.mul_sum]
    congr 1
    rw [Finset.sum_comm, Finset.sum_comm (s := Finset.range C)]
    refine Finset.sum_congr rfl fun f _ => ?_
    rw [Finset.sum_comm]
    refine Finset.sum_congr rfl fun a _ => ?_
    rw [Finset.mul_sum]
  -- the right side
  have R : ∀ a ∈ Finset.range C, ∑ p ∈ box S, x.get (actIdx B A i a p) * v.get (actIdx B A i a p) =
      factor c D * ∑ o ∈ Finset.range D, ∑ f ∈ box F, W.get (f ++ [a, o]) *
        ∑ p ∈ box S, x.get (actIdx B A i a p) * readTap (fun q => y.get (actIdx B A i o q)) (readIdx pad O ws p (flip F f)) := by
    intro a ha
    rw [Finset.mem_range] at ha
    have h1 : ∀ p ∈ box S, x.get (actIdx B A i a p) * v.get (actIdx B A i a p) = factor c D *
        ∑ f ∈ box F, ∑ o ∈ Finset.range D, W.get (flip F f ++ [a, o]) * (x.get (actIdx B A i a p) *
          readTap (fun q => y.get (actIdx B A i o q)) (readIdx pad O ws p f)) := by
      intro p hp
      rw [mem_box] at hp
      rw [hvg i a p hi ha hp, split, mul_left_comm, Finset.mul_sum]
      congr 1
      refine Finset.sum_congr rfl fun f hf => ?_
      rw [Finset.mul_sum]
      refine Finset.sum_congr rfl fun o ho => ?_
      rw [Finset.mem_range] at ho
      rw [(tk f hf o).1, (tk f hf o).2, List.append_assoc, mul_left_comm]
      congr 1
      exact hW3 f a o (mem_box.1 hf) ha ho
    rw [Finset.sum_congr rfl h1, ← Finset.mul_sum]
    congr 1
    rw [Finset.sum_comm, Finset.sum_comm (s := Finset.range D), ← box_sum_flip]
    refine Finset.sum_congr rfl fun f hf => ?_
    rw [mem_box] at hf
    rw [Finset.sum_comm, flip_flip hf]
    refine Finset.sum_congr rfl fun o _ => ?_
    rw [Finset.mul_sum]
  rw [Finset.sum_congr rfl L, Finset.sum_congr rfl R, ← Finset.mul_sum, ← Finset.mul_sum, Finset.sum_comm, mul_left_comm]
  congr 2
  refine Finset.sum_congr rfl fun a _ => Finset.sum_congr rfl fun o _ => Finset.sum_congr rfl fun f hf => ?_
  rw [mem_box] at hf
  rw [sum_adj pad S ws hw hS hl f hf]

/-- In the standard parameterization with equal width factors the layers are adjoint without any factor. -/
theorem adjoint_standard (t : ConvTranspose) (c : Conv) (ht : t.conv.param = .standard) (hc : c.param = .standard)
    (hs : c.s = t.conv.s) (h0 : 0 < c.s.1) (hsh : c.sharedWeights = true)
    (e1 : c.filter = t.conv.filter) (e2 : c.padding = t.conv.padding) (e3 : c.batchAxis = t.conv.batchAxis)
    (e4 : c.channelAxis = t.conv.channelAxis) (hw : ∀ v ∈ c.filter, 0 < v.1 ∧ 0 < v.2) (S : List ℕ) (hS : ∀ n ∈ S, 0 < n)
    (hl : S.length = c.filter.length) (hB : c.batchAxis < S.length + 2) (hA : c.channelAxis < S.length + 2)
    (hne : c.batchAxis ≠ c.channelAxis) (n C D : ℕ) (W W' x y : Arr ℝ)
    (hW : Mirrored (c.filter.map Prod.fst) C D W W') (hx : x.shape = actIdx c.batchAxis c.channelAxis n C S)
    (hy : y.shape = actIdx c.batchAxis c.channelAxis n D (upDims c.padding S c.filter)) :
    ∃ u v, t.apply W none x = .ok u ∧ c.apply W' none y = .ok v ∧ u.shape = y.shape ∧ v.shape = x.shape ∧
      ∑ i ∈ box y.shape, u.get i * y.get i = ∑ i ∈ box x.shape, x.get i * v.get i := by
  obtain ⟨u, v, h1, h2, h3, h4, h5⟩ := adjoint t c (by simp [ht]) (by simp [hc]) hsh e1 e2 e3 e4 hw S hS hl hB hA hne n C D W W' x y hW hx hy
  refine ⟨u, v, h1, h2, h3, h4, ?_⟩
  have f1 : factor t.conv C = factor c D := by simp [factor, ht, hc, hs]
  have f2 : factor c D ≠ 0 := by
    unfold factor
    rw [if_pos hc]
    have := Real.sqrt_pos.2 (Nat.cast_pos.2 h0 : (0 : ℝ) < c.s.1)
    positivity
  rw [f1] at h5
  exact mul_left_cancel₀ f2 h5

section Example

/-- Positions `[5, 3]`, filter `[3, 2]`, strides `[2, 1]`, from 2 channels to 1, any padding and any values. -/
example (pad : Padding) (w x y : List ℕ → ℝ) :
    ∃ u v, (C97.exD pad).apply ⟨[3, 2, 2, 1], w⟩ none ⟨[2, 5, 3, 2], x⟩ = .ok u ∧
      (C53.exD pad).apply ⟨[3, 2, 1, 2], fun i => w (flip [3, 2] (i.take 2) ++ [i.getD 3 0, i.getD 2 0])⟩ none
        ⟨actIdx 0 3 2 1 (upDims pad [5, 3] [(3, 2), (2, 1)]), y⟩ = .ok v ∧ v.shape = [2, 5, 3, 2] ∧
      ∑ i ∈ box u.shape, u.get i * y i = ∑ i ∈ box [2, 5, 3, 2], x i * v.get i := by
  obtain ⟨u, v, h1, h2, h3, h4, h5⟩ := adjoint_standard (C97.exD pad) (C53.exD pad) rfl rfl rfl (by simp [C53.exD]) rfl rfl rfl rfl rfl
    (by simp [C53.exD]) [5, 3] (by simp) rfl (by simp [C53.exD]) (by simp [C53.exD]) (by simp [C53.exD]) 2 2 1
    ⟨[3, 2, 2, 1], w⟩ ⟨[3, 2, 1, 2], fun i => w (flip [3, 2] (i.take 2) ++ [i.getD 3 0, i.getD 2 0])⟩
    ⟨[2, 5, 3, 2], x⟩ ⟨actIdx 0 3 2 1 (upDims pad [5, 3] [(3, 2), (2, 1)]), y⟩
    ⟨rfl, rfl, by
      intro f a b hf _ _
      have := hf.length
      obtain ⟨f1, f2, rfl⟩ := List.length_eq_two.1 this
      rfl⟩ rfl rfl
  exact ⟨u, v, h1, h2, h4, by rw [h3]; exact h5⟩

end Example

end NT.C98
