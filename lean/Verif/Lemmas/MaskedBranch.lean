import Verif.Tac
import Verif.Lemmas.MaskedApply2
import Verif.Spec.MaskedBranch

/-!
# Branches of finite networks on padded batches
-/

namespace NT.Masked
open NT NT.Network Arr Spec

lemma clip_eq (s i : List ℕ) : Masks.clip i s = bcastIdx s i := by
  unfold Masks.clip bcastIdx
  rw [List.zipWith_comm]

/-- The broadcast size. -/
def wider (m n : ℕ) : ℕ := if m = n ∨ n = 1 then m else n

lemma bcast_zip : ∀ {s t : List ℕ}, s.length = t.length → (∀ v ∈ s.zip t, v.1 = v.2 ∨ v.1 = 1 ∨ v.2 = 1) → Masks.bcast s t = some (List.zipWith wider s t)
  | [], [], _, _ => rfl
  | [], _ :: _, h, _ => by simp at h
  | _ :: _, [], h, _ => by simp at h
  | m :: s, n :: t, h, hv => by
    have ih := bcast_zip (s := s) (t := t) (by simpa using h) fun v hv' => hv v (by simp [hv'])
    have h0 := hv (m, n) (by simp)
    simp only [Masks.bcast, ih, List.zipWith_cons_cons, wider]
    dsimp only at h0
    split_ifs with h1 h2
    · rfl
    · rfl
    · omega

lemma wider_self (s : List ℕ) : List.zipWith wider s s = s := by
  simp [wider]

lemma bcast_self (s : List ℕ) : Masks.bcast s s = some s := by
  rw [bcast_zip rfl, wider_self]
  intro v hv
  left
  obtain ⟨k, hk, rfl⟩ := List.mem_iff_getElem.1 hv
  simp

lemma zip_act {B A a b a' b' : ℕ} {S T : List ℕ} (hl : S.length = T.length) : (actIdx B A a b S).zip (actIdx B A a' b' T) = actIdx B A (a, a') (b, b') (S.zip T) :=
  zipWith_act _ B A a b a' b' S T hl

/-- The conjunction of two masks of the same padding. -/
lemma and_ok {a b : Arr Bool} {B A n k k' C : ℕ} {S : List ℕ} {len : ℕ → List ℕ} (ha : MaskOf a B A n k S len) (hb : MaskOf b B A n k' S len)
    (h1 : k = 1 ∨ k = C) (h2 : k' = 1 ∨ k' = C) (p1 : 0 < k) (p2 : 0 < k') : ∃ m, Masks.andB a b = .ok m ∧ MaskOf m B A n (max k k') S len := by
  have hz : ∀ v ∈ (actIdx B A n k S).zip (actIdx B A n k' S), v.1 = v.2 ∨ v.1 = 1 ∨ v.2 = 1 := by
    rw [zip_act rfl]
    intro v hv
    rcases act_mem hv with rfl | rfl | hv
    · exact .inl rfl
    · dsimp only; omega
    · obtain ⟨j, hj, rfl⟩ := List.mem_iff_getElem.1 hv
      simp
  have e : List.zipWith wider (actIdx B A n k S) (actIdx B A n k' S) = actIdx B A n (max k k') S := by
    rw [zipWith_act _ _ _ _ _ _ _ _ _ rfl, wider_self]
    congr 1
    · simp [wider]
    · unfold wider; split <;> omega
  have hl : (actIdx B A n k S).length = (actIdx B A n k' S).length := by
    unfold actIdx
    split <;> simp only [List.length_insertIdx]
  unfold Masks.andB
  rw [ha.shape, hb.shape, bcast_zip hl hz, e]
  refine ⟨_, rfl, rfl, fun i hi c hc p hp => ?_⟩
  obtain ⟨c1, q1, e1⟩ := bcastIdx_act (B := B) (A := A) (mc := k) (c := max k k') (by omega) hi hc hp
  obtain ⟨c2, q2, e2⟩ := bcastIdx_act (B := B) (A := A) (mc := k') (c := max k k') (by omega) hi hc hp
  simp only [clip_eq, e1, e2, ha.get i hi c1 q1 p hp, hb.get i hi c2 q2 p hp, Bool.and_self]

lemma binary_ok (op : ℝ → ℝ → ℝ) {x y : Arr ℝ} (h : y.shape = x.shape) :
    ∃ z, binary op x y = .ok z ∧ z.shape = x.shape ∧ ∀ j, InRange j x.shape → z.get j = op (x.get j) (y.get j) := by
  unfold binary
  rw [h, bcast_self]
  refine ⟨_, rfl, rfl, fun j hj => ?_⟩
  simp only [clip_eq, bcastIdx_self hj]

variable {f : Format} {n i : ℕ} {S : List ℕ} {len : ℕ → List ℕ}

lemma op_zero (fan : AFan) : fan.op 0 0 = 0 := by cases fan <;> simp [AFan.op]

/-- The sum or product of two branches. -/
lemma pair_ok (fan : AFan) {k k' : ℕ} {X X' Y Y' : Arr ℝ} {m m' : Arr Bool} (hi : i < n) (hf : ({ f with maskChannels := k } : Format).Ok)
    (hf' : ({ f with maskChannels := k' } : Format).Ok) (h : In { f with maskChannels := k } n i S len X m Y) (h' : In { f with maskChannels := k' } n i S len X' m' Y') :
    ({ f with maskChannels := max k k' } : Format).Ok ∧ ∃ Z M W, binary fan.op X X' = .ok Z ∧ Masks.andB m m' = .ok M ∧ binary fan.op Y Y' = .ok W ∧
      In { f with maskChannels := max k k' } n i S len Z M W := by
  obtain ⟨h1, h2, h3, h4, h5⟩ := hf
  obtain ⟨-, -, -, h4', h5'⟩ := hf'
  dsimp only at h1 h2 h3 h4 h5 h4' h5'
  have r1 : S.length = f.rank := h.rank
  have r2 : (len i).length = f.rank := h.toOut.rank' hi
  obtain ⟨M, m1, m2⟩ := and_ok h.mask h'.mask h4 h4' h5 h5'
  have hs := h.shape
  have ha := h.alone
  dsimp only at hs ha
  obtain ⟨Z, z1, z2, z3⟩ := binary_ok fan.op (h'.shape.trans h.shape.symm)
  obtain ⟨W, w1, w2, w3⟩ := binary_ok fan.op (h'.alone.trans h.alone.symm)
  have zr : ∀ {j c p}, j < n → c < f.channels → InRange p S → InRange (actIdx f.batchAxis f.channelAxis j c p) X.shape := fun hj hc hp => by
    rw [hs]; exact C82.inRange_act h1 (by omega) (by omega) hj hc hp
  refine ⟨⟨h1, h2, h3, ?_, ?_⟩, Z, M, W, z1, m1, w1, ⟨⟨z2.trans h.shape, m2, w2.trans h.alone, fun c hc p hp => ?_, r1, h.fits⟩, fun j hj c hc p hp hn => ?_⟩⟩
  · dsimp only; omega
  · dsimp only; omega
  · dsimp only at hc ⊢
    rw [z3 _ (zr hi hc (inRange_le hp (h.fits i hi))), w3 _ (by rw [ha]; exact C82.inRange_act h1 (by omega) (by omega) Nat.one_pos hc hp)]
    exact congrArg₂ _ (h.same c hc p hp) (h'.same c hc p hp)
  · dsimp only at hc ⊢
    rw [z3 _ (zr hj hc hp)]
    exact (congrArg₂ _ (h.zero j hj c hc p hp hn) (h'.zero j hj c hc p hp hn)).trans (op_zero fan)

/-- A branch: masked activations, their mask, and those of the example alone. -/
structure Branch (f : Format) (n i : ℕ) (S : List ℕ) (len : ℕ → List ℕ) (k : ℕ) (b : Arr ℝ × Arr Bool × Arr ℝ) : Prop where
  ok : ({ f with maskChannels := k } : Format).Ok
  inp : In { f with maskChannels := k } n i S len b.1 b.2.1 b.2.2

/-- The sum or product of several branches. -/
lemma fold_ok (fan : AFan) (hi : i < n) : ∀ {ks : List ℕ} {bs : List (Arr ℝ × Arr Bool × Arr ℝ)} {k : ℕ} {b : Arr ℝ × Arr Bool × Arr ℝ},
    Branch f n i S len k b → List.Forall₂ (Branch f n i S len) ks bs → ∃ b', Branch f n i S len (ks.foldl max k) b' ∧
      foldArrs fan.op b.1 (bs.map (·.1)) = .ok b'.1 ∧ Masks.sumFrom (some b.2.1) (bs.map fun b => some b.2.1) = .ok (some b'.2.1) ∧
      foldArrs fan.op b.2.2 (bs.map (·.2.2)) = .ok b'.2.2 := by
  intro ks bs k b hb hbs
  induction hbs generalizing k b with
  | nil => exact ⟨b, hb, rfl, rfl, rfl⟩
  | @cons k' c ks bs hc _ ih =>
    obtain ⟨o, Z, M, W, z1, z2, z3, z4⟩ := pair_ok fan hi hb.ok hc.ok hb.inp hc.inp
    obtain ⟨b', p1, p2, p3, p4⟩ := ih (k := max k k') (b := (Z, M, W)) ⟨o, z4⟩
    refine ⟨b', p1, ?_, ?_, ?_⟩
    · simp only [List.map_cons, foldArrs, z1]
      exact p2
    · simp only [List.map_cons, Masks.sumFrom, Masks.addTwo, z2, Except.map]
      exact p3
    · simp only [List.map_cons, foldArrs, z3]
      exact p4

end NT.Masked
