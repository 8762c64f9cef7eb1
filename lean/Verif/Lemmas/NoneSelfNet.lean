import Verif.Lemmas.NoneSelf
import Verif.Lemmas.Semantics
import Verif.Lemmas.Swap

/-!
# Networks on kernels of one input
-/

namespace NT.NoneSelf
open NT NT.Network Arr Masked Semantics

/-- A kernel of one input, and the same with `cov2` and `mask2` filled in. -/
def Pair (k k' : Kernel ℝ) : Prop := Bare k ∧ k.shape2 = k.shape1 ∧ k' = ex k

/-- Every nonlinearity of the layer satisfies `P`. -/
def LayerActs (P : (Kernel ℝ → Except Err (Kernel ℝ)) → Prop) : MLayer → Prop
  | .act f _ => P f
  | _ => True

/-- Every nonlinearity of the network satisfies `P`. -/
def Acts (P : (Kernel ℝ → Except Err (Kernel ℝ)) → Prop) : MNet → Prop
  | .layer l _ => LayerActs P l
  | .fanOut _ => True
  | .fanIn _ _ => True
  | .seq a b => Acts P a ∧ Acts P b
  | .par n branches => ∀ i : Fin n, Acts P (branches i)

lemma collect_inv {B : Type} : ∀ {n : ℕ} {f : Fin n → Except Err B} {r : List B}, collect n f = .ok r → ∃ g : Fin n → B, r = List.ofFn g ∧ ∀ i, f i = .ok (g i)
  | 0, f, r, h => ⟨fun i => i.elim0, by simpa [collect] using h.symm, fun i => i.elim0⟩
  | n + 1, f, r, h => by
    simp only [collect] at h
    cases e0 : f 0 with
    | error e => rw [e0] at h; cases h
    | ok b =>
      rw [e0] at h
      simp only at h
      cases e1 : collect n fun i => f i.succ with
      | error e => rw [e1] at h; cases h
      | ok bs =>
        rw [e1] at h
        cases h
        obtain ⟨g, rfl, hg⟩ := collect_inv e1
        exact ⟨Fin.cons b g, by simp [List.ofFn_succ], fun i => by refine Fin.cases ?_ (fun i => ?_) i <;> simp [e0, hg]⟩

lemma keeps_mlayer {l : MLayer} (hl : LayerActs Keeps l) : Keeps l.kernelFn := by
  cases l with
  | dense d => exact keeps_dense d
  | conv d => exact keeps_conv d
  | pool d => exact keeps_pool d
  | act f r => exact keeps_elementwise hl
  | dropout d => exact keeps_dropout d
  | identity => exact keeps_identity
  | globalPool d => exact keeps_globalPoolKernel d

lemma keeps_withMasking {l : MLayer} (hl : LayerActs Keeps l) : Keeps l.withMasking := by
  intro k K hb h
  simp only [MLayer.withMasking, hb.mask2] at h ⊢
  obtain ⟨m1, e1, h⟩ := bind_ok h
  obtain ⟨m2, e2, h⟩ := bind_ok h
  cases e2
  obtain ⟨k', e3, h⟩ := bind_ok h
  obtain ⟨b, q⟩ := keeps_mlayer hl k k' hb e3
  change Bare K ∧ (onMask l.maskFn k.mask1 >>= fun m1 => onMask l.maskFn k.mask1 >>= fun m2 => l.kernelFn (ex k) >>= fun k' =>
    if l.remask = true then k'.mask m1 m2 else .ok { k' with mask1 := m1, mask2 := m2 }) = _
  rw [e1, q]
  change Bare K ∧ (if l.remask = true then (ex k').mask m1 m1 else .ok { ex k' with mask1 := m1, mask2 := m1 }) = _
  split at h
  · rename_i hr
    rw [if_pos hr]
    exact mask_ex b h
  · rename_i hr
    rw [if_neg hr]
    cases h
    exact ⟨⟨b.cov2, rfl⟩, rfl⟩

lemma sum_none : ∀ l : List (Option (Arr Bool)), (∀ m ∈ l, m = none) → Masks.sumFrom none l = .ok none
  | [], _ => rfl
  | m :: l, h => by
    obtain rfl := h m (by simp)
    simp only [Masks.sumFrom, Masks.addTwo]
    exact sum_none l fun m hm => h m (by simp [hm])

lemma fanMask_none (f : Fan) {ms : List (Option (Arr Bool))} {ss : List (List ℕ)} {m : Option (Arr Bool)} (h : ∀ m ∈ ms, m = none)
    (e : fanMask f ms ss = .ok m) : m = none := by
  cases f with
  | sum =>
    have := (sum_none ms h).symm.trans e
    cases this
    rfl
  | prod =>
    have := (sum_none ms h).symm.trans e
    cases this
    rfl
  | concat axis =>
    cases ss with
    | nil => cases e
    | cons s ss =>
      simp only [fanMask, Masks.concat] at e
      split at e
      · cases e
      · cases e
        rfl

lemma fanWithMasking_ex (f : Fan) {ks : List (Kernel ℝ)} {K : Kernel ℝ} (hb : ∀ k ∈ ks, Bare k ∧ k.shape2 = k.shape1) (h : fanWithMasking f ks = .ok K) :
    Bare K ∧ fanWithMasking f (ks.map ex) = .ok (ex K) := by
  simp only [fanWithMasking] at h ⊢
  obtain ⟨m1, e1, h⟩ := bind_ok h
  obtain ⟨m2, e2, h⟩ := bind_ok h
  obtain ⟨k', e3, h⟩ := bind_ok h
  cases h
  obtain rfl := fanMask_none f (by
    intro m hm
    obtain ⟨k, hk, rfl⟩ := List.mem_map.mp hm
    exact (hb k hk).1.mask2) e2
  obtain ⟨b, q⟩ := fan_keeps f (fun k hk => (hb k hk).1) e3
  have es : (ks.map ex).map (·.shape2) = ks.map (·.shape1) := by
    rw [List.map_map]
    exact List.map_congr_left fun k hk => (hb k hk).2
  have es1 : (ks.map ex).map (·.shape1) = ks.map (·.shape1) := by
    rw [List.map_map]
    rfl
  have em : (ks.map ex).map (·.mask2) = ks.map (·.mask1) := by
    rw [List.map_map]
    rfl
  have em1 : (ks.map ex).map (·.mask1) = ks.map (·.mask1) := by
    rw [List.map_map]
    rfl
  rw [es, es1, em, em1, e1, q]
  exact ⟨⟨b.cov2, rfl⟩, rfl⟩

lemma ones_pair : ∀ {l l' : List (Vals (Kernel ℝ))} {ks : List (Kernel ℝ)}, l.length = l'.length →
    (∀ (i : ℕ) (h1 : i < l.length) (h2 : i < l'.length), Rel Pair (l[i]'h1) (l'[i]'h2)) → Vals.ones l = some ks →
    Vals.ones l' = some (ks.map ex) ∧ ∀ k ∈ ks, Bare k ∧ k.shape2 = k.shape1
  | [], l', ks, hl, _, h => by
    cases h
    obtain rfl : l' = [] := List.eq_nil_of_length_eq_zero hl.symm
    simp [Vals.ones]
  | v :: l, l', ks, hl, hr, h => by
    cases l' with
    | nil => simp at hl
    | cons v' l' =>
      have h0 := hr 0 (by simp) (by simp)
      simp only [List.getElem_cons_zero] at h0
      cases h0 with
      | many => simp [Vals.ones] at h
      | one k k' hp =>
        obtain ⟨b, s, rfl⟩ := hp
        simp only [Vals.ones, Option.map_eq_some_iff] at h
        obtain ⟨ks', e, rfl⟩ := h
        obtain ⟨q, hq⟩ := ones_pair (by simpa using hl) (fun i h1 h2 => by
          have := hr (i + 1) (by simpa using h1) (by simpa using h2)
          simpa using this) e
        simp only [Vals.ones, q, Option.map_some, List.map_cons, true_and]
        intro k hk
        rcases List.mem_cons.mp hk with rfl | hk
        · exact ⟨b, s⟩
        · exact hq k hk

lemma run_pair : ∀ (net : MNet), Acts Keeps net → ∀ {v v' w : Vals (Kernel ℝ)}, Rel Pair v v' → net.run v = .ok w →
    ∃ w', net.run v' = .ok w' ∧ Rel Pair w w' := by
  intro net
  induction net with
  | layer l out =>
    intro ha v v' w hv h
    cases hv with
    | many => cases h
    | one k k' hp =>
      obtain ⟨b, s, rfl⟩ := hp
      simp only [MNet.run] at h ⊢
      cases e : l.withMasking k with
      | error e' => rw [e] at h; cases h
      | ok K =>
        rw [e] at h
        cases h
        obtain ⟨bK, q⟩ := keeps_withMasking ha k K b e
        rw [q]
        refine ⟨_, rfl, .one _ _ ⟨⟨bK.cov2, bK.mask2⟩, by simp [setShapes, s], rfl⟩⟩
  | fanOut n =>
    intro _ v v' w hv h
    cases h
    exact ⟨_, rfl, rel_replicate hv n⟩
  | fanIn f out =>
    intro _ v v' w hv h
    cases hv with
    | one => cases h
    | many l l' hl hr =>
      simp only [MNet.run] at h ⊢
      cases e : Vals.ones l with
      | none => rw [e] at h; cases h
      | some ks =>
        rw [e] at h
        obtain ⟨q, hb⟩ := ones_pair hl hr e
        rw [q]
        simp only at h ⊢
        cases e1 : fanWithMasking f ks with
        | error e' => rw [e1] at h; cases h
        | ok K =>
          rw [e1] at h
          cases h
          obtain ⟨bK, q1⟩ := fanWithMasking_ex f hb e1
          have es : ks.map (·.shape2) = ks.map (·.shape1) := List.map_congr_left fun k hk => (hb k hk).2
          rw [q1]
          refine ⟨_, rfl, .one _ _ ⟨⟨bK.cov2, bK.mask2⟩, by simp [setShapes, es], ?_⟩⟩
          simp only [List.map_map]
          rfl
  | seq a b iha ihb =>
    intro ha v v' w hv h
    simp only [MNet.run] at h ⊢
    cases e : a.run v with
    | error e' => rw [e] at h; cases h
    | ok u =>
      rw [e] at h
      obtain ⟨u', q, hu⟩ := iha ha.1 hv e
      rw [q]
      exact ihb ha.2 hu h
  | par n branches ih =>
    intro ha v v' w hv h
    cases hv with
    | one => cases h
    | many l l' hl hr =>
      simp only [MNet.run] at h ⊢
      split at h
      · rename_i hn
        rw [dif_pos (hl.symm.trans hn)]
        cases e : collect n fun i => (branches i).run (l[i]'(by rw [hn]; exact i.2)) with
        | error e' => rw [e] at h; cases h
        | ok r =>
          rw [e] at h
          cases h
          obtain ⟨g, rfl, hg⟩ := collect_inv e
          choose g' hg' hgr using fun i : Fin n => ih i (ha i) (hr i (by rw [hn]; exact i.2) (by rw [← hl, hn]; exact i.2)) (hg i)
          have q : collect n (fun i => (branches i).run (l'[i]'(by rw [← hl, hn]; exact i.2))) = .ok (List.ofFn g') := collect_ok hg'
          rw [q]
          exact ⟨_, rfl, rel_many hgr⟩
      · cases h

end NT.NoneSelf
