import Verif.Tac
import Verif.Lemmas.NoneSelfErr

/-!
# Kernels of one input: the other layers
-/

namespace NT.NoneSelf
open NT NT.Network Arr

/-- Two computations raise together; if they return, their values are related. -/
def Sim {A B : Type} (R : A → B → Prop) : Except Err A → Except Err B → Prop
  | .ok a, .ok b => R a b
  | .error _, .error _ => True
  | _, _ => False

/-- The kernels of one input and its completion. -/
def Full (K K' : Kernel ℝ) : Prop := Bare K ∧ K' = ex K

lemma Sim.bind {A B C D : Type} {R : A → B → Prop} {S : C → D → Prop} {a : Except Err A} {b : Except Err B} {f : A → Except Err C} {g : B → Except Err D}
    (h : Sim R a b) (hf : ∀ x y, R x y → Sim S (f x) (g y)) : Sim S (a >>= f) (b >>= g) := by
  cases a <;> cases b <;> first | exact h.elim | trivial | exact hf _ _ h

lemma sim_same {A C D : Type} {S : C → D → Prop} {a : Except Err A} {f : A → Except Err C} {g : A → Except Err D}
    (hf : ∀ x, a = .ok x → Sim S (f x) (g x)) : Sim S (a >>= f) (a >>= g) := by
  cases a with
  | error e => trivial
  | ok x => exact hf x rfl

lemma sim_right {B C D : Type} {S : C → D → Prop} {a : Except Err C} {b : Except Err B} {x : B} {g : B → Except Err D} (e : b = .ok x)
    (h : Sim S a (g x)) : Sim S a (b >>= g) := by
  rw [e]
  exact h

lemma sim_left {A C D : Type} {S : C → D → Prop} {a : Except Err A} {x : A} {f : A → Except Err C} {b : Except Err D} (e : a = .ok x)
    (h : Sim S (f x) b) : Sim S (a >>= f) b := by
  rw [e]
  exact h

lemma sim_ite {A B : Type} {S : A → B → Prop} {c : Prop} {i j : Decidable c} {a a' : Except Err A} {b b' : Except Err B} (h : Sim S a b) (h' : Sim S a' b') :
    Sim S (@ite _ c i a a') (@ite _ c j b b') := by
  by_cases hc : c
  · rw [if_pos hc, if_pos hc]
    exact h
  · rw [if_neg hc, if_neg hc]
    exact h'

/-- Both runs of a layer. -/
def Sims (f : Kernel ℝ → Except Err (Kernel ℝ)) : Prop := ∀ k, Bare k → k.shape2 = k.shape1 → Sim Full (f k) (f (ex k))

lemma sims_of {f : Kernel ℝ → Except Err (Kernel ℝ)} (h : Keeps f) (h' : Raises f) : Sims f := by
  intro k hb _
  cases e : f k with
  | error e' =>
    obtain ⟨e2, q⟩ := h' k hb ⟨e', e⟩
    rw [q]
    trivial
  | ok K =>
    obtain ⟨b, q⟩ := h k K hb e
    rw [q]
    exact ⟨b, rfl⟩

lemma sims_convTranspose (d : ConvTranspose) : Sims d.kernelFn := by
  intro k hb _
  obtain ⟨nngp, ntk, cov1, cov2, same, ig, ir, ii, db, ds, s1, s2, ba, ca, m1, m2⟩ := k
  obtain ⟨h2, hm2⟩ := hb
  dsimp only at h2 hm2
  subst h2 hm2
  dsimp only [ConvTranspose.kernelFn, ex, Option.map]
  generalize d.conv.param = p
  cases p with
  | ntk => exact sim_same fun t _ => ⟨⟨rfl, rfl⟩, rfl⟩
  | standard => exact sim_same fun t _ => ⟨⟨rfl, rfl⟩, rfl⟩
  | other => trivial

lemma sims_flatten (d : Flatten) : Sims d.kernelFn := by
  intro k hb _
  obtain ⟨nngp, ntk, cov1, cov2, same, ig, ir, ii, db, ds, s1, s2, ba, ca, m1, m2⟩ := k
  obtain ⟨h2, hm2⟩ := hb
  dsimp only at h2 hm2
  subst h2 hm2
  dsimp only [Flatten.kernelFn, ex, Option.map]
  generalize d.axesOut = p
  cases p with
  | error => trivial
  | ok p => exact ⟨⟨rfl, rfl⟩, rfl⟩

lemma prods_sim {α γ : Type} {c : Arr α} {db ds : Bool} {op : α → α → γ} {f g : Arr α → Except Err (Arr α)} :
    Sim (fun r r' => r' = (r.1, r.2.1, r.1)) (getDiagonalOuterProds c none db ds op f g) (getDiagonalOuterProds c (some c) db ds op f f) := by
  simp only [getDiagonalOuterProds, getDiagonal?]
  cases e : getDiagonal c db ds with
  | error e' => trivial
  | ok d =>
    simp only [Except.map]
    refine sim_same fun x e1 => sim_right (x := some x) ?_ rfl
    rw [e1]

lemma sims_layerNorm (axis : List ℤ) (eps : ℝ) (bax cax : ℤ) : Sims (layerNormKernelFn axis eps bax cax) := by
  intro k hb _
  obtain ⟨nngp, ntk, cov1, cov2, same, ig, ir, ii, db, ds, s1, s2, ba, ca, m1, m2⟩ := k
  obtain ⟨h2, hm2⟩ := hb
  dsimp only at h2 hm2
  subst h2 hm2
  dsimp only [layerNormKernelFn, ex, Option.map]
  cases ig with
  | false => trivial
  | true =>
    refine sim_same fun ax _ => ?_
    by_cases hc : (cax % (s1.length : ℤ)).toNat ∉ ax
    · rw [if_pos hc, if_pos hc]
      trivial
    rw [if_neg hc, if_neg hc]
    refine sim_same fun x e1 => ?_
    refine sim_right e1 ?_
    change Sim _ (if _ then _ else _) (if _ then _ else _)
    split
    · refine Sim.bind prods_sim fun r r' hr => ?_
      subst hr
      obtain ⟨p11, p12, p22⟩ := r
      refine sim_same fun n _ => sim_same fun t _ => sim_same fun c e2 => sim_right (x := some c) ?_ ⟨⟨rfl, rfl⟩, rfl⟩
      simp only [divSqrt?, e2, Except.map]
    · trivial

lemma sims_dotGeneral (other : Arr ℝ) (isLhs : Bool) (iC oC iB oB : List ℤ) :
    Sims fun k => KernelDot.dotGeneral k (some other) (some other) isLhs iC oC iB oB := by
  intro k hb _
  obtain ⟨nngp, ntk, cov1, cov2, same, ig, ir, ii, db, ds, s1, s2, ba, ca, m1, m2⟩ := k
  obtain ⟨h2, hm2⟩ := hb
  dsimp only at h2 hm2
  subst h2 hm2
  dsimp only [KernelDot.dotGeneral, ex]
  split
  · trivial
  split
  · trivial
  refine sim_same fun c e1 => sim_right (x := some c) ?_ ?_
  · simp only [KernelDot.Dims.dot?, e1, Except.map]
  · exact sim_left (x := none) rfl (sim_same fun n _ => sim_same fun t _ => ⟨⟨rfl, rfl⟩, rfl⟩)

lemma sims_index (i : Utils.Idx) : Sims fun k => k.getItem i := by
  intro k hb _
  obtain ⟨nngp, ntk, cov1, cov2, same, ig, ir, ii, db, ds, s1, s2, ba, ca, m1, m2⟩ := k
  obtain ⟨h2, hm2⟩ := hb
  dsimp only at h2 hm2
  subst h2 hm2
  dsimp only [Kernel.getItem, ex, Kernel.spatialIdx]
  split
  · split
    · trivial
    split
    · trivial
    refine sim_same fun n _ => sim_same fun t _ => sim_same fun c e1 => sim_right (x := some c) ?_ ?_
    · simp only [Kernel.onOpt, e1, Except.map]
    refine sim_left (x := none) rfl (sim_same fun s1 _ => sim_same fun s2 _ => sim_same fun m e2 => sim_left (x := none) rfl ?_)
    exact sim_right (x := m) e2 ⟨⟨rfl, rfl⟩, rfl⟩
  · trivial

lemma sims_resize (d : ImageResize) : Sims d.kernelFn := by
  intro k hb hs
  obtain ⟨nngp, ntk, cov1, cov2, same, ig, ir, ii, db, ds, s1, s2, ba, ca, m1, m2⟩ := k
  obtain ⟨h2, hm2⟩ := hb
  dsimp only at h2 hm2 hs
  subst h2 hm2 hs
  dsimp only [ImageResize.kernelFn, ex]
  split
  · trivial
  split
  · trivial
  split
  · trivial
  refine sim_same fun t e1 => ?_
  rw [e1]
  refine sim_same fun t' e2 => ?_
  cases e2
  refine sim_same fun c e3 => sim_same fun n _ => sim_right (x := some c) ?_ ?_
  · simp only [ImageResize.resizeOpt, e3]
    rfl
  · exact sim_left (x := none) rfl (sim_same fun t _ => ⟨⟨rfl, rfl⟩, rfl⟩)

/-- The positional embeddings of one input and of its completion. -/
def PosPair (r r' : Option (Arr ℝ) × Option (Arr ℝ) × Option (Arr ℝ)) : Prop := r.2.2 = none ∧ r' = (r.1, r.2.1, r.1)

lemma pos_sim (l : Attention) (k : Kernel ℝ) (hb : Bare k) : Sim PosPair (l.allPosEmb k) (l.allPosEmb (ex k)) := by
  obtain ⟨nngp, ntk, cov1, cov2, same, ig, ir, ii, db, ds, s1, s2, ba, ca, m1, m2⟩ := k
  obtain ⟨h2, hm2⟩ := hb
  dsimp only at h2 hm2
  subst h2 hm2
  have key : ∀ {k k' : Kernel ℝ}, (∀ n, Kernel.maskProd k' m1 m1 n = Kernel.maskProd k m1 none n) → (∀ n, Kernel.maskProd k' m1 m1 n = Kernel.maskProd k m1 m1 n) →
      k'.batchNdim = k.batchNdim → Sim (fun x y => y = (x.1, x.2.1, x.1)) (Attention.maskProds k m1 none) (Attention.maskProds k' m1 m1) := by
    intro k k' e1 e2 e3
    simp only [Attention.maskProds]
    rw [e2, e3, e1]
    refine sim_same fun m11 e => ?_
    refine sim_left (x := m11) rfl ?_
    cases m1 with
    | none =>
      refine sim_right (x := m11) rfl ?_
      exact sim_same fun m12 _ => rfl
    | some m =>
      refine sim_right (x := m11) e ?_
      exact sim_same fun m12 _ => rfl
  unfold Attention.allPosEmb
  have fin : ∀ {f g : Option (Arr Bool) × Option (Arr Bool) × Option (Arr Bool) → Except Err (Option (Arr ℝ) × Option (Arr ℝ) × Option (Arr ℝ))} {k k' : Kernel ℝ},
      (∀ n, Kernel.maskProd k' m1 m1 n = Kernel.maskProd k m1 none n) → (∀ n, Kernel.maskProd k' m1 m1 n = Kernel.maskProd k m1 m1 n) →
      k'.batchNdim = k.batchNdim → (∀ a b c, Sim PosPair (f (a, b, c)) (g (a, b, a))) →
      Sim PosPair (Attention.maskProds k m1 none >>= f) (Attention.maskProds k' m1 m1 >>= g) := by
    intro f g k k' e1 e2 e3 h
    refine Sim.bind (key e1 e2 e3) fun x y h' => ?_
    subst h'
    exact h _ _ _
  cases l.posEmb with
  | none => exact ⟨rfl, rfl⟩
  | sum =>
    refine sim_same fun r _ => ?_
    dsimp only [ex]
    refine sim_ite (c := ir = true) ?_ ?_
    · refine sim_same fun r _ => ?_
      exact fin (fun n => maskProd_self _ _ _) (fun n => rfl) rfl fun _ _ _ => ⟨rfl, rfl⟩
    · refine sim_same fun r _ => ?_
      exact fin (fun n => maskProd_self _ _ _) (fun n => rfl) rfl fun _ _ _ => ⟨rfl, rfl⟩
  | concat =>
    refine sim_same fun r _ => ?_
    dsimp only [ex]
    refine sim_ite (c := ir = true) ?_ ?_
    · refine sim_same fun r _ => ?_
      exact fin (fun n => maskProd_self _ _ _) (fun n => rfl) rfl fun _ _ _ => ⟨rfl, rfl⟩
    · refine sim_same fun r _ => ?_
      exact fin (fun n => maskProd_self _ _ _) (fun n => rfl) rfl fun _ _ _ => ⟨rfl, rfl⟩

lemma sims_attention (l : Attention) : Sims l.kernelFn := by
  intro k hb _
  have hp := pos_sim l k hb
  unfold Attention.kernelFn
  split
  · unfold Attention.kernelLinear
    refine Sim.bind hp fun r r' hr => ?_
    obtain ⟨r1, r12, r2⟩ := r
    obtain ⟨rfl, rfl⟩ := hr
    obtain ⟨nngp, ntk, cov1, cov2, same, ig, ir, ii, db, ds, s1, s2, ba, ca, m1, m2⟩ := k
    obtain ⟨h2, hm2⟩ := hb
    dsimp only at h2 hm2
    subst h2 hm2
    obtain ⟨w, hw⟩ : ∃ w : ℝ × ℝ → Arr ℝ, ∀ c, Attention.weightedSum c (some cov1) r1 = some (w c) := by
      cases r1 with
      | none => exact ⟨fun _ => cov1, fun _ => rfl⟩
      | some r => exact ⟨_, fun _ => rfl⟩
    dsimp only [ex]
    rw [hw, hw]
    refine sim_same fun G1 e1 => sim_left (x := none) rfl (sim_right (x := some G1) ?_ ?_)
    · change (Attention.weighting l _ _ m1).map some = _
      exact congrArg (Except.map some) e1
    refine sim_same fun c e2 => ?_
    generalize l.valPosEmb = v at e2 ⊢
    cases v with
    | false =>
      refine sim_left (x := none) rfl (sim_right (x := some c) (congrArg (Except.map some) e2) ?_)
      refine sim_same fun n e3 => ?_
      exact sim_same fun t e4 => ⟨⟨rfl, rfl⟩, rfl⟩
    | true =>
      refine sim_left (x := none) rfl (sim_right (x := some c) (congrArg (Except.map some) e2) ?_)
      refine sim_same fun n e3 => ?_
      exact sim_same fun t e4 => ⟨⟨rfl, rfl⟩, rfl⟩
  split
  · unfold Attention.kernelSqrt
    refine Sim.bind hp fun r r' hr => ?_
    obtain ⟨r1, r12, r2⟩ := r
    obtain ⟨rfl, rfl⟩ := hr
    obtain ⟨nngp, ntk, cov1, cov2, same, ig, ir, ii, db, ds, s1, s2, ba, ca, m1, m2⟩ := k
    obtain ⟨h2, hm2⟩ := hb
    dsimp only at h2 hm2
    subst h2 hm2
    obtain ⟨w, hw⟩ : ∃ w : ℝ × ℝ → Arr ℝ, ∀ c, Attention.weightedSum c (some cov1) r1 = some (w c) := by
      cases r1 with
      | none => exact ⟨fun _ => cov1, fun _ => rfl⟩
      | some r => exact ⟨_, fun _ => rfl⟩
    dsimp only [ex]
    rw [hw, hw]
    refine sim_same fun d11 e1 => sim_same fun d12 e2 => sim_left (x := none) rfl (sim_right (x := some d11) ?_ ?_)
    · exact congrArg (Except.map some) e1
    exact sim_same fun t e4 => ⟨⟨rfl, rfl⟩, rfl⟩
  · trivial

/-! ### Networks -/

/-- `p` holds of every nonlinearity of the network. -/
def ActsAll (p : (Kernel ℝ → Except Err (Kernel ℝ)) → Prop) : Net → Prop
  | .layer (.act f) _ => p f
  | .layer _ _ => True
  | .fanOut _ => True
  | .fanIn _ _ => True
  | .seq a b => ActsAll p a ∧ ActsAll p b
  | .par n branches => ∀ i : Fin n, ActsAll p (branches i)

lemma sims_layer {l : Layer} {out : List ℕ → List ℕ} (hk : ActsAll Keeps (.layer l out)) (hr : ActsAll Raises (.layer l out)) : Sims l.kernelFn := by
  cases l with
  | dense d => exact sims_of (keeps_dense d) (raises_dense d)
  | conv d => exact sims_of (keeps_conv d) (raises_conv d)
  | convTranspose d => exact sims_convTranspose d
  | pool d => exact sims_of (keeps_pool d) raises_ok
  | globalPool d => exact sims_of (keeps_globalPool d) raises_ok
  | flatten d => exact sims_flatten d
  | dropout d => exact sims_of (keeps_dropout d) (raises_dropout d)
  | layerNorm a e b c => exact sims_layerNorm a e b c
  | act f => exact sims_of (keeps_elementwise hk) (raises_elementwise hr)
  | dotGeneral o l a b c d => exact sims_dotGeneral o l a b c d
  | index i => exact sims_index i
  | resize d => exact sims_resize d
  | attention d => exact sims_attention d
  | identity => exact sims_of keeps_identity (raises_ok (f := id))

lemma collect_sim {A B : Type} {R : A → B → Prop} : ∀ {n : ℕ} {f : Fin n → Except Err A} {g : Fin n → Except Err B}, (∀ i, Sim R (f i) (g i)) →
    Sim (List.Forall₂ R) (collect n f) (collect n g)
  | 0, f, g, _ => .nil
  | n + 1, f, g, h => by
    have h0 := h 0
    have ih := collect_sim (f := fun i => f i.succ) (g := fun i => g i.succ) fun i => h i.succ
    simp only [collect]
    generalize f 0 = a at h0 ⊢
    generalize g 0 = b at h0 ⊢
    generalize collect n (fun i => f i.succ) = c at ih ⊢
    generalize collect n (fun i => g i.succ) = d at ih ⊢
    cases a <;> cases b <;> first | exact h0.elim | trivial | skip
    cases c <;> cases d <;> first | exact ih.elim | trivial | skip
    exact .cons h0 ih

lemma rel_of_forall {R : Kernel ℝ → Kernel ℝ → Prop} {l l' : List (Vals (Kernel ℝ))} (h : List.Forall₂ (Rel R) l l') : Rel R (.many l) (.many l') :=
  .many _ _ h.length_eq fun _ h1 h2 => h.get h1 h2

lemma fan_sim (f : Fan) {ks : List (Kernel ℝ)} (hb : ∀ k ∈ ks, Bare k) : Sim Full (f.kernelFn ks) (f.kernelFn (ks.map ex)) := by
  cases e : f.kernelFn ks with
  | error e' =>
    obtain ⟨e2, q⟩ := fan_raises f hb ⟨e', e⟩
    rw [q]
    trivial
  | ok K =>
    obtain ⟨b, q⟩ := fan_keeps f hb e
    rw [q]
    exact ⟨b, rfl⟩

lemma run_sim : ∀ (net : Net), ActsAll Keeps net → ActsAll Raises net → ∀ {v v' : Vals (Kernel ℝ)}, Rel Pair v v' → Sim (Rel Pair) (net.run v) (net.run v') := by
  intro net
  induction net with
  | layer l out =>
    intro hk ha v v' hv
    cases hv with
    | many => trivial
    | one k k' hp =>
      obtain ⟨b, s, rfl⟩ := hp
      simp only [Net.run]
      have q := sims_layer hk ha k b s
      generalize l.kernelFn k = a at q ⊢
      generalize l.kernelFn (ex k) = a' at q ⊢
      cases a <;> cases a' <;> first | exact q.elim | trivial | skip
      obtain ⟨b', rfl⟩ := q
      refine .one _ _ ⟨⟨b'.cov2, b'.mask2⟩, ?_, rfl⟩
      change out k.shape2 = out k.shape1
      rw [s]
  | fanOut n =>
    intro _ _ v v' hv
    simp only [Net.run]
    exact rel_replicate hv n
  | fanIn f out =>
    intro _ _ v v' hv
    cases hv with
    | one => trivial
    | many l l' hl hr =>
      simp only [Net.run]
      cases e : Vals.ones l with
      | none =>
        rw [ones_none hl hr e]
        trivial
      | some ks =>
        obtain ⟨q, hb⟩ := ones_pair hl hr e
        rw [q]
        simp only
        have q := fan_sim f fun k hk => (hb k hk).1
        have es1 : (ks.map ex).map (·.shape1) = ks.map (·.shape1) := by
          rw [List.map_map]
          rfl
        have es2 : (ks.map ex).map (·.shape2) = ks.map (·.shape2) := by
          rw [List.map_map]
          rfl
        have es : ks.map (·.shape2) = ks.map (·.shape1) := List.map_congr_left fun k hk => (hb k hk).2
        generalize f.kernelFn ks = a at q ⊢
        generalize f.kernelFn (ks.map ex) = a' at q ⊢
        cases a <;> cases a' <;> first | exact q.elim | trivial | skip
        obtain ⟨b', rfl⟩ := q
        rw [es1, es2, es]
        exact .one _ _ ⟨⟨b'.cov2, b'.mask2⟩, rfl, rfl⟩
  | seq a b iha ihb =>
    intro hk ha v v' hv
    simp only [Net.run]
    have q := iha hk.1 ha.1 hv
    generalize a.run v = x at q ⊢
    generalize a.run v' = x' at q ⊢
    cases x <;> cases x' <;> first | exact q.elim | trivial | skip
    exact ihb hk.2 ha.2 q
  | par n branches ih =>
    intro hk ha v v' hv
    cases hv with
    | one => trivial
    | many l l' hl hr =>
      simp only [Net.run]
      by_cases hn : l.length = n
      · have hn' : l'.length = n := hl.symm.trans hn
        rw [dif_pos hn, dif_pos hn']
        have q := collect_sim (f := fun i => (branches i).run (l[i]'(by rw [hn]; exact i.2)))
          (g := fun i => (branches i).run (l'[i]'(by rw [hn']; exact i.2))) fun i =>
          ih i (hk i) (ha i) (hr i (by rw [hn]; exact i.2) (by rw [hn']; exact i.2))
        generalize collect n (fun i => (branches i).run (l[i]'(by rw [hn]; exact i.2))) = x at q ⊢
        generalize collect n (fun i => (branches i).run (l'[i]'(by rw [hn']; exact i.2))) = x' at q ⊢
        cases x <;> cases x' <;> first | exact q.elim | trivial | skip
        exact rel_of_forall q
      · rw [dif_neg hn, dif_neg fun h => hn (hl.trans h)]
        trivial

end NT.NoneSelf
