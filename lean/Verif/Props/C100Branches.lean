import Verif.Tac
import Verif.Lemmas.MaskedConcat
import Verif.Lemmas.Semantics
import Verif.Props.C100

/-!
# C100: finite networks with branches ignore padding
-/

namespace NT.C100
open NT NT.Network NT.Semantics Arr Spec Masked

/-- Activations of the given format, of the padded batch and of the example alone: the input of the network, or masked activations. -/
structure Leaf (mc : ℝ) (x y : Arr ℝ) (f0 : Format) (n i : ℕ) (S : List ℕ) (len : ℕ → List ℕ) (f : Format) (a b : Arg) : Prop where
  ok : f.Ok
  rank : f.rank ≤ S.length
  agree : ∃ X m Y, getMaskedArray (some mc) a = ⟨X, some m⟩ ∧ b = .array Y ∧ In f n i (S.take f.rank) (fun j => (len j).take f.rank) X m Y ∧
    (a = .array x ∧ b = .array y ∧ f = f0 ∨ ∃ X', a = .masked ⟨X', some m⟩ ∧ Out f n i (S.take f.rank) (fun j => (len j).take f.rank) X' m Y)

/-- Values passed between layers, in the two runs. -/
inductive Agree (L : Format → Arg → Arg → Prop) : Vals Format → Vals Arg → Vals Arg → Prop
  | one {f : Format} {a b : Arg} : L f a b → Agree L (.one f) (.one a) (.one b)
  | many {l : List (Vals Format)} {la lb : List (Vals Arg)} (h1 : la.length = l.length) (h2 : lb.length = l.length) :
      (∀ k (h : k < l.length), Agree L l[k] la[k] lb[k]) → Agree L (.many l) (.many la) (.many lb)

variable {mc : ℝ} {x y : Arr ℝ} {f0 : Format} {n i : ℕ} {S : List ℕ} {len : ℕ → List ℕ}

lemma leaf_layer (hi : i < n) (hpos : ∀ j < n, 0 ∉ len j) {l : ALayer} {f g : Format} (hl : Accepts l f g) {a b : Arg} (h : Leaf mc x y f0 n i S len f a b) :
    ∃ a' b', l.applyWithMasking (some mc) a = .ok a' ∧ l.applyWithMasking none b = .ok b' ∧ Leaf mc x y f0 n i S len g a' b' := by
  obtain ⟨hf, hr, X, m, Y, e1, rfl, hin, -⟩ := h
  obtain ⟨hg, hgr⟩ := accepts_ok hl hf
  obtain ⟨X', m', Y', ⟨t1, t2, t3⟩, o⟩ := apply_step hl hf hin hi fun j hj h0 => hpos j hj (List.mem_of_mem_take h0)
  simp only [List.take_take, Nat.min_eq_left hgr] at o
  refine ⟨.masked ⟨X', some m'⟩, .array Y', ?_, ?_, hg, hgr.trans hr, _, m', Y', rfl, rfl, o.remask hg hi, .inr ⟨X', rfl, o⟩⟩
  · simp only [ALayer.applyWithMasking, e1, t1, onMask, t2]
    rfl
  · simp only [ALayer.applyWithMasking]
    rw [show getMaskedArray none (.array Y) = ⟨Y, none⟩ from rfl]
    simp only [t3, onMask]
    rfl

/-- The branches of a fan-in layer. -/
lemma branches {R : ℕ} : ∀ {fs : List Format} {la lb : List (Vals Arg)} (h1 : la.length = fs.length) (h2 : lb.length = fs.length), (∀ g ∈ fs, g.rank = R) →
    (∀ k (h : k < fs.length), Agree (Leaf mc x y f0 n i S len) (.one fs[k]) la[k] lb[k]) →
    ∃ as Ys bs, Vals.ones la = some as ∧ Vals.ones lb = some (Ys.map Arg.array) ∧
      List.Forall₂ (Piece n i (S.take R) fun j => (len j).take R) fs bs ∧ (fs ≠ [] → R ≤ S.length) ∧
      as.map (fun a => (getMaskedArray (some mc) a).value) = bs.map (·.1) ∧ as.map (fun a => (getMaskedArray (some mc) a).mask) = bs.map (fun b => some b.2.1) ∧
      Ys = bs.map (·.2.2)
  | [], [], [], _, _, _, _ => ⟨[], [], [], rfl, rfl, .nil, fun h => absurd rfl h, rfl, rfl, rfl⟩
  | g :: fs, va :: la, vb :: lb, h1, h2, hR, h => by
    obtain ⟨as, Ys, bs, q1, q2, q3, -, q5, q6, q7⟩ := branches (fs := fs) (la := la) (lb := lb) (by simpa using h1) (by simpa using h2)
      (fun g hg => hR g (by simp [hg])) fun j hj => h (j + 1) (Nat.succ_lt_succ hj)
    have h0 := h 0 (by simp)
    simp only [List.getElem_cons_zero] at h0
    have hg := hR g (by simp)
    subst hg
    cases h0 with
    | @one _ a _ hl =>
      obtain ⟨hf, hr, X, m, Y, e1, rfl, hin, -⟩ := hl
      refine ⟨a :: as, Y :: Ys, (X, m, Y) :: bs, ?_, ?_, .cons ⟨hf, hin⟩ q3, fun _ => hr, ?_, ?_, ?_⟩
      · simp only [Vals.ones, q1, Option.map_some]
      · simp only [Vals.ones, q2, Option.map_some, List.map_cons]
      · simp only [List.map_cons, e1, q5]
      · simp only [List.map_cons, e1, q6]
      · simp only [List.map_cons, q7]
  | [], _ :: _, _, h1, _, _, _ => by simp at h1
  | [], [], _ :: _, _, h2, _, _ => by simp at h2
  | _ :: _, [], _, h1, _, _, _ => by simp at h1
  | _ :: _, _ :: _, [], _, h2, _, _ => by simp at h2

lemma sumFrom_none : ∀ l : List (Arr ℝ), Masks.sumFrom none (l.map fun _ => none) = .ok none
  | [] => rfl
  | _ :: l => by
    simp only [List.map_cons, Masks.sumFrom, Masks.addTwo]
    exact sumFrom_none l

lemma values_alone (l : List (Arr ℝ)) : ((l.map Arg.array).map (getMaskedArray none)).map (·.value) = l := by
  rw [List.map_map, List.map_map]; exact List.map_id l

lemma masks_alone (l : List (Arr ℝ)) : ((l.map Arg.array).map (getMaskedArray none)).map (·.mask) = l.map fun _ => none := by
  rw [List.map_map, List.map_map]; rfl

lemma concat_none (l : List (Arr ℝ)) (shapes : List (List ℕ)) (a : ℕ) (h : l.length = shapes.length) :
    Masks.concat (l.map fun _ => none) shapes a = .ok none := by
  unfold Masks.concat
  rw [if_neg (by simpa using h), if_pos (by simp)]

lemma run_net (hi : i < n) (hpos : ∀ j < n, 0 ∉ len j) {N : ANet} {u v : Vals Format} (h : AcceptsNet N u v) :
    ∀ {a b}, Agree (Leaf mc x y f0 n i S len) u a b → ∃ a' b', N.run (some mc) a = .ok a' ∧ N.run none b = .ok b' ∧ Agree (Leaf mc x y f0 n i S len) v a' b' := by
  induction h with
  | layer hl =>
    intro a b h
    cases h with
    | one h =>
      obtain ⟨a', b', e1, e2, e3⟩ := leaf_layer hi hpos hl h
      exact ⟨.one a', .one b', by simp only [ANet.run, e1], by simp only [ANet.run, e2], .one e3⟩
  | @fanOut k v =>
    intro a b h
    refine ⟨.many (List.replicate k a), .many (List.replicate k b), rfl, rfl, .many (by simp) (by simp) fun j hj => ?_⟩
    simpa using h
  | @fanIn fan f k ks =>
    intro a b h
    cases h with
    | many h1 h2 h =>
      rename_i la lb
      obtain ⟨as, Ys, bs, q1, q2, q3, q4, q5, q6, q7⟩ := branches (R := f.rank) (fs := (k :: ks).map fun k => { f with maskChannels := k }) (la := la) (lb := lb)
        (by simpa using h1) (by simpa using h2) (by simp) fun j hj => by
          have := h j (by simpa using hj)
          rw [List.getElem_map] at this
          rwa [List.getElem_map]
      rw [List.forall₂_map_left_iff] at q3
      cases q3 with
      | @cons _ b0 _ bs hb hbs =>
        obtain ⟨b', p1, p2, p3, p4⟩ := fold_ok fan hi (f := f) ⟨hb.ok, hb.inp⟩ (hbs.imp fun _ _ h => ⟨h.ok, h.inp⟩)
        refine ⟨.one (.masked ⟨b'.1, some b'.2.1⟩), .one (.array b'.2.2), ?_, ?_, .one ⟨p1.ok, q4 (by simp), _, b'.2.1, b'.2.2, rfl, rfl,
          p1.inp.toOut.remask p1.ok hi, .inr ⟨b'.1, rfl, p1.inp.toOut⟩⟩⟩
        · simp only [ANet.run, q1, AFan.applyWithMasking, List.map_map, Function.comp_def]
          rw [q5, q6]
          simp only [AFan.apply, List.map_cons, p2, Masks.sum, Masks.sumFrom, Masks.addTwo]
          simp only [p3]
          rfl
        · simp only [ANet.run, q2, AFan.applyWithMasking, values_alone, masks_alone, q7]
          simp only [AFan.apply, List.map_cons, p4, Masks.sum, Masks.sumFrom, Masks.addTwo, sumFrom_none]
          rfl
  | @concat axis f v vs hlo hhi hax hpos' =>
    intro a b h
    cases h with
    | many h1 h2 h =>
      rename_i la lb
      obtain ⟨as, Ys, bs, q1, q2, q3, q4, q5, q6, q7⟩ := branches (R := f.rank) (fs := (v :: vs).map fun w => { f with channels := w.1, maskChannels := w.2 })
        (la := la) (lb := lb) (by simpa using h1) (by simpa using h2) (by intro g hg; obtain ⟨w, -, rfl⟩ := List.mem_map.1 hg; rfl) fun j hj => by
          have := h j (by simpa using hj)
          rw [List.getElem_map] at this
          rwa [List.getElem_map]
      rw [List.forall₂_map_left_iff] at q3
      obtain ⟨b', p1, p2, p3, p4⟩ := cat_ok hi (List.cons_ne_nil v vs) hpos' q3
      obtain ⟨b0, bs0, rfl, d1, d2⟩ : ∃ b0 bs0, bs = b0 :: bs0 ∧ b0.1.ndim = f.rank + 2 ∧ b0.2.2.ndim = f.rank + 2 := by
        cases q3 with
        | @cons _ b0 _ bs0 hb _ =>
          obtain ⟨⟨g1, g2, g3, -, -⟩, hin⟩ := hb
          have r1 := hin.rank
          have r2 := hin.toOut.rank' hi
          dsimp only at g1 g2 g3 r1 r2
          refine ⟨b0, bs0, rfl, ?_, ?_⟩
          · unfold Arr.ndim
            rw [hin.shape, actIdx_length _ _ _ _ _ g1 (by omega) (by omega), r1]
          · unfold Arr.ndim
            rw [hin.alone, actIdx_length _ _ _ _ _ g1 (by omega) (by omega), r2]
      have ax : ∀ (z : Arr ℝ) zs, z.ndim = f.rank + 2 → concatAxisOf axis (z :: zs) = .ok f.channelAxis := fun z zs hz => by
        simp only [concatAxisOf]
        rw [hz, if_pos ⟨hlo, hhi⟩, hax, Int.toNat_natCast]
      have q8 : as.map (fun a => (getMaskedArray (some mc) a).value.shape) = (b0 :: bs0).map (·.1.shape) := by
        have := congrArg (List.map Arr.shape) q5
        rwa [List.map_map, List.map_map] at this
      refine ⟨.one (.masked ⟨b'.1, some b'.2.1⟩), .one (.array b'.2.2), ?_, ?_, .one ⟨p1.ok, q4 (by simp), _, b'.2.1, b'.2.2, rfl, rfl,
          p1.inp.toOut.remask p1.ok hi, .inr ⟨b'.1, rfl, p1.inp.toOut⟩⟩⟩
      · simp only [ANet.run, q1, concatWithMasking, List.map_map, Function.comp_def]
        rw [q5, q6, q8]
        rw [List.map_cons, ax _ _ d1, ← List.map_cons (f := fun b : Arr ℝ × Arr Bool × Arr ℝ => b.1)]
        simp only [bind, Except.bind, p2, p3]
        rfl
      · simp only [ANet.run, q2, concatWithMasking, values_alone, masks_alone, q7]
        rw [List.map_cons, ax _ _ d2, ← List.map_cons (f := fun b : Arr ℝ × Arr Bool × Arr ℝ => b.2.2)]
        simp only [bind, Except.bind, p4]
        rw [concat_none]
        · rfl
        · simp
  | seq _ _ ih1 ih2 =>
    intro a b h
    obtain ⟨a', b', e1, e2, e3⟩ := ih1 h
    obtain ⟨a'', b'', f1, f2, f3⟩ := ih2 e3
    exact ⟨a'', b'', by simp only [ANet.run, e1, f1], by simp only [ANet.run, e2, f2], f3⟩
  | @par k branches u v _ ih =>
    intro a b h
    cases h with
    | many h1 h2 h =>
      rename_i la lb
      have k1 : la.length = k := by simpa using h1
      have k2 : lb.length = k := by simpa using h2
      have each : ∀ j : Fin k, ∃ a' b', (branches j).run (some mc) (la[j.1]'(by rw [k1]; exact j.2)) = .ok a' ∧
          (branches j).run none (lb[j.1]'(by rw [k2]; exact j.2)) = .ok b' ∧ Agree (Leaf mc x y f0 n i S len) (v j) a' b' := fun j =>
        ih j (by simpa using h j.1 (by simp))
      choose a' b' e1 e2 e3 using each
      refine ⟨.many (List.ofFn a'), .many (List.ofFn b'), ?_, ?_, .many (by simp) (by simp) fun j hj => by simpa using e3 ⟨j, by simpa using hj⟩⟩
      · simp only [ANet.run]
        rw [dif_pos k1]
        simp only [Fin.getElem_fin]
        rw [collect_ok e1]
      · simp only [ANet.run]
        rw [dif_pos k2]
        simp only [Fin.getElem_fin]
        rw [collect_ok e2]

/-- As `finite_network_padding_partial`, for networks with branches of any depth (`FanOut`, `parallel`, `FanInSum`, `FanInProd`, `FanInConcat`
along the channels), for example residual connections: unless the network has no layers and returns its inputs unchanged, `apply_fn(params, x, mask_constant=m)` returns a `MaskedArray` whose mask marks exactly the
padding, and whose entries for example `i` are those which `apply_fn(params, y)` returns for the example alone; `unmask_fn(apply_fn)` returns the same
entries and zeros at the padding. -/
theorem branched_network_padding_partial (m : ℝ) (x : Arr ℝ) (B A n C : ℕ) (S : List ℕ) (len : ℕ → List ℕ) (hB : B < S.length + 2) (hA : A < S.length + 2)
    (hne : B ≠ A) (hC : 0 < C) (hx : PaddedWith m x B A n C S len) (hpos : ∀ j < n, 0 ∉ len j) {net : ANet} {g : Format}
    (h : AcceptsNet net (.one ⟨B, A, C, C, S.length⟩) (.one g)) (i : ℕ) (hi : i < n) (y : Arr ℝ) (hy : ExampleOf y x B A i C len) :
    ∃ a Y, net.run (some m) (.one (.array x)) = .ok (.one a) ∧ net.run none (.one (.array y)) = .ok (.one (.array Y)) ∧
      (a = .array x ∧ Y = y ∧ g = ⟨B, A, C, C, S.length⟩ ∨ ∃ X M, a = .masked ⟨X, some M⟩ ∧
      X.shape = actIdx g.batchAxis g.channelAxis n g.channels (S.take g.rank) ∧
      M.shape = actIdx g.batchAxis g.channelAxis n g.maskChannels (S.take g.rank) ∧
      Y.shape = actIdx g.batchAxis g.channelAxis 1 g.channels ((len i).take g.rank) ∧
      (unmask (.masked ⟨X, some M⟩)).shape = X.shape ∧
      (∀ j < n, ∀ c < g.maskChannels, ∀ p, InRange p (S.take g.rank) →
        (M.get (actIdx g.batchAxis g.channelAxis j c p) = true ↔ ¬InRange p ((len j).take g.rank))) ∧
      (∀ c < g.channels, ∀ p, InRange p ((len i).take g.rank) →
        X.get (actIdx g.batchAxis g.channelAxis i c p) = Y.get (actIdx g.batchAxis g.channelAxis 0 c p)) ∧
      ∀ c < g.channels, ∀ p, InRange p (S.take g.rank) → (unmask (.masked ⟨X, some M⟩)).get (actIdx g.batchAxis g.channelAxis i c p) =
        if InRange p ((len i).take g.rank) then Y.get (actIdx g.batchAxis g.channelAxis 0 c p) else 0) := by
  have h0 : Leaf m x y ⟨B, A, C, C, S.length⟩ n i S len ⟨B, A, C, C, S.length⟩ (.array x) (.array y) := by
    have hl : ∀ j < n, (len j).take S.length = len j := fun j hj => by rw [← (hx.fits j hj).length_eq, List.take_length]
    have hin := input_in hx hy hi
    refine ⟨⟨hne, hB, hA, .inr rfl, hC⟩, le_rfl, _, _, y, rfl, rfl, ?_, .inl ⟨rfl, rfl, rfl⟩⟩
    dsimp only
    rw [List.take_length]
    refine ⟨⟨hin.shape, ⟨hin.mask.shape, fun j hj c hc p hp => ?_⟩, ?_, fun c hc p hp => ?_, hin.rank, fun j hj => ?_⟩, fun j hj c hc p hp hn => ?_⟩
    · rw [hin.mask.get j hj c hc p hp]
      simp only [padding, hl j hj]
    · rw [hl i hi]; exact hin.alone
    · exact hin.same c hc p (by rwa [hl i hi] at hp)
    · rw [hl j hj]; exact hin.fits j hj
    · exact hin.zero j hj c hc p hp (by rwa [hl j hj] at hn)
  obtain ⟨a, b, e1, e2, e3⟩ := run_net hi hpos h (.one h0)
  cases e3 with
  | one e3 =>
    obtain ⟨hg, -, X0, M, Y, -, rfl, -, hcase⟩ := e3
    refine ⟨_, Y, e1, e2, hcase.imp (fun ⟨h1, h2, h3⟩ => ⟨h1, Arg.array.inj h2, h3⟩) ?_⟩
    rintro ⟨X, rfl, o⟩
    obtain ⟨u1, u2⟩ := mask_entries hg o.rank o.shape o.mask
    refine ⟨X, M, rfl, o.shape, o.mask.shape, o.alone, u1, fun j hj c hc p hp => ?_, o.same, fun c hc p hp => ?_⟩
    · rw [o.mask.get j hj c hc p hp]
      simp [padding]
    · refine (u2 i hi c hc p hp).trans ?_
      split
      · next hin => exact o.same c hc p hin
      · rfl

/-! ### A concrete case: sentences of lengths 3 and 1, and a residual connection -/

/-- `serial(Dense, FanOut(2), parallel(Identity, serial(φ, Conv)), FanInSum, GlobalAvgPool)` with any parameters and any nonlinearity. -/
noncomputable def residual (W1 W2 b2 : Arr ℝ) (φ : ℝ → ℝ) : ANet :=
  .seq (.layer (.dense C80.dense8 W1 none)) <| .seq (.fanOut 2) <|
    .seq (.par 2 ![.layer .identity, .seq (.layer (.act φ)) (.layer (.conv C99.conv8 W2 (some b2)))]) <| .seq (.fanIn .sum) (.layer (.globalPool ⟨.avg, 0, -1⟩))

/-- The network accepts sentences of two channels. -/
lemma residual_accepts (W1 W2 b2 : Arr ℝ) (φ : ℝ → ℝ) (h1 : W1.shape = [2, 8]) (h2 : W2.shape = [3, 8, 8]) (hb : b2.shape = [1, 1, 8]) :
    AcceptsNet (residual W1 W2 b2 φ) (.one ⟨0, 2, 2, 2, 1⟩) (.one ⟨0, 1, 8, 1, 0⟩) := by
  refine .seq (.layer (.dense (D := 8) (by simp [C80.dense8]) rfl h1 (by simp))) <| .seq .fanOut <| .seq (v := .many [.one ⟨0, 2, 8, 1, 1⟩, .one ⟨0, 2, 8, 1, 1⟩])
    (.par (u := fun _ => .one ⟨0, 2, 8, 1, 1⟩) (v := fun _ => .one ⟨0, 2, 8, 1, 1⟩) ?_) <|
    .seq (.fanIn (f := ⟨0, 2, 8, 1, 1⟩) (k := 1) (ks := [1])) (.layer (.globalPool rfl rfl rfl))
  intro j
  fin_cases j
  · exact .layer .identity
  · refine .seq (.layer .act) (.layer (.conv (D := 8) (by simp [C99.conv8]) rfl rfl (by simp [C99.conv8]) rfl rfl rfl (by simpa [C99.conv8] using h2) ?_))
    intro b' hb'
    cases hb'
    exact hb

example (W1 W2 b2 : Arr ℝ) (φ : ℝ → ℝ) (h1 : W1.shape = [2, 8]) (h2 : W2.shape = [3, 8, 8]) (hb : b2.shape = [1, 1, 8]) :
    ∃ X M Y, (residual W1 W2 b2 φ).run (some 100) (.one (.array C99.exX)) = .ok (.one (.masked ⟨X, some M⟩)) ∧
      (residual W1 W2 b2 φ).run none (.one (.array C99.exY)) = .ok (.one (.array Y)) ∧ X.shape = [2, 8] ∧
      Y.shape = [1, 8] ∧ M.get [1, 0] = false ∧ ∀ c < 8, X.get [1, c] = Y.get [0, c] := by
  obtain ⟨a, Y, e1, e2, h⟩ := branched_network_padding_partial 100 C99.exX 0 2 2 2 [3] C99.exLen (by simp) (by simp) (by decide)
    (by decide) C99.exX_padded (by intro i _; unfold C99.exLen; split <;> simp) (residual_accepts W1 W2 b2 φ h1 h2 hb) 1 (by decide)
    C99.exY C99.exY_example
  obtain ⟨-, -, h⟩ | ⟨X, M, rfl, s1, -, s3, -, hM, hX, -⟩ := h
  · simp at h
  refine ⟨X, M, Y, e1, e2, s1, s3, ?_, fun c hc => hX c hc [] .nil⟩
  have := hM 1 (by decide) 0 (by decide) [] .nil
  have h0 : ¬M.get [1, 0] = true := fun h => this.1 h .nil
  simpa using h0

/-- `serial(FanOut(2), parallel(Identity, serial(φ, Conv)), FanInConcat(-1), Dense)`, as in DenseNets. -/
noncomputable def denseBlock (W1 b1 W2 : Arr ℝ) (φ : ℝ → ℝ) : ANet :=
  .seq (.fanOut 2) <| .seq (.par 2 ![.layer .identity, .seq (.layer (.act φ)) (.layer (.conv C99.conv8 W1 (some b1)))]) <|
    .seq (.concat (-1)) (.layer (.dense C80.dense8 W2 none))

/-- The network accepts sentences of two channels. -/
lemma denseBlock_accepts (W1 b1 W2 : Arr ℝ) (φ : ℝ → ℝ) (h1 : W1.shape = [3, 2, 8]) (hb : b1.shape = [1, 1, 8]) (h2 : W2.shape = [10, 4]) :
    AcceptsNet (denseBlock W1 b1 W2 φ) (.one ⟨0, 2, 2, 2, 1⟩) (.one ⟨0, 2, 4, 1, 1⟩) := by
  refine .seq .fanOut <| .seq (v := .many [.one ⟨0, 2, 2, 2, 1⟩, .one ⟨0, 2, 8, 1, 1⟩])
    (.par (u := fun _ => .one ⟨0, 2, 2, 2, 1⟩) (v := ![.one ⟨0, 2, 2, 2, 1⟩, .one ⟨0, 2, 8, 1, 1⟩]) ?_) <|
    .seq (.concat (f := ⟨0, 2, 0, 0, 1⟩) (v := (2, 2)) (vs := [(8, 1)]) (by decide) (by decide) (by decide) (by decide))
      (.layer (.dense (D := 4) (by simp [C80.dense8]) rfl h2 (by simp)))
  intro j
  fin_cases j
  · exact .layer .identity
  · refine .seq (.layer .act) (.layer (.conv (D := 8) (by simp [C99.conv8]) rfl rfl (by simp [C99.conv8]) rfl rfl rfl (by simpa [C99.conv8] using h1) ?_))
    intro b' hb'
    cases hb'
    exact hb

example (W1 b1 W2 : Arr ℝ) (φ : ℝ → ℝ) (h1 : W1.shape = [3, 2, 8]) (hb : b1.shape = [1, 1, 8]) (h2 : W2.shape = [10, 4]) :
    ∃ X M Y, (denseBlock W1 b1 W2 φ).run (some 100) (.one (.array C99.exX)) = .ok (.one (.masked ⟨X, some M⟩)) ∧
      (denseBlock W1 b1 W2 φ).run none (.one (.array C99.exY)) = .ok (.one (.array Y)) ∧
      X.shape = [2, 3, 4] ∧ M.get [1, 2, 0] = true ∧ ∀ c < 4, X.get [1, 0, c] = Y.get [0, 0, c] := by
  obtain ⟨a, Y, e1, e2, h⟩ := branched_network_padding_partial 100 C99.exX 0 2 2 2 [3] C99.exLen (by simp) (by simp) (by decide)
    (by decide) C99.exX_padded (by intro i _; unfold C99.exLen; split <;> simp) (denseBlock_accepts W1 b1 W2 φ h1 hb h2) 1 (by decide)
    C99.exY C99.exY_example
  obtain ⟨-, -, h⟩ | ⟨X, M, rfl, s1, -, -, -, hM, hX, -⟩ := h
  · simp at h
  exact ⟨X, M, Y, e1, e2, s1, (hM 1 (by decide) 0 (by decide) [2] (by decide)).2 (by decide), fun c hc => hX c hc [0] (by decide)⟩

end NT.C100
