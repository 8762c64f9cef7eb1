import Verif.Lemmas.Concat
import Verif.Lemmas.Act
import Verif.Props.C38

/-!
# C40: `FanInConcat` concatenates or averages
-/

set_option linter.unusedSectionVars false

namespace NT.C40
open NT Arr Kernel Spec Cat

variable {α : Type} [Field α] [CharZero α] {m : ℕ}

section helpers

lemma cK_some (a : Fin (m + 1) → Arr α) (ax : Option ℕ) (db ds : Bool) (w : List ℕ) :
    concatKernels (List.ofFn fun r => some (a r)) ax db ds w =
      match ax with
      | none => (weightedMean (List.ofFn a) (concatWeights w)).map some
      | some ax =>
        if (ax = 0 ∧ db) ∨ (ax ≠ 0 ∧ ds) then (concatE (List.ofFn a) (ax + if db then 0 else 1)).map some
        else (blockConcat (List.ofFn a) (2 * ax - if db then 1 else 0)).map some := by
  have e : (List.ofFn fun r => some (a r)) = (List.ofFn a).map some := by rw [List.map_ofFn]; rfl
  have e2 : List.ofFn a = a 0 :: List.ofFn (fun r : Fin m => a r.succ) := List.ofFn_succ
  rw [e, e2]
  simp only [List.map_cons, concatKernels]
  rw [← List.map_cons (f := some), allSome_map_some]
  cases ax <;> rfl

lemma cK_none (o : Fin (m + 1) → Option (Arr α)) (h : ∀ r, o r = none) (ax : Option ℕ) (db ds : Bool)
    (w : List ℕ) : concatKernels (List.ofFn o) ax db ds w = .ok none := by
  rw [List.ofFn_succ, h 0]
  rfl

abbrev Fn (α : Type) := List ℕ → List ℕ → List ℕ → α

/-- Optional covariances: all absent or all present. -/
lemma cK_opt {ax : Option ℕ} {db ds : Bool} {w : List ℕ} (o : Fin (m + 1) → Option (Arr α))
    (F : Fin (m + 1) → Option (Fn α)) (has : Bool) (hF : ∀ r, (F r).isSome = has)
    (R : Fin (m + 1) → Arr α → Fn α → Prop) (hrel : ∀ r, OptRel (R r) (o r) (F r)) (R' : Arr α → Fn α → Prop)
    (mk : (Fin (m + 1) → Fn α) → Fn α)
    (hstep : ∀ (a : Fin (m + 1) → Arr α) (G : Fin (m + 1) → Fn α), (∀ r, o r = some (a r)) → (∀ r, R r (a r) (G r)) →
      ∃ c, concatKernels (List.ofFn fun r => some (a r)) ax db ds w = .ok (some c) ∧ R' c (mk G)) :
    ∃ o', concatKernels (List.ofFn o) ax db ds w = .ok o' ∧
      OptRel R' o' (if has then some (mk fun r => (F r).getD 0) else none) := by
  cases has with
  | false =>
    refine ⟨none, cK_none _ (fun r => ?_) _ _ _ _, by simp [OptRel]⟩
    have := hrel r
    rw [Option.isSome_eq_false_iff.1 (hF r) |> Option.isNone_iff_eq_none.1] at this
    exact optRel_none this
  | true =>
    choose G hG using fun r => Option.isSome_iff_exists.1 (hF r)
    have hc : ∀ r, ∃ c, o r = some c ∧ R r c (G r) := fun r => by
      have := hrel r
      rw [hG r] at this
      exact optRel_some this
    choose c hc1 hc2 using hc
    obtain ⟨c', h1, h2⟩ := hstep c G hc1 hc2
    refine ⟨some c', ?_, ?_⟩
    · rw [← h1]
      congr 2
      funext r
      exact hc1 r
    · simpa [OptRel, hG] using h2

/-- The checks of `kernel_fn` pass and the four concatenations give the result. -/
lemma run {k k' : Fin (m + 1) → Kernel α} {rev : Bool} {axis : ℤ} {ax : ℕ}
    (hp : preprocessFanIn (k 0) (List.ofFn fun r : Fin m => k r.succ) = .ok (List.ofFn k', rev))
    (hm : ∀ r, SameMeta (k r) (k' r)) (h0 : (k 0).shape1 ≠ [])
    (hax : axis % ((k 0).shape1.length : ℤ) = ax)
    (hs : ∀ r, (k r).shape1.eraseIdx ax = (k 0).shape1.eraseIdx ax ∧
      (k r).shape2.eraseIdx ax = (k 0).shape2.eraseIdx ax)
    (hg : ax ≠ (k 0).channelAxis → ∀ r, (k r).isGaussian = true)
    {c1 c3 : Arr α} {o2 o4 : Option (Arr α)} {cax : Option ℕ}
    (hcax : concatAxis (k 0).shape1.length (k 0).batchAxis (k 0).channelAxis ax rev = cax)
    (e1 : concatKernels (List.ofFn fun r => some (k' r).cov1) cax (k 0).diagonalBatch (k 0).diagonalSpatial
      (List.ofFn fun r => (k r).shape1.getD (k 0).channelAxis 0) = .ok (some c1))
    (e2 : concatKernels (List.ofFn fun r => (k' r).cov2) cax (k 0).diagonalBatch (k 0).diagonalSpatial
      (List.ofFn fun r => (k r).shape1.getD (k 0).channelAxis 0) = .ok o2)
    (e3 : concatKernels (List.ofFn fun r => some (k' r).nngp) cax false (k 0).diagonalSpatial
      (List.ofFn fun r => (k r).shape1.getD (k 0).channelAxis 0) = .ok (some c3))
    (e4 : concatKernels (List.ofFn fun r => (k' r).ntk) cax false (k 0).diagonalSpatial
      (List.ofFn fun r => (k r).shape1.getD (k 0).channelAxis 0) = .ok o4) :
    fanInConcat axis (List.ofFn k) =
      .ok { fanInResult (k 0) rev (decide (ax ≠ (k 0).channelAxis)) c3 c1 o2 o4 with
        shape1 := (k 0).shape1.set ax (∑ r, (k r).shape1.getD ax 0)
        shape2 := (k 0).shape2.set ax (∑ r, (k r).shape2.getD ax 0) } := by
  have s1 : ∀ r, (k' r).shape1 = (k r).shape1 := fun r => (hm r).2.2.2.2.1
  have s2 : ∀ r, (k' r).shape2 = (k r).shape2 := fun r => (hm r).2.2.2.2.2.1
  have sg : ∀ r, (k' r).isGaussian = (k r).isGaussian := fun r => (hm r).2.2.2.2.2.2.1
  have hsh : ∀ (g g' : Kernel α → List ℕ), (∀ r, g (k' r) = g' (k r)) →
      concatShape ((List.ofFn k').map g) ax = (g' (k 0)).set ax (∑ r, (g' (k r)).getD ax 0) := by
    intro g g' hgg
    unfold concatShape
    rw [List.map_map, List.map_ofFn, List.map_ofFn, List.sum_ofFn]
    simp only [Function.comp_def, hgg]
    rw [List.ofFn_succ]
    simp
  rw [List.ofFn_succ]
  unfold fanInConcat
  simp only [hp]
  rw [if_neg (by simpa using h0), hax]
  simp only [Int.toNat_natCast]
  rw [if_neg, if_neg]
  · rw [hcax]
    simp only [List.map_ofFn, Function.comp_def, s1]
    simp only [e1, e2, e3, e4]
    have := hsh (·.shape1) (·.shape1) s1
    have := hsh (·.shape2) (·.shape2) s2
    simp_all [Function.comp_def]
  · rintro ⟨h1, h2⟩
    rw [List.all_eq_false] at h2
    obtain ⟨x, hx, h3⟩ := h2
    obtain ⟨r, rfl⟩ := List.mem_ofFn.1 hx
    rw [sg, hg h1 r] at h3
    exact h3 rfl
  · rw [not_not]
    intro x hx
    obtain ⟨r, rfl⟩ := List.mem_ofFn.1 hx
    rw [s1, s2]
    exact hs r

lemma spatialAxes_rest (n ba ca : ℕ) : concatSpatialAxes n ba ca = restAxes n ba ca := by
  unfold concatSpatialAxes restAxes
  apply List.filter_congr
  intro i _
  simp [and_comm]

lemma concatAxis_spatial {n ba ca ax s l : ℕ} (rev : Bool) (hl : (restAxes n ba ca).length = l)
    (h : (restAxes n ba ca)[s]? = some ax) : concatAxis n ba ca ax rev = some (rvi rev l s + 1) := by
  have hnd : (restAxes n ba ca).Nodup := List.Nodup.filter _ List.nodup_range
  obtain ⟨hs, he⟩ := List.getElem?_eq_some_iff.1 h
  have hmem : ax ∈ restAxes n ba ca := he ▸ List.getElem_mem hs
  have hne : ax ≠ ba ∧ ax ≠ ca := by
    have := (List.mem_filter.1 hmem).2
    simpa using this
  have hidx : (restAxes n ba ca).idxOf ax = s := by rw [← he]; exact hnd.idxOf_getElem s hs
  unfold concatAxis
  rw [if_neg hne.2, if_neg hne.1]
  simp only [spatialAxes_rest, hidx]
  cases rev
  · simp [rvi, hidx]
  · simp only [if_true, rvi, Option.some.injEq, Nat.add_right_cancel_iff]
    have hs' : s < (restAxes n ba ca).reverse.length := by simpa using hs
    rw [List.getD, List.getElem?_eq_getElem hs', List.getElem_reverse]
    simp only [Option.getD_some]
    rw [hnd.idxOf_getElem _ _, hl]

lemma concatAxis_batch {n ba ca : ℕ} (rev : Bool) (h : ba ≠ ca) :
    concatAxis n ba ca ba rev = some 0 := by
  simp [concatAxis, h]

lemma concatAxis_channel {n ba ca : ℕ} (rev : Bool) : concatAxis n ba ca ca rev = none := by
  simp [concatAxis]

lemma optRel_mono {A B : Type} {R R' : A → B → Prop} (h : ∀ a b, R a b → R' a b) {o : Option A}
    {b : Option B} (ho : OptRel R o b) : OptRel R' o b := by
  cases o <;> cases b <;> simp_all [OptRel]

/-- One array of the concatenation along a spatial axis. -/
lemma spatial_step {B : List ℕ} {ds rev db : Bool} {s : ℕ} (S T : Fin (m + 1) → List ℕ)
    (hS : ∀ r, S r = (S 0).set s ((S r).getD s 0)) (hT : ∀ r, T r = (T 0).set s ((T r).getD s 0))
    (hs : s < (S 0).length) (hB : B.length = if db then 1 else 2) (w : List ℕ)
    (a : Fin (m + 1) → Arr α) (F : Fin (m + 1) → Fn α) (h : ∀ r, Holds (a r) B (S r) (T r) ds rev (F r))
    (F' : Fn α) (hF : SpatialBlocks s S T F F') :
    ∃ c, concatKernels (List.ofFn fun r => some (a r)) (some (rvi rev (S 0).length s + 1)) db ds w =
        .ok (some c) ∧
      Holds c B ((S 0).set s (∑ r, (S r).getD s 0)) ((T 0).set s (∑ r, (T r).getD s 0)) ds rev F' := by
  rw [cK_some]
  simp only
  cases ds with
  | false =>
    obtain ⟨c, h1, h2⟩ := spatial_full (fun r => (S r).getD s 0) (fun r => (T r).getD s 0) hs a F
      (fun r => by rw [← hS r, ← hT r]; exact h r) F'
      (fun r r' b p q hp hq => hF r r' b p q (by rw [hS r]; exact hp) (by rw [hT r']; exact hq))
    refine ⟨c, ?_, h2⟩
    rw [if_neg (by simp)]
    have : 2 * (rvi rev (S 0).length s + 1) - (if db = true then 1 else 0) =
        B.length + 2 * rvi rev (S 0).length s := by
      rw [hB]; split <;> omega
    rw [this, h1]
    rfl
  | true =>
    have hST : ∀ r, S r = T r := fun r => (h r).square rfl
    obtain rfl : S = T := funext hST
    obtain ⟨c, h1, h2⟩ := spatial_diag (fun r => (S r).getD s 0) hs a F
      (fun r => by rw [← hS r]; exact h r) F'
      (fun r r' b p q hp hq => hF r r' b p q (by rw [hS r]; exact hp) (by rw [hS r']; exact hq))
    refine ⟨c, ?_, h2⟩
    rw [if_pos (by simp)]
    have : rvi rev (S 0).length s + 1 + (if db = true then 0 else 1) = B.length + rvi rev (S 0).length s := by
      rw [hB]; split <;> omega
    rw [this, h1]
    rfl

end helpers

/-- The content of the concatenation along the spatial axis `s`. -/
noncomputable def spatialL (s : ℕ) (hasCov2 hasNtk : Bool) (L : Fin (m + 1) → Logical α) : Logical α where
  n1 := (L 0).n1
  n2 := (L 0).n2
  S1 := (L 0).S1.set s (∑ r, (L r).S1.getD s 0)
  S2 := (L 0).S2.set s (∑ r, (L r).S2.getD s 0)
  k12 := catF s (fun r => (L r).S1) (fun r => (L r).S2) fun r => (L r).k12
  k11 := catF s (fun r => (L r).S1) (fun r => (L r).S1) fun r => (L r).k11
  k22 := if hasCov2 then
    some (catF s (fun r => (L r).S2) (fun r => (L r).S2) fun r => (L r).k22.getD 0) else none
  ntk := if hasNtk then
    some (catF s (fun r => (L r).S1) (fun r => (L r).S2) fun r => (L r).ntk.getD 0) else none

lemma optBlocks_ite {R : (Fin (m + 1) → Fn α) → Fn α → Prop} (F : Fin (m + 1) → Option (Fn α)) (has : Bool)
    (hF : ∀ r, (F r).isSome = has) (mk : (Fin (m + 1) → Fn α) → Fn α) (h : ∀ G, R G (mk G)) :
    OptBlocks R F (if has then some (mk fun r => (F r).getD 0) else none) := by
  cases has with
  | false => exact .inl ⟨fun r => Option.isNone_iff_eq_none.1 (Option.isSome_eq_false_iff.1 (hF r)), by simp⟩
  | true =>
    choose G hG using fun r => Option.isSome_iff_exists.1 (hF r)
    refine .inr ⟨G, mk G, hG, ?_, h G⟩
    simp [hG]

lemma optRel_ne {B S T : List ℕ} {x y : ℕ} {ds rev : Bool} {o : Option (Arr α)} {F : Option (Fn α)}
    (h : OptRel (fun c F => Holds c (x :: y :: B) S T ds rev F) o F) {a : Arr α} (ha : o = some a) : a.shape ≠ [] := by
  subst ha
  cases F with
  | none => exact h.elim
  | some F => exact (show Holds a (x :: y :: B) S T ds rev F from h).ne_nil (by simp)

/-- `spatial_content` with the content, and the tangent kernel is an array. -/
lemma spatial_stores (k : Fin (m + 1) → Kernel α) (L : Fin (m + 1) → Logical α) (h : Aligned k L)
    (axis : ℤ) (ax s : ℕ) (hax : axis % ((k 0).shape1.length : ℤ) = ax)
    (hnd : (k 0).shape1.length = (L 0).S1.length + 2) (hba : (k 0).batchAxis < (k 0).shape1.length)
    (hca : (k 0).channelAxis < (k 0).shape1.length) (hne : (k 0).batchAxis ≠ (k 0).channelAxis)
    (hs : (restAxes (k 0).shape1.length (k 0).batchAxis (k 0).channelAxis)[s]? = some ax)
    (hshape : ∀ r, (k r).shape1.eraseIdx ax = (k 0).shape1.eraseIdx ax ∧
      (k r).shape2.eraseIdx ax = (k 0).shape2.eraseIdx ax)
    (hn : ∀ r, (L r).n1 = (L 0).n1 ∧ (L r).n2 = (L 0).n2)
    (hS : ∀ r, (L r).S1 = (L 0).S1.set s ((L r).S1.getD s 0) ∧ (L r).S2 = (L 0).S2.set s ((L r).S2.getD s 0))
    (hasCov2 hasNtk : Bool) (h2 : ∀ r, (L r).k22.isSome = hasCov2) (hnt : ∀ r, (L r).ntk.isSome = hasNtk)
    (hntk : ∀ r a, (k r).ntk = some a → a.shape ≠ [])
    (hg : ∀ r, (k r).isGaussian = true) :
    ∃ k', fanInConcat axis (List.ofFn k) = .ok k' ∧ k'.Stores (spatialL s hasCov2 hasNtk L) ∧ SpatialConcat s L (spatialL s hasCov2 hasNtk L) ∧
      k'.diagonalBatch = (k 0).diagonalBatch ∧ k'.diagonalSpatial = (k 0).diagonalSpatial ∧
      k'.batchAxis = (k 0).batchAxis ∧ k'.channelAxis = (k 0).channelAxis ∧
      k'.shape1 = (k 0).shape1.set ax (∑ r, (k r).shape1.getD ax 0) ∧
      k'.shape2 = (k 0).shape2.set ax (∑ r, (k r).shape2.getD ax 0) ∧ k'.isGaussian = true ∧
      ∀ a, k'.ntk = some a → a.shape ≠ [] := by
  obtain ⟨k', rev, hp, hk'⟩ := preprocess_ok' h
  have hds : ∀ r, (k' r).diagonalSpatial = (k 0).diagonalSpatial := fun r => by
    rw [(hk' r).2.2.1.2.1, h.diagonalSpatial]
  have hdb : ∀ r, (k' r).diagonalBatch = (k 0).diagonalBatch := fun r => by
    rw [(hk' r).2.2.1.1, h.diagonalBatch]
  have hrl : (restAxes (k 0).shape1.length (k 0).batchAxis (k 0).channelAxis).length = (L 0).S1.length := by
    rw [hnd] at hba hca ⊢
    exact restAxes_length _ _ _ hne hba hca
  have hs1 : s < (L 0).S1.length := by
    rw [← hrl]
    exact (List.getElem?_eq_some_iff.1 hs).1
  have hrank : ∀ r, (L r).S1.length = (L r).S2.length := fun r => (h.stores r).nngp.rank
  have hs2 : s < (L 0).S2.length := by rw [← hrank]; exact hs1
  have hl1 : ∀ r, s < (L r).S1.length := fun r => by rw [(hS r).1]; simpa using hs1
  have hl2 : ∀ r, s < (L r).S2.length := fun r => by rw [(hS r).2]; simpa using hs2
  have hsame : (k 0).diagonalSpatial = true → ∀ r, (L r).S1 = (L r).S2 := fun hd r =>
    (h.stores r).nngp.square (by rw [h.diagonalSpatial, hd])
  have hBl : ∀ n : ℕ, (batchShape (k 0).diagonalBatch n).length = if (k 0).diagonalBatch then 1 else 2 := by
    intro n; unfold batchShape; split <;> rfl
  have s1 : ∀ r, Holds (k' r).nngp [(L 0).n1, (L 0).n2] (L r).S1 (L r).S2 (k 0).diagonalSpatial rev
      (L r).k12 := fun r => by
    have := (hk' r).1.nngp
    rwa [(hn r).1, (hn r).2, hds, (hk' r).2.1] at this
  have s2 : ∀ r, Holds (k' r).cov1 (batchShape (k 0).diagonalBatch (L 0).n1) (L r).S1 (L r).S1
      (k 0).diagonalSpatial rev (fun b => (L r).k11 (dbl b)) := fun r => by
    have := (hk' r).1.cov1
    rwa [(hn r).1, hds, hdb, (hk' r).2.1] at this
  have s3 : ∀ r, OptRel (fun c F => Holds c (batchShape (k 0).diagonalBatch (L 0).n2) (L r).S2 (L r).S2
      (k 0).diagonalSpatial rev (fun b => F (dbl b))) (k' r).cov2 (L r).k22 := fun r => by
    have := (hk' r).1.cov2
    rwa [(hn r).2, hds, hdb, (hk' r).2.1] at this
  have s4 : ∀ r, OptRel (fun a F => (a.shape = [] ∧ ∀ b p q, F b p q = a.get []) ∨
      Holds a [(L 0).n1, (L 0).n2] (L r).S1 (L r).S2 (k 0).diagonalSpatial rev F) (k' r).ntk (L r).ntk :=
    fun r => by
      have := (hk' r).1.ntk
      rwa [(hn r).1, (hn r).2, hds, (hk' r).2.1] at this
  set w := List.ofFn fun r => (k r).shape1.getD (k 0).channelAxis 0 with hw
  have b12 := catF_blocks s (fun r => (L r).S1) (fun r => (L r).S2) hl1 hl2 fun r => (L r).k12
  have b11 := catF_blocks s (fun r => (L r).S1) (fun r => (L r).S1) hl1 hl1 fun r => (L r).k11
  obtain ⟨c3, e3, t3⟩ := spatial_step (db := false) (fun r => (L r).S1) (fun r => (L r).S2)
    (fun r => (hS r).1) (fun r => (hS r).2) hs1 rfl w _ _ s1 _ b12
  obtain ⟨c1, e1, t1⟩ := spatial_step (db := (k 0).diagonalBatch) (fun r => (L r).S1) (fun r => (L r).S1)
    (fun r => (hS r).1) (fun r => (hS r).1) hs1 (hBl _) w _ _ s2
    (fun b => catF s (fun r => (L r).S1) (fun r => (L r).S1) (fun r => (L r).k11) (dbl b))
    (fun r r' b p q hp hq => b11 r r' (dbl b) p q hp hq)
  obtain ⟨o2, e2, t2⟩ := cK_opt (ax := some (rvi rev (L 0).S1.length s + 1)) (db := (k 0).diagonalBatch)
    (ds := (k 0).diagonalSpatial) (w := w) (fun r => (k' r).cov2) (fun r => (L r).k22) hasCov2 h2 _ s3
    (fun c F => Holds c (batchShape (k 0).diagonalBatch (L 0).n2)
      ((L 0).S2.set s (∑ r, (L r).S2.getD s 0)) ((L 0).S2.set s (∑ r, (L r).S2.getD s 0))
      (k 0).diagonalSpatial rev (fun b => F (dbl b)))
    (catF s (fun r => (L r).S2) (fun r => (L r).S2)) (by
      intro a G _ hG
      have := spatial_step (db := (k 0).diagonalBatch) (fun r => (L r).S2) (fun r => (L r).S2)
        (fun r => (hS r).2) (fun r => (hS r).2) hs2 (hBl _) w a _ hG
        (fun b => catF s (fun r => (L r).S2) (fun r => (L r).S2) G (dbl b))
        (fun r r' b p q hp hq => catF_blocks s (fun r => (L r).S2) (fun r => (L r).S2) hl2 hl2 G r r'
          (dbl b) p q hp hq)
      rwa [← hrank] at this)
  obtain ⟨o4, e4, t4⟩ := cK_opt (ax := some (rvi rev (L 0).S1.length s + 1)) (db := false)
    (ds := (k 0).diagonalSpatial) (w := w) (fun r => (k' r).ntk) (fun r => (L r).ntk) hasNtk hnt _ s4
    (fun c F => Holds c [(L 0).n1, (L 0).n2] ((L 0).S1.set s (∑ r, (L r).S1.getD s 0))
      ((L 0).S2.set s (∑ r, (L r).S2.getD s 0)) (k 0).diagonalSpatial rev F)
    (catF s (fun r => (L r).S1) (fun r => (L r).S2)) (by
      intro a G ha hG
      refine spatial_step (db := false) (fun r => (L r).S1) (fun r => (L r).S2)
        (fun r => (hS r).1) (fun r => (hS r).2) hs1 rfl w a G ?_ _
        (catF_blocks s (fun r => (L r).S1) (fun r => (L r).S2) hl1 hl2 G)
      intro r
      rcases hG r with ⟨h0, -⟩ | h0
      · exfalso
        have := (hk' r).2.2.2
        rw [ha r] at this
        obtain ⟨a0, g1, g2⟩ := Option.map_eq_some_iff.1 this.symm
        refine hntk r a0 g1 (List.length_eq_zero_iff.1 ?_)
        have : a0.shape.length = (a r).shape.length := g2
        rw [this, h0]
        rfl
      · exact h0)
  have h0 : (k 0).shape1 ≠ [] := by
    intro h0
    rw [h0] at hnd
    simp at hnd
  have hcax := concatAxis_spatial rev hrl hs
  refine ⟨_, run hp (fun r => (hk' r).2.2.1) h0 hax hshape (fun _ => hg) hcax e1 e2
    e3 e4, ⟨t3, t1, t2, ?_⟩, ⟨rfl, rfl, rfl, rfl, b12, b11, ?_, ?_⟩, rfl, rfl, rfl, rfl, rfl, rfl, ?_, ?_⟩
  · exact optRel_mono (fun _ _ => .inr) t4
  · exact optBlocks_ite _ _ h2 _ fun G => catF_blocks _ _ _ hl2 hl2 G
  · exact optBlocks_ite _ _ hnt _ fun G => catF_blocks _ _ _ hl1 hl2 G
  · have hmem : ax ∈ restAxes (k 0).shape1.length (k 0).batchAxis (k 0).channelAxis := by
      obtain ⟨hs', he⟩ := List.getElem?_eq_some_iff.1 hs
      exact he ▸ List.getElem_mem hs'
    have := (List.mem_filter.1 hmem).2
    change decide _ = true
    simp at this ⊢
    exact this.2
  · intro a ha
    exact optRel_ne t4 ha

/-- Concatenation of any number of branches along a spatial axis `ax` of the activations, which is their
`s`-th axis other than the batch and the channel axis, whatever the order in which the branches store
their spatial axes: the result stores the block-diagonal arrangement of the contents of the branches and
is marked Gaussian. -/
theorem spatial_content (k : Fin (m + 1) → Kernel α) (L : Fin (m + 1) → Logical α) (h : Aligned k L)
    (axis : ℤ) (ax s : ℕ) (hax : axis % ((k 0).shape1.length : ℤ) = ax)
    (hnd : (k 0).shape1.length = (L 0).S1.length + 2) (hba : (k 0).batchAxis < (k 0).shape1.length)
    (hca : (k 0).channelAxis < (k 0).shape1.length) (hne : (k 0).batchAxis ≠ (k 0).channelAxis)
    (hs : (restAxes (k 0).shape1.length (k 0).batchAxis (k 0).channelAxis)[s]? = some ax)
    (hshape : ∀ r, (k r).shape1.eraseIdx ax = (k 0).shape1.eraseIdx ax ∧
      (k r).shape2.eraseIdx ax = (k 0).shape2.eraseIdx ax)
    (hn : ∀ r, (L r).n1 = (L 0).n1 ∧ (L r).n2 = (L 0).n2)
    (hS : ∀ r, (L r).S1 = (L 0).S1.set s ((L r).S1.getD s 0) ∧ (L r).S2 = (L 0).S2.set s ((L r).S2.getD s 0))
    (hasCov2 hasNtk : Bool) (h2 : ∀ r, (L r).k22.isSome = hasCov2) (hnt : ∀ r, (L r).ntk.isSome = hasNtk)
    (hntk : ∀ r a, (k r).ntk = some a → a.shape ≠ [])
    (hg : ∀ r, (k r).isGaussian = true) :
    ∃ k' L', fanInConcat axis (List.ofFn k) = .ok k' ∧ k'.Stores L' ∧ SpatialConcat s L L' ∧
      k'.diagonalBatch = (k 0).diagonalBatch ∧ k'.diagonalSpatial = (k 0).diagonalSpatial ∧
      k'.batchAxis = (k 0).batchAxis ∧ k'.channelAxis = (k 0).channelAxis ∧
      k'.shape1 = (k 0).shape1.set ax (∑ r, (k r).shape1.getD ax 0) ∧
      k'.shape2 = (k 0).shape2.set ax (∑ r, (k r).shape2.getD ax 0) ∧ k'.isGaussian = true := by
  obtain ⟨k', h1, h2, h3, h4, h5, h6, h7, h8, h9, h10, -⟩ := spatial_stores k L h axis ax s hax hnd hba hca hne hs hshape hn hS hasCov2 hasNtk h2 hnt hntk hg
  exact ⟨k', _, h1, h2, h3, h4, h5, h6, h7, h8, h9, h10⟩

section batch

/-- One array of the concatenation along the batch. -/
lemma batch_step {S T : List ℕ} {ds rev : Bool} (n n' : Fin (m + 1) → ℕ) (w : List ℕ)
    (a : Fin (m + 1) → Arr α) (F : Fin (m + 1) → Fn α) (h : ∀ r, Holds (a r) [n r, n' r] S T ds rev (F r))
    (F' : Fn α) (hF : BatchBlocks n n' F F') :
    ∃ c, concatKernels (List.ofFn fun r => some (a r)) (some 0) false ds w = .ok (some c) ∧
      Holds c [∑ r, n r, ∑ r, n' r] S T ds rev F' := by
  rw [cK_some]
  obtain ⟨c, h1, h2⟩ := batch_full n n' a F h F' hF
  exact ⟨c, by simp [-List.ofFn_succ, h1, Except.map], h2⟩

/-- One array of the concatenation along the batch of `cov1` or `cov2`. -/
lemma batch_step_cov {S T : List ℕ} {db ds rev : Bool} (n : Fin (m + 1) → ℕ) (w : List ℕ)
    (a : Fin (m + 1) → Arr α) (F : Fin (m + 1) → Fn α)
    (h : ∀ r, Holds (a r) (batchShape db (n r)) S T ds rev (fun b => F r (dbl b)))
    (F' : Fn α) (hF : BatchBlocks n n F F') :
    ∃ c, concatKernels (List.ofFn fun r => some (a r)) (some 0) db ds w = .ok (some c) ∧
      Holds c (batchShape db (∑ r, n r)) S T ds rev (fun b => F' (dbl b)) := by
  cases db with
  | false =>
    obtain ⟨c, h1, h2⟩ := batch_step n n w a F (fun r => by
      refine ⟨(h r).rank, (h r).square, (h r).shape, fun b p q hb hp hq hpq => ?_⟩
      rw [(h r).get b p q hb hp hq hpq]
      obtain ⟨i, b, rfl, hi, hb⟩ := inRange_cons_right.1 hb
      obtain ⟨j, b, rfl, hj, hb⟩ := inRange_cons_right.1 hb
      rfl) F' hF
    refine ⟨c, h1, h2.rank, h2.square, h2.shape, fun b p q hb hp hq hpq => ?_⟩
    have := h2.get b p q hb hp hq hpq
    rw [this]
    obtain ⟨i, b, rfl, hi, hb⟩ := inRange_cons_right.1 hb
    obtain ⟨j, b, rfl, hj, hb⟩ := inRange_cons_right.1 hb
    rfl
  | true =>
    rw [cK_some]
    obtain ⟨c, h1, h2⟩ := batch_diag n a F h F' hF
    exact ⟨c, by simp [-List.ofFn_succ, h1, Except.map], h2⟩

end batch

/-- The content of the concatenation along the batch. -/
noncomputable def batchL (hasCov2 hasNtk : Bool) (L : Fin (m + 1) → Logical α) : Logical α where
  n1 := ∑ r, (L r).n1
  n2 := ∑ r, (L r).n2
  S1 := (L 0).S1
  S2 := (L 0).S2
  k12 := batF (fun r => (L r).n1) (fun r => (L r).n2) fun r => (L r).k12
  k11 := batF (fun r => (L r).n1) (fun r => (L r).n1) fun r => (L r).k11
  k22 := if hasCov2 then
    some (batF (fun r => (L r).n2) (fun r => (L r).n2) fun r => (L r).k22.getD 0) else none
  ntk := if hasNtk then
    some (batF (fun r => (L r).n1) (fun r => (L r).n2) fun r => (L r).ntk.getD 0) else none

/-- `batch_content` with the content, and the tangent kernel is an array. -/
lemma batch_stores (k : Fin (m + 1) → Kernel α) (L : Fin (m + 1) → Logical α) (h : Aligned k L)
    (axis : ℤ) (h0 : (k 0).shape1 ≠ [])
    (hax : axis % ((k 0).shape1.length : ℤ) = ((k 0).batchAxis : ℕ))
    (hne : (k 0).batchAxis ≠ (k 0).channelAxis)
    (hshape : ∀ r, (k r).shape1.eraseIdx (k 0).batchAxis = (k 0).shape1.eraseIdx (k 0).batchAxis ∧
      (k r).shape2.eraseIdx (k 0).batchAxis = (k 0).shape2.eraseIdx (k 0).batchAxis)
    (hS : ∀ r, (L r).S1 = (L 0).S1 ∧ (L r).S2 = (L 0).S2)
    (hasCov2 hasNtk : Bool) (h2 : ∀ r, (L r).k22.isSome = hasCov2) (hnt : ∀ r, (L r).ntk.isSome = hasNtk)
    (hntk : ∀ r a, (k r).ntk = some a → a.shape ≠ [])
    (hg : ∀ r, (k r).isGaussian = true) :
    ∃ k', fanInConcat axis (List.ofFn k) = .ok k' ∧ k'.Stores (batchL hasCov2 hasNtk L) ∧ BatchConcat L (batchL hasCov2 hasNtk L) ∧
      k'.diagonalBatch = (k 0).diagonalBatch ∧ k'.diagonalSpatial = (k 0).diagonalSpatial ∧
      k'.batchAxis = (k 0).batchAxis ∧ k'.channelAxis = (k 0).channelAxis ∧
      k'.shape1 = (k 0).shape1.set (k 0).batchAxis (∑ r, (k r).shape1.getD (k 0).batchAxis 0) ∧
      k'.shape2 = (k 0).shape2.set (k 0).batchAxis (∑ r, (k r).shape2.getD (k 0).batchAxis 0) ∧
      k'.isGaussian = true ∧
      ∀ a, k'.ntk = some a → a.shape ≠ [] := by
  obtain ⟨k', rev, hp, hk'⟩ := preprocess_ok' h
  have hds : ∀ r, (k' r).diagonalSpatial = (k 0).diagonalSpatial := fun r => by
    rw [(hk' r).2.2.1.2.1, h.diagonalSpatial]
  have hdb : ∀ r, (k' r).diagonalBatch = (k 0).diagonalBatch := fun r => by
    rw [(hk' r).2.2.1.1, h.diagonalBatch]
  have s1 : ∀ r, Holds (k' r).nngp [(L r).n1, (L r).n2] (L 0).S1 (L 0).S2 (k 0).diagonalSpatial rev
      (L r).k12 := fun r => by
    have := (hk' r).1.nngp
    rwa [(hS r).1, (hS r).2, hds, (hk' r).2.1] at this
  have s2 : ∀ r, Holds (k' r).cov1 (batchShape (k 0).diagonalBatch (L r).n1) (L 0).S1 (L 0).S1
      (k 0).diagonalSpatial rev (fun b => (L r).k11 (dbl b)) := fun r => by
    have := (hk' r).1.cov1
    rwa [(hS r).1, hds, hdb, (hk' r).2.1] at this
  have s3 : ∀ r, OptRel (fun c F => Holds c (batchShape (k 0).diagonalBatch (L r).n2) (L 0).S2 (L 0).S2
      (k 0).diagonalSpatial rev (fun b => F (dbl b))) (k' r).cov2 (L r).k22 := fun r => by
    have := (hk' r).1.cov2
    rwa [(hS r).2, hds, hdb, (hk' r).2.1] at this
  have s4 : ∀ r, OptRel (fun a F => (a.shape = [] ∧ ∀ b p q, F b p q = a.get []) ∨
      Holds a [(L r).n1, (L r).n2] (L 0).S1 (L 0).S2 (k 0).diagonalSpatial rev F) (k' r).ntk (L r).ntk :=
    fun r => by
      have := (hk' r).1.ntk
      rwa [(hS r).1, (hS r).2, hds, (hk' r).2.1] at this
  set w := List.ofFn fun r => (k r).shape1.getD (k 0).channelAxis 0 with hw
  have b12 := batF_blocks (fun r => (L r).n1) (fun r => (L r).n2) fun r => (L r).k12
  have b11 := batF_blocks (fun r => (L r).n1) (fun r => (L r).n1) fun r => (L r).k11
  obtain ⟨c3, e3, t3⟩ := batch_step (fun r => (L r).n1) (fun r => (L r).n2) w _ _ s1 _ b12
  obtain ⟨c1, e1, t1⟩ := batch_step_cov (fun r => (L r).n1) w _ _ s2 _ b11
  obtain ⟨o2, e2, t2⟩ := cK_opt (ax := some 0) (db := (k 0).diagonalBatch)
    (ds := (k 0).diagonalSpatial) (w := w) (fun r => (k' r).cov2) (fun r => (L r).k22) hasCov2 h2 _ s3
    (fun c F => Holds c (batchShape (k 0).diagonalBatch (∑ r, (L r).n2)) (L 0).S2 (L 0).S2
      (k 0).diagonalSpatial rev (fun b => F (dbl b)))
    (batF (fun r => (L r).n2) (fun r => (L r).n2))
    (fun a G _ hG => batch_step_cov (fun r => (L r).n2) w a G hG _ (batF_blocks _ _ G))
  obtain ⟨o4, e4, t4⟩ := cK_opt (ax := some 0) (db := false)
    (ds := (k 0).diagonalSpatial) (w := w) (fun r => (k' r).ntk) (fun r => (L r).ntk) hasNtk hnt _ s4
    (fun c F => Holds c [∑ r, (L r).n1, ∑ r, (L r).n2] (L 0).S1 (L 0).S2 (k 0).diagonalSpatial rev F)
    (batF (fun r => (L r).n1) (fun r => (L r).n2)) (by
      intro a G ha hG
      refine batch_step (fun r => (L r).n1) (fun r => (L r).n2) w a G ?_ _ (batF_blocks _ _ G)
      intro r
      rcases hG r with ⟨h0, -⟩ | h0
      · exfalso
        have := (hk' r).2.2.2
        rw [ha r] at this
        obtain ⟨a0, g1, g2⟩ := Option.map_eq_some_iff.1 this.symm
        refine hntk r a0 g1 (List.length_eq_zero_iff.1 ?_)
        have : a0.shape.length = (a r).shape.length := g2
        rw [this, h0]
        rfl
      · exact h0)
  refine ⟨_, run hp (fun r => (hk' r).2.2.1) h0 hax hshape (fun _ => hg)
    (concatAxis_batch rev hne) e1 e2 e3 e4, ⟨t3, t1, t2, optRel_mono (fun _ _ => .inr) t4⟩,
    ⟨rfl, rfl, rfl, rfl, b12, b11, ?_, ?_⟩, rfl, rfl, rfl, rfl, rfl, rfl, ?_, ?_⟩
  · exact optBlocks_ite _ _ h2 _ fun G => batF_blocks _ _ G
  · exact optBlocks_ite _ _ hnt _ fun G => batF_blocks _ _ G
  · change decide _ = true
    simpa using hne
  · intro a ha
    exact optRel_ne t4 ha

/-- Concatenation of any number of branches along the batch axis: the result stores the block-diagonal
arrangement along the batch of the contents of the branches (examples of different branches have
covariance zero) and is marked Gaussian. -/
theorem batch_content (k : Fin (m + 1) → Kernel α) (L : Fin (m + 1) → Logical α) (h : Aligned k L)
    (axis : ℤ) (h0 : (k 0).shape1 ≠ [])
    (hax : axis % ((k 0).shape1.length : ℤ) = ((k 0).batchAxis : ℕ))
    (hne : (k 0).batchAxis ≠ (k 0).channelAxis)
    (hshape : ∀ r, (k r).shape1.eraseIdx (k 0).batchAxis = (k 0).shape1.eraseIdx (k 0).batchAxis ∧
      (k r).shape2.eraseIdx (k 0).batchAxis = (k 0).shape2.eraseIdx (k 0).batchAxis)
    (hS : ∀ r, (L r).S1 = (L 0).S1 ∧ (L r).S2 = (L 0).S2)
    (hasCov2 hasNtk : Bool) (h2 : ∀ r, (L r).k22.isSome = hasCov2) (hnt : ∀ r, (L r).ntk.isSome = hasNtk)
    (hntk : ∀ r a, (k r).ntk = some a → a.shape ≠ [])
    (hg : ∀ r, (k r).isGaussian = true) :
    ∃ k' L', fanInConcat axis (List.ofFn k) = .ok k' ∧ k'.Stores L' ∧ BatchConcat L L' ∧
      k'.diagonalBatch = (k 0).diagonalBatch ∧ k'.diagonalSpatial = (k 0).diagonalSpatial ∧
      k'.batchAxis = (k 0).batchAxis ∧ k'.channelAxis = (k 0).channelAxis ∧
      k'.shape1 = (k 0).shape1.set (k 0).batchAxis (∑ r, (k r).shape1.getD (k 0).batchAxis 0) ∧
      k'.shape2 = (k 0).shape2.set (k 0).batchAxis (∑ r, (k r).shape2.getD (k 0).batchAxis 0) ∧
      k'.isGaussian = true := by
  obtain ⟨k', h1, h2, h3, h4, h5, h6, h7, h8, h9, h10, -⟩ := batch_stores k L h axis h0 hax hne hshape hS hasCov2 hasNtk h2 hnt hntk hg
  exact ⟨k', _, h1, h2, h3, h4, h5, h6, h7, h8, h9, h10⟩

/-! ## The channel axis -/

section channel

/-- The content of the concatenation along the channels of branches with `w r` channels. -/
def channelL (w : Fin (m + 1) → ℕ) (hasCov2 hasNtk : Bool) (L : Fin (m + 1) → Logical α) : Logical α where
  n1 := (L 0).n1
  n2 := (L 0).n2
  S1 := (L 0).S1
  S2 := (L 0).S2
  k12 := fun b p q => (∑ r, (w r : α) * (L r).k12 b p q) / ∑ r, (w r : α)
  k11 := fun b p q => (∑ r, (w r : α) * (L r).k11 b p q) / ∑ r, (w r : α)
  k22 := if hasCov2 then
    some fun b p q => (∑ r, (w r : α) * ((L r).k22.getD 0) b p q) / ∑ r, (w r : α) else none
  ntk := if hasNtk then
    some fun b p q => (∑ r, (w r : α) * ((L r).ntk.getD 0) b p q) / ∑ r, (w r : α) else none

/-- The average does not change if equal widths are replaced by ones. -/
lemma weights_ok (w : Fin (m + 1) → ℕ) (hw : ∀ r, 0 < w r) :
    ∃ v : Fin (m + 1) → ℕ, concatWeights (List.ofFn w) = List.ofFn v ∧
      ∀ x : Fin (m + 1) → α, (∑ r, x r * (v r : α)) / ((∑ r, v r : ℕ) : α) =
        (∑ r, (w r : α) * x r) / ∑ r, (w r : α) := by
  unfold concatWeights
  by_cases h : ∀ x ∈ List.ofFn w, x = (List.ofFn w).headD 0
  · refine ⟨fun _ => 1, by rw [if_pos h, List.map_ofFn]; rfl, fun x => ?_⟩
    have h1 : ∀ r, w r = w 0 := fun r => by
      have := h (w r) (List.mem_ofFn.2 ⟨r, rfl⟩)
      rw [this, List.ofFn_succ]
      rfl
    have h2 : (w 0 : α) ≠ 0 := Nat.cast_ne_zero.2 (hw 0).ne'
    have h3 : ((m : α) + 1) ≠ 0 := by exact_mod_cast Nat.succ_ne_zero m
    simp only [h1]
    rw [← Finset.mul_sum]
    simp only [Nat.cast_one, mul_one, Finset.sum_const, Finset.card_univ, Fintype.card_fin, smul_eq_mul,
      nsmul_eq_mul, Nat.cast_add]
    field_simp
  · refine ⟨w, by rw [if_neg h], fun x => ?_⟩
    rw [Nat.cast_sum]
    congr 1
    exact Finset.sum_congr rfl fun r _ => mul_comm _ _

/-- One array of the concatenation along the channels. -/
lemma channel_step {B S T : List ℕ} {db ds rev : Bool} (hB : B ≠ []) (w : Fin (m + 1) → ℕ)
    (hw : ∀ r, 0 < w r) (a : Fin (m + 1) → Arr α) (F : Fin (m + 1) → Fn α)
    (h : ∀ r, HoldsS (a r) B S T ds rev (F r)) :
    ∃ c, concatKernels (List.ofFn fun r => some (a r)) none db ds (List.ofFn w) = .ok (some c) ∧
      HoldsS c B S T ds rev (fun b p q => (∑ r, (w r : α) * F r b p q) / ∑ r, (w r : α)) ∧
      ((∀ r, Holds (a r) B S T ds rev (F r)) →
        Holds c B S T ds rev (fun b p q => (∑ r, (w r : α) * F r b p q) / ∑ r, (w r : α))) := by
  obtain ⟨v, hv1, hv2⟩ := weights_ok (α := α) w hw
  obtain ⟨c, h1, h2, h3⟩ := foldB_holdsS (op := (· + ·)) hB
    (List.ofFn fun r => ((a r).map (· * (v r : α)), fun b p q => F r b p q * (v r : α))) (scalar 0)
    (fun _ _ _ => 0) (.inl ⟨rfl, fun _ _ _ => rfl⟩) (by
      intro x hx
      obtain ⟨r, rfl⟩ := List.mem_ofFn.1 hx
      exact (h r).map (· * (v r : α)))
  have e : (fun b p q => ((List.ofFn fun r => ((a r).map (· * (v r : α)),
      fun b p q => F r b p q * (v r : α))).map fun x => x.2 b p q).foldl (· + ·) (0 : α)) =
      fun b p q => ∑ r, F r b p q * (v r : α) := by
    funext b p q
    rw [List.map_ofFn]
    exact foldl_add_ofFn _
  rw [e] at h2 h3
  have e3 : List.zipWith (fun (m : Arr α) (w : ℕ) => m.map (· * (w : α))) (List.ofFn a) (List.ofFn v) =
      ((List.ofFn fun r => ((a r).map (· * (v r : α)),
        (fun b p q => F r b p q * (v r : α) : Fn α))).map (·.1)) := by
    rw [List.map_ofFn]
    apply List.ext_getElem (by simp)
    intro i h1 h2
    simp [-List.ofFn_succ]
  have e4 : (fun b p q => (∑ r, (w r : α) * F r b p q) / ∑ r, (w r : α)) =
      fun b p q => (∑ r, F r b p q * (v r : α)) / ((∑ r, v r : ℕ) : α) := by
    funext b p q
    exact (hv2 fun r => F r b p q).symm
  rw [e4]
  refine ⟨c.map (· / ((∑ r, v r : ℕ) : α)), ?_, h2.map (· / ((∑ r, v r : ℕ) : α)), ?_⟩
  · rw [cK_some]
    simp only [weightedMean, hv1, e3, h1, List.sum_ofFn]
    rfl
  · intro h'
    have := h3 (.inr ⟨_, List.mem_ofFn.2 ⟨0, rfl⟩, by
      have := h' 0
      exact ⟨this.rank, this.square, this.shape, fun b p q hb hp hq hd =>
        congrArg (· * (v 0 : α)) (this.get b p q hb hp hq hd)⟩⟩)
    exact ⟨this.rank, this.square, this.shape, fun b p q hb hp hq hd =>
      congrArg (· / ((∑ r, v r : ℕ) : α)) (this.get b p q hb hp hq hd)⟩

end channel

/-- Concatenation of any number of branches along the channel axis, whatever the order in which they store
their spatial axes: every covariance and tangent kernel entry of the result is the average of those of
the branches weighted by their numbers of channels, and the result is not marked Gaussian. -/
theorem channel_content (k : Fin (m + 1) → Kernel α) (L : Fin (m + 1) → Logical α) (h : Combinable k L)
    (axis : ℤ) (h0 : (k 0).shape1 ≠ [])
    (hax : axis % ((k 0).shape1.length : ℤ) = ((k 0).channelAxis : ℕ))
    (hshape : ∀ r, (k r).shape1.eraseIdx (k 0).channelAxis = (k 0).shape1.eraseIdx (k 0).channelAxis ∧
      (k r).shape2.eraseIdx (k 0).channelAxis = (k 0).shape2.eraseIdx (k 0).channelAxis)
    (w : Fin (m + 1) → ℕ) (hw : ∀ r, 0 < w r)
    (hwk : ∀ r, (k r).shape1.getD (k r).channelAxis 0 = w r)
    (hasCov2 hasNtk : Bool) (h2 : ∀ r, (L r).k22.isSome = hasCov2) (hnt : ∀ r, (L r).ntk.isSome = hasNtk) :
    ∃ k', fanInConcat axis (List.ofFn k) = .ok k' ∧ k'.Stores (channelL w hasCov2 hasNtk L) ∧
      k'.diagonalBatch = (k 0).diagonalBatch ∧ k'.diagonalSpatial = (k 0).diagonalSpatial ∧
      k'.batchAxis = (k 0).batchAxis ∧ k'.channelAxis = (k 0).channelAxis ∧
      k'.shape1 = (k 0).shape1.set (k 0).channelAxis (∑ r, (k r).shape1.getD (k 0).channelAxis 0) ∧
      k'.shape2 = (k 0).shape2.set (k 0).channelAxis (∑ r, (k r).shape2.getD (k 0).channelAxis 0) ∧
      k'.isGaussian = false := by
  obtain ⟨k', rev, hp, hk'⟩ := preprocess_ok h
  have hds : ∀ r, (k' r).diagonalSpatial = (k 0).diagonalSpatial := fun r => by
    rw [(hk' r).2.2.2.1, h.diagonalSpatial]
  have hdb : ∀ r, (k' r).diagonalBatch = (k 0).diagonalBatch := fun r => by
    rw [(hk' r).2.2.1, h.diagonalBatch]
  have hB : ∀ n : ℕ, batchShape (k 0).diagonalBatch n ≠ [] := by
    intro n
    unfold batchShape
    split <;> simp
  have s1 : ∀ r, Holds (k' r).nngp [(L 0).n1, (L 0).n2] (L 0).S1 (L 0).S2 (k 0).diagonalSpatial rev
      (L r).k12 := fun r => by
    have := (hk' r).1.nngp
    rwa [(h.sizes r).1, (h.sizes r).2.1, (h.sizes r).2.2.1, (h.sizes r).2.2.2, hds, (hk' r).2.1] at this
  have s2 : ∀ r, Holds (k' r).cov1 (batchShape (k 0).diagonalBatch (L 0).n1) (L 0).S1 (L 0).S1
      (k 0).diagonalSpatial rev (fun b => (L r).k11 (dbl b)) := fun r => by
    have := (hk' r).1.cov1
    rwa [(h.sizes r).1, (h.sizes r).2.2.1, hds, hdb, (hk' r).2.1] at this
  have s3 : ∀ r, OptRel (fun c F => Holds c (batchShape (k 0).diagonalBatch (L 0).n2) (L 0).S2 (L 0).S2
      (k 0).diagonalSpatial rev (fun b => F (dbl b))) (k' r).cov2 (L r).k22 := fun r => by
    have := (hk' r).1.cov2
    rwa [(h.sizes r).2.1, (h.sizes r).2.2.2, hds, hdb, (hk' r).2.1] at this
  have s4 : ∀ r, OptRel (fun a F => HoldsS a [(L 0).n1, (L 0).n2] (L 0).S1 (L 0).S2
      (k 0).diagonalSpatial rev F) (k' r).ntk (L r).ntk :=
    fun r => by
      have := (hk' r).1.ntk
      rwa [(h.sizes r).1, (h.sizes r).2.1, (h.sizes r).2.2.1, (h.sizes r).2.2.2, hds, (hk' r).2.1] at this
  have hw' : (List.ofFn fun r => (k r).shape1.getD (k 0).channelAxis 0) = List.ofFn w := by
    congr 1
    funext r
    rw [← hwk r, h.channelAxis r]
  obtain ⟨c3, e3, -, t3⟩ := channel_step (db := false) (by simp) w hw _ _ fun r => .inr (s1 r)
  obtain ⟨c1, e1, -, t1⟩ := channel_step (db := (k 0).diagonalBatch) (hB _) w hw _ _ fun r => .inr (s2 r)
  obtain ⟨o2, e2, t2⟩ := cK_opt (ax := none) (db := (k 0).diagonalBatch)
    (ds := (k 0).diagonalSpatial) (w := List.ofFn w) (fun r => (k' r).cov2) (fun r => (L r).k22) hasCov2 h2 _ s3
    (fun c F => Holds c (batchShape (k 0).diagonalBatch (L 0).n2) (L 0).S2 (L 0).S2
      (k 0).diagonalSpatial rev (fun b => F (dbl b)))
    (fun G b p q => (∑ r, (w r : α) * G r b p q) / ∑ r, (w r : α))
    (fun a G _ hG => by
      obtain ⟨c, g1, -, g2⟩ := channel_step (db := (k 0).diagonalBatch) (hB _) w hw a _ fun r => .inr (hG r)
      exact ⟨c, g1, g2 hG⟩)
  obtain ⟨o4, e4, t4⟩ := cK_opt (ax := none) (db := false)
    (ds := (k 0).diagonalSpatial) (w := List.ofFn w) (fun r => (k' r).ntk) (fun r => (L r).ntk) hasNtk hnt _ s4
    (fun c F => HoldsS c [(L 0).n1, (L 0).n2] (L 0).S1 (L 0).S2 (k 0).diagonalSpatial rev F)
    (fun G b p q => (∑ r, (w r : α) * G r b p q) / ∑ r, (w r : α))
    (fun a G _ hG => by
      obtain ⟨c, g1, g2, -⟩ := channel_step (db := false) (by simp) w hw a _ hG
      exact ⟨c, g1, g2⟩)
  rw [← hw'] at e1 e2 e3 e4
  refine ⟨_, run hp (fun r => (hk' r).2.2) h0 hax hshape (fun hx => absurd rfl hx)
    (concatAxis_channel rev) e1 e2 e3 e4, ⟨t3 s1, t1 s2, t2, t4⟩, rfl, rfl, rfl, rfl, rfl, rfl, ?_⟩
  change decide _ = false
  simp

/-! ## Rejected calls -/

/-- Along any axis but the channels, a branch that is not marked Gaussian is rejected. -/
theorem not_gaussian_rejected (k : Fin (m + 1) → Kernel α) (L : Fin (m + 1) → Logical α) (h : Aligned k L)
    (axis : ℤ) (ax : ℕ) (h0 : (k 0).shape1 ≠ []) (hax : axis % ((k 0).shape1.length : ℤ) = ax)
    (hc : ax ≠ (k 0).channelAxis)
    (hshape : ∀ r, (k r).shape1.eraseIdx ax = (k 0).shape1.eraseIdx ax ∧
      (k r).shape2.eraseIdx ax = (k 0).shape2.eraseIdx ax)
    (r : Fin (m + 1)) (hr : (k r).isGaussian = false) :
    fanInConcat axis (List.ofFn k) = .error .notImplemented := by
  obtain ⟨k', rev, hp, hk'⟩ := preprocess_ok' h
  rw [List.ofFn_succ]
  unfold fanInConcat
  simp only [hp]
  rw [if_neg (by simpa using h0), hax]
  simp only [Int.toNat_natCast]
  rw [if_neg, if_pos]
  · refine ⟨hc, ?_⟩
    rw [List.all_eq_false]
    refine ⟨k' r, List.mem_ofFn.2 ⟨r, rfl⟩, ?_⟩
    rw [(hk' r).2.2.1.2.2.2.2.2.2.1, hr]
    simp
  · rw [not_not]
    intro x hx
    obtain ⟨r, rfl⟩ := List.mem_ofFn.1 hx
    rw [(hk' r).2.2.1.2.2.2.2.1, (hk' r).2.2.1.2.2.2.2.2.1]
    exact hshape r

/-- Branches whose shapes differ at another axis are rejected. -/
theorem shapes_rejected (k : Fin (m + 1) → Kernel α) (L : Fin (m + 1) → Logical α) (h : Aligned k L)
    (axis : ℤ) (ax : ℕ) (h0 : (k 0).shape1 ≠ []) (hax : axis % ((k 0).shape1.length : ℤ) = ax)
    (r : Fin (m + 1))
    (hr : (k r).shape1.eraseIdx ax ≠ (k 0).shape1.eraseIdx ax ∨
      (k r).shape2.eraseIdx ax ≠ (k 0).shape2.eraseIdx ax) :
    fanInConcat axis (List.ofFn k) = .error .valueError := by
  obtain ⟨k', rev, hp, hk'⟩ := preprocess_ok' h
  rw [List.ofFn_succ]
  unfold fanInConcat
  simp only [hp]
  rw [if_neg (by simpa using h0), hax]
  simp only [Int.toNat_natCast]
  rw [if_pos]
  intro hx
  obtain ⟨h1, h2⟩ := hx (k' r) (List.mem_ofFn.2 ⟨r, rfl⟩)
  rw [(hk' r).2.2.1.2.2.2.2.1] at h1
  rw [(hk' r).2.2.1.2.2.2.2.2.1] at h2
  rcases hr with hr | hr
  · exact hr h1
  · exact hr h2

/-- Branches in different layouts or with different batch or channel axes are rejected. -/
theorem layout_rejected (axis : ℤ) (k0 : Kernel α) (ks : List (Kernel α)) (k : Kernel α) (hk : k ∈ ks)
    (h : k.diagonalBatch ≠ k0.diagonalBatch ∨ k.diagonalSpatial ≠ k0.diagonalSpatial ∨
      k.batchAxis ≠ k0.batchAxis ∨ k.channelAxis ≠ k0.channelAxis) :
    fanInConcat axis (k0 :: ks) = .error .notImplemented := by
  have : ¬ ∀ k ∈ ks, k.diagonalBatch = k0.diagonalBatch ∧ k.diagonalSpatial = k0.diagonalSpatial ∧
      k.batchAxis = k0.batchAxis ∧ k.channelAxis = k0.channelAxis := by
    intro hx
    obtain ⟨h1, h2, h3, h4⟩ := hx k hk
    rcases h with h | h | h | h
    · exact h h1
    · exact h h2
    · exact h h3
    · exact h h4
  simp only [fanInConcat, preprocessFanIn, if_neg this]

/-! ## The random functions -/

section functions
open MeasureTheory

variable {E : Type} [NormedAddCommGroup E] [InnerProductSpace ℝ E] [CompleteSpace E]
  [MeasurableSpace E]

/-- Functions of different branches have second moment and tangent kernel zero. -/
def Independent (μ : Measure E) (f g : Fin (m + 1) → ℕ → List ℕ → E → ℝ) : Prop :=
  ∀ r r' i j p q, r ≠ r' →
    secondMoment μ (f r i p) (g r' j q) = 0 ∧ tangent μ (f r i p) (g r' j q) = 0

/-- The block arrangement along a spatial axis is the kernel of the functions concatenated along that
axis. -/
theorem spatial_exact (μ : Measure E) (s : ℕ) (L : Fin (m + 1) → Logical ℝ) (L' : Logical ℝ)
    (hL : SpatialConcat s L L') (hs1 : s < (L 0).S1.length) (hs2 : s < (L 0).S2.length)
    (hn : ∀ r, (L r).n1 = (L 0).n1 ∧ (L r).n2 = (L 0).n2)
    (hS : ∀ r, (L r).S1 = (L 0).S1.set s ((L r).S1.getD s 0) ∧ (L r).S2 = (L 0).S2.set s ((L r).S2.getD s 0))
    (f1 f2 : Fin (m + 1) → ℕ → List ℕ → E → ℝ) (hf : ∀ r, KernelOf μ (f1 r) (f2 r) (L r))
    (h12 : Independent μ f1 f2) (h11 : Independent μ f1 f1) (h22 : Independent μ f2 f2)
    (g1 g2 : ℕ → List ℕ → E → ℝ)
    (hg1 : ∀ r i p, InRange p (L r).S1 → g1 i (shift s (sizes s fun r => (L r).S1) r p) = f1 r i p)
    (hg2 : ∀ r i p, InRange p (L r).S2 → g2 i (shift s (sizes s fun r => (L r).S2) r p) = f2 r i p) :
    KernelOf μ g1 g2 L' := by
  have ex : ∀ (S : Fin (m + 1) → List ℕ), (∀ r, S r = (S 0).set s ((S r).getD s 0)) → s < (S 0).length →
      ∀ p, InRange p ((S 0).set s (∑ r, (S r).getD s 0)) →
      ∃ r p', InRange p' (S r) ∧ p = shift s (sizes s S) r p' := by
    intro S hS hs p hp
    obtain ⟨r, e, h1, h2, h3⟩ := exists_shift (n := sizes s S) hs hp
    refine ⟨r, p.set s e, by rw [hS r]; exact h3, ?_⟩
    have hl : p.length = (S 0).length := by simpa using hp.length
    rw [shift_set _ _ (by omega), h2]
  have ex1 := ex (fun r => (L r).S1) (fun r => (hS r).1) hs1
  have ex2 := ex (fun r => (L r).S2) (fun r => (hS r).2) hs2
  refine ⟨?_, ?_, ?_, ?_⟩
  · intro i j p q hi hj hp hq
    obtain ⟨r, p', hp', rfl⟩ := ex1 p (hL.S1 ▸ hp)
    obtain ⟨r', q', hq', rfl⟩ := ex2 q (hL.S2 ▸ hq)
    rw [hL.k12 r r' _ p' q' hp' hq', hg1 r i p' hp', hg2 r' j q' hq']
    split
    · rename_i hr
      subst hr
      exact (hf r).k12 i j p' q' (by rw [(hn r).1, ← hL.n1]; exact hi) (by rw [(hn r).2, ← hL.n2]; exact hj)
        hp' hq'
    · rename_i hr
      exact (h12 r r' i j p' q' hr).1.symm
  · intro i j p q hi hj hp hq
    obtain ⟨r, p', hp', rfl⟩ := ex1 p (hL.S1 ▸ hp)
    obtain ⟨r', q', hq', rfl⟩ := ex1 q (hL.S1 ▸ hq)
    rw [hL.k11 r r' _ p' q' hp' hq', hg1 r i p' hp', hg1 r' j q' hq']
    split
    · rename_i hr
      subst hr
      exact (hf r).k11 i j p' q' (by rw [(hn r).1, ← hL.n1]; exact hi) (by rw [(hn r).1, ← hL.n1]; exact hj)
        hp' hq'
    · rename_i hr
      exact (h11 r r' i j p' q' hr).1.symm
  · intro F hF i j p q hi hj hp hq
    rcases hL.k22 with ⟨-, h0⟩ | ⟨G, G', hG, hG', hb⟩
    · rw [h0] at hF
      cases hF
    obtain rfl : G' = F := by rw [hG'] at hF; exact Option.some.inj hF
    obtain ⟨r, p', hp', rfl⟩ := ex2 p (hL.S2 ▸ hp)
    obtain ⟨r', q', hq', rfl⟩ := ex2 q (hL.S2 ▸ hq)
    rw [hb r r' _ p' q' hp' hq', hg2 r i p' hp', hg2 r' j q' hq']
    split
    · rename_i hr
      subst hr
      exact (hf r).k22 (G r) (hG r) i j p' q' (by rw [(hn r).2, ← hL.n2]; exact hi)
        (by rw [(hn r).2, ← hL.n2]; exact hj) hp' hq'
    · rename_i hr
      exact (h22 r r' i j p' q' hr).1.symm
  · intro F hF i j p q hi hj hp hq
    rcases hL.ntk with ⟨-, h0⟩ | ⟨G, G', hG, hG', hb⟩
    · rw [h0] at hF
      cases hF
    obtain rfl : G' = F := by rw [hG'] at hF; exact Option.some.inj hF
    obtain ⟨r, p', hp', rfl⟩ := ex1 p (hL.S1 ▸ hp)
    obtain ⟨r', q', hq', rfl⟩ := ex2 q (hL.S2 ▸ hq)
    rw [hb r r' _ p' q' hp' hq', hg1 r i p' hp', hg2 r' j q' hq']
    split
    · rename_i hr
      subst hr
      exact (hf r).ntk (G r) (hG r) i j p' q' (by rw [(hn r).1, ← hL.n1]; exact hi)
        (by rw [(hn r).2, ← hL.n2]; exact hj) hp' hq'
    · rename_i hr
      exact (h12 r r' i j p' q' hr).2.symm

/-- The block arrangement along the batch is the kernel of the functions concatenated along the batch. -/
theorem batch_exact (μ : Measure E) (L : Fin (m + 1) → Logical ℝ) (L' : Logical ℝ)
    (hL : BatchConcat L L') (hS : ∀ r, (L r).S1 = (L 0).S1 ∧ (L r).S2 = (L 0).S2)
    (f1 f2 : Fin (m + 1) → ℕ → List ℕ → E → ℝ) (hf : ∀ r, KernelOf μ (f1 r) (f2 r) (L r))
    (h12 : Independent μ f1 f2) (h11 : Independent μ f1 f1) (h22 : Independent μ f2 f2)
    (g1 g2 : ℕ → List ℕ → E → ℝ)
    (hg1 : ∀ r i p, i < (L r).n1 → g1 (offset (fun r => (L r).n1) r + i) p = f1 r i p)
    (hg2 : ∀ r i p, i < (L r).n2 → g2 (offset (fun r => (L r).n2) r + i) p = f2 r i p) :
    KernelOf μ g1 g2 L' := by
  refine ⟨?_, ?_, ?_, ?_⟩
  · intro i j p q hi hj hp hq
    obtain ⟨r, i, hi', rfl⟩ := exists_block _ (hL.n1 ▸ hi)
    obtain ⟨r', j, hj', rfl⟩ := exists_block _ (hL.n2 ▸ hj)
    rw [hL.k12 r r' i j p q hi' hj', hg1 r i p hi', hg2 r' j q hj']
    split
    · rename_i hr
      subst hr
      exact (hf r).k12 i j p q hi' hj' (by rw [(hS r).1, ← hL.S1]; exact hp)
        (by rw [(hS r).2, ← hL.S2]; exact hq)
    · rename_i hr
      exact (h12 r r' i j p q hr).1.symm
  · intro i j p q hi hj hp hq
    obtain ⟨r, i, hi', rfl⟩ := exists_block _ (hL.n1 ▸ hi)
    obtain ⟨r', j, hj', rfl⟩ := exists_block _ (hL.n1 ▸ hj)
    rw [hL.k11 r r' i j p q hi' hj', hg1 r i p hi', hg1 r' j q hj']
    split
    · rename_i hr
      subst hr
      exact (hf r).k11 i j p q hi' hj' (by rw [(hS r).1, ← hL.S1]; exact hp)
        (by rw [(hS r).1, ← hL.S1]; exact hq)
    · rename_i hr
      exact (h11 r r' i j p q hr).1.symm
  · intro F hF i j p q hi hj hp hq
    rcases hL.k22 with ⟨-, h0⟩ | ⟨G, G', hG, hG', hb⟩
    · rw [h0] at hF
      cases hF
    obtain rfl : G' = F := by rw [hG'] at hF; exact Option.some.inj hF
    obtain ⟨r, i, hi', rfl⟩ := exists_block _ (hL.n2 ▸ hi)
    obtain ⟨r', j, hj', rfl⟩ := exists_block _ (hL.n2 ▸ hj)
    rw [hb r r' i j p q hi' hj', hg2 r i p hi', hg2 r' j q hj']
    split
    · rename_i hr
      subst hr
      exact (hf r).k22 (G r) (hG r) i j p q hi' hj' (by rw [(hS r).2, ← hL.S2]; exact hp)
        (by rw [(hS r).2, ← hL.S2]; exact hq)
    · rename_i hr
      exact (h22 r r' i j p q hr).1.symm
  · intro F hF i j p q hi hj hp hq
    rcases hL.ntk with ⟨-, h0⟩ | ⟨G, G', hG, hG', hb⟩
    · rw [h0] at hF
      cases hF
    obtain rfl : G' = F := by rw [hG'] at hF; exact Option.some.inj hF
    obtain ⟨r, i, hi', rfl⟩ := exists_block _ (hL.n1 ▸ hi)
    obtain ⟨r', j, hj', rfl⟩ := exists_block _ (hL.n2 ▸ hj)
    rw [hb r r' i j p q hi' hj', hg1 r i p hi', hg2 r' j q hj']
    split
    · rename_i hr
      subst hr
      exact (hf r).ntk (G r) (hG r) i j p q hi' hj' (by rw [(hS r).1, ← hL.S1]; exact hp)
        (by rw [(hS r).2, ← hL.S2]; exact hq)
    · rename_i hr
      exact (h12 r r' i j p q hr).2.symm

/-- The weighted average is what averaging over all channels of the concatenation gives: if the content of
branch `r` is the average over its `w r` channels of second moments (or of tangent kernels) `v r c`, then
the content of the concatenation is the average over the channels of all branches. -/
theorem channel_average (w : Fin (m + 1) → ℕ) (hw : ∀ r, 0 < w r) (v : (r : Fin (m + 1)) → Fin (w r) → ℝ)
    (x : Fin (m + 1) → ℝ) (hx : ∀ r, x r = (∑ c, v r c) / w r) :
    (∑ r, (w r : ℝ) * x r) / ∑ r, (w r : ℝ) =
      (∑ c : (r : Fin (m + 1)) × Fin (w r), v c.1 c.2) / Fintype.card ((r : Fin (m + 1)) × Fin (w r)) := by
  rw [Fintype.sum_sigma, Fintype.card_sigma]
  simp only [Fintype.card_fin, Nat.cast_sum]
  congr 1
  refine Finset.sum_congr rfl fun r _ => ?_
  have : (w r : ℝ) ≠ 0 := Nat.cast_ne_zero.2 (hw r).ne'
  rw [hx r]
  field_simp

end functions

/-! ## Examples -/

section Examples

/-- Two branches over positions in grids of 2 x 3 and 2 x 1; the second stores its axes reversed. -/
def exL (r : Fin 2) : Logical ℚ :=
  ⟨1, 1, [2, if r = 0 then 3 else 1], [2, if r = 0 then 3 else 1],
    fun _ p q => (r : ℚ) + (p.getD 0 0) + 10 * q.getD 1 0, fun _ _ _ => 1, none,
    some fun _ p _ => (r : ℚ) + (p.getD 1 0)⟩

def exK (r : Fin 2) : Kernel ℚ :=
  { Logical.encode (exL r) true false (r = 1) with isGaussian := true }

lemma exAligned : Aligned exK exL :=
  ⟨fun r => by
    have h := Logical.encode_stores (exL r) true false (decide (r = 1)) (by simp) rfl
    exact ⟨h.nngp, h.cov1, h.cov2, h.ntk⟩, fun _ => rfl, fun _ => rfl, fun _ => rfl,
    fun r => by fin_cases r <;> rfl, fun h => by simp [exK, Logical.encode] at h⟩

/-- Concatenation along the second spatial axis (axis -2 of the activations of shape `(1, 2, 3, 1)`). -/
example : ∃ k' L', fanInConcat (-2) (List.ofFn exK) = .ok k' ∧ k'.Stores L' ∧ L'.S1 = [2, 4] ∧
    k'.shape1 = [1, 2, 4, 1] ∧ L'.k12 [0, 0] [1, 2] [0, 1] = 11 ∧ L'.k12 [0, 0] [1, 2] [0, 3] = 0 ∧
    L'.k12 [0, 0] [1, 3] [0, 3] = 2 := by
  obtain ⟨k', L', h1, h2, h3, -, -, -, -, h4, -⟩ := spatial_content exK exL exAligned (-2) 2 1
    (by decide) (by decide) (by decide) (by decide) (by decide) (by decide) (by decide)
    (by decide) (by decide) false true (by decide) (by decide)
    (by
      intro r a ha
      have h := (exAligned.stores r).ntk
      rw [ha] at h
      have h' : (a.shape = [] ∧ ∀ b p q : List ℕ, (r : ℚ) + (p.getD 1 0) = a.get []) ∨ _ := h
      rcases h' with ⟨-, h'⟩ | h'
      · exfalso
        have e1 := h' [] [0, 0] []
        have e2 := h' [] [0, 1] []
        rw [← e2] at e1
        simp at e1
      · exact h'.ne_nil (by simp))
    (by decide)
  refine ⟨k', L', h1, h2, ?_, ?_, ?_, ?_, ?_⟩
  · rw [h3.S1]; decide
  · rw [h4]; decide
  · have := h3.k12 0 0 [0, 0] [1, 2] [0, 1] (by decide) (by decide)
    rw [if_pos rfl] at this
    exact this.trans (by norm_num [exL])
  · have := h3.k12 0 1 [0, 0] [1, 2] [0, 0] (by decide) (by decide)
    exact this.trans (by simp)
  · have := h3.k12 1 1 [0, 0] [1, 0] [0, 0] (by decide) (by decide)
    rw [if_pos rfl] at this
    exact this.trans (by norm_num [exL])

/-- Two branches with two and one examples, batch-diagonal covariances. -/
def exB (r : Fin 2) : Logical ℚ :=
  ⟨if r = 0 then 2 else 1, 1, [3], [3], fun b p q => (r : ℚ) + b.getD 0 0 + (p.getD 0 0) + 10 * q.getD 0 0,
    fun b _ _ => b.getD 0 0 + b.getD 1 0, none, none⟩

def exBK (r : Fin 2) : Kernel ℚ :=
  { Logical.encode (exB r) true true false with isGaussian := true }

lemma exBAligned : Aligned exBK exB :=
  ⟨fun r => by
    have h := Logical.encode_stores (exB r) true true false (fun _ => rfl) rfl
    exact ⟨h.nngp, h.cov1, h.cov2, h.ntk⟩, fun _ => rfl, fun _ => rfl, fun _ => rfl,
    fun r => by fin_cases r <;> rfl, fun _ _ => rfl⟩

/-- Concatenation along the batch: three examples and two. -/
example : ∃ k' L', fanInConcat 0 (List.ofFn exBK) = .ok k' ∧ k'.Stores L' ∧ L'.n1 = 3 ∧ L'.n2 = 2 ∧
    k'.shape1 = [3, 3, 1] ∧ L'.k12 [1, 0] [2] [1] = 13 ∧ L'.k12 [1, 1] [2] [1] = 0 ∧
    L'.k12 [2, 1] [2] [1] = 13 := by
  obtain ⟨k', L', h1, h2, h3, -, -, -, -, h4, -⟩ := batch_content exBK exB exBAligned 0
    (by decide) (by decide) (by decide) (by decide) (by decide) false false (by decide) (by decide)
    (by
      intro r a ha
      simp [exBK, Logical.encode, exB] at ha)
    (by decide)
  refine ⟨k', L', h1, h2, ?_, ?_, ?_, ?_, ?_, ?_⟩
  · rw [h3.n1]; decide
  · rw [h3.n2]; decide
  · rw [h4]; decide
  · have := h3.k12 0 0 1 0 [2] [1] (by decide) (by decide)
    rw [if_pos rfl] at this
    exact this.trans (by norm_num [exB])
  · have := h3.k12 0 1 1 0 [2] [1] (by decide) (by decide)
    exact this.trans (by simp)
  · have := h3.k12 1 1 0 0 [2] [1] (by decide) (by decide)
    rw [if_pos rfl] at this
    exact this.trans (by norm_num [exB])

/-- Two branches of widths 1 and 3. -/
def exC (r : Fin 2) : Logical ℚ :=
  ⟨1, 1, [2, 3], [2, 3], fun _ p q => 4 * (r : ℚ) + (p.getD 0 0) + 10 * q.getD 1 0, fun _ _ _ => 1, none,
    some fun _ _ _ => 0⟩

def exCK (r : Fin 2) : Kernel ℚ :=
  { Logical.encode (exC r) true false (r = 0) with
    shape1 := [1, 2, 3, if r = 0 then 1 else 3], shape2 := [1, 2, 3, if r = 0 then 1 else 3] }

/-- Concatenation along the channels: weights 1/4 and 3/4. -/
example : ∃ k' L', fanInConcat (-1) (List.ofFn exCK) = .ok k' ∧ k'.Stores L' ∧ k'.shape1 = [1, 2, 3, 4] ∧
    L'.k12 [0, 0] [1, 0] [0, 2] = 24 ∧ k'.isGaussian = false := by
  obtain ⟨k', h1, h2, -, -, -, -, h4, -, h5⟩ := channel_content exCK exC
    ⟨fun r => by
      have h := Logical.encode_stores (exC r) true false (decide (r = 0)) (by simp) rfl
      exact ⟨h.nngp, h.cov1, h.cov2, h.ntk⟩, fun _ => rfl, fun _ => rfl, fun _ => rfl,
      fun r => by fin_cases r <;> rfl, fun h => by simp [exCK, Logical.encode] at h,
      fun _ => ⟨rfl, rfl, rfl, rfl⟩⟩ (-1)
    (by decide) (by decide) (by decide) (fun r => if r = 0 then 1 else 3) (by decide) (by decide)
    false true (by decide) (by decide)
  refine ⟨k', _, h1, h2, ?_, ?_, h5⟩
  · rw [h4]; decide
  · norm_num [channelL, exC, Fin.sum_univ_succ]

end Examples
end NT.C40
