import Verif.Lemmas.Aggregate6
import Verif.Props.C16

/-!
# C58: graph aggregation

`Spec.aggregate` sums over the senders of a vertex, `Spec.aggregateLogical` lists the covariances `A₁ᵀ K A₂`; `Spec.denseWeight` and
`Spec.edgeWeight` are the weights of the two kinds of patterns.
-/

namespace NT.C58
open NT Spec NT.Aggregate NT.KernelDot MeasureTheory
open NT.Arr
open scoped BigOperators

/-- The aggregated axis numbers of the layer for inputs of rank `n`. -/
def Aggregated (l : Layer) (n ba ca d : ℕ) : Prop :=
  match l.axes with
  | none => d < n ∧ d ≠ ba ∧ d ≠ ca
  | some ax => ∃ i ∈ ax, C16.Denotes n i d

/-- The layer aggregates the axes `agg` (in increasing order) of inputs of rank `n` with batch axis `ba` and channel axis `ca`. -/
structure Describes (l : Layer) (n : ℕ) (agg : List ℕ) (ba ca : ℕ) : Prop where
  batch : C16.Denotes n l.batchAxis ba
  channel : C16.Denotes n l.channelAxis ca
  ne : ba ≠ ca
  valid : ∀ ax, l.axes = some ax → ∀ i ∈ ax, ∃ d, C16.Denotes n i d
  sorted : agg.Pairwise (· < ·)
  mem : ∀ d, d ∈ agg ↔ Aggregated l n ba ca d
  nba : ba ∉ agg
  nca : ca ∉ agg

variable {l : Layer} {n : ℕ} {agg : List ℕ} {ba ca : ℕ}

lemma Describes.axes (h : Describes l n agg ba ca) : Axes n agg ba ca := by
  refine ⟨h.sorted, fun a ha => ?_, h.batch.1, h.channel.1, h.ne, h.nba, h.nca⟩
  have := (h.mem a).1 ha
  unfold Aggregated at this
  split at this
  · exact this.1
  · obtain ⟨i, -, hi⟩ := this
    exact hi.1

lemma denotes_mod {i : ℤ} {d : ℕ} (h : C16.Denotes n i d) : (i % (n : ℤ)).toNat = d := by
  obtain ⟨h1, rfl | rfl⟩ := h
  · rw [← Int.natCast_mod, Int.toNat_natCast, Nat.mod_eq_of_lt h1]
  · rw [Int.sub_emod_right, ← Int.natCast_mod, Int.toNat_natCast, Nat.mod_eq_of_lt h1]

lemma eq_of_sorted {u v : List ℕ} (hu : u.Pairwise (· < ·)) (hv : v.Pairwise (· < ·)) (h : ∀ a, a ∈ u ↔ a ∈ v) : u = v :=
  ((List.perm_ext_iff_of_nodup (hu.imp fun h => ne_of_lt h) (hv.imp fun h => ne_of_lt h)).2 h).eq_of_pairwise
    (le := (· < ·)) (fun _ _ _ _ h1 h2 => absurd h1 (lt_asymm h2)) hu hv

lemma Describes.aggAxes (h : Describes l n agg ba ca) : l.aggAxes n = .ok (agg, ba, ca) := by
  have hm := h.mem
  have hv := h.valid
  unfold Layer.aggAxes
  unfold Aggregated at hm
  rw [denotes_mod h.batch, denotes_mod h.channel]
  cases hax : l.axes with
  | none =>
    simp only [hax] at hm
    simp only
    congr 2
    refine eq_of_sorted (List.Pairwise.filter _ List.pairwise_lt_range) h.sorted fun a => ?_
    rw [hm]
    simp
  | some ax =>
    simp only [hax] at hm
    obtain ⟨S, h1, h2⟩ := C16.canonicalizeAxis_denotes ax n (hv ax hax)
    simp only [h1, bind, Except.bind, pure, Except.pure]
    congr 2
    refine eq_of_sorted (List.Pairwise.filter _ List.pairwise_lt_range) h.sorted fun a => ?_
    rw [hm, List.mem_filter, List.mem_range, decide_eq_true_eq, h2]
    exact ⟨fun e => e.2, fun e => ⟨e.choose_spec.2.1, e⟩⟩

/-! ## Activations -/

/-- The dense implementation: every entry is the sum of the entries at the senders, weighted by the pattern of the example. -/
theorem dense_activations (x A : Arr ℝ) (h : Describes l x.ndim agg ba ca)
    (hA : A.shape = [x.shape.getD ba 0] ++ gather agg x.shape ++ gather agg x.shape) :
    ∃ y, l.apply x (some (.inl A)) = .ok y ∧ y.shape = x.shape ∧
      ∀ i, InRange i x.shape → y.get i = aggregate (gather agg x.shape) agg ba (denseWeight A) x.get i := by
  obtain ⟨y, h1, h2, h3⟩ := applyDense_ok l x A h.aggAxes h.axes hA
  exact ⟨y, h1, h2, fun i hi => h3 i hi.length⟩

/-- The sparse implementation: the same with the number of edges as weight; repeated edges count repeatedly, edges with a negative coordinate
of the receiver (and of the sender, see `negative_sender_wrong`) do not count. -/
theorem sparse_activations (x : Arr ℝ) (pattern : Arr ℤ) (h : Describes l x.ndim agg ba ca)
    (hp : IsEdgeList pattern (x.shape.getD ba 0) agg.length) (hs : Senders (gather agg x.shape) pattern) :
    ∃ y, l.apply x (some (.inr pattern)) = .ok y ∧ y.shape = x.shape ∧
      ∀ i, InRange i x.shape → y.get i = aggregate (gather agg x.shape) agg ba (edgeWeight (gather agg x.shape) pattern) x.get i :=
  applySparse_ok l x pattern h.aggAxes h.axes hp hs

/-- The adjacency array `A` (axes: example, sender, receiver) counts the edges of the edge list. -/
def Counts (B : ℕ) (G : List ℕ) (A : Arr ℝ) (pattern : Arr ℤ) : Prop :=
  ∀ b c q, b < B → InRange c G → InRange q G → A.get (b :: c ++ q) = edgeWeight G pattern b c q

/-- Both implementations compute the same activations from equivalent patterns. -/
theorem same_activations (x A : Arr ℝ) (pattern : Arr ℤ) (h : Describes l x.ndim agg ba ca)
    (hA : A.shape = [x.shape.getD ba 0] ++ gather agg x.shape ++ gather agg x.shape)
    (hp : IsEdgeList pattern (x.shape.getD ba 0) agg.length) (hs : Senders (gather agg x.shape) pattern)
    (hc : Counts (x.shape.getD ba 0) (gather agg x.shape) A pattern) :
    ∃ y y', l.apply x (some (.inl A)) = .ok y ∧ l.apply x (some (.inr pattern)) = .ok y' ∧ y ≋ y' := by
  obtain ⟨y, h1, h2, h3⟩ := dense_activations x A h hA
  obtain ⟨y', h1', h2', h3'⟩ := sparse_activations x pattern h hp hs
  refine ⟨y, y', h1, h1', h2.trans h2'.symm, fun i hi => ?_⟩
  rw [h2] at hi
  rw [h3 i hi, h3' i hi]
  unfold aggregate
  refine Finset.sum_congr rfl fun c hcc => ?_
  have := hc _ c _ ((inRange_iff.1 hi).2 ba h.axes.hba) (mem_box.1 hcc) (gather_inRange hi h.axes.lt)
  exact congrArg (· * x.get (putAt agg c i)) this

/-- Aggregation acts on every channel separately. -/
theorem channelwise (h : Describes l n agg ba ca) (P : List ℕ) (hP : P.length + 2 = n) (i ch : ℕ) (G : List ℕ) (w : ℕ → List ℕ → List ℕ → ℝ) (x : List ℕ → ℝ) :
    aggregate G agg ba w x (actIdx ba ca i ch P) = aggregateAt G (agg.map (spIdx ba ca)) (w i) (fun p => x (actIdx ba ca i ch p)) P := by
  rw [← axPos_eq]
  exact aggregate_act h.axes hP i ch G w x

/-! ## Kernels -/

/-- The dense implementation of the kernel: `A₁ᵀ K A₂` for every pair of examples, in every layout of the batch and order of the spatial
axes; the result is not reversed and the batch and channel axes are those of the inputs.  `spIdx ba ca a` is the place of axis `a` among the
spatial axes. -/
theorem dense_kernel (k : Kernel ℝ) (L : Logical ℝ) (hk : k.Stores L) (hs : C28.Shapes k L) (A1 A2 : Arr ℝ)
    (h : Describes l k.shape1.length agg k.batchAxis k.channelAxis)
    (hA1 : A1.shape = [k.shape1.getD k.batchAxis 0] ++ gather agg k.shape1 ++ gather agg k.shape1)
    (hA2 : A2.shape = [k.shape2.getD k.batchAxis 0] ++ gather agg k.shape2 ++ gather agg k.shape2)
    (hds : k.diagonalSpatial = false) (hsc : ∀ a, k.ntk = some a → a.shape = [] → a.get [] = 0) :
    ∃ k', l.kernel k (.inl (some A1, some A2)) = .ok k' ∧
      k'.Stores (aggregateLogical (gather agg k.shape1) (gather agg k.shape2) (agg.map (spIdx k.batchAxis k.channelAxis)) (denseWeight A1) (denseWeight A2) L) ∧
      k'.static = { k with isReversed := false }.static ∧ (k'.mask1, k'.mask2, k'.x1IsX2) = (k.mask1, k.mask2, k.x1IsX2) := by
  obtain ⟨k', h1, h2, h3, h4, -⟩ := kernelDense_ok l k L hk hs A1 A2 h.aggAxes h.axes rfl rfl hA1 hA2 hds hsc
  rw [axPos_eq] at h2
  exact ⟨k', h1, h2, h3, h4⟩

/-- The sparse implementation of the kernel, for inputs with equal aggregated axes and spatial axes in their order (see `sparse_reversed_wrong`). -/
theorem sparse_kernel_partial (k : Kernel ℝ) (L : Logical ℝ) (hk : k.Stores L) (hs : C28.Shapes k L) (p1 p2 : Arr ℤ)
    (h : Describes l k.shape1.length agg k.batchAxis k.channelAxis) (G : List ℕ) (hG1 : gather agg k.shape1 = G) (hG2 : gather agg k.shape2 = G)
    (hp1 : IsEdgeList p1 (k.shape1.getD k.batchAxis 0) agg.length) (hp2 : IsEdgeList p2 (k.shape2.getD k.batchAxis 0) agg.length)
    (hs1 : Senders G p1) (hs2 : Senders G p2)
    (hds : k.diagonalSpatial = false) (hrev : k.isReversed = false) (hsc : ∀ a, k.ntk = some a → a.shape = [] → a.get [] = 0) :
    ∃ k', l.kernel k (.inr (some p1, some p2)) = .ok k' ∧
      k'.Stores (aggregateLogical G G (agg.map (spIdx k.batchAxis k.channelAxis)) (edgeWeight G p1) (edgeWeight G p2) L) ∧
      k'.static = k.static ∧ (k'.mask1, k'.mask2, k'.x1IsX2) = (k.mask1, k.mask2, k.x1IsX2) := by
  obtain ⟨k', h1, h2, h3, h4, -⟩ := kernelSparse_ok l k L hk hs p1 p2 h.aggAxes h.axes rfl rfl hG1 hG2 hp1 hp2 hs1 hs2 hds hrev hsc
  rw [axPos_eq] at h2
  exact ⟨k', h1, h2, h3, h4⟩

lemma aggregateCov_congr {G ax S T : List ℕ} {w w' v v' : ℕ → List ℕ → List ℕ → ℝ} {B1 B2 : ℕ} (hS : gather ax S = G) (hT : gather ax T = G)
    (hax : ∀ a ∈ ax, a < S.length) (hax' : ∀ a ∈ ax, a < T.length)
    (hw : ∀ b c q, b < B1 → InRange c G → InRange q G → w b c q = w' b c q) (hv : ∀ b c q, b < B2 → InRange c G → InRange q G → v b c q = v' b c q)
    (F : List ℕ → List ℕ → List ℕ → ℝ) (b P Q : List ℕ) (hb : InRange b [B1, B2]) (hP : InRange P S) (hQ : InRange Q T) :
    aggregateCov G G ax w v F b P Q = aggregateCov G G ax w' v' F b P Q := by
  unfold aggregateCov
  refine Finset.sum_congr rfl fun c hc => Finset.sum_congr rfl fun c' hc' => ?_
  have h1 := (inRange_iff.1 hb).2 0 (by simp)
  have h2 := (inRange_iff.1 hb).2 1 (by simp)
  rw [hw _ c _ h1 (mem_box.1 hc) (hS ▸ gather_inRange hP hax), hv _ c' _ h2 (mem_box.1 hc') (hT ▸ gather_inRange hQ hax')]

lemma dbl_inRange {db : Bool} {m : ℕ} {b : List ℕ} (h : InRange b (batchShape db m)) : InRange (dbl b) [m, m] := by
  have hl := h.length
  cases db
  · rw [C28.dbl_two b (by simpa [batchShape] using hl)]; exact h
  · obtain ⟨i, rfl⟩ := List.length_eq_one_iff.1 (by simpa [batchShape] using hl)
    simp only [batchShape, if_true, InRange, List.forall₂_cons] at h
    simp [dbl, InRange, h.1]

/-- Both implementations compute the same kernel from equivalent patterns. -/
theorem same_kernel_partial (k : Kernel ℝ) (L : Logical ℝ) (hk : k.Stores L) (hs : C28.Shapes k L) (A1 A2 : Arr ℝ) (p1 p2 : Arr ℤ)
    (h : Describes l k.shape1.length agg k.batchAxis k.channelAxis) (G : List ℕ) (hG1 : gather agg k.shape1 = G) (hG2 : gather agg k.shape2 = G)
    (hA1 : A1.shape = [k.shape1.getD k.batchAxis 0] ++ G ++ G) (hA2 : A2.shape = [k.shape2.getD k.batchAxis 0] ++ G ++ G)
    (hp1 : IsEdgeList p1 (k.shape1.getD k.batchAxis 0) agg.length) (hp2 : IsEdgeList p2 (k.shape2.getD k.batchAxis 0) agg.length)
    (hs1 : Senders G p1) (hs2 : Senders G p2)
    (hc1 : Counts (k.shape1.getD k.batchAxis 0) G A1 p1) (hc2 : Counts (k.shape2.getD k.batchAxis 0) G A2 p2)
    (hds : k.diagonalSpatial = false) (hrev : k.isReversed = false) (hsc : ∀ a, k.ntk = some a → a.shape ≠ []) :
    ∃ k1 k2, l.kernel k (.inl (some A1, some A2)) = .ok k1 ∧ l.kernel k (.inr (some p1, some p2)) = .ok k2 ∧
      k1.nngp ≋ k2.nngp ∧ k1.cov1 ≋ k2.cov1 ∧ OptRel (· ≋ ·) k1.cov2 k2.cov2 ∧ OptRel (· ≋ ·) k1.ntk k2.ntk ∧ k1.static = k2.static := by
  obtain ⟨k1, h1, h2, h3, -, h5⟩ := kernelDense_ok l k L hk hs A1 A2 h.aggAxes h.axes rfl rfl (hG1.symm ▸ hA1) (hG2.symm ▸ hA2) hds
    (fun a ha e => absurd e (hsc a ha))
  obtain ⟨k2, g1, g2, g3, -, g5⟩ := kernelSparse_ok l k L hk hs p1 p2 h.aggAxes h.axes rfl rfl hG1 hG2 hp1 hp2 hs1 hs2 hds hrev
    (fun a ha e => absurd e (hsc a ha))
  have hst : k1.static = k2.static := by
    rw [h3, g3]
    unfold Kernel.static
    simp [hrev]
  have hlt := axPos_lt h.axes
  have hL1 : L.S1.length = (spatialAxes k.shape1.length k.batchAxis k.channelAxis).length := by rw [hs.S1]; simp
  have hL2 : L.S2.length = (spatialAxes k.shape1.length k.batchAxis k.channelAxis).length := by rw [hs.S2]; simp
  have e1 : gather (axPos k.batchAxis k.channelAxis agg) L.S1 = G := by rw [hs.S1, gather_axPos h.axes, ← hG1]; rfl
  have e2 : gather (axPos k.batchAxis k.channelAxis agg) L.S2 = G := by rw [hs.S2, gather_axPos h.axes, ← hG2]; rfl
  have hlt1 : ∀ a ∈ axPos k.batchAxis k.channelAxis agg, a < L.S1.length := fun a ha => hL1 ▸ hlt a ha
  have hlt2 : ∀ a ∈ axPos k.batchAxis k.channelAxis agg, a < L.S2.length := fun a ha => hL2 ▸ hlt a ha
  rw [hG1, hG2] at h2
  have hn1 := hs.n1
  have hn2 := hs.n2
  rw [← hn1] at hc1
  rw [← hn2] at hc2
  have h2' : k1.Stores (aggregateLogical G G (axPos k.batchAxis k.channelAxis agg) (edgeWeight G p1) (edgeWeight G p2) L) := by
    obtain ⟨q1, q2, q3, q4⟩ := h2
    refine ⟨holds_congr q1 fun b p q hb hp hq => aggregateCov_congr e1 e2 hlt1 hlt2 hc1 hc2 _ b p q hb hp hq,
      holds_congr q2 fun b p q hb hp hq => aggregateCov_congr e1 e1 hlt1 hlt1 hc1 hc1 _ _ p q (dbl_inRange hb) hp hq, ?_, ?_⟩
    · simp only [aggregateLogical] at q3 ⊢
      cases hc : k1.cov2 <;> cases hL : L.k22 <;> rw [hc, hL] at q3
      · trivial
      · exact q3
      · exact q3
      · exact holds_congr q3 fun b p q hb hp hq => aggregateCov_congr e2 e2 hlt2 hlt2 hc2 hc2 _ _ p q (dbl_inRange hb) hp hq
    · simp only [aggregateLogical] at q4 ⊢
      cases hc : k1.ntk <;> cases hL : L.ntk <;> rw [hc, hL] at q4
      · trivial
      · exact q4
      · exact q4
      · rcases q4 with q4 | q4
        · exact absurd q4.1 (hsc _ (h5 _ hc q4.1))
        · exact .inr (holds_congr q4 fun b p q hb hp hq => aggregateCov_congr e1 e2 hlt1 hlt2 hc1 hc2 _ b p q hb hp hq)
  obtain ⟨r1, r2, r3, r4⟩ := stores_eqv h2' g2 hst (fun a ha e => hsc a (h5 a ha e) e) (fun a ha e => hsc a (g5 a ha e) e)
  exact ⟨k1, k2, h1, g1, r1, r2, r3, r4, hst⟩

/-- The aggregated kernel is the kernel of the aggregated activations: if `L` lists the second moments and expected gradient products of random
activations (averaged over `N` channels), `aggregateLogical` lists those of their aggregations. -/
theorem kernel_exact {E : Type} [NormedAddCommGroup E] [InnerProductSpace ℝ E] [CompleteSpace E] [MeasurableSpace E] (μ : Measure E) (N : ℕ)
    (G1 G2 ax : List ℕ) (w1 w2 : ℕ → List ℕ → List ℕ → ℝ)
    (f1 f2 : ℕ → ℕ → List ℕ → E → ℝ) (L : Logical ℝ) (h1 : gather ax L.S1 = G1) (h2 : gather ax L.S2 = G2)
    (hR : Regular μ N L.n1 L.n2 L.S1 L.S2 f1 f2) (hL : ChannelKernelOf μ N f1 f2 L) :
    ChannelKernelOf μ N (fun i ch P θ => aggregateAt G1 ax (w1 i) (fun p => f1 i ch p θ) P)
      (fun i ch P θ => aggregateAt G2 ax (w2 i) (fun p => f2 i ch p θ) P) (aggregateLogical G1 G2 ax w1 w2 L) :=
  Aggregate.kernel_exact μ N G1 G2 ax w1 w2 f1 f2 L h1 h2 hR hL

/-! ## Other calls -/

/-- Without patterns the layer is the identity; exactly one pattern is refused. -/
theorem no_pattern (x : Arr ℝ) (k : Kernel ℝ) (A : Arr ℝ) (p : Arr ℤ) :
    l.apply x none = .ok x ∧ l.kernel k (.inl (none, none)) = .ok k ∧ l.kernel k (.inr (none, none)) = .ok k ∧
      l.kernel k (.inl (some A, none)) = .error .notImplemented ∧ l.kernel k (.inl (none, some A)) = .error .notImplemented ∧
      l.kernel k (.inr (some p, none)) = .error .notImplemented ∧ l.kernel k (.inr (none, some p)) = .error .notImplemented :=
  ⟨rfl, rfl, rfl, rfl, rfl, rfl, rfl⟩

/-- An array that is not an edge list of the right sizes is refused (an array without axes has no trailing dimension to look at). -/
theorem malformed_edges (x : Arr ℝ) (pattern : Arr ℤ) (h : Describes l x.ndim agg ba ca) (hs : pattern.shape ≠ [])
    (hp : ¬ IsEdgeList pattern (x.shape.getD ba 0) agg.length) : l.apply x (some (.inr pattern)) = .error .valueError := by
  have key : sendersReceivers pattern (x.shape.getD ba 0) agg.length = .error .valueError := by
    unfold sendersReceivers
    obtain ⟨sh, two, hsh⟩ : ∃ sh two, pattern.shape = sh ++ [two] := ⟨_, _, (List.dropLast_append_getLast hs).symm⟩
    simp only [hsh, List.getLast?_concat, List.dropLast_concat]
    by_cases h2 : two = 2
    · subst h2
      simp only [ne_eq, not_true_eq_false, if_false]
      by_cases hk : agg.length = 1 ∧ sh.length = 2
      · have hk' : agg.length = 1 ∧ (⟨sh, fun i => pattern.get (i ++ [0])⟩ : Arr ℤ).ndim = 2 := hk
        rw [if_pos hk']
        obtain ⟨b, e, rfl⟩ := List.length_eq_two.1 hk.2
        have hb : b ≠ x.shape.getD ba 0 := by
          rintro rfl
          exact hp ⟨e, .inr ⟨hk.1, by simpa using hsh⟩⟩
        rw [List.getD_eq_getElem?_getD] at hb
        simp [ndim, hk.1, hb]
      · have hk' : ¬ (agg.length = 1 ∧ (⟨sh, fun i => pattern.get (i ++ [0])⟩ : Arr ℤ).ndim = 2) := hk
        rw [if_neg hk']
        by_cases h3 : sh.length = 3
        · obtain ⟨b, e, K, rfl⟩ := List.length_eq_three.1 h3
          simp only [ndim, List.length_cons, List.length_nil, List.getD_cons_succ, List.getD_cons_zero]
          by_cases hK : K = agg.length
          · have hb : b ≠ x.shape.getD ba 0 := by
              rintro rfl
              exact hp ⟨e, .inl (by rw [hsh, hK]; rfl)⟩
            rw [List.getD_eq_getElem?_getD] at hb
            simp [hK, hb]
          · simp [hK]
        · simp [ndim, h3]
    · simp [h2]
  show l.applySparse x pattern = _
  unfold Layer.applySparse
  simp only [h.aggAxes, bind, Except.bind, key]

/-! ## Negative senders -/

/-- One edge from a padding vertex to vertex 0. -/
def padSender : Arr ℤ := ⟨[1, 1, 2], fun i => if i.getD 2 0 = 0 then -1 else 0⟩

/-- The edge from vertex 1 to vertex 0. -/
def lastSender : Arr ℤ := ⟨[1, 1, 2], fun i => if i.getD 2 0 = 0 then 1 else 0⟩

/-- One aggregated axis, between the batch and channel axes. -/
def exLayer : Layer := ⟨some [-2], 0, -1⟩

lemma exDescribes : Describes exLayer 3 [1] 0 2 where
  batch := ⟨by simp, .inl rfl⟩
  channel := ⟨by simp, .inr rfl⟩
  ne := by simp
  valid := by
    intro ax e i hi
    simp only [exLayer, Option.some.injEq] at e
    subst e
    obtain rfl : i = -2 := by simpa using hi
    exact ⟨1, by simp, .inr rfl⟩
  sorted := by simp
  mem := by
    intro d
    simp only [Aggregated, exLayer, C16.Denotes, List.mem_cons, List.not_mem_nil, or_false, exists_eq_left]
    omega
  nba := by simp
  nca := by simp

/-- An edge whose sender has a negative coordinate is not ignored (the code announces "Negative indices in `pattern` are considered as padding
(i.e. ignored)", linear.py:452, 475) unless its receiver also has one: it sends the value of the last vertex. -/
theorem negative_sender_wrong (x : Arr ℝ) (hx : x.shape = [1, 2, 1]) :
    ∃ y, exLayer.apply x (some (.inr padSender)) = .ok y ∧ y.get [0, 0, 0] = x.get [0, 1, 0] ∧
      aggregate [2] [1] 0 (edgeWeight [2] padSender) x.get [0, 0, 0] = 0 := by
  have hn : x.ndim = 3 := by simp [ndim, hx]
  have hd : Describes exLayer x.ndim [1] 0 2 := by rw [hn]; exact exDescribes
  have hsame : exLayer.applySparse x padSender = exLayer.applySparse x lastSender := by
    have hm := sparse_moves hd.axes
    obtain ⟨f1, -⟩ := hm.forth x rfl
    have hms : (x.moveaxis ([0] ++ [1] ++ [2]) ([0] ++ List.range' 1 [1].length ++ [x.ndim - 1])).shape = [1, 2, 1] := by
      rw [f1, gather_sparsePerm, hx, hn]; rfl
    unfold Layer.applySparse
    simp only [hd.aggAxes, bind, Except.bind]
    have s1 : sendersReceivers padSender (x.shape.getD 0 0) [1].length =
        .ok (⟨[1, 1, 1], fun i => padSender.get (i.dropLast ++ [0])⟩, ⟨[1, 1, 1], fun i => padSender.get (i.dropLast ++ [1])⟩) := by
      rw [hx]; rfl
    have s2 : sendersReceivers lastSender (x.shape.getD 0 0) [1].length =
        .ok (⟨[1, 1, 1], fun i => lastSender.get (i.dropLast ++ [0])⟩, ⟨[1, 1, 1], fun i => lastSender.get (i.dropLast ++ [1])⟩) := by
      rw [hx]; rfl
    rw [s1, s2]
    simp only [hms]
    have i1 : ∀ b, makeIndices ⟨[1, 1, 1], fun i => padSender.get (i.dropLast ++ [0])⟩ [2] b = [-1] := fun b => by
      simp [makeIndices, padSender]
    have i2 : ∀ b, makeIndices ⟨[1, 1, 1], fun i => lastSender.get (i.dropLast ++ [0])⟩ [2] b = [1] := fun b => by
      simp [makeIndices, lastSender, ravel]
    have i3 : ∀ b, makeIndices ⟨[1, 1, 1], fun i => padSender.get (i.dropLast ++ [1])⟩ [2] b = [0] := fun b => by
      simp [makeIndices, padSender, ravel]
    have i4 : ∀ b, makeIndices ⟨[1, 1, 1], fun i => lastSender.get (i.dropLast ++ [1])⟩ [2] b = [0] := fun b => by
      simp [makeIndices, lastSender, ravel]
    have hr : ∀ m : Arr ℝ, m.shape = [1, 2, 1] → m.reshapeE ([[1, 2, 1].getD 0 0, (List.take [1].length (List.drop 1 [1, 2, 1])).prod] ++
        List.drop ([1].length + 1) [1, 2, 1]) = .ok (m.reshape [1, 2, 1]) := by
      intro m hm
      unfold reshapeE
      rw [if_pos (by rw [hm]; rfl)]
      rfl
    have ht : ∀ (m : Arr ℝ) b, takeRows (row (m.reshape [1, 2, 1]) b) [-1] = takeRows (row (m.reshape [1, 2, 1]) b) [1] := by
      intro m b
      have e : ∀ i : List ℕ, (if [-1].getD (i.headD 0) (0 : ℤ) < 0 then [-1].getD (i.headD 0) (0 : ℤ) + 2 else [-1].getD (i.headD 0) 0).toNat =
          (if [1].getD (i.headD 0) (0 : ℤ) < 0 then [1].getD (i.headD 0) (0 : ℤ) + 2 else [1].getD (i.headD 0) 0).toNat := by
        intro i
        rcases i.headD 0 with _ | j <;> rfl
      have e' : (fun i : List ℕ => (row (m.reshape [1, 2, 1]) b).get ((if [-1].getD (i.headD 0) (0 : ℤ) < 0 then [-1].getD (i.headD 0) (0 : ℤ) + 2 else [-1].getD (i.headD 0) 0).toNat :: i.tail)) =
          fun i : List ℕ => (row (m.reshape [1, 2, 1]) b).get ((if [1].getD (i.headD 0) (0 : ℤ) < 0 then [1].getD (i.headD 0) (0 : ℤ) + 2 else [1].getD (i.headD 0) 0).toNat :: i.tail) :=
        funext fun i => by rw [e i]
      exact congrArg (fun g => (⟨[1, 1], g⟩ : Arr ℝ)) e'
    rw [hr _ hms]
    have hg : List.take [1].length (List.drop 1 [1, 2, 1]) = [2] := rfl
    simp only [hg, i1, i2, i3, i4, ht]
  obtain ⟨y, h1, -, h3⟩ := sparse_activations x lastSender hd (by rw [hx]; exact ⟨1, .inr ⟨rfl, rfl⟩⟩) (by
    intro b e he _
    simp [vtx, vertex, endpoint, lastSender])
  refine ⟨y, hsame.trans h1, ?_, ?_⟩
  · rw [h3 [0, 0, 0] (by rw [hx]; simp [InRange]), hx]
    have hb : box (gather [1] [1, 2, 1]) = {[0], [1]} := by decide
    unfold aggregate
    rw [hb, Finset.sum_pair (by decide)]
    have w0 : edgeWeight (gather [1] [1, 2, 1]) lastSender 0 [0] [0] = 0 := by
      simp [edgeWeight, lastSender, vertex, endpoint, gather]
    have w1 : edgeWeight (gather [1] [1, 2, 1]) lastSender 0 [1] [0] = 1 := by
      simp [edgeWeight, lastSender, vertex, endpoint, gather]
    show edgeWeight _ lastSender 0 [0] [0] * _ + edgeWeight _ lastSender 0 [1] [0] * _ = _
    rw [w0, w1, zero_mul, one_mul, zero_add]
    rfl
  · unfold aggregate
    refine Finset.sum_eq_zero fun c _ => ?_
    have : edgeWeight [2] padSender 0 c [0] = 0 := by simp [edgeWeight, padSender, vertex, endpoint]
    have e := congrArg (· * x.get (putAt [1] c [0, 0, 0])) this
    simpa using e

/-! ## Reversed spatial axes -/

/-- The edge from vertex 0 to vertex 1. -/
def oneEdge : Arr ℤ := ⟨[1, 1, 2], fun i => if i.getD 2 0 = 0 then 0 else 1⟩

/-- Aggregation along the first of two spatial axes. -/
def firstAxis : Layer := ⟨some [1], 0, -1⟩

lemma firstAxis_describes : Describes firstAxis 4 [1] 0 3 where
  batch := ⟨by simp, .inl rfl⟩
  channel := ⟨by simp, .inr rfl⟩
  ne := by simp
  valid := by
    intro ax e i hi
    simp only [firstAxis, Option.some.injEq] at e
    subst e
    obtain rfl : i = 1 := by simpa using hi
    exact ⟨1, by simp, .inl rfl⟩
  sorted := by simp
  mem := by
    intro d
    simp only [Aggregated, firstAxis, C16.Denotes, List.mem_cons, List.not_mem_nil, or_false, exists_eq_left]
    omega
  nba := by simp
  nca := by simp

/-- Covariances of one example with two spatial axes: `1` between the positions `x` and `x`, else `0`. -/
def pointL (x : List ℕ) : Logical ℝ where
  n1 := 1
  n2 := 1
  S1 := [2, 2]
  S2 := [2, 2]
  k12 := fun _ p q => if p = x ∧ q = x then 1 else 0
  k11 := fun _ p q => if p = x ∧ q = x then 1 else 0
  k22 := none
  ntk := none

lemma kernelSparse_rev (k : Kernel ℝ) (p1 p2 : Arr ℤ) (r : Bool) (k' : Kernel ℝ) (h : l.kernelSparse k p1 p2 = .ok k') :
    l.kernelSparse { k with isReversed := r } p1 p2 = .ok { k' with isReversed := r } := by
  unfold Layer.kernelSparse at h ⊢
  simp only [bind, Except.bind] at h ⊢
  split at h
  · cases h
  split at h
  · cases h
  split at h
  · cases h
  split at h
  · cases h
  split at h
  · cases h
  split at h
  · cases h
  split at h
  · cases h
  simp_all only [pure, Except.pure, Except.ok.injEq]
  rw [← h]

lemma oneEdge_senders (G : List ℕ) : Senders G oneEdge := by
  intro b e he _
  simp [vtx, vertex, endpoint, oneEdge]

lemma oneEdge_weight (c q : ℕ) : edgeWeight [2] oneEdge 0 [c] [q] = if c = 0 ∧ q = 1 then 1 else 0 := by
  by_cases h1 : c = 0 <;> by_cases h2 : q = 1 <;>
    simp [edgeWeight, oneEdge, vertex, endpoint, h1, h2, eq_comm]

lemma oneEdge_cov (x : List ℕ) : aggregateCov [2] [2] [0] (edgeWeight [2] oneEdge) (edgeWeight [2] oneEdge) (pointL x).k12 [0, 0] [1, 1] [1, 1] =
    if x = [0, 1] then 1 else 0 := by
  have hb : box [2] = {[0], [1]} := by decide
  unfold aggregateCov
  rw [hb, Finset.sum_pair (by decide), Finset.sum_pair (by decide), Finset.sum_pair (by decide)]
  simp only [List.map_cons, List.map_nil, List.getD_cons_zero, List.getD_cons_succ, oneEdge_weight, pointL]
  have e : putAt [0] [0] [1, 1] = [0, 1] := by decide
  rw [e]
  by_cases hx : x = [0, 1]
  · simp [hx]
  · simp [hx, Ne.symm hx]

/-- The sparse implementation of the kernel ignores that the spatial axes of the kernel may be stored in reversed order: the result is not the
kernel of the aggregated activations. -/
theorem sparse_reversed_wrong : ∃ k k' : Kernel ℝ, k.isReversed = true ∧ k.Stores (pointL [1, 0]) ∧ C28.Shapes k (pointL [1, 0]) ∧
    firstAxis.kernel k (.inr (some oneEdge, some oneEdge)) = .ok k' ∧
    ¬ k'.Stores (aggregateLogical [2] [2] [0] (edgeWeight [2] oneEdge) (edgeWeight [2] oneEdge) (pointL [1, 0])) := by
  have hst := Logical.encode_stores (pointL [0, 1]) false false false (by simp) rfl
  obtain ⟨k', h1, h2, h3, -⟩ := sparse_kernel_partial (l := firstAxis) ((pointL [0, 1]).encode false false false) (pointL [0, 1]) hst ⟨rfl, rfl, rfl, rfl, rfl⟩
    oneEdge oneEdge firstAxis_describes [2] rfl rfl ⟨1, .inr ⟨rfl, rfl⟩⟩ ⟨1, .inr ⟨rfl, rfl⟩⟩ (oneEdge_senders _) (oneEdge_senders _) rfl rfl
    (fun a e => by simp [Logical.encode, pointL] at e)
  have hr : (pointL [1, 0]).encode false false true = { (pointL [0, 1]).encode false false false with isReversed := true } := by
    have key : (fun (_ : List ℕ) (p q : List ℕ) => if p.reverse = [1, 0] ∧ q.reverse = [1, 0] then (1 : ℝ) else 0) =
        fun _ p q => if p = [0, 1] ∧ q = [0, 1] then 1 else 0 := by
      funext _ p q
      have : ∀ p : List ℕ, p.reverse = [1, 0] ↔ p = [0, 1] := fun p => by
        rw [List.reverse_eq_iff]; rfl
      simp only [this]
    have e : holdArr [1, 1] [2, 2] [2, 2] false true (pointL [1, 0]).k12 = holdArr [1, 1] [2, 2] [2, 2] false false (pointL [0, 1]).k12 := by
      have := congrArg (fun F => holdArr [1, 1] [2, 2] [2, 2] false false F) key
      exact this
    unfold Logical.encode
    have e' : holdArr (batchShape false 1) [2, 2] [2, 2] false true (fun b => (pointL [1, 0]).k11 (dbl b)) =
        holdArr (batchShape false 1) [2, 2] [2, 2] false false (fun b => (pointL [0, 1]).k11 (dbl b)) := e
    simp only [show (pointL [1, 0]).n1 = 1 from rfl, show (pointL [1, 0]).n2 = 1 from rfl, show (pointL [1, 0]).S1 = [2, 2] from rfl,
      show (pointL [1, 0]).S2 = [2, 2] from rfl, show (pointL [0, 1]).n1 = 1 from rfl, show (pointL [0, 1]).n2 = 1 from rfl, show (pointL [0, 1]).S1 = [2, 2] from rfl,
      show (pointL [0, 1]).S2 = [2, 2] from rfl, e, e', show (pointL [1, 0]).ntk = none from rfl, show (pointL [0, 1]).ntk = none from rfl,
      show (pointL [1, 0]).k22 = none from rfl, show (pointL [0, 1]).k22 = none from rfl]
    rfl
  refine ⟨(pointL [1, 0]).encode false false true, { k' with isReversed := true }, rfl, Logical.encode_stores _ _ _ _ (by simp) rfl,
    ⟨rfl, rfl, rfl, rfl, rfl⟩, ?_, fun hbad => ?_⟩
  · rw [hr]
    exact kernelSparse_rev _ _ _ _ _ h1
  · have hd : k'.diagonalSpatial = false := congrArg (fun s => s.diagonalSpatial) h3
    have hv : k'.isReversed = false := congrArg (fun s => s.isReversed) h3
    have g1 := h2.nngp
    have g2 := hbad.nngp
    rw [hd, hv] at g1
    simp only [hd] at g2
    have r : InRange [1, 1] [2, 2] := by simp [InRange]
    have r0 : InRange [0, 0] [1, 1] := by simp [InRange]
    have v1 := g1.get [0, 0] [1, 1] [1, 1] r0 r r (by simp)
    have v2 := g2.get [0, 0] [1, 1] [1, 1] r0 r r (by simp)
    have e1 : (aggregateLogical [2] [2] ([1].map (spIdx 0 3)) (edgeWeight [2] oneEdge) (edgeWeight [2] oneEdge) (pointL [0, 1])).k12 [0, 0] [1, 1] [1, 1] = 1 :=
      (oneEdge_cov [0, 1]).trans (if_pos rfl)
    have e2 : (aggregateLogical [2] [2] [0] (edgeWeight [2] oneEdge) (edgeWeight [2] oneEdge) (pointL [1, 0])).k12 [0, 0] [1, 1] [1, 1] = 0 :=
      (oneEdge_cov [1, 0]).trans (if_neg (by decide))
    exact one_ne_zero ((e1.symm.trans (v1.symm.trans v2)).trans e2)

/-! ## Concrete cases

Two aggregated axes; edges may repeat and be padded. -/

/-- Three edges on a `3 × 2` grid, for two examples: `(0,1) → (2,0)` twice and a padding edge. -/
def gridEdges : Arr ℤ := ⟨[2, 3, 2, 2], fun i => if i.getD 1 0 = 2 then -1 else if i.getD 3 0 = 0 then (i.getD 2 0 : ℤ) else 2 - 2 * (i.getD 2 0 : ℤ)⟩

/-- All axes except the batch and the channel axis. -/
def allAxes : Layer := ⟨none, 0, -1⟩

lemma allAxes_describes : Describes allAxes 4 [1, 2] 0 3 where
  batch := ⟨by simp, .inl rfl⟩
  channel := ⟨by simp, .inr rfl⟩
  ne := by simp
  valid := by simp [allAxes]
  sorted := by simp
  mem := by
    intro d
    simp only [Aggregated, allAxes, List.mem_cons, List.not_mem_nil, or_false]
    omega
  nba := by simp
  nca := by simp

lemma gridEdges_senders : Senders [3, 2] gridEdges := by
  intro b e he h
  have he' : e < 3 := he
  rcases e with _ | _ | _ | e
  · simp [vtx, vertex, endpoint, gridEdges, List.range_succ]
  · simp [vtx, vertex, endpoint, gridEdges, List.range_succ]
  · simp [vtx, vertex, endpoint, gridEdges, List.range_succ] at h
  · omega

example (i : ℕ) : edgeWeight [3, 2] gridEdges i [0, 1] [2, 0] = 2 := by
  simp [edgeWeight, vertex, endpoint, gridEdges, List.range_succ]

/-- The adjacency array of `gridEdges`. -/
noncomputable def gridDense : Arr ℝ := ⟨[2, 3, 2, 3, 2], fun i => if i.drop 1 = [0, 1, 2, 0] then 2 else 0⟩

lemma gridCounts : Counts 2 [3, 2] gridDense gridEdges := by
  intro b c q _ hc hq
  have e : (c = [0, 1] ∧ q = [2, 0]) ↔ c ++ q = [0, 1, 2, 0] := by
    have hl : c.length = 2 := hc.length
    constructor
    · rintro ⟨rfl, rfl⟩; rfl
    · intro h; exact List.append_inj h (by simp [hl])
  have w : edgeWeight [3, 2] gridEdges b c q = if c = [0, 1] ∧ q = [2, 0] then 2 else 0 := by
    by_cases h1 : c = [0, 1] <;> by_cases h2 : q = [2, 0] <;>
      simp [edgeWeight, vertex, endpoint, gridEdges, List.range_succ, h1, h2, eq_comm]
  rw [w]
  simp only [gridDense, List.cons_append, List.drop_succ_cons, List.drop_zero, e]

example (x : Arr ℝ) (hx : x.shape = [2, 3, 2, 5]) :
    ∃ y y', allAxes.apply x (some (.inl gridDense)) = .ok y ∧ allAxes.apply x (some (.inr gridEdges)) = .ok y' ∧ y ≋ y' :=
  same_activations x gridDense gridEdges (by rw [show x.ndim = 4 by simp [ndim, hx]]; exact allAxes_describes) (by rw [hx]; rfl)
    (by rw [hx]; exact ⟨3, .inl rfl⟩) (by rw [hx]; exact gridEdges_senders) (by rw [hx]; exact gridCounts)

lemma exScalar (a b : ℕ → ℕ → List ℕ → ℝ) (db rev : Bool) : ∀ t, ((lin1L 5 a b 2 2 [3, 2] [3, 2]).encode db false rev).ntk = some t → t.shape ≠ [] := by
  intro t ht hsh
  simp only [Logical.encode, lin1L, Option.map_some, Option.some.injEq] at ht
  subst ht
  cases rev <;> simp [holdArr, pos, interleave] at hsh

example (a b : ℕ → ℕ → List ℕ → ℝ) (db rev : Bool) :
    ∃ k', allAxes.kernel ((lin1L 5 a b 2 2 [3, 2] [3, 2]).encode db false rev) (.inl (some gridDense, some gridDense)) = .ok k' ∧ k'.isReversed = false := by
  obtain ⟨k', h1, -, h3, -⟩ := dense_kernel (l := allAxes) _ _ (Logical.encode_stores (lin1L 5 a b 2 2 [3, 2] [3, 2]) db false rev (by simp) rfl)
    ⟨rfl, rfl, rfl, rfl, rfl⟩ gridDense gridDense allAxes_describes rfl rfl rfl (fun t ht e => absurd e (exScalar a b db rev t ht))
  exact ⟨k', h1, congrArg (fun s => s.isReversed) h3⟩

example (a b : ℕ → ℕ → List ℕ → ℝ) (db : Bool) :
    ∃ k1 k2, allAxes.kernel ((lin1L 5 a b 2 2 [3, 2] [3, 2]).encode db false false) (.inl (some gridDense, some gridDense)) = .ok k1 ∧
      allAxes.kernel ((lin1L 5 a b 2 2 [3, 2] [3, 2]).encode db false false) (.inr (some gridEdges, some gridEdges)) = .ok k2 ∧
      k1.nngp ≋ k2.nngp := by
  obtain ⟨k1, k2, h1, h2, h3, -⟩ := same_kernel_partial (l := allAxes) _ _ (Logical.encode_stores (lin1L 5 a b 2 2 [3, 2] [3, 2]) db false false (by simp) rfl)
    ⟨rfl, rfl, rfl, rfl, rfl⟩ gridDense gridDense gridEdges gridEdges allAxes_describes [3, 2] rfl rfl rfl rfl ⟨3, .inl rfl⟩ ⟨3, .inl rfl⟩
    gridEdges_senders gridEdges_senders gridCounts gridCounts rfl rfl (exScalar a b db false)
  exact ⟨k1, k2, h1, h2, h3⟩

example (a b : ℕ → ℕ → List ℕ → ℝ) : ∃ f1 f2 : ℕ → ℕ → List ℕ → ℝ → ℝ,
    ChannelKernelOf (ProbabilityTheory.gaussianReal 0 1) 5 f1 f2 (aggregateLogical [3, 2] [3, 2] [0, 1] (edgeWeight [3, 2] gridEdges)
      (edgeWeight [3, 2] gridEdges) (lin1L 5 a b 2 2 [3, 2] [3, 2])) :=
  ⟨_, _, kernel_exact _ 5 [3, 2] [3, 2] [0, 1] _ _ (lin1 a) (lin1 b) _ rfl rfl (lin1_regular 5 2 2 _ _ a b) (lin1_kernel 5 a b 2 2 [3, 2] [3, 2])⟩

example (x : Arr ℝ) (hx : x.shape = [2, 3, 2, 5]) : allAxes.apply x (some (.inr oneEdge)) = .error .valueError :=
  malformed_edges x oneEdge (by rw [show x.ndim = 4 by simp [ndim, hx]]; exact allAxes_describes) (by simp [oneEdge])
    (by rintro ⟨E, h | ⟨h, -⟩⟩ <;> simp [oneEdge] at h)

end NT.C58
