import Verif.Tac
import Verif.Model.Pool
import Verif.Lemmas.Window
import Verif.Lemmas.Flatten

/-!
Lemmas for pooling layers.
-/

namespace NT
open Arr Spec

/-- The number of positions of the window at `o` that are inside the axes. -/
noncomputable def covered (pad : Padding) (S : List ℕ) (ws : List (ℕ × ℕ)) (o : List ℕ) : ℝ :=
  ∑ f ∈ offsets ws, readTap (fun _ => 1) (readIdx pad S ws o f)

/-- What an average is divided by. -/
noncomputable def avgSize (edges : Bool) (pad : Padding) (S : List ℕ) (ws : List (ℕ × ℕ)) (o : List ℕ) : ℝ :=
  if pad = .same ∧ edges = true then covered .same S ws o else ((ws.map Prod.fst).prod : ℕ)

lemma readPos_isSome (pad : Padding) (hp : pad ≠ .same) (n w s o f : ℕ) (hs : 0 < s) (hf : f < w) (ho : o < outDim pad n w s) :
    ∃ p, readPos pad n w s o f = some p := by
  cases pad
  · exact ⟨_, rfl⟩
  · exact absurd rfl hp
  · simp only [outDim] at ho
    split_ifs at ho with h
    · have h4 : o * s ≤ n - w := (Nat.le_div_iff_mul_le hs).1 (by omega)
      simp only [readPos, leftPad, sub_zero]
      rw [if_pos]
      · exact ⟨_, rfl⟩
      · constructor
        · positivity
        · have : ((o * s + f : ℕ) : ℤ) < n := by omega
          push_cast at this
          exact this
    · omega

lemma readIdx_isSome (pad : Padding) (hp : pad ≠ .same) : ∀ (S : List ℕ) (ws : List (ℕ × ℕ)) (o f : List ℕ), PosWin ws →
    S.length = ws.length → InRange o (outDims pad S ws) → InRange f (ws.map Prod.fst) →
    ∃ p, readIdx pad S ws o f = some p := by
  intro S
  induction S with
  | nil =>
    intro ws o f _ hl ho hf
    cases ws with
    | nil =>
      simp only [outDims, List.map_nil, inRange_nil_right] at ho hf
      subst ho hf
      exact ⟨[], rfl⟩
    | cons => simp at hl
  | cons n S ih =>
    intro ws o f hw hl ho hf
    cases ws with
    | nil => simp at hl
    | cons v ws =>
    obtain ⟨w, s⟩ := v
    simp only [outDims, List.map_cons] at ho hf
    cases o with
    | nil => simpa using ho.length
    | cons o os =>
    cases f with
    | nil => simpa using hf.length
    | cons f fs =>
      rw [inRange_cons] at ho hf
      obtain ⟨p, e1⟩ := readPos_isSome pad hp n w s o f (hw (w, s) (by simp)).2 hf.1 ho.1
      obtain ⟨q, e2⟩ := ih ws os fs (fun v hv => hw v (by simp [hv])) (by simpa using hl) ho.2 hf.2
      exact ⟨p :: q, by simp [readIdx, e1, e2]⟩

lemma offsets_card (ws : List (ℕ × ℕ)) : (offsets ws).card = (ws.map Prod.fst).prod := box_card _

lemma covered_full (pad : Padding) (hp : pad ≠ .same) (S : List ℕ) (ws : List (ℕ × ℕ)) (o : List ℕ) (hw : PosWin ws)
    (hl : S.length = ws.length) (ho : InRange o (outDims pad S ws)) :
    covered pad S ws o = ((ws.map Prod.fst).prod : ℕ) := by
  unfold covered
  rw [← offsets_card]
  have : ∀ f ∈ offsets ws, readTap (fun _ => 1) (readIdx pad S ws o f) = 1 := by
    intro f hf
    obtain ⟨p, hp⟩ := readIdx_isSome pad hp S ws o f hw hl ho (mem_box.1 hf)
    rw [hp]; rfl
  rw [Finset.sum_congr rfl this]
  simp

lemma prod_double (ws : List (ℕ × ℕ)) :
    ((ws.flatMap fun v => [v, v]).map Prod.fst).prod = (ws.map Prod.fst).prod * (ws.map Prod.fst).prod := by
  induction ws with
  | nil => rfl
  | cons v ws ih => simp [ih]; ring

lemma prod_rvW (rev : Bool) (ws : List (ℕ × ℕ)) : ((rvW rev ws).map Prod.fst).prod = (ws.map Prod.fst).prod := by
  rw [rvW_map, prod_rv]

lemma read2_one (a b : Option (List ℕ)) :
    read2 (fun _ _ => 1) a b = readTap (fun _ => 1) a * readTap (fun _ => 1) b := by
  cases a <;> cases b <;> simp [read2, readTap]

lemma Holds.div {a c : Arr ℝ} {B S T : List ℕ} {ds rev : Bool} {F G : List ℕ → List ℕ → List ℕ → ℝ}
    (ha : Holds a B S T ds rev F) (hc : Holds c B S T ds rev G) :
    Holds ⟨a.shape, fun i => a.get i / c.get i⟩ B S T ds rev (fun b p q => F b p q / G b p q) :=
  ⟨ha.rank, ha.square, ha.shape, fun b p q hb hp hq h => by
    show a.get _ / c.get _ = _
    rw [ha.get b p q hb hp hq h, hc.get b p q hb hp hq h]⟩

/-- Normalisation in the full layout. -/
lemma normalize_full {lhs out : Arr ℝ} {B S T : List ℕ} {rev : Bool} {F G : List ℕ → List ℕ → List ℕ → ℝ} (pad : Padding)
    (edges : Bool) (ws : List (ℕ × ℕ)) (hw : PosWin ws) (hl : S.length = ws.length)
    (h : pad = .same → Holds lhs B S T false rev F)
    (ho : Holds out B (outDims pad S ws) (outDims pad T ws) false rev G) :
    Holds (normalize lhs out edges pad (List.replicate B.length (1, 1) ++ (rvW rev ws).flatMap fun v => [v, v])) B
      (outDims pad S ws) (outDims pad T ws) false rev
      (fun b o o' => G b o o' / (avgSize edges pad S ws o * avgSize edges pad T ws o')) := by
  unfold normalize avgSize
  by_cases hp : pad = .same ∧ edges = true
  · simp only [if_pos hp]
    obtain ⟨rfl, -⟩ := hp
    have h1 := windowed_full .same ((h rfl).map (fun _ => 1)) ws hw hl
    have := ho.div h1
    refine this.congr fun b o o' _ _ _ => ?_
    congr 1
    unfold covered
    rw [Finset.sum_mul_sum]
    simp only [read2_one]
  · simp only [if_neg hp]
    refine (ho.map _).congr fun b o o' _ _ _ => ?_
    congr 1
    rw [List.map_append, List.prod_append, prod_double, prod_rvW]
    simp

/-- Normalisation in the diagonal layout. -/
lemma normalize_diag {lhs out : Arr ℝ} {B S : List ℕ} {F G : List ℕ → List ℕ → List ℕ → ℝ} (pad : Padding)
    (edges : Bool) (ws : List (ℕ × ℕ)) (hw : PosWin ws) (hl : S.length = ws.length)
    (h : pad = .same → Holds lhs B S S true false F)
    (ho : Holds out B (outDims pad S ws) (outDims pad S ws) true false G) :
    Holds (normalize lhs out edges pad (List.replicate B.length (1, 1) ++ ws)) B
      (outDims pad S ws) (outDims pad S ws) true false (fun b o o' => G b o o' / avgSize edges pad S ws o) := by
  unfold normalize avgSize
  by_cases hp : pad = .same ∧ edges = true
  · simp only [if_pos hp]
    obtain ⟨rfl, -⟩ := hp
    have h1 := windowed_diag .same ((h rfl).map (fun _ => 1)) ws hw hl
    have := ho.div h1
    refine ⟨this.rank, this.square, this.shape, fun b o o' hb hoo ho' e => ?_⟩
    refine (this.get b o o' hb hoo ho' e).trans ?_
    obtain rfl := e rfl
    congr 1
    unfold covered
    refine Finset.sum_congr rfl fun f _ => ?_
    rw [read2_one]
    generalize readIdx Padding.same S ws o f = a
    cases a <;> simp [readTap]
  · simp only [if_neg hp]
    refine (ho.map _).congr fun b o o' _ _ _ => ?_
    congr 1
    rw [List.map_append, List.prod_append]
    simp

/-- What a pooled activation is divided by. -/
noncomputable def Pool.size (d : Pool) (S o : List ℕ) : ℝ :=
  match d.type with
  | .avg => avgSize d.normalizeEdges d.padding S d.window o
  | .sum => 1

lemma outDims_valid_pad (pad : Padding) (edges : Bool) (S : List ℕ) (ws : List (ℕ × ℕ)) (o : List ℕ) :
    avgSize edges (if pad = .circular then .valid else pad) S ws o = avgSize edges pad S ws o := by
  cases pad <;> simp [avgSize]

lemma poolKernel_full {a : Arr ℝ} {B S T : List ℕ} {rev : Bool} {F : List ℕ → List ℕ → List ℕ → ℝ}
    (h : Holds a B S T false rev F) (d : Pool) (hw : PosWin d.window) (hl : S.length = d.window.length) :
    Holds (poolKernel a d.type (List.replicate B.length (1, 1) ++ (rvW rev d.window).flatMap fun v => [v, v]) d.padding
        d.normalizeEdges) B (outDims d.padding S d.window) (outDims d.padding T d.window) false rev
      (fun b o o' => (∑ f ∈ offsets d.window, ∑ f' ∈ offsets d.window,
        read2 (F b) (readIdx d.padding S d.window o f) (readIdx d.padding T d.window o' f')) /
          (d.size S o * d.size T o')) := by
  have h1 := windowed_full d.padding h d.window hw hl
  unfold Pool.size
  by_cases hp : d.padding = .circular
  · rw [hp] at h1 ⊢
    unfold poolKernel
    cases d.type
    · simp only [if_true]
      -- circular padding divides by the window size
      refine (h1.map fun v => v / (((List.replicate B.length ((1, 1) : ℕ × ℕ) ++
        (rvW rev d.window).flatMap fun v => [v, v]).map Prod.fst).prod : ℕ)).congr fun b o o' _ _ _ => ?_
      rw [List.map_append, List.prod_append, prod_double, prod_rvW]
      simp [avgSize]
    · simp only [if_true]
      simpa [windowed] using h1
  · unfold poolKernel
    have e : windowed d.padding a (List.replicate B.length (1, 1) ++ (rvW rev d.window).flatMap fun v => [v, v]) =
        reduceWindow a (List.replicate B.length (1, 1) ++ (rvW rev d.window).flatMap fun v => [v, v]) d.padding := by
      simp [windowed, hp]
    rw [e] at h1
    cases d.type
    · simp only [if_neg hp, if_true]
      exact normalize_full d.padding d.normalizeEdges d.window hw hl (fun _ => h) h1
    · simp only [if_neg hp]
      simpa using h1

lemma poolKernel_diag {a : Arr ℝ} {B S : List ℕ} {F : List ℕ → List ℕ → List ℕ → ℝ}
    (h : Holds a B S S true false F) (d : Pool) (hw : PosWin d.window) (hl : S.length = d.window.length) :
    Holds (if d.type = .avg then normalize a (poolKernel a d.type (List.replicate B.length (1, 1) ++ d.window) d.padding
        d.normalizeEdges) d.normalizeEdges d.padding (List.replicate B.length (1, 1) ++ d.window)
      else poolKernel a d.type (List.replicate B.length (1, 1) ++ d.window) d.padding d.normalizeEdges)
      B (outDims d.padding S d.window) (outDims d.padding S d.window) true false
      (fun b o o' => (∑ f ∈ offsets d.window,
        read2 (F b) (readIdx d.padding S d.window o f) (readIdx d.padding S d.window o' f)) /
          (d.size S o * d.size S o)) := by
  have h1 := windowed_diag d.padding h d.window hw hl
  unfold Pool.size
  cases ht : d.type
  · simp only [if_true]
    have h2 : Holds (poolKernel a .avg (List.replicate B.length (1, 1) ++ d.window) d.padding d.normalizeEdges)
        B (outDims d.padding S d.window) (outDims d.padding S d.window) true false
        (fun b o o' => (∑ f ∈ offsets d.window,
          read2 (F b) (readIdx d.padding S d.window o f) (readIdx d.padding S d.window o' f)) /
            avgSize d.normalizeEdges d.padding S d.window o) := by
      unfold poolKernel
      by_cases hp : d.padding = .circular
      · rw [hp] at h1 ⊢
        simp only [if_true]
        refine (h1.map fun v => v / (((List.replicate B.length ((1, 1) : ℕ × ℕ) ++ d.window).map Prod.fst).prod : ℕ)).congr
          fun b o o' _ _ _ => ?_
        rw [List.map_append, List.prod_append]
        simp [avgSize]
      · have e : windowed d.padding a (List.replicate B.length (1, 1) ++ d.window) =
            reduceWindow a (List.replicate B.length (1, 1) ++ d.window) d.padding := by
          simp [windowed, hp]
        rw [e] at h1
        simp only [if_neg hp, if_true]
        exact normalize_diag d.padding d.normalizeEdges d.window hw hl (fun _ => h) h1
    refine (normalize_diag d.padding d.normalizeEdges d.window hw hl (fun _ => h) h2).congr fun b o o' _ _ _ => ?_
    rw [div_div]
  · unfold poolKernel
    simpa [windowed] using h1

/-! ### Activations -/

lemma insert_append {β : Type} (l : List β) (k : ℕ) (v : β) (hk : k ≤ l.length) :
    l.insertIdx k v = l.take k ++ [v] ++ l.drop k := by
  rw [insertIdx_app l k v hk]; simp

lemma insert_mid {β : Type} (P Q : List β) (k : ℕ) (v : β) (hk : P.length = k) :
    (P ++ Q).insertIdx k v = P ++ [v] ++ Q := by
  subst hk
  rw [insert_append _ _ _ (by simp)]
  simp

lemma outDims_insert (pad : Padding) (S : List ℕ) (ws : List (ℕ × ℕ)) (k n : ℕ) (hl : S.length = ws.length) (hk : k ≤ S.length) :
    outDims pad (S.insertIdx k n) (ws.insertIdx k (1, 1)) = (outDims pad S ws).insertIdx k n := by
  have l1 : (S.take k).length = (ws.take k).length := by simp [hl]
  have e : outDims pad S ws = outDims pad (S.take k) (ws.take k) ++ outDims pad (S.drop k) (ws.drop k) := by
    rw [← outDims_append _ _ _ _ _ l1, List.take_append_drop, List.take_append_drop]
  have l2 : (outDims pad (S.take k) (ws.take k)).length = k := by
    rw [outDims_length _ _ _ l1]; simp [hk]
  rw [insert_append S k n hk, insert_append ws k (1, 1) (by omega), outDims_append _ _ _ _ _ (by simp [hl]),
    outDims_append _ _ _ _ _ l1, e, insert_mid _ _ _ _ l2]
  simp [outDims, outDim_one]

lemma readIdx_length (pad : Padding) : ∀ (S : List ℕ) (ws : List (ℕ × ℕ)) (o f p : List ℕ), readIdx pad S ws o f = some p →
    p.length = S.length := by
  intro S
  induction S with
  | nil => intro ws o f p h; cases ws <;> cases o <;> cases f <;> simp_all [readIdx]
  | cons n S ih =>
    intro ws o f p h
    cases ws with
    | nil => simp [readIdx] at h
    | cons v ws =>
    cases o with
    | nil => simp [readIdx] at h
    | cons o os =>
    cases f with
    | nil => simp [readIdx] at h
    | cons f fs =>
      obtain ⟨w, s⟩ := v
      simp only [readIdx] at h
      cases h1 : readPos pad n w s o f with
      | none => simp [h1] at h
      | some a =>
        cases h2 : readIdx pad S ws os fs with
        | none => simp [h1, h2] at h
        | some b =>
          simp only [h1, h2, Option.some.injEq] at h
          subst h
          simp [ih ws os fs b h2]

lemma readIdx_insert (pad : Padding) (S : List ℕ) (ws : List (ℕ × ℕ)) (o f : List ℕ) (k n i : ℕ) (hl : S.length = ws.length)
    (h2 : S.length = o.length) (h3 : S.length = f.length) (hk : k ≤ S.length) (hi : i < n) :
    readIdx pad (S.insertIdx k n) (ws.insertIdx k (1, 1)) (o.insertIdx k i) (f.insertIdx k 0) =
      (readIdx pad S ws o f).map (fun p => p.insertIdx k i) := by
  have e : readIdx pad S ws o f = catOpt (readIdx pad (S.take k) (ws.take k) (o.take k) (f.take k))
      (readIdx pad (S.drop k) (ws.drop k) (o.drop k) (f.drop k)) := by
    rw [← readIdx_append _ _ _ _ _ _ _ _ _ (by simp [hl]) (by simp [h2]) (by simp [h3])]
    simp only [List.take_append_drop]
  rw [insert_append S k n hk, insert_append ws k (1, 1) (by omega), insert_append o k i (by omega),
    insert_append f k 0 (by omega), readIdx_append _ _ _ _ _ _ _ _ _ (by simp [hl]) (by simp [h2]) (by simp [h3]),
    readIdx_append _ _ _ _ _ _ _ _ _ (by simp [hl]) (by simp [h2]) (by simp [h3]), e]
  have e1 : readIdx pad [n] [(1, 1)] [i] [0] = some [i] := by simp [readIdx, readPos_one pad n i hi]
  rw [e1]
  cases e2 : readIdx pad (S.take k) (ws.take k) (o.take k) (f.take k) with
  | none => rfl
  | some p =>
    have lp := readIdx_length pad _ _ _ _ _ e2
    rw [List.length_take, min_eq_left hk] at lp
    cases e3 : readIdx pad (S.drop k) (ws.drop k) (o.drop k) (f.drop k) with
    | none => rfl
    | some q =>
      simp only [catOpt, Option.map_some]
      rw [insert_mid _ _ _ _ lp]

lemma offsets_insert (ws : List (ℕ × ℕ)) (k : ℕ) (hk : k ≤ ws.length) (g : List ℕ → ℝ) :
    ∑ f ∈ offsets (ws.insertIdx k (1, 1)), g f = ∑ f ∈ offsets ws, g (f.insertIdx k 0) := by
  unfold offsets
  have : (ws.insertIdx k (1, 1)).map Prod.fst = (ws.map Prod.fst).insertIdx k 1 := by
    rw [insert_append _ _ _ hk, insert_append _ _ _ (by simpa using hk)]
    simp [List.map_take, List.map_drop]
  rw [this, box_sum_insertIdx _ _ _ (by simpa using hk)]
  simp

lemma PosWin.insert {ws : List (ℕ × ℕ)} (h : PosWin ws) (k : ℕ) (hk : k ≤ ws.length) : PosWin (ws.insertIdx k (1, 1)) := by
  rw [insert_append _ _ _ hk]
  refine PosWin.append (PosWin.append ?_ ?_) ?_
  · exact fun v hv => h v (List.mem_of_mem_take hv)
  · intro v hv; simp at hv; subst hv; simp
  · exact fun v hv => h v (List.mem_of_mem_drop hv)

/-- Window sums of activations. -/
lemma windowed_act (pad : Padding) (x : Arr ℝ) (ws : List (ℕ × ℕ)) (hw : PosWin ws) (S : List ℕ) (B A n C : ℕ) (hl : S.length = ws.length)
    (hB : B < S.length + 2) (hA : A < S.length + 2) (hne : B ≠ A) (hx : x.shape = actIdx B A n C S) :
    (windowed pad x (actIdx B A (1, 1) (1, 1) ws)).shape = actIdx B A n C (outDims pad S ws) ∧
      ∀ i < n, ∀ c < C, ∀ o, InRange o (outDims pad S ws) →
        (windowed pad x (actIdx B A (1, 1) (1, 1) ws)).get (actIdx B A i c o) =
          ∑ f ∈ offsets ws, readTap (fun p => x.get (actIdx B A i c p)) (readIdx pad S ws o f) := by
  have hA' : newAxis A B ≤ S.length := Inputs.newAxis_le hne.symm hA hB
  have lS : (S.insertIdx (newAxis A B) C).length = S.length + 1 := by rw [List.length_insertIdx, if_pos hA']
  have lw : (ws.insertIdx (newAxis A B) (1, 1)).length = ws.length + 1 := by
    rw [List.length_insertIdx, if_pos (by omega)]
  have lO := outDims_length pad S ws hl
  rw [actIdx_insert' B A n C S hne hB hA] at hx
  rw [actIdx_insert' B A (1, 1) (1, 1) ws hne (by omega) (by omega),
    actIdx_insert' B A n C (outDims pad S ws) hne (by omega) (by omega)]
  obtain ⟨h1, h2⟩ := windowed_ok pad x ((ws.insertIdx (newAxis A B) (1, 1)).insertIdx B (1, 1))
    ((hw.insert _ (by omega)).insert _ (by omega)) (by
      rw [hx, List.length_insertIdx_of_le_length (by omega), lS, List.length_insertIdx_of_le_length (by omega), lw]
      omega)
  have hsh : outDims pad x.shape ((ws.insertIdx (newAxis A B) (1, 1)).insertIdx B (1, 1)) =
      ((outDims pad S ws).insertIdx (newAxis A B) C).insertIdx B n := by
    rw [hx, outDims_insert _ _ _ _ _ (by omega) (by omega), outDims_insert _ _ _ _ _ hl hA']
  refine ⟨h1.trans hsh, fun i hi c hc o ho => ?_⟩
  have lo := ho.length
  rw [actIdx_insert' B A i c o hne (by omega) (by omega)]
  have lo1 : (o.insertIdx (newAxis A B) c).length = S.length + 1 := by
    rw [List.length_insertIdx, if_pos (by omega)]; omega
  rw [h2 _ (by
    rw [hsh, inRange_insertIdx (by rw [lo1, List.length_insertIdx, if_pos (by omega)]; omega)
      (by rw [List.length_insertIdx, if_pos (by omega)]; omega), inRange_insertIdx lo (by omega)]
    exact ⟨hi, hc, ho⟩)]
  rw [offsets_insert _ _ (by omega), offsets_insert _ _ (by omega)]
  refine Finset.sum_congr rfl fun f hf => ?_
  have lf := (mem_box.1 hf).length
  rw [List.length_map] at lf
  rw [hx, readIdx_insert _ _ _ _ _ _ _ _ (by omega) (by omega)
    (by rw [lS, List.length_insertIdx, if_pos (by omega)]; omega) (by omega) hi,
    readIdx_insert _ _ _ _ _ _ _ _ hl (by omega) (by omega) hA' hc]
  cases e : readIdx pad S ws o f with
  | none => rfl
  | some p =>
    have lp := readIdx_length pad _ _ _ _ _ e
    simp only [Option.map_some, readTap]
    rw [actIdx_insert' B A i c p hne (by omega) (by omega)]

/-- The pooled activations. -/
lemma pool_apply (d : Pool) (x : Arr ℝ) (hw : PosWin d.window) (S : List ℕ) (n C : ℕ) (hl : S.length = d.window.length)
    (hB : d.batchAxis < S.length + 2) (hne : d.batchAxis ≠ d.ca) (hx : x.shape = actIdx d.batchAxis d.ca n C S) :
    (d.apply x).shape = actIdx d.batchAxis d.ca n C (outDims d.padding S d.window) ∧
      ∀ i < n, ∀ c < C, ∀ o, InRange o (outDims d.padding S d.window) →
        (d.apply x).get (actIdx d.batchAxis d.ca i c o) =
          (∑ f ∈ offsets d.window, readTap (fun p => x.get (actIdx d.batchAxis d.ca i c p))
            (readIdx d.padding S d.window o f)) / d.size S o := by
  have hA : d.ca < S.length + 2 := by
    unfold Pool.ca
    rw [hl]
    have := Int.emod_lt_of_pos d.channelAxis (show (0 : ℤ) < (d.window.length : ℤ) + 2 by omega)
    omega
  obtain ⟨h1, h2⟩ := windowed_act d.padding x d.window hw S d.batchAxis d.ca n C hl hB hA hne hx
  obtain ⟨g1, g2⟩ := windowed_act d.padding (x.map fun _ => 1) d.window hw S d.batchAxis d.ca n C hl hB hA hne hx
  have gcov : ∀ i < n, ∀ c < C, ∀ o, InRange o (outDims d.padding S d.window) →
      (windowed d.padding (x.map fun _ => 1) (actIdx d.batchAxis d.ca (1, 1) (1, 1) d.window)).get
        (actIdx d.batchAxis d.ca i c o) = covered d.padding S d.window o := g2
  have hcov := covered_full d.padding
  unfold Pool.apply Pool.size
  cases ht : d.type
  · dsimp only
    by_cases h3 : d.padding = .circular ∨ d.normalizeEdges = true
    · rw [if_pos h3]
      refine ⟨h1, fun i hi c hc o ho => ?_⟩
      have e1 := h2 i hi c hc o ho
      have e2 := gcov i hi c hc o ho
      unfold windowed at e1 e2
      dsimp only
      rw [e1]
      congr 1
      have e3 : ((if d.padding = .circular then samePadWrap x (actIdx d.batchAxis d.ca (1, 1) (1, 1) d.window) else x).map
          fun _ => (1 : ℝ)) = (if d.padding = .circular then samePadWrap (x.map fun _ => 1)
            (actIdx d.batchAxis d.ca (1, 1) (1, 1) d.window) else x.map fun _ => 1) := by
        split_ifs <;> rfl
      rw [e3, e2]
      unfold avgSize
      split_ifs with h4
      · rw [h4.1]
      · refine covered_full d.padding ?_ S d.window o hw hl ho
        intro h5
        rcases h3 with h3 | h3
        · rw [h3] at h5; simp at h5
        · exact h4 ⟨h5, h3⟩
    · rw [if_neg h3]
      refine ⟨h1, fun i hi c hc o ho => ?_⟩
      have e1 := h2 i hi c hc o ho
      unfold windowed at e1
      simp only [Arr.map]
      rw [e1]
      congr 1
      unfold avgSize
      rw [if_neg (by tauto)]
  · simp only [div_one]
    exact ⟨h1, h2⟩

end NT
