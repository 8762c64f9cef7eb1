import Verif.Lemmas.Conv2
import Verif.Tac

/-!
# C60: circular padding followed by a window without padding is a window over the periodic extension
-/

namespace NT.C60
open NT Arr Spec

/-- Window and stride of each of `n` axes: those given for `axes`, 1 elsewhere. -/
def windowsOf (n : ℕ) (filter strides axes : List ℕ) : List (ℕ × ℕ) :=
  (axes.zip (filter.zip strides)).foldl (fun l v => l.set v.1 v.2) (List.replicate n (1, 1))

/-- The periodic extension of an array to all integer positions. -/
def periodic (x : Arr ℝ) (z : List ℤ) : ℝ := x.get (List.zipWith (fun (n : ℕ) (k : ℤ) => (k % (n : ℤ)).toNat) x.shape z)

/-- The integer position of offset `f` of the window at output `o`: the windows are centred as for `'SAME'`. -/
def place : List ℕ → List (ℕ × ℕ) → List ℕ → List ℕ → List ℤ
  | n :: S, (w, s) :: ws, o :: os, f :: fs => (o * s + f - leftPad .same n w s) :: place S ws os fs
  | _, _, _, _ => []

lemma zipWith_set {α β γ : Type} (F : α → β → γ) (l : List α) (m : List β) (k : ℕ) (v : β) (x : α) (hx : k < l.length → l[k]? = some x) :
    List.zipWith F l (m.set k v) = (List.zipWith F l m).set k (F x v) := by
  induction l generalizing m k with
  | nil => simp
  | cons a l ih =>
    cases m with
    | nil => simp
    | cons b m =>
      cases k with
      | zero =>
        have := hx (by simp)
        simp at this
        subst this
        simp
      | succ k =>
        simp only [List.set_cons_succ, List.zipWith_cons_cons]
        rw [ih m k (fun h => by simpa using hx (by simpa using h))]

lemma axisPads_eq (S filter strides axes : List ℕ) :
    axisPads S filter strides axes = List.zipWith (fun n v => samePads n v.1 v.2) S (windowsOf S.length filter strides axes) := by
  unfold axisPads windowsOf
  have h0 : List.replicate S.length (0, 0) =
      List.zipWith (fun n v => samePads n v.1 v.2) S (List.replicate S.length (1, 1)) := by
    induction S with
    | nil => rfl
    | cons n S ih =>
      simp only [List.length_cons, List.replicate_succ, List.zipWith_cons_cons, ← ih, samePads_one]
  rw [h0]
  generalize List.replicate S.length ((1, 1) : ℕ × ℕ) = l
  induction axes.zip (filter.zip strides) generalizing l with
  | nil => rfl
  | cons v t ih =>
    simp only [List.foldl_cons]
    rw [← ih, zipWith_set _ _ _ _ _ (S.getD v.1 0)]
    intro h
    rw [List.getD_eq_getElem?_getD, List.getElem?_eq_getElem h]
    rfl

lemma windowsOf_length (n : ℕ) (filter strides axes : List ℕ) : (windowsOf n filter strides axes).length = n := by
  unfold windowsOf
  have : ∀ (t : List (ℕ × ℕ × ℕ)) (l : List (ℕ × ℕ)), (t.foldl (fun l v => l.set v.1 v.2) l).length = l.length := by
    intro t
    induction t with
    | nil => intro l; rfl
    | cons v t ih => intro l; rw [List.foldl_cons, ih, List.length_set]
  rw [this, List.length_replicate]

lemma windowsOf_pos (n : ℕ) (filter strides axes : List ℕ) (hf : ∀ w ∈ filter, 0 < w) (hs : ∀ s ∈ strides, 0 < s) :
    PosWin (windowsOf n filter strides axes) := by
  unfold windowsOf
  have : ∀ (t : List (ℕ × ℕ × ℕ)) (l : List (ℕ × ℕ)), (∀ v ∈ t, 0 < v.2.1 ∧ 0 < v.2.2) → PosWin l →
      PosWin (t.foldl (fun l v => l.set v.1 v.2) l) := by
    intro t
    induction t with
    | nil => intro l _ h; exact h
    | cons v t ih =>
      intro l hv hl
      rw [List.foldl_cons]
      refine ih _ (fun u hu => hv u (List.mem_cons_of_mem _ hu)) ?_
      intro u hu
      rcases List.mem_or_eq_of_mem_set hu with h | h
      · exact hl u h
      · rw [h]; exact hv v (List.mem_cons_self ..)
  refine this _ _ ?_ ?_
  · intro v hv
    have := (List.of_mem_zip hv).2
    have h2 := List.of_mem_zip this
    exact ⟨hf _ h2.1, hs _ h2.2⟩
  · intro v hv
    rw [List.eq_of_mem_replicate hv]
    exact ⟨Nat.one_pos, Nat.one_pos⟩

lemma zip_zipWith (S : List ℕ) (ws : List (ℕ × ℕ)) (i : List ℕ) :
    List.zipWith (fun (nv : ℕ × ℕ × ℕ) k => wrap1 nv.1 nv.2.1 k) (S.zip (List.zipWith (fun n v => samePads n v.1 v.2) S ws)) i =
    List.zipWith (fun nv k => wrap1 nv.1 (samePads nv.1 nv.2.1 nv.2.2).1 k) (S.zip ws) i := by
  induction S generalizing ws i with
  | nil => simp
  | cons n S ih =>
    cases ws with
    | nil => simp
    | cons v ws =>
      cases i with
      | nil => simp
      | cons k i =>
        simp only [List.zipWith_cons_cons, List.zip_cons_cons]
        rw [ih]

lemma zipWith_pads (S : List ℕ) (ws : List (ℕ × ℕ)) :
    List.zipWith (fun (n : ℕ) (v : ℕ × ℕ) => v.1 + n + v.2) S (List.zipWith (fun n v => samePads n v.1 v.2) S ws) =
    List.zipWith (fun n v => (samePads n v.1 v.2).1 + n + (samePads n v.1 v.2).2) S ws := by
  induction S generalizing ws with
  | nil => simp
  | cons n S ih =>
    cases ws with
    | nil => simp
    | cons v ws =>
      simp only [List.zipWith_cons_cons]
      rw [ih]

/-- The function of /repo, with explicit axes, is the padding used in the models of the layers. -/
theorem samePadFor_eq (x : Arr ℝ) (filter strides axes : List ℕ) :
    samePadFor x filter strides axes = samePadWrap x (windowsOf x.shape.length filter strides axes) := by
  unfold samePadFor samePadWrap
  simp only [axisPads_eq, zipWith_pads, zip_zipWith]

lemma readIdx_periodic : ∀ (S : List ℕ) (ws : List (ℕ × ℕ)) (o f : List ℕ), S.length = ws.length → o.length = S.length →
    f.length = S.length →
    readIdx .circular S ws o f = some (List.zipWith (fun (n : ℕ) (k : ℤ) => (k % (n : ℤ)).toNat) S (place S ws o f)) := by
  intro S
  induction S with
  | nil =>
    intro ws o f h1 h2 h3
    obtain rfl := List.length_eq_zero_iff.1 h1.symm
    obtain rfl := List.length_eq_zero_iff.1 h2
    obtain rfl := List.length_eq_zero_iff.1 h3
    rfl
  | cons n S ih =>
    intro ws o f h1 h2 h3
    cases ws with
    | nil => simp at h1
    | cons v ws =>
      cases o with
      | nil => simp at h2
      | cons a o =>
        cases f with
        | nil => simp at h3
        | cons b f =>
          simp only [readIdx, readPos, place, List.zipWith_cons_cons]
          rw [ih ws o f (by simpa using h1) (by simpa using h2) (by simpa using h3), (samePads_fst n v.1 v.2).2]

lemma outDims_same : ∀ (S : List ℕ) (ws : List (ℕ × ℕ)), outDims .same S ws = outDims .circular S ws := by
  intro S
  induction S with
  | nil => intro ws; rfl
  | cons n S ih =>
    intro ws
    cases ws with
    | nil => rfl
    | cons v ws => simp only [outDims, outDim, ih]

/-- Circular padding of the given axes followed by windows without padding gives as many outputs as windows
with `'SAME'` padding; the output at `o` reads at each offset the periodic extension of the array, with the
windows placed as for `'SAME'`. Hence any weighted sum over the window (a convolution, a pooling) is that of
the periodic extension. -/
theorem circular_is_periodic (x : Arr ℝ) (filter strides axes : List ℕ) (hf : ∀ w ∈ filter, 0 < w)
    (hs : ∀ s ∈ strides, 0 < s) :
    let ws := windowsOf x.shape.length filter strides axes
    let y := samePadFor x filter strides axes
    windowShape .valid y.shape ws = windowShape .same x.shape ws ∧
    ∀ o, InRange o (windowShape .same x.shape ws) →
      (∀ f, InRange f (ws.map Prod.fst) →
        ∃ z, tapIdx .valid y.shape ws o f = some z ∧ y.get z = periodic x (place x.shape ws o f)) ∧
      ∀ w : List ℕ → ℝ, ∑ f ∈ offsets ws, w f * readTap y.get (tapIdx .valid y.shape ws o f) =
        ∑ f ∈ offsets ws, w f * periodic x (place x.shape ws o f) := by
  intro ws y
  have hy : y = samePadWrap x ws := samePadFor_eq x filter strides axes
  have hw : PosWin ws := windowsOf_pos _ _ _ _ hf hs
  have hl : x.shape.length = ws.length := (windowsOf_length _ _ _ _).symm
  have hsh : y.shape = padShape x.shape ws := by rw [hy]; rfl
  have e : windowShape .same x.shape ws = outDims .circular x.shape ws := by
    rw [windowShape_outDims .same (by simp) _ _ hw, outDims_same]
  refine ⟨?_, ?_⟩
  · rw [hsh, windowShape_wrap _ _ hw, e]
  intro o ho
  rw [e] at ho
  have main : ∀ f, InRange f (ws.map Prod.fst) →
        ∃ z, tapIdx .valid y.shape ws o f = some z ∧ y.get z = periodic x (place x.shape ws o f) := by
    intro f hf'
    obtain ⟨z, h1, h2⟩ := tapIdx_wrap x.shape ws o f hw hl ho hf'
    refine ⟨z, by rw [hsh]; exact h1, ?_⟩
    rw [readIdx_periodic _ _ _ _ hl (by rw [ho.length, outDims_length _ _ _ hl]) (by rw [hf'.length]; simp [hl])] at h2
    rw [hy]
    show x.get (wrapIdx x.shape ws z) = _
    rw [← Option.some.inj h2]
    rfl
  refine ⟨main, ?_⟩
  intro w
  refine Finset.sum_congr rfl fun f hf' => ?_
  rw [offsets, mem_box] at hf'
  obtain ⟨z, h1, h2⟩ := main f hf'
  rw [h1, ← h2]
  rfl

/-- Where the windows of `'SAME'` padding read no padding, circular padding reads the same positions. -/
theorem interior_agrees : ∀ (S : List ℕ) (ws : List (ℕ × ℕ)) (o f p : List ℕ),
    readIdx .same S ws o f = some p → readIdx .circular S ws o f = some p := by
  intro S
  induction S with
  | nil =>
    intro ws o f p h
    cases ws <;> cases o <;> cases f <;> simp_all [readIdx]
  | cons n S ih =>
    intro ws o f p h
    cases ws with
    | nil => cases o <;> cases f <;> simp_all [readIdx]
    | cons v ws =>
      cases o with
      | nil => cases f <;> simp_all [readIdx]
      | cons a o =>
        cases f with
        | nil => simp_all [readIdx]
        | cons b f =>
          simp only [readIdx] at h ⊢
          have e : ∀ u, readPos .same n v.1 v.2 a b = some u → readPos .circular n v.1 v.2 a b = some u := by
            intro u hu
            simp only [readPos, (samePads_fst n v.1 v.2).2] at hu ⊢
            split at hu
            · rename_i hh
              rw [Int.emod_eq_of_lt hh.1 hh.2]
              exact hu
            · simp at hu
          rcases h1 : readPos .same n v.1 v.2 a b with _ | u
          · rw [h1] at h; simp at h
          · rcases h2 : readIdx .same S ws o f with _ | r
            · rw [h1, h2] at h; simp at h
            · rw [h1, h2] at h
              rw [e u h1, ih ws o f r h2]
              exact h

/-- An axis of 5 positions between batch and channel axes, filter 3, stride 2. -/
example (x : Arr ℝ) (hx : x.shape = [2, 5, 4]) :
    windowShape .valid (samePadFor x [3] [2] [1]).shape [(1, 1), (3, 2), (1, 1)] = [2, 3, 4] ∧
    place [2, 5, 4] [(1, 1), (3, 2), (1, 1)] [0, 0, 0] [0, 0, 0] = [0, -1, 0] := by
  have := (circular_is_periodic x [3] [2] [1] (by simp) (by simp)).1
  rw [hx] at this
  exact ⟨this, rfl⟩

end NT.C60
