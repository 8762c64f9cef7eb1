import Verif.Lemmas.Rules5

/-!
# Compact Jacobians with diagonal axes
-/

namespace NT.Rules
open NT Arr Spec
variable {α : Type}

/-- The function `f` of arrays of shape `X` gives arrays of shape `Y`, with entries `G`. -/
def Gives (f : Arr α → Except Err (Arr α)) (X Y : List ℕ) (G : Arr α → List ℕ → α) : Prop :=
  ∀ x, x.shape = X → ∃ y, f x = .ok y ∧ y.shape = Y ∧ ∀ k, InRange k Y → y.get k = G x k

lemma inRange_set_zero {k S : List ℕ} {b n : ℕ} (h : InRange k S) (hn : 0 < n) : InRange (k.set b 0) (S.set b n) := by
  obtain ⟨h1, h2⟩ := inRange_iff.1 h
  refine inRange_iff.2 ⟨by simp [h1], fun x hx0 => ?_⟩
  have hx : x < S.length := by simpa using hx0
  by_cases hxb : x = b
  · subst hxb
    rw [getD_set_self (by omega), getD_set_self hx]
    exact hn
  · rw [getD_set_ne hxb, getD_set_ne hxb]
    exact h2 x hx

lemma vmapKeep_gives {f : Arr α → Except Err (Arr α)} {X Y : List ℕ} {a b : ℕ} {G : Arr α → List ℕ → α} (h : Gives f (X.set a 1) (Y.set b 1) G)
    (hs : Y.getD b 0 = X.getD a 0) : Gives (vmapKeep a b f) X Y fun x k => G (x.sliceKeep a (k.getD b 0)) (k.set b 0) := by
  intro x hx
  have hsl : ∀ d, (x.sliceKeep a d).shape = X.set a 1 := fun d => by rw [← hx]; rfl
  obtain ⟨y0, e1, e2, e3⟩ := h _ (hsl 0)
  refine ⟨⟨y0.shape.set b (x.shape.getD a 0), fun k =>
    match f (x.sliceKeep a (k.getD b 0)) with
    | .ok y => y.get (k.set b 0)
    | .error _ => y0.get (k.set b 0)⟩, ?_, ?_, fun k hk => ?_⟩
  · unfold vmapKeep
    rw [e1]
    rfl
  · show y0.shape.set b _ = Y
    rw [e2, List.set_set, hx]
    exact set_self hs
  · obtain ⟨y, f1, f2, f3⟩ := h _ (hsl (k.getD b 0))
    show (match f (x.sliceKeep a (k.getD b 0)) with
      | .ok y => y.get (k.set b 0)
      | .error _ => y0.get (k.set b 0)) = _
    rw [f1]
    exact f3 _ (inRange_set_zero hk Nat.one_pos)

/-- The index `q` moved by the coordinates of `k` at the paired axes. -/
def addAt (L : List (ℕ × ℕ)) (k q : List ℕ) : List ℕ := L.foldl (fun q p => q.set p.1 (q.getD p.1 0 + k.getD p.2 0)) q

lemma addAt_length (L : List (ℕ × ℕ)) (k q : List ℕ) : (addAt L k q).length = q.length := by
  induction L generalizing q with
  | nil => rfl
  | cons p L ih =>
    unfold addAt at ih ⊢
    rw [List.foldl_cons, ih, List.length_set]

lemma addAt_off (L : List (ℕ × ℕ)) (k q : List ℕ) {x : ℕ} (h : x ∉ L.map (·.1)) : (addAt L k q).getD x 0 = q.getD x 0 := by
  induction L generalizing q with
  | nil => rfl
  | cons p L ih =>
    unfold addAt at ih ⊢
    rw [List.map_cons, List.mem_cons, not_or] at h
    rw [List.foldl_cons, ih _ h.2, getD_set_ne h.1]

lemma addAt_on (L : List (ℕ × ℕ)) (k q : List ℕ) (hn : (L.map (·.1)).Nodup) {p : ℕ × ℕ} (hp : p ∈ L) (hl : p.1 < q.length) :
    (addAt L k q).getD p.1 0 = q.getD p.1 0 + k.getD p.2 0 := by
  induction L generalizing q with
  | nil => cases hp
  | cons p' L ih =>
    rw [List.map_cons, List.nodup_cons] at hn
    rcases List.mem_cons.1 hp with rfl | hp
    · have := addAt_off L k (q.set p.1 (q.getD p.1 0 + k.getD p.2 0)) hn.1
      unfold addAt at this ⊢
      rw [List.foldl_cons, this, getD_set_self hl]
    · have hne : p.1 ≠ p'.1 := fun h => hn.1 (h ▸ List.mem_map.2 ⟨p, hp, rfl⟩)
      have := ih (q.set p'.1 (q.getD p'.1 0 + k.getD p'.2 0)) hn.2 hp (by simpa using hl)
      unfold addAt at this ⊢
      rw [List.foldl_cons, this, getD_set_ne hne]

lemma addAt_congr (L : List (ℕ × ℕ)) (k k' q : List ℕ) (h : ∀ p ∈ L, k.getD p.2 0 = k'.getD p.2 0) : addAt L k q = addAt L k' q := by
  induction L generalizing q with
  | nil => rfl
  | cons p L ih =>
    have := ih (q.set p.1 (q.getD p.1 0 + k'.getD p.2 0)) fun p' hp' => h p' (by simp [hp'])
    unfold addAt at this ⊢
    rw [List.foldl_cons, List.foldl_cons, h p (by simp), this]

/-- The slice of `x` at the coordinates of `k`. -/
def slices (L : List (ℕ × ℕ)) (k : List ℕ) (x : Arr α) : Arr α := ⟨trim (L.map (·.1)) x.shape, fun q => x.get (addAt L k q)⟩

lemma trim_snoc (as S : List ℕ) (a : ℕ) : trim (as ++ [a]) S = trim as (S.set a 1) := by
  refine ext_getD' (by simp [length_trim]) fun x hx0 => ?_
  have hx : x < S.length := by simpa [length_trim] using hx0
  rw [getD_trim _ _ _ hx, getD_trim _ _ _ (by simpa using hx)]
  by_cases h : x = a
  · subst h
    rw [if_pos (by simp), getD_set_self hx]
    split <;> rfl
  · rw [getD_set_ne h]
    have : x ∈ as ++ [a] ↔ x ∈ as := by simp [h]
    simp only [this]

lemma squash_snoc (as k : List ℕ) (b : ℕ) : squash as (k.set b 0) = squash (as ++ [b]) k := by
  refine ext_getD' (by simp [length_squash]) fun x hx0 => ?_
  have hx : x < k.length := by simpa [length_squash] using hx0
  rw [getD_squash, getD_squash]
  by_cases h : x = b
  · subst h
    rw [if_pos (show x ∈ as ++ [x] by simp), getD_set_self hx]
    split <;> rfl
  · rw [getD_set_ne h]
    have : x ∈ as ++ [b] ↔ x ∈ as := by simp [h]
    simp only [this]

lemma fold_gives (L : List (ℕ × ℕ)) : ∀ {f : Arr α → Except Err (Arr α)} {X Y : List ℕ} {G : Arr α → List ℕ → α}, (L.map (·.1)).Nodup → (L.map (·.2)).Nodup →
    (∀ p ∈ L, Y.getD p.2 0 = X.getD p.1 0) → Gives f (trim (L.map (·.1)) X) (trim (L.map (·.2)) Y) G →
    Gives (L.foldl (fun f p => vmapKeep p.1 p.2 f) f) X Y fun x k => G (slices L k x) (squash (L.map (·.2)) k) := by
  induction L using List.reverseRecOn with
  | nil =>
    intro f X Y G _ _ _ h x hx
    have e1 : ∀ S, trim [] S = S := fun S => by
      refine ext_getD' (length_trim _ _) fun x hx => ?_
      rw [length_trim] at hx
      rw [getD_trim _ _ _ hx]
      simp
    have e2 : ∀ k, squash [] k = k := fun k => by
      refine ext_getD' (length_squash _ _) fun x hx => ?_
      rw [getD_squash]
      simp
    simp only [List.map_nil, e1] at h
    obtain ⟨y, h1, h2, h3⟩ := h x hx
    refine ⟨y, h1, h2, fun k hk => ?_⟩
    have : slices [] k x = x := by
      unfold slices addAt
      simp only [List.map_nil, e1, List.foldl_nil]
    simp only [List.map_nil, e2, this]
    exact h3 k hk
  | append_singleton L p ih =>
    intro f X Y G hA hB hs h
    rw [List.map_append, List.map_cons, List.map_nil] at hA hB h
    rw [List.map_append, List.map_cons, List.map_nil, trim_snoc, trim_snoc] at h
    have hA' := List.nodup_append.1 hA
    have hB' := List.nodup_append.1 hB
    have hpA : ∀ q ∈ L, q.1 ≠ p.1 := fun q hq => hA'.2.2 _ (List.mem_map.2 ⟨q, hq, rfl⟩) _ (by simp)
    have hpB : ∀ q ∈ L, q.2 ≠ p.2 := fun q hq => hB'.2.2 _ (List.mem_map.2 ⟨q, hq, rfl⟩) _ (by simp)
    have h1 := ih hA'.1 hB'.1 (fun q hq => by rw [getD_set_ne (hpA q hq), getD_set_ne (hpB q hq)]; exact hs q (by simp [hq])) h
    have h2 := vmapKeep_gives h1 (hs p (by simp))
    rw [List.foldl_append]
    intro x hx
    obtain ⟨y, y1, y2, y3⟩ := h2 x hx
    refine ⟨y, y1, y2, fun k hk => ?_⟩
    rw [y3 k hk]
    simp only [List.map_append, List.map_cons, List.map_nil]
    rw [squash_snoc]
    congr 1
    unfold slices sliceKeep
    simp only [List.map_append, List.map_cons, List.map_nil, trim_snoc]
    congr 1
    funext q
    have : addAt L (k.set p.2 0) q = addAt L k q := addAt_congr _ _ _ _ fun r hr => getD_set_ne (hpB r hr)
    rw [this]
    unfold addAt
    rw [List.foldl_append]
    rfl

/-- The compact Jacobian, when the diagonal axes of the other operand and of the output are the pairs `L`. -/
lemma compact_gives {rule : List ℕ → Arr α → List ℕ → Except Err (Arr α)} {s : Structure} {idx : ℕ} {inp : List ℕ} {other : Arr α} {out Y : List ℕ}
    {G : Arr α → List ℕ → α} (L : List (ℕ × ℕ))
    (hL : ((s.inDiagonal.zip s.outDiagonal).map fun p => (p.1.getD (if idx = 0 then 1 else 0) none, p.2)) = L.map fun q => (some q.1, q.2))
    (hA : (L.map (·.1)).Nodup) (hB : (L.map (·.2)).Nodup) (hs : ∀ p ∈ L, Y.getD p.2 0 = other.shape.getD p.1 0)
    (h : Gives (fun x => rule (trimIn s idx inp) x (trimOut s out)) (trim (L.map (·.1)) other.shape) (trim (L.map (·.2)) Y) G) :
    ∃ j, compact rule s idx inp other out = .ok j ∧ j.shape = Y ∧ ∀ k, InRange k Y → j.get k = G (slices L k other) (squash (L.map (·.2)) k) := by
  have e : ∀ (l : List (List (Option ℕ) × ℕ)) (L : List (ℕ × ℕ)) (f : Arr α → Except Err (Arr α)),
      (l.map fun p => (p.1.getD (if idx = 0 then 1 else 0) none, p.2)) = L.map (fun q => (some q.1, q.2)) →
      l.foldl (fun f p => match p.1.getD (if idx = 0 then 1 else 0) none with
        | some axis => vmapKeep axis p.2 f
        | none => fun _ => .error .valueError) f = L.foldl (fun f p => vmapKeep p.1 p.2 f) f := by
    intro l
    induction l with
    | nil =>
      intro L f h
      have : L = [] := by simpa using h.symm
      subst this
      rfl
    | cons p l ih =>
      intro L f h
      cases L with
      | nil => simp at h
      | cons q L =>
        simp only [List.map_cons, List.cons.injEq, Prod.mk.injEq] at h
        rw [List.foldl_cons, List.foldl_cons, ih L _ h.2]
        rw [h.1.1, h.1.2]
  obtain ⟨j, j1, j2, j3⟩ := fold_gives L hA hB hs h other rfl
  refine ⟨j, ?_, j2, j3⟩
  unfold compact
  exact (congrFun (e _ L _ hL) other).trans j1

end NT.Rules
