import Verif.Model.Fuse

/-!
# C36: explicit options and inferred requirements
-/

namespace NT.C36
open NT Fuse

/-- The network requirement `need` allows the option `v`: asking for the diagonal only (`True`) is
refused if full covariances are required, that is for `False` or a `Diagonal` with `input = NO`. -/
def Allows (need : Option Val) (v : Val) : Prop :=
  v = .bool true → need ≠ some (.bool false) ∧ ∀ d, need = some (.diag d) → d.input ≠ .no

lemma forbidden_iff (v w : Val) : forbidden v w = false ↔ Allows (some w) v := by
  unfold forbidden Allows
  cases w with
  | bool b => cases b <;> by_cases h : v = .bool true <;> simp [h]
  | diag d => by_cases h : v = .bool true <;> simp [h]
  | _ => simp

lemma lookup_set (d : Dict) (k k' : String) (v : Val) :
    (setKey d k v).lookup k' = if k' = k then some v else d.lookup k' := by
  induction d with
  | nil =>
    by_cases h : k' = k
    · simp [setKey, List.lookup, h]
    · have : (k' == k) = false := by simpa using h
      simp [setKey, List.lookup, h, this]
  | cons p d ih =>
    obtain ⟨q, w⟩ := p
    unfold setKey
    by_cases hq : q = k
    · subst hq
      rw [if_pos rfl]
      by_cases h : k' = q
      · simp [List.lookup, h]
      · have : (k' == q) = false := by simpa using h
        simp [List.lookup, h, this]
    · rw [if_neg hq]
      by_cases h : k' = q
      · subst h
        simp [List.lookup, hq]
      · have : (k' == q) = false := by simpa using h
        simp [List.lookup, this, ih]

lemma lookup_cons (p : String × Val) (d : Dict) (k : String) :
    List.lookup k (p :: d) = if k = p.1 then some p.2 else d.lookup k := by
  by_cases h : k = p.1
  · simp [List.lookup, h]
  · have : (k == p.1) = false := by simpa using h
    simp [List.lookup, h, this]

lemma lookup_not_mem {d : Dict} {k : String} (h : k ∉ d.map (·.1)) : d.lookup k = none := by
  induction d with
  | nil => rfl
  | cons p d ih =>
    simp only [List.map_cons, List.mem_cons, not_or] at h
    rw [lookup_cons, if_neg h.1, ih h.2]

lemma fuseUser_spec : ∀ (user reqs : Dict), (user.map (·.1)).Nodup →
    ((∃ r, fuseUser reqs user = .ok r) ↔ ∀ p ∈ user, Allows (reqs.lookup p.1) p.2) ∧
    ∀ r, fuseUser reqs user = .ok r → ∀ k, r.lookup k =
      match user.lookup k with
      | some .none => reqs.lookup k
      | some v => some v
      | none => reqs.lookup k
  | [], reqs, _ => by
    refine ⟨by simp [fuseUser], ?_⟩
    intro r h k
    simp only [fuseUser, Except.ok.injEq] at h
    subst h
    rfl
  | (k, v) :: user, reqs, hn => by
    simp only [List.map_cons, List.nodup_cons] at hn
    unfold fuseUser
    by_cases hv : v = .none
    · subst hv
      rw [if_pos rfl]
      obtain ⟨h1, h2⟩ := fuseUser_spec user reqs hn.2
      refine ⟨?_, ?_⟩
      · rw [h1]
        simp [Allows]
      · intro r hr k'
        rw [h2 r hr k', lookup_cons]
        by_cases h : k' = k
        · subst h
          simp [lookup_not_mem hn.1]
        · simp [h]
    · rw [if_neg hv]
      obtain ⟨h1, h2⟩ := fuseUser_spec user (setKey reqs k v) hn.2
      have same : (∀ p ∈ user, Allows ((setKey reqs k v).lookup p.1) p.2) ↔
          ∀ p ∈ user, Allows (reqs.lookup p.1) p.2 := by
        refine forall_congr' fun p => forall_congr' fun hp => ?_
        have : p.1 ≠ k := fun e => hn.1 (List.mem_map.2 ⟨p, hp, e⟩)
        rw [lookup_set, if_neg this]
      have val : ∀ r, fuseUser (setKey reqs k v) user = .ok r → ∀ k', r.lookup k' =
          match List.lookup k' ((k, v) :: user) with
          | some .none => reqs.lookup k'
          | some v => some v
          | none => reqs.lookup k' := by
        intro r hr k'
        rw [h2 r hr k', lookup_cons, lookup_set]
        by_cases h : k' = k
        · subst h
          rw [lookup_not_mem hn.1]
          cases v <;> simp at hv ⊢
        · simp [h]
      cases hl : reqs.lookup k with
      | none =>
        refine ⟨?_, val⟩
        simp only [h1, same, List.forall_mem_cons, hl]
        simp [Allows]
      | some w =>
        simp only
        cases hf : forbidden v w with
        | true =>
          have : ¬ Allows (some w) v := by
            rw [← forbidden_iff, hf]
            simp
          simp only [if_true]
          refine ⟨?_, by simp⟩
          simp [hl, this]
        | false =>
          simp only [Bool.false_eq_true, if_false]
          refine ⟨?_, val⟩
          have : Allows (some w) v := (forbidden_iff v w).1 hf
          simp only [h1, same, List.forall_mem_cons, hl, this, true_and]

lemma fillDefaults_lookup : ∀ (ds reqs : Dict) (k : String),
    (fillDefaults reqs ds).lookup k = (reqs.lookup k).or (ds.lookup k)
  | [], reqs, k => by simp [fillDefaults]
  | (q, v) :: ds, reqs, k => by
    unfold fillDefaults
    rw [lookup_cons]
    cases hq : reqs.lookup q with
    | some w =>
      simp only
      rw [fillDefaults_lookup ds reqs k]
      by_cases h : k = q
      · subst h
        simp [hq]
      · simp [h]
    | none =>
      simp only
      rw [fillDefaults_lookup ds _ k, lookup_set]
      by_cases h : k = q
      · subst h
        simp [hq]
      · simp [h]

/-- Options are accepted exactly if the requirement of the network allows each of them; otherwise the
call raises. (Keyword arguments have distinct names.) -/
theorem accepted_iff_allowed (reqs defaults user : Dict) (hn : (user.map (·.1)).Nodup) :
    (∃ r, fuse reqs defaults user = .ok r) ↔ ∀ p ∈ user, Allows (reqs.lookup p.1) p.2 := by
  rw [← (fuseUser_spec user reqs hn).1]
  unfold fuse
  cases fuseUser reqs user <;> simp

/-- What is used: the option if one is given (and not `None`), else what the network requires, else the
default. -/
theorem option_value (reqs defaults user r : Dict) (hn : (user.map (·.1)).Nodup)
    (h : fuse reqs defaults user = .ok r) (k : String) :
    (∀ v, user.lookup k = some v → v ≠ .none → r.lookup k = some v) ∧
    ((user.lookup k = none ∨ user.lookup k = some .none) →
      (∀ v, reqs.lookup k = some v → r.lookup k = some v) ∧
      (reqs.lookup k = none → r.lookup k = defaults.lookup k)) := by
  unfold fuse at h
  cases hu : fuseUser reqs user with
  | error e => simp [hu] at h
  | ok r' =>
    simp only [hu, Except.ok.injEq] at h
    subst h
    have h2 := (fuseUser_spec user reqs hn).2 r' hu k
    rw [fillDefaults_lookup]
    constructor
    · intro v hv hne
      rw [hv] at h2
      rw [h2]
      cases v <;> simp at hne ⊢
    · rintro (h0 | h0)
      · rw [h0] at h2
        rw [h2]
        constructor
        · intro v hv
          simp [hv]
        · intro hv
          simp [hv]
      · rw [h0] at h2
        rw [h2]
        constructor
        · intro v hv
          simp [hv]
        · intro hv
          simp [hv]

/-! ## Kernel inputs -/

/-- The kernel `k` has the information that the value `v` of requirement `key` asks for. -/
def Provides {α : Type} (k : Kernel α) (key : String) (v : Val) : Prop :=
  (key = "diagonal_batch" → k.diagonalBatch = true → v ≠ .bool false ∧ ∀ d, v = .diag d → d.input ≠ .no) ∧
  (key = "diagonal_spatial" →
    k.diagonalSpatial = true → v ≠ .bool false ∧ ∀ d, v = .diag d → d.input ≠ .no) ∧
  (key = "batch_axis" → v ≠ .none → ∃ i, v = .int i ∧ (k.batchAxis : ℤ) = i % k.shape1.length) ∧
  (key = "channel_axis" → v ≠ .none → ∃ i, v = .int i ∧ (k.channelAxis : ℤ) = i % k.shape1.length)

lemma checkOne_ok {α : Type} (k : Kernel α) (key : String) (v : Val) :
    checkOne k key v = .ok () ↔ Provides k key v := by
  unfold checkOne Provides
  by_cases h1 : key = "diagonal_batch"
  · subst h1
    simp only [if_true, String.reduceEq, false_implies, and_true, forall_const]
    cases k.diagonalBatch <;> cases v <;> simp
  by_cases h2 : key = "diagonal_spatial"
  · subst h2
    simp only [if_true, String.reduceEq, if_false, false_implies, and_true, forall_const, true_and]
    cases k.diagonalSpatial <;> cases v <;> simp
  by_cases h3 : key = "batch_axis"
  · subst h3
    simp only [if_true, String.reduceEq, if_false, false_implies, and_true, forall_const, true_and]
    cases v <;> simp
  by_cases h4 : key = "channel_axis"
  · subst h4
    simp only [if_true, String.reduceEq, if_false, false_implies, forall_const, true_and]
    cases v <;> simp
  simp [h1, h2, h3, h4]

lemma checkAll_ok {α : Type} (k : Kernel α) (d : Dict) :
    checkAll k d = .ok () ↔ ∀ p ∈ d, Provides k p.1 p.2 := by
  induction d with
  | nil => simp [checkAll]
  | cons p d ih =>
    obtain ⟨key, v⟩ := p
    unfold checkAll
    rw [List.forall_mem_cons, ← checkOne_ok, ← ih]
    cases h : checkOne k key v with
    | error e => simp
    | ok u => simp

/-- A layer called on a `Kernel` computes exactly if the options are allowed and the kernel has what the
layer and the options ask for; otherwise the call raises before anything is computed. -/
theorem layer_runs_iff {α β : Type} (static user : Dict) (fn : Kernel α → Except Err β) (k : Kernel α)
    (hn : (user.map (·.1)).Nodup) :
    (∀ d, fuse static [] user = .ok d → (∀ p ∈ d, Provides k p.1 p.2) →
      requires static user fn k = fn k) ∧
    ((¬ (∀ p ∈ user, Allows (static.lookup p.1) p.2) ∨
      ∃ d, fuse static [] user = .ok d ∧ ∃ p ∈ d, ¬ Provides k p.1 p.2) →
      ∃ e, requires static user fn k = .error e) := by
  unfold requires
  constructor
  · intro d hd hp
    rw [hd]
    simp only
    rw [(checkAll_ok k d).2 hp]
  · rintro (h | ⟨d, hd, p, hp, hnp⟩)
    · rw [← accepted_iff_allowed static [] user hn] at h
      cases hf : fuse static [] user with
      | error e => exact ⟨e, rfl⟩
      | ok d => exact absurd ⟨d, hf⟩ h
    · rw [hd]
      simp only
      cases hc : checkAll k d with
      | error e => exact ⟨e, rfl⟩
      | ok u => exact absurd ((checkAll_ok k d).1 hc p hp) hnp

/-- The documented defaults of the options of `kernel_fn`. -/
def documented : String → Option Val
  | "diagonal_batch" => some (.bool true)
  | "diagonal_spatial" => some (.bool false)
  | "batch_axis" => some (.int 0)
  | "channel_axis" => some (.int (-1))
  | "use_dropout" => some (.bool false)
  | "mask_constant" => some .none
  | _ => none

/-- Whatever the network and the other options: an option that is neither given nor required by the network has its documented default in the call on arrays.
Examples are along axis 0, channels along the last axis, only variances of single examples are computed but all covariances between positions, there
is no dropout and no mask. -/
theorem defaults_used (reqs user r : Dict) (hn : (user.map (·.1)).Nodup) (h : fuse reqs defaultReq user = .ok r) (k : String)
    (hu : user.lookup k = none ∨ user.lookup k = some .none) (hr : reqs.lookup k = none) : r.lookup k = documented k := by
  rw [((option_value reqs defaultReq user r hn h k).2 hu).2 hr]
  simp only [defaultReq, List.lookup, documented]
  repeat' split
  all_goals simp_all

section Examples
/-- `Aggregate`: full spatial covariance required. -/
def aggregate : Dict := [("batch_axis", .int 0), ("diagonal_spatial", .diag ⟨.no, .no⟩)]

example : (∃ r, fuse aggregate defaultReq [("diagonal_spatial", .bool true)] = .ok r) ↔ False := by
  rw [accepted_iff_allowed _ _ _ (by decide)]
  simp [aggregate, List.lookup, Allows]

example : (fuse aggregate defaultReq [("diagonal_spatial", .none), ("diagonal_batch", .bool false)]) =
    .ok [("batch_axis", .int 0), ("diagonal_spatial", .diag ⟨.no, .no⟩), ("diagonal_batch", .bool false),
      ("use_dropout", .bool false), ("channel_axis", .int (-1)), ("mask_constant", .none)] := by decide

/-- `Aggregate` called without options: only variances of single examples. -/
example : ∃ r, fuse aggregate defaultReq [] = .ok r ∧ r.lookup "diagonal_batch" = some (.bool true) :=
  ⟨_, rfl, defaults_used aggregate [] _ (by simp) rfl "diagonal_batch" (.inl rfl) (by decide)⟩
end Examples

end NT.C36
