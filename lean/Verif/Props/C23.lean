import Mathlib.Data.List.Nodup
import Verif.Model.Dataclass
import Verif.Tac

/-!
# C23: dataclass pytree round trip and replace laws

Instances are those a constructor call returned (`construct spec kwargs = .ok o`): the classes are
frozen, so there are no others.
-/

namespace NT.C23
open NT Dataclass

variable {V : Type}

/-! ## Helpers -/

lemma lookup_cons_ite (n k : String) (v : V) (l : Obj V) :
    List.lookup n ((k, v) :: l) = if n = k then some v else List.lookup n l := by
  rw [List.lookup_cons]
  by_cases h : n = k
  · simp [h]
  · have : (n == k) = false := by simpa using h
    simp [h, this]

/-- The values an instance must have: what the constructor stores for a field. -/
def valueOf (f : FieldSpec V) (kwargs : Obj V) : Option V :=
  if f.init then (kwargs.lookup f.name).or f.default else f.default

lemma initFields_ok {spec : List (FieldSpec V)} {kw o : Obj V} (h : initFields spec kw = .ok o) :
    (∀ f ∈ spec, f.init → (valueOf f kw).isSome) ∧
    o = spec.filterMap fun f => (valueOf f kw).map fun v => (f.name, v) := by
  induction spec generalizing o with
  | nil => simp [initFields] at h; simp [← h]
  | cons f fs ih =>
    simp only [initFields] at h
    by_cases hi : f.init
    · simp only [hi, if_true] at h
      cases e : (kw.lookup f.name).or f.default with
      | none => simp [e] at h
      | some v =>
        simp only [e] at h
        cases e2 : initFields fs kw with
        | error x => simp [e2, Except.map] at h
        | ok o' =>
          simp [e2, Except.map] at h
          obtain ⟨h1, h2⟩ := ih e2
          have hv : valueOf f kw = some v := by simp [valueOf, hi, e]
          refine ⟨?_, ?_⟩
          · simpa [hv] using h1
          · simp [hv, ← h, ← h2]
    · simp only [hi, if_false, Bool.false_eq_true] at h
      cases e : f.default with
      | none =>
        simp only [e] at h
        obtain ⟨h1, h2⟩ := ih h
        have hv : valueOf f kw = none := by simp [valueOf, hi, e]
        exact ⟨by simpa [hi] using h1, by simpa [hv] using h2⟩
      | some v =>
        simp only [e] at h
        cases e2 : initFields fs kw with
        | error x => simp [e2, Except.map] at h
        | ok o' =>
          simp [e2, Except.map] at h
          obtain ⟨h1, h2⟩ := ih e2
          have hv : valueOf f kw = some v := by simp [valueOf, hi, e]
          exact ⟨by simpa [hi] using h1, by simp [hv, ← h, ← h2]⟩

lemma initFields_of {spec : List (FieldSpec V)} {kw : Obj V}
    (h : ∀ f ∈ spec, f.init → (valueOf f kw).isSome) :
    initFields spec kw =
      .ok (spec.filterMap fun f => (valueOf f kw).map fun v => (f.name, v)) := by
  induction spec with
  | nil => rfl
  | cons f fs ih =>
    have ih' := ih (fun g hg => h g (by simp [hg]))
    simp only [initFields]
    by_cases hi : f.init
    · obtain ⟨v, hv⟩ := Option.isSome_iff_exists.1 (h f (by simp) hi)
      have e : (kw.lookup f.name).or f.default = some v := by simpa [valueOf, hi] using hv
      simp [hi, e, ih', hv, Except.map]
    · cases e : f.default with
      | none =>
        have hv : valueOf f kw = none := by simp [valueOf, hi, e]
        simp [hi, ih', hv]
      | some v =>
        have hv : valueOf f kw = some v := by simp [valueOf, hi, e]
        simp [hi, ih', hv, Except.map]

lemma lookup_filterMap (fs : List (FieldSpec V)) (val : FieldSpec V → Option V)
    (hnd : (fs.map (·.name)).Nodup) (f : FieldSpec V) (hf : f ∈ fs) :
    (fs.filterMap fun f => (val f).map fun v => (f.name, v)).lookup f.name = val f := by
  induction fs with
  | nil => simp at hf
  | cons g fs ih =>
    simp only [List.map_cons, List.nodup_cons] at hnd
    have aux : ∀ n, n ∉ fs.map (·.name) →
        (fs.filterMap fun f => (val f).map fun v => (f.name, v)).lookup n = none := by
      intro n hn
      rw [List.lookup_eq_none_iff]
      intro p hp
      rw [List.mem_filterMap] at hp
      obtain ⟨f', hf', e⟩ := hp
      cases e3 : val f' with
      | none => simp [e3] at e
      | some v =>
        simp [e3] at e
        have : n ≠ f'.name := fun h => hn (List.mem_map.2 ⟨f', hf', h.symm⟩)
        simpa [← e] using this
    rcases List.mem_cons.1 hf with rfl | hf
    · cases e : val f with
      | none => simp only [List.filterMap_cons, e, Option.map_none]; exact aux _ hnd.1
      | some v => simp [e]
    · have hne : f.name ≠ g.name := fun h => hnd.1 (h ▸ List.mem_map.2 ⟨f, hf, rfl⟩)
      have := ih hnd.2 hf
      cases e : val g with
      | none => simpa [e, List.filterMap_cons] using this
      | some v =>
        simp only [List.filterMap_cons, e, Option.map_some, lookup_cons_ite]
        rw [if_neg hne]
        exact this

lemma construct_ok {spec : List (FieldSpec V)} {kw o : Obj V} (h : construct spec kw = .ok o) :
    initFields spec kw = .ok o := by
  unfold construct at h
  split_ifs at h
  exact h

/-- The attribute of an instance for a field. -/
lemma lookup_obj {spec : List (FieldSpec V)} (hnd : (spec.map (·.name)).Nodup) {kw o : Obj V}
    (h : construct spec kw = .ok o) (f : FieldSpec V) (hf : f ∈ spec) :
    o.lookup f.name = valueOf f kw := by
  rw [(initFields_ok (construct_ok h)).2]
  exact lookup_filterMap spec _ hnd f hf

lemma mapM_getattr {o : Obj V} : ∀ (l : List (FieldSpec V)) (val : FieldSpec V → V),
    (∀ f ∈ l, o.lookup f.name = some (val f)) →
    (l.map (·.name)).mapM (getattr o) = .ok (l.map val)
  | [], _, _ => rfl
  | f :: l, val, h => by
    rw [List.map_cons, List.mapM_cons, mapM_getattr l val (fun g hg => h g (by simp [hg]))]
    simp [getattr, h f (by simp), bind, Except.bind, pure, Except.pure]

lemma zip_map {A B : Type} (l : List (FieldSpec V)) (g : FieldSpec V → A) (h : FieldSpec V → B) :
    (l.map g).zip (l.map h) = l.map fun f => (g f, h f) := by
  induction l with
  | nil => rfl
  | cons a l ih => simp [ih]

lemma lookup_map_filter (spec : List (FieldSpec V)) (p : FieldSpec V → Bool) (val : FieldSpec V → V)
    (hnd : (spec.map (·.name)).Nodup) (f : FieldSpec V) (hf : f ∈ spec) :
    ((spec.filter p).map fun f => (f.name, val f)).lookup f.name =
      if p f then some (val f) else none := by
  have e : ((spec.filter p).map fun f => (f.name, val f)) =
      spec.filterMap fun f => (if p f then some (val f) else none).map fun v => (f.name, v) := by
    clear hnd hf
    induction spec with
    | nil => rfl
    | cons g fs ih => by_cases hg : p g <;> simp [hg, ih]
  rw [e]
  exact lookup_filterMap spec (fun f => if p f then some (val f) else none) hnd f hf

lemma lookup_append' (l m : Obj V) (n : String) : (l ++ m).lookup n = (l.lookup n).or (m.lookup n) := by
  induction l with
  | nil => simp
  | cons p l ih =>
    obtain ⟨k, v⟩ := p
    simp only [List.cons_append, lookup_cons_ite]
    split_ifs
    · rfl
    · exact ih

/-- Two instances with the same attributes for the same fields are the same. -/
lemma construct_eq_of_valueOf {spec : List (FieldSpec V)} {kw kw' o : Obj V}
    (h : construct spec kw = .ok o) (hk : ∀ p ∈ kw', ∃ f ∈ spec, f.init ∧ f.name = p.1)
    (hv : ∀ f ∈ spec, valueOf f kw' = valueOf f kw) : construct spec kw' = .ok o := by
  obtain ⟨h1, h2⟩ := initFields_ok (construct_ok h)
  unfold construct
  rw [if_pos hk, initFields_of (fun f hf hi => by rw [hv f hf]; exact h1 f hf hi), h2]
  congr 1
  apply List.filterMap_congr
  intro f hf
  rw [hv f hf]

/-- What flattening returns: the attributes of the leaf fields and of the static fields, in the order
of declaration. -/
lemma flatten_ok [Nonempty V] {spec : List (FieldSpec V)} (hnd : (spec.map (·.name)).Nodup)
    {kw o : Obj V} (h : construct spec kw = .ok o) : ∃ val : FieldSpec V → V,
      (∀ f ∈ spec, f.init → valueOf f kw = some (val f)) ∧
      flatten spec o = .ok ((spec.filter fun f => f.init && f.pytreeNode).map val,
        (spec.filter fun f => f.init && !f.pytreeNode).map val) := by
  have h1 := (initFields_ok (construct_ok h)).1
  obtain ⟨v0⟩ := ‹Nonempty V›
  have hl : ∀ f ∈ spec, f.init → valueOf f kw = some ((valueOf f kw).getD v0) := by
    intro f hf hi
    obtain ⟨v, hv⟩ := Option.isSome_iff_exists.1 (h1 f hf hi)
    simp [hv]
  refine ⟨fun f => (valueOf f kw).getD v0, hl, ?_⟩
  unfold flatten metaFields dataFields
  rw [mapM_getattr _ (fun f => (valueOf f kw).getD v0)
    (fun f hf => by simp at hf; rw [lookup_obj hnd h f hf.1]; exact hl f hf.1 hf.2.1),
    mapM_getattr _ (fun f => (valueOf f kw).getD v0)
    (fun f hf => by simp at hf; rw [lookup_obj hnd h f hf.1]; exact hl f hf.1 hf.2.1)]
  rfl

lemma unflatten_eq (spec : List (FieldSpec V)) (val val' : FieldSpec V → V) :
    unflatten spec ((spec.filter fun f => f.init && !f.pytreeNode).map val)
      ((spec.filter fun f => f.init && f.pytreeNode).map val') =
    construct spec (((spec.filter fun f => f.init && !f.pytreeNode).map fun f => (f.name, val f)) ++
      (spec.filter fun f => f.init && f.pytreeNode).map fun f => (f.name, val' f)) := by
  unfold unflatten metaFields dataFields
  rw [zip_map, zip_map]

lemma valueOf_unflatten (spec : List (FieldSpec V)) (hnd : (spec.map (·.name)).Nodup)
    (val val' : FieldSpec V → V) (f : FieldSpec V) (hf : f ∈ spec) :
    valueOf f (((spec.filter fun f => f.init && !f.pytreeNode).map fun f => (f.name, val f)) ++
      (spec.filter fun f => f.init && f.pytreeNode).map fun f => (f.name, val' f)) =
    if f.init then some (if f.pytreeNode then val' f else val f) else f.default := by
  unfold valueOf
  by_cases hi : f.init
  · simp only [hi, if_true]
    rw [lookup_append', lookup_map_filter spec _ val hnd f hf, lookup_map_filter spec _ val' hnd f hf]
    by_cases hp : f.pytreeNode <;> simp [hi, hp]
  · simp [hi]

lemma unflatten_names (spec : List (FieldSpec V)) (val val' : FieldSpec V → V) :
    ∀ p ∈ ((spec.filter fun f => f.init && !f.pytreeNode).map fun f => (f.name, val f)) ++
      (spec.filter fun f => f.init && f.pytreeNode).map fun f => (f.name, val' f),
      ∃ f ∈ spec, f.init ∧ f.name = p.1 := by
  intro p hp
  simp only [List.mem_append, List.mem_map, List.mem_filter, Bool.and_eq_true] at hp
  rcases hp with ⟨f, ⟨h1, h2, _⟩, rfl⟩ | ⟨f, ⟨h1, h2, _⟩, rfl⟩
  · exact ⟨f, h1, h2, rfl⟩
  · exact ⟨f, h1, h2, rfl⟩

/-! ## Theorems -/

/-- Flattening an instance and rebuilding it gives the instance. -/
theorem flatten_unflatten [Nonempty V] (spec : List (FieldSpec V)) (hnd : (spec.map (·.name)).Nodup)
    (kw o : Obj V) (h : construct spec kw = .ok o) :
    ∃ d m, flatten spec o = .ok (d, m) ∧ unflatten spec m d = .ok o := by
  obtain ⟨val, h1, h2⟩ := flatten_ok hnd h
  refine ⟨_, _, h2, ?_⟩
  rw [unflatten_eq]
  refine construct_eq_of_valueOf h (unflatten_names spec val val) ?_
  intro f hf
  rw [valueOf_unflatten spec hnd val val f hf]
  by_cases hi : f.init
  · rw [h1 f hf hi]; simp [hi]
  · simp [valueOf, hi]

/-- Mapping a function over the leaves (`jax.tree_util.tree_map`) applies it to the leaf fields and
leaves the static ones as they are. -/
theorem leaf_map [Nonempty V] (spec : List (FieldSpec V)) (hnd : (spec.map (·.name)).Nodup)
    (kw o : Obj V) (h : construct spec kw = .ok o) (g : V → V) :
    ∃ d m o', flatten spec o = .ok (d, m) ∧ unflatten spec m (d.map g) = .ok o' ∧
      ∀ f ∈ spec, getattr o' f.name =
        if f.init && f.pytreeNode then (getattr o f.name).map g else getattr o f.name := by
  obtain ⟨val, h1, h2⟩ := flatten_ok hnd h
  have e : unflatten spec ((spec.filter fun f => f.init && !f.pytreeNode).map val)
      (((spec.filter fun f => f.init && f.pytreeNode).map val).map g) =
      .ok (spec.filterMap fun f => (if f.init then some (if f.pytreeNode then g (val f) else val f)
        else f.default).map fun v => (f.name, v)) := by
    rw [List.map_map, unflatten_eq]
    unfold construct
    rw [if_pos (unflatten_names spec val _), initFields_of]
    · congr 1
      apply List.filterMap_congr
      intro f hf
      rw [valueOf_unflatten spec hnd val _ f hf]
      rfl
    · intro f hf hi
      rw [valueOf_unflatten spec hnd val _ f hf]
      simp [hi]
  refine ⟨_, _, _, h2, e, ?_⟩
  intro f hf
  unfold getattr
  rw [lookup_filterMap spec _ hnd f hf, lookup_obj hnd h f hf]
  by_cases hi : f.init
  · rw [h1 f hf hi]
    by_cases hp : f.pytreeNode <;> simp [hi, hp, Except.map]
  · simp [hi, valueOf]

/-! ### `replace` -/

lemma replaceKwargs_ok {fs : List (FieldSpec V)} (hnd : (fs.map (·.name)).Nodup) {o ch : Obj V}
    (h1 : ∀ f ∈ fs, f.init → (o.lookup f.name).isSome)
    (h2 : ∀ f ∈ fs, f.init = false → ch.lookup f.name = none) :
    ∃ kw, replaceKwargs fs o ch = .ok kw ∧
      (∀ n, n ∉ fs.map (·.name) → kw.lookup n = ch.lookup n) ∧
      (∀ f ∈ fs, f.init → kw.lookup f.name = (ch.lookup f.name).or (o.lookup f.name)) ∧
      (∀ p ∈ kw, p ∈ ch ∨ ∃ f ∈ fs, f.init ∧ f.name = p.1) := by
  induction fs generalizing ch with
  | nil => exact ⟨ch, rfl, by simp, by simp, by simp⟩
  | cons f fs ih =>
    simp only [List.map_cons, List.nodup_cons] at hnd
    by_cases hi : f.init
    · cases e : ch.lookup f.name with
      | some v =>
        obtain ⟨kw, k1, k2, k3, k4⟩ := ih hnd.2 (ch := ch) (fun g hg => h1 g (by simp [hg]))
          (fun g hg => h2 g (by simp [hg]))
        refine ⟨kw, by simp [replaceKwargs, hi, e, k1], ?_, ?_, ?_⟩
        · intro n hn; exact k2 n (fun h => hn (by simp [h]))
        · intro g hg hgi
          rcases List.mem_cons.1 hg with rfl | hg
          · rw [k2 _ hnd.1, e]; rfl
          · exact k3 g hg hgi
        · intro p hp
          rcases k4 p hp with h | ⟨g, hg, h⟩
          · exact .inl h
          · exact .inr ⟨g, by simp [hg], h⟩
      | none =>
        obtain ⟨v, hv⟩ := Option.isSome_iff_exists.1 (h1 f (by simp) hi)
        have hl : ∀ n, n ≠ f.name → (ch ++ [(f.name, v)]).lookup n = ch.lookup n := by
          intro n hn
          rw [lookup_append']
          simp [lookup_cons_ite, hn]
        obtain ⟨kw, k1, k2, k3, k4⟩ := ih hnd.2 (ch := ch ++ [(f.name, v)])
          (fun g hg => h1 g (by simp [hg]))
          (fun g hg hgi => by
            rw [hl _ (fun hne => hnd.1 (hne ▸ List.mem_map.2 ⟨g, hg, rfl⟩))]
            exact h2 g (by simp [hg]) hgi)
        refine ⟨kw, by simp [replaceKwargs, hi, e, getattr, hv, k1], ?_, ?_, ?_⟩
        · intro n hn
          rw [k2 n (fun h => hn (by simp [h])), hl n (fun h => hn (by simp [h]))]
        · intro g hg hgi
          rcases List.mem_cons.1 hg with rfl | hg
          · rw [k2 _ hnd.1, lookup_append', e, hv]; simp
          · rw [k3 g hg hgi, hl _ (fun hne => hnd.1 (hne ▸ List.mem_map.2 ⟨g, hg, rfl⟩))]
        · intro p hp
          rcases k4 p hp with h | ⟨g, hg, h⟩
          · rcases List.mem_append.1 h with h | h
            · exact .inl h
            · simp at h; subst h; exact .inr ⟨f, by simp, hi, rfl⟩
          · exact .inr ⟨g, by simp [hg], h⟩
    · have hi' : f.init = false := by simpa using hi
      obtain ⟨kw, k1, k2, k3, k4⟩ := ih hnd.2 (ch := ch) (fun g hg => h1 g (by simp [hg]))
        (fun g hg => h2 g (by simp [hg]))
      refine ⟨kw, by simp [replaceKwargs, hi', h2 f (by simp) hi', k1], ?_, ?_, ?_⟩
      · intro n hn; exact k2 n (fun h => hn (by simp [h]))
      · intro g hg hgi
        rcases List.mem_cons.1 hg with rfl | hg
        · simp [hi'] at hgi
        · exact k3 g hg hgi
      · intro p hp
        rcases k4 p hp with h | ⟨g, hg, h⟩
        · exact .inl h
        · exact .inr ⟨g, by simp [hg], h⟩

/-- The changes name fields that can be set. -/
def ValidChanges (spec : List (FieldSpec V)) (ch : Obj V) : Prop :=
  ∀ p ∈ ch, ∃ f ∈ spec, f.init ∧ f.name = p.1

lemma ValidChanges.not_init {spec : List (FieldSpec V)} (hnd : (spec.map (·.name)).Nodup) {ch : Obj V}
    (h : ValidChanges spec ch) (f : FieldSpec V) (hf : f ∈ spec) (hi : f.init = false) :
    ch.lookup f.name = none := by
  rw [List.lookup_eq_none_iff]
  intro p hp
  obtain ⟨g, hg, hgi, hgn⟩ := h p hp
  rw [bne_iff_ne]
  intro e
  have : g = f := List.inj_on_of_nodup_map hnd hg hf (hgn.trans e.symm)
  rw [this, hi] at hgi
  exact absurd hgi (by simp)

/-- `replace` sets the named fields to the given values and leaves all others as they were. -/
theorem replace_changes_named (spec : List (FieldSpec V)) (hnd : (spec.map (·.name)).Nodup)
    (kw o : Obj V) (h : construct spec kw = .ok o) (ch : Obj V) (hch : ValidChanges spec ch) :
    ∃ o', replace spec o ch = .ok o' ∧ o'.map (·.1) = o.map (·.1) ∧
      ∀ f ∈ spec, o'.lookup f.name = (ch.lookup f.name).or (o.lookup f.name) := by
  have hinit := (initFields_ok (construct_ok h)).1
  obtain ⟨kw', k1, k2, k3, k4⟩ := replaceKwargs_ok (fs := spec) hnd (o := o) (ch := ch)
    (fun f hf hi => by rw [lookup_obj hnd h f hf]; exact hinit f hf hi)
    (fun f hf hi => hch.not_init hnd f hf hi)
  have hval : ∀ f ∈ spec, valueOf f kw' = (ch.lookup f.name).or (valueOf f kw) := by
    intro f hf
    by_cases hi : f.init
    · have hs := hinit f hf hi
      have e : valueOf f kw' = (kw'.lookup f.name).or f.default := by simp [valueOf, hi]
      rw [e, k3 f hf hi, lookup_obj hnd h f hf]
      obtain ⟨v, hv⟩ := Option.isSome_iff_exists.1 hs
      rw [hv]
      cases ch.lookup f.name <;> simp
    · have hi' : f.init = false := by simpa using hi
      rw [hch.not_init hnd f hf hi']
      simp [valueOf, hi']
  have hnames : ∀ p ∈ kw', ∃ f ∈ spec, f.init ∧ f.name = p.1 := by
    intro p hp
    rcases k4 p hp with h | h
    · exact hch p h
    · exact h
  have hc : construct spec kw' =
      .ok (spec.filterMap fun f => (valueOf f kw').map fun v => (f.name, v)) := by
    unfold construct
    rw [if_pos hnames, initFields_of]
    intro f hf hi
    rw [hval f hf]
    have := hinit f hf hi
    cases ch.lookup f.name <;> simp [this]
  refine ⟨_, by simp only [replace, k1]; exact hc, ?_, ?_⟩
  · rw [(initFields_ok (construct_ok h)).2]
    have aux : ∀ (fs : List (FieldSpec V)) (v w : FieldSpec V → Option V),
        (∀ f ∈ fs, (v f).isSome = (w f).isSome) →
        (fs.filterMap fun f => (v f).map fun x => (f.name, x)).map (·.1) =
        (fs.filterMap fun f => (w f).map fun x => (f.name, x)).map (·.1) := by
      intro fs v w hvw
      induction fs with
      | nil => rfl
      | cons f fs ih =>
        have h0 := hvw f (by simp)
        have h1 := ih (fun g hg => hvw g (by simp [hg]))
        cases e1 : v f <;> cases e2 : w f <;> simp [e1, e2] at h0 ⊢ <;> simpa using h1
    apply aux
    intro f hf
    rw [hval f hf]
    by_cases hi : f.init
    · have := hinit f hf hi
      cases ch.lookup f.name <;> simp [this]
    · rw [hch.not_init hnd f hf (by simpa using hi)]; rfl
  · intro f hf
    rw [lookup_filterMap spec _ hnd f hf, hval f hf, lookup_obj hnd h f hf]

/-- Replacing with the current values, in particular with nothing, is the identity. -/
theorem replace_current (spec : List (FieldSpec V)) (hnd : (spec.map (·.name)).Nodup)
    (kw o : Obj V) (h : construct spec kw = .ok o) (ch : Obj V) (hch : ValidChanges spec ch)
    (hcur : ∀ n v, ch.lookup n = some v → o.lookup n = some v) : replace spec o ch = .ok o := by
  have hinit := (initFields_ok (construct_ok h)).1
  obtain ⟨kw', k1, k2, k3, k4⟩ := replaceKwargs_ok (fs := spec) hnd (o := o) (ch := ch)
    (fun f hf hi => by rw [lookup_obj hnd h f hf]; exact hinit f hf hi)
    (fun f hf hi => hch.not_init hnd f hf hi)
  simp only [replace, k1]
  refine construct_eq_of_valueOf h ?_ ?_
  · intro p hp
    rcases k4 p hp with h | h
    · exact hch p h
    · exact h
  · intro f hf
    by_cases hi : f.init
    · have hs := hinit f hf hi
      have e : valueOf f kw' = (kw'.lookup f.name).or f.default := by simp [valueOf, hi]
      rw [e, k3 f hf hi]
      cases hc : ch.lookup f.name with
      | none =>
        rw [lookup_obj hnd h f hf]
        obtain ⟨v, hv⟩ := Option.isSome_iff_exists.1 hs
        simp [hv]
      | some v =>
        have := hcur _ _ hc
        rw [lookup_obj hnd h f hf] at this
        simp [this]
    · simp [valueOf, hi]

/-- The last write wins: replacing a field twice is replacing it with the second value. -/
theorem replace_last_wins (spec : List (FieldSpec V)) (hnd : (spec.map (·.name)).Nodup)
    (kw o : Obj V) (h : construct spec kw = .ok o) (n : String) (v w : V)
    (hch : ValidChanges spec [(n, w)]) :
    ∃ o₁ o₂, replace spec o [(n, v)] = .ok o₁ ∧ replace spec o₁ [(n, w)] = .ok o₂ ∧
      ∃ o₃, replace spec o [(n, w)] = .ok o₃ ∧ ∀ f ∈ spec, o₂.lookup f.name = o₃.lookup f.name := by
  have hch' : ValidChanges spec [(n, v)] := by
    intro p hp; simp at hp; subst hp; exact hch (n, w) (by simp)
  obtain ⟨o₁, h1, _, h1'⟩ := replace_changes_named spec hnd kw o h _ hch'
  have hc1 : ∃ kw1, construct spec kw1 = .ok o₁ := by
    unfold replace at h1
    cases e : replaceKwargs spec o [(n, v)] with
    | error x => simp [e] at h1
    | ok k => exact ⟨k, by simpa [e] using h1⟩
  obtain ⟨kw1, hc1⟩ := hc1
  obtain ⟨o₂, h2, _, h2'⟩ := replace_changes_named spec hnd kw1 o₁ hc1 _ hch
  obtain ⟨o₃, h3, _, h3'⟩ := replace_changes_named spec hnd kw o h _ hch
  refine ⟨o₁, o₂, h1, h2, o₃, h3, ?_⟩
  intro f hf
  rw [h2' f hf, h3' f hf, h1' f hf]
  by_cases hn : f.name = n
  · simp [hn]
  · simp [hn, lookup_cons_ite]

lemma replaceKwargs_mono {fs : List (FieldSpec V)} {o ch kw : Obj V}
    (h : replaceKwargs fs o ch = .ok kw) : ∀ p ∈ ch, p ∈ kw := by
  induction fs generalizing ch with
  | nil => simp [replaceKwargs] at h; simp [h]
  | cons f fs ih =>
    simp only [replaceKwargs] at h
    split_ifs at h with hi
    · split at h
      · exact ih h
      · split at h
        · intro p hp; exact ih h p (by simp [hp])
        · simp at h
    · split at h
      · simp at h
      · exact ih h

/-- A name that is no field raises. -/
theorem replace_unknown_raises (spec : List (FieldSpec V)) (o ch : Obj V) (p : String × V) (hp : p ∈ ch)
    (hn : ∀ f ∈ spec, f.name ≠ p.1) : ∃ e, replace spec o ch = .error e := by
  unfold replace
  cases e : replaceKwargs spec o ch with
  | error x => exact ⟨x, rfl⟩
  | ok kw =>
    refine ⟨.typeError, ?_⟩
    simp only
    unfold construct
    rw [if_neg]
    intro hall
    obtain ⟨f, hf, _, hfn⟩ := hall p (replaceKwargs_mono e p hp)
    exact hn f hf hfn

/-- For classes whose fields are all constructor arguments, constructing from `asdict` is the
identity, and `astuple` lists the same values. -/
theorem asdict_construct (spec : List (FieldSpec V)) (hnd : (spec.map (·.name)).Nodup)
    (hall : ∀ f ∈ spec, f.init) (kw o : Obj V) (h : construct spec kw = .ok o) :
    ∃ d, asdict spec o = .ok d ∧ construct spec d = .ok o ∧ astuple spec o = .ok (d.map (·.2)) := by
  have hinit := (initFields_ok (construct_ok h)).1
  have ho := (initFields_ok (construct_ok h)).2
  have hd : asdict spec o = .ok o ∧ astuple spec o = .ok (o.map (·.2)) := by
    have aux : ∀ fs : List (FieldSpec V), (∀ f ∈ fs, f ∈ spec) →
        asdict fs o = .ok (fs.filterMap fun f => (valueOf f kw).map fun v => (f.name, v)) ∧
        astuple fs o =
          .ok ((fs.filterMap fun f => (valueOf f kw).map fun v => (f.name, v)).map (·.2)) := by
      intro fs hfs
      induction fs with
      | nil => exact ⟨rfl, rfl⟩
      | cons f fs ih =>
        obtain ⟨v, hv⟩ := Option.isSome_iff_exists.1
          (hinit f (hfs f (by simp)) (hall f (hfs f (by simp))))
        have hl := lookup_obj hnd h f (hfs f (by simp))
        rw [hv] at hl
        obtain ⟨i1, i2⟩ := ih (fun g hg => hfs g (by simp [hg]))
        unfold asdict at i1 ⊢
        unfold astuple at i2 ⊢
        rw [List.mapM_cons, List.mapM_cons, i1, i2]
        simp [getattr, hl, hv, bind, Except.bind, pure, Except.pure]
    have := aux spec (fun f hf => hf)
    rwa [← ho] at this
  refine ⟨o, hd.1, ?_, hd.2⟩
  refine construct_eq_of_valueOf h ?_ ?_
  · intro p hp
    rw [ho, List.mem_filterMap] at hp
    obtain ⟨f, hf, e⟩ := hp
    cases hv : valueOf f kw with
    | none => simp [hv] at e
    | some v => simp [hv] at e; exact ⟨f, hf, hall f hf, by simp [← e]⟩
  · intro f hf
    have e : valueOf f o = (o.lookup f.name).or f.default := by simp [valueOf, hall f hf]
    rw [e, lookup_obj hnd h f hf]
    obtain ⟨v, hv⟩ := Option.isSome_iff_exists.1 (hinit f hf (hall f hf))
    simp [hv]

section Examples
/-- Some of the fields of `Kernel` (kernel.py:124-145). -/
def kernelSpec : List (FieldSpec ℕ) :=
  [{ name := "nngp" }, { name := "ntk" }, { name := "is_gaussian", pytreeNode := false },
   { name := "cov1" }, { name := "version", init := false, default := some 9 }]
example : (kernelSpec.map (·.name)).Nodup := by decide
example : construct kernelSpec [("is_gaussian", 1), ("nngp", 5), ("cov1", 7), ("ntk", 6)] =
    .ok [("nngp", 5), ("ntk", 6), ("is_gaussian", 1), ("cov1", 7), ("version", 9)] := by decide
example : ValidChanges kernelSpec [("ntk", 0)] := by unfold ValidChanges; decide
example : replace kernelSpec [("nngp", 5), ("ntk", 6), ("is_gaussian", 1), ("cov1", 7), ("version", 9)]
    [("ntk", 0)] =
    .ok [("nngp", 5), ("ntk", 0), ("is_gaussian", 1), ("cov1", 7), ("version", 9)] := by decide
example : flatten kernelSpec
    [("nngp", 5), ("ntk", 6), ("is_gaussian", 1), ("cov1", 7), ("version", 9)] =
    .ok ([5, 6, 7], [1]) := by decide
end Examples

end NT.C23
