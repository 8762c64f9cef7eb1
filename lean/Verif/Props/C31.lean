import Verif.Model.Req
import Verif.Props.C29

/-!
# C31: requirements of `serial` and `parallel` networks
-/

namespace NT.C31
open NT Req

/-- `x₁ ∘ x₂ ∘ ... ∘ xₙ`, from the left; nothing for no elements. -/
def reduce {β : Type} (op : β → β → β) : List β → Option β
  | [] => none
  | x :: xs => some (xs.foldl op x)

/-! ## What the requirement of a network is -/

lemma foldKey_reduce {β : Type} (op : β → β → β) (f : Req → Option β) (vs : List Req) :
    ∀ (xs : List β) , vs.foldl (fun a v => foldKey op a (f v)) (reduce op xs) =
      reduce op (xs ++ vs.filterMap f) := by
  induction vs with
  | nil => simp
  | cons v vs ih =>
    intro xs
    rw [List.foldl_cons]
    cases hv : f v with
    | none =>
      have : foldKey op (reduce op xs) none = reduce op xs := by
        cases xs <;> rfl
      rw [this, ih, List.filterMap_cons, hv]
    | some b =>
      have : foldKey op (reduce op xs) (some b) = reduce op (xs ++ [b]) := by
        cases xs <;> simp [reduce, foldKey]
      rw [this, ih, List.filterMap_cons, hv]
      simp

/-- The declared requirements, combined in order. -/
lemma combineFrom_ok (p : Bool) : ∀ (vs : List Req) (r0 r : Req), combineFrom p r0 vs = .ok r →
    r.diagonalSpatial = vs.foldl (fun a v => foldKey (if p then Diagonal.par else Diagonal.seq) a
      v.diagonalSpatial) r0.diagonalSpatial ∧
    r.diagonalBatch = vs.foldl (fun a v => foldKey (if p then PyInt.and else PyInt.shr) a
      v.diagonalBatch) r0.diagonalBatch ∧
    r.batchAxis = vs.foldl (fun a v => foldKey (fun x _ => x) a v.batchAxis) r0.batchAxis ∧
    r.channelAxis = vs.foldl (fun a v => foldKey (fun x _ => x) a v.channelAxis) r0.channelAxis ∧
    r.useDropout = vs.foldl (fun a v => foldKey (fun x _ => x) a v.useDropout) r0.useDropout
  | [], r0, r, h => by
    simp only [combineFrom, Except.ok.injEq] at h
    subst h
    simp
  | v :: vs, r0, r, h => by
    unfold combineFrom at h
    cases ha : add p r0 v with
    | error e => simp [ha] at h
    | ok r1 =>
      simp only [ha] at h
      obtain ⟨h1, h2, h3, h4, h5⟩ := combineFrom_ok p vs r1 r h
      unfold add at ha
      cases hd : dropoutKey r0.useDropout v.useDropout with
      | error e => simp [hd] at ha
      | ok d =>
        cases hc : channelAxisKey p r0.channelAxis v.channelAxis with
        | error e => simp [hd, hc] at ha
        | ok c =>
          simp only [hd, hc, Except.ok.injEq] at ha
          subst ha
          refine ⟨h1, h2, ?_, ?_, ?_⟩
          · rw [h3, List.foldl_cons]
            congr 1
            cases r0.batchAxis <;> cases v.batchAxis <;> rfl
          · rw [h4, List.foldl_cons]
            congr 1
            revert hc
            cases r0.channelAxis <;> cases v.channelAxis <;> simp only [channelAxisKey, foldKey] <;>
              (try split_ifs) <;> simp <;> exact Eq.symm
          · rw [h5, List.foldl_cons]
            congr 1
            revert hd
            cases r0.useDropout <;> cases v.useDropout <;> simp only [dropoutKey, foldKey] <;>
              (try split_ifs) <;> simp_all

/-- The requirement of a `serial` network: the layout requirements that are declared are composed in
order, the axes are those of the first layer that declares them. -/
theorem serial_req (vs : List Req) (r : Req) (h : combine false vs = .ok r) :
    r.diagonalSpatial = reduce Diagonal.seq (vs.filterMap (·.diagonalSpatial)) ∧
    r.diagonalBatch = reduce PyInt.shr (vs.filterMap (·.diagonalBatch)) ∧
    r.batchAxis = (vs.filterMap (·.batchAxis)).head? ∧
    r.channelAxis = (vs.filterMap (·.channelAxis)).head? ∧
    r.useDropout = (vs.filterMap (·.useDropout)).head? := by
  obtain ⟨h1, h2, h3, h4, h5⟩ := combineFrom_ok false vs {} r h
  have hh : ∀ {β : Type} (l : List β), reduce (fun x _ => x) l = l.head? := by
    intro β l
    cases l with
    | nil => rfl
    | cons x xs =>
      have : ∀ xs : List β, xs.foldl (fun x _ => x) x = x := by
        intro xs
        induction xs with
        | nil => rfl
        | cons y ys ih => simp
      simp [reduce, this]
  refine ⟨?_, ?_, ?_, ?_, ?_⟩
  · rw [h1]
    exact foldKey_reduce _ (·.diagonalSpatial) vs []
  · rw [h2]
    exact foldKey_reduce _ (·.diagonalBatch) vs []
  · rw [h3, ← hh]
    exact foldKey_reduce _ (·.batchAxis) vs []
  · rw [h4, ← hh]
    exact foldKey_reduce _ (·.channelAxis) vs []
  · rw [h5, ← hh]
    exact foldKey_reduce _ (·.useDropout) vs []

/-- The requirement of a `parallel` network. -/
theorem parallel_req (vs : List Req) (r : Req) (h : combine true vs = .ok r) :
    r.diagonalSpatial = reduce Diagonal.par (vs.filterMap (·.diagonalSpatial)) ∧
    r.diagonalBatch = reduce PyInt.and (vs.filterMap (·.diagonalBatch)) := by
  obtain ⟨h1, h2, -⟩ := combineFrom_ok true vs {} r h
  constructor
  · rw [h1]
    exact foldKey_reduce _ (·.diagonalSpatial) vs []
  · rw [h2]
    exact foldKey_reduce _ (·.diagonalBatch) vs []

/-- A `serial` chain gets the diagonal-only spatial layout exactly if the layers that declare a layout
requirement form a chain that allows it (`C29.ChainOk`). -/
theorem serial_diagonal_iff (vs : List Req) (r : Req) (h : combine false vs = .ok r) (d : Diagonal)
    (hd : r.diagonalSpatial = some d) :
    d.toBool = true ↔ C29.ChainOk false (vs.filterMap (·.diagonalSpatial)) := by
  have h1 := (serial_req vs r h).1
  rw [hd] at h1
  cases hl : vs.filterMap (·.diagonalSpatial) with
  | nil => simp [hl, reduce] at h1
  | cons x xs =>
    simp only [hl, reduce, Option.some.injEq] at h1
    rw [h1, C29.chain_diagonal_iff]

/-! ## Dropout conflicts -/

lemma add_dropout {p : Bool} {a b r : Req} (h : add p a b = .ok r) :
    dropoutKey a.useDropout b.useDropout = .ok r.useDropout := by
  unfold add at h
  cases hd : dropoutKey a.useDropout b.useDropout with
  | error e => simp [hd] at h
  | ok d =>
    cases hc : channelAxisKey p a.channelAxis b.channelAxis with
    | error e => simp [hd, hc] at h
    | ok c =>
      simp only [hd, hc, Except.ok.injEq] at h
      subst h
      rfl

lemma dropoutKey_agrees {a b d : Option Bool} (h : dropoutKey a b = .ok d) :
    (∀ x, a = some x → d = some x) ∧ (∀ x, b = some x → d = some x) := by
  rcases a with _ | _ | _ <;> rcases b with _ | _ | _ <;> rcases d with _ | _ | _ <;>
    simp [dropoutKey] at h ⊢

lemma combineFrom_dropout (p : Bool) : ∀ (vs : List Req) (r0 r : Req), combineFrom p r0 vs = .ok r →
    (∀ x, r0.useDropout = some x → r.useDropout = some x) ∧
    ∀ v ∈ vs, ∀ x, v.useDropout = some x → r.useDropout = some x
  | [], r0, r, h => by
    simp only [combineFrom, Except.ok.injEq] at h
    subst h
    simp
  | v :: vs, r0, r, h => by
    unfold combineFrom at h
    cases ha : add p r0 v with
    | error e => simp [ha] at h
    | ok r1 =>
      simp only [ha] at h
      obtain ⟨h1, h2⟩ := combineFrom_dropout p vs r1 r h
      obtain ⟨g1, g2⟩ := dropoutKey_agrees (add_dropout ha)
      refine ⟨fun x hx => h1 x (g1 x hx), ?_⟩
      intro w hw x hx
      rcases List.mem_cons.1 hw with rfl | hw
      · exact h1 x (g2 x hx)
      · exact h2 w hw x hx

mutual
lemma req_dropout : ∀ (n : Net) (r : Req), n.req = .ok r →
    ∀ v ∈ n.layers, ∀ x, v.useDropout = some x → r.useDropout = some x
  | .layer v, r, h => by
    simp only [Net.req, Except.ok.injEq] at h
    subst h
    simp [Net.layers]
  | .serial l, r, h => by
    unfold Net.req at h
    split_ifs at h
    cases hl : Net.reqs l with
    | error e => simp [hl] at h
    | ok rs =>
      simp only [hl] at h
      obtain ⟨-, h2⟩ := combineFrom_dropout false rs {} r h
      intro v hv x hx
      obtain ⟨w, hw, hwx⟩ := reqs_dropout l rs hl v (by simpa [Net.layers] using hv) x hx
      exact h2 w hw x hwx
  | .parallel l, r, h => by
    unfold Net.req at h
    split_ifs at h
    cases hl : Net.reqs l with
    | error e => simp [hl] at h
    | ok rs =>
      simp only [hl] at h
      obtain ⟨-, h2⟩ := combineFrom_dropout true rs {} r h
      intro v hv x hx
      obtain ⟨w, hw, hwx⟩ := reqs_dropout l rs hl v (by simpa [Net.layers] using hv) x hx
      exact h2 w hw x hwx
lemma reqs_dropout : ∀ (l : List Net) (rs : List Req), Net.reqs l = .ok rs →
    ∀ v ∈ Net.layersAll l, ∀ x, v.useDropout = some x → ∃ w ∈ rs, w.useDropout = some x
  | [], rs, _ => by simp [Net.layersAll]
  | n :: ns, rs, h => by
    unfold Net.reqs at h
    cases hn : n.req with
    | error e => simp [hn] at h
    | ok r =>
      cases hl : Net.reqs ns with
      | error e => simp [hn, hl] at h
      | ok rs' =>
        simp only [hn, hl, Except.ok.injEq] at h
        subst h
        intro v hv x hx
        simp only [Net.layersAll, List.mem_append] at hv
        rcases hv with hv | hv
        · exact ⟨r, by simp, req_dropout n r hn v hv x hx⟩
        · obtain ⟨w, hw, hwx⟩ := reqs_dropout ns rs' hl v hv x hx
          exact ⟨w, by simp [hw], hwx⟩
end

/-- A network, however nested, with two layers that disagree on `use_dropout` is rejected. -/
theorem dropout_conflict_raises (n : Net) (v w : Req) (hv : v ∈ n.layers) (hw : w ∈ n.layers)
    (h1 : v.useDropout = some true) (h2 : w.useDropout = some false) : ∃ e, n.req = .error e := by
  cases h : n.req with
  | error e => exact ⟨e, rfl⟩
  | ok r =>
    have a := req_dropout n r h v hv _ h1
    have b := req_dropout n r h w hw _ h2
    simp [a] at b

/-! ## Nesting -/

lemma add_assoc (a b c : Req) (hb : b.diagonalBatch = none) (hc : c.diagonalBatch = none) :
    (add false a b).toOption.bind (fun r => (add false r c).toOption) =
      (add false b c).toOption.bind (fun r => (add false a r).toOption) := by
  obtain ⟨db1, ds1, ba1, ca1, ud1⟩ := a
  obtain ⟨db2, ds2, ba2, ca2, ud2⟩ := b
  obtain ⟨db3, ds3, ba3, ca3, ud3⟩ := c
  simp only at hb hc
  subst hb hc
  have hs : foldKey Diagonal.seq (foldKey Diagonal.seq ds1 ds2) ds3 =
      foldKey Diagonal.seq ds1 (foldKey Diagonal.seq ds2 ds3) := by
    cases ds1 <;> cases ds2 <;> cases ds3 <;> simp [foldKey, C29.seq_assoc]
  have hba : batchAxisKey (batchAxisKey ba1 ba2) ba3 = batchAxisKey ba1 (batchAxisKey ba2 ba3) := by
    cases ba1 <;> cases ba2 <;> rfl
  have hca : ∀ x y : Option (Option Int), channelAxisKey false x y = .ok (x.or y) := by
    intro x y
    cases x <;> cases y <;> simp [channelAxisKey]
  have hd : (dropoutKey ud1 ud2).toOption.bind (fun d => (dropoutKey d ud3).toOption) =
      (dropoutKey ud2 ud3).toOption.bind (fun d => (dropoutKey ud1 d).toOption) := by
    rcases ud1 with _ | _ | _ <;> rcases ud2 with _ | _ | _ <;> rcases ud3 with _ | _ | _ <;> rfl
  have hn : ∀ x : Option PyInt, foldKey PyInt.shr x none = x := by
    intro x
    cases x <;> rfl
  simp only [add, hca, Bool.false_eq_true, if_false]
  cases h1 : dropoutKey ud1 ud2 with
  | error e =>
    cases h2 : dropoutKey ud2 ud3 with
    | error e => simp [Except.toOption]
    | ok d' =>
      rw [h1, h2] at hd
      simp only [Except.toOption, Option.bind] at hd
      cases h3 : dropoutKey ud1 d' with
      | error e => simp [Except.toOption, h3]
      | ok d'' => simp [h3] at hd
  | ok d =>
    cases h2 : dropoutKey ud2 ud3 with
    | error e =>
      rw [h1, h2] at hd
      simp only [Except.toOption, Option.bind] at hd
      cases h3 : dropoutKey d ud3 with
      | error e => simp [Except.toOption, h3]
      | ok d'' => simp [h3] at hd
    | ok d' =>
      rw [h1, h2] at hd
      simp only [Except.toOption, Option.bind] at hd
      cases h3 : dropoutKey d ud3 with
      | error e =>
        cases h4 : dropoutKey ud1 d' with
        | error e => simp [Except.toOption, h3, h4]
        | ok d'' => simp [h3, h4] at hd
      | ok d1 =>
        cases h4 : dropoutKey ud1 d' with
        | error e => simp [h3, h4] at hd
        | ok d2 =>
          simp only [h3, h4, Option.some.injEq] at hd
          subst hd
          simp [Except.toOption, h3, h4, hs, hba, hn, Option.or_assoc]

lemma combineFrom_append (p : Bool) : ∀ (xs ys : List Req) (r0 : Req),
    (combineFrom p r0 (xs ++ ys)).toOption =
      (combineFrom p r0 xs).toOption.bind fun r => (combineFrom p r ys).toOption
  | [], ys, r0 => rfl
  | x :: xs, ys, r0 => by
    simp only [List.cons_append, combineFrom]
    cases add p r0 x with
    | error e => rfl
    | ok r => exact combineFrom_append p xs ys r

lemma add_empty (a : Req) : add false a {} = .ok a := by
  obtain ⟨db1, ds1, ba1, ca1, ud1⟩ := a
  cases db1 <;> cases ds1 <;> cases ba1 <;> cases ca1 <;> cases ud1 <;> rfl

lemma empty_add (a : Req) : add false {} a = .ok a := by
  obtain ⟨db1, ds1, ba1, ca1, ud1⟩ := a
  cases db1 <;> cases ds1 <;> cases ba1 <;> cases ca1 <;> cases ud1 <;> rfl

lemma add_batch_none {a b r : Req} (h : add false a b = .ok r) (ha : a.diagonalBatch = none)
    (hb : b.diagonalBatch = none) : r.diagonalBatch = none := by
  unfold add at h
  cases hd : dropoutKey a.useDropout b.useDropout with
  | error e => simp [hd] at h
  | ok d =>
    cases hc : channelAxisKey false a.channelAxis b.channelAxis with
    | error e => simp [hd, hc] at h
    | ok c =>
      simp only [hd, hc, Except.ok.injEq] at h
      subst h
      simp [ha, hb, foldKey]

lemma combineFrom_shift : ∀ (ys : List Req) (a b : Req), (∀ y ∈ ys, y.diagonalBatch = none) →
    b.diagonalBatch = none →
    (add false a b).toOption.bind (fun r => (combineFrom false r ys).toOption) =
      (combineFrom false b ys).toOption.bind fun r => (add false a r).toOption
  | [], a, b, _, _ => by simp [combineFrom, Except.toOption]
  | y :: ys, a, b, hy, hb => by
    have h0 := add_assoc a b y hb (hy y (by simp))
    have step : ∀ r : Req, (combineFrom false r (y :: ys)).toOption =
        (add false r y).toOption.bind fun r' => (combineFrom false r' ys).toOption := by
      intro r
      simp only [combineFrom]
      cases add false r y <;> rfl
    simp only [step]
    rw [← Option.bind_assoc, h0]
    simp only [Option.bind_assoc]
    cases hby : add false b y with
    | error e => rfl
    | ok r =>
      exact combineFrom_shift ys a r (fun z hz => hy z (by simp [hz]))
        (add_batch_none hby hb (hy y (by simp)))

lemma combineFrom_nested (ys : List Req) (a : Req) (hy : ∀ y ∈ ys, y.diagonalBatch = none) :
    (combineFrom false a ys).toOption =
      (combine false ys).toOption.bind fun r => (add false a r).toOption := by
  have := combineFrom_shift ys a {} hy rfl
  rw [add_empty] at this
  exact this

lemma reqs_append (xs ys : List Net) :
    (Net.reqs (xs ++ ys)).toOption =
      (Net.reqs xs).toOption.bind fun rs => (Net.reqs ys).toOption.map (rs ++ ·) := by
  induction xs with
  | nil =>
    simp only [List.nil_append, Net.reqs, Except.toOption, Option.bind_some]
    cases Net.reqs ys <;> simp
  | cons x xs ih =>
    simp only [List.cons_append, Net.reqs]
    cases x.req with
    | error e => rfl
    | ok r =>
      simp only
      cases h1 : Net.reqs (xs ++ ys) with
      | error e =>
        cases h2 : Net.reqs xs with
        | error e => rfl
        | ok rs =>
          cases h3 : Net.reqs ys with
          | error e => rfl
          | ok rs' => simp [h1, h2, h3, Except.toOption] at ih
      | ok l =>
        cases h2 : Net.reqs xs with
        | error e => simp [h1, h2, Except.toOption] at ih
        | ok rs =>
          cases h3 : Net.reqs ys with
          | error e => simp [h1, h2, h3, Except.toOption] at ih
          | ok rs' =>
            simp only [h1, h2, h3, Except.toOption, Option.bind_some, Option.map_some,
              Option.some.injEq] at ih
            simp [Except.toOption, ih]

lemma req_serial (l : List Net) (h : l ≠ []) :
    (Net.req (.serial l)).toOption =
      (Net.reqs l).toOption.bind fun rs => (combine false rs).toOption := by
  unfold Net.req
  cases l with
  | nil => exact absurd rfl h
  | cons x xs =>
    simp only [List.isEmpty_cons, Bool.false_eq_true, if_false]
    cases Net.reqs (x :: xs) <;> rfl

/-- The full statement would have no hypothesis `hy`; it is false without it (`nesting_matters`).
Grouping a part `ys` of a `serial` chain into a `serial` of its own changes nothing, if the branches of
the part declare no `diagonal_batch`. -/
theorem nesting_partial (xs ys zs : List Net) (hne : ys ≠ [])
    (hy : ∀ rs, Net.reqs ys = .ok rs → ∀ r ∈ rs, r.diagonalBatch = none) :
    (Net.req (.serial (xs ++ [.serial ys] ++ zs))).toOption =
      (Net.req (.serial (xs ++ ys ++ zs))).toOption := by
  rw [req_serial _ (by simp), req_serial _ (by simp [hne])]
  simp only [reqs_append]
  have h1 : (Net.reqs [.serial ys]).toOption = (Net.req (.serial ys)).toOption.map fun r => [r] := by
    simp only [Net.reqs]
    cases Net.req (.serial ys) <;> rfl
  rw [h1, req_serial ys hne]
  cases hx : Net.reqs xs with
  | error e => rfl
  | ok rx =>
    cases hyy : Net.reqs ys with
    | error e => rfl
    | ok ry =>
      cases hz : Net.reqs zs with
      | error e =>
        simp only [Except.toOption, Option.bind_some, Option.map_none]
        cases combine false ry <;> simp
      | ok rz =>
        have key : ∀ r, (combine false ry).toOption = some r →
            (combine false (rx ++ [r] ++ rz)).toOption = (combine false (rx ++ ry ++ rz)).toOption := by
          intro r hr
          unfold combine
          rw [combineFrom_append, combineFrom_append, combineFrom_append, combineFrom_append]
          congr 1
          congr 1
          funext a
          rw [combineFrom_nested ry a (hy ry hyy), hr, Option.bind_some]
          simp only [combineFrom]
          cases add false a r <;> rfl
        have kerr : (combine false ry).toOption = none →
            (combine false (rx ++ ry ++ rz)).toOption = none := by
          intro hr
          unfold combine
          rw [combineFrom_append, combineFrom_append]
          have : (combineFrom false {} rx).toOption.bind
              (fun r => (combineFrom false r ry).toOption) = none := by
            cases combineFrom false {} rx with
            | error e => rfl
            | ok a =>
              simp only [Except.toOption, Option.bind_some]
              have := combineFrom_nested ry a (hy ry hyy)
              rw [hr] at this
              exact this
          rw [this]
          rfl
        simp only [Except.toOption, Option.bind_some, Option.map_some]
        cases hr : combine false ry with
        | error e =>
          have := kerr (by rw [hr]; rfl)
          simpa [Except.toOption] using this.symm
        | ok r =>
          have := key r (by rw [hr]; rfl)
          simpa [Except.toOption] using this

/-! ## `diagonal_batch` in `serial` -/

/-- Layers that keep the batch axis, such as `DotGeneral` without a batch contraction. -/
def keepsBatch : Req := { diagonalBatch := some (.bool true) }
/-- A layer that needs the full batch covariance, such as `DotGeneral` contracting the batch axis. -/
def contractsBatch : Req := { diagonalBatch := some (.bool false) }

/-- `diagonal_batch` requirements are Python `bool`s, for which `>>` is a bit shift: the requirement of
a chain depends on its nesting. -/
theorem nesting_matters :
    Net.req (.serial [.layer keepsBatch, .serial [.layer keepsBatch, .layer keepsBatch]]) ≠
      Net.req (.serial [.layer keepsBatch, .layer keepsBatch, .layer keepsBatch]) := by
  decide

/-- A layer that needs the full batch covariance after one that does not: the chain asks for the
diagonal. -/
theorem batch_requirement_lost : ∃ v,
    Net.req (.serial [.layer keepsBatch, .layer contractsBatch]) = .ok { diagonalBatch := some v } ∧
      v.truth = true :=
  ⟨.int 1, by decide, rfl⟩

/-- Two layers that allow the diagonal: the chain asks for the full covariance. -/
theorem batch_allowance_lost : ∃ v,
    Net.req (.serial [.layer keepsBatch, .layer keepsBatch]) = .ok { diagonalBatch := some v } ∧
      v.truth = false :=
  ⟨.int 0, by decide, rfl⟩

/-- `parallel` with a branch that starts with `Flatten` (`channel_axis=None`) and one with a channel
axis: `None` is compared with a number. -/
theorem parallel_flatten_raises (c : Int) :
    Net.req (.parallel [.layer { channelAxis := some none }, .layer { channelAxis := some (some c) }]) =
      .error .typeError := by
  simp [Net.req, Net.reqs, combine, combineFrom, add, dropoutKey, channelAxisKey]

section Examples
/-- `Conv`, `Relu`, `Dropout`, `GlobalAvgPool` -/
def conv : Req := { diagonalSpatial := some {}, batchAxis := some 0, channelAxis := some (some (-1)) }
def relu : Req := { diagonalSpatial := some {} }
def dropout : Req := { useDropout := some true }
def pool : Req :=
  { diagonalSpatial := some ⟨.maybe, .yes⟩, batchAxis := some 0, channelAxis := some (some (-1)) }

example : Net.req (.serial [.layer relu, .parallel [.layer conv, .serial [.layer conv, .layer dropout]],
    .layer pool]) = .ok (.mk none (some ⟨.no, .yes⟩) (some 0) (some (some (-1))) (some true)) := by
  decide

example : ∃ e, Net.req (.serial [.layer dropout, .parallel [.layer conv,
    .layer { useDropout := some false }]]) = .error e :=
  dropout_conflict_raises _ dropout { useDropout := some false } (by simp [Net.layers, Net.layersAll])
    (by simp [Net.layers, Net.layersAll]) rfl rfl

example : (Net.req (.serial [.layer conv, .serial [.layer relu, .layer dropout], .layer pool])).toOption =
    (Net.req (.serial [.layer conv, .layer relu, .layer dropout, .layer pool])).toOption :=
  nesting_partial [.layer conv] [.layer relu, .layer dropout] [.layer pool] (by simp)
    (by intro rs h; simp [Net.reqs, Net.req] at h; subst h; simp [relu, dropout])
end Examples

end NT.C31
