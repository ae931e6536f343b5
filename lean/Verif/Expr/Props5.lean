import Verif.Expr.Props4

/-!
# C25, C26, C50: mutations, labels, arguments which are no conversions
-/

set_option autoImplicit false

namespace Verif.Expr

section
variable {Val U Err : Type} {R : Runtime Val U Err} {fuel : Nat} {N : Names Val} {A : Env Val}
  {var : String → String}

/-- Go on with the value, or stop at the exception. -/
def andThen {α β : Type} (r : Except Err α × St Val U) (k : α → St Val U → Except Err β × St Val U) :
    Except Err β × St Val U :=
  match r with
  | (.ok x, s) => k x s
  | (.error e, s) => (.error e, s)

theorem bind_andThen {α β : Type} (m : M Val U Err α) (k : α → M Val U Err β) (s : St Val U) :
    (m >>= k) s = andThen (m s) k := rfl

/-- An operation of the runtime. -/
def perform (R : Runtime Val U Err) (o : Op) (xs : List Val) (s : St Val U) : Except Err Val × St Val U :=
  ((R.op o xs s.u).1, { s with u := (R.op o xs s.u).2 })

/-! ## C25: `tap` -/

/-- One mutation of the object `x`. -/
def mutate (R : Runtime Val U Err) (run : Conv Val → Val → St Val U → Except Err Val × St Val U) (x : Val) :
    Conv Val → St Val U → Except Err Val × St Val U
  | .mutSetItem k e, s =>
    andThen (run e x s) fun z s => andThen (run k x s) fun y s => perform R .setitem [x, y, z] s
  | .mutSetAttr k e, s =>
    andThen (run k x s) fun y s => andThen (run e x s) fun z s => perform R .setattr [x, y, z] s
  | .mutDelItem k, s =>
    andThen (perform R .getattr [x, R.str "pop"] s) fun f s => andThen (run k x s) fun y s =>
      perform R (.call []) [f, y] s
  | .mutDelAttr k, s => andThen (run k x s) fun y s => perform R .delattr [x, y] s
  | .mutCustom c, s => run c x s
  | _, s => (.error R.bad, s)

/-- Mutations one after another, up to the first exception. -/
def mutateAll (R : Runtime Val U Err) (run : Conv Val → Val → St Val U → Except Err Val × St Val U) (x : Val) :
    List (Conv Val) → St Val U → Except Err Unit × St Val U
  | [], s => (.ok (), s)
  | m :: ms, s => andThen (mutate R run x m s) fun _ s => mutateAll R run x ms s

theorem den_mutate {tp : Bool} {m : Conv Val} {ms : List (Conv Val)} (h : okMuts tp (m :: ms) = true) (x : Val)
    (s : St Val U) : den R fuel A m x s = mutate R (den R fuel A) x m s := by
  cases m with
  | mutSetItem k e => simp only [den]; rfl
  | mutSetAttr k e => simp only [den]; rfl
  | mutDelItem k => simp only [den]; rfl
  | mutDelAttr k => simp only [den]; rfl
  | mutCustom c => simp only [den]; rfl
  | _ => simp [okMuts] at h

theorem okMuts_tail {tp : Bool} {m : Conv Val} {ms : List (Conv Val)} (h : okMuts tp (m :: ms) = true) :
    okMuts tp ms = true := by
  cases m <;> simp [okMuts] at h <;> first | exact h.2 | exact h.2.2

theorem den_mutateAll {tp : Bool} : ∀ {ms : List (Conv Val)}, okMuts tp ms = true → ∀ (x : Val) (s : St Val U),
    andThen (denAll R fuel A ms x s) (fun _ s => (.ok x, s)) =
      andThen (mutateAll R (den R fuel A) x ms s) (fun _ s => (.ok x, s))
  | [], _, x, s => rfl
  | m :: ms, h, x, s => by
    rw [denAll, bind_andThen, den_mutate h]
    simp only [mutateAll]
    cases mutate R (den R fuel A) x m s with
    | mk r s' =>
      cases r with
      | error e => rfl
      | ok y =>
        simp only [andThen]
        have ih := den_mutateAll (okMuts_tail h) x s'
        rw [bind_run]
        cases h1 : denAll R fuel A ms x s' with
        | mk r1 s1 =>
          rw [h1] at ih
          cases r1 with
          | error e => exact ih
          | ok ys => exact ih

/-- C25: the code of `tap` runs the conversion of the object once, applies the mutations to the object in the given
order, each in the state left by the one before, up to the first exception, and returns the object itself. -/
theorem C25_tap (hnone : NoneFalsy R) (hN : NamesOk N) (hvar : ∀ t, VarOk N (var t)) (tp : Bool)
    (ht : tp = true → ∀ v u, ∃ b, R.truthy v u = (.ok b, u)) (o : Conv Val) (ms : List (Conv Val))
    (ho : o.ok tp true = true) (hms : okMuts tp ms = true) (hfit : ArgsFit N var A (Conv.tap o ms).args)
    (data : Val) (s : St Val U) :
    view (converter R fuel N var (.tap o ms) A data s) =
      view (andThen (den R fuel A o data s) fun x s =>
        andThen (mutateAll R (den R fuel A) x ms s) fun _ s => (.ok x, s)) := by
  rw [C13_checked_partial hnone hN hvar tp ht (.tap o ms)
    (by intro d hd; simp only [stages, List.mem_singleton] at hd; subst hd; simp only [Conv.ok, ho, hms, Bool.and_self])
    hfit]
  simp only [den]
  rw [bind_andThen]
  refine congrArg view ?_
  cases den R fuel A o data s with
  | mk r s' =>
    cases r with
    | error e => rfl
    | ok x => exact den_mutateAll hms x s'

section
open Toy

/-- An object with an item. -/
def heap0 : St V World := ⟨fun _ => Option.none, fun _ => Option.none, ⟨[], [], [[(.str "a", .int 1)]]⟩⟩

/-- `x.tap(c.Mut.set_item("b", c.item("a") + 1), c.Mut.set_item("a", c.item("b") + 1))` -/
def sampleTap : Conv V :=
  .tap .this [
    .mutSetItem (.naive (.str "b")) (.bin .add (.lookup false .this [.naive (.str "a")]) (.naive (.int 1))),
    .mutSetItem (.naive (.str "a")) (.bin .add (.lookup false .this [.naive (.str "b")]) (.naive (.int 1)))]

example : (converter Toy.R 100 Toy.N Toy.var sampleTap noArgs (.ref 0) heap0).1 = .ok (.ref 0) := by decide +kernel

example : (converter Toy.R 100 Toy.N Toy.var sampleTap noArgs (.ref 0) heap0).2.u.heap =
    [[(.str "a", .int 3), (.str "b", .int 2), (.str "a", .int 1)]] := by decide +kernel

example (s : St V World) : view (converter Toy.R 100 Toy.N Toy.var sampleTap noArgs (.ref 0) s) =
    view (andThen (den Toy.R 100 noArgs .this (.ref 0) s) fun x s =>
      andThen (mutateAll Toy.R (den Toy.R 100 noArgs) x [
        .mutSetItem (.naive (.str "b")) (.bin .add (.lookup false .this [.naive (.str "a")]) (.naive (.int 1))),
        .mutSetItem (.naive (.str "a")) (.bin .add (.lookup false .this [.naive (.str "b")]) (.naive (.int 1)))] s)
        fun _ s => (.ok x, s)) :=
  C25_tap noneFalsy namesOk varOk false (by simp) .this _ (by rfl) (by rfl) noFit _ s

/-- A failing mutation: the one before is done, the one after is not. -/
example : (converter Toy.R 100 Toy.N Toy.var (.tap .this [
    .mutSetItem (.naive (.str "b")) (.naive (.int 2)),
    .mutSetItem (.naive (.str "c")) (.lookup false .this [.naive (.str "x")]),
    .mutSetItem (.naive (.str "d")) (.naive (.int 4))]) noArgs (.ref 0) heap0).2.u.heap =
    [[(.str "b", .int 2), (.str "a", .int 1)]] := by decide +kernel

end

/-! ## C26: labels in generated code -/

/-- The labels after labelling `x` with `n`. -/
def labelled (s : St Val U) (n : String) (x : Val) : St Val U :=
  { s with labels := fun m => if m = n then some x else s.labels m }

/-- Further labels, computed from the labelled value `x`, one after another. -/
def labelAll (run : Conv Val → Val → St Val U → Except Err Val × St Val U) (x : Val) :
    List (String × Conv Val) → St Val U → Except Err Unit × St Val U
  | [], s => (.ok (), s)
  | (l, c) :: rest, s => andThen (run c x s) fun y s => labelAll run x rest (labelled s l y)

theorem den_labelAll (x : Val) : ∀ (labels : List String) (convs : List (Conv Val)) (s : St Val U),
    denLabels R fuel A labels convs x s = labelAll (den R fuel A) x (labels.zip convs) s
  | [], _, s => by cases ‹List (Conv Val)› <;> rfl
  | _ :: _, [], s => rfl
  | l :: ls, c :: cs, s => by
    simp only [denLabels, List.zip_cons_cons, labelAll]
    rw [bind_andThen]
    cases den R fuel A c x s with
    | mk r s' =>
      cases r with
      | error e => rfl
      | ok y => exact den_labelAll x ls cs (labelled s' l y)

/-- C26 (partial: the value's own label is not among the further labels, and not set by their conversions, see
`C26_refuted_own_label`): the code of a labelled conversion computes its value once, labels it, assigns the further
labels in order of definition from that value, and returns it. -/
theorem C26_labelling_partial (hnone : NoneFalsy R) (hN : NamesOk N) (hvar : ∀ t, VarOk N (var t)) (tp : Bool)
    (ht : tp = true → ∀ v u, ∃ b, R.truthy v u = (.ok b, u)) (c : Conv Val) (name : String) (labels : List String)
    (convs : List (Conv Val)) (hc : c.ok tp true = true) (hcs : okAll tp false convs = true)
    (hl : name ∉ labels) (hs : name ∉ setsAll convs) (hfit : ArgsFit N var A (Conv.caching c name labels convs).args)
    (data : Val) (s : St Val U) :
    view (converter R fuel N var (.caching c name labels convs) A data s) =
      view (andThen (den R fuel A c data s) fun x s =>
        andThen (labelAll (den R fuel A) x (labels.zip convs) (labelled s name x)) fun _ s => (.ok x, s)) := by
  rw [C13_checked_partial hnone hN hvar tp ht (.caching c name labels convs)
    (by intro d hd; simp only [stages, List.mem_singleton] at hd; subst hd; simp [Conv.ok, hc, hcs, hl, hs])
    hfit]
  simp only [den]
  rw [bind_andThen]
  refine congrArg view ?_
  cases den R fuel A c data s with
  | mk r s' =>
    cases r with
    | error e => rfl
    | ok x =>
      simp only [andThen]
      rw [bind_run]
      simp only [setLabel, runSet]
      rw [bind_run, den_labelAll]
      rfl

/-- C26: the code of `c.label(n)` gives the value labelled `n`, or raises `KeyError`; it changes nothing. -/
theorem C26_reading (hnone : NoneFalsy R) (hN : NamesOk N) (hvar : ∀ t, VarOk N (var t)) (n : String) (data : Val)
    (s : St Val U) :
    view (converter R fuel N var (.label n) A data s) =
      ((match s.labels n with | some x => .ok x | none => .error (R.labelError n)), s.labels, s.u) := by
  rw [C13_checked_partial hnone hN hvar false (by simp) (.label n)
    (by intro d hd; simp only [stages, List.mem_singleton] at hd; subst hd; rfl)
    ⟨fun _ h => (by cases h), fun _ h => (by cases h), fun _ h => (by cases h), fun _ h => (by cases h)⟩]
  simp only [den, runGet]
  cases h : s.labels n <;> simp [view]

section
open Toy

/-- `c.this().add_label({"a": …, "b": …})`-like labelling, then reading -/
example : result (.pipe (.caching .this "v" ["a", "b"] [.bin .add .this (.naive (.int 1)), .bin .add (.label "a") .this])
    (.coll .list [.this, .label "v", .label "a", .label "b"])) noArgs (.int 1) =
    .ok (.list [.int 1, .int 1, .int 2, .int 3]) := by decide +kernel

example (s : St V World) : view (converter Toy.R 100 Toy.N Toy.var
    (.caching .this "v" ["a", "b"] [.bin .add .this (.naive (.int 1)), .bin .add (.label "a") .this]) noArgs (.int 1) s) =
    view (andThen (den Toy.R 100 noArgs .this (.int 1) s) fun x s =>
        andThen (labelAll (den Toy.R 100 noArgs) x
          [("a", .bin .add .this (.naive (.int 1))), ("b", .bin .add (.label "a") .this)] (labelled s "v" x))
          fun _ s => (.ok x, s)) :=
  C26_labelling_partial noneFalsy namesOk varOk false (by simp) .this "v" ["a", "b"] _ (by rfl) (by rfl) (by decide)
    (by decide) noFit _ s

end

/-- The labels after assigning values in order. -/
def labelledAll (s : St Val U) : List (String × Val) → St Val U
  | [] => s
  | (l, y) :: rest => labelledAll (labelled s l y) rest

theorem labelledAll_other {n : String} : ∀ (ps : List (String × Val)) (s : St Val U), n ∉ ps.map (·.1) →
    (labelledAll s ps).labels n = s.labels n
  | [], _, _ => rfl
  | (l, y) :: rest, s, h => by
    simp only [List.map_cons, List.mem_cons, not_or] at h
    rw [labelledAll, labelledAll_other rest _ h.2]
    simp [labelled, h.1]

theorem labelledAll_get {n : String} {x : Val} : ∀ (ps : List (String × Val)) (s : St Val U), (ps.map (·.1)).Nodup →
    (n, x) ∈ ps → (labelledAll s ps).labels n = some x
  | (l, y) :: rest, s, hn, h => by
    simp only [List.map_cons, List.nodup_cons] at hn
    rw [labelledAll]
    rcases List.mem_cons.1 h with h | h
    · cases h
      rw [labelledAll_other rest _ hn.1]
      simp [labelled]
    · exact labelledAll_get rest _ hn.2 h

theorem labelAll_gives {x : Val} (val : Conv Val → Val) : ∀ (ps : List (String × Conv Val)) (s : St Val U),
    (∀ p ∈ ps, Gives R fuel A p.2 x (val p.2)) →
    labelAll (den R fuel A) x ps s = (.ok (), labelledAll s (ps.map fun p => (p.1, val p.2)))
  | [], _, _ => rfl
  | (l, c) :: rest, s, h => by
    simp only [labelAll]
    rw [h (l, c) (by simp) s]
    exact labelAll_gives val rest _ (fun p hp => h p (List.mem_cons_of_mem _ hp))

/-- What `addLabels` does: labels have different names, one of them may have become the name. -/
theorem addLabels_ok : ∀ (adds : List (String × Conv Val)) (name name' : Option String)
    (labels labels' : List (String × Conv Val)), addLabels name labels adds = .ok (name', labels') →
    (labels.map (·.1)).Nodup → (∀ n, name = some n → n ∉ labels.map (·.1)) →
    (labels'.map (·.1)).Nodup ∧ (∀ n, name' = some n → n ∉ labels'.map (·.1)) ∧ (∀ p ∈ labels, p ∈ labels') ∧
    (∀ n, name = some n → name' = some n) ∧
    (∀ p ∈ labels', p ∈ labels ∨ p ∈ adds) ∧
    (∀ p ∈ adds, p ∈ labels' ∨ (name' = some p.1 ∧ p.2.looksThis = true)) ∧
    (∀ n, name' = some n → name = some n ∨ n ∈ adds.map (·.1))
  | [], name, name', labels, labels', h, hn, hm => by
    simp only [addLabels, Except.ok.injEq, Prod.mk.injEq] at h
    obtain ⟨rfl, rfl⟩ := h
    exact ⟨hn, hm, fun _ hp => hp, fun _ h => h, fun _ hp => .inl hp, fun p hp => (by cases hp), fun _ h => .inl h⟩
  | (l, c) :: rest, name, name', labels, labels', h, hn, hm => by
    simp only [addLabels, addLabel] at h
    by_cases h1 : (labels.any (fun p => p.1 == l) || name == some l) = true
    · rw [if_pos h1] at h
      cases h
    rw [if_neg h1] at h
    simp only [Bool.or_eq_true, not_or, Bool.not_eq_true, List.any_eq_false, beq_iff_eq] at h1
    have hl : l ∉ labels.map (·.1) := by
      intro hmem
      obtain ⟨p, hp, rfl⟩ := List.mem_map.1 hmem
      exact h1.1 p hp rfl
    by_cases h2 : (name.isNone && c.looksThis) = true
    · rw [if_pos h2] at h
      simp only [Bool.and_eq_true, Option.isNone_iff_eq_none] at h2
      obtain ⟨a1, a2, a3, a4, a5, a6, a7⟩ := addLabels_ok rest _ _ _ _ h hn (by rintro n ⟨⟩; exact hl)
      refine ⟨a1, a2, a3, fun n hn => (by rw [h2.1] at hn; cases hn),
        fun p hp => (a5 p hp).imp id (List.mem_cons_of_mem _), fun p hp => ?_, fun n hn => ?_⟩
      · rcases List.mem_cons.1 hp with rfl | hp
        · exact .inr ⟨a4 _ rfl, h2.2⟩
        · exact a6 p hp
      · rcases a7 n hn with h | h
        · cases h
          exact .inr (by simp)
        · exact .inr (List.mem_cons_of_mem _ h)
    · rw [if_neg h2] at h
      obtain ⟨a1, a2, a3, a4, a5, a6, a7⟩ := addLabels_ok rest _ _ _ _ h
        (by
          rw [List.map_append, List.nodup_append]
          refine ⟨hn, by simp, ?_⟩
          rintro a ha b hb rfl
          simp only [List.map_cons, List.map_nil, List.mem_singleton] at hb
          exact hl (hb ▸ ha))
        (by
          intro n hname hmem
          rw [List.map_append, List.mem_append] at hmem
          rcases hmem with hmem | hmem
          · exact hm n hname hmem
          · simp only [List.map_cons, List.map_nil, List.mem_singleton] at hmem
            subst hmem
            rw [hname] at h1
            simp at h1)
      refine ⟨a1, a2, fun p hp => a3 p (List.mem_append_left _ hp), a4, fun p hp => ?_, fun p hp => ?_,
        fun n hn => (a7 n hn).imp id (List.mem_cons_of_mem _)⟩
      · rcases a5 p hp with hp | hp
        · rcases List.mem_append.1 hp with hp | hp
          · exact .inl hp
          · rw [List.mem_singleton.1 hp]
            exact .inr (by simp)
        · exact .inr (List.mem_cons_of_mem _ hp)
      · rcases List.mem_cons.1 hp with rfl | hp
        · exact .inl (a3 _ (by simp))
        · exact a6 p hp

theorem zip_maps {α β : Type} : ∀ ps : List (α × β), (ps.map (·.1)).zip (ps.map (·.2)) = ps
  | [] => rfl
  | p :: ps => by simp [zip_maps ps]

/-- Specification: the last conversion of a pipe. -/
def Conv.lastOf : Conv Val → Conv Val
  | .pipe _ b => b.lastOf
  | c => c

/-- Specification: a lookup without indexes comes last. -/
def Conv.NoIndexes (c : Conv Val) : Prop :=
  c.lastOf = .this ∨ (∃ attr s, c.lastOf = .lookup attr s []) ∨ ∃ attr s d, c.lastOf = .lookupD attr s [] d

theorem looksThis_iff : ∀ c : Conv Val, c.looksThis = true ↔ c.NoIndexes
  | .pipe a b => by
    rw [show (Conv.pipe a b).looksThis = b.looksThis by simp only [Conv.looksThis], looksThis_iff b]
    simp only [Conv.NoIndexes, Conv.lastOf]
  | .this => by simp [Conv.looksThis, Conv.NoIndexes, Conv.lastOf]
  | .lookup attr s idx => by
    simp only [Conv.looksThis, Conv.NoIndexes, Conv.lastOf, List.isEmpty_iff]
    constructor
    · rintro rfl; exact .inr (.inl ⟨_, _, rfl⟩)
    · rintro (h | ⟨_, _, h⟩ | ⟨_, _, _, h⟩)
      · cases h
      · cases h; rfl
      · cases h
  | .lookupD attr s idx d => by
    simp only [Conv.looksThis, Conv.NoIndexes, Conv.lastOf, List.isEmpty_iff]
    constructor
    · rintro rfl; exact .inr (.inr ⟨_, _, _, rfl⟩)
    · rintro (h | ⟨_, _, h⟩ | ⟨_, _, _, h⟩)
      · cases h
      · cases h
      · cases h; rfl
  | .naive _ | .arg _ | .label _ | .call _ _ _ | .boolop _ _ | .eqs _ | .not _ | .bin _ _ _ | .neg _ | .ifc _ _ _ _
  | .comp _ _ _ _ _ _ | .coll _ _ | .dict _ | .opt _ _ | .tap _ _ | .mutSetItem _ _ | .mutSetAttr _ _ | .mutDelItem _
  | .mutDelAttr _ | .mutCustom _ | .caching _ _ _ _ => by simp [Conv.looksThis, Conv.NoIndexes, Conv.lastOf]

/-- C26 (partial: the conversions of the labels do not change anything, a conversion looking like `c.this()` is
`c.this()` (`C26_refuted_dropped`), and no label is named like the generated name): labels added to a conversion have
afterwards the values of their conversions on the labelled value, which is the result. -/
theorem C26_add_labels_partial (hnone : NoneFalsy R) (hN : NamesOk N) (hvar : ∀ t, VarOk N (var t)) (tp : Bool)
    (ht : tp = true → ∀ v u, ∃ b, R.truthy v u = (.ok b, u)) (auto : String) (c d : Conv Val)
    (adds : List (String × Conv Val)) (hd : labelConv auto c adds = .ok d) (hauto : ∀ p ∈ adds, p.1 ≠ auto)
    (hthis : ∀ p ∈ adds, p.2.NoIndexes → p.2 = .this) (hok : d.ok tp true = true)
    (hfit : ArgsFit N var A d.args) (data x : Val) (s s1 : St Val U) (hx : den R fuel A c data s = (.ok x, s1))
    (val : Conv Val → Val) (hval : ∀ p ∈ adds, Gives R fuel A p.2 x (val p.2)) :
    ∃ s2, view (converter R fuel N var d A data s) = view (.ok x, s2) ∧ s2.u = s1.u ∧
      (∀ p ∈ adds, s2.labels p.1 = some (val p.2)) ∧
      ∀ n, n ≠ auto → n ∉ adds.map (·.1) → s2.labels n = s1.labels n := by
  unfold labelConv at hd
  cases h : addLabels none [] adds with
  | error e => rw [h] at hd; cases hd
  | ok r =>
    obtain ⟨name, labels⟩ := r
    rw [h] at hd
    simp only [Except.ok.injEq] at hd
    subst hd
    obtain ⟨a1, a2, _, _, a5, a6, a7⟩ := addLabels_ok adds _ _ _ _ h (by simp) (fun n hn => by cases hn)
    have a5' : ∀ p ∈ labels, p ∈ adds := fun p hp => (a5 p hp).resolve_left (by simp)
    have hown : name.getD auto ∉ labels.map (·.1) := by
      cases name with
      | none =>
        intro hmem
        obtain ⟨p, hp, hpa⟩ := List.mem_map.1 hmem
        exact hauto p (a5' p hp) hpa
      | some n => exact a2 n rfl
    simp only [Conv.ok, Bool.and_eq_true, Bool.not_eq_true', List.contains_eq_mem, decide_eq_false_iff_not] at hok
    obtain ⟨⟨⟨hok1, hok2⟩, hok3⟩, hok4⟩ := hok
    refine ⟨labelledAll (labelled s1 (name.getD auto) x) (labels.map fun p => (p.1, val p.2)), ?_, ?_, ?_, ?_⟩
    · rw [C26_labelling_partial hnone hN hvar tp ht c _ _ _ hok1 hok4 hok2 hok3 hfit, hx]
      simp only [andThen]
      rw [zip_maps, labelAll_gives val labels _ (fun p hp => hval p (a5' p hp))]
    · generalize labels.map (fun p => (p.1, val p.2)) = ps
      have : ∀ (ps : List (String × Val)) (s : St Val U), (labelledAll s ps).u = s.u := by
        intro ps
        induction ps with
        | nil => intro s; rfl
        | cons p ps ih => intro s; exact ih _
      rw [this]
      rfl
    · intro p hp
      rcases a6 p hp with hp' | ⟨hn, hl⟩
      · refine labelledAll_get _ _ ?_ (List.mem_map.2 ⟨p, hp', rfl⟩)
        rw [List.map_map]
        exact a1
      · rw [labelledAll_other]
        · have h1 := hthis p hp ((looksThis_iff _).mp hl)
          have h2 := hval p hp
          rw [h1] at h2 ⊢
          have h3 := h2 s
          simp only [den] at h3
          have h4 : x = val .this := by
            have h5 : (Except.ok x : Except Err Val) = .ok (val .this) := congrArg Prod.fst h3
            injection h5
          simp [labelled, hn, ← h4]
        · rw [List.map_map]
          subst hn
          exact hown
    · intro n hna hn
      rw [labelledAll_other]
      · have : n ≠ name.getD auto := by
          cases hname : name with
          | none => exact hna
          | some m =>
            rintro rfl
            exact hn ((a7 n hname).resolve_left (by simp))
        simp [labelled, this]
      · intro hmem
        rw [List.map_map] at hmem
        obtain ⟨p, hp, rfl⟩ := List.mem_map.1 hmem
        exact hn (List.mem_map.2 ⟨p, a5' p hp, rfl⟩)

section
open Toy

example (s : St V World) : ∃ s2, view (converter Toy.R 100 Toy.N Toy.var
    (.caching .this "v" ["a"] [.bin .add .this (.naive (.int 1))]) noArgs (.int 1) s) = view (.ok (.int 1), s2) ∧
    s2.u = s.u ∧ s2.labels "v" = some (.int 1) ∧ s2.labels "a" = some (.int 2) := by
  obtain ⟨s2, h1, h2, h3, _⟩ := C26_add_labels_partial (A := noArgs) (fuel := 100) noneFalsy namesOk varOk false (by simp)
    "cached_val_7" .this _ [("a", .bin .add .this (.naive (.int 1))), ("v", .this)] rfl (by decide)
    (fun p hp => by
      rcases List.mem_cons.1 hp with rfl | hp
      · intro h; exact absurd ((looksThis_iff _).mpr h) (by decide)
      · rw [List.mem_singleton.1 hp]; intro _; rfl) (by rfl) noFit (.int 1) (.int 1) s s rfl
    (fun c => match c with | .this => .int 1 | _ => .int 2)
    (fun p hp => by
      rcases List.mem_cons.1 hp with rfl | hp
      · intro s; rfl
      · rw [List.mem_singleton.1 hp]; intro s; rfl)
  exact ⟨s2, h1, h2, h3 ("v", .this) (by simp),
    h3 ("a", .bin .add .this (.naive (.int 1))) (by simp)⟩

end

/-- C26 is violated if a further label's conversion labels the name of the labelled conversion again: the
conversion does not return its own value, `1`, but `2`. -/
theorem C26_refuted_own_label : ∃ d : Conv Toy.V,
    labelConv "cached_val_7" .this
      [("v", .this), ("w", .caching (.bin .add .this (.naive (.int 1))) "v" [] [])] = .ok d ∧
    Toy.result d Toy.noArgs (.int 1) = .ok (.int 2) :=
  ⟨_, rfl, by decide +kernel⟩

/-- C26 is violated by a label whose conversion ends in `c.this()`, like `c.item("a").pipe(c.this())`: it is taken
for `c.this()`, and the label gives the labelled value instead. -/
theorem C26_refuted_dropped : ∃ d : Conv Toy.V,
    labelConv "cached_val_7" .this [("v", .pipe (.bin .add .this (.naive (.int 1))) .this)] = .ok d ∧
    Toy.result (.pipe (.bin .add .this (.naive (.int 1))) .this) Toy.noArgs (.int 1) = .ok (.int 2) ∧
    Toy.result (.pipe d (.label "v")) Toy.noArgs (.int 1) = .ok (.int 1) :=
  ⟨_, rfl, by decide +kernel, by decide +kernel⟩

/-- C26 is violated by a label which happens to have the generated name of the conversion. -/
theorem C26_refuted_auto : ∃ d : Conv Toy.V,
    labelConv "cached_val_7" .this [("cached_val_7", .bin .add .this (.naive (.int 1)))] = .ok d ∧
    Toy.result d Toy.noArgs (.int 1) = .ok (.int 2) :=
  ⟨_, rfl, by decide +kernel⟩

/-! ## C50: `ensure_conversion` -/

/-- Specification: the conversions of `mutations.py`. -/
inductive Mutation : Conv Val → Prop
  | setItem (k v : Conv Val) : Mutation (.mutSetItem k v)
  | setAttr (k v : Conv Val) : Mutation (.mutSetAttr k v)
  | delItem (k : Conv Val) : Mutation (.mutDelItem k)
  | delAttr (k : Conv Val) : Mutation (.mutDelAttr k)
  | custom (c : Conv Val) : Mutation (.mutCustom c)

theorem isMut_iff (c : Conv Val) : c.isMut = true ↔ Mutation c := by
  constructor
  · intro h
    cases c <;> first | constructor | cases h
  · rintro (_ | _ | _ | _ | _) <;> rfl

mutual

/-- A mutation somewhere in the object. -/
def Obj.HasMut : Obj Val → Prop
  | .conv c => Mutation c
  | .dict kvs => HasMutAll kvs
  | .list xs => HasMutAll xs
  | .tuple xs => HasMutAll xs
  | .set xs => HasMutAll xs
  | .slice _ a b c => a.HasMut ∨ b.HasMut ∨ c.HasMut
  | .other _ => False

/-- The same for several objects. -/
def HasMutAll : List (Obj Val) → Prop
  | [] => False
  | o :: os => o.HasMut ∨ HasMutAll os

end

mutual

theorem ensure_iff : ∀ o : Obj Val, (∃ c, ensure false o = .ok c) ↔ ¬ o.HasMut
  | .conv c => by
    simp only [ensure, Obj.HasMut, Bool.not_false, Bool.and_true, ← isMut_iff]
    cases c.isMut <;> simp
  | .dict kvs => by
    simp only [ensure, Obj.HasMut, ← ensureAll_iff kvs]
    cases ensureAll kvs <;> simp [Except.map]
  | .list kvs => by
    simp only [ensure, Obj.HasMut, ← ensureAll_iff kvs]
    cases ensureAll kvs <;> simp [Except.map]
  | .tuple kvs => by
    simp only [ensure, Obj.HasMut, ← ensureAll_iff kvs]
    cases ensureAll kvs <;> simp [Except.map]
  | .set kvs => by
    simp only [ensure, Obj.HasMut, ← ensureAll_iff kvs]
    cases ensureAll kvs <;> simp [Except.map]
  | .slice f a b c => by
    simp only [ensure, Obj.HasMut, not_or, ← ensure_iff a, ← ensure_iff b, ← ensure_iff c]
    cases ensure false a <;> cases ensure false b <;> cases ensure false c <;> simp [Except.map]
  | .other l => by simp [ensure, Obj.HasMut]

theorem ensureAll_iff : ∀ os : List (Obj Val), (∃ cs, ensureAll os = .ok cs) ↔ ¬ HasMutAll os
  | [] => by simp [ensureAll, HasMutAll]
  | o :: os => by
    simp only [ensureAll, HasMutAll, not_or, ← ensure_iff o, ← ensureAll_iff os]
    cases ensure false o <;> cases ensureAll os <;> simp

end

/-- C50: every object is accepted, except mutations (at any depth). -/
theorem C50_accepted (o : Obj Val) : (∃ c, ensure false o = .ok c) ↔ ¬ o.HasMut := ensure_iff o

example : ¬ ∃ c, ensure false (.list [.other (.int 1), .dict [.other (.str "a"), .conv (.mutSetAttr (.naive (.str "x")) .this)]] :
    Obj Nat) = .ok c :=
  fun h => (C50_accepted _).mp h (.inr (.inl (.inr (.inl (.setAttr _ _)))))

/-- C50: in `tap`, mutations are accepted as they are. -/
theorem C50_mutations (c : Conv Val) : ensure true (.conv c) = .ok c := by
  simp [ensure]

mutual

/-- The object made by evaluating an object: conversions in it are run, collections are rebuilt, everything else
stays. -/
def build (R : Runtime Val U Err) (run : Conv Val → St Val U → Except Err Val × St Val U) :
    Obj Val → St Val U → Except Err Val × St Val U
  | .conv c, s => run c s
  | .dict kvs, s => andThen (buildAll R run kvs s) fun xs s => perform R (.mk .dict) xs s
  | .list xs, s => andThen (buildAll R run xs s) fun xs s => perform R (.mk .list) xs s
  | .tuple xs, s => andThen (buildAll R run xs s) fun xs s => perform R (.mk .tuple) xs s
  | .set xs, s => andThen (buildAll R run xs s) fun xs s => perform R (.mk .set) xs s
  | .slice f a b c, s => andThen (build R run a s) fun x s => andThen (build R run b s) fun y s =>
      andThen (build R run c s) fun z s => perform R (.call []) [R.lit f, x, y, z] s
  | .other l, s => (.ok (R.lit l), s)

/-- Items from left to right. -/
def buildAll (R : Runtime Val U Err) (run : Conv Val → St Val U → Except Err Val × St Val U) :
    List (Obj Val) → St Val U → Except Err (List Val) × St Val U
  | [], s => (.ok [], s)
  | o :: os, s => andThen (build R run o s) fun x s => andThen (buildAll R run os s) fun xs s => (.ok (x :: xs), s)

end

mutual

/-- Objects whose conversions pass the check, without optional items, empty tuples and empty sets. -/
def Obj.fine (tp : Bool) : Obj Val → Bool
  | .conv c => c.ok tp true
  | .dict kvs => fineAll tp kvs
  | .list xs => fineAll tp xs
  | .tuple xs => !xs.isEmpty && fineAll tp xs
  | .set xs => !xs.isEmpty && fineAll tp xs
  | .slice _ a b c => a.fine tp && b.fine tp && c.fine tp
  | .other _ => true

/-- The same for several objects. -/
def fineAll (tp : Bool) : List (Obj Val) → Bool
  | [] => true
  | o :: os => o.fine tp && fineAll tp os

end

theorem ok_not_opt {tp w : Bool} {c : Conv Val} (h : c.ok tp w = true) : c.isOpt = false ∧ c.isMut = false := by
  cases c <;> first | exact ⟨rfl, rfl⟩ | (simp [Conv.ok] at h)

theorem okAll_not_opt {tp w : Bool} : ∀ {cs : List (Conv Val)}, okAll tp w cs = true → cs.any Conv.isOpt = false
  | [], _ => rfl
  | c :: cs, h => by
    simp only [okAll, Bool.and_eq_true] at h
    rw [List.any_cons, (ok_not_opt h.1).1, okAll_not_opt h.2]
    rfl

theorem den_coll (k : Kind) {tp w : Bool} {cs : List (Conv Val)} (h : okAll tp w cs = true) (v : Val) (s : St Val U) :
    den R fuel A (.coll k cs) v s = andThen (denAll R fuel A cs v s) (fun xs s => perform R (.mk k) xs s) := by
  simp only [den]
  rw [if_neg (by rw [okAll_not_opt h]; simp)]
  rfl

theorem den_dict {tp w : Bool} {cs : List (Conv Val)} (h : okAll tp w cs = true) (v : Val) (s : St Val U) :
    den R fuel A (.dict cs) v s = andThen (denAll R fuel A cs v s) (fun xs s => perform R (.mk .dict) xs s) := by
  simp only [den]
  rw [if_neg (by rw [okAll_not_opt h]; simp)]
  rfl

mutual

theorem ensure_ok (tp : Bool) (v : Val) : ∀ (o : Obj Val), o.fine tp = true →
    ∃ c, ensure false o = .ok c ∧ c.ok tp true = true ∧
      ∀ s : St Val U, den R fuel A c v s = build R (fun c => den R fuel A c v) o s
  | .conv c, h => by
    refine ⟨c, ?_, h, fun _ => rfl⟩
    simp only [ensure, (ok_not_opt h).2, Bool.false_and, Bool.false_eq_true, if_false]
  | .other l, _ => ⟨.naive l, rfl, rfl, fun _ => by simp only [den]; rfl⟩
  | .slice f a b c, h => by
    simp only [Obj.fine, Bool.and_eq_true] at h
    obtain ⟨x, h1, h2, h3⟩ := ensure_ok tp v a h.1.1
    obtain ⟨y, g1, g2, g3⟩ := ensure_ok tp v b h.1.2
    obtain ⟨z, k1, k2, k3⟩ := ensure_ok tp v c h.2
    refine ⟨.call (.naive f) [x, y, z] [], by simp [ensure, h1, g1, k1, Except.map], ?_, fun s => ?_⟩
    · simp [Conv.ok, okAll, h2, g2, k2]
    · have e : den R fuel A (.call (.naive f) [x, y, z] []) v s =
          andThen (andThen (den R fuel A x v s) fun x s => andThen (andThen (den R fuel A y v s) fun y s =>
            andThen (andThen (den R fuel A z v s) fun z s => (.ok [z], s)) fun xs s => (.ok (y :: xs), s))
              fun xs s => (.ok (x :: xs), s)) fun xs s => perform R (.call []) (R.lit f :: xs) s := by
        simp only [den, denAll]
        rfl
      rw [e]
      simp only [build, ← h3, ← g3, ← k3]
      rcases den R fuel A x v s with ⟨_ | x', s1⟩
      · rfl
      · simp only [andThen]
        rcases den R fuel A y v s1 with ⟨_ | y', s2⟩
        · rfl
        · simp only
          rcases den R fuel A z v s2 with ⟨_ | z', s3⟩ <;> rfl
  | .dict kvs, h => by
    obtain ⟨cs, h1, h2, _, h3⟩ := ensureAll_ok tp v kvs h
    refine ⟨.dict cs, by simp [ensure, h1, Except.map], ?_, fun s => ?_⟩
    · simp [Conv.ok, okAll_not_opt h2, h2]
    · rw [den_dict h2, h3]
      rfl
  | .list xs, h => by
    obtain ⟨cs, h1, h2, _, h3⟩ := ensureAll_ok tp v xs h
    refine ⟨.coll .list cs, by simp [ensure, h1, Except.map], ?_, fun s => ?_⟩
    · have : (Kind.list == Kind.tuple) = false ∧ (Kind.list == Kind.set) = false := ⟨rfl, rfl⟩
      simp [Conv.ok, okAll_not_opt h2, h2, this.1, this.2]
    · rw [den_coll _ h2, h3]
      rfl
  | .tuple xs, h => by
    simp only [Obj.fine, Bool.and_eq_true] at h
    obtain ⟨cs, h1, h2, h4, h3⟩ := ensureAll_ok tp v xs h.2
    refine ⟨.coll .tuple cs, by simp [ensure, h1, Except.map], ?_, fun s => ?_⟩
    · rw [h4] at h
      simp only [Conv.ok, okAll_not_opt h2, h2, Bool.false_eq_true, if_false, Bool.and_true]
      revert h
      cases cs.isEmpty <;> simp
    · rw [den_coll _ h2, h3]
      rfl
  | .set xs, h => by
    simp only [Obj.fine, Bool.and_eq_true] at h
    obtain ⟨cs, h1, h2, h4, h3⟩ := ensureAll_ok tp v xs h.2
    refine ⟨.coll .set cs, by simp [ensure, h1, Except.map], ?_, fun s => ?_⟩
    · rw [h4] at h
      simp only [Conv.ok, okAll_not_opt h2, h2, Bool.false_eq_true, if_false, Bool.and_true]
      revert h
      cases cs.isEmpty <;> simp
    · rw [den_coll _ h2, h3]
      rfl

theorem ensureAll_ok (tp : Bool) (v : Val) : ∀ (os : List (Obj Val)), fineAll tp os = true →
    ∃ cs, ensureAll os = .ok cs ∧ okAll tp true cs = true ∧ os.isEmpty = cs.isEmpty ∧
      ∀ s : St Val U, denAll R fuel A cs v s = buildAll R (fun c => den R fuel A c v) os s
  | [], _ => ⟨[], rfl, rfl, rfl, fun _ => rfl⟩
  | o :: os, h => by
    simp only [fineAll, Bool.and_eq_true] at h
    obtain ⟨c, h1, h2, h3⟩ := ensure_ok tp v o h.1
    obtain ⟨cs, g1, g2, _, g3⟩ := ensureAll_ok tp v os h.2
    refine ⟨c :: cs, by simp [ensureAll, h1, g1], by simp [okAll, h2, g2], rfl, fun s => ?_⟩
    rw [denAll, bind_andThen, h3]
    simp only [buildAll]
    congr 1
    funext x s'
    rw [bind_andThen, g3]
    rfl

end

theorem ok_stages {tp : Bool} {c : Conv Val} (h : c.ok tp true = true) (hp : ∀ a b, c ≠ .pipe a b) :
    ∀ d ∈ stages c, d.ok tp true = true := by
  intro d hd
  cases c with
  | pipe a b => exact absurd rfl (hp a b)
  | _ =>
    simp only [stages, List.mem_singleton] at hd
    subst hd
    exact h

/-- C50 (partial: without empty tuples and sets, see `C50_refuted_empty_set` and `C50_refuted_empty_tuple`): an object
used as a conversion evaluates to itself, with the conversions in it replaced by their values and its collections and
slices rebuilt. -/
theorem C50_meaning_partial (hnone : NoneFalsy R) (hN : NamesOk N) (hvar : ∀ t, VarOk N (var t)) (tp : Bool)
    (ht : tp = true → ∀ v u, ∃ b, R.truthy v u = (.ok b, u)) (o : Obj Val) (ho : o.fine tp = true)
    (hp : ∀ a b, o ≠ .conv (.pipe a b)) (hfit : ∀ c, ensure false o = .ok c → ArgsFit N var A c.args) (data : Val)
    (s : St Val U) : ∃ c, ensure false o = .ok c ∧
      view (converter R fuel N var c A data s) = view (build R (fun c => den R fuel A c data) o s) := by
  obtain ⟨c, h1, h2, h3⟩ := ensure_ok (R := R) (fuel := fuel) (A := A) tp data o ho
  refine ⟨c, h1, ?_⟩
  have hnp : ∀ a b, c ≠ .pipe a b := by
    rintro a b rfl
    cases o with
    | conv c =>
      simp only [ensure] at h1
      split at h1
      · cases h1
      · cases h1; exact hp a b rfl
    | other l => cases h1
    | dict xs => simp only [ensure] at h1; cases h : ensureAll xs <;> simp [h, Except.map] at h1
    | list xs => simp only [ensure] at h1; cases h : ensureAll xs <;> simp [h, Except.map] at h1
    | tuple xs => simp only [ensure] at h1; cases h : ensureAll xs <;> simp [h, Except.map] at h1
    | set xs => simp only [ensure] at h1; cases h : ensureAll xs <;> simp [h, Except.map] at h1
    | slice f x y z =>
      simp only [ensure] at h1
      cases h : ensure false x <;> cases h' : ensure false y <;> cases h'' : ensure false z <;>
        simp [h, h', h'', Except.map] at h1
  rw [C13_checked_partial hnone hN hvar tp ht c (ok_stages h2 hnp) (hfit c h1), h3]

section
open Toy

/-- `{"a": [1, ("b", None)], "c": c.this() + 1}` -/
def sampleObj : Obj V :=
  .dict [.other (.str "a"), .list [.other (.int 1), .tuple [.other (.str "b"), .other .none]],
    .other (.str "c"), .conv (.bin .add .this (.naive (.int 1)))]

example : sampleObj.fine false = true := by decide

example (s : St V World) : (build Toy.R (fun c => den Toy.R 100 noArgs c (.int 1)) sampleObj s).1 =
    .ok (.dict [.str "a", .list [.int 1, .tuple [.str "b", .none]], .str "c", .int 2]) := by rfl

example (s : St V World) : ∃ c, ensure false sampleObj = .ok c ∧
    view (converter Toy.R 100 Toy.N Toy.var c noArgs (.int 1) s) =
      view (build Toy.R (fun c => den Toy.R 100 noArgs c (.int 1)) sampleObj s) :=
  C50_meaning_partial noneFalsy namesOk varOk false (by simp) _ (by decide) (fun a b h => by cases h)
    (fun c h => by cases h; exact noFit) _ s

example : ∃ m, ensure false (.list [.other (.int 1), .conv (.mutDelItem .this)] : Obj V) = .error m := ⟨_, rfl⟩

end

/-- `slice(1, c.this() + 1, None)` -/
def sampleSlice : Obj Toy.V :=
  .slice (.obj (.fn "slice")) (.other (.int 1)) (.conv (.bin .add .this (.naive (.int 1)))) (.other .none)

example : (build Toy.R (fun c => den Toy.R 100 Toy.noArgs c (.int 1)) sampleSlice Toy.s0).1 =
    .ok (.tuple [.int 1, .int 2, .none]) := by rfl

example (s : St Toy.V Toy.World) : ∃ c, ensure false sampleSlice = .ok c ∧
    view (converter Toy.R 100 Toy.N Toy.var c Toy.noArgs (.int 1) s) =
      view (build Toy.R (fun c => den Toy.R 100 Toy.noArgs c (.int 1)) sampleSlice s) :=
  C50_meaning_partial Toy.noneFalsy Toy.namesOk Toy.varOk false (by simp) _ (by decide) (fun a b h => by cases h)
    (fun c h => by cases h; exact Toy.noFit) _ s

/-- C50 is violated by empty sets: the value is an empty dict. -/
theorem C50_refuted_empty_set : ∃ (o : Obj Toy.V) (c : Conv Toy.V), ensure false o = .ok c ∧
    Toy.result c Toy.noArgs .none = .ok (.list [.dict []]) ∧
    (build Toy.R (fun c => den Toy.R 100 Toy.noArgs c .none) o Toy.s0).1 = .ok (.list [.set []]) :=
  ⟨.list [.set []], _, rfl, by decide +kernel, by decide +kernel⟩

/-- C50 is violated by empty tuples: the code is a syntax error. -/
theorem C50_refuted_empty_tuple : ∃ (o : Obj Toy.V) (c : Conv Toy.V), ensure false o = .ok c ∧
    Toy.result c Toy.noArgs .none = .error .syntaxError ∧
    (build Toy.R (fun c => den Toy.R 100 Toy.noArgs c .none) o Toy.s0).1 = .ok (.list [.tuple []]) :=
  ⟨.list [.tuple []], _, rfl, by decide +kernel, by decide +kernel⟩

end

end Verif.Expr
