import Verif.Stmt.AggLink

/-!
# Stmt: a call of the function of `c.aggregate`
-/

set_option autoImplicit false

namespace Verif.Stmt

open Verif.Text Verif.Agg

variable {V E : Type}

/-- The sorting statement, if there is one, changes the list of results as `sort` says. -/
def SortOk (P : Py V E) (args : List String) (env : String → Option (PVal V)) (q : Option (List Tok × Ast))
    (sort : Val V → Except E (Val V)) : Prop :=
  match q with
  | none => ∀ v, sort v = .ok v
  | some (_, a) => ∀ st v, Ctx args env st → st.loc "result_" = some v →
      match sort (dec st.heap v) with
      | .error e => exec P (.expr a) st = .error (some e)
      | .ok w => ∃ st' v', exec P (.expr a) st = .ok (st', .next) ∧ st'.loc "result_" = some v' ∧ dec st'.heap v' = w

/-- The assignment of the result stores this value. -/
def Stores (P : Py V E) (q : Rhs) (st : St V) (x : Except E (Val V)) : Prop :=
  match x with
  | .error e => exec P (q.stmt (.name "result_")) st = .error (some e)
  | .ok w => ∃ v, exec P (q.stmt (.name "result_")) st = .ok (st.set "result_" v, Ctl.next) ∧ dec st.heap v = w

/-- An expression has this value and does not change the state. -/
def Yields (P : Py V E) (a : Ast) (st : St V) (x : Except E (Val V)) : Prop :=
  match x with
  | .error e => ev P a st = .error (some e)
  | .ok w => ∃ v, ev P a st = .ok (v, st) ∧ dec st.heap v = w

/-- The values of the arguments. -/
def envOf (args : List String) (vals : List (PVal V)) (x : String) : Option (PVal V) := (args.zip vals).lookup x

/-- A result, then something with it. -/
def andThen {A B : Type} (x : Except E A) (f : A → Except E B) : Except E B :=
  match x with
  | .error e => .error e
  | .ok a => f a

/-- The end of the function: the result, its sorting, and `return`. -/
theorem end_run {P : Py V E} {args : List String} {env : String → Option (PVal V)} {r : FnSrc}
    {sort : Val V → Except E (Val V)} (hr : "result_" ∉ args) (hs : SortOk P args env r.sort sort) {st : St V}
    (hc : Ctx args env st) {x : Except E (Val V)}
    (hx : Stores P r.result st x) :
    match andThen x sort with
    | .error e => execAll P r.endStmts st = .error (some e)
    | .ok w => ∃ st' v, execAll P r.endStmts st = .ok (st', .ret v) ∧ dec st'.heap v = w := by
  simp only [FnSrc.endStmts, execAll, andThen]
  unfold Stores at hx
  cases x with
  | error e =>
    simp only at hx
    rw [hx]
  | ok w =>
    obtain ⟨v, hx, rfl⟩ := hx
    simp only [hx]
    have hv : (st.set "result_" v).loc "result_" = some v := by simp [St.set]
    have hret : ∀ {st' : St V} {v' : PVal V}, st'.loc "result_" = some v' →
        execAll P [.ret (.name "result_")] st' = .ok (st', .ret v') := by
      intro st' v' h
      rw [execAll_one, exec, ev_loc h]
    cases hq : r.sort with
    | none =>
      rw [hq] at hs
      rw [hs (dec st.heap v)]
      exact ⟨_, v, hret hv, rfl⟩
    | some q =>
      obtain ⟨ts, a⟩ := q
      rw [hq] at hs
      have hc' : Ctx args env (st.set "result_" v) := by
        refine ⟨?_, ?_⟩
        · have : (st.set "result_" v).loc "_none" = st.loc "_none" := by simp [St.set]
          rw [this, hc.none_]
        · intro b hb
          have hne : b ≠ "result_" := fun he => hr (he ▸ hb)
          have : (st.set "result_" v).loc b = st.loc b := by simp [St.set, hne]
          rw [this, hc.args b hb]
      have := hs _ v hc' hv
      simp only [sortStmts, List.cons_append, List.nil_append]
      rw [execAll]
      change match sort (dec st.heap v) with
        | .error e => exec P (.expr a) (st.set "result_" v) = .error (some e)
        | .ok w => ∃ st' v', exec P (.expr a) (st.set "result_" v) = .ok (st', .next) ∧ st'.loc "result_" = some v' ∧
            dec st'.heap v' = w at this
      cases hsv : sort (dec st.heap v) with
      | error e =>
        rw [hsv] at this
        simp only at this ⊢
        rw [this]
      | ok v' =>
        rw [hsv] at this
        obtain ⟨st', v'', e1, e2, e3⟩ := this
        simp only [e1]
        exact ⟨st', v'', hret e2, e3⟩

theorem exec_result {P : Py V E} {r : FnSrc} {ra : Ast} (h : r.result = .expr ra) {st : St V} {x : Except E (Val V)}
    (hx : Yields P ra st x) :
    Stores P r.result st x := by
  unfold Stores
  rw [h, Rhs.stmt]
  unfold Yields at hx
  cases x with
  | error e =>
    simp only at hx ⊢
    rw [exec, hx]
  | ok w =>
    obtain ⟨v, hx, rfl⟩ := hx
    refine ⟨v, ?_, rfl⟩
    rw [exec, hx]
    rfl

/-- `v0 = v1 = … = _none`. -/
theorem storeAll_vars (P : Py V E) (v : PVal V) : ∀ (l : List Nat) (st : St V),
    ∃ st', storeAll P v (l.map (place true)) st = .ok st' ∧ (∀ j ∈ l, st'.loc (varAgg j) = some v) ∧
      (∀ x, (∀ j, x ≠ varAgg j) → st'.loc x = st.loc x) ∧
      (∀ j, j ∉ l → st'.loc (varAgg j) = st.loc (varAgg j)) ∧ st'.iters = st.iters
  | [], st => ⟨st, rfl, by simp, by simp, by simp, rfl⟩
  | j :: l, st => by
    obtain ⟨st', h1, h2, h3, h4, h5⟩ := storeAll_vars P v l (st.set (varAgg j) v)
    refine ⟨st', ?_, ?_, ?_, ?_, ?_⟩
    · simp only [List.map_cons, storeAll, place, store]
      exact h1
    · intro k hk
      by_cases hkl : k ∈ l
      · exact h2 k hkl
      · rcases List.mem_cons.1 hk with rfl | hk
        · rw [h4 k hkl]
          simp [St.set]
        · exact absurd hk hkl
    · intro x hx
      rw [h3 x hx]
      simp [St.set, hx j]
    · intro k hk
      simp only [List.mem_cons, not_or] at hk
      rw [h4 k hk.2]
      have : varAgg k ≠ varAgg j := fun he => hk.1 (varAgg_inj he)
      simp [St.set, this]
    · rw [h5]
      rfl

/-- What the generated function does, in terms of the model of aggregations. -/
def aggLoops (condSem : String → V → Except E Bool) (expected : Nat) (bs : List (Block V (DVal V) E)) (rows : List V) :
    Except E (Slots (DVal V)) :=
  andThen (aggLoop1 condSem expected bs rows { slots := fresh, checksum := 0 })
    (fun p => aggLoop2 condSem bs p.2 p.1.slots)

/-- What a call of a generated function needs: as many arguments as parameters, and global names. -/
structure CallOk (P : Py V E) (f : FnText) (r : FnSrc) (vals : List (PVal V)) : Prop where
  length : vals.length = f.args.length
  none_ : ∃ nm, r.noneA = .name nm ∧ nm ∉ "data_" :: f.args ∧ P.glob nm = some .sentinel
  iter : P.glob "iter" = some (.builtin "iter")

theorem envOf_none {args : List String} {vals : List (PVal V)} {x : String} (h : x ∉ args) : envOf args vals x = none := by
  unfold envOf
  rw [List.lookup_eq_none_iff]
  intro p hp
  rw [bne_iff_ne]
  intro he
  exact h (he ▸ (List.of_mem_zip hp).1)

/-- The state in which the body of a called function starts (`callDef`): nothing of an earlier call is in it. -/
def entry (ps : List String) (args : List (PVal V)) : St V where
  loc := fun x => (ps.zip args).lookup x
  iters := []
  objs := []
  cls := []
  dict := []
  heap := []

/-- The statements of `AGGREGATE_TEMPLATE` (`aggregations.py` 768-785) before the result is computed. -/
def aggBefore (r : FnSrc) (vas : List Ast) (expected : Nat) (bs : List BlockSrc) : List Stmt :=
  r.startStmts ++
  [.assign vas (.name "_none"),
    .assign [.name "expected_checksum_"] (.num expected),
    .assign [.name "checksum_"] (.num 0),
    .assign [.name "it_"] (.call (.name "iter") [.name "data_"] []),
    .for_ "row_" (.name "it_") (bs.flatMap BlockSrc.stmts),
    .for_ "row_" (.name "it_") (bs.flatMap BlockSrc.noInitStmts)]

theorem aggStmts_eq (r : FnSrc) (vas : List Ast) (expected : Nat) (bs : List BlockSrc) :
    aggStmts r vas expected bs = aggBefore r vas expected bs ++ r.endStmts := by
  simp [aggStmts, aggBefore]

/-- The state of the function when both loops are over. -/
theorem agg_loops {K : Nat → Option (DVal V) → Prop} {P : Py V E} {condSem : String → V → Except E Bool} {f : FnText} {r : FnSrc} {vals : List (PVal V)}
    {gs : List String} (hg : ∀ g ∈ gs, g ∉ "data_" :: f.args)
    (hnd : ("data_" :: f.args).Nodup) (ha : ArgsOk (f.args ++ gs)) (hcall : CallOk P f r vals)
    {N expected : Nat} {bs : List (Block V (DVal V) E)} {qs : List BlockSrc}
    (hK : ∀ j, j < N → K j none) (hb : BlocksRel K P condSem (f.args ++ gs) (envOf f.args vals) true N bs qs) (hf : ∀ b ∈ bs, b.flag ≠ 0)
    (rows : List V) :
    match aggLoops condSem expected bs rows with
    | .error e => execAll P (aggBefore r ((List.range N).map (place true)) expected qs)
        (entry ("data_" :: f.args) (.data rows :: vals)) = .error (some e)
    | .ok s => ∃ st cs, execAll P (aggBefore r ((List.range N).map (place true)) expected qs)
        (entry ("data_" :: f.args) (.data rows :: vals)) = .ok (st, .next) ∧
        AInv K P (f.args ++ gs) (envOf f.args vals) N expected [] cs s st := by
  obtain ⟨nm, hnm, hnm2, hnm3⟩ := hcall.none_
  have hfix : ∀ x ∈ ["_none", "expected_checksum_", "checksum_", "it_", "row_", "result_", "_d", "iter"], x ∉ f.args ++ gs :=
    fun x hx ha' => ha.fixed x ha' hx
  -- the state when the body begins
  let st0 : St V := { loc := fun x => (("data_" :: f.args).zip (.data rows :: vals)).lookup x, iters := [], objs := [],
                      cls := [], dict := [], heap := [] }
  have hlook : ∀ x, x ∉ "data_" :: f.args → st0.loc x = none := by
    intro x hx
    simp only [st0]
    rw [List.lookup_eq_none_iff]
    intro p hp
    have := (List.of_mem_zip hp).1
    rw [bne_iff_ne]
    intro he
    exact hx (he ▸ this)
  have hdata : st0.loc "data_" = some (.data rows) := by simp [st0, List.zip_cons_cons, List.lookup]
  have hargs : ∀ a ∈ f.args ++ gs, st0.loc a = envOf f.args vals a := by
    intro a hm
    have hne : a ≠ "data_" := by
      rintro rfl
      rcases List.mem_append.1 hm with hm | hm
      · exact (List.nodup_cons.1 hnd).1 hm
      · exact hg _ hm (List.mem_cons_self ..)
    have : (a == "data_") = false := by simpa using hne
    simp only [st0, List.zip_cons_cons, List.lookup, this, envOf]
  have e1 : execAll P r.startStmts st0 = .ok (st0.set "_none" .sentinel, .next) := by
    have hn : ev P (.name nm) st0 = .ok (.sentinel, st0) := by
      simp only [ev, St.look, hlook nm hnm2, hnm3, ite_self]
    simp only [FnSrc.startStmts, execAll, exec, hnm, hn, storeAll, store]
  obtain ⟨st2, f1, f2, f3, _, f5⟩ := storeAll_vars P .sentinel (List.range N) (st0.set "_none" .sentinel)
  have hn1 : st2.loc "_none" = some .sentinel := by
    rw [f3 _ (varAgg_ne (by decide))]
    simp [St.set]
  let st3 := st2.set "expected_checksum_" (P.int expected)
  let st4 := st3.set "checksum_" (P.int 0)
  let st5 : St V := { st4 with iters := [rows] }
  let st6 := st5.set "it_" (.iter 0)
  have hl : ∀ x, (∀ j, x ≠ varAgg j) → x ∉ ["_none", "expected_checksum_", "checksum_", "it_"] →
      st6.loc x = st0.loc x := by
    intro x h1 h2
    simp only [List.mem_cons, List.not_mem_nil, or_false, not_or] at h2
    simp only [st6, st5, st4, st3, St.set, h2.1, h2.2.1, h2.2.2.1, h2.2.2.2, if_false]
    rw [f3 x h1]
    simp [St.set, h2.1]
  have hiter : ev P (.call (.name "iter") [.name "data_"] []) st4 = .ok (.iter 0, st5) := by
    have h1 : st4.look P "iter" = some (.builtin "iter") := by
      have : st4.loc "iter" = none := by
        have : st4.loc "iter" = st6.loc "iter" := by simp [st6, st5, St.set]
        rw [this, hl "iter" (varAgg_ne (by decide)) (by decide)]
        refine hlook _ ?_
        simp only [List.mem_cons, not_or]
        exact ⟨by decide, fun hm => hfix "iter" (by decide) (List.mem_append_left _ hm)⟩
      simp only [St.look, this, hcall.iter, ite_self]
    have h2 : st4.loc "data_" = some (.data rows) := by
      have : st4.loc "data_" = st6.loc "data_" := by simp [st6, st5, St.set]
      rw [this, hl "data_" (varAgg_ne (by decide)) (by decide), hdata]
    have h3 : st4.iters = [] := by
      simp only [st4, st3, St.set]
      rw [f5]
      simp [st0, St.set]
    rw [ev.eq_5, h1, ev_loc h2]
    simp only [if_true, h3, List.length_nil, List.nil_append, st5]
  have hinv : AInv K P (f.args ++ gs) (envOf f.args vals) N expected rows 0 fresh st6 := by
    have hsl : ∀ j, j < N → st6.loc (varAgg j) = some .sentinel := by
      intro j hj
      have hne : ∀ x ∈ ["expected_checksum_", "checksum_", "it_"], varAgg j ≠ x := by
        intro x hx
        refine (varAgg_ne ?_ j).symm
        revert x
        decide
      simp only [st6, st5, st4, st3, St.set, hne _ (by decide : "expected_checksum_" ∈ _),
        hne _ (by decide : "checksum_" ∈ _), hne _ (by decide : "it_" ∈ _), if_false]
      exact f2 j (List.mem_range.2 hj)
    refine ⟨?_, ?_, ?_, ?_, ?_, ?_, ?_, ?_⟩
    · intro j hj
      refine ⟨.sentinel, hsl j hj, rfl, ?_, hK j hj⟩
      rintro i ⟨⟩
    · intro i j hi hj _ p q hp hq
      rw [hsl i hi] at hp
      obtain rfl := Option.some.inj hp
      rintro i ⟨⟩
    · simpa [st6, st5, st4, st3, St.set] using hn1
    · simp [st6, st5, st4, st3, St.set]
    · simp [st6, st5, st4, St.set]
    · simp [st6, St.set]
    · simp [st6, st5, St.set]
    · intro a hm
      have h3 := ha.fixed a hm
      simp only [List.mem_cons, List.not_mem_nil, or_false, not_or] at h3
      rw [hl a (ha.vars a hm) (by simp [h3.1, h3.2.1, h3.2.2.1, h3.2.2.2.1]), hargs a hm]
  have e2 : ∀ (more : List Stmt), execAll P (.assign ((List.range N).map (place true)) (.name "_none") ::
      .assign [.name "expected_checksum_"] (.num expected) :: .assign [.name "checksum_"] (.num 0) ::
      .assign [.name "it_"] (.call (.name "iter") [.name "data_"] []) :: more) (st0.set "_none" .sentinel) =
      execAll P more st6 := by
    intro more
    have h1 : ev P (.name "_none") (st0.set "_none" .sentinel) = .ok (.sentinel, st0.set "_none" .sentinel) :=
      ev_loc (by simp [St.set])
    rw [execAll, exec, h1]
    simp only [f1]
    rw [execAll, exec, ev]
    simp only [storeAll, store]
    rw [execAll, exec, ev]
    simp only [storeAll, store]
    rw [execAll, exec, hiter]
    simp only [storeAll, store]
    rfl
  have e3 : execAll P (aggBefore r ((List.range N).map (place true)) expected qs) st0 =
      execAll P [.for_ "row_" (.name "it_") (qs.flatMap BlockSrc.stmts),
        .for_ "row_" (.name "it_") (qs.flatMap BlockSrc.noInitStmts)] st6 := by
    rw [aggBefore, execAll_append, e1]
    exact e2 _
  have e5 : entry ("data_" :: f.args) (.data rows :: vals) = st0 := rfl
  rw [e5, e3]
  have l1 := loop1_run (P := P) ha hb hf rows hinv
  have ef : ∀ (body : List Stmt) {cs : Nat} {s : Slots (DVal V)} {left : List V} {st : St V},
      AInv K P (f.args ++ gs) (envOf f.args vals) N expected left cs s st →
      exec P (.for_ "row_" (.name "it_") body) st = loop "row_" 0 (execAll P body) left.length st := by
    intro body cs s left st h
    rw [exec, ev_loc h.it]
    simp only [h.iters, Option.getD_some]
  rw [execAll, ef _ hinv]
  unfold aggLoops
  revert l1
  cases hL : aggLoop1 condSem expected bs rows { slots := fresh, checksum := 0 } with
  | error e =>
    intro l1
    rw [l1]
    rfl
  | ok x =>
    obtain ⟨a, left⟩ := x
    rintro ⟨st7, g1, g2⟩
    rw [g1]
    simp only
    rw [execAll, ef _ g2]
    have l2 := loop2_run (P := P) ha hb left g2
    simp only [andThen]
    revert l2
    cases aggLoop2 condSem bs left a.slots with
    | error e =>
      intro l2
      rw [l2]
    | ok s =>
      rintro ⟨st8, g3, g4⟩
      rw [g3]
      exact ⟨st8, _, by simp only [execAll], g4⟩

/-- The codes of reduces may rely on the arguments `f.args`, and on the fact that the names `gs` are not bound in the
function. -/
theorem agg_call {K : Nat → Option (DVal V) → Prop} {P : Py V E} {condSem : String → V → Except E Bool} {f : FnText} {r : FnSrc} {vals : List (PVal V)}
    {gs : List String} (hg : ∀ g ∈ gs, g ∉ "data_" :: f.args)
    (hnd : ("data_" :: f.args).Nodup) (ha : ArgsOk (f.args ++ gs)) (hcall : CallOk P f r vals)
    {N expected : Nat} {bs : List (Block V (DVal V) E)} {qs : List BlockSrc}
    (hK : ∀ j, j < N → K j none) (hb : BlocksRel K P condSem (f.args ++ gs) (envOf f.args vals) true N bs qs) (hf : ∀ b ∈ bs, b.flag ≠ 0)
    {res : Slots (DVal V) → Except E (Val V)} {ra : Ast} (hra : r.result = .expr ra)
    (hres : ∀ st s, Ctx (f.args ++ gs) (envOf f.args vals) st → (∀ j, j < N → ∃ p, st.loc (varAgg j) = some p ∧ dec st.heap p = s j ∧ Fits (K j) st.heap p) →
      Yields P ra st (res s))
    {sort : Val V → Except E (Val V)} (hs : SortOk P (f.args ++ gs) (envOf f.args vals) r.sort sort) (rows : List V) :
    callDef P f.name (.data rows :: vals)
        [.def_ f.name ("data_" :: f.args) [] (aggStmts r ((List.range N).map (place true)) expected qs)] =
      lift (andThen (andThen (aggLoops condSem expected bs rows) res) sort) := by
  have hfix : ∀ x ∈ ["_none", "expected_checksum_", "checksum_", "it_", "row_", "result_", "_d", "iter"], x ∉ f.args ++ gs :=
    fun x hx ha' => ha.fixed x ha' hx
  have e4 : callDef P f.name (.data rows :: vals)
      [.def_ f.name ("data_" :: f.args) [] (aggStmts r ((List.range N).map (place true)) expected qs)] =
      match execAll P (aggStmts r ((List.range N).map (place true)) expected qs) (entry ("data_" :: f.args) (.data rows :: vals)) with
      | .error x => .error x
      | .ok (st, .ret v) => .ok (dec st.heap v)
      | .ok _ => .error none := by
    simp only [callDef, List.length_cons, hcall.length, and_self, if_true]
    rfl
  rw [e4, aggStmts_eq, execAll_append]
  have l1 := agg_loops (condSem := condSem) (expected := expected) hg hnd ha hcall hK hb hf rows
  revert l1
  cases aggLoops condSem expected bs rows with
  | error e =>
    intro l1
    rw [l1]
    rfl
  | ok s =>
    rintro ⟨st8, cs, g3, g4⟩
    rw [g3]
    simp only [andThen]
    have hend := end_run (hfix _ (by decide)) hs g4.ctx (exec_result hra (hres st8 s g4.ctx g4.slots))
    simp only [andThen] at hend
    revert hend
    cases res s with
    | error e =>
      intro hend
      rw [hend]
      rfl
    | ok v =>
      simp only
      cases sort v with
      | error e =>
        intro hend
        rw [hend]
        rfl
      | ok w =>
        rintro ⟨st9, v9, hend, rfl⟩
        rw [hend]
        rfl

end Verif.Stmt
