import Verif.Stmt.AggRun

/-!
# Stmt: execution of the reduce blocks, in both modes
-/

set_option autoImplicit false

namespace Verif.Stmt

open Verif.Text Verif.Agg

variable {V E : Type}

/-- The statements of a block are those of a block of the model of aggregations. -/
structure BlockRel (K : Nat → Option (DVal V) → Prop) (P : Py V E) (condSem : String → V → Except E Bool) (args : List String)
    (env : String → Option (PVal V)) (m : Bool) (N : Nat) (b : Block V (DVal V) E) (r : BlockSrc) : Prop where
  head : b.head < N
  va : r.va = place m b.head
  flag : r.flag = b.flag
  init : PartsOk K P (Ctx args env) m N .init b.parts r.initS
  two : PartsOk K P (Ctx args env) m N .two b.parts r.twoS
  cond : match b.cond, r.cond with
    | none, none => True
    | some c, some d => Tests P (Ctx args env) d.tree (condSem c)
    | _, _ => False

/-- Blocks one by one. -/
inductive BlocksRel (K : Nat → Option (DVal V) → Prop) (P : Py V E) (condSem : String → V → Except E Bool) (args : List String)
    (env : String → Option (PVal V)) (m : Bool) (N : Nat) : List (Block V (DVal V) E) → List BlockSrc → Prop
  | nil : BlocksRel K P condSem args env m N [] []
  | cons {b : Block V (DVal V) E} {r : BlockSrc} {bs : List (Block V (DVal V) E)} {rs : List BlockSrc} :
      BlockRel K P condSem args env m N b r → BlocksRel K P condSem args env m N bs rs →
      BlocksRel K P condSem args env m N (b :: bs) (r :: rs)

/-- Statements under the condition of a block. -/
def under (c : Option CondSrc) (inner : List Stmt) : List Stmt :=
  match c with
  | none => inner
  | some c => [.ite c.tree inner []]

section
variable {K : Nat → Option (DVal V) → Prop} {P : Py V E} {condSem : String → V → Except E Bool} {args : List String} {env : String → Option (PVal V)}
  {m : Bool} {N : Nat} {row : V} {I : Slots (DVal V) → St V → Prop}

theorem under_run {b : Block V (DVal V) E} {r : BlockSrc} (hb : BlockRel K P condSem args env m N b r) {st : St V}
    (hc : Ctx args env st) (hr : st.loc "row_" = some (.user row)) (inner : List Stmt) :
    execAll P (under r.cond inner) st =
      match condHolds condSem row b.cond with
      | .error e => .error (some e)
      | .ok false => .ok (st, .next)
      | .ok true => execAll P inner st := by
  have h := hb.cond
  cases h1 : b.cond with
  | none =>
    cases h2 : r.cond with
    | none => rfl
    | some d => rw [h1, h2] at h; exact h.elim
  | some c =>
    cases h2 : r.cond with
    | none => rw [h1, h2] at h; exact h.elim
    | some d =>
      rw [h1, h2] at h
      have := h st row hc hr
      simp only [under, condHolds]
      rw [execAll_one, exec_ite this.1, this.2]
      cases condSem c row with
      | error e => rfl
      | ok t => cases t <;> rfl

/-- A block of `group_by`. -/
theorem block_run (F : Frame K P args env m N row I) {b : Block V (DVal V) E} {r : BlockSrc}
    (hb : BlockRel K P condSem args env m N b r) (hf : b.flag = 0) {s : Slots (DVal V)} {st : St V} (hI : I s st) :
    match runBlock condSem row b s with
    | .error e => execAll P r.stmts st = .error (some e)
    | .ok s' => ∃ st', execAll P r.stmts st = .ok (st', .next) ∧ I s' st' := by
  obtain ⟨hc, hr⟩ := F.ctx s st hI
  have hu := under_run hb hc hr r.innerStmts
  have e : r.stmts = under r.cond r.innerStmts := by
    unfold BlockSrc.stmts under
    cases r.cond <;> rfl
  rw [e, hu]
  simp only [runBlock]
  cases condHolds condSem row b.cond with
  | error x => rfl
  | ok t =>
    cases t with
    | false => exact ⟨st, rfl, hI⟩
    | true =>
      obtain ⟨p, hp, hd, _⟩ := F.get s st b.head hI hb.head
      replace hp := hp.ev (P := P)
      rw [← hb.va] at hp
      have hcheck : checkStmts r.va r.flag = [] := by simp [checkStmts, hb.flag, hf]
      simp only [BlockSrc.innerStmts, hcheck, List.append_nil]
      rw [execAll_one, exec_ite_bool (ev_is hp hc.none_), hd]
      cases hs : s b.head with
      | none => exact parts_run F hb.init s st hI
      | some v => exact parts_run F hb.two s st hI

/-- The blocks of `group_by`. -/
theorem blocks_run (F : Frame K P args env m N row I) {bs : List (Block V (DVal V) E)} {rs : List BlockSrc}
    (hb : BlocksRel K P condSem args env m N bs rs) (hf : ∀ b ∈ bs, b.flag = 0) : ∀ {s : Slots (DVal V)} {st : St V},
    I s st →
    match runBlocks condSem row bs s with
    | .error e => execAll P (rs.flatMap BlockSrc.stmts) st = .error (some e)
    | .ok s' => ∃ st', execAll P (rs.flatMap BlockSrc.stmts) st = .ok (st', .next) ∧ I s' st' := by
  induction hb with
  | nil => exact fun {s st} hI => ⟨st, rfl, hI⟩
  | cons h1 _ ih =>
    intro s st hI
    have := block_run F h1 (hf _ (List.mem_cons_self ..)) hI
    rw [List.flatMap_cons, execAll_append]
    simp only [runBlocks]
    revert this
    cases runBlock condSem row _ s with
    | error e =>
      intro this
      rw [this]
    | ok s' =>
      rintro ⟨st', e1, e2⟩
      rw [e1]
      exact ih (fun b hb => hf b (List.mem_cons_of_mem _ hb)) e2

/-- A block of the second loop of `c.aggregate`. -/
theorem noInit_run (F : Frame K P args env m N row I) {b : Block V (DVal V) E} {r : BlockSrc}
    (hb : BlockRel K P condSem args env m N b r) {s : Slots (DVal V)} {st : St V} (hI : I s st) :
    match runBlockNoInit condSem row b s with
    | .error e => execAll P r.noInitStmts st = .error (some e)
    | .ok s' => ∃ st', execAll P r.noInitStmts st = .ok (st', .next) ∧ I s' st' := by
  obtain ⟨hc, hr⟩ := F.ctx s st hI
  have hu := under_run hb hc hr r.twoS
  have e : r.noInitStmts = under r.cond r.twoS := by
    unfold BlockSrc.noInitStmts under
    cases r.cond <;> rfl
  rw [e, hu]
  simp only [runBlockNoInit]
  cases condHolds condSem row b.cond with
  | error x => rfl
  | ok t =>
    cases t with
    | false => exact ⟨st, rfl, hI⟩
    | true => exact parts_run F hb.two s st hI

/-- The blocks of the second loop. -/
theorem noInits_run (F : Frame K P args env m N row I) {bs : List (Block V (DVal V) E)} {rs : List BlockSrc}
    (hb : BlocksRel K P condSem args env m N bs rs) : ∀ {s : Slots (DVal V)} {st : St V}, I s st →
    match runBlocksNoInit condSem row bs s with
    | .error e => execAll P (rs.flatMap BlockSrc.noInitStmts) st = .error (some e)
    | .ok s' => ∃ st', execAll P (rs.flatMap BlockSrc.noInitStmts) st = .ok (st', .next) ∧ I s' st' := by
  induction hb with
  | nil => exact fun {s st} hI => ⟨st, rfl, hI⟩
  | cons h1 _ ih =>
    intro s st hI
    have := noInit_run F h1 hI
    rw [List.flatMap_cons, execAll_append]
    simp only [runBlocksNoInit]
    revert this
    cases runBlockNoInit condSem row _ s with
    | error e =>
      intro this
      rw [this]
    | ok s' =>
      rintro ⟨st', e1, e2⟩
      rw [e1]
      exact ih e2

end

/-! ## The aggregate function -/

/-- The state of the function of `c.aggregate` in its loops. -/
structure AInv (K : Nat → Option (DVal V) → Prop) (P : Py V E) (args : List String) (env : String → Option (PVal V)) (N expected : Nat) (rest : List V) (cs : Nat)
    (s : Slots (DVal V)) (st : St V) : Prop where
  slots : ∀ j, j < N → ∃ p, st.loc (varAgg j) = some p ∧ dec st.heap p = s j ∧ Fits (K j) st.heap p
  apart : ∀ i j, i < N → j < N → i ≠ j → ∀ p q, st.loc (varAgg i) = some p → st.loc (varAgg j) = some q → Apart p q
  none_ : st.loc "_none" = some .sentinel
  expected : st.loc "expected_checksum_" = some (P.int expected)
  checksum : st.loc "checksum_" = some (P.int cs)
  it : st.loc "it_" = some (.iter 0)
  iters : st.iters[0]? = some rest
  args : ∀ a ∈ args, st.loc a = env a

/-- The arguments have other names than the variables of the template. -/
structure ArgsOk (args : List String) : Prop where
  vars : ∀ a ∈ args, ∀ j, a ≠ varAgg j
  fixed : ∀ a ∈ args, a ∉ ["_none", "expected_checksum_", "checksum_", "it_", "row_", "result_", "_d", "iter"]

section
variable {K : Nat → Option (DVal V) → Prop} {P : Py V E} {condSem : String → V → Except E Bool} {args : List String} {env : String → Option (PVal V)}
  {N expected : Nat} {row : V}

theorem AInv.ctx {rest : List V} {cs : Nat} {s : Slots (DVal V)} {st : St V}
    (h : AInv K P args env N expected rest cs s st) : Ctx args env st := ⟨h.none_, h.args⟩

theorem aFrame (ha : ArgsOk args) (rest : List V) (cs : Nat) :
    Frame K P args env true N row
      (fun s st => AInv K P args env N expected rest cs s st ∧ st.loc "row_" = some (.user row)) where
  get := by
    rintro s st j ⟨h, _⟩ hj
    obtain ⟨p, h1, h2⟩ := h.slots j hj
    exact ⟨p, h1, h2⟩
  put := by
    rintro s st j p q st1 st2 ⟨h, hr⟩ hj h0 h1 h2 hk0
    simp only [place, store, Except.ok.injEq] at h1
    subst h1
    have hp : st.loc (varAgg j) = some p := by
      obtain ⟨p', h3, _⟩ := h.slots j hj
      rw [place, ev_loc h3 (varAgg_const j)] at h0
      simp only [Except.ok.injEq, Prod.mk.injEq, and_true] at h0
      rw [h3, h0]
    have hj2 : st2.loc (varAgg j) = some q := by
      rw [h2.loc _ (varAgg_ne (by decide) j).symm]
      simp [St.set]
    have hl : ∀ x, x ≠ "_d" → x ≠ varAgg j → st2.loc x = st.loc x := by
      intro x hx hv
      rw [h2.loc x hx]
      simp [St.set, hv]
    have hne : ∀ x : String, x.toList.head? ≠ some 'a' → x ≠ varAgg j := fun x hx => varAgg_ne hx j
    have hk2 : ∀ k, k ≠ j → st2.loc (varAgg k) = st.loc (varAgg k) := fun k hkj =>
      hl _ (varAgg_ne (by decide) k).symm (fun he => hkj (varAgg_inj he))
    have hother : ∀ k, k < N → k ≠ j → ∀ r, st.loc (varAgg k) = some r →
        dec st2.heap r = dec st.heap r ∧ Valid st2.heap r ∧ Apart q r := by
      intro k hk hkj r hr
      obtain ⟨r', h3, _, h5⟩ := h.slots k hk
      rw [h3] at hr
      obtain rfl := Option.some.inj hr
      exact h2.other h5.valid (h.apart j k hj hk (fun he => hkj he.symm) p r' hp h3)
    refine ⟨⟨?_, ?_, ?_, ?_, ?_, ?_, ?_, ?_⟩, ?_⟩
    · intro k hk
      by_cases hkj : k = j
      · subst hkj
        exact ⟨q, hj2, by simp [upd], h2.valid, hk0⟩
      · obtain ⟨r, h3, h4, h5⟩ := h.slots k hk
        obtain ⟨g1, g2, _⟩ := hother k hk hkj r h3
        exact ⟨r, by rw [hk2 k hkj, h3], by simp [upd, hkj, h4, g1], g2, g1 ▸ h5.kind⟩
    · intro i k hi hk hik a b ha hb
      by_cases hij : i = j
      · subst hij
        rw [hj2] at ha
        obtain rfl := Option.some.inj ha
        rw [hk2 k (fun he => hik he.symm)] at hb
        exact (hother k hk (fun he => hik he.symm) b hb).2.2
      · rw [hk2 i hij] at ha
        by_cases hkj : k = j
        · subst hkj
          rw [hj2] at hb
          obtain rfl := Option.some.inj hb
          exact (hother i hi hij a ha).2.2.symm
        · rw [hk2 k hkj] at hb
          exact h.apart i k hi hk hik a b ha hb
    · rw [hl _ (by decide) (hne _ (by decide)), h.none_]
    · rw [hl _ (by decide) (hne _ (by decide)), h.expected]
    · rw [hl _ (by decide) (hne _ (by decide)), h.checksum]
    · rw [hl _ (by decide) (hne _ (by decide)), h.it]
    · rw [h2.iters]
      exact h.iters
    · intro a hm
      have h3 := ha.fixed a hm
      simp only [List.mem_cons, List.not_mem_nil, or_false, not_or] at h3
      rw [hl a h3.2.2.2.2.2.2.1 (ha.vars a hm j), h.args a hm]
    · rw [hl _ (by decide) (hne _ (by decide)), hr]
  ctx := fun s st h => ⟨h.1.ctx, h.2⟩

/-- The end of a block. -/
def ctlOf : Agg.Ctl → Ctl V
  | .next => .next
  | .break => .brk

/-- The check of `checksum_`. -/
theorem check_run (ha : ArgsOk args) {rest : List V} {cs j flag : Nat} {s : Slots (DVal V)} {st : St V} (hj : j < N)
    (hf : flag ≠ 0) (h : AInv K P args env N expected rest cs s st) (hr : st.loc "row_" = some (.user row)) :
    ∃ st', execAll P (checkStmts (place true j) flag) st =
        .ok (st', match s j with
          | none => .next
          | some _ => if cs ||| flag = expected then .brk else .next) ∧
      AInv K P args env N expected rest (match s j with | none => cs | some _ => cs ||| flag) s st' ∧
      st'.loc "row_" = some (.user row) := by
  obtain ⟨p, h1, h2⟩ := h.slots j hj
  simp only [checkStmts, hf, if_false, place]
  rw [execAll_one, exec_ite_bool (ev_isNot (ev_loc h1 (varAgg_const j)) h.none_), h2.1]
  cases hs : s j with
  | none => exact ⟨st, rfl, h, hr⟩
  | some v =>
    have e1 : exec P (.aug .or (.name "checksum_") (.num flag)) st =
        .ok (st.set "checksum_" (P.int (cs ||| flag)), .next) := by
      simp only [exec, ev, look_loc h.checksum, augVal, store, Py.int, P.toNat_num]
    have hl : ∀ x, x ≠ "checksum_" → (st.set "checksum_" (P.int (cs ||| flag))).loc x = st.loc x := by
      intro x hx
      simp [St.set, hx]
    have hch : (st.set "checksum_" (P.int (cs ||| flag))).loc "checksum_" = some (P.int (cs ||| flag)) := by
      simp [St.set]
    have hI : AInv K P args env N expected rest (cs ||| flag) s (st.set "checksum_" (P.int (cs ||| flag))) := by
      refine ⟨?_, ?_, ?_, ?_, hch, ?_, h.iters, ?_⟩
      · intro k hk
        rw [hl _ (varAgg_ne (by decide) k).symm]
        exact h.slots k hk
      · intro i k hi hk hik
        rw [hl _ (varAgg_ne (by decide) i).symm, hl _ (varAgg_ne (by decide) k).symm]
        exact h.apart i k hi hk hik
      · rw [hl _ (by decide), h.none_]
      · rw [hl _ (by decide), h.expected]
      · rw [hl _ (by decide), h.it]
      · intro a hm
        have h3 := ha.fixed a hm
        simp only [List.mem_cons, List.not_mem_nil, or_false, not_or] at h3
        rw [hl a h3.2.2.1, h.args a hm]
    refine ⟨_, ?_, hI, by rw [hl _ (by decide), hr]⟩
    have e2 : ev P (.cmp (.name "checksum_") [.eq] [.name "expected_checksum_"])
        (st.set "checksum_" (P.int (cs ||| flag))) =
        .ok (P.ofBool (decide (cs ||| flag = expected)), st.set "checksum_" (P.int (cs ||| flag))) := by
      have ha := ev_loc (P := P) hI.checksum
      have hb := ev_loc (P := P) hI.expected
      rw [ev_cmp ha hb]
      simp only [cmpVal, cmpKnown, numEq, Py.int, P.toNat_num, lift, Except.map]
    simp only [Option.isNone_some, Bool.not_false, if_true]
    rw [execAll, e1]
    simp only
    rw [execAll_one, exec_ite_bool e2]
    by_cases hx : cs ||| flag = expected
    · simp [hx, execAll, exec]
    · simp [hx, execAll]

/-- A block of the first loop of `c.aggregate`. -/
theorem blockAgg_run (ha : ArgsOk args) {b : Block V (DVal V) E} {r : BlockSrc}
    (hb : BlockRel K P condSem args env true N b r) (hf : b.flag ≠ 0) {rest : List V} {cs : Nat} {s : Slots (DVal V)}
    {st : St V} (h : AInv K P args env N expected rest cs s st) (hr : st.loc "row_" = some (.user row)) :
    match runBlockAgg condSem expected row b { slots := s, checksum := cs } with
    | .error e => execAll P r.stmts st = .error (some e)
    | .ok (a, c) => ∃ st', execAll P r.stmts st = .ok (st', ctlOf c) ∧
        AInv K P args env N expected rest a.checksum a.slots st' ∧ st'.loc "row_" = some (.user row) := by
  have F := aFrame (K := K) (P := P) (env := env) (N := N) (expected := expected) (row := row) ha rest cs
  have hu := under_run hb h.ctx hr r.innerStmts
  have e : r.stmts = under r.cond r.innerStmts := by
    unfold BlockSrc.stmts under
    cases r.cond <;> rfl
  rw [e, hu]
  simp only [runBlockAgg]
  cases condHolds condSem row b.cond with
  | error x => rfl
  | ok t =>
    cases t with
    | false => exact ⟨st, rfl, h, hr⟩
    | true =>
      obtain ⟨p, hp, hd, _⟩ := F.get s st b.head ⟨h, hr⟩ hb.head
      replace hp := hp.ev (P := P)
      simp only [BlockSrc.innerStmts, hb.va, hb.flag]
      rw [execAll_one, exec_ite_bool (ev_is hp h.none_), hd]
      cases hs : s b.head with
      | some v =>
        have := parts_run F hb.two s st ⟨h, hr⟩
        simp only [Option.isNone_some, Bool.false_eq_true, if_false]
        revert this
        cases runParts .two row b.parts s with
        | error e => exact id
        | ok s' =>
          rintro ⟨st', e1, e2, e3⟩
          exact ⟨st', e1, e2, e3⟩
      | none =>
        have := parts_run F hb.init s st ⟨h, hr⟩
        simp only [Option.isNone_none, if_true]
        rw [execAll_append]
        revert this
        cases runParts .init row b.parts s with
        | error e =>
          intro this
          rw [this]
        | ok s' =>
          rintro ⟨st', e1, e2, e3⟩
          rw [e1]
          obtain ⟨st2, e4, e5, e6⟩ := check_run (P := P) ha hb.head hf e2 e3
          simp only [e4]
          cases hs' : s' b.head with
          | none =>
            rw [hs'] at e5
            exact ⟨st2, rfl, e5, e6⟩
          | some v =>
            rw [hs'] at e5
            by_cases hx : cs ||| b.flag = expected
            · simp only [hx, if_true] at e5 ⊢
              exact ⟨st2, rfl, e5, e6⟩
            · simp only [hx, if_false] at e5 ⊢
              exact ⟨st2, rfl, e5, e6⟩

/-- The blocks of the first loop. -/
theorem blocksAgg_run (ha : ArgsOk args) {bs : List (Block V (DVal V) E)} {rs : List BlockSrc}
    (hb : BlocksRel K P condSem args env true N bs rs) (hf : ∀ b ∈ bs, b.flag ≠ 0) {rest : List V} :
    ∀ {cs : Nat} {s : Slots (DVal V)} {st : St V}, AInv K P args env N expected rest cs s st →
    st.loc "row_" = some (.user row) →
    match runBlocksAgg condSem expected row bs { slots := s, checksum := cs } with
    | .error e => execAll P (rs.flatMap BlockSrc.stmts) st = .error (some e)
    | .ok (a, c) => ∃ st', execAll P (rs.flatMap BlockSrc.stmts) st = .ok (st', ctlOf c) ∧
        AInv K P args env N expected rest a.checksum a.slots st' := by
  induction hb with
  | nil => exact fun {cs s st} hI _ => ⟨st, rfl, hI⟩
  | cons h1 _ ih =>
    intro cs s st hI hr
    have := blockAgg_run ha h1 (hf _ (List.mem_cons_self ..)) hI hr
    rw [List.flatMap_cons, execAll_append]
    simp only [runBlocksAgg]
    revert this
    cases runBlockAgg condSem expected row _ { slots := s, checksum := cs } with
    | error e =>
      intro this
      rw [this]
    | ok x =>
      obtain ⟨a, c⟩ := x
      rintro ⟨st', e1, e2, e3⟩
      rw [e1]
      cases c with
      | next => exact ih (fun b hb => hf b (List.mem_cons_of_mem _ hb)) e2 e3
      | «break» => exact ⟨st', rfl, e2⟩

/-! ## The loops -/

theorem AInv.turn {r : V} {rest : List V} {cs : Nat} {s : Slots (DVal V)} {st : St V} (ha : ArgsOk args)
    (h : AInv K P args env N expected (r :: rest) cs s st) :
    AInv K P args env N expected rest cs s ({ st with iters := st.iters.set 0 rest }.set "row_" (.user r)) ∧
      ({ st with iters := st.iters.set 0 rest }.set "row_" (.user r)).loc "row_" = some (.user r) := by
  have hl : ∀ x, x ≠ "row_" → ({ st with iters := st.iters.set 0 rest }.set "row_" (.user r)).loc x = st.loc x := by
    intro x hx
    simp [St.set, hx]
  refine ⟨⟨?_, ?_, ?_, ?_, ?_, ?_, ?_, ?_⟩, by simp [St.set]⟩
  · intro k hk
    rw [hl _ (varAgg_ne (by decide) k).symm]
    exact h.slots k hk
  · intro i k hi hk hik
    rw [hl _ (varAgg_ne (by decide) i).symm, hl _ (varAgg_ne (by decide) k).symm]
    exact h.apart i k hi hk hik
  · rw [hl _ (by decide), h.none_]
  · rw [hl _ (by decide), h.expected]
  · rw [hl _ (by decide), h.checksum]
  · rw [hl _ (by decide), h.it]
  · have := h.iters
    simp only [St.set]
    rw [List.getElem?_set_self (by
      cases hi : st.iters with
      | nil => rw [hi] at this; simp at this
      | cons => simp)]
  · intro a hm
    have h3 := ha.fixed a hm
    simp only [List.mem_cons, List.not_mem_nil, or_false, not_or] at h3
    rw [hl a h3.2.2.2.2.1, h.args a hm]

/-- The first loop. -/
theorem loop1_run (ha : ArgsOk args) {bs : List (Block V (DVal V) E)} {rs : List BlockSrc}
    (hb : BlocksRel K P condSem args env true N bs rs) (hf : ∀ b ∈ bs, b.flag ≠ 0) :
    ∀ (rows : List V) {cs : Nat} {s : Slots (DVal V)} {st : St V}, AInv K P args env N expected rows cs s st →
    match aggLoop1 condSem expected bs rows { slots := s, checksum := cs } with
    | .error e => loop "row_" 0 (execAll P (rs.flatMap BlockSrc.stmts)) rows.length st = .error (some e)
    | .ok (a, left) => ∃ st', loop "row_" 0 (execAll P (rs.flatMap BlockSrc.stmts)) rows.length st =
        .ok (st', .next) ∧ AInv K P args env N expected left a.checksum a.slots st'
  | [], cs, s, st, h => by
    refine ⟨st, ?_, h⟩
    unfold loop
    rw [h.iters]
  | r :: rows, cs, s, st, h => by
    obtain ⟨h1, h2⟩ := h.turn ha
    have := blocksAgg_run (P := P) ha hb hf h1 h2
    simp only [aggLoop1]
    rw [List.length_cons, loop, h.iters]
    simp only
    revert this
    cases runBlocksAgg condSem expected r bs { slots := s, checksum := cs } with
    | error e =>
      intro this
      rw [this]
    | ok x =>
      obtain ⟨a, c⟩ := x
      rintro ⟨st', e1, e2⟩
      rw [e1]
      cases c with
      | next => exact loop1_run ha hb hf rows e2
      | «break» => exact ⟨st', rfl, e2⟩

/-- The second loop. -/
theorem loop2_run (ha : ArgsOk args) {bs : List (Block V (DVal V) E)} {rs : List BlockSrc}
    (hb : BlocksRel K P condSem args env true N bs rs) {cs : Nat} :
    ∀ (rows : List V) {s : Slots (DVal V)} {st : St V}, AInv K P args env N expected rows cs s st →
    match aggLoop2 condSem bs rows s with
    | .error e => loop "row_" 0 (execAll P (rs.flatMap BlockSrc.noInitStmts)) rows.length st = .error (some e)
    | .ok s' => ∃ st', loop "row_" 0 (execAll P (rs.flatMap BlockSrc.noInitStmts)) rows.length st =
        .ok (st', .next) ∧ AInv K P args env N expected [] cs s' st'
  | [], s, st, h => by
    refine ⟨st, ?_, h⟩
    unfold loop
    rw [h.iters]
  | r :: rows, s, st, h => by
    have h1 := h.turn ha
    have := noInits_run (aFrame (K := K) (P := P) ha rows cs) hb h1
    simp only [aggLoop2]
    rw [List.length_cons, loop, h.iters]
    simp only
    revert this
    cases runBlocksNoInit condSem r bs s with
    | error e =>
      intro this
      rw [this]
    | ok s' =>
      rintro ⟨st', e1, e2⟩
      rw [e1]
      exact loop2_run ha hb rows e2.1

end

end Verif.Stmt
