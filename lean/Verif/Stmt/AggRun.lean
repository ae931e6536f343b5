import Verif.Stmt.AggVars
import Verif.Stmt.Run

/-!
# Stmt: execution of the reduce blocks
-/

set_option autoImplicit false

namespace Verif.Stmt

open Verif.Text Verif.Agg

variable {V E : Type}

/-- The accumulated object exists. -/
def Valid (heap : List (Box V)) (p : PVal V) : Prop := ∀ i, p = .ref i → i < heap.length

/-- The accumulated object exists, and what the variable holds is of the kind `k`. -/
structure Fits (k : Option (DVal V) → Prop) (heap : List (Box V)) (p : PVal V) : Prop where
  valid : Valid heap p
  kind : k (dec heap p)

/-- The values are not the same accumulated object. -/
def Apart (p q : PVal V) : Prop := ∀ i, p = .ref i → q ≠ .ref i

/-- What the code of a reduce may rely on, besides its row and its variable: the sentinel and the arguments of the
function. -/
structure Ctx (args : List String) (env : String → Option (PVal V)) (st : St V) : Prop where
  none_ : st.loc "_none" = some .sentinel
  args : ∀ a ∈ args, st.loc a = env a

/-- The same state except for the variable `_d`, which some reducers use (389, 400, 413, 428), the accumulated object
`p`, and new accumulated objects; `q` is `p`, or a new object, or no accumulated object. -/
structure Near (p q : PVal V) (a b : St V) : Prop where
  loc : ∀ x, x ≠ "_d" → b.loc x = a.loc x
  iters : b.iters = a.iters
  objs : b.objs = a.objs
  cls : b.cls = a.cls
  dict : b.dict = a.dict
  longer : a.heap.length ≤ b.heap.length
  heap : ∀ i, i < a.heap.length → p ≠ .ref i → b.heap[i]? = a.heap[i]?
  valid : Valid b.heap q
  fresh : ∀ i, q = .ref i → p = .ref i ∨ a.heap.length ≤ i

/-- The variable of reduce number `j` holds `p`. -/
def Held : Bool → Nat → PVal V → St V → Prop
  | true, j, p, st => st.loc (varAgg j) = some p
  | false, j, p, st => ∃ i o, st.loc "agg_data_" = some (.obj i) ∧ st.objs[i]? = some o ∧ o (attrName j) = some p

/-- The statements do to the variable `place m j`, which holds something of the kind `k`, what `code` says, and nothing else. -/
def Acts (P : Py V E) (C : St V → Prop) (k : Option (DVal V) → Prop) (m : Bool) (j : Nat)
    (b : List Stmt) (code : V → Option (DVal V) → Except E (Option (DVal V))) : Prop :=
  ∀ st row p, C st → st.loc "row_" = some (.user row) → Held m j p st → Fits k st.heap p →
    match code row (dec st.heap p) with
    | .error e => execAll P b st = .error (some e)
    | .ok v => k v ∧ ∃ p' st1 st2, dec st2.heap p' = v ∧ store P p' (place m j) st = .ok st1 ∧ Near p p' st1 st2 ∧
        execAll P b st = .ok (st2, .next)

theorem look_loc {P : Py V E} {st : St V} {x : String} {v : PVal V} (h : st.loc x = some v)
    (hx : isConstName x = false := by decide) : st.look P x = some v := by
  simp only [St.look, h, hx]
  rfl

theorem ev_loc {P : Py V E} {st : St V} {x : String} {v : PVal V} (h : st.loc x = some v)
    (hx : isConstName x = false := by decide) : ev P (.name x) st = .ok (v, st) := by
  simp only [ev, look_loc h hx]

theorem ev_attr {P : Py V E} {st : St V} {m : Nat} {o : String → Option (PVal V)} {p : PVal V} {s : String}
    (h : st.loc "agg_data_" = some (.obj m)) (ho : st.objs[m]? = some o) (hp : o s = some p) :
    ev P (.attr (.name "agg_data_") s) st = .ok (p, st) := by
  rw [ev, ev_loc h]
  simp only [ho, hp]

theorem Held.ev {P : Py V E} {m : Bool} {j : Nat} {p : PVal V} {st : St V} (h : Held m j p st) :
    ev P (place m j) st = .ok (p, st) := by
  cases m with
  | true => exact ev_loc h (varAgg_const j)
  | false =>
    obtain ⟨i, o, h1, h2, h3⟩ := h
    exact ev_attr h1 h2 h3

theorem Near.other {p q r : PVal V} {a b : St V} (h : Near p q a b) (hv : Valid a.heap r) (hr : Apart p r) :
    dec b.heap r = dec a.heap r ∧ Valid b.heap r ∧ Apart q r := by
  refine ⟨?_, ?_, ?_⟩
  · cases r with
    | ref i => simp only [dec, h.heap i (hv i rfl) (fun he => hr i he rfl)]
    | _ => rfl
  · intro i hi
    exact Nat.lt_of_lt_of_le (hv i hi) h.longer
  · intro i hq hi
    rcases h.fresh i hq with h1 | h1
    · exact hr i h1 hi
    · have := hv i hi
      omega

theorem Apart.symm {p q : PVal V} (h : Apart p q) : Apart q p := fun i h1 h2 => h i h2 h1

/-- The truth of an expression. -/
def test (P : Py V E) (a : Ast) (st : St V) : Res E Bool :=
  match ev P a st with
  | .error x => .error x
  | .ok (v, _) => lift (truth P v)

/-- The expression does not change the state and is true when `sem` says so. -/
def Tests (P : Py V E) (C : St V → Prop) (a : Ast) (sem : V → Except E Bool) : Prop :=
  ∀ st row, C st → st.loc "row_" = some (.user row) →
    (∀ v st', ev P a st = .ok (v, st') → st' = st) ∧ test P a st = lift (sem row)

/-- The codes of the parts of a block, one after the other. -/
inductive PartsOk (K : Nat → Option (DVal V) → Prop) (P : Py V E) (C : St V → Prop) (m : Bool) (N : Nat) (ph : Phase) :
    List (Nat × Red V (DVal V) E) → List Stmt → Prop
  | nil : PartsOk K P C m N ph [] []
  | cons {j : Nat} {r : Red V (DVal V) E} {ps : List (Nat × Red V (DVal V) E)} {a b : List Stmt} :
      j < N → Acts P C (K j) m j a (r.code ph) → PartsOk K P C m N ph ps b →
      PartsOk K P C m N ph ((j, r) :: ps) (a ++ b)

theorem PartsOk.append {K : Nat → Option (DVal V) → Prop} {P : Py V E} {C : St V → Prop} {m : Bool} {N : Nat} {ph : Phase}
    {ps qs : List (Nat × Red V (DVal V) E)} {a b : List Stmt} (h : PartsOk K P C m N ph ps a)
    (h' : PartsOk K P C m N ph qs b) : PartsOk K P C m N ph (ps ++ qs) (a ++ b) := by
  induction h with
  | nil => exact h'
  | cons h1 h2 _ ih =>
    rw [List.append_assoc, List.cons_append]
    exact .cons h1 h2 ih

/-- Invariants of the loops: the values of the variables, and what the codes of reduces may rely on. -/
structure Frame (K : Nat → Option (DVal V) → Prop) (P : Py V E) (args : List String) (env : String → Option (PVal V)) (m : Bool) (N : Nat) (row : V)
    (I : Slots (DVal V) → St V → Prop) : Prop where
  get : ∀ s st j, I s st → j < N → ∃ p, Held m j p st ∧ dec st.heap p = s j ∧ Fits (K j) st.heap p
  put : ∀ s st j p q st1 st2, I s st → j < N → ev P (place m j) st = .ok (p, st) →
    store P q (place m j) st = .ok st1 → Near p q st1 st2 → K j (dec st2.heap q) → I (upd s j (dec st2.heap q)) st2
  ctx : ∀ s st, I s st → Ctx args env st ∧ st.loc "row_" = some (.user row)

theorem execAll_append (P : Py V E) (b : List Stmt) : ∀ (a : List Stmt) (st : St V),
    execAll P (a ++ b) st =
      match execAll P a st with
      | .error x => .error x
      | .ok (st, .next) => execAll P b st
      | .ok r => .ok r
  | [], st => by simp only [List.nil_append, execAll]
  | s :: a, st => by
    simp only [List.cons_append, execAll]
    cases h : exec P s st with
    | error x => rfl
    | ok r =>
      obtain ⟨st', c⟩ := r
      cases c with
      | next => exact execAll_append P b a st'
      | brk => rfl
      | ret v => rfl

theorem execAll_one (P : Py V E) (s : Stmt) (st : St V) : execAll P [s] st = exec P s st := by
  simp only [execAll]
  cases h : exec P s st with
  | error x => rfl
  | ok r =>
    obtain ⟨st', c⟩ := r
    cases c <;> rfl

section
variable {K : Nat → Option (DVal V) → Prop} {P : Py V E} {args : List String} {env : String → Option (PVal V)} {m : Bool} {N : Nat} {row : V}
  {I : Slots (DVal V) → St V → Prop}

theorem parts_run (F : Frame K P args env m N row I) {ph : Phase} {ps : List (Nat × Red V (DVal V) E)} {a : List Stmt}
    (h : PartsOk K P (Ctx args env) m N ph ps a) : ∀ (s : Slots (DVal V)) (st : St V), I s st →
    match runParts ph row ps s with
    | .error e => execAll P a st = .error (some e)
    | .ok s' => ∃ st', execAll P a st = .ok (st', .next) ∧ I s' st' := by
  induction h with
  | nil => exact fun s st hI => ⟨st, rfl, hI⟩
  | cons hj ha _ ih =>
    rename_i j r ps a b _
    intro s st hI
    obtain ⟨p, hp, hd, hv⟩ := F.get s st j hI hj
    obtain ⟨hc, hr⟩ := F.ctx s st hI
    have := ha st row p hc hr hp hv
    replace hp := hp.ev (P := P)
    rw [hd] at this
    simp only [runParts]
    rw [execAll_append]
    cases hcode : r.code ph row (s j) with
    | error e =>
      rw [hcode] at this
      simp only at this ⊢
      rw [this]
    | ok v =>
      rw [hcode] at this
      obtain ⟨e0, p', st1, st2, e1, e2, e3, e4⟩ := this
      simp only [e4]
      have hI2 := F.put s st j p p' st1 st2 hI hj hp e2 e3 (e1 ▸ e0)
      rw [e1] at hI2
      exact ih _ st2 hI2

theorem exec_ite {c : Ast} {a b : List Stmt} {st : St V} (h : ∀ v st', ev P c st = .ok (v, st') → st' = st) :
    exec P (.ite c a b) st =
      match test P c st with
      | .error x => .error x
      | .ok true => execAll P a st
      | .ok false => execAll P b st := by
  simp only [exec, test]
  cases he : ev P c st with
  | error x => rfl
  | ok r =>
    obtain ⟨v, st'⟩ := r
    obtain rfl := h v st' he
    simp only
    cases truth P v with
    | error e => rfl
    | ok t => cases t <;> rfl

theorem dec_isNone (heap : List (Box V)) (p : PVal V) :
    (dec heap p).isNone = match p with | .sentinel => true | _ => false := by
  cases p with
  | ref i =>
    simp only [dec]
    cases heap[i]? <;> rfl
  | _ => rfl

theorem same_sentinel (heap : List (Box V)) (p : PVal V) : same P p .sentinel = some (dec heap p).isNone := by
  rw [dec_isNone]
  cases p <;> rfl

/-- A comparison of two values. -/
theorem ev_cmp {a b : Ast} {o : Cmp} {x y : PVal V} {st : St V} (ha : ev P a st = .ok (x, st))
    (hb : ev P b st = .ok (y, st)) :
    ev P (.cmp a [o] [b]) st = (lift (cmpVal P st.heap o x y)).map (fun v => (v, st)) := by
  rw [ev.eq_4, ha]
  simp only [hb]

theorem ev_is {va : Ast} {st : St V} {p : PVal V} (h : ev P va st = .ok (p, st))
    (hn : st.loc "_none" = some .sentinel) :
    ev P (.cmp va [.is] [.name "_none"]) st = .ok (P.ofBool (dec st.heap p).isNone, st) := by
  rw [ev_cmp h (ev_loc (P := P) hn)]
  simp only [cmpVal, cmpKnown, same_sentinel st.heap, lift, Except.map]

theorem ev_isNot {va : Ast} {st : St V} {p : PVal V} (h : ev P va st = .ok (p, st))
    (hn : st.loc "_none" = some .sentinel) :
    ev P (.cmp va [.isNot] [.name "_none"]) st = .ok (P.ofBool !(dec st.heap p).isNone, st) := by
  rw [ev_cmp h (ev_loc (P := P) hn)]
  simp only [cmpVal, cmpKnown, same_sentinel st.heap, lift, Except.map, Option.map_some]

/-- A statement which tests the variable. -/
theorem exec_ite_bool {c : Ast} {a b : List Stmt} {st : St V} {t : Bool} (h : ev P c st = .ok (P.ofBool t, st)) :
    exec P (.ite c a b) st = execAll P (if t then a else b) st := by
  simp only [exec, h, truth, Py.ofBool, P.truthy_bool]
  cases t <;> rfl

end

end Verif.Stmt
