import Verif.Stmt.TemplateState
import Verif.Stmt.TemplateStmts
import Verif.Reducers.Model

/-!
# Stmt: what the variables of the built-in reducers hold

Nothing here is code of the repository.
-/

set_option autoImplicit false

namespace Verif.Dict

variable {K V W : Type} [BEq K]

theorem get?_map (g : V → W) (d : List (K × V)) (k : K) :
    get? (d.map (fun p => (p.1, g p.2))) k = (get? d k).map g := by
  induction d with
  | nil => rfl
  | cons p d ih =>
    simp only [List.map_cons, get?]
    split
    · rfl
    · exact ih

theorem set_map (g : V → W) (d : List (K × V)) (k : K) (v : V) :
    set (d.map (fun p => (p.1, g p.2))) k (g v) = (set d k v).map (fun p => (p.1, g p.2)) := by
  induction d with
  | nil => rfl
  | cons p d ih =>
    simp only [List.map_cons, set]
    split
    · rfl
    · rw [ih]; rfl

theorem get?_set_self (h : ∀ k : K, (k == k) = true) (d : List (K × V)) (k : K) (v : V) :
    get? (set d k v) k = some v := by
  induction d with
  | nil => simp [set, get?, h]
  | cons p d ih =>
    simp only [set]
    split
    · next hp => simp [get?, hp]
    · next hp => simp [get?, hp, ih]

theorem set_set (h : ∀ k : K, (k == k) = true) (d : List (K × V)) (k : K) (v w : V) :
    set (set d k v) k w = set d k w := by
  induction d with
  | nil => simp [set, h]
  | cons p d ih =>
    simp only [set]
    split
    · next hp => simp [set, hp]
    · next hp => simp [set, hp, ih]

end Verif.Dict

namespace Verif.Stmt

open Verif.Text Verif.Agg Verif.Reducers

variable {V E : Type}

/-- Kinds of slots. -/
inductive Tag
  | val | row | num | list | set | dict | dictNum | dictList | dictKeys
  deriving DecidableEq

/-- The kind of a slot. -/
def tagOf : Slot V → Tag
  | .val _ => .val
  | .row _ _ => .row
  | .num _ => .num
  | .list _ => .list
  | .set _ => .set
  | .dict _ => .dict
  | .dictNum _ => .dictNum
  | .dictList _ => .dictList
  | .dictKeys _ => .dictKeys

/-- What the variable of a reducer holds. -/
def Fn.tag : Fn → Tag
  | .sum | .sumOrNone | .max | .min | .first | .last => .val
  | .count => .num
  | .countDistinct => .set
  | .maxRow | .minRow => .row
  | .array => .list
  | .arrayDistinct | .dict | .dictSum | .dictSumOrNone | .dictMax | .dictMin | .dictFirst | .dictLast => .dict
  | .dictArray => .dictList
  | .dictArrayDistinct | .dictCountDistinct => .dictKeys
  | .dictCount => .dictNum

/-- The factory of the `defaultdict`, if it is one. -/
def Fn.factory : Fn → Option String
  | .dictArray => some "list"
  | .dictArrayDistinct => some "dict"
  | .dictSum | .dictSumOrNone => some "int"
  | _ => none

/-- The model of a reducer. -/
def Fn.reducer [BEq V] (ops : Ops V E) : Fn → Reducer V E
  | .sum => Reducers.sum ops
  | .sumOrNone => Reducers.sumOrNone ops
  | .max => Reducers.max ops
  | .min => Reducers.min ops
  | .count => Reducers.count ops
  | .countDistinct => Reducers.countDistinct ops
  | .first => firstR ops
  | .last => lastR ops
  | .maxRow => Reducers.maxRow ops
  | .minRow => Reducers.minRow ops
  | .array => Reducers.array ops
  | .arrayDistinct => Reducers.arrayDistinct ops
  | .dict => Reducers.dictLast ops
  | .dictArray => Reducers.dictArray ops
  | .dictArrayDistinct => Reducers.dictArrayDistinct ops
  | .dictSum => Reducers.dictSum ops
  | .dictSumOrNone => Reducers.dictSumOrNone ops
  | .dictMax => Reducers.dictMax ops
  | .dictMin => Reducers.dictMin ops
  | .dictCount => Reducers.dictCount ops
  | .dictCountDistinct => Reducers.dictCountDistinct ops
  | .dictFirst => Reducers.dictFirst ops
  | .dictLast => Reducers.dictLast ops

/-- Python's operations on the values of the rows are those of `Verif/Reducers/Model.lean`, and the sentinel, which is a
plain object, has none. -/
structure OpsOk (P : Py V E) (ops : Ops V E) : Prop where
  isNone : ∀ v, P.isNone v = ops.isNone v
  none_ : P.glob "None" = some (.user ops.none)
  isNone_none : ops.isNone ops.none = true
  truthy : ∀ v, P.truthy v = .ok (ops.truthy v)
  zero : P.num 0 = ops.zero
  isNone_zero : ops.isNone ops.zero = false
  add : ∀ a b, P.arith .add (.user a) (.user b) = (ops.add a b).map .user
  aug : ∀ a b, P.augOp .add (.user a) (.user b) = (ops.add a b).map .user
  inc : ∀ n, ops.add (P.num n) (P.num 1) = .ok (P.num (n + 1))
  gt : ∀ a b, P.compare .gt (.user a) (.user b) = (ops.gt a b).map P.ofBool
  lt : ∀ a b, P.compare .lt (.user a) (.user b) = (ops.lt a b).map P.ofBool
  addS : ∀ b, P.arith .add .sentinel (.user b) = .error ops.typeError
  augS : ∀ b, P.augOp .add .sentinel (.user b) = .error ops.typeError
  gtS : ∀ a, P.compare .gt (.user a) .sentinel = .error ops.typeError
  ltS : ∀ a, P.compare .lt (.user a) .sentinel = .error ops.typeError
  notInS : ∀ a, P.compare .notIn (.user a) .sentinel = .error ops.typeError
  misuse : P.misuse = ops.typeError
  refl : ∀ k, P.keyEq (.user k) (.user k) = true

/-- The keys of an accumulated dict or set, as the value of an accumulated dict. -/
def keysLeaf (ops : Ops V E) (factory : Option String) (l : List V) : Leaf V :=
  if factory = some "dict" then .dict (l.map (fun k => (k, ops.none))) else .set l

/-- What a variable holds, as a slot says. -/
def enc (P : Py V E) (ops : Ops V E) (factory : Option String) : Slot V → DVal V
  | .val v => .val (.user v)
  | .row m r => .val (.pair (.user m) (.user r))
  | .num n => .val (P.int n)
  | .list l => .box (.list l)
  | .set l => .box (.set l)
  | .dict d => .box (.dict (d.map (fun p => (p.1, .val p.2))) factory)
  | .dictNum d => .box (.dict (d.map (fun p => (p.1, .val (P.num p.2)))) factory)
  | .dictList d => .box (.dict (d.map (fun p => (p.1, .list p.2))) factory)
  | .dictKeys d => .box (.dict (d.map (fun p => (p.1, keysLeaf ops factory p.2))) factory)

/-- The slot which says what a variable holds. -/
def dcd (P : Py V E) : Tag → DVal V → Option (Slot V)
  | .val, .val (.user v) => some (.val v)
  | .row, .val (.pair (.user m) (.user r)) => some (.row m r)
  | .num, .val (.user v) => (P.toNat v).map .num
  | .list, .box (.list l) => some (.list l)
  | .set, .box (.set l) => some (.set l)
  | .dict, .box (.dict d _) => some (.dict (d.filterMap fun p => match p.2 with | .val v => some (p.1, v) | _ => none))
  | .dictNum, .box (.dict d _) =>
    some (.dictNum (d.filterMap fun p => match p.2 with | .val v => (P.toNat v).map (p.1, ·) | _ => none))
  | .dictList, .box (.dict d _) =>
    some (.dictList (d.filterMap fun p => match p.2 with | .list l => some (p.1, l) | _ => none))
  | .dictKeys, .box (.dict d _) =>
    some (.dictKeys (d.filterMap fun p =>
      match p.2 with | .set l => some (p.1, l) | .dict c => some (p.1, c.map (·.1)) | _ => none))
  | _, _ => none

theorem dcd_enc (P : Py V E) (ops : Ops V E) (factory : Option String) {t : Tag} {s : Slot V} (h : tagOf s = t) :
    dcd P t (enc P ops factory s) = some s := by
  subst h
  cases s with
  | val v => rfl
  | row m r => rfl
  | num n => simp [tagOf, enc, dcd, Py.int, P.toNat_num]
  | list l => rfl
  | set l => rfl
  | dict d => simp [tagOf, enc, dcd, List.filterMap_map, Function.comp_def]
  | dictNum d => simp [tagOf, enc, dcd, List.filterMap_map, Function.comp_def, P.toNat_num]
  | dictList d => simp [tagOf, enc, dcd, List.filterMap_map, Function.comp_def]
  | dictKeys d =>
    simp only [tagOf, enc, dcd, keysLeaf, List.filterMap_map, Function.comp_def]
    by_cases h : factory = some "dict"
    · simp [h, Function.comp_def]
    · simp [h]

/-- What the variable of a reducer may hold. -/
def Fn.kind (P : Py V E) (ops : Ops V E) (f : Fn) (v : Option (DVal V)) : Prop :=
  ∀ d, v = some d → ∃ s, tagOf s = f.tag ∧ d = enc P ops f.factory s

/-- A step of the model of a reducer on what a variable holds. -/
def liftStep (P : Py V E) (ops : Ops V E) (f : Fn) (step : V → Option (Slot V) → Except E (Option (Slot V))) (row : V)
    (v : Option (DVal V)) : Except E (Option (DVal V)) :=
  (step row (v.bind (dcd P f.tag))).map (Option.map (enc P ops f.factory))

/-- A reduce of the model on what its variable holds. -/
def liftRed (P : Py V E) (ops : Ops V E) (f : Fn) (r : Red V (Slot V) E) : Red V (DVal V) E where
  hash := r.hash
  cond := r.cond
  uncond := r.uncond
  init := liftStep P ops f r.init
  two := liftStep P ops f r.two

/-- What statements do to the variable of a reducer. -/
def Outcome (P : Py V E) (ops : Ops V E) (f : Fn) (m : Bool) (j : Nat) (b : List Stmt) (st : St V) (p : PVal V)
    (r : Except E (Option (Slot V))) : Prop :=
  match r with
  | .error e => execAll P b st = .error (some e)
  | .ok t => (∀ s, t = some s → tagOf s = f.tag) ∧ Does P m j b st p (t.map (enc P ops f.factory))

theorem acts_of {P : Py V E} {ops : Ops V E} {f : Fn} {C : St V → Prop} {m : Bool} {j : Nat} {b : List Stmt}
    {step : V → Option (Slot V) → Except E (Option (Slot V))}
    (h : ∀ st row p s, C st → st.loc "row_" = some (.user row) → Held m j p st → Valid st.heap p →
      (∀ x, s = some x → tagOf x = f.tag) → dec st.heap p = s.map (enc P ops f.factory) →
      Outcome P ops f m j b st p (step row s)) : Acts P C (f.kind P ops) m j b (liftStep P ops f step) := by
  intro st row p hc hr hh hf
  have ⟨s, hs, hd, he⟩ : ∃ s : Option (Slot V), (∀ x, s = some x → tagOf x = f.tag) ∧
      dec st.heap p = s.map (enc P ops f.factory) ∧ (dec st.heap p).bind (dcd P f.tag) = s := by
    cases hd : dec st.heap p with
    | none => exact ⟨none, by simp, rfl, rfl⟩
    | some d =>
      obtain ⟨s, h1, h2⟩ := hf.kind d hd
      refine ⟨some s, by simpa using h1, by rw [h2]; rfl, ?_⟩
      rw [h2]
      exact dcd_enc P ops _ h1
  have := h st row p s hc hr hh hf.valid hs hd
  simp only [liftStep, he]
  unfold Outcome at this
  cases hst : step row s with
  | error e =>
    rw [hst] at this
    exact this
  | ok t =>
    rw [hst] at this
    refine ⟨?_, this.2⟩
    intro d hd
    cases t with
    | none => cases hd
    | some s =>
      cases hd
      exact ⟨s, this.1 s rfl, rfl⟩

end Verif.Stmt
