import Verif.Py.Dict

/-!
# Aggregations: reduce blocks, their merging, and the two generated loops

Source: `/repo/src/convtools/aggregations.py` lines 552-785 and 954-1277.

The generated function is modelled by what it executes.  The user's conversions (row expressions,
conditions, keys) are functions of the row that may raise.

Simplifications:
* the user's expressions have no side effects (they may raise);
* the accumulator variable of a reduce is a slot holding `none` (the internal `_none` sentinel) or
  `some v`; code of one reduce reads and writes its own slot only, as `_format_statements` and
  `_ReducerExpression` generate it;
* the text of a condition is a `String`, its meaning is given by one function `condSem` for all
  texts of the converter, since equal text in one generated function means equal behaviour;
* sorting of the result (`code_sorting`) is not part of this model.
-/
set_option autoImplicit false

namespace Verif.Agg

open Verif

variable {R V E K : Type}

/-- What the code generated by one `Reduce` does (aggregations.py 788-951, `gen_reduce_code_block`
876-914): `init` is the code under `if v is _none`, `two` the code under `else`; both work on the
slot. `hash` is the value of `ReduceBlock.code_hash` (643-648), used only to find identical
reduces; its computation is modelled in `Verif/Agg/Hash.lean`. -/
structure Red (R V E : Type) where
  hash : String
  cond : Option String
  uncond : Bool
  init : R → Option V → Except E (Option V)
  two : R → Option V → Except E (Option V)

/-- The variables `agg_data_.v<i>` / `agg_data_v<i>_`. -/
abbrev Slots (V : Type) := Nat → Option V

/-- All variables `= _none` (`_gen_agg_data_container` 1126-1141, `code_init_agg_vars` 1209). -/
def fresh : Slots V := fun _ => none

/-- Assignment to one variable. -/
def upd (s : Slots V) (i : Nat) (v : Option V) : Slots V := fun j => if j = i then v else s j

/-- `ReduceBlock` / `ReduceConditionalBlock` (552-693).  `head` is `var_agg_data_value`, `parts` the
concatenated codes with the variable each of them works on. -/
structure Block (R V E : Type) where
  head : Nat
  parts : List (Nat × Red R V E)
  cond : Option String
  flag : Nat

/-- `ReduceBlock.union` (575-583): everything from `self`, codes appended, flags or-ed. -/
def Block.union (b c : Block R V E) : Block R V E :=
  { b with
    parts := b.parts ++ c.parts
    flag := b.flag ||| c.flag }

/-- A block added by `ReduceBlocks.add_block`: variable index, checksum flag, reduce. -/
structure Item (R V E : Type) where
  slot : Nat
  flag : Nat
  red : Red R V E

/-- The block of a single reduce (`gen_reduce_code_block` 876-914, after
`update_var_agg_data_value` 585-592). -/
def Item.block (it : Item R V E) : Block R V E :=
  { head := it.slot
    parts := [(it.slot, it.red)]
    cond := it.red.cond
    flag := it.flag }

/-- `defaultdict(list)` filled with `d[key(x)].append(x)`; `dict.values()` order. -/
def bucket {A : Type} (key : A → Option String) : List A → List (Option String × List A)
  | xs => xs.foldl (fun d x =>
      Dict.set d (key x) (((Dict.get? d (key x)).getD []) ++ [x])) []

/-- `ReduceBlocks._reduce_blocks` (722-728). -/
def mergeAll : List (Block R V E) → Option (Block R V E)
  | [] => none
  | b :: bs => some (bs.foldl Block.union b)

/-- `ReduceBlocks.add_block` (706-720) followed by `reduce_blocks` (730-744). -/
def reduceBlocks (items : List (Item R V E)) : List (Block R V E) :=
  let condNot := items.filter (fun it => it.red.cond.isSome && !it.red.uncond)
  let condUnc := items.filter (fun it => it.red.cond.isSome && it.red.uncond)
  let unc := items.filter (fun it => !it.red.cond.isSome && it.red.uncond)
  let other := items.filter (fun it => !it.red.cond.isSome && !it.red.uncond)
  ((bucket (fun it => it.red.cond) condNot).flatMap (fun p => p.2.map Item.block))
    ++ ((bucket (fun it => it.red.cond) condUnc).filterMap (fun p => mergeAll (p.2.map Item.block)))
    ++ (mergeAll (unc.map Item.block)).toList
    ++ other.map Item.block

/-- State of the loop over `self.agg_items` (1178-1204). -/
structure Dedup (R V E : Type) where
  seen : List (String × Nat) := []
  items : List (Item R V E) := []
  slotOf : List Nat := []
  expected : Nat := 0

/-- One turn of the loop (1178-1204): agg item number `i`. -/
def dedupStep (aggMode : Bool) (st : Dedup R V E) (i : Nat) (r : Red R V E) : Dedup R V E :=
  let flag := if aggMode then 1 <<< i else 0
  match Dict.get? st.seen r.hash with
  | some j => { st with slotOf := st.slotOf ++ [j] }
  | none =>
    let j := st.items.length
    { seen := Dict.set st.seen r.hash j
      items := st.items ++ [{ slot := j, flag := flag, red := r }]
      slotOf := st.slotOf ++ [j]
      expected := st.expected ||| flag }

/-- The loop over `enumerate(self.agg_items)` (1178-1204). -/
def dedupLoop (aggMode : Bool) : Dedup R V E → Nat → List (Red R V E) → Dedup R V E
  | st, _, [] => st
  | st, i, r :: rs => dedupLoop aggMode (dedupStep aggMode st i r) (i + 1) rs

/-- The whole compilation of the reduces of one aggregation. -/
def compile (aggMode : Bool) (rs : List (Red R V E)) : Dedup R V E :=
  dedupLoop aggMode {} 0 rs

/-- Which of the two codes of a reduce runs. -/
inductive Phase
  | init
  | two

/-- The selected code of a reduce. -/
def Red.code (r : Red R V E) : Phase → R → Option V → Except E (Option V)
  | .init => r.init
  | .two => r.two

/-- The concatenated codes of the parts, executed in order. -/
def runParts (ph : Phase) (row : R) : List (Nat × Red R V E) → Slots V → Except E (Slots V)
  | [], s => .ok s
  | (i, r) :: ps, s =>
    match r.code ph row (s i) with
    | .error e => .error e
    | .ok v => runParts ph row ps (upd s i v)

/-- `if {condition_code}:` (ReduceConditionalBlock 651-693), absent for `ReduceBlock`. -/
def condHolds (condSem : String → R → Except E Bool) (row : R) : Option String → Except E Bool
  | none => .ok true
  | some c => condSem c row

/-- A block in the group-by loop (templates 608-615 and 662-670 with `checksum_flag == 0`). -/
def runBlock (condSem : String → R → Except E Bool) (row : R) (b : Block R V E) (s : Slots V) :
    Except E (Slots V) :=
  match condHolds condSem row b.cond with
  | .error e => .error e
  | .ok false => .ok s
  | .ok true =>
    match s b.head with
    | none => runParts .init row b.parts s
    | some _ => runParts .two row b.parts s

/-- `reduce_blocks.to_code()` (746-747). -/
def runBlocks (condSem : String → R → Except E Bool) (row : R) :
    List (Block R V E) → Slots V → Except E (Slots V)
  | [], s => .ok s
  | b :: bs, s =>
    match runBlock condSem row b s with
    | .error e => .error e
    | .ok s' => runBlocks condSem row bs s'

/-- The `for` loop of `GROUPER_TEMPLATE` (755-766): `signature_to_agg_data_` is a `defaultdict`. -/
def groupLoop [BEq K] (condSem : String → R → Except E Bool) (blocks : List (Block R V E))
    (keyOf : R → Except E K) : List R → List (K × Slots V) → Except E (List (K × Slots V))
  | [], d => .ok d
  | row :: rows, d =>
    match keyOf row with
    | .error e => .error e
    | .ok k =>
      match runBlocks condSem row blocks ((Dict.get? d k).getD fresh) with
      | .error e => .error e
      | .ok s => groupLoop condSem blocks keyOf rows (Dict.set d k s)

/-- The compiled `group_by(...).aggregate(...)` (1143-1277) up to the evaluation of the result
expression: for every group its key and, per agg item, the slot the result expression reads
(`reduce_id_to_var`). -/
def groupBy [BEq K] (condSem : String → R → Except E Bool) (keyOf : R → Except E K)
    (rs : List (Red R V E)) (rows : List R) : Except E (List (K × List (Option V))) :=
  let c := compile false rs
  match groupLoop condSem (reduceBlocks c.items) keyOf rows [] with
  | .error e => .error e
  | .ok d => .ok (d.map (fun p => (p.1, c.slotOf.map p.2)))

/-- Local variables of the aggregate function: the slots and `checksum_`. -/
structure AggState (V : Type) where
  slots : Slots V
  checksum : Nat

/-- How a statement of the first loop's body ends. -/
inductive Ctl
  | next
  | break
  deriving DecidableEq

/-- A block in the first loop of `AGGREGATE_TEMPLATE` (templates 608-631 and 662-688). -/
def runBlockAgg (condSem : String → R → Except E Bool) (expected : Nat) (row : R)
    (b : Block R V E) (st : AggState V) : Except E (AggState V × Ctl) :=
  match condHolds condSem row b.cond with
  | .error e => .error e
  | .ok false => .ok (st, .next)
  | .ok true =>
    match st.slots b.head with
    | none =>
      match runParts .init row b.parts st.slots with
      | .error e => .error e
      | .ok s =>
        match s b.head with
        | none => .ok ({ slots := s, checksum := st.checksum }, .next)
        | some _ =>
          let cs := st.checksum ||| b.flag
          if cs = expected then .ok ({ slots := s, checksum := cs }, .break)
          else .ok ({ slots := s, checksum := cs }, .next)
    | some _ =>
      match runParts .two row b.parts st.slots with
      | .error e => .error e
      | .ok s => .ok ({ slots := s, checksum := st.checksum }, .next)

/-- Body of the first loop: `break` skips the remaining blocks of the row. -/
def runBlocksAgg (condSem : String → R → Except E Bool) (expected : Nat) (row : R) :
    List (Block R V E) → AggState V → Except E (AggState V × Ctl)
  | [], st => .ok (st, .next)
  | b :: bs, st =>
    match runBlockAgg condSem expected row b st with
    | .error e => .error e
    | .ok (st', .break) => .ok (st', .break)
    | .ok (st', .next) => runBlocksAgg condSem expected row bs st'

/-- First loop of `AGGREGATE_TEMPLATE` (776-777); returns the rows left in the iterator. -/
def aggLoop1 (condSem : String → R → Except E Bool) (expected : Nat) (blocks : List (Block R V E)) :
    List R → AggState V → Except E (AggState V × List R)
  | [], st => .ok (st, [])
  | row :: rows, st =>
    match runBlocksAgg condSem expected row blocks st with
    | .error e => .error e
    | .ok (st', .break) => .ok (st', rows)
    | .ok (st', .next) => aggLoop1 condSem expected blocks rows st'

/-- A block of the second loop (`to_no_init_code`: 616-618 and 671-675). -/
def runBlockNoInit (condSem : String → R → Except E Bool) (row : R) (b : Block R V E)
    (s : Slots V) : Except E (Slots V) :=
  match condHolds condSem row b.cond with
  | .error e => .error e
  | .ok false => .ok s
  | .ok true => runParts .two row b.parts s

/-- Body of the second loop (749-752). -/
def runBlocksNoInit (condSem : String → R → Except E Bool) (row : R) :
    List (Block R V E) → Slots V → Except E (Slots V)
  | [], s => .ok s
  | b :: bs, s =>
    match runBlockNoInit condSem row b s with
    | .error e => .error e
    | .ok s' => runBlocksNoInit condSem row bs s'

/-- Second loop of `AGGREGATE_TEMPLATE` (779-780). -/
def aggLoop2 (condSem : String → R → Except E Bool) (blocks : List (Block R V E)) :
    List R → Slots V → Except E (Slots V)
  | [], s => .ok s
  | row :: rows, s =>
    match runBlocksNoInit condSem row blocks s with
    | .error e => .error e
    | .ok s' => aggLoop2 condSem blocks rows s'

/-- The compiled `c.aggregate(...)` (AGGREGATE_TEMPLATE 768-785) up to the evaluation of the result
expression: per agg item the slot the result expression reads. -/
def aggregate (condSem : String → R → Except E Bool) (rs : List (Red R V E)) (rows : List R) :
    Except E (List (Option V)) :=
  let c := compile true rs
  let blocks := reduceBlocks c.items
  match aggLoop1 condSem c.expected blocks rows { slots := fresh, checksum := 0 } with
  | .error e => .error e
  | .ok (st, rest) =>
    match aggLoop2 condSem blocks rest st.slots with
    | .error e => .error e
    | .ok s => .ok (c.slotOf.map s)

end Verif.Agg
