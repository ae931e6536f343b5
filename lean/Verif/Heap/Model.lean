import Verif.Py.Dict
/-!
# Model of conversion objects as mutable heap objects (src/convtools/base.py, aggregations.py)

Covers `clone`/`_clone` (base.py 341-360), `depends_on` (280-283), `set_predefined_input` (735-750),
`pipe` (787-856), `CachingConversion.__init__/add_label` (963-1012), `pass_args` (1437-1453),
`BaseComprehensionConversion.filter/sort` (1487-1517), `BaseConversion.filter` (731-733, 1392-1410),
`Reduce.filter` (aggregations.py 865-874), `GroupBy.aggregate` (aggregations.py 987-1019) and the
treatment of `_predefined_input` by `gen_converter` (base.py 554-579) and of sort keys by code
generation (base.py 1523-1533).

A conversion object is a heap node.  `tag` stands for its class together with all parameters that
are not conversions (an arbitrary type).  Simplifications: `_number` is drawn from an unbounded
counter (base.py 265-269 wraps at 2^30); the `valid_pipe_output` check (821-825), which raises
before anything is done, is left out; `debug` and the lazily fixed cache name (base.py 976-980) are
not represented.
-/
set_option autoImplicit false

namespace Verif.Heap

variable {P : Type}

/-- Addresses of objects. -/
local notation "Addr" => Nat

/-- `__dict__` of a conversion object. -/
structure Node (P : Type) where
  tag : P
  number : Nat
  /-- `_predefined_input` -/
  pred : Option Addr
  /-- `_predefined_self` -/
  selfRef : Option Addr
  /-- sub-conversions: wrapped conversion, args, indexes, items, ... -/
  args : List Addr
  /-- condition of a comprehension or of a reduce -/
  cond : Option Addr
  /-- `sort_key` of a comprehension or of a `GroupBy`, if it is a conversion -/
  key : Option Addr
  /-- the `labels` dict of a `CachingConversion` (a reference) -/
  labels : Option Nat
  /-- `_name` of a `CachingConversion` -/
  name : Option String
  /-- `_depends_on` -/
  deps : List Addr

/-- All conversion objects, all label dicts, the counter of base.py 250. -/
structure Heap (P : Type) where
  nodes : List (Node P)
  dicts : List (List (String × Addr))
  counter : Nat

inductive Exc where
  | tooLongPipe          -- base.py 359
  | failedToSetInput     -- base.py 749
  | labelUsed            -- base.py 1000
  | dangling             -- no Python counterpart: the address does not exist
  | genFailed            -- any exception while generating code
  deriving DecidableEq

/-- Result of an operation: new heap and result or exception. -/
abbrev Res (P : Type) (α : Type) := Heap P × Except Exc α

/-- Object creation with the given attributes (`__init__`, base.py 254-263). -/
def alloc (h : Heap P) (n : Node P) : Heap P × Addr :=
  ({ h with
      nodes := h.nodes ++ [{ n with number := h.counter }]
      counter := h.counter + 1 }, h.nodes.length)

/-- Attribute assignment on an existing object. -/
def modify (h : Heap P) (a : Addr) (f : Node P → Node P) : Heap P :=
  { h with nodes := h.nodes.modify a f }

/-- base.py 285-296 without filters: `get_dependencies()`. -/
def dependencies (h : Heap P) (b : Addr) : List Addr :=
  ((h.nodes[b]?).map (·.deps)).getD [] ++ [b]

/-- base.py 280-283: `a.depends_on(b)` -/
def dependsOn (h : Heap P) (a b : Addr) : Heap P :=
  let ds := dependencies h b
  modify h a fun n => { n with deps := n.deps ++ ds }

/-- base.py 341-345 -/
def cloneOne (h : Heap P) (a : Addr) : Option (Heap P × Addr) :=
  (h.nodes[a]?).map (alloc h)

/-- base.py 350-359: the loop of `clone`; first argument: remaining iterations. -/
def cloneLoop : Nat → Heap P → Addr → Res P Unit
  | 0, h, _ => (h, .error .tooLongPipe)
  | n + 1, h, conv =>
    match h.nodes[conv]? with
    | none => (h, .error .dangling)
    | some nd =>
      match nd.pred with
      | none => (h, .ok ())
      | some p =>
        match cloneOne h p with
        | none => (h, .error .dangling)
        | some (h1, p') => cloneLoop n (modify h1 conv fun m => { m with pred := some p' }) p'

/-- base.py 347-360 -/
def clone (maxLen : Nat) (h : Heap P) (a : Addr) : Res P Addr :=
  match cloneOne h a with
  | none => (h, .error .dangling)
  | some (h1, r) =>
    match cloneLoop maxLen h1 r with
    | (h2, .ok _) => (h2, .ok r)
    | (h2, .error e) => (h2, .error e)

/-- base.py 738-749: the loop of `set_predefined_input`. -/
def setInputLoop (input : Addr) : Nat → Heap P → Addr → Res P Unit
  | 0, h, _ => (h, .error .failedToSetInput)
  | n + 1, h, conv =>
    match h.nodes[conv]? with
    | none => (h, .error .dangling)
    | some nd =>
      match nd.pred with
      | none => (modify (dependsOn h conv input) conv fun m => { m with pred := some input }, .ok ())
      | some p => setInputLoop input n (dependsOn h conv input) p

/-- base.py 735-750 -/
def setPredefinedInput (maxLen : Nat) (h : Heap P) (a input : Addr) : Res P Addr :=
  match setInputLoop input (maxLen - 1) h a with
  | (h1, .ok _) => (h1, .ok a)
  | (h1, .error e) => (h1, .error e)

/-- A constructor call: a fresh object with sub-conversions, depending on them
(`ensure_conversion`, base.py 295-300, and `_predefined_self`, 870-877). -/
def construct (h : Heap P) (tag : P) (selfRef : Option Addr) (args : List Addr) : Heap P × Addr :=
  let (h1, a) := alloc h ⟨tag, 0, none, selfRef, args, none, none, none, none, []⟩
  ((selfRef.toList ++ args).foldl (fun h b => dependsOn h a b) h1, a)

/-- base.py 870-877: a method conversion (`item`, `attr`, `call`, `call_method`) of an object with
`_methods_without_input` (a reduce, aggregations.py 791): the object is also the input. -/
def constructMethod (h : Heap P) (tag : P) (self : Addr) (args : List Addr) : Heap P × Addr :=
  let (h1, a) := construct h tag (some self) args
  (modify h1 a fun n => { n with pred := some self }, a)

/-- The class-dependent facts used below. -/
structure Cls (P : Type) where
  caching : P                 -- tag of a `CachingConversion`
  bareItem : P                -- tag of `GetItem()`
  genComp : P                 -- tag of `GeneratorComp`
  naive : Nat → P             -- tag of `NaiveConversion(f)`
  call : P                    -- tag of a `Call`
  isGetItem : P → Bool        -- `isinstance(.., GetItem)`

/-- base.py 963-974: `CachingConversion(conversion)` -/
def mkCaching (cls : Cls P) (h : Heap P) (conv : Addr) : Heap P × Addr :=
  let (h1, a) := construct h cls.caching none [conv]
  let h2 := modify h1 a fun n => { n with labels := some h1.dicts.length }
  ({ h2 with dicts := h2.dicts ++ [[]] }, a)

/-- base.py 1004-1008: `isinstance(conversion, GetItem) and not conversion.indexes`. -/
def isBareItem (cls : Cls P) (h : Heap P) (conv : Addr) : Bool :=
  match h.nodes[conv]? with
  | some c => cls.isGetItem c.tag && c.args.isEmpty
  | none => false

/-- base.py 1001-1003: the conversion to be labelled, by default a new `GetItem()`. -/
def labelConv (cls : Cls P) (h : Heap P) : Option Addr → Heap P × Addr
  | some c => (h, c)
  | none => construct h cls.bareItem none []

/-- base.py 982-1012: `a.add_label(label_name, conversion)`; `none` is the default `GetItem()`. -/
def addLabel (cls : Cls P) (h : Heap P) (a : Addr) (l : String) (conv? : Option Addr) :
    Res P Addr :=
  match h.nodes[a]? with
  | none => (h, .error .dangling)
  | some nd =>
    match nd.labels with
    | none => (h, .error .dangling)
    | some d =>
      let dict := (h.dicts[d]?).getD []
      if Dict.has dict l || nd.name == some l then (h, .error .labelUsed)
      else
        let x := labelConv cls h conv?
        let h2 := dependsOn x.1 a x.2
        if nd.name == none && isBareItem cls h2 x.2 then
          (modify h2 a fun n => { n with name := some l }, .ok a)
        else ({ h2 with dicts := h2.dicts.modify d fun m => Dict.set m l x.2 }, .ok a)

/-- base.py 831-834, 848-851: the label loops of `pipe`. -/
def addLabels (cls : Cls P) (h : Heap P) (a : Addr) : List (String × Option Addr) → Res P Addr
  | [] => (h, .ok a)
  | (l, c) :: ls =>
    match addLabel cls h a l c with
    | (h1, .ok _) => addLabels cls h1 a ls
    | (h1, .error e) => (h1, .error e)

/-- base.py 829-834 / 846-851: optional labelling of a pipe end. An empty dict is falsy. -/
def labelled (cls : Cls P) (h : Heap P) (a : Addr) (labels : List (String × Option Addr)) :
    Res P Addr :=
  if labels.isEmpty then (h, .ok a)
  else
    let (h1, k) := mkCaching cls h a
    addLabels cls h1 k labels

/-- base.py 787-856 with a conversion as next step (what `ensure_conversion` returned). -/
def pipe (cls : Cls P) (maxLen : Nat) (h : Heap P) (self next : Addr)
    (labelInput labelOutput : List (String × Option Addr)) : Res P Addr :=
  match clone maxLen h self with
  | (h1, .error e) => (h1, .error e)
  | (h1, .ok s) =>
    match labelled cls h1 s labelInput with
    | (h2, .error e) => (h2, .error e)
    | (h2, .ok s') =>
      match clone maxLen h2 next with
      | (h3, .error e) => (h3, .error e)
      | (h3, .ok r) =>
        match labelled cls h3 r labelOutput with
        | (h4, .error e) => (h4, .error e)
        | (h4, .ok r') => setPredefinedInput maxLen h4 r' s'

/-- base.py 787-856 with a callable as next step (836-842): it is wrapped, cloned and called with
the cloned conversion and `args`. -/
def pipeCallable (cls : Cls P) (maxLen : Nat) (h : Heap P) (self : Addr) (f : Nat)
    (args : List Addr) (labelInput labelOutput : List (String × Option Addr)) : Res P Addr :=
  match clone maxLen h self with
  | (h1, .error e) => (h1, .error e)
  | (h1, .ok s) =>
    match labelled cls h1 s labelInput with
    | (h2, .error e) => (h2, .error e)
    | (h2, .ok s') =>
      let (h3, fn) := construct h2 (cls.naive f) none []
      match clone maxLen h3 fn with
      | (h4, .error e) => (h4, .error e)
      | (h4, .ok fn') =>
        let (h5, r) := construct h4 cls.call (some fn') (s' :: args)
        labelled cls h5 r labelOutput

/-- base.py 1437-1453: `pass_args`. -/
def passArgs (maxLen : Nat) (h : Heap P) (a : Addr) (args : List Addr) : Res P Addr :=
  match clone maxLen h a with
  | (h1, .error e) => (h1, .error e)
  | (h1, .ok r) =>
    (modify (args.foldl (fun h b => dependsOn h r b) h1) r fun n => { n with args := args }, .ok r)

/-- base.py 1487-1501: filtering a comprehension. -/
def filterComp (maxLen : Nat) (h : Heap P) (a cond : Addr) : Res P Addr :=
  match clone maxLen h a with
  | (h1, .error e) => (h1, .error e)
  | (h1, .ok r) => (modify (dependsOn h1 r cond) r fun n => { n with cond := some cond }, .ok r)

/-- base.py 1503-1517 and aggregations.py 1028-1035: sorting.  A conversion given as key is stored
without `ensure_conversion`, hence not registered as a dependency; any other key and the direction
are part of the tag. -/
def sort (maxLen : Nat) (h : Heap P) (a : Addr) (key : Option Addr) (f : P → P) : Res P Addr :=
  match clone maxLen h a with
  | (h1, .error e) => (h1, .error e)
  | (h1, .ok r) =>
    (modify h1 r fun n => { n with
      tag := f n.tag
      key := key }, .ok r)

/-- base.py 731-733 with 1404-1405: `a.filter(cond)` on any other conversion:
`GeneratorComp(GetItem(), _predefined_input=a).filter(cond)`. -/
def baseFilter (cls : Cls P) (maxLen : Nat) (h : Heap P) (a cond : Addr) : Res P Addr :=
  let (h1, item) := construct h cls.bareItem none []
  let (h2, g) := construct h1 cls.genComp none [item]
  match setPredefinedInput maxLen h2 g a with
  | (h3, .error e) => (h3, .error e)
  | (h3, .ok g) => filterComp maxLen h3 g cond

/-- aggregations.py 865-874: `Reduce.filter` assigns to `self`. -/
def reduceFilter (h : Heap P) (a cond : Addr) : Res P Addr :=
  (modify (dependsOn h a cond) a fun n => { n with cond := some cond }, .ok a)

/-- aggregations.py 1001-1019: `GroupBy.aggregate`: the clone gets the reducer, but
`self.prepare_reducer` (987-991) registers the dependency on `self`. -/
def aggregate (maxLen : Nat) (h : Heap P) (a reducer : Addr) : Res P Addr :=
  match clone maxLen h a with
  | (h1, .error e) => (h1, .error e)
  | (h1, .ok r) =>
    let h2 := dependsOn h1 a reducer
    (modify (dependsOn h2 r reducer) r fun n => { n with args := n.args ++ [reducer] }, .ok r)

/-- aggregations.py 1005-1011 (`reduce_items`) and 1074-1107 (`_rebuild_reducer_result`): the
conversions the result `r` of `aggregate` is made of: the keys and values of a dict, the items of
another collection (`isColl`), otherwise the conversion itself.  Code is generated for these. -/
def resultItems (isColl : P → Bool) (h : Heap P) (r : Addr) : List Addr :=
  match h.nodes[r]? with
  | none => []
  | some n => if isColl n.tag then n.args else [r]

/-- aggregations.py 1015-1017: `agg_items`, the reduces (`isReduce`) among the dependencies of the
parts of the result. -/
def aggItems (isColl isReduce : P → Bool) (h : Heap P) (r : Addr) : List Addr :=
  ((resultItems isColl h r).flatMap (dependencies h)).filter fun d =>
    ((h.nodes[d]?).map (·.tag)).any isReduce

/-- aggregations.py 1164-1194 and 918: `_reduce_id_to_var` has the identities of `agg_items` as keys;
the code of a reduce is looked up by its identity, `none` is a `KeyError`.  Simplified: the position in
`agg_items`; that equal reductions share a variable (1188-1194) is the subject of C35. -/
def reduceVar (items : List Addr) (x : Addr) : Option Nat := items.idxOf? x

/-! ## gen_converter -/

/-- base.py 554-558: the stages, last first. Fuel: number of objects. -/
def collect (h : Heap P) : Nat → Addr → List Addr
  | 0, a => [a]
  | n + 1, a =>
    match (h.nodes[a]?).bind (·.pred) with
    | none => [a]
    | some p => a :: collect h n p

/-- base.py 1523-1533: what code generation of a sorted comprehension does to the object: the key
and the direction are wrapped (a conversion is kept, anything else becomes a new `NaiveConversion`)
and registered as dependencies. -/
def registerSort (cls : Cls P) (h : Heap P) (a : Addr) : Heap P :=
  let x := match (h.nodes[a]?).bind (·.key) with
    | some k => (h, k)
    | none => construct h (cls.naive 0) none []
  let h1 := dependsOn x.1 a x.2
  let y := construct h1 (cls.naive 1) none []
  dependsOn y.1 a y.2

/-- base.py 564-573: one stage; `gen h a` generates the code of the object `a` in the current heap,
may change objects and may raise, in which case line 573 is not reached. -/
def genStage {C : Type} (gen : Heap P → Addr → Res P C) (h : Heap P) (a : Addr) : Res P C :=
  let saved := (h.nodes[a]?).bind (·.pred)
  let h1 := modify h a fun n => { n with pred := none }
  match gen h1 a with
  | (h2, .error e) => (h2, .error e)
  | (h2, .ok c) => (modify h2 a fun n => { n with pred := saved }, .ok c)

/-- base.py 564-579: all stages in execution order. -/
def genStages {C : Type} (gen : Heap P → Addr → Res P C) (h : Heap P) :
    List Addr → Res P (List C)
  | [] => (h, .ok [])
  | a :: as =>
    match genStage gen h a with
    | (h1, .error e) => (h1, .error e)
    | (h1, .ok c) =>
      match genStages gen h1 as with
      | (h2, .error e) => (h2, .error e)
      | (h2, .ok cs) => (h2, .ok (c :: cs))

/-- base.py 554-579: the part of `gen_converter` that touches the conversion: codes of the stages
in execution order. -/
def genConverter {C : Type} (gen : Heap P → Addr → Res P C) (h : Heap P) (a : Addr) :
    Res P (List C) :=
  genStages gen h (collect h h.nodes.length a).reverse

/-! ## Two threads compiling (the same steps, one attribute access at a time) -/

/-- Where a thread is inside `gen_converter`. -/
inductive Pc (C : Type) where
  | collecting (conv : Addr) (pipes : List Addr)               -- 554-558
  | loop (todo : List Addr) (codes : List C)                   -- 564
  | saved (a : Addr) (p : Option Addr) (todo : List Addr) (codes : List C)      -- after 565
  | cleared (a : Addr) (p : Option Addr) (todo : List Addr) (codes : List C)    -- after 566
  | generated (a : Addr) (p : Option Addr) (todo : List Addr) (codes : List C)  -- after 571
  | done (codes : List C)
  | failed

/-- One step of a thread. -/
def pcStep {C : Type} (gen : Heap P → Addr → Res P C) (h : Heap P) : Pc C → Heap P × Pc C
  | .collecting conv pipes =>
    match (h.nodes[conv]?).bind (·.pred) with
    | none => (h, .loop pipes [])
    | some p => (h, .collecting p (p :: pipes))
  | .loop [] codes => (h, .done codes)
  | .loop (a :: todo) codes => (h, .saved a ((h.nodes[a]?).bind (·.pred)) todo codes)
  | .saved a p todo codes => (modify h a fun n => { n with pred := none }, .cleared a p todo codes)
  | .cleared a p todo codes =>
    match gen h a with
    | (h', .error _) => (h', .failed)
    | (h', .ok c) => (h', .generated a p todo (codes ++ [c]))
  | .generated a p todo codes => (modify h a fun n => { n with pred := p }, .loop todo codes)
  | .done codes => (h, .done codes)
  | .failed => (h, .failed)

/-- A schedule of two threads (`false` = first). -/
def runTwo {C : Type} (gen : Heap P → Addr → Res P C) :
    List Bool → Heap P × Pc C × Pc C → Heap P × Pc C × Pc C
  | [], s => s
  | false :: sch, (h, p, q) => let (h', p') := pcStep gen h p; runTwo gen sch (h', p', q)
  | true :: sch, (h, p, q) => let (h', q') := pcStep gen h q; runTwo gen sch (h', p, q')

end Verif.Heap
