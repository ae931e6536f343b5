import Verif.Heap.Deps3
import Verif.Heap.Props
/-!
# C52: registered dependencies cover everything a conversion uses
-/
set_option autoImplicit false

namespace Verif.Heap

variable {P : Type}

local notation "Addr" => Nat

/-- The operands of a derivation exist; sorting is by the items themselves or by a callable. -/
def Derivation.Valid (h : Heap P) : Derivation P → Prop
  | .construct _ s args => ∀ x ∈ s.toList ++ args, x < h.nodes.length
  | .method _ s args => s < h.nodes.length ∧ ∀ x ∈ args, x < h.nodes.length
  | .pipe _ n li lo => n < h.nodes.length ∧
      (∀ e ∈ li, ∀ c, e.2 = some c → c < h.nodes.length) ∧
      (∀ e ∈ lo, ∀ c, e.2 = some c → c < h.nodes.length)
  | .pipeCallable _ _ args li lo => (∀ x ∈ args, x < h.nodes.length) ∧
      (∀ e ∈ li, ∀ c, e.2 = some c → c < h.nodes.length) ∧
      (∀ e ∈ lo, ∀ c, e.2 = some c → c < h.nodes.length)
  | .passArgs _ args => ∀ x ∈ args, x < h.nodes.length
  | .filterComp _ c => c < h.nodes.length
  | .sort _ key _ => key = none
  | .baseFilter a c => a < h.nodes.length ∧ c < h.nodes.length

/-- Specification: the heaps a program reaches that only derives conversions from conversions.
Derivations that raise are included. -/
inductive Reachable (cls : Cls P) (maxLen : Nat) : Heap P → Prop
  | empty (n : Nat) : Reachable cls maxLen ⟨[], [], n⟩
  | derive {h : Heap P} (d : Derivation P) : Reachable cls maxLen h → d.Valid h →
      Reachable cls maxLen (derive cls maxLen h d).1
  | aggregate {h : Heap P} (a r : Addr) : Reachable cls maxLen h → r < h.nodes.length →
      Reachable cls maxLen (aggregate maxLen h a r).1

/-- No earlier stage of a pipe that is copied is of the classes `own`. -/
def Derivation.Clean (own : P → Bool) (h : Heap P) : Derivation P → Prop
  | .construct _ _ _ => True
  | .method _ _ _ => True
  | .pipe s n _ _ => Verif.Heap.Clean own h s ∧ Verif.Heap.Clean own h n
  | .pipeCallable s _ _ _ _ => Verif.Heap.Clean own h s
  | .passArgs a _ => Verif.Heap.Clean own h a
  | .filterComp a _ => Verif.Heap.Clean own h a
  | .sort a _ _ => Verif.Heap.Clean own h a
  | .baseFilter a _ => Verif.Heap.Clean own h a ∧ ∀ n, h.nodes[a]? = some n → own n.tag = false

theorem Derivation.clean_none (h : Heap P) (d : Derivation P) : d.Clean (fun _ => false) h := by
  cases d <;> first | trivial | exact Verif.Heap.Clean.none h _ | exact ⟨Verif.Heap.Clean.none h _, Verif.Heap.Clean.none h _⟩ |
    exact ⟨Verif.Heap.Clean.none h _, fun _ _ => rfl⟩

theorem Inv.derive {own : P → Bool} {h : Heap P} (i : Inv own h) (cls : Cls P) (maxLen : Nat)
    (d : Derivation P) (v : d.Valid h) (c : d.Clean own h) : Inv own (derive cls maxLen h d).1 := by
  cases d with
  | construct t s args => exact i.construct t s args v
  | method t s args => exact i.constructMethod t s args v.1 v.2
  | pipe s n li lo => exact i.pipe cls maxLen s n li lo v.1 c.1 c.2 v.2.1 v.2.2
  | pipeCallable s f args li lo => exact i.pipeCallable cls maxLen s f args li lo c v.1 v.2.1 v.2.2
  | passArgs a args => exact i.passArgs maxLen a args c v
  | filterComp a x => exact i.filterComp maxLen a x c v
  | sort a key f =>
    cases (show key = none from v)
    exact i.sort maxLen a f c
  | baseFilter a x => exact i.baseFilter cls maxLen a x c.1 c.2 v.1 v.2

theorem Inv.empty (own : P → Bool) (n : Nat) : Inv own (⟨[], [], n⟩ : Heap P) :=
  ⟨fun i n hn => by simp at hn, fun _ _ => False, fun a n hn => by simp at hn⟩

theorem Reachable.inv {cls : Cls P} {maxLen : Nat} {h : Heap P} (r : Reachable cls maxLen h) :
    Inv (fun _ => false) h := by
  induction r with
  | empty n => exact Inv.empty _ n
  | derive d _ v ih => exact ih.derive cls maxLen d v (d.clean_none _)
  | aggregate a r _ hr ih => exact ih.aggregate maxLen a r (Verif.Heap.Clean.none _ _) hr

theorem tagAt_of_keyAt {own : P → Bool} {h : Heap P} {a b : Addr}
    (e : keyAt own h a = keyAt own h b) : tagAt h a = tagAt h b := by
  have := congrArg (Option.map Prod.fst) e
  simpa [keyAt, tagAt, Function.comp_def] using this

/-- **C52** (partial: conversions as sort keys and the two mutators `add_label` and `Reduce.filter`
called on an object that is already used elsewhere are excluded, see the refutations): whatever a
program derives, everything a conversion uses — its inputs, parts, conditions and labels, and what
those use — has the class and parameters of one of the conversion's registered dependencies. -/
theorem C52_covered_partial (cls : Cls P) (maxLen : Nat) (h : Heap P)
    (r : Reachable cls maxLen h) (a x : Addr) (u : Uses h a x) :
    ∃ d ∈ dependencies h a, tagAt h d = tagAt h x := by
  obtain ⟨_, S, hS⟩ := r.inv
  have hs := hS.uses u
  obtain ⟨n, hn⟩ : ∃ n, h.nodes[a]? = some n := by cases u <;> exact ⟨_, by assumption⟩
  obtain ⟨d, h1, h2⟩ := (hS a n hn).2 _ hs
  exact ⟨d, by simp [dependencies, hn, h1], tagAt_of_keyAt h2⟩

/-- Specification: the names of the input arguments (`nm`: the argument name of an `InputArg`) among
the dependencies (base.py 405-414). -/
def argNames (nm : P → Option String) (h : Heap P) (a : Addr) : List String :=
  (dependencies h a).filterMap fun d => (tagAt h d).bind nm

/-- **C52, input arguments** (partial as above): every input argument used by a conversion is among
the arguments the generated signature is made of. -/
theorem C52_args_partial (cls : Cls P) (maxLen : Nat) (nm : P → Option String) (h : Heap P)
    (r : Reachable cls maxLen h) (a x : Addr) (u : a = x ∨ Uses h a x) (p : P) (s : String)
    (hp : tagAt h x = some p) (hs : nm p = some s) : s ∈ argNames nm h a := by
  rw [argNames, List.mem_filterMap]
  rcases u with rfl | u
  · exact ⟨a, by simp [dependencies], by simp [hp, hs]⟩
  · obtain ⟨d, h1, h2⟩ := C52_covered_partial cls maxLen h r a x u
    exact ⟨d, h1, by simp [h2, hp, hs]⟩

theorem Uses.of_children {h : Heap P} {a c : Addr}
    (hc : c ∈ ((h.nodes[a]?).map (children h)).getD []) : Uses h a c := by
  cases hn : h.nodes[a]? with
  | none => simp [hn] at hc
  | some n => exact .direct hn (by simpa [hn] using hc)

theorem Uses.step {h : Heap P} {a c x : Addr}
    (hc : c ∈ ((h.nodes[a]?).map (children h)).getD []) (u : Uses h c x) : Uses h a x := by
  cases hn : h.nodes[a]? with
  | none => simp [hn] at hc
  | some n => exact .through hn (by simpa [hn] using hc) u

/-- A program in examples: `a.pipe(b, label_input={"l": x}).pipe(c.list(b))`. -/
def exProgram : List (Derivation Nat) :=
  [.construct 1 none [], .construct 2 none [], .construct 3 none [], .construct 4 none [1],
    .pipe 0 1 [("l", some 2)] [], .pipe 6 3 [] []]

/-- The hypotheses of C52 hold for a labelled pipe piped further; the last stage (address 9) uses
the conversion of the label (address 2) through its input and the labels of the input's input. -/
example : Reachable exCls 100 (deriveAll exCls 100 ⟨[], [], 0⟩ exProgram) ∧
    Uses (deriveAll exCls 100 ⟨[], [], 0⟩ exProgram) 9 2 ∧
    tagAt (deriveAll exCls 100 ⟨[], [], 0⟩ exProgram) 2 = some 3 ∧
    argNames (fun t => if t = 3 then some "x" else none)
      (deriveAll exCls 100 ⟨[], [], 0⟩ exProgram) 9 = ["x"] := by
  refine ⟨?_, .step (c := 7) (by decide +kernel) (.step (c := 8) (by decide +kernel)
    (.of_children (by decide +kernel))), by decide +kernel, by decide +kernel⟩
  simp only [deriveAll, exProgram, List.foldl_cons, List.foldl_nil]
  refine .derive _ (.derive _ (.derive _ (.derive _ (.derive _ (.derive _ (.empty 0) ?_) ?_) ?_) ?_)
    ?_) ?_
  · simp [Derivation.Valid]
  · simp [Derivation.Valid]
  · simp [Derivation.Valid]
  · intro x hx
    rw [List.mem_singleton.1 hx]
    decide +kernel
  · refine ⟨by decide +kernel, ?_, by simp⟩
    intro e he c hc
    rw [List.mem_singleton.1 he] at hc
    cases hc
    decide +kernel
  · exact ⟨by decide +kernel, by simp, by simp⟩

/-- **C52 is violated by sort keys**: `c.list_comp(..).sort(key=c.input_arg("f"))` (address 2) uses
the argument (address 0) but does not depend on it: the argument is missing in the signature. -/
theorem C52_refuted_sort_key : ∃ h : Heap Nat,
    Reachable exCls 100 h ∧
    let s := sort 100 h 1 (some 0) id
    s.2 = .ok 2 ∧ Uses s.1 2 0 ∧ ∀ d ∈ dependencies s.1 2, tagAt s.1 d ≠ tagAt s.1 0 := by
  refine ⟨_, .derive (.construct 6 none []) (.derive (.construct 5 none []) (.empty 0) ?_) ?_, rfl,
    .of_children (by decide +kernel), by decide +kernel⟩
  · simp [Derivation.Valid]
  · simp [Derivation.Valid]

/-- Four conversions in examples. -/
def exFour : Heap Nat := ⟨[{ atom 1 with number := 0 }, { atom 2 with number := 1 },
  { atom 3 with number := 2 }, { atom 9 with number := 3 }], [], 4⟩

theorem exFour_reachable : Reachable exCls 100 exFour := by
  have r : Reachable exCls 100 (derive exCls 100 (derive exCls 100 (derive exCls 100
      (derive exCls 100 ⟨[], [], 0⟩ (.construct 1 none [])).1 (.construct 2 none [])).1
      (.construct 3 none [])).1 (.construct 9 none [])).1 := by
    refine .derive _ (.derive _ (.derive _ (.derive _ (.empty 0) ?_) ?_) ?_) ?_ <;>
      simp [Derivation.Valid]
  exact r

/-- **C52 is violated by late labels**: a labelled conversion (address 4) is piped further (result
6, clone of the labelled one: 5), then the original gets another label.  The dict is shared, so the
piped conversion evaluates the new label's conversion (address 3) without depending on it. -/
theorem C52_refuted_late_label : ∃ h : Heap Nat,
    Reachable exCls 100 h ∧
    let l := labelled exCls h 0 [("x", some 1)]
    let p := pipe exCls 100 l.1 4 2 [] []
    let s := addLabel exCls p.1 4 "late" (some 3)
    l.2 = .ok 4 ∧ p.2 = .ok 6 ∧ s.2 = .ok 4 ∧ Uses s.1 6 3 ∧
      ∀ d ∈ dependencies s.1 6, tagAt s.1 d ≠ tagAt s.1 3 := by
  refine ⟨exFour, exFour_reachable, by decide +kernel, by decide +kernel, by decide +kernel, ?_,
    by decide +kernel⟩
  exact .step (c := 5) (by decide +kernel) (.of_children (by decide +kernel))

/-- **C52 is violated by late filters**: a reduce (address 0) is used in another conversion
(address 2), then `Reduce.filter` is called on it: the user of the reduce uses the condition
(address 1) without depending on it. -/
theorem C52_refuted_late_filter : ∃ h : Heap Nat,
    Reachable exCls 100 h ∧
    let s := reduceFilter h 0 1
    Uses s.1 2 1 ∧ ∀ d ∈ dependencies s.1 2, tagAt s.1 d ≠ tagAt s.1 1 := by
  refine ⟨_, .derive (.construct 3 none [0]) (.derive (.construct 2 none []) (.derive
    (.construct 1 none []) (.empty 0) ?_) ?_) ?_,
    .step (c := 0) (by decide +kernel) (.of_children (by decide +kernel)), by decide +kernel⟩
  · simp [Derivation.Valid]
  · simp [Derivation.Valid]
  · intro x hx
    rw [List.mem_singleton.1 hx]
    decide +kernel

theorem not_uses_of_closed {h : Heap P} (W : Addr → Prop) (a : Addr) (ha : W a)
    (hW : ∀ q n, W q → h.nodes[q]? = some n → ∀ c ∈ children h n, W c) {x : Addr}
    (u : Uses h a x) : W x := by
  induction u with
  | direct h1 h2 => exact hW _ _ ha h1 _ h2
  | through h1 h2 _ ih => exact ih (hW _ _ ha h1 _ h2)

/-- **The converse of C52 is violated**: dependencies are never removed.  `f.pass_args(x)` (address
3) followed by `.pass_args(y)` (address 4) uses `y` (address 2) only, but still depends on `x`
(address 1): if `x` is an input argument, the converter requires it for nothing. -/
theorem C52_refuted_exact : ∃ h : Heap Nat,
    Reachable exCls 100 h ∧ 1 ∈ dependencies h 4 ∧ tagAt h 1 = some 2 ∧
    ∀ x, Uses h 4 x → tagAt h x ≠ some 2 := by
  refine ⟨_, .derive (.passArgs 3 [2]) (.derive (.passArgs 0 [1]) (.derive (.construct 3 none [])
    (.derive (.construct 2 none []) (.derive (.construct 1 none []) (.empty 0) ?_) ?_) ?_) ?_) ?_,
    by decide +kernel, by decide +kernel, ?_⟩
  · simp [Derivation.Valid]
  · simp [Derivation.Valid]
  · simp [Derivation.Valid]
  · intro x hx
    rw [List.mem_singleton.1 hx]
    decide +kernel
  · intro x hx
    rw [List.mem_singleton.1 hx]
    decide +kernel
  · intro x u
    have : x = 4 ∨ x = 2 := by
      refine not_uses_of_closed (fun q => q = 4 ∨ q = 2) 4 (.inl rfl) ?_ u
      rintro q n (rfl | rfl) hn c hc
      · cases hn
        exact .inr (by simpa [children] using hc)
      · cases hn
        simp [children] at hc
    rcases this with rfl | rfl <;> decide +kernel

end Verif.Heap
