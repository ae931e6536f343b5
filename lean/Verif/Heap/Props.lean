import Verif.Heap.Spec
/-!
# C17 (pipe), C29 (compiling leaves conversions alone), C30 (deriving leaves originals alone)
-/
set_option autoImplicit false

namespace Verif.Heap

variable {P : Type}

local notation "Addr" => Nat

/-! ## C17 -/

/-- Specification: `a` is a chain of the given stages, last stage first (the stage itself, then the
one producing its input, ...). -/
inductive Stages (h : Heap P) : Addr → List (Stage P) → Prop
  | first {a nd} : h.nodes[a]? = some nd → nd.pred = none → Stages h a [nd.stage]
  | after {a nd b ss} : h.nodes[a]? = some nd → nd.pred = some b → Stages h b ss →
      Stages h a (nd.stage :: ss)

theorem Stages.path {h : Heap P} {a : Addr} {ss : List (Stage P)} (s : Stages h a ss) :
    ∃ as, Path h a as ∧ as.map (stageAt h) = ss.map some := by
  induction s with
  | first h1 h2 => exact ⟨_, .last h1 h2, by simp [stageAt, h1]⟩
  | after h1 h2 _ ih =>
    obtain ⟨as, p, e⟩ := ih
    exact ⟨_, .step h1 h2 p, by simp [stageAt, h1]; simpa [stageAt] using e⟩

theorem Stages.of_path {h : Heap P} {a : Addr} {as : List Addr} (p : Path h a as) :
    ∀ ss : List (Stage P), as.map (stageAt h) = ss.map some → Stages h a ss := by
  induction p with
  | @last a nd h1 h2 =>
    intro ss e
    cases ss with
    | nil => simp at e
    | cons s ss =>
      cases ss with
      | nil =>
        have : s = nd.stage := by simpa [stageAt, h1, eq_comm] using e
        rw [this]; exact .first h1 h2
      | cons t ss => simp at e
  | @step a nd b bs h1 h2 _ ih =>
    intro ss e
    cases ss with
    | nil => simp at e
    | cons s ss =>
      rw [List.map_cons, List.map_cons, List.cons.injEq] at e
      have : s = nd.stage := by simpa [stageAt, h1, eq_comm] using e.1
      rw [this]; exact .after h1 h2 (ih ss e.2)

/-- **C17, exact behaviour of a pipe**: with `as` and `bs` the chains of the two operands,
`a.pipe(b)` succeeds iff `a` has at most `max_pipe_length` stages and `b` fewer; then the result is
the chain of all stages of both, none lost; otherwise a `ConversionException` is raised.  In either
case every object that existed before is unchanged. -/
theorem C17_pipe (cls : Cls P) (maxLen : Nat) (h : Heap P) (a b : Addr) (as bs : List (Stage P))
    (ha : Stages h a as) (hb : Stages h b bs) :
    let res := pipe cls maxLen h a b [] []
    (∀ i, i < h.nodes.length → res.1.nodes[i]? = h.nodes[i]?) ∧
    (if as.length ≤ maxLen ∧ bs.length < maxLen then
      ∃ r, res.2 = .ok r ∧ Stages res.1 r (bs ++ as)
    else res.2 = .error .tooLongPipe ∨ res.2 = .error .failedToSetInput) := by
  obtain ⟨pa, hpa, ea⟩ := ha.path
  obtain ⟨pb, hpb, eb⟩ := hb.path
  have la : pa.length = as.length := by simpa using congrArg List.length ea
  have lb : pb.length = bs.length := by simpa using congrArg List.length eb
  have c1 := clone_spec maxLen h a pa hpa
  have x1 := clone_ext (n := h.nodes.length) (m := h.dicts.length) maxLen h a (Nat.le_refl _)
  intro res
  by_cases k1 : pa.length ≤ maxLen
  rotate_left
  · rw [if_neg k1] at c1
    obtain ⟨h1, e1⟩ := c1
    rw [e1] at x1
    have hres : res = (h1, .error .tooLongPipe) := by simp [res, pipe, e1]
    rw [hres, if_neg (by omega)]
    exact ⟨x1.nodes, .inl rfl⟩
  rw [if_pos k1] at c1
  obtain ⟨h1, e1, q1, s1⟩ := c1
  rw [e1] at x1
  have hpb1 : Path h1 b pb := hpb.ext x1 hpb.lt
  have eb1 : pb.map (stageAt h1) = bs.map some := by
    rw [← eb]
    exact List.map_congr_left fun x hx => x1.stageAt (hpb.lt x hx)
  have c2 := clone_spec maxLen h1 b pb hpb1
  have x2 := clone_ext (n := h1.nodes.length) (m := h.dicts.length) maxLen h1 b (Nat.le_refl _)
  by_cases k2 : pb.length ≤ maxLen
  rotate_left
  · rw [if_neg k2] at c2
    obtain ⟨h2, e2⟩ := c2
    rw [e2] at x2
    have hres : res = (h2, .error .tooLongPipe) := by simp [res, pipe, e1, e2, labelled]
    rw [hres, if_neg (by omega)]
    exact ⟨(x1.trans (x2.mono x1.len (Nat.le_refl _))).nodes, .inl rfl⟩
  rw [if_pos k2] at c2
  obtain ⟨h2, e2, q2, s2⟩ := c2
  rw [e2] at x2
  have q1' := q1.ext x2 q1.lt
  have hres : res = match setInputLoop h.nodes.length (maxLen - 1) h2 h1.nodes.length with
      | (h1', .ok _) => (h1', .ok h1.nodes.length)
      | (h1', .error e) => (h1', .error e) := by
    simp only [res, pipe, e1, e2, labelled, List.isEmpty_nil, if_true, setPredefinedInput]
    rfl
  have hdis : ∀ x ∈ List.range' h1.nodes.length pb.length,
      x ∉ List.range' h.nodes.length pa.length := by
    intro x hx hx'
    have := q1.lt x hx'
    have := List.mem_range'_1.1 hx
    omega
  have c3 := setInputLoop_spec h.nodes.length (maxLen - 1) h2 h1.nodes.length _ _ q2 q1' hdis
    (List.nodup_range')
  have x3 := setInputLoop_ext (n := h1.nodes.length) (m := h.dicts.length) h.nodes.length
    (maxLen - 1) h2 h1.nodes.length _ q2 (fun x hx => (List.mem_range'_1.1 hx).1)
  rw [List.length_range'] at c3
  have hpos : 0 < pb.length := List.length_pos_iff.2 hpb.ne_nil
  by_cases k3 : pb.length ≤ maxLen - 1
  · rw [if_pos k3] at c3
    obtain ⟨h3, e3, q3, s3⟩ := c3
    rw [e3] at x3 hres
    rw [hres, if_pos (by omega)]
    refine ⟨(x1.trans ((x2.trans x3).mono x1.len (Nat.le_refl _))).nodes, _, rfl, ?_⟩
    refine Stages.of_path q3 _ ?_
    rw [List.map_append, List.map_append]
    congr 1
    · rw [List.map_congr_left fun x _ => s3 x, s2, eb1]
    · rw [List.map_congr_left fun x _ => s3 x, ← ea, ← s1]
      exact List.map_congr_left fun x hx => x2.stageAt (q1.lt x hx)
  · rw [if_neg k3] at c3
    obtain ⟨h3, e3⟩ := c3
    rw [e3] at x3 hres
    rw [hres, if_neg (by omega)]
    exact ⟨(x1.trans ((x2.trans x3).mono x1.len (Nat.le_refl _))).nodes, .inr rfl⟩

/-- Chains of old objects survive in a heap where old objects are unchanged. -/
theorem Stages.frame {h h' : Heap P} {a : Addr} {ss : List (Stage P)} (s : Stages h a ss)
    (e : ∀ i, i < h.nodes.length → h'.nodes[i]? = h.nodes[i]?) : Stages h' a ss := by
  induction s with
  | first h1 h2 =>
    refine .first ?_ h2
    rw [e _ (List.getElem?_eq_some_iff.1 h1).1, h1]
  | after h1 h2 _ ih =>
    refine .after ?_ h2 ih
    rw [e _ (List.getElem?_eq_some_iff.1 h1).1, h1]

/-- **C17, associativity, partial** (full statement: for all chain lengths; refuted below): when
both bracketings stay within `max_pipe_length`, they give chains of the same stages in the same
order, whatever is built in between. -/
theorem C17_associative_partial (cls : Cls P) (maxLen : Nat) (h : Heap P) (a b c : Addr)
    (as bs cs : List (Stage P)) (ha : Stages h a as) (hb : Stages h b bs) (hc : Stages h c cs)
    (hlen : as.length + bs.length ≤ maxLen ∧ bs.length + cs.length < maxLen) :
    ∃ h1 ab h2 abc, pipe cls maxLen h a b [] [] = (h1, .ok ab) ∧
      pipe cls maxLen h1 ab c [] [] = (h2, .ok abc) ∧
    ∃ h1' bc h2' abc', pipe cls maxLen h b c [] [] = (h1', .ok bc) ∧
      pipe cls maxLen h1' a bc [] [] = (h2', .ok abc') ∧
      Stages h2 abc (cs ++ (bs ++ as)) ∧ Stages h2' abc' ((cs ++ bs) ++ as) := by
  have pos : ∀ {x ss}, Stages h x ss → 0 < ss.length := by
    intro x ss s; cases s <;> simp
  have pa := pos ha
  have pb := pos hb
  have pc := pos hc
  obtain ⟨f1, t1⟩ := C17_pipe cls maxLen h a b as bs ha hb
  rw [if_pos (by omega)] at t1
  obtain ⟨ab, r1, s1⟩ := t1
  obtain ⟨f2, t2⟩ := C17_pipe cls maxLen _ ab c (bs ++ as) cs s1 (hc.frame f1)
  rw [if_pos (by simp; omega)] at t2
  obtain ⟨abc, r2, s2⟩ := t2
  obtain ⟨f3, t3⟩ := C17_pipe cls maxLen h b c bs cs hb hc
  rw [if_pos (by omega)] at t3
  obtain ⟨bc, r3, s3⟩ := t3
  obtain ⟨f4, t4⟩ := C17_pipe cls maxLen _ a bc as (cs ++ bs) (ha.frame f3) s3
  rw [if_pos (by simp; omega)] at t4
  obtain ⟨abc', r4, s4⟩ := t4
  exact ⟨_, ab, _, abc, Prod.ext rfl r1, Prod.ext rfl r2, _, bc, _, abc', Prod.ext rfl r3,
    Prod.ext rfl r4, s2, s4⟩

/-- A fresh object without sub-conversions. -/
def atom (tag : P) : Node P := ⟨tag, 0, none, none, [], none, none, none, none, []⟩

/-- Class facts used in examples: tags are numbers. -/
def exCls : Cls Nat := ⟨100, 101, 102, fun n => 200 + n, 103, fun t => t == 101⟩

/-- **C17, the limit is not enforced**: with `max_pipe_length = 2` a chain of three stages is built
by one bracketing without any exception, while the other bracketing raises. -/
theorem C17_refuted_limit : ∃ (h : Heap Nat) (a b c : Nat),
    let ab := pipe exCls 2 h a b [] []
    let bc := pipe exCls 2 h b c [] []
    ab.2 = .ok 4 ∧ (pipe exCls 2 ab.1 4 c [] []).2 = .ok 7 ∧
    Stages (pipe exCls 2 ab.1 4 c [] []).1 7 [(atom 3).stage, (atom 2).stage, (atom 1).stage] ∧
    (∃ r, bc.2 = .ok r ∧ (pipe exCls 2 bc.1 a r [] []).2 = .error .failedToSetInput) := by
  refine ⟨⟨[atom 1, atom 2, atom 3], [], 3⟩, 0, 1, 2, rfl, rfl, ?_, ⟨_, rfl, rfl⟩⟩
  exact Stages.of_path (.step rfl rfl (.step rfl rfl (.last rfl rfl))) _ rfl

/-- The hypotheses of the associativity theorem hold for three single-stage conversions under the
default limit. -/
example : Stages (⟨[atom 1, atom 2, atom 3], [], 3⟩ : Heap Nat) 1 [(atom 2).stage] ∧
    1 + 1 ≤ 100 ∧ 1 + 1 < 100 := ⟨.first rfl rfl, by decide, by decide⟩

/-! ## C30 -/

/-- Specification: the meaning of a conversion is the tree reached from it: everything code
generation looks at.  `cut` marks the depth at which the unfolding is stopped; two conversions mean
the same if their unfoldings agree at every depth. -/
inductive Tree (P : Type) where
  | cut
  | dangling
  | node (tag : P) (pred : Option (Tree P)) (selfRef : Option (Tree P)) (args : List (Tree P))
      (cond : Option (Tree P)) (key : Option (Tree P)) (labels : List (String × Tree P))
      (name : Option String) (depTags : List (Option P))

/-- Unfolding to the given depth. -/
def meaning (h : Heap P) : Nat → Addr → Tree P
  | 0, _ => .cut
  | k + 1, a =>
    match h.nodes[a]? with
    | none => .dangling
    | some n => .node n.tag (n.pred.map (meaning h k)) (n.selfRef.map (meaning h k))
        (n.args.map (meaning h k)) (n.cond.map (meaning h k)) (n.key.map (meaning h k))
        ((n.labels.elim [] fun d => (h.dicts[d]?).getD []).map fun e => (e.1, meaning h k e.2))
        n.name (n.deps.map fun d => (h.nodes[d]?).map (·.tag))

theorem meaning_frame {h h' : Heap P} (hc : Closed h)
    (e : Ext h.nodes.length h.dicts.length h h') (k : Nat) :
    ∀ a, a < h.nodes.length → meaning h' k a = meaning h k a := by
  induction k with
  | zero => intro a _; rfl
  | succ k ih =>
    intro a ha
    simp only [meaning]
    rw [e.nodes a ha]
    cases hn : h.nodes[a]? with
    | none => rfl
    | some n =>
      obtain ⟨c1, c5, c6⟩ := hc a n hn
      have om : ∀ o : Option Nat, (∀ p, o = some p → p ∈ children h n) →
          o.map (meaning h' k) = o.map (meaning h k) := by
        intro o ho
        cases o with
        | none => rfl
        | some p => simp [ih p (c1 p (ho p rfl))]
      simp only
      rw [om n.pred (by intro p hp; simp [children, hp]),
        om n.selfRef (by intro p hp; simp [children, hp]),
        om n.cond (by intro p hp; simp [children, hp]),
        om n.key (by intro p hp; simp [children, hp])]
      congr 1
      · exact List.map_congr_left fun p hp => ih p (c1 p (by simp [children, hp]))
      · cases hl : n.labels with
        | none => rfl
        | some d =>
          simp only [Option.elim_some]
          rw [e.dicts d (c5 d hl)]
          apply List.map_congr_left
          intro x hx
          rw [ih x.2 (c1 x.2 ?_)]
          simp only [children, hl, Option.elim_some, List.mem_append, List.mem_map]
          exact .inr ⟨x, hx, rfl⟩
      · exact List.map_congr_left fun p hp => by rw [e.nodes p (c6 p hp)]

/-- Ways to derive a conversion from existing ones. -/
inductive Derivation (P : Type) where
  | construct (tag : P) (selfRef : Option Nat) (args : List Nat)   -- item, attr, call, and_, c.list...
  | method (tag : P) (self : Nat) (args : List Nat)                -- item, attr, call of a reduce
  | pipe (self next : Nat) (labelInput labelOutput : List (String × Option Nat))
  | pipeCallable (self f : Nat) (args : List Nat) (labelInput labelOutput : List (String × Option Nat))
  | passArgs (a : Nat) (args : List Nat)
  | filterComp (a cond : Nat)
  | sort (a : Nat) (key : Option Nat) (f : P → P)
  | baseFilter (a cond : Nat)

/-- One derivation. -/
def derive (cls : Cls P) (maxLen : Nat) (h : Heap P) : Derivation P → Res P Nat
  | .construct tag s args => let (h1, a) := construct h tag s args; (h1, .ok a)
  | .method tag s args => let (h1, a) := constructMethod h tag s args; (h1, .ok a)
  | .pipe s n li lo => pipe cls maxLen h s n li lo
  | .pipeCallable s f args li lo => pipeCallable cls maxLen h s f args li lo
  | .passArgs a args => passArgs maxLen h a args
  | .filterComp a c => filterComp maxLen h a c
  | .sort a key f => sort maxLen h a key f
  | .baseFilter a c => baseFilter cls maxLen h a c

theorem addLabel_ext {n m : Nat} (cls : Cls P) (h : Heap P) (a : Addr) (l : String)
    (c : Option Addr) (hn : n ≤ h.nodes.length) (ha : n ≤ a)
    (hd : ∀ nd d, h.nodes[a]? = some nd → nd.labels = some d → m ≤ d) :
    Ext n m h (addLabel cls h a l c).1 := by
  simp only [addLabel]
  split
  · exact Ext.refl _ _ _
  · rename_i nd hnd
    split
    · exact Ext.refl _ _ _
    · rename_i d hl
      have hmd := hd nd d hnd hl
      split
      · exact Ext.refl _ _ _
      · have hx : Ext n m h (labelConv cls h c).1 := by
          cases c with
          | some c => exact Ext.refl _ _ _
          | none => exact construct_ext h _ _ _ hn
        have h2 := hx.trans (dependsOn_ext (labelConv cls h c).1 (labelConv cls h c).2 ha)
        split
        · exact h2.trans (modify_ext _ _ ha)
        · refine h2.trans ⟨fun _ _ => rfl, fun i hi => ?_, Nat.le_refl _, by simp⟩
          have hdi : ¬ d = i := by omega
          simp [List.getElem?_modify, hdi]

theorem labelConv_ext (cls : Cls P) (h : Heap P) (c : Option Addr) :
    Ext h.nodes.length h.dicts.length h (labelConv cls h c).1 := by
  cases c with
  | some c => exact Ext.refl _ _ _
  | none => exact construct_ext h _ _ _ (Nat.le_refl _)

theorem addLabel_labels (cls : Cls P) (h : Heap P) (a : Addr) (l : String) (c : Option Addr)
    (h1 : Heap P) (r : Nat) (e : addLabel cls h a l c = (h1, .ok r)) :
    (h1.nodes[a]?).map (·.labels) = (h.nodes[a]?).map (·.labels) := by
  have dep : ∀ (h : Heap P) (b : Nat), ((dependsOn h a b).nodes[a]?).map (·.labels) =
      (h.nodes[a]?).map (·.labels) := by
    intro h b
    simp only [dependsOn, modify_nodes, if_true]
    cases h.nodes[a]? <;> rfl
  have md : ∀ (h : Heap P), ((modify h a fun n => { n with name := some l }).nodes[a]?).map
      (·.labels) = (h.nodes[a]?).map (·.labels) := by
    intro h
    simp only [modify_nodes, if_true]
    cases h.nodes[a]? <;> rfl
  simp only [addLabel] at e
  split at e
  · simp at e
  · rename_i nd hnd
    have hlt := (List.getElem?_eq_some_iff.1 hnd).1
    split at e
    · simp at e
    · split at e
      · simp at e
      · have hc := (labelConv_ext cls h c).nodes a hlt
        split at e <;> (obtain ⟨rfl, _⟩ := Prod.mk.inj e)
        · rw [md, dep, hc]
        · exact (dep _ _).trans (by rw [hc])

theorem addLabels_ext {n m : Nat} (cls : Cls P) (a : Addr) (ls : List (String × Option Addr)) :
    ∀ h : Heap P, n ≤ h.nodes.length → n ≤ a →
    (∀ nd d, h.nodes[a]? = some nd → nd.labels = some d → m ≤ d) →
    Ext n m h (addLabels cls h a ls).1 := by
  induction ls with
  | nil => intro h _ _ _; exact Ext.refl _ _ _
  | cons x ls ih =>
    intro h hn ha hd
    obtain ⟨l, c⟩ := x
    have e1 := addLabel_ext (m := m) cls h a l c hn ha hd
    simp only [addLabels]
    split
    · rename_i h1 r heq
      rw [heq] at e1
      refine e1.trans (ih h1 (Nat.le_trans hn e1.len) ha ?_)
      intro nd d h1n h1l
      have hk := addLabel_labels cls h a l c h1 r heq
      rw [h1n, Option.map_some, h1l] at hk
      obtain ⟨nd0, q1, q2⟩ := Option.map_eq_some_iff.1 hk.symm
      exact hd nd0 d q1 q2
    · rename_i h1 e heq
      rw [heq] at e1
      exact e1

theorem addLabels_ok (cls : Cls P) (a : Addr) (ls : List (String × Option Addr)) :
    ∀ (h h1 : Heap P) (r : Nat), addLabels cls h a ls = (h1, .ok r) → r = a := by
  induction ls with
  | nil => intro h h1 r e; simp [addLabels] at e; exact e.2.symm
  | cons x ls ih =>
    intro h h1 r e
    obtain ⟨l, c⟩ := x
    simp only [addLabels] at e
    split at e
    · exact ih _ _ _ e
    · simp at e

theorem mkCaching_ext {n m : Nat} (cls : Cls P) (h : Heap P) (a : Addr) (hn : n ≤ h.nodes.length)
    (hm : m ≤ h.dicts.length) : Ext n m h (mkCaching cls h a).1 := by
  simp only [mkCaching]
  have e1 := construct_ext (m := m) h cls.caching none [a] hn
  have e2 : Ext n m (construct h cls.caching none [a]).1
      (modify (construct h cls.caching none [a]).1 (construct h cls.caching none [a]).2
        fun n => { n with labels := some (construct h cls.caching none [a]).1.dicts.length }) :=
    modify_ext _ _ (by rw [construct_addr]; exact hn)
  refine (e1.trans e2).trans ⟨fun _ _ => rfl, fun i hi => ?_, Nat.le_refl _, by simp⟩
  simp only
  rw [List.getElem?_append_left]
  exact Nat.lt_of_lt_of_le hi (Nat.le_trans hm (e1.trans e2).dlen)

theorem mkCaching_addr (cls : Cls P) (h : Heap P) (a : Addr) :
    (mkCaching cls h a).2 = h.nodes.length := rfl

theorem mkCaching_labels (cls : Cls P) (h : Heap P) (a : Addr) (nd : Node P) (d : Nat)
    (h1 : (mkCaching cls h a).1.nodes[h.nodes.length]? = some nd) (h2 : nd.labels = some d) :
    h.dicts.length ≤ d := by
  simp only [mkCaching, construct_addr] at h1
  rw [modify_nodes, if_pos rfl] at h1
  obtain ⟨nd', _, rfl⟩ := Option.map_eq_some_iff.1 h1
  simp only [Option.some.injEq] at h2
  have := (construct_ext (n := 0) (m := 0) h cls.caching none [a] (Nat.zero_le _)).dlen
  omega

theorem mkCaching_path (cls : Cls P) (h : Heap P) (a : Addr) :
    Path (mkCaching cls h a).1 h.nodes.length [h.nodes.length] := by
  have hn : ∃ nd, (mkCaching cls h a).1.nodes[h.nodes.length]? = some nd ∧ nd.pred = none := by
    simp only [mkCaching, construct, alloc, Option.toList, List.nil_append, List.foldl_cons,
      List.foldl_nil, dependsOn, modify_nodes, if_true]
    simp
  obtain ⟨nd, h1, h2⟩ := hn
  exact .last h1 h2

/-- Labelling a fresh pipe end keeps old objects, and its result again has a fresh chain. -/
theorem labelled_ext {n m : Nat} (cls : Cls P) (h : Heap P) (a : Addr)
    (ls : List (String × Option Addr)) (hn : n ≤ h.nodes.length) (hm : m ≤ h.dicts.length) :
    Ext n m h (labelled cls h a ls).1 := by
  simp only [labelled]
  split
  · exact Ext.refl _ _ _
  · have e1 := mkCaching_ext cls h a hn hm
    refine e1.trans (addLabels_ext cls _ ls _ (Nat.le_trans hn e1.len) hn ?_)
    intro nd d q1 q2
    exact Nat.le_trans hm (mkCaching_labels cls h a nd d q1 q2)

theorem addLabel_pred (cls : Cls P) (h : Heap P) (a : Addr) (l : String) (c : Option Addr)
    (x : Nat) (hx : x < h.nodes.length) :
    ((addLabel cls h a l c).1.nodes[x]?).map (·.pred) = (h.nodes[x]?).map (·.pred) := by
  have md : ∀ (h : Heap P), ((modify h a fun n => { n with name := some l }).nodes[x]?).map
      (·.pred) = (h.nodes[x]?).map (·.pred) := by
    intro h
    simp only [modify_nodes]
    split
    · cases h.nodes[x]? <;> rfl
    · rfl
  simp only [addLabel]
  split
  · rfl
  · split
    · rfl
    · split
      · rfl
      · have hc := (labelConv_ext cls h c).nodes x hx
        split
        · rw [md, pred_dependsOn, hc]
        · exact (pred_dependsOn _ _ _ _).trans (by rw [hc])

theorem addLabels_pred (cls : Cls P) (a : Addr) (x : Nat) (ls : List (String × Option Addr)) :
    ∀ h : Heap P, x < h.nodes.length →
    ((addLabels cls h a ls).1.nodes[x]?).map (·.pred) = (h.nodes[x]?).map (·.pred) := by
  induction ls with
  | nil => intro h _; rfl
  | cons y ls ih =>
    intro h hx
    obtain ⟨l, c⟩ := y
    have e := addLabel_pred cls h a l c x hx
    have hl : x < (addLabel cls h a l c).1.nodes.length := by
      obtain ⟨nd, hnd⟩ : ∃ nd, h.nodes[x]? = some nd := ⟨_, List.getElem?_eq_getElem hx⟩
      rw [hnd, Option.map_some] at e
      obtain ⟨nd', h', _⟩ := Option.map_eq_some_iff.1 e
      exact (List.getElem?_eq_some_iff.1 h').1
    simp only [addLabels]
    split
    · rename_i h1 r heq
      rw [heq] at e hl
      rw [ih h1 hl, e]
    · rename_i h1 r heq
      rw [heq] at e
      exact e

theorem labelled_fresh {n : Nat} (cls : Cls P) (h h1 : Heap P) (a r : Addr)
    (ls : List (String × Option Addr)) (hn : n ≤ h.nodes.length)
    (hf : ∃ rs, Path h a rs ∧ ∀ x ∈ rs, n ≤ x) (e : labelled cls h a ls = (h1, .ok r)) :
    ∃ rs, Path h1 r rs ∧ ∀ x ∈ rs, n ≤ x := by
  simp only [labelled] at e
  split at e
  · simp only [Prod.mk.injEq, Except.ok.injEq] at e
    obtain ⟨rfl, rfl⟩ := e
    exact hf
  · have hr := addLabels_ok cls _ ls _ _ _ e
    rw [mkCaching_addr] at hr
    subst hr
    have hp := mkCaching_path cls h a
    refine ⟨_, hp.congr (h' := h1) ?_, by simpa using hn⟩
    intro x hx
    have := addLabels_pred cls (mkCaching cls h a).2 x ls (mkCaching cls h a).1 (hp.lt x hx)
    rw [e] at this
    exact this

theorem setPredefinedInput_fst (maxLen : Nat) (h : Heap P) (a inp : Addr) :
    (setPredefinedInput maxLen h a inp).1 = (setInputLoop inp (maxLen - 1) h a).1 := by
  simp only [setPredefinedInput]
  split <;> simp_all

theorem setPredefinedInput_ext {n m : Nat} (maxLen : Nat) (h : Heap P) (a inp : Addr)
    (hf : ∃ rs, Path h a rs ∧ ∀ x ∈ rs, n ≤ x) :
    Ext n m h (setPredefinedInput maxLen h a inp).1 := by
  obtain ⟨rs, p, hn⟩ := hf
  rw [setPredefinedInput_fst]
  exact setInputLoop_ext inp (maxLen - 1) h a rs p hn

theorem filterComp_ext {n m : Nat} (maxLen : Nat) (h : Heap P) (a c : Addr)
    (hn : n ≤ h.nodes.length) : Ext n m h (filterComp maxLen h a c).1 := by
  have e1 := clone_ext (m := m) maxLen h a hn
  simp only [filterComp]
  split
  · rename_i heq; rw [heq] at e1; exact e1
  · rename_i h1 r heq
    rw [heq] at e1
    have hr := (clone_fresh maxLen h h1 a r hn heq).2
    exact e1.trans ((dependsOn_ext h1 c hr).trans (modify_ext _ _ hr))

/-- Every derivation only adds objects. -/
theorem derive_ext {n m : Nat} (cls : Cls P) (maxLen : Nat) (h : Heap P) (d : Derivation P)
    (hn : n ≤ h.nodes.length) (hm : m ≤ h.dicts.length) : Ext n m h (derive cls maxLen h d).1 := by
  cases d with
  | construct tag s args => exact construct_ext h tag s args hn
  | method tag s args => exact (construct_ext h tag (some s) args hn).trans (modify_ext _ _ hn)
  | pipe s nx li lo =>
    simp only [derive, pipe]
    have e1 := clone_ext (m := m) maxLen h s hn
    split
    · rename_i heq; rw [heq] at e1; exact e1
    · rename_i h1 s1 q1
      rw [q1] at e1
      have n1 := Nat.le_trans hn e1.len
      have e2 := labelled_ext cls h1 s1 li n1 (Nat.le_trans hm e1.dlen)
      split
      · rename_i heq; rw [heq] at e2; exact e1.trans e2
      · rename_i h2 s2 q2
        rw [q2] at e2
        have n2 := Nat.le_trans n1 e2.len
        have e3 := clone_ext (m := m) maxLen h2 nx n2
        split
        · rename_i heq; rw [heq] at e3; exact (e1.trans e2).trans e3
        · rename_i h3 r q3
          rw [q3] at e3
          have n3 := Nat.le_trans n2 e3.len
          have e4 := labelled_ext cls h3 r lo n3
            (Nat.le_trans hm ((e1.trans e2).trans e3).dlen)
          split
          · rename_i heq; rw [heq] at e4; exact ((e1.trans e2).trans e3).trans e4
          · rename_i h4 r' q4
            have f3 := (clone_fresh maxLen h2 h3 nx r n2 q3).1
            have f4 := labelled_fresh cls h3 h4 r r' lo n3 f3 q4
            rw [q4] at e4
            exact (((e1.trans e2).trans e3).trans e4).trans (setPredefinedInput_ext _ _ _ _ f4)
  | pipeCallable s f args li lo =>
    simp only [derive, pipeCallable]
    have e1 := clone_ext (m := m) maxLen h s hn
    split
    · rename_i heq; rw [heq] at e1; exact e1
    · rename_i h1 s1 q1
      rw [q1] at e1
      have n1 := Nat.le_trans hn e1.len
      have e2 := labelled_ext cls h1 s1 li n1 (Nat.le_trans hm e1.dlen)
      split
      · rename_i heq; rw [heq] at e2; exact e1.trans e2
      · rename_i h2 s2 q2
        rw [q2] at e2
        have n2 := Nat.le_trans n1 e2.len
        have e3 := construct_ext (m := m) h2 (cls.naive f) none [] n2
        have n3 := Nat.le_trans n2 e3.len
        have e4 := clone_ext (m := m) maxLen (construct h2 (cls.naive f) none []).1
          (construct h2 (cls.naive f) none []).2 n3
        split
        · rename_i heq
          have heq' : clone maxLen (construct h2 (cls.naive f) none []).1
            (construct h2 (cls.naive f) none []).2 = _ := heq
          rw [heq'] at e4
          exact ((e1.trans e2).trans e3).trans e4
        · rename_i h4 fn q4
          have q4' : clone maxLen (construct h2 (cls.naive f) none []).1
            (construct h2 (cls.naive f) none []).2 = _ := q4
          rw [q4'] at e4
          have e14 := ((e1.trans e2).trans e3).trans e4
          have n4 := Nat.le_trans hn e14.len
          have e5 := construct_ext (m := m) h4 cls.call (some fn) (s2 :: args) n4
          exact (e14.trans e5).trans (labelled_ext cls _ _ lo (Nat.le_trans n4 e5.len)
            (Nat.le_trans hm (e14.trans e5).dlen))
  | passArgs a args =>
    have e1 := clone_ext (m := m) maxLen h a hn
    simp only [derive, passArgs]
    split
    · rename_i heq; rw [heq] at e1; exact e1
    · rename_i h1 r heq
      rw [heq] at e1
      have hr := (clone_fresh maxLen h h1 a r hn heq).2
      exact e1.trans ((foldl_dependsOn_ext hr args h1).trans (modify_ext _ _ hr))
  | filterComp a c => exact filterComp_ext maxLen h a c hn
  | sort a key f =>
    have e1 := clone_ext (m := m) maxLen h a hn
    simp only [derive, sort]
    split
    · rename_i heq; rw [heq] at e1; exact e1
    · rename_i h1 r heq
      rw [heq] at e1
      have hr := (clone_fresh maxLen h h1 a r hn heq).2
      exact e1.trans (modify_ext _ _ hr)
  | baseFilter a c =>
    simp only [derive, baseFilter]
    have e1 := construct_ext (m := m) h cls.bareItem none [] hn
    have n1 := Nat.le_trans hn e1.len
    have e2 := construct_ext (m := m) (construct h cls.bareItem none []).1 cls.genComp none
      [(construct h cls.bareItem none []).2] n1
    have n2 := Nat.le_trans n1 e2.len
    have hf : ∃ rs, Path (construct (construct h cls.bareItem none []).1 cls.genComp none
        [(construct h cls.bareItem none []).2]).1 (construct (construct h cls.bareItem none []).1
        cls.genComp none [(construct h cls.bareItem none []).2]).2 rs ∧ ∀ x ∈ rs, n ≤ x := by
      refine ⟨[(construct h cls.bareItem none []).1.nodes.length], ?_, ?_⟩
      · have hnode : ∃ nd, (construct (construct h cls.bareItem none []).1 cls.genComp none
            [(construct h cls.bareItem none []).2]).1.nodes[(construct
            (construct h cls.bareItem none []).1 cls.genComp none
            [(construct h cls.bareItem none []).2]).2]? = some nd ∧ nd.pred = none := by
          simp [construct, alloc, dependsOn, modify_nodes]
        obtain ⟨nd, p1, p2⟩ := hnode
        exact .last p1 p2
      · simpa using n1
    have e3 := setPredefinedInput_ext (m := m) maxLen _ _ a hf
    split
    · rename_i heq
      have heq' : setPredefinedInput maxLen (construct (construct h cls.bareItem none []).1
        cls.genComp none [(construct h cls.bareItem none []).2]).1 _ a = _ := heq
      rw [heq'] at e3
      exact (e1.trans e2).trans e3
    · rename_i h3 g heq
      have heq' : setPredefinedInput maxLen (construct (construct h cls.bareItem none []).1
        cls.genComp none [(construct h cls.bareItem none []).2]).1 _ a = _ := heq
      rw [heq'] at e3
      exact ((e1.trans e2).trans e3).trans
        (filterComp_ext maxLen h3 g c (Nat.le_trans n2 e3.len))

/-- A sequence of derivations, some of which may raise; addresses may refer to anything built
before. -/
def deriveAll (cls : Cls P) (maxLen : Nat) (h : Heap P) (ds : List (Derivation P)) : Heap P :=
  ds.foldl (fun h d => (derive cls maxLen h d).1) h

/-- **C30, partial** (full statement: for all derivations; `Reduce.filter`, `add_label` on a
labelled conversion and `GroupBy.aggregate` are refuted below): any sequence of
constructions, pipes (with or without labels, to conversions or callables), `pass_args`,
comprehension filters, sorts and `filter` calls — also failing ones — leaves every conversion built
before with the same meaning. -/
theorem C30_originals_kept_partial (cls : Cls P) (maxLen : Nat) (h : Heap P) (hc : Closed h)
    (ds : List (Derivation P)) (k : Nat) (a : Addr) (ha : a < h.nodes.length) :
    meaning (deriveAll cls maxLen h ds) k a = meaning h k a := by
  have key : ∀ (ds : List (Derivation P)) (h1 : Heap P), Ext h.nodes.length h.dicts.length h h1 →
      Ext h.nodes.length h.dicts.length h (deriveAll cls maxLen h1 ds) := by
    intro ds
    induction ds with
    | nil => intro h1 e; exact e
    | cons d ds ih =>
      intro h1 e
      exact ih _ (e.trans (derive_ext cls maxLen h1 d e.len e.dlen))
  exact meaning_frame hc (key ds h (Ext.refl _ _ _)) k a ha

/-- A closed heap with a labelled two-stage conversion exists and derivations do change the heap. -/
example : let h : Heap Nat := ⟨[atom 1, atom 2], [], 2⟩
    Closed h ∧ (deriveAll exCls 100 h [.pipe 0 1 [("x", none)] [], .filterComp 0 1]).nodes.length = 7
    := by
  refine ⟨?_, by decide⟩
  intro i n hn
  match i, hn with
  | 0, hn => cases hn; simp [atom, children]
  | 1, hn => cases hn; simp [atom, children]

/-- **C30 is violated by `Reduce.filter`**: the reduce it is called on is changed itself. -/
theorem C30_refuted_reduce_filter : ∃ h : Heap Nat,
    meaning (reduceFilter h 0 1).1 2 0 ≠ meaning h 2 0 := by
  refine ⟨⟨[atom 1, atom 2], [], 2⟩, ?_⟩
  simp [meaning, reduceFilter, dependsOn, modify, atom, dependencies]

/-- The labels put on the input of a stage. -/
def Tree.inputLabels : Tree P → List String
  | .node _ (some (.node _ _ _ _ _ _ ls _ _)) _ _ _ _ _ _ _ => ls.map Prod.fst
  | _ => []

/-- **C30 is violated by `CachingConversion.add_label`**: a labelled conversion `k` (address 3) is
piped further, which clones it; a label added to the original afterwards shows up in the piped
conversion (address 5 is the first stage of the result) because both share one dict. -/
theorem C30_refuted_add_label : ∃ (h : Heap Nat) (r : Nat),
    let piped := pipe exCls 100 h 3 2 [] []
    piped.2 = .ok r ∧
    let after := addLabel exCls piped.1 3 "late" (some 1)
    after.2 = .ok 3 ∧ meaning after.1 3 r ≠ meaning piped.1 3 r := by
  refine ⟨(labelled exCls ⟨[atom 1, atom 2, atom 3], [], 3⟩ 0 [("x", some 1)]).1, 5, rfl, rfl, ?_⟩
  intro h
  exact absurd (congrArg Tree.inputLabels h) (by decide)

/-- **C30 is violated by `GroupBy.aggregate`**: it registers the reducer as a dependency of the
conversion it is called on, so everything aggregated from the same `group_by` later on inherits the
input arguments of this reducer. -/
theorem C30_refuted_aggregate : ∃ h : Heap Nat,
    (aggregate 100 h 0 1).2 = .ok 3 ∧
    meaning (aggregate 100 h 0 1).1 1 0 ≠ meaning h 1 0 ∧
    -- a second aggregation, with a reducer that does not refer to reducer 1
    let second := aggregate 100 (aggregate 100 h 0 1).1 0 2
    second.2 = .ok 4 ∧ 1 ∈ dependencies second.1 4 ∧ 1 ∉ dependencies h 2 := by
  refine ⟨⟨[atom 1, atom 2, atom 3], [], 3⟩, rfl, ?_, rfl, ?_, ?_⟩
  · simp [meaning, aggregate, clone, cloneOne, cloneLoop, alloc, dependsOn, modify, atom,
      dependencies]
  · decide
  · decide

/-! ## C29 -/

theorem modify_modify_pred (h : Heap P) (a : Addr) :
    modify (modify h a fun n => { n with pred := none }) a
      (fun n => { n with pred := (h.nodes[a]?).bind (·.pred) }) = h := by
  obtain ⟨nodes, dicts, counter⟩ := h
  simp only [modify, Heap.mk.injEq, and_true]
  apply List.ext_getElem?
  intro i
  simp only [List.getElem?_modify]
  by_cases hi : a = i
  · subst hi
    simp only [if_true]
    cases hn : nodes[a]? with
    | none => simp
    | some n => simp
  · simp [hi]

/-- One stage, if generating its code leaves the objects alone. -/
theorem genStage_ok {C : Type} (gen : Heap P → Addr → Res P C) (hg : ∀ h a, (gen h a).1 = h)
    (h h1 : Heap P) (x : Addr) (c : C) (q : genStage gen h x = (h1, .ok c)) :
    h1 = h ∧ (gen (modify h x fun n => { n with pred := none }) x).2 = .ok c := by
  simp only [genStage] at q
  have hx := hg (modify h x fun n => { n with pred := none }) x
  split at q
  · simp at q
  · rename_i h2 c' e
    simp only [Prod.mk.injEq, Except.ok.injEq] at q
    rw [e] at hx ⊢
    simp only at hx
    subst hx
    exact ⟨by rw [← q.1, modify_modify_pred], by rw [← q.2]⟩

/-- **C29, partial** (full statement: also for sorted comprehensions, after failures and under
concurrent compilation, refuted below): if generating the code of a stage leaves the objects alone,
a successful compilation leaves the whole heap as it was; hence compiling again gives the same
codes. -/
theorem C29_success_partial {C : Type} (gen : Heap P → Addr → Res P C)
    (hg : ∀ h a, (gen h a).1 = h) (h h' : Heap P)
    (a : Addr) (codes : List C) (e : genConverter gen h a = (h', .ok codes)) :
    h' = h ∧ genConverter gen h' a = (h', .ok codes) := by
  have key : ∀ (as : List Addr) (h h' : Heap P) (codes : List C),
      genStages gen h as = (h', .ok codes) → h' = h := by
    intro as
    induction as with
    | nil => intro h h' codes e; simp [genStages] at e; exact e.1.symm
    | cons x as ih =>
      intro h h' codes e
      simp only [genStages] at e
      split at e
      · simp at e
      · rename_i h1 c q
        obtain ⟨rfl, _⟩ := genStage_ok gen hg h h1 x c q
        split at e
        · simp at e
        · rename_i h2 cs q2
          simp only [Prod.mk.injEq, Except.ok.injEq] at e
          obtain ⟨rfl, rfl⟩ := e
          exact ih _ _ _ q2
  have hh := key _ _ _ _ e
  subst hh
  exact ⟨rfl, e⟩

/-- **C29, the codes, partial** (as above): the codes of a compilation are those of the stages of the
chain, first stage first, each generated once, from the unchanged heap in which only the input of the
very stage is hidden. -/
theorem C29_codes_partial {C : Type} (gen : Heap P → Addr → Res P C)
    (hg : ∀ h a, (gen h a).1 = h) (h h' : Heap P) (a : Addr) (as : List Addr) (hp : Path h a as)
    (codes : List C)
    (e : genConverter gen h a = (h', .ok codes)) :
    as.reverse.map (fun x => (gen (modify h x fun n => { n with pred := none }) x).2) =
      codes.map .ok := by
  have hcol : ∀ (k : Nat) (a : Addr) (as : List Addr), Path h a as → as.length ≤ k + 1 →
      collect h k a = as := by
    intro k
    induction k with
    | zero =>
      intro a as p hk
      cases p with
      | last h1 h2 => rfl
      | step h1 h2 p =>
        have := p.ne_nil
        rename_i nd b bs
        cases bs with
        | nil => exact absurd rfl this
        | cons b bs => simp at hk
    | succ k ih =>
      intro a as p hk
      cases p with
      | last h1 h2 => simp [collect, h1, h2]
      | step h1 h2 p =>
        simp only [collect, h1, Option.bind_some, h2]
        rw [ih _ _ p (by simpa using hk)]
  have key : ∀ (as : List Addr) (h' : Heap P) (codes : List C),
      genStages gen h as = (h', .ok codes) →
      as.map (fun x => (gen (modify h x fun n => { n with pred := none }) x).2) =
        codes.map .ok := by
    intro as
    induction as with
    | nil => intro h' codes e; simp [genStages] at e; simp [e.2]
    | cons x as ih =>
      intro h' codes e
      simp only [genStages] at e
      split at e
      · simp at e
      · rename_i h1 c q
        obtain ⟨hh, hc⟩ := genStage_ok gen hg h h1 x c q
        rw [hh] at e
        split at e
        · simp at e
        · rename_i h2 cs q2
          simp only [Prod.mk.injEq, Except.ok.injEq] at e
          obtain ⟨rfl, rfl⟩ := e
          simp only [List.map_cons, hc, ih _ _ q2]
  simp only [genConverter] at e
  rw [hcol _ _ _ hp (Nat.le_succ_of_le hp.length_le)] at e
  exact key _ _ _ e

/-- Objects only grew: all attributes but `_depends_on` are as before, dependencies were only added,
new objects may exist. -/
structure Grown (h h' : Heap P) : Prop where
  nodes : ∀ (i : Nat) n, h.nodes[i]? = some n →
    ∃ more, h'.nodes[i]? = some { n with deps := n.deps ++ more }
  dicts : ∀ (i : Nat) d, h.dicts[i]? = some d → h'.dicts[i]? = some d

/-- **C29 for code generation that registers dependencies, partial** (the dependencies themselves
change, refuted below): a successful compilation leaves everything but the registered dependencies
of the objects as it was. -/
theorem C29_grown_partial {C : Type} (gen : Heap P → Addr → Res P C)
    (hg : ∀ h a, Grown h (gen h a).1) (h h' : Heap P)
    (a : Addr) (codes : List C) (e : genConverter gen h a = (h', .ok codes)) : Grown h h' := by
  have stage : ∀ (h h1 : Heap P) (x : Addr) (c : C), genStage gen h x = (h1, .ok c) →
      Grown h h1 := by
    intro h h1 x c q
    simp only [genStage] at q
    have hx := hg (modify h x fun n => { n with pred := none }) x
    split at q
    · simp at q
    · rename_i h2 c' e
      simp only [Prod.mk.injEq, Except.ok.injEq] at q
      rw [e] at hx
      obtain ⟨rfl, -⟩ := q
      constructor
      · intro i n hn
        by_cases hi : i = x
        · subst hi
          obtain ⟨more, hm⟩ := hx.nodes i { n with pred := none } (by
            rw [modify_nodes, if_pos rfl, hn]; rfl)
          refine ⟨more, ?_⟩
          rw [modify_nodes, if_pos rfl, hm, hn]
          rfl
        · have hi' : ¬ x = i := fun e => hi e.symm
          obtain ⟨more, hm⟩ := hx.nodes i n (by rw [modify_nodes, if_neg hi', hn])
          exact ⟨more, by rw [modify_nodes, if_neg hi', hm]⟩
      · intro i d hd
        exact hx.dicts i d hd
  have key : ∀ (as : List Addr) (h h' : Heap P) (codes : List C),
      genStages gen h as = (h', .ok codes) → Grown h h' := by
    intro as
    induction as with
    | nil =>
      intro h h' codes e
      simp [genStages] at e
      rw [← e.1]
      exact ⟨fun i n hn => ⟨[], by simpa using hn⟩, fun _ _ hd => hd⟩
    | cons x as ih =>
      intro h h' codes e
      simp only [genStages] at e
      split at e
      · simp at e
      · rename_i h1 c q
        have g1 := stage h h1 x c q
        split at e
        · simp at e
        · rename_i h2 cs q2
          simp only [Prod.mk.injEq, Except.ok.injEq] at e
          obtain ⟨rfl, rfl⟩ := e
          have g2 := ih _ _ _ q2
          refine ⟨fun i n hn => ?_, fun i d hd => g2.dicts i d (g1.dicts i d hd)⟩
          obtain ⟨m1, e1⟩ := g1.nodes i n hn
          obtain ⟨m2, e2⟩ := g2.nodes i _ e1
          exact ⟨m1 ++ m2, by rw [e2]; simp⟩
  exact key _ _ _ _ e

/-- **C29, exact damage of a failed compilation** (for code generation that leaves the objects
alone): exactly one object of the chain lost its `_predefined_input` (unless it had none). -/
theorem C29_failure_partial {C : Type} (gen : Heap P → Addr → Res P C)
    (hg : ∀ h a, (gen h a).1 = h) (h h' : Heap P)
    (a : Addr) (x : Exc) (e : genConverter gen h a = (h', .error x)) :
    ∃ b ∈ collect h h.nodes.length a, h' = modify h b fun n => { n with pred := none } := by
  have key : ∀ (as : List Addr) (h h' : Heap P), genStages gen h as = (h', .error x) →
      ∃ b ∈ as, h' = modify h b fun n => { n with pred := none } := by
    intro as
    induction as with
    | nil => intro h h' e; simp [genStages] at e
    | cons y as ih =>
      intro h h' e
      simp only [genStages] at e
      split at e
      · rename_i h1 c q
        simp only [genStage] at q
        have hx := hg (modify h y fun n => { n with pred := none }) y
        split at q
        · rename_i h2 e2 q2
          rw [q2] at hx
          simp only [Prod.mk.injEq] at q e
          exact ⟨y, by simp, by rw [← e.1, ← q.1]; exact hx⟩
        · simp at q
      · rename_i h1 c q
        obtain ⟨rfl, _⟩ := genStage_ok gen hg h h1 y c q
        split at e
        · rename_i h2 x' q2
          simp only [Prod.mk.injEq, Except.error.injEq] at e
          obtain ⟨rfl, rfl⟩ := e
          obtain ⟨b, hb, hb'⟩ := ih _ _ q2
          exact ⟨b, List.mem_cons_of_mem _ hb, hb'⟩
        · simp at e
  obtain ⟨b, hb, hb'⟩ := key _ _ _ e
  exact ⟨b, List.mem_reverse.1 hb, hb'⟩

/-- The code of a stage in examples: its tag; tag 13 cannot be compiled. -/
def exGen (h : Heap Nat) (a : Nat) : Res Nat (Nat × Bool) :=
  (h, match h.nodes[a]? with
    | some n => if n.tag = 13 then .error .genFailed else .ok (n.tag, n.pred.isSome)
    | none => .error .dangling)

/-- Code generation in examples with sorting: tag 150 is a sorted comprehension. -/
def exGenSorted (h : Heap Nat) (a : Nat) : Res Nat Nat :=
  match h.nodes[a]? with
  | some n => (if n.tag = 150 then registerSort exCls h a else h, .ok n.tag)
  | none => (h, .error .dangling)

/-- The hypothesis of the growth theorem holds for code generation that registers sort keys. -/
theorem registerSort_grown (cls : Cls P) (h : Heap P) (a : Addr) : Grown h (registerSort cls h a) := by
  have dep : ∀ (h : Heap P) (b : Addr), Grown h (dependsOn h a b) := by
    intro h b
    refine ⟨fun i n hn => ?_, fun _ _ hd => hd⟩
    simp only [dependsOn, modify_nodes]
    split
    · exact ⟨dependencies h b, by rw [hn]; rfl⟩
    · exact ⟨[], by rw [hn]; simp⟩
  have con : ∀ (h : Heap P) (t : P), Grown h (construct h t none []).1 := by
    intro h t
    refine ⟨fun i n hn => ⟨[], ?_⟩, fun _ _ hd => hd⟩
    have := (construct_ext (n := h.nodes.length) (m := 0) h t none [] (Nat.le_refl _)).nodes i
      (List.getElem?_eq_some_iff.1 hn).1
    rw [this, hn]
    simp
  have tr : ∀ {h1 h2 h3 : Heap P}, Grown h1 h2 → Grown h2 h3 → Grown h1 h3 := by
    intro h1 h2 h3 g1 g2
    refine ⟨fun i n hn => ?_, fun i d hd => g2.dicts i d (g1.dicts i d hd)⟩
    obtain ⟨m1, e1⟩ := g1.nodes i n hn
    obtain ⟨m2, e2⟩ := g2.nodes i _ e1
    exact ⟨m1 ++ m2, by rw [e2]; simp⟩
  simp only [registerSort]
  split
  · exact tr (dep _ _) (tr (con _ _) (dep _ _))
  · exact tr (con _ _) (tr (dep _ _) (tr (con _ _) (dep _ _)))

/-- **C29 is violated by sorted comprehensions**: `c.list_comp(..).sort(key=c.input_arg("f"))`
(address 2, the argument is address 0).  Compiling it registers the key as a dependency: the
argument is not among the dependencies — hence not in the signature — the first time, but it is when
the same conversion is compiled again.  Each compilation adds dependencies. -/
theorem C29_refuted_sorted : ∃ h : Heap Nat,
    let one := genConverter exGenSorted h 2
    let two := genConverter exGenSorted one.1 2
    one.2 = .ok [150] ∧ two.2 = .ok [150] ∧
    0 ∉ dependencies h 2 ∧ 0 ∈ dependencies one.1 2 ∧
    (dependencies h 2).length < (dependencies one.1 2).length ∧
    (dependencies one.1 2).length < (dependencies two.1 2).length := by
  refine ⟨(sort 100 ⟨[atom 5, atom 6], [], 2⟩ 1 (some 0) (fun _ => 150)).1, ?_⟩
  decide

/-- **C29 is violated by failures**: compiling the chain `item -> bad` fails in the second stage;
afterwards the chain of the conversion consists of `bad` alone: the first stage is lost. -/
theorem C29_refuted_failure : ∃ h : Heap Nat,
    let r := genConverter exGen h 1
    r.2 = .error .genFailed ∧
    Stages h 1 [(atom 13).stage, (atom 7).stage] ∧ Stages r.1 1 [(atom 13).stage] := by
  refine ⟨⟨[atom 7, { atom 13 with pred := some 0 }], [], 2⟩, rfl, ?_, ?_⟩
  · exact Stages.of_path (.step rfl rfl (.last rfl rfl)) _ rfl
  · exact Stages.of_path (.last rfl rfl) _ rfl

/-- **C29 is violated by concurrent compilation**: two threads compile the same two-stage
conversion; the second one sees the chain while the first one has removed the input temporarily.
It produces the code of the last stage only, and in the end the first stage is lost for good. -/
theorem C29_refuted_threads : ∃ (h : Heap Nat) (sch : List Bool) (h' : Heap Nat),
    Stages h 1 [(atom 8).stage, (atom 7).stage] ∧
    runTwo exGen sch (h, .collecting 1 [1], .collecting 1 [1]) =
      (h', .done [(7, false), (8, false)], .done [(8, false)]) ∧
    Stages h' 1 [(atom 8).stage] := by
  refine ⟨⟨[atom 7, { atom 8 with pred := some 0 }], [], 2⟩,
    [false, false, false, false, false, false,   -- first thread: collect, stage 0
     false, false,                               -- saves and clears the input of stage 1
     true, true, true, true,                     -- second thread: collects [1] only, generates
     false, false, false,                        -- first thread: generates, restores, done
     true, true], _, ?_, rfl, ?_⟩                -- second: "restores" none, done
  · exact Stages.of_path (.step rfl rfl (.last rfl rfl)) _ rfl
  · exact Stages.of_path (.last rfl rfl) _ rfl

end Verif.Heap
