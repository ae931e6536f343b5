import Verif.Heap.Props2
import Mathlib.Data.List.Nodup
/-!
# C53: labels and numbers of conversion objects
-/
set_option autoImplicit false

namespace Verif.Heap

variable {P : Type}

local notation "Addr" => Nat

/-! ## Numbers -/

/-- Specification: no two objects have the same number, and the counter is ahead of all of them. -/
def Numbered (h : Heap P) : Prop :=
  (h.nodes.map (·.number)).Nodup ∧ ∀ n ∈ h.nodes, n.number < h.counter

theorem Numbered.alloc {h : Heap P} (u : Numbered h) (n : Node P) : Numbered (alloc h n).1 := by
  obtain ⟨h1, h2⟩ := u
  constructor
  · simp only [Heap.alloc, List.map_append, List.map_cons, List.map_nil]
    rw [List.nodup_append]
    refine ⟨h1, by simp, ?_⟩
    intro x hx y hy e
    obtain ⟨m, hm, rfl⟩ := List.mem_map.1 hx
    rw [List.mem_singleton.1 hy] at e
    exact absurd e (Nat.ne_of_lt (h2 m hm))
  · intro m hm
    simp only [Heap.alloc, List.mem_append, List.mem_singleton] at hm
    rcases hm with hm | rfl
    · exact Nat.lt_succ_of_lt (h2 m hm)
    · exact Nat.lt_succ_self _

theorem Numbered.modify {h : Heap P} (u : Numbered h) (a : Addr) (f : Node P → Node P)
    (hf : ∀ n, (f n).number = n.number) : Numbered (modify h a f) := by
  have e : (Heap.modify h a f).nodes.map (·.number) = h.nodes.map (·.number) := by
    apply List.ext_getElem?
    intro i
    simp only [Heap.modify, List.getElem?_map, List.getElem?_modify]
    cases h.nodes[i]? with
    | none => rfl
    | some n => by_cases q : a = i <;> simp [q, hf]
  obtain ⟨h1, h2⟩ := u
  refine ⟨by rw [e]; exact h1, fun n hn => ?_⟩
  have : n.number ∈ h.nodes.map (·.number) := e ▸ List.mem_map_of_mem hn
  obtain ⟨m, hm, q⟩ := List.mem_map.1 this
  rw [← q]
  exact h2 m hm

theorem Numbered.dicts {h : Heap P} (u : Numbered h) (ds : List (List (String × Addr))) :
    Numbered { h with dicts := ds } := u

theorem Numbered.dependsOn {h : Heap P} (u : Numbered h) (a b : Addr) :
    Numbered (dependsOn h a b) := u.modify _ _ fun _ => rfl

theorem Numbered.foldDeps {a : Addr} (bs : List Addr) : ∀ {h : Heap P}, Numbered h →
    Numbered (bs.foldl (fun h b => Heap.dependsOn h a b) h) := by
  induction bs with
  | nil => intro h u; exact u
  | cons b bs ih => intro h u; exact ih (u.dependsOn a b)

theorem Numbered.construct {h : Heap P} (u : Numbered h) (t : P) (s : Option Addr)
    (args : List Addr) : Numbered (construct h t s args).1 := (u.alloc _).foldDeps _

theorem Numbered.cloneLoop (k : Nat) : ∀ {h : Heap P} (a : Addr), Numbered h →
    Numbered (cloneLoop k h a).1 := by
  induction k with
  | zero => intro h a u; exact u
  | succ k ih =>
    intro h a u
    simp only [Heap.cloneLoop]
    split
    · exact u
    · split
      · exact u
      · split
        · exact u
        · rename_i h1 p' hcl
          obtain ⟨np, _, e'⟩ := cloneOne_some hcl
          rw [show h1 = (Heap.alloc h np).1 from congrArg Prod.fst e']
          exact ih _ ((u.alloc np).modify _ _ fun _ => rfl)

theorem Numbered.clone {h : Heap P} (u : Numbered h) (k : Nat) (a : Addr) :
    Numbered (clone k h a).1 := by
  simp only [Heap.clone]
  split
  · exact u
  · rename_i h1 r hcl
    obtain ⟨np, _, e'⟩ := cloneOne_some hcl
    have := (u.alloc np).cloneLoop k r
    rw [← show h1 = (Heap.alloc h np).1 from congrArg Prod.fst e'] at this
    split <;> simp_all

theorem Numbered.setInputLoop (inp : Addr) (k : Nat) : ∀ {h : Heap P} (a : Addr), Numbered h →
    Numbered (setInputLoop inp k h a).1 := by
  induction k with
  | zero => intro h a u; exact u
  | succ k ih =>
    intro h a u
    simp only [Heap.setInputLoop]
    split
    · exact u
    · split
      · exact (u.dependsOn a inp).modify _ _ fun _ => rfl
      · exact ih _ (u.dependsOn a inp)

theorem Numbered.setPredefinedInput {h : Heap P} (u : Numbered h) (k : Nat) (a inp : Addr) :
    Numbered (setPredefinedInput k h a inp).1 := by
  rw [setPredefinedInput_heap]
  exact u.setInputLoop inp _ a

theorem Numbered.addLabel {h : Heap P} (u : Numbered h) (cls : Cls P) (a : Addr) (l : String)
    (c : Option Addr) : Numbered (addLabel cls h a l c).1 := by
  have hl : Numbered (labelConv cls h c).1 := by
    cases c with
    | some c => exact u
    | none => exact u.construct _ _ _
  simp only [Heap.addLabel]
  split
  · exact u
  · split
    · exact u
    · split
      · exact u
      · split
        · exact (hl.dependsOn _ _).modify _ _ fun _ => rfl
        · exact (hl.dependsOn _ _).dicts _

theorem Numbered.addLabels (cls : Cls P) (a : Addr) (ls : List (String × Option Addr)) :
    ∀ {h : Heap P}, Numbered h → Numbered (addLabels cls h a ls).1 := by
  induction ls with
  | nil => intro h u; exact u
  | cons e ls ih =>
    intro h u
    obtain ⟨l, c⟩ := e
    have := u.addLabel cls a l c
    simp only [Heap.addLabels]
    split
    · rename_i heq; rw [heq] at this; exact ih this
    · rename_i heq; rw [heq] at this; exact this

theorem Numbered.labelled {h : Heap P} (u : Numbered h) (cls : Cls P) (a : Addr)
    (ls : List (String × Option Addr)) : Numbered (labelled cls h a ls).1 := by
  simp only [Heap.labelled]
  split
  · exact u
  · refine Numbered.addLabels cls _ ls ?_
    exact Numbered.modify (u.construct cls.caching none [a]) (Heap.construct h cls.caching none [a]).2
      (fun n => { n with labels := some (Heap.construct h cls.caching none [a]).1.dicts.length })
      (fun _ => rfl)

theorem Numbered.filterComp {h : Heap P} (u : Numbered h) (k : Nat) (a c : Addr) :
    Numbered (filterComp k h a c).1 := by
  have := u.clone k a
  simp only [Heap.filterComp]
  split
  · rename_i heq; rw [heq] at this; exact this
  · rename_i heq; rw [heq] at this; exact (this.dependsOn _ _).modify _ _ fun _ => rfl

theorem derive_numbered {h : Heap P} (u : Numbered h) (cls : Cls P) (k : Nat)
    (d : Derivation P) : Numbered (derive cls k h d).1 := by
  cases d with
  | construct t s args => exact u.construct t s args
  | method t s args => exact (u.construct t (some s) args).modify _ _ fun _ => rfl
  | pipe s n li lo =>
    simp only [derive, pipe]
    have u1 := u.clone k s
    split
    · rename_i heq; rw [heq] at u1; exact u1
    · rename_i h1 s1 q1
      rw [q1] at u1
      have u2 := Numbered.labelled u1 cls s1 li
      split
      · rename_i heq; rw [heq] at u2; exact u2
      · rename_i h2 s2 q2
        rw [q2] at u2
        have u3 := Numbered.clone u2 k n
        split
        · rename_i heq; rw [heq] at u3; exact u3
        · rename_i h3 r q3
          rw [q3] at u3
          have u4 := Numbered.labelled u3 cls r lo
          split
          · rename_i heq; rw [heq] at u4; exact u4
          · rename_i h4 r' q4
            rw [q4] at u4
            exact Numbered.setPredefinedInput u4 _ _ _
  | pipeCallable s f args li lo =>
    simp only [derive, pipeCallable]
    have u1 := u.clone k s
    split
    · rename_i heq; rw [heq] at u1; exact u1
    · rename_i h1 s1 q1
      rw [q1] at u1
      have u2 := Numbered.labelled u1 cls s1 li
      split
      · rename_i heq; rw [heq] at u2; exact u2
      · rename_i h2 s2 q2
        rw [q2] at u2
        have u3 := Numbered.clone (Numbered.construct u2 (cls.naive f) none []) k
          (construct h2 (cls.naive f) none []).2
        split
        · rename_i heq
          have heq' : clone k (construct h2 (cls.naive f) none []).1
            (construct h2 (cls.naive f) none []).2 = _ := heq
          rw [heq'] at u3; exact u3
        · rename_i heq
          have heq' : clone k (construct h2 (cls.naive f) none []).1
            (construct h2 (cls.naive f) none []).2 = _ := heq
          rw [heq'] at u3
          exact Numbered.labelled (Numbered.construct u3 _ _ _) cls _ lo
  | passArgs a args =>
    simp only [derive, passArgs]
    have u1 := u.clone k a
    split
    · rename_i heq; rw [heq] at u1; exact u1
    · rename_i heq
      rw [heq] at u1
      exact (Numbered.foldDeps args u1).modify _ _ fun _ => rfl
  | filterComp a c => exact u.filterComp k a c
  | sort a key f =>
    simp only [derive, sort]
    have u1 := u.clone k a
    split
    · rename_i heq; rw [heq] at u1; exact u1
    · rename_i heq
      rw [heq] at u1
      exact u1.modify _ _ fun _ => rfl
  | baseFilter a c =>
    simp only [derive, baseFilter]
    have u1 := ((u.construct cls.bareItem none []).construct cls.genComp none
      [(construct h cls.bareItem none []).2]).setPredefinedInput k (construct (construct h
        cls.bareItem none []).1 cls.genComp none [(construct h cls.bareItem none []).2]).2 a
    split
    · rename_i heq
      exact (congrArg (fun x => Numbered x.1) heq).mp u1
    · rename_i heq
      exact ((congrArg (fun x => Numbered x.1) heq).mp u1).filterComp k _ c

/-- **C53, numbers** (partial: the counter is unbounded in the model, base.py 265-269 starts again after
2^30 objects): whatever a program derives, no two conversion objects have the same number
(and hence no two labelled conversions the same generated name `cached_val_<number>`). -/
theorem C53_numbers_partial (cls : Cls P) (maxLen : Nat) (h : Heap P) (u : Numbered h)
    (ds : List (Derivation P)) (i j : Nat) (n m : Node P)
    (hi : (deriveAll cls maxLen h ds).nodes[i]? = some n)
    (hj : (deriveAll cls maxLen h ds).nodes[j]? = some m) (e : n.number = m.number) : i = j := by
  have all : ∀ (ds : List (Derivation P)) (h : Heap P), Numbered h →
      Numbered (deriveAll cls maxLen h ds) := by
    intro ds
    induction ds with
    | nil => intro h u; exact u
    | cons d ds ih => intro h u; exact ih _ (derive_numbered u cls maxLen d)
  have nd := (all ds h u).1
  obtain ⟨hi1, hi2⟩ := List.getElem?_eq_some_iff.1 hi
  obtain ⟨hj1, hj2⟩ := List.getElem?_eq_some_iff.1 hj
  refine (List.Nodup.getElem_inj_iff nd (hi := by simpa using hi1) (hj := by simpa using hj1)).1 ?_
  simp [hi2, hj2, e]

/-- The program of C52 makes ten objects with ten numbers. -/
example : Numbered (⟨[], [], 0⟩ : Heap Nat) ∧
    (deriveAll exCls 100 ⟨[], [], 0⟩ exProgram).nodes.length = 10 := by
  refine ⟨⟨by simp, by simp⟩, by decide +kernel⟩

/-! ## Labels -/

/-- Specification: what the label `l` of `a` stands for: the labelled value itself (`none`) or a
conversion of it. -/
def labelTarget (h : Heap P) (a : Addr) (l : String) : Option (Option Addr) :=
  match h.nodes[a]? with
  | none => none
  | some n =>
    if n.name = some l then some none
    else (((n.labels.bind (h.dicts[·]?)).getD []).lookup l).map some

/-- Specification: the label `l` of `a` stands for the given conversion (by default: the labelled
value): either for this conversion, or for the labelled value if the conversion is a `GetItem`
without indexes. -/
def Labels (cls : Cls P) (h : Heap P) (a : Addr) (l : String) : Option Addr → Prop
  | some c => labelTarget h a l = some (some c) ∨
      (labelTarget h a l = some none ∧
        ∃ n, h.nodes[c]? = some n ∧ cls.isGetItem n.tag = true ∧ n.args = [])
  | none => labelTarget h a l = some none ∨
      ∃ c n, labelTarget h a l = some (some c) ∧ h.nodes[c]? = some n ∧ n.tag = cls.bareItem ∧
        n.args = [] ∧ n.pred = none ∧ n.selfRef = none

theorem lookup_eq_get? (d : List (String × Addr)) (l : String) : d.lookup l = Dict.get? d l := by
  induction d with
  | nil => rfl
  | cons e d ih =>
    obtain ⟨k, v⟩ := e
    simp only [List.lookup, Dict.get?, ih]
    by_cases q : l = k
    · subst q; simp
    · have q' : ¬ k = l := fun e => q e.symm
      simp [q, q', beq_iff_eq, beq_eq_false_iff_ne.2 q]

/-- Objects keep their class, parts and links. -/
def Kept (h h' : Heap P) : Prop :=
  ∀ (c : Addr) n, h.nodes[c]? = some n → ∃ n', h'.nodes[c]? = some n' ∧ n'.tag = n.tag ∧
    n'.args = n.args ∧ n'.pred = n.pred ∧ n'.selfRef = n.selfRef ∧ n'.labels = n.labels

theorem Kept.refl (h : Heap P) : Kept h h := fun _ n hn => ⟨n, hn, rfl, rfl, rfl, rfl, rfl⟩

theorem Kept.trans {h h' h'' : Heap P} (k : Kept h h') (k' : Kept h' h'') : Kept h h'' := by
  intro c n hn
  obtain ⟨n1, e1, q1, q2, q3, q4, q5⟩ := k c n hn
  obtain ⟨n2, e2, r1, r2, r3, r4, r5⟩ := k' c n1 e1
  exact ⟨n2, e2, r1.trans q1, r2.trans q2, r3.trans q3, r4.trans q4, r5.trans q5⟩

theorem Kept.modify (h : Heap P) (a : Addr) (f : Node P → Node P)
    (hf : ∀ n, (f n).tag = n.tag ∧ (f n).args = n.args ∧ (f n).pred = n.pred ∧
      (f n).selfRef = n.selfRef ∧ (f n).labels = n.labels) : Kept h (modify h a f) := by
  intro c n hn
  rw [modify_nodes]
  split
  · exact ⟨f n, by rw [hn]; rfl, hf n⟩
  · exact ⟨n, hn, rfl, rfl, rfl, rfl, rfl⟩

theorem labelConv_kept (cls : Cls P) (h : Heap P) (c : Option Addr) :
    Kept h (labelConv cls h c).1 := by
  cases c with
  | some c => exact Kept.refl _
  | none =>
    intro x n hn
    refine ⟨n, ?_, rfl, rfl, rfl, rfl, rfl⟩
    rw [← hn]
    exact (construct_ext (n := h.nodes.length) (m := 0) h cls.bareItem none [] (Nat.le_refl _)).nodes
      x (List.getElem?_eq_some_iff.1 hn).1

theorem labelConv_name (cls : Cls P) (h : Heap P) (c : Option Addr) {a : Addr} {n : Node P}
    (hn : h.nodes[a]? = some n) : (labelConv cls h c).1.nodes[a]? = some n := by
  cases c with
  | some c => exact hn
  | none =>
    rw [← hn]
    exact (construct_ext (n := h.nodes.length) (m := 0) h cls.bareItem none [] (Nat.le_refl _)).nodes
      a (List.getElem?_eq_some_iff.1 hn).1

theorem labelConv_dicts (cls : Cls P) (h : Heap P) (c : Option Addr) :
    (labelConv cls h c).1.dicts = h.dicts := by
  cases c <;> rfl

theorem labelConv_new (cls : Cls P) (h : Heap P) : ∃ n : Node P,
    (labelConv cls h none).1.nodes[(labelConv cls h none).2]? = some n ∧ n.tag = cls.bareItem ∧
      n.args = [] ∧ n.pred = none ∧ n.selfRef = none := by
  refine ⟨⟨cls.bareItem, h.counter, none, none, [], none, none, none, none, []⟩, ?_, rfl, rfl, rfl,
    rfl⟩
  simp [labelConv, construct, alloc]

/-- **C53, one label** (partial: a `GetItem` without indexes counts as the labelled value even if it has
an input of its own, see `C53_refuted_this`): `add_label` raises and changes nothing if the label is in use.  Otherwise the
label stands for the given conversion afterwards, and all other labels stand for what they stood
for. -/
theorem C53_add_label_partial (cls : Cls P) (h : Heap P) (a : Addr) (n : Node P) (d : Nat)
    (hn : h.nodes[a]? = some n) (hd : n.labels = some d) (hdl : d < h.dicts.length) (l : String)
    (c : Option Addr) :
    (labelTarget h a l ≠ none → addLabel cls h a l c = (h, .error .labelUsed)) ∧
    (labelTarget h a l = none →
      let r := addLabel cls h a l c
      r.2 = .ok a ∧ Labels cls r.1 a l c ∧ Kept h r.1 ∧ r.1.dicts.length = h.dicts.length ∧
      ∀ l', l' ≠ l → labelTarget r.1 a l' = labelTarget h a l') := by
  have hdd : h.dicts[d]? = some h.dicts[d] := List.getElem?_eq_getElem hdl
  have tgt : ∀ l, labelTarget h a l = if n.name = some l then some none else
      (Dict.get? h.dicts[d] l).map some := by
    intro l
    simp only [labelTarget, hn, hd, Option.bind_some, hdd, Option.getD_some, lookup_eq_get?]
  have used : (Dict.has ((h.dicts[d]?).getD []) l || n.name == some l) = true ↔
      labelTarget h a l ≠ none := by
    rw [tgt, hdd]
    simp only [Option.getD_some, Dict.has, Bool.or_eq_true, beq_iff_eq]
    by_cases q : n.name = some l
    · simp [q]
    · simp [q, Option.isSome_iff_ne_none]
  have kept2 : Kept h (dependsOn (labelConv cls h c).1 a (labelConv cls h c).2) :=
    (labelConv_kept cls h c).trans (Kept.modify _ _ _ fun _ => ⟨rfl, rfl, rfl, rfl, rfl⟩)
  have hnode : (dependsOn (labelConv cls h c).1 a (labelConv cls h c).2).nodes[a]? = some { n with
      deps := n.deps ++ dependencies (labelConv cls h c).1 (labelConv cls h c).2 } := by
    simp only [dependsOn, modify_nodes, if_true, labelConv_name cls h c hn]
    rfl
  have hdicts : (dependsOn (labelConv cls h c).1 a (labelConv cls h c).2).dicts = h.dicts := by
    show (labelConv cls h c).1.dicts = h.dicts
    exact labelConv_dicts cls h c
  constructor
  · intro hu
    simp only [addLabel, hn, hd, used.2 hu, if_true]
  · intro hu
    have hu' : (Dict.has ((h.dicts[d]?).getD []) l || n.name == some l) = false := by
      by_contra q
      exact used.1 ((Bool.not_eq_false _).mp q) hu
    rw [tgt] at hu
    have hnm : n.name ≠ some l := fun q => by simp [q] at hu
    simp only [addLabel, hn, hd, hu', Bool.false_eq_true, if_false]
    split
    · rename_i hb
      simp only [Bool.and_eq_true, beq_iff_eq] at hb
      have t2 : ∀ l', labelTarget (modify (dependsOn (labelConv cls h c).1 a (labelConv cls h c).2) a
          fun n => { n with name := some l }) a l' = if l = l' then some none else
          (Dict.get? h.dicts[d] l').map some := by
        intro l'
        simp only [labelTarget, modify_nodes, if_true, hnode, Option.map_some, hd,
          Option.bind_some, Option.some.injEq, lookup_eq_get?]
        have : (modify (dependsOn (labelConv cls h c).1 a (labelConv cls h c).2) a
          fun n => { n with name := some l }).dicts = h.dicts := hdicts
        rw [this, hdd]
        rfl
      have kept3 := kept2.trans (Kept.modify (dependsOn (labelConv cls h c).1 a
        (labelConv cls h c).2) a (fun n => { n with name := some l })
        fun _ => ⟨rfl, rfl, rfl, rfl, rfl⟩)
      refine ⟨rfl, ?_, kept3, congrArg List.length hdicts, fun l' hl' => ?_⟩
      · cases c with
        | none => exact .inl (by rw [t2]; simp)
        | some c =>
          refine .inr ⟨by rw [t2]; simp, ?_⟩
          have hbi := hb.2
          simp only [isBareItem] at hbi
          split at hbi
          · rename_i m hm
            simp only [Bool.and_eq_true, List.isEmpty_iff] at hbi
            obtain ⟨m', e1, e2, e3, _⟩ := Kept.modify (dependsOn (labelConv cls h (some c)).1 a
              (labelConv cls h (some c)).2) a (fun n => { n with name := some l })
              (fun _ => ⟨rfl, rfl, rfl, rfl, rfl⟩) c m hm
            exact ⟨m', e1, by rw [e2]; exact hbi.1, by rw [e3]; exact hbi.2⟩
          · cases hbi
      · rw [t2, tgt, if_neg (fun e => hl' e.symm), hb.1]
        simp
    · have t2 : ∀ l', labelTarget ({ dependsOn (labelConv cls h c).1 a (labelConv cls h c).2 with
          dicts := (dependsOn (labelConv cls h c).1 a (labelConv cls h c).2).dicts.modify d fun m =>
            Dict.set m l (labelConv cls h c).2 } : Heap P) a l' = if n.name = some l' then some none
          else if l' = l then some (some (labelConv cls h c).2) else
          (Dict.get? h.dicts[d] l').map some := by
        intro l'
        simp only [labelTarget, hnode, hd, Option.bind_some, hdicts, List.getElem?_modify, if_true,
          hdd, Option.map_some, Option.getD_some, lookup_eq_get?]
        simp only [Option.map_eq_map, Option.map_some, Option.getD_some]
        rw [Dict.get?_set]
        by_cases q : l = l'
        · subst q; simp
        · have q' : ¬ l' = l := fun e => q e.symm
          simp [q, q']
      refine ⟨rfl, ?_, fun x m hm => ?_, ?_, fun l' hl' => ?_⟩
      · cases c with
        | some c =>
          refine .inl ?_
          rw [t2, if_neg hnm, if_pos rfl]
          rfl
        | none =>
          obtain ⟨m, e1, e2, e3, e4, e5⟩ := labelConv_new cls h
          obtain ⟨m', f1, f2, f3, f4, f5, _⟩ := Kept.modify (labelConv cls h none).1 a
            (fun n => { n with
              deps := n.deps ++ dependencies (labelConv cls h none).1 (labelConv cls h none).2 }) (fun _ => ⟨rfl, rfl, rfl, rfl, rfl⟩) _ m e1
          refine .inr ⟨_, m', ?_, f1, f2.trans e2, f3.trans e3, f4.trans e4, f5.trans e5⟩
          rw [t2, if_neg hnm, if_pos rfl]
      · exact kept2 x m hm
      · simp [hdicts]
      · rw [t2, tgt, if_neg hl']

theorem Labels.kept {cls : Cls P} {h h' : Heap P} {a : Addr} {l : String} {c : Option Addr}
    (k : Kept h h') (e : labelTarget h' a l = labelTarget h a l) (q : Labels cls h a l c) :
    Labels cls h' a l c := by
  cases c with
  | some c =>
    rcases q with q | ⟨q, n, h1, h2, h3⟩
    · exact .inl (e.trans q)
    · obtain ⟨n', e1, e2, e3, _⟩ := k c n h1
      exact .inr ⟨e.trans q, n', e1, by rw [e2]; exact h2, by rw [e3]; exact h3⟩
  | none =>
    rcases q with q | ⟨c, n, q, h1, h2, h3, h4, h5⟩
    · exact .inl (e.trans q)
    · obtain ⟨n', e1, e2, e3, e4, e5, _⟩ := k c n h1
      exact .inr ⟨c, n', e.trans q, e1, e2.trans h2, e3.trans h3, e4.trans h4, e5.trans h5⟩

theorem addLabels_all (cls : Cls P) (a : Addr) (ls : List (String × Option Addr)) :
    ∀ (h : Heap P) (n : Node P) (d : Nat), h.nodes[a]? = some n → n.labels = some d →
    d < h.dicts.length → (ls.map Prod.fst).Nodup →
    (∀ l ∈ ls.map Prod.fst, labelTarget h a l = none) →
    let r := addLabels cls h a ls
    r.2 = .ok a ∧ Kept h r.1 ∧ (∀ e ∈ ls, Labels cls r.1 a e.1 e.2) ∧
      ∀ l, l ∉ ls.map Prod.fst → labelTarget r.1 a l = labelTarget h a l := by
  induction ls with
  | nil => intro h n d _ _ _ _ _; exact ⟨rfl, Kept.refl _, by simp, fun _ _ => rfl⟩
  | cons e ls ih =>
    obtain ⟨l, c⟩ := e
    intro h n d hn hd hdl hnd hnone
    simp only [List.map_cons, List.nodup_cons] at hnd
    obtain ⟨q1, q2, q3, q4, q5⟩ := (C53_add_label_partial cls h a n d hn hd hdl l c).2
      (hnone l (by simp))
    simp only [addLabels]
    split
    · rename_i h1 r heq
      rw [heq] at q1 q2 q3 q4 q5
      obtain ⟨n1, hn1, _, _, _, _, hl1⟩ := q3 a n hn
      obtain ⟨p1, p2, p3, p4⟩ := ih h1 n1 d hn1 (hl1.trans hd) (by rw [q4]; exact hdl) hnd.2
        (fun l' hl' => by
          rw [q5 l' (fun e => hnd.1 (e ▸ hl'))]
          exact hnone l' (by simp only [List.map_cons]; exact List.mem_cons_of_mem _ hl'))
      refine ⟨p1, q3.trans p2, fun e he => ?_, fun l' hl' => ?_⟩
      · rcases List.mem_cons.1 he with rfl | he
        · exact q2.kept p2 (p4 _ hnd.1)
        · exact p3 e he
      · simp only [List.map_cons, List.mem_cons, not_or] at hl'
        rw [p4 l' hl'.2, q5 l' hl'.1]
    · rename_i heq
      rw [heq] at q1
      cases q1

/-- **C53, all labels of a pipe end** (partial as above): labelling with a dict of labels (distinct names) never fails;
the labelled conversion is a new object wrapping the given one, whose labels are exactly the given
ones, each standing for its conversion. -/
theorem C53_labels_partial (cls : Cls P) (h : Heap P) (a : Addr) (ls : List (String × Option Addr))
    (hne : ls ≠ []) (hnd : (ls.map Prod.fst).Nodup) :
    let r := labelled cls h a ls
    r.2 = .ok h.nodes.length ∧
    (∃ n, r.1.nodes[h.nodes.length]? = some n ∧ n.tag = cls.caching ∧ n.args = [a] ∧
      n.pred = none) ∧
    (∀ e ∈ ls, Labels cls r.1 h.nodes.length e.1 e.2) ∧
    ∀ l, l ∉ ls.map Prod.fst → labelTarget r.1 h.nodes.length l = none := by
  have he : ls.isEmpty = false := by cases ls <;> simp_all
  have hk : ∃ n, (mkCaching cls h a).1.nodes[h.nodes.length]? = some n ∧
      n.labels = some h.dicts.length ∧ n.name = none ∧ n.tag = cls.caching ∧ n.args = [a] ∧
      n.pred = none := by
    simp only [mkCaching, construct, Heap.alloc, Option.toList, List.nil_append, List.foldl_cons,
      List.foldl_nil, dependsOn, modify_nodes, if_true]
    simp [modify]
  obtain ⟨n, h1, h2, h3, h4, h5, h6⟩ := hk
  have hdl : (mkCaching cls h a).1.dicts = h.dicts ++ [[]] := rfl
  have hnone : ∀ l, labelTarget (mkCaching cls h a).1 h.nodes.length l = none := by
    intro l
    simp [labelTarget, h1, h2, h3, hdl]
  obtain ⟨p1, p2, p3, p4⟩ := addLabels_all cls h.nodes.length ls (mkCaching cls h a).1 n _ h1 h2
    (by simp [hdl]) hnd (fun l _ => hnone l)
  have hl : labelled cls h a ls = addLabels cls (mkCaching cls h a).1 h.nodes.length ls := by
    simp only [labelled, he]
    rfl
  obtain ⟨n', e1, e2, e3, e4, _⟩ := p2 _ _ h1
  simp only [hl]
  exact ⟨p1, ⟨n', e1, e2.trans h4, e3.trans h5, e4.trans h6⟩, p3, fun l hl => by
    rw [p4 l hl]; exact hnone l⟩

/-- Two labels of one value, the second one by default for the value itself. -/
example : let r := labelled exCls exFour 0 [("x", some 1), ("y", none)]
    r.2 = .ok 4 ∧ labelTarget r.1 4 "x" = some (some 1) ∧ labelTarget r.1 4 "y" = some none ∧
      labelTarget r.1 4 "z" = none := by decide +kernel

/-- The same label once more. -/
example : let r := labelled exCls exFour 0 [("x", some 1), ("y", none)]
    (addLabel exCls r.1 4 "y" (some 2)).2 = .error .labelUsed := by decide +kernel

/-- **C53 is violated by conversions ending in `c.this()`**: the label `x` of a value is given the
conversion `c.item("a").pipe(c.this())` (address 3, first stage at 2), which is not the identity, but
the label stands for the labelled value itself. -/
theorem C53_refuted_this : ∃ h : Heap Nat, (h.nodes[3]?).bind (·.pred) = some 2 ∧
    let r := labelled exCls h 0 [("x", some 3)]
    r.2 = .ok 4 ∧ labelTarget r.1 4 "x" = some none := by
  refine ⟨(pipe exCls 100 ⟨[atom 7, atom 101], [], 2⟩ 0 1 [] []).1, ?_⟩
  decide +kernel

end Verif.Heap
