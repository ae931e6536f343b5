import Verif.Heap.Model
import Mathlib.Data.List.Perm.Subperm
/-! # Frame lemmas for the heap of conversions -/
set_option autoImplicit false

namespace Verif.Heap

variable {P : Type}

local notation "Addr" => Nat

/-- Objects below `n` and dicts below `m` are the same in both heaps, and nothing disappears. -/
structure Ext (n m : Nat) (h h' : Heap P) : Prop where
  nodes : ∀ i, i < n → h'.nodes[i]? = h.nodes[i]?
  dicts : ∀ i, i < m → h'.dicts[i]? = h.dicts[i]?
  len : h.nodes.length ≤ h'.nodes.length
  dlen : h.dicts.length ≤ h'.dicts.length

theorem Ext.refl (n m : Nat) (h : Heap P) : Ext n m h h :=
  ⟨fun _ _ => rfl, fun _ _ => rfl, Nat.le_refl _, Nat.le_refl _⟩

theorem Ext.trans {n m : Nat} {h h1 h2 : Heap P} (a : Ext n m h h1) (b : Ext n m h1 h2) :
    Ext n m h h2 :=
  ⟨fun i hi => (b.nodes i hi).trans (a.nodes i hi), fun i hi => (b.dicts i hi).trans (a.dicts i hi),
    Nat.le_trans a.len b.len, Nat.le_trans a.dlen b.dlen⟩

theorem Ext.mono {n n' m m' : Nat} {h h' : Heap P} (a : Ext n m h h') (hn : n' ≤ n) (hm : m' ≤ m) :
    Ext n' m' h h' :=
  ⟨fun i hi => a.nodes i (by omega), fun i hi => a.dicts i (by omega), a.len, a.dlen⟩

theorem modify_nodes (h : Heap P) (a : Addr) (f : Node P → Node P) (i : Addr) :
    (modify h a f).nodes[i]? = if a = i then (h.nodes[i]?).map f else h.nodes[i]? := by
  simp only [modify, List.getElem?_modify]
  split <;> simp

theorem modify_ext {n m : Nat} (h : Heap P) {a : Addr} (f : Node P → Node P) (ha : n ≤ a) :
    Ext n m h (modify h a f) := by
  refine ⟨fun i hi => ?_, fun _ _ => rfl, by simp [modify], Nat.le_refl _⟩
  rw [modify_nodes, if_neg (by omega)]

theorem alloc_ext {n m : Nat} (h : Heap P) (nd : Node P) (hn : n ≤ h.nodes.length) :
    Ext n m h (alloc h nd).1 := by
  refine ⟨fun i hi => ?_, fun _ _ => rfl, by simp [alloc], Nat.le_refl _⟩
  simp only [alloc]
  rw [List.getElem?_append_left (by omega)]

theorem dependsOn_ext {n m : Nat} (h : Heap P) {a : Addr} (b : Addr) (ha : n ≤ a) :
    Ext n m h (dependsOn h a b) := modify_ext h _ ha

theorem foldl_dependsOn_ext {n m : Nat} {a : Addr} (ha : n ≤ a) (bs : List Addr) :
    ∀ h : Heap P, Ext n m h (bs.foldl (fun h b => dependsOn h a b) h) := by
  induction bs with
  | nil => intro h; exact Ext.refl _ _ _
  | cons b bs ih => intro h; exact (dependsOn_ext h b ha).trans (ih _)

theorem construct_ext {n m : Nat} (h : Heap P) (tag : P) (s : Option Addr) (args : List Addr)
    (hn : n ≤ h.nodes.length) : Ext n m h (construct h tag s args).1 := by
  simp only [construct]
  exact (alloc_ext h _ hn).trans (foldl_dependsOn_ext (by simpa [alloc] using hn) _ _)

theorem construct_addr (h : Heap P) (tag : P) (s : Option Addr) (args : List Addr) :
    (construct h tag s args).2 = h.nodes.length := rfl

theorem cloneOne_some {h : Heap P} {a : Addr} {r : Heap P × Addr} (hr : cloneOne h a = some r) :
    ∃ nd, h.nodes[a]? = some nd ∧ r = alloc h nd := by
  simp only [cloneOne, Option.map_eq_some_iff] at hr
  obtain ⟨nd, h1, h2⟩ := hr
  exact ⟨nd, h1, h2.symm⟩

/-- The addresses along `_predefined_input` from `a`. -/
inductive Path (h : Heap P) : Addr → List Addr → Prop
  | last {a nd} : h.nodes[a]? = some nd → nd.pred = none → Path h a [a]
  | step {a nd b bs} : h.nodes[a]? = some nd → nd.pred = some b → Path h b bs → Path h a (a :: bs)

theorem Path.congr {h h' : Heap P} {a : Addr} {as : List Addr} (p : Path h a as)
    (e : ∀ x ∈ as, (h'.nodes[x]?).map (·.pred) = (h.nodes[x]?).map (·.pred)) : Path h' a as := by
  induction p with
  | last h1 h2 =>
    have := e _ (List.mem_cons_self ..)
    rw [h1, Option.map_some] at this
    obtain ⟨nd', e1, e2⟩ := Option.map_eq_some_iff.1 this
    exact .last e1 (e2.trans h2)
  | step h1 h2 _ ih =>
    have := e _ (List.mem_cons_self ..)
    rw [h1, Option.map_some] at this
    obtain ⟨nd', e1, e2⟩ := Option.map_eq_some_iff.1 this
    exact .step e1 (e2.trans h2) (ih fun x hx => e x (List.mem_cons_of_mem _ hx))

theorem Path.lt {h : Heap P} {a : Addr} {as : List Addr} (p : Path h a as) :
    ∀ x ∈ as, x < h.nodes.length := by
  induction p with
  | last h1 h2 =>
    intro x hx
    rw [List.mem_singleton.1 hx]
    exact (List.getElem?_eq_some_iff.1 h1).1
  | step h1 h2 _ ih =>
    intro x hx
    cases List.mem_cons.1 hx with
    | inl e => subst e; exact (List.getElem?_eq_some_iff.1 h1).1
    | inr e => exact ih x e

theorem Path.ne_nil {h : Heap P} {a : Addr} {as : List Addr} (p : Path h a as) : as ≠ [] := by
  cases p <;> simp

theorem Path.ext {n m : Nat} {h h' : Heap P} {a : Addr} {as : List Addr} (p : Path h a as)
    (e : Ext n m h h') (hn : ∀ x ∈ as, x < n) : Path h' a as :=
  p.congr fun x hx => by rw [e.nodes x (hn x hx)]

theorem Path.det {h : Heap P} {a : Addr} {as bs : List Addr} (p : Path h a as) (q : Path h a bs) :
    as = bs := by
  induction p generalizing bs with
  | last h1 h2 =>
    cases q with
    | last => rfl
    | step q1 q2 =>
      rw [h1] at q1
      cases q1
      rw [h2] at q2; cases q2
  | step h1 h2 _ ih =>
    cases q with
    | last q1 q2 =>
      rw [h1] at q1
      cases q1
      rw [h2] at q2; cases q2
    | step q1 q2 q3 =>
      rw [h1] at q1
      cases q1
      rw [h2] at q2; cases q2
      rw [ih q3]

/-- Every member of a chain starts a chain that is not longer. -/
theorem Path.tail {h : Heap P} {a : Addr} {as : List Addr} (p : Path h a as) :
    ∀ x ∈ as, ∃ xs, Path h x xs ∧ xs.length ≤ as.length := by
  induction p with
  | @last a nd h1 h2 =>
    intro x hx
    rw [List.mem_singleton.1 hx]
    exact ⟨[a], .last h1 h2, Nat.le_refl _⟩
  | @step a nd b as h1 h2 q ih =>
    intro x hx
    cases List.mem_cons.1 hx with
    | inl e => subst e; exact ⟨_, .step h1 h2 q, Nat.le_refl _⟩
    | inr e =>
      obtain ⟨xs, hx, hl⟩ := ih x e
      exact ⟨xs, hx, Nat.le_succ_of_le hl⟩

/-- A chain has no loops. -/
theorem Path.nodup {h : Heap P} {a : Addr} {as : List Addr} (p : Path h a as) : as.Nodup := by
  induction p with
  | last h1 h2 => simp
  | @step a nd b as h1 h2 q ih =>
    refine List.nodup_cons.2 ⟨fun ha => ?_, ih⟩
    obtain ⟨xs, hx, hl⟩ := q.tail a ha
    have := hx.det (.step h1 h2 q)
    rw [this] at hl
    exact absurd hl (Nat.not_succ_le_self _)

theorem Path.length_le {h : Heap P} {a : Addr} {as : List Addr} (p : Path h a as) :
    as.length ≤ h.nodes.length := by
  have := (List.subperm_of_subset p.nodup (l₂ := List.range h.nodes.length)
    (fun x hx => List.mem_range.2 (p.lt x hx))).length_le
  simpa using this

theorem cloneLoop_ext {n m : Nat} (k : Nat) : ∀ (h : Heap P) (conv : Addr), n ≤ h.nodes.length →
    n ≤ conv → Ext n m h (cloneLoop k h conv).1 := by
  induction k with
  | zero => intro h conv _ _; exact Ext.refl _ _ _
  | succ k ih =>
    intro h conv hn hc
    simp only [cloneLoop]
    split
    · exact Ext.refl _ _ _
    · split
      · exact Ext.refl _ _ _
      · split
        · exact Ext.refl _ _ _
        · rename_i p _ h1 p' hcl
          obtain ⟨nd, _, e⟩ := cloneOne_some hcl
          obtain ⟨rfl, rfl⟩ := Prod.mk.inj e
          have e1 : Ext n m h (modify (alloc h nd).1 conv
              fun m => { m with pred := some (alloc h nd).2 }) :=
            (alloc_ext h nd hn).trans (modify_ext _ _ hc)
          exact e1.trans (ih _ _ (Nat.le_trans hn e1.len) hn)

theorem clone_ext {n m : Nat} (k : Nat) (h : Heap P) (a : Addr) (hn : n ≤ h.nodes.length) :
    Ext n m h (clone k h a).1 := by
  simp only [clone]
  split
  · exact Ext.refl _ _ _
  · rename_i h1 r hcl
    obtain ⟨nd, _, e⟩ := cloneOne_some hcl
    have e1 : Ext n m h h1 := by
      rw [show h1 = (alloc h nd).1 from congrArg Prod.fst e]
      exact alloc_ext h nd hn
    have hr : n ≤ r := by rw [show r = h.nodes.length from congrArg Prod.snd e]; exact hn
    have e2 := cloneLoop_ext (m := m) k h1 r (Nat.le_trans hn e1.len) hr
    split <;> rename_i heq
    · rw [heq] at e2; exact e1.trans e2
    · rw [heq] at e2; exact e1.trans e2

/-- What is shared by an object and its clone, apart from the chain itself: everything but
`_predefined_input`, `_number` and `_depends_on`. -/
structure Stage (P : Type) where
  tag : P
  selfRef : Option Addr
  args : List Addr
  cond : Option Addr
  key : Option Addr
  labels : Option Nat
  name : Option String

/-- The stage of a node. -/
def Node.stage (n : Node P) : Stage P := ⟨n.tag, n.selfRef, n.args, n.cond, n.key, n.labels, n.name⟩

/-- The stage at an address. -/
def stageAt (h : Heap P) (a : Addr) : Option (Stage P) := (h.nodes[a]?).map Node.stage

theorem stageAt_modify (h : Heap P) (a : Addr) (f : Node P → Node P)
    (hf : ∀ n, (f n).stage = n.stage) (x : Addr) : stageAt (modify h a f) x = stageAt h x := by
  simp only [stageAt, modify_nodes]
  split
  · cases h.nodes[x]? <;> simp [hf]
  · rfl

theorem stageAt_dependsOn (h : Heap P) (a b x : Addr) :
    stageAt (dependsOn h a b) x = stageAt h x := stageAt_modify _ _ _ (by intro n; rfl) _

theorem pred_dependsOn (h : Heap P) (a b x : Addr) :
    ((dependsOn h a b).nodes[x]?).map (·.pred) = (h.nodes[x]?).map (·.pred) := by
  simp only [dependsOn, modify_nodes]
  split
  · cases h.nodes[x]? <;> simp
  · rfl

theorem Ext.stageAt {n m : Nat} {h h' : Heap P} (e : Ext n m h h') {x : Addr} (hx : x < n) :
    stageAt h' x = stageAt h x := by simp [Heap.stageAt, e.nodes x hx]

/-- The loop of `clone`, started at an object whose `_predefined_input` chain is `as` (not counting
itself): the whole chain is replaced by fresh copies. -/
theorem cloneLoop_spec (k : Nat) : ∀ (h : Heap P) (conv : Addr) (as : List Addr),
    Path h conv (conv :: as) → conv + 1 = h.nodes.length → (∀ x ∈ as, x < conv) →
    if as.length < k then
      ∃ h', cloneLoop k h conv = (h', .ok ()) ∧
        Path h' conv (conv :: List.range' (conv + 1) as.length) ∧
        (List.range' (conv + 1) as.length).map (stageAt h') = as.map (stageAt h) ∧
        stageAt h' conv = stageAt h conv
    else ∃ h', cloneLoop k h conv = (h', .error .tooLongPipe) := by
  induction k with
  | zero => intro h conv as _ _ _; exact ⟨h, rfl⟩
  | succ k ih =>
    intro h conv as hp hlen hlt
    cases hp with
    | last h1 h2 =>
      simp only [List.length_nil, Nat.zero_lt_succ, if_true, List.range'_zero, List.map_nil,
        true_and]
      refine ⟨h, ?_, .last h1 h2, rfl⟩
      simp [cloneLoop, h1, h2]
    | @step _ nd b _ h1 h2 h3 =>
      cases as with
      | nil => exact absurd rfl h3.ne_nil
      | cons b' as =>
        have hb : b' = b := by cases h3 <;> rfl
        subst hb
        obtain ⟨ndb, hndb⟩ : ∃ ndb, h.nodes[b']? = some ndb := by
          cases h3 with
          | last q => exact ⟨_, q⟩
          | step q => exact ⟨_, q⟩
        have hcl : cloneOne h b' = some (alloc h ndb) := by simp [cloneOne, hndb]
        let h' := modify (alloc h ndb).1 conv fun m => { m with pred := some (alloc h ndb).2 }
        have hnew : (alloc h ndb).2 = conv + 1 := by simp [alloc, hlen]
        have hcase : cloneLoop (k + 1) h conv = cloneLoop k h' (conv + 1) := by
          rw [← hnew]
          simp [cloneLoop, h1, h2, hcl, h']
        have hlen' : (conv + 1) + 1 = h'.nodes.length := by simp [h', modify, alloc, hlen]
        have hE : Ext conv 0 h h' := (alloc_ext h ndb (by omega)).trans (modify_ext _ _ (Nat.le_refl _))
        have hnode : h'.nodes[conv + 1]? = some { ndb with number := h.counter } := by
          simp only [h', modify_nodes]
          rw [if_neg (by omega)]
          simp [alloc, hlen]
        have hltb : b' < conv := hlt b' (by simp)
        have hp' : Path h' (conv + 1) ((conv + 1) :: as) := by
          cases h3 with
          | last q1 q2 =>
            rw [hndb] at q1; cases q1
            exact .last hnode q2
          | step q1 q2 q3 =>
            rw [hndb] at q1; cases q1
            exact .step hnode q2 (q3.ext hE fun x hx => hlt x (List.mem_cons_of_mem _ hx))
        have hlt' : ∀ x ∈ as, x < conv + 1 := fun x hx =>
          Nat.lt_succ_of_lt (hlt x (List.mem_cons_of_mem _ hx))
        have := ih h' (conv + 1) as hp' hlen' hlt'
        rw [hcase]
        by_cases hk : as.length < k
        · rw [if_pos hk] at this
          rw [if_pos (by simpa using hk)]
          obtain ⟨h'', e1, e2, e3, e4⟩ := this
          have hE2 : Ext (conv + 1) 0 h' h'' := by
            have := cloneLoop_ext (n := conv + 1) (m := 0) k h' (conv + 1) (by omega) (Nat.le_refl _)
            rwa [e1] at this
          refine ⟨h'', e1, ?_, ?_, ?_⟩
          · have hc' : h'.nodes[conv]? = some { nd with pred := some (conv + 1) } := by
              simp only [h', modify_nodes, if_true]
              simp only [alloc]
              rw [List.getElem?_append_left (by omega), h1]
              simp [hlen]
            have hc'' : h''.nodes[conv]? = some { nd with pred := some (conv + 1) } := by
              rw [hE2.nodes conv (by omega), hc']
            simp only [List.length_cons, List.range'_succ]
            exact .step hc'' rfl e2
          · simp only [List.length_cons, List.range'_succ, List.map_cons]
            congr 1
            · rw [e4]
              simp only [stageAt, hnode, hndb]
              rfl
            · rw [e3]
              apply List.map_congr_left
              intro x hx
              exact hE.stageAt (hlt x (List.mem_cons_of_mem _ hx))
          · rw [hE2.stageAt (by omega)]
            simp only [h']
            rw [stageAt_modify _ _ _ (by intro n; rfl)]
            simp only [stageAt, alloc]
            rw [List.getElem?_append_left (by omega)]
        · rw [if_neg hk] at this
          rw [if_neg (by simpa using hk)]
          exact this

/-- `clone`: a fresh copy of the whole chain, or an exception when it has more than `k` objects. -/
theorem clone_spec (k : Nat) (h : Heap P) (a : Addr) (as : List Addr) (hp : Path h a as) :
    if as.length ≤ k then
      ∃ h', clone k h a = (h', .ok h.nodes.length) ∧
        Path h' h.nodes.length (List.range' h.nodes.length as.length) ∧
        (List.range' h.nodes.length as.length).map (stageAt h') = as.map (stageAt h)
    else ∃ h', clone k h a = (h', .error .tooLongPipe) := by
  obtain ⟨nd, hnd⟩ : ∃ nd, h.nodes[a]? = some nd := by
    cases hp with
    | last q => exact ⟨_, q⟩
    | step q => exact ⟨_, q⟩
  have hcl : cloneOne h a = some (alloc h nd) := by simp [cloneOne, hnd]
  let h1 := (alloc h nd).1
  let r := h.nodes.length
  have hnode : h1.nodes[r]? = some { nd with number := h.counter } := by simp [h1, r, alloc]
  have hE : Ext r 0 h h1 := alloc_ext h nd (Nat.le_refl _)
  have hlt := hp.lt
  cases as with
  | nil => exact absurd rfl hp.ne_nil
  | cons a' as =>
    have ha : a' = a := by cases hp <;> rfl
    subst ha
    have hp1 : Path h1 r (r :: as) := by
      cases hp with
      | last q1 q2 =>
        rw [hnd] at q1; cases q1
        exact .last hnode q2
      | step q1 q2 q3 =>
        rw [hnd] at q1; cases q1
        exact .step hnode q2 (q3.ext hE fun x hx => hlt x (List.mem_cons_of_mem _ hx))
    have := cloneLoop_spec k h1 r as hp1 (by simp [h1, r, alloc])
      (fun x hx => hlt x (List.mem_cons_of_mem _ hx))
    have hcl' : clone k h a' = match cloneLoop k h1 r with
        | (h2, .ok _) => (h2, .ok r)
        | (h2, .error e) => (h2, .error e) := by
      simp only [clone, hcl]
      rfl
    by_cases hk : as.length < k
    · rw [if_pos hk] at this
      rw [if_pos (by simp; omega)]
      obtain ⟨h', e1, e2, e3, e4⟩ := this
      refine ⟨h', ?_, ?_, ?_⟩
      · rw [hcl', e1]
      · simpa [List.range'_succ, r] using e2
      · simp only [List.length_cons, List.range'_succ, List.map_cons]
        congr 1
        · show stageAt h' r = _
          rw [e4]
          simp only [stageAt, hnode, hnd]
          rfl
        · rw [show h.nodes.length = r from rfl, e3]
          apply List.map_congr_left
          intro x hx
          exact hE.stageAt (hlt x (List.mem_cons_of_mem _ hx))
    · rw [if_neg hk] at this
      rw [if_neg (by simp; omega)]
      obtain ⟨h', e⟩ := this
      exact ⟨h', by rw [hcl', e]⟩

/-- `set_predefined_input`: the input's chain is appended to a chain of other objects. -/
theorem setInputLoop_spec (inp : Addr) (k : Nat) : ∀ (h : Heap P) (a : Addr) (rs ss : List Addr),
    Path h a rs → Path h inp ss → (∀ x ∈ rs, x ∉ ss) → rs.Nodup →
    if rs.length ≤ k then
      ∃ h', setInputLoop inp k h a = (h', .ok ()) ∧ Path h' a (rs ++ ss) ∧
        ∀ x, stageAt h' x = stageAt h x
    else ∃ h', setInputLoop inp k h a = (h', .error .failedToSetInput) := by
  induction k with
  | zero =>
    intro h a rs ss hp _ _ _
    rw [if_neg (by have := hp.ne_nil; cases rs <;> simp_all)]
    exact ⟨h, rfl⟩
  | succ k ih =>
    intro h a rs ss hp hs hd hnd
    cases hp with
    | @last _ nd h1 h2 =>
      rw [if_pos (by simp)]
      refine ⟨_, by simp [setInputLoop, h1, h2]; rfl, ?_, ?_⟩
      · obtain ⟨nd', e1, _⟩ : ∃ nd', (dependsOn h a inp).nodes[a]? = some nd' ∧ True := by
          simp [dependsOn, modify_nodes, h1]
        refine .step (b := inp) (nd := { nd' with pred := some inp }) ?_ rfl ?_
        · simp [modify_nodes, e1]
        · refine hs.congr fun x hx => ?_
          rw [modify_nodes, if_neg, pred_dependsOn]
          intro e; subst e
          exact hd a (by simp) hx
      · intro x
        rw [stageAt_modify _ _ _ (by intro n; rfl), stageAt_dependsOn]
    | @step _ nd b rs' h1 h2 h3 =>
      have hE : ∀ x : Nat, ((dependsOn h a inp).nodes[x]?).map (·.pred) = (h.nodes[x]?).map (·.pred) :=
        pred_dependsOn h a inp
      have hcase : setInputLoop inp (k + 1) h a = setInputLoop inp k (dependsOn h a inp) b := by
        simp [setInputLoop, h1, h2]
      have hnd' := List.nodup_cons.1 hnd
      have := ih (dependsOn h a inp) b rs' ss (h3.congr fun x _ => hE x) (hs.congr fun x _ => hE x)
        (fun x hx => hd x (List.mem_cons_of_mem _ hx)) hnd'.2
      rw [hcase]
      by_cases hk : rs'.length ≤ k
      · rw [if_pos hk] at this
        rw [if_pos (by simpa using hk)]
        obtain ⟨h', e1, e2, e3⟩ := this
        refine ⟨h', e1, ?_, fun x => by rw [e3, stageAt_dependsOn]⟩
        have hkeep : (h'.nodes[a]?).map (·.pred) = some (some b) := by
          have hframe : ∀ (k : Nat) (h : Heap P) (c : Addr) (cs : List Addr), Path h c cs → a ∉ cs →
              ((setInputLoop inp k h c).1.nodes[a]?).map (·.pred) = (h.nodes[a]?).map (·.pred) := by
            intro k
            induction k with
            | zero => intro h c cs _ _; rfl
            | succ k ihk =>
              intro h c cs pc hac
              cases pc with
              | last q1 q2 =>
                simp only [setInputLoop, q1, q2]
                rw [modify_nodes, if_neg (by simpa [eq_comm] using hac), pred_dependsOn]
              | step q1 q2 q3 =>
                simp only [setInputLoop, q1, q2]
                rw [ihk _ _ _ (q3.congr fun x _ => pred_dependsOn h _ inp x)
                  (fun hm => hac (List.mem_cons_of_mem _ hm)), pred_dependsOn]
          have hf := hframe k (dependsOn h a inp) b rs' (h3.congr fun x _ => hE x) hnd'.1
          rw [e1] at hf
          rw [hf, hE, h1]
          simp [h2]
        obtain ⟨nd', f1, f2⟩ := Option.map_eq_some_iff.1 hkeep
        exact .step f1 f2 e2
      · rw [if_neg hk] at this
        rw [if_neg (by simpa using hk)]
        exact this

/-- `set_predefined_input` touches only the objects of the chain. -/
theorem setInputLoop_ext {n m : Nat} (inp : Addr) (k : Nat) : ∀ (h : Heap P) (a : Addr)
    (rs : List Addr), Path h a rs → (∀ x ∈ rs, n ≤ x) → Ext n m h (setInputLoop inp k h a).1 := by
  induction k with
  | zero => intro h a rs _ _; exact Ext.refl _ _ _
  | succ k ih =>
    intro h a rs hp hn
    cases hp with
    | last h1 h2 =>
      simp only [setInputLoop, h1, h2]
      have ha : n ≤ a := hn a (by simp)
      exact (dependsOn_ext h inp ha).trans (modify_ext _ _ ha)
    | step h1 h2 h3 =>
      simp only [setInputLoop, h1, h2]
      have ha : n ≤ a := hn a (by simp)
      exact (dependsOn_ext h inp ha).trans
        (ih _ _ _ (h3.congr fun x _ => pred_dependsOn h a inp x)
          fun x hx => hn x (List.mem_cons_of_mem _ hx))

/-- If `clone` succeeds, the whole chain of the result is fresh. -/
theorem cloneLoop_fresh {n : Nat} (k : Nat) : ∀ (h h' : Heap P) (conv : Addr), n ≤ conv →
    conv < h.nodes.length → cloneLoop k h conv = (h', .ok ()) →
    ∃ rs, Path h' conv rs ∧ ∀ x ∈ rs, n ≤ x := by
  induction k with
  | zero => intro h h' conv _ _ e; simp [cloneLoop] at e
  | succ k ih =>
    intro h h' conv hn hlt e
    simp only [cloneLoop] at e
    split at e
    · simp at e
    · rename_i nd h1
      split at e
      · rename_i h2
        simp only [Prod.mk.injEq, and_true] at e
        subst e
        exact ⟨[conv], .last h1 h2, by simpa using hn⟩
      · split at e
        · simp at e
        · rename_i p _ h1' p' hcl
          obtain ⟨ndp, _, e'⟩ := cloneOne_some hcl
          obtain ⟨rfl, rfl⟩ := Prod.mk.inj e'
          have hlen : h.nodes.length < ((modify (alloc h ndp).1 conv
              fun m => { m with pred := some (alloc h ndp).2 })).nodes.length := by
            simp [modify, alloc]
          obtain ⟨rs, q1, q2⟩ := ih _ h' (alloc h ndp).2 (by simp [alloc]; omega) (by
            simpa [alloc] using hlen) e
          have hE := cloneLoop_ext (n := h.nodes.length) (m := 0) k (modify (alloc h ndp).1 conv
              fun m => { m with pred := some (alloc h ndp).2 }) (alloc h ndp).2 (Nat.le_of_lt hlen)
              (by simp [alloc])
          have hE : Ext h.nodes.length 0 (modify (alloc h ndp).1 conv
              fun m => { m with pred := some (alloc h ndp).2 }) h' := by
            have e0 : cloneLoop k (modify (alloc h ndp).1 conv
              fun m => { m with pred := some (alloc h ndp).2 }) (alloc h ndp).2 = (h', .ok ()) := e
            rwa [e0] at hE
          have hc : h'.nodes[conv]? = some { nd with pred := some (alloc h ndp).2 } := by
            rw [hE.nodes conv hlt, modify_nodes, if_pos rfl]
            simp only [alloc]
            rw [List.getElem?_append_left hlt, h1]
            simp
          exact ⟨conv :: rs, .step hc rfl q1, by
            intro x hx
            cases List.mem_cons.1 hx with
            | inl e => exact e ▸ hn
            | inr e => exact q2 x e⟩

theorem clone_fresh {n : Nat} (k : Nat) (h h' : Heap P) (a r : Addr) (hn : n ≤ h.nodes.length)
    (e : clone k h a = (h', .ok r)) : (∃ rs, Path h' r rs ∧ ∀ x ∈ rs, n ≤ x) ∧ n ≤ r := by
  simp only [clone] at e
  split at e
  · simp at e
  · rename_i h1 r1 hcl
    obtain ⟨nd, _, e'⟩ := cloneOne_some hcl
    obtain ⟨rfl, rfl⟩ := Prod.mk.inj e'
    split at e
    · rename_i h2 _ heq
      simp only [Prod.mk.injEq, Except.ok.injEq] at e
      obtain ⟨rfl, rfl⟩ := e
      have : n ≤ (alloc h nd).2 := by simpa [alloc] using hn
      exact ⟨cloneLoop_fresh k _ _ _ this (by simp [alloc]) heq, this⟩
    · simp at e

end Verif.Heap
