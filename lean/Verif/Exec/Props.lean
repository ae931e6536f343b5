import Verif.Exec.Gen
import Verif.Expr.Props

/-!
# Exec: property C51

The text of a converter, read by Python's grammar and run in the module it is executed in, does what the conversion
means.  The reference for the meaning is `den` of `Verif/Expr/Spec.lean`; the reference for texts is `Source` of
`Verif/Stmt/Read.lean`; Python's evaluation of what was read is `Exec/Model.lean`.
-/

set_option autoImplicit false

namespace Verif.Exec

open Verif.Expr Verif.Text

section
variable {Val U Err : Type} {R : Runtime Val U Err} {fuel : Nat} {N : Names Val} {G : Globals Val}
  {printable : Char → Bool} {A : Env Val} {var : String → String}

/-- The texts of the statements of a converter (base.py 560-579). -/
def bodyText (N : Names Val) (var : String → String) (c : Conv Val) : List (String × String) :=
  (genStages N var (stages c) "data_" 0).map (fun s => (s.1, render N s.2))

/-- The text of a converter (base.py 533-585). -/
def sourceText (N : Names Val) (var : String → String) (name : String) (method classMethod : Bool) (c : Conv Val) :
    List Char :=
  converterText name (signatureText method classMethod (kwNames c)) (bodyText N var c)

/-- The functions defined while the code of a converter is generated. -/
def bodyHelpers (N : Names Val) (var : String → String) (c : Conv Val) : List (PyExpr Val) :=
  (genStages N var (stages c) "data_" 0).flatMap (fun s => helpers s.2)

/-- Labels by their names, as the conversion sees them: labels of the user, and labels made by `If`. -/
def split (N : Names Val) (t : St Val U) : St Val U :=
  ⟨t.labels, fun p => t.labels (N.cached p), t.u⟩

theorem joined_split (t : St Val U) : Joined N (split N t) t := ⟨rfl, fun _ _ => rfl, fun _ => rfl⟩

theorem mem_stages_args : ∀ (c : Conv Val) {d : Conv Val}, d ∈ stages c → ∀ a ∈ d.args, a ∈ c.args
  | .pipe a b, d, h, x, hx => by
    rw [stages, List.mem_append, List.mem_singleton] at h
    rw [Conv.args, List.mem_append]
    rcases h with h | rfl
    · exact Or.inl (mem_stages_args a h x hx)
    · exact Or.inr hx
  | .this, _, h, _, hx | .naive _, _, h, _, hx | .arg _, _, h, _, hx | .label _, _, h, _, hx
  | .lookup _ _ _, _, h, _, hx | .lookupD _ _ _ _, _, h, _, hx | .call _ _ _, _, h, _, hx
  | .boolop _ _, _, h, _, hx | .eqs _, _, h, _, hx | .not _, _, h, _, hx | .bin _ _ _, _, h, _, hx
  | .neg _, _, h, _, hx | .ifc _ _ _ _, _, h, _, hx | .comp _ _ _ _ _ _, _, h, _, hx | .coll _ _, _, h, _, hx
  | .dict _, _, h, _, hx | .opt _ _, _, h, _, hx | .caching _ _ _ _, _, h, _, hx | .tap _ _, _, h, _, hx
  | .mutSetItem _ _, _, h, _, hx | .mutSetAttr _ _, _, h, _, hx | .mutDelItem _, _, h, _, hx
  | .mutDelAttr _, _, h, _, hx | .mutCustom _, _, h, _, hx => by
    rw [stages, List.mem_singleton] at h
    · exact h ▸ hx
    · intro _ _ h; cases h

theorem mem_stages_labels : ∀ (c : Conv Val) {d : Conv Val}, d ∈ stages c → ∀ a ∈ labelsOf d, a ∈ labelsOf c
  | .pipe a b, d, h, x, hx => by
    rw [stages, List.mem_append, List.mem_singleton] at h
    rw [labelsOf, List.mem_append]
    rcases h with h | rfl
    · exact Or.inl (mem_stages_labels a h x hx)
    · exact Or.inr hx
  | .this, _, h, _, hx | .naive _, _, h, _, hx | .arg _, _, h, _, hx | .label _, _, h, _, hx
  | .lookup _ _ _, _, h, _, hx | .lookupD _ _ _ _, _, h, _, hx | .call _ _ _, _, h, _, hx
  | .boolop _ _, _, h, _, hx | .eqs _, _, h, _, hx | .not _, _, h, _, hx | .bin _ _ _, _, h, _, hx
  | .neg _, _, h, _, hx | .ifc _ _ _ _, _, h, _, hx | .comp _ _ _ _ _ _, _, h, _, hx | .coll _ _, _, h, _, hx
  | .dict _, _, h, _, hx | .opt _ _, _, h, _, hx | .caching _ _ _ _, _, h, _, hx | .tap _ _, _, h, _, hx
  | .mutSetItem _ _, _, h, _, hx | .mutSetAttr _ _, _, h, _, hx | .mutDelItem _, _, h, _, hx
  | .mutDelAttr _, _, h, _, hx | .mutCustom _, _, h, _, hx => by
    rw [stages, List.mem_singleton] at h
    · exact h ▸ hx
    · intro _ _ h; cases h

theorem mem_stages_objs : ∀ (c : Conv Val) {d : Conv Val}, d ∈ stages c → ∀ a ∈ objsOf d, a ∈ objsOf c
  | .pipe a b, d, h, x, hx => by
    rw [stages, List.mem_append, List.mem_singleton] at h
    rw [objsOf, List.mem_append]
    rcases h with h | rfl
    · exact Or.inl (mem_stages_objs a h x hx)
    · exact Or.inr hx
  | .this, _, h, _, hx | .naive _, _, h, _, hx | .arg _, _, h, _, hx | .label _, _, h, _, hx
  | .lookup _ _ _, _, h, _, hx | .lookupD _ _ _ _, _, h, _, hx | .call _ _ _, _, h, _, hx
  | .boolop _ _, _, h, _, hx | .eqs _, _, h, _, hx | .not _, _, h, _, hx | .bin _ _ _, _, h, _, hx
  | .neg _, _, h, _, hx | .ifc _ _ _ _, _, h, _, hx | .comp _ _ _ _ _ _, _, h, _, hx | .coll _ _, _, h, _, hx
  | .dict _, _, h, _, hx | .opt _ _, _, h, _, hx | .caching _ _ _ _, _, h, _, hx | .tap _ _, _, h, _, hx
  | .mutSetItem _ _, _, h, _, hx | .mutSetAttr _ _, _, h, _, hx | .mutDelItem _, _, h, _, hx
  | .mutDelAttr _, _, h, _, hx | .mutCustom _, _, h, _, hx => by
    rw [stages, List.mem_singleton] at h
    · exact h ▸ hx
    · intro _ _ h; cases h

/-- What is asked of the stages of a converter. -/
structure StageOk (N : Names Val) (G : Globals Val) (c : Conv Val) : Prop where
  readable : readable c none = true
  runnable : runnable c = true
  fit : Fit N G c.args (labelsOf c) (objsOf c)

/-- How deep calls are nested in the statements of a converter. -/
def bodyDepth : List (String × PyExpr Val) → Nat
  | [] => 0
  | s :: rest => max (depth s.2) (bodyDepth rest)

section
variable (hN : PyNames printable N) (hM : Module G) (hp : ∀ t, varName G (N.param t))
  (hv : ∀ t, isName (var t) = true ∧ G (var t) = none)
include hN hM hp hv

theorem own_stages : ∀ (cs : List (Conv Val)) (input : String) (n : Nat), isName input = true → G input = none →
    (∀ c ∈ cs, StageOk N G c) → ∀ s ∈ genStages N var cs input n, wf N s.2 = true ∧ Own N G s.2
  | [], _, _, _, _, _, s, hs => by simp [genStages] at hs
  | c :: cs, input, n, hi, hg, hc, s, hs => by
    simp only [genStages, List.mem_cons] at hs
    have h := hc c List.mem_cons_self
    have hin : Own N G (.name input : PyExpr Val) := by
      simp only [Own]
      simp only [isName, Bool.and_eq_true, Bool.not_eq_true'] at hi
      exact ⟨hg, hi.2⟩
    rcases hs with rfl | hs
    · exact ⟨wf_gen hN c false _ _ none name_konst (by simp only [wf]; exact hi) h.readable,
        own_gen hN hM hp c false _ _ none hin h.readable h.runnable h.fit⟩
    · exact own_stages cs (var input) (n + 1) (hv _).1 (hv _).2 (fun d hd => hc d (List.mem_cons_of_mem _ hd)) s hs

end

theorem runStages_cons (st : String × PyExpr Val) (st' : String × PyExpr Val) (rest : List (String × PyExpr Val))
    (ρ : Env Val) : runStages R fuel (st :: st' :: rest) ρ =
      (eval R fuel st.2 ρ >>= fun v => runStages R fuel (st' :: rest) (ρ.set st.1 v)) := by
  simp only [runStages]

/-- The statements of a converter. -/
def stageStmts (N : Names Val) : List (String × PyExpr Val) → List Stmt.Stmt
  | [] => []
  | [(_, e)] => [.ret (tree N e)]
  | (x, e) :: st :: rest => .assign [.name x] (tree N e) :: stageStmts N (st :: rest)

theorem stages_of (hN : PyNames printable N) : ∀ (ss : List (String × PyExpr Val)), ss ≠ [] →
    (∀ s ∈ ss, isName s.1 = true ∧ wf N s.2 = true) →
    ∃ ts, Stages (ss.map (fun s => (s.1, render N s.2))) ts (stageStmts N ss)
  | [], hne, _ => absurd rfl hne
  | [(x, e)], _, h => ⟨_, .last (code_of hN (h _ List.mem_cons_self).2)⟩
  | (x, e) :: st :: rest, _, h => by
    obtain ⟨ts, ih⟩ := stages_of hN (st :: rest) (by simp) (fun s hs => h s (List.mem_cons_of_mem _ hs))
    obtain ⟨h1, h2⟩ := h _ List.mem_cons_self
    exact ⟨_, .cons h1 (code_of hN h2) ih⟩

theorem yields_stages : ∀ ss : List (String × PyExpr Val), yieldsAny (stageStmts N ss) = false
  | [] => rfl
  | [(_, _)] => rfl
  | (x, e) :: st :: rest => by
    simp only [stageStmts, yieldsAny, yields, yields_stages (st :: rest), Bool.or_false]

section
variable (hR : PyConsts R N) (hM : Module G) (hc : ∀ p q, N.cached p = N.cached q → p = q)
include hR hM hc

theorem same_stages : ∀ (ss : List (String × PyExpr Val)) (n : Nat) (ρ : Env Val), ss ≠ [] →
    (∀ s ∈ ss, varName G s.1 ∧ Own N G s.2 ∧ Defined N G (helpers s.2)) → bodyDepth ss ≤ n → Clear G ρ →
    Same N (runStages R fuel ss ρ) (execAll R fuel G (calls R fuel G n) (stageStmts N ss) ρ >>= result R)
  | [], n, ρ, hne, _, _, _ => absurd rfl hne
  | [s], n, ρ, _, h, hn, hρ => by
    simp only [runStages, stageStmts, execAll, exec, bind_bind, pure_bind_eq, result, bind_pure_eq]
    obtain ⟨_, ho, hd⟩ := h s List.mem_cons_self
    exact same_run hR hM hc s.2 n ρ ho hd (Nat.le_trans (Nat.le_max_left _ _) hn) hρ
  | s :: s' :: rest, n, ρ, _, h, hn, hρ => by
    rw [runStages_cons]
    simp only [stageStmts, execAll, exec, bind_bind, pure_bind_eq]
    obtain ⟨hx, ho, hd⟩ := h s List.mem_cons_self
    refine (same_run hR hM hc s.2 n ρ ho hd (Nat.le_trans (Nat.le_max_left _ _) hn) hρ).bind (fun v => ?_)
    exact same_stages (s' :: rest) n (ρ.set s.1 v) (by simp) (fun t ht => h t (List.mem_cons_of_mem _ ht))
      (Nat.le_trans (Nat.le_max_right _ _) hn) (hρ.set hx v)

end

theorem genStages_var : ∀ (cs : List (Conv Val)) (input : String) (n : Nat), ∀ s ∈ genStages N var cs input n,
    ∃ t, s.1 = var t
  | [], _, _, s, hs => by simp [genStages] at hs
  | c :: cs, input, n, s, hs => by
    simp only [genStages, List.mem_cons] at hs
    rcases hs with rfl | hs
    · exact ⟨input, rfl⟩
    · exact genStages_var cs _ _ s hs

theorem genStages_ne {cs : List (Conv Val)} {input : String} {n : Nat} (h : cs ≠ []) :
    genStages N var cs input n ≠ [] := by
  cases cs with
  | nil => exact absurd rfl h
  | cons c cs => simp [genStages]

theorem stages_ne (c : Conv Val) : stages c ≠ [] := by
  cases c <;> simp [stages]

theorem bind_none : ∀ (ps : List String) (vs : List Val) {n : String}, n ∉ ps → bind ps vs n = none
  | [], _, _, _ => by simp [bind]
  | _ :: _, [], _, _ => by simp [bind]
  | p :: ps, v :: vs, n, h => by
    simp only [List.mem_cons, not_or] at h
    simp only [bind, Env.set, if_neg h.1, bind_none ps vs h.2]

theorem bind_some : ∀ (ps : List String) (vs : List Val) {n : String}, ps.length = vs.length → n ∈ ps →
    (bind ps vs n).isSome = true
  | [], _, _, _, h => by cases h
  | _ :: _, [], _, hl, _ => by simp at hl
  | p :: ps, v :: vs, n, hl, h => by
    simp only [bind, Env.set]
    split
    · rfl
    · rename_i hne
      refine bind_some ps vs (by simpa using hl) ?_
      rcases List.mem_cons.mp h with h | h
      · exact absurd h hne
      · exact h

theorem bind_insert {x : String} (v : Val) (qs : List String) (ws : List Val) : ∀ (ps : List String) (vs : List Val),
    ps.length = vs.length → x ∉ ps → bind (ps ++ x :: qs) (vs ++ v :: ws) = (bind (ps ++ qs) (vs ++ ws)).set x v
  | [], [], _, _ => rfl
  | [], _ :: _, h, _ => by simp at h
  | _ :: _, [], h, _ => by simp at h
  | p :: ps, w :: vs, h, hx => by
    simp only [List.mem_cons, not_or] at hx
    simp only [List.cons_append, bind]
    rw [bind_insert v qs ws ps vs (by simpa using h) hx.2]
    funext n
    simp only [Env.set]
    by_cases h1 : n = p
    · subst h1
      simp [Ne.symm hx.1]
    · simp [h1]

/-- The parameters before `data_`. -/
def receivers (method classMethod : Bool) : List String :=
  (if method then ["self"] else []) ++ (if classMethod then ["cls"] else [])

theorem positional_eq (m k : Bool) : positional m k = receivers m k ++ ["data_"] := rfl

theorem mem_kwNames {c : Conv Val} {a : String} : a ∈ kwNames c ↔ a ∈ c.args ∧ a ≠ "self" ∧ a ≠ "cls" := by
  simp [kwNames, mem_sortedArgs]

theorem params_distinct {m k : Bool} {c : Conv Val} (hd : "data_" ∉ c.args) : (positional m k ++ kwNames c).Nodup := by
  have h1 : (kwNames c).Nodup := (sortedArgs_nodup _).filter _
  have h2 : "data_" ∉ kwNames c := fun h => hd (mem_kwNames.mp h).1
  have h3 : "self" ∉ kwNames c := fun h => (mem_kwNames.mp h).2.1 rfl
  have h4 : "cls" ∉ kwNames c := fun h => (mem_kwNames.mp h).2.2 rfl
  cases m <;> cases k <;> simp [positional, h1, h2, h3, h4]

section
variable (hN : PyNames printable N) (hM : Module G) (hp : ∀ t, varName G (N.param t))
  (hv : ∀ t, isName (var t) = true ∧ G (var t) = none)
include hN hM hp hv

theorem defines_source {c : Conv Val} (hc : ∀ d ∈ stages c, readable d none = true ∧ runnable d = true)
    {name : String} (hname : isName name = true) (m k : Bool) (hargs : ∀ a ∈ c.args, isName a = true)
    (hnames : Fit N G c.args (labelsOf c) (objsOf c)) :
    Defines (sourceText N var name m k c) name
      ⟨positional m k, kwNames c, globalStmt :: stageStmts N (genStages N var (stages c) "data_" 0)⟩ := by
  have hs : ∀ d ∈ stages c, StageOk N G d := fun d hd =>
    ⟨(hc d hd).1, (hc d hd).2, hnames.mono (mem_stages_args c hd) (mem_stages_labels c hd) (mem_stages_objs c hd)⟩
  have hd : isName "data_" = true := by decide +kernel
  have how := own_stages hN hM hp hv (stages c) "data_" 0 hd hM.data hs
  have hne : genStages N var (stages c) "data_" 0 ≠ [] := genStages_ne (stages_ne c)
  have hvn : ∀ s ∈ genStages N var (stages c) "data_" 0, isName s.1 = true := by
    intro s h
    obtain ⟨x, hx⟩ := genStages_var _ _ _ s h
    exact hx ▸ (hv x).1
  obtain ⟨ts, hst⟩ := stages_of hN _ hne (fun s h => ⟨hvn s h, (how s h).1⟩)
  exact defines_converter hname (List.all_eq_true.mpr (fun a ha => hargs a (mem_kwNames.mp ha).1))
    (params_distinct (fun h => (hnames.args _ h).2 rfl)) hst

/-- The module can be loaded: the texts of the functions are read as their definitions. -/
theorem loaded_of {c : Conv Val} (hc : ∀ d ∈ stages c, readable d none = true ∧ runnable d = true)
    (hnames : Fit N G c.args (labelsOf c) (objsOf c))
    (h : ∀ e ∈ bodyHelpers N var c, G (helperName e) = some (.def_ (helperDef N e))) :
    Loaded N G (bodyHelpers N var c) := by
  have hs : ∀ d ∈ stages c, StageOk N G d := fun d hd =>
    ⟨(hc d hd).1, (hc d hd).2, hnames.mono (mem_stages_args c hd) (mem_stages_labels c hd) (mem_stages_objs c hd)⟩
  have hd : isName "data_" = true := by decide +kernel
  have how := own_stages hN hM hp hv (stages c) "data_" 0 hd hM.data hs
  intro e he
  obtain ⟨s, h1, h2⟩ := List.mem_flatMap.mp he
  exact ⟨_, (readsHelpers hN s.2 (how s h1).1 (how s h1).2 e h2).2, h e he⟩

end

/-- **C51** (partial): the text of a converter is read by Python in exactly one way, as the definition of one function
with the parameters `self` or `cls` of methods, `data_`, and the input arguments as keyword-only parameters; and calling
this function, in a module whose functions are read from the generated texts, gives the value or the exception, the
labels and the effects of the conversion, on every input, if calls may be nested deep enough.

What is missing: `readable` and `ok` exclude conversions for which the claim is false (`C48_refuted_*`,
`C13_refuted_*` and others); names of arguments, labels and variables must be different from names of the module;
Python's second truth test in `(a and None or b)` gives what the first one gave (`PyConsts.again`). -/
theorem C51_text_partial (hnone : NoneFalsy R) (hok : NamesOk N) (hvar : ∀ t, VarOk N (var t)) (tp : Bool)
    (ht : tp = true → ∀ v u, ∃ b, R.truthy v u = (.ok b, u)) (hN : PyNames printable N) (hR : PyConsts R N)
    (hM : Module G) (hcached : ∀ p q, N.cached p = N.cached q → p = q) (hp : ∀ t, varName G (N.param t))
    (hv : ∀ t, isName (var t) = true ∧ G (var t) = none) (c : Conv Val)
    (hc : ∀ d ∈ stages c, d.ok tp true = true ∧ readable d none = true ∧ runnable d = true)
    (name : String) (hname : isName name = true) (method classMethod : Bool)
    (hself : "self" ∈ c.args → method = true) (hcls : "cls" ∈ c.args → classMethod = true)
    (hfree : ∀ a ∈ receivers method classMethod, G a = none)
    (hargs : ∀ a ∈ c.args, isName a = true ∧ ∀ t, N.param t ≠ a ∧ var t ≠ a)
    (hnames : Fit N G c.args (labelsOf c) (objsOf c)) (hload : Loaded N G (bodyHelpers N var c)) :
    ∃ body, (∀ b, Stmt.Source (sourceText N var name method classMethod c) b ↔
        b = [.def_ name (receivers method classMethod ++ ["data_"]) (kwNames c) body]) ∧
      ∃ n0, ∀ n, n0 ≤ n → ∀ (recv vals : List Val) (data : Val) (t : St Val U),
        recv.length = (receivers method classMethod).length → vals.length = (kwNames c).length →
        let r := callConverter R fuel G (calls R fuel G n)
          ⟨receivers method classMethod ++ ["data_"], kwNames c, body⟩ (recv ++ [data]) vals t
        let r' := den R fuel (bind (receivers method classMethod ++ kwNames c) (recv ++ vals)) c data (split N t)
        r.1 = r'.1 ∧ r.2.u = r'.2.u ∧ ∀ l, (∀ p, N.cached p ≠ l) → r.2.labels l = r'.2.labels l := by
  have hs : ∀ d ∈ stages c, StageOk N G d := fun d hd =>
    ⟨(hc d hd).2.1, (hc d hd).2.2, hnames.mono (mem_stages_args c hd) (mem_stages_labels c hd) (mem_stages_objs c hd)⟩
  have hd : isName "data_" = true := by decide +kernel
  have how := own_stages hN hM hp hv (stages c) "data_" 0 hd hM.data hs
  have hne : genStages N var (stages c) "data_" 0 ≠ [] := genStages_ne (stages_ne c)
  have hvn : ∀ s ∈ genStages N var (stages c) "data_" 0, isName s.1 = true ∧ G s.1 = none := by
    intro s h
    obtain ⟨x, hx⟩ := genStages_var _ _ _ s h
    exact hx ▸ hv x
  have hdata : "data_" ∉ c.args := fun h => (hnames.args _ h).2 rfl
  have hdef := defines_source hN hM hp hv (fun d hd => (hc d hd).2) hname method classMethod
    (fun a ha => (hargs a ha).1) hnames
  refine ⟨_, fun b => ⟨fun h => source_unique h hdef, fun h => h ▸ hdef⟩,
    bodyDepth (genStages N var (stages c) "data_" 0), fun n hn recv vals data t hl1 hl2 => ?_⟩
  have hall : ∀ s ∈ genStages N var (stages c) "data_" 0,
      varName G s.1 ∧ Own N G s.2 ∧ Defined N G (helpers s.2) := by
    intro s h
    have hn := (hvn s h).1
    simp only [isName, Bool.and_eq_true, Bool.not_eq_true'] at hn
    refine ⟨⟨(hvn s h).2, hn.2⟩, (how s h).2, defined_of_loaded hN (how s h).1 (how s h).2 (fun e he => ?_)⟩
    exact hload e (List.mem_flatMap.mpr ⟨s, h, he⟩)
  have hmem : ∀ a ∈ c.args, a ∈ receivers method classMethod ++ kwNames c := by
    intro a ha
    by_cases h1 : a = "self"
    · subst h1
      simp [receivers, hself ha]
    · by_cases h2 : a = "cls"
      · subst h2
        simp [receivers, hcls ha]
      · exact List.mem_append.mpr (Or.inr (mem_kwNames.mpr ⟨ha, h1, h2⟩))
  have hlen : (receivers method classMethod ++ kwNames c).length = (recv ++ vals).length := by
    simp only [List.length_append, hl1, hl2]
  have hfit : ArgsFit N var (bind (receivers method classMethod ++ kwNames c) (recv ++ vals)) c.args :=
    ⟨fun a ha => bind_some _ _ hlen (hmem a ha), fun a ha h => hdata (h ▸ ha), fun a ha t => ((hargs a ha).2 t).1,
      fun a ha t => ((hargs a ha).2 t).2⟩
  have hA : Clear G (bind (receivers method classMethod ++ kwNames c) (recv ++ vals)) := by
    intro a ha
    refine bind_none _ _ (fun hm => ?_)
    have hz : G a = none := by
      rcases List.mem_append.mp hm with hm | hm
      · exact hfree a hm
      · exact (hnames.args a (mem_kwNames.mp hm).1).1.1
    rw [hz] at ha
    cases ha
  have hclear := hA.set (x := "data_") ⟨hM.data, by decide⟩ data
  obtain ⟨h1, h2⟩ := same_stages (fuel := fuel) hR hM hcached _ n _ hne hall hn hclear (split N t) t (joined_split t)
  have h3 := C13_checked_partial (fuel := fuel) hnone hok hvar tp ht c (fun d hd => (hc d hd).1) hfit data (split N t)
  simp only [converter, view, Prod.mk.injEq] at h3
  have hdr : "data_" ∉ receivers method classMethod := by cases method <;> cases classMethod <;> decide
  have hcall : callConverter R fuel G (calls R fuel G n)
      ⟨receivers method classMethod ++ ["data_"], kwNames c,
        globalStmt :: stageStmts N (genStages N var (stages c) "data_" 0)⟩ (recv ++ [data]) vals =
      (execAll R fuel G (calls R fuel G n) (stageStmts N (genStages N var (stages c) "data_" 0))
        ((bind (receivers method classMethod ++ kwNames c) (recv ++ vals)).set "data_" data) >>= result R) := by
    have hy : yieldsAny (globalStmt :: stageStmts N (genStages N var (stages c) "data_" 0)) = false := by
      simp only [globalStmt, yieldsAny, yields, yields_stages, Bool.or_false]
    unfold callConverter
    rw [if_pos ⟨by simp [hl1], hl2, hy⟩]
    have := bind_insert (x := "data_") data (kwNames c) vals (receivers method classMethod) recv hl1.symm hdr
    simp only [List.append_assoc, List.cons_append, List.nil_append, this, globalStmt, execAll, exec, pure_bind_eq]
  simp only [hcall]
  exact ⟨h1.symm.trans h3.1, h2.u.symm.trans h3.2.2, fun l hl => (h2.user l hl).symm.trans (congrFun h3.2.1 l)⟩

end

/-! ### An example -/

namespace Demo

open Toy (V E World)

/-- The runtime of the examples, with `-n` and `KeyError` for labels. -/
def R : Runtime V World E :=
  { Toy.R with
    op := fun o xs w =>
      match o, xs with
      | .neg, [.int i] => (.ok (.int (-i)), w)
      | _, _ => Toy.op o xs w
    labelError := fun _ => .key }

/-- Places as words: `1, 2` is `abaab`. -/
def word : List Nat → List Char
  | [] => []
  | n :: p => List.replicate n 'a' ++ 'b' :: word p

/-- Names: `repr` of constants, one name for objects, one for each kind of function. -/
def N : Names V where
  const
    | .none => "None"
    | .bool b => if b then "True" else "False"
    | .int i => String.ofList (reprInt i)
    | .str s => String.ofList (reprStr ascii s.toList)
    | .obj _ => "inc_"
  param _ := "i_"
  helper t _ := if t = "get_or_default" then "get_or_default_" else if t = "tap" then "tap_" else "items_"
  cached p := String.ofList ('c' :: '_' :: word p)

theorem word_plain (p : List Nat) : plainText (word p) = true := by
  induction p with
  | nil => rfl
  | cons n p ih =>
    have h : ∀ m, plainText (List.replicate m 'a' ++ 'b' :: word p) = true := by
      intro m
      induction m with
      | zero => simpa [plainText] using ih
      | succ m ih =>
        rw [List.replicate_succ]
        simpa [plainText] using ih
    exact h n

theorem names : PyNames ascii N where
  none := rfl
  bool _ := rfl
  int _ := rfl
  str _ := rfl
  obj _ := show isName "inc_" = true by decide +kernel
  param _ := show isName "i_" = true by decide +kernel
  helper t _ := by
    simp only [N]
    split
    · decide +kernel
    · split <;> decide +kernel
  cached p := by
    simp only [N, String.toList_ofList]
    have := word_plain p
    simpa [plainText] using this

theorem word_inj : ∀ p q : List Nat, word p = word q → p = q
  | [], [], _ => rfl
  | [], n :: q, h => by cases n <;> simp [word, List.replicate_succ] at h
  | n :: p, [], h => by cases n <;> simp [word, List.replicate_succ] at h
  | n :: p, m :: q, h => by
    simp only [word] at h
    have key : ∀ n m : Nat, List.replicate n 'a' ++ 'b' :: word p = List.replicate m 'a' ++ 'b' :: word q →
        n = m ∧ word p = word q := by
      intro n
      induction n with
      | zero =>
        intro m h
        cases m with
        | zero => simpa using h
        | succ m => simp [List.replicate_succ] at h
      | succ n ih =>
        intro m h
        cases m with
        | zero => simp [List.replicate_succ] at h
        | succ m =>
          simp only [List.replicate_succ, List.cons_append, List.cons.injEq, true_and] at h
          have := ih m h
          exact ⟨by omega, this.2⟩
    obtain ⟨rfl, h'⟩ := key n m h
    rw [word_inj p q h']

theorem cached_inj (p q : List Nat) (h : N.cached p = N.cached q) : p = q := by
  simp only [N, String.ofList_inj, List.cons.injEq, true_and] at h
  exact word_inj p q h

theorem const_ne (l : Lit V) {s : String} (hs : s = "data_" ∨ s = "obj_" ∨ s = "i_" ∨ s = "" ∨ s = "pipe_") :
    N.const l ≠ s := by
  intro h
  have hd : ∀ n : Nat, ∀ c ∈ (Nat.toDigits 10 n).head?, c.isDigit = true := fun n c hc =>
    Nat.isDigit_of_mem_toDigits (b := 10) (n := n) (by decide) (by decide) (List.mem_of_mem_head? hc)
  cases l with
  | int i =>
    have h := congrArg String.toList h
    simp only [N, String.toList_ofList] at h
    cases i with
    | ofNat n =>
      simp only [reprInt] at h
      have h1 := hd n
      have h2 : Nat.toDigits 10 n ≠ [] := Nat.toDigits_ne_nil
      rw [h] at h1 h2
      rcases hs with rfl | rfl | rfl | rfl | rfl <;> simp at h1 h2
    | negSucc n =>
      simp only [reprInt] at h
      rcases hs with rfl | rfl | rfl | rfl | rfl <;> simp at h
  | str t =>
    have h := congrArg String.toList h
    simp only [N, String.toList_ofList, Text.reprStr] at h
    have hq : quoteFor t.toList = '\'' ∨ quoteFor t.toList = '"' := by
      unfold quoteFor
      split <;> simp
    rcases hq with hq | hq <;> rw [hq] at h <;> rcases hs with rfl | rfl | rfl | rfl | rfl <;> simp at h
  | bool b => cases b <;> rcases hs with rfl | rfl | rfl | rfl | rfl <;> revert h <;> decide
  | none => rcases hs with rfl | rfl | rfl | rfl | rfl <;> revert h <;> decide
  | obj v => rcases hs with rfl | rfl | rfl | rfl | rfl <;> revert h <;> simp [N]

theorem namesOk : NamesOk N where
  paramWord _ := show "i_".toList.all isWord = true by decide
  constParam l _ := const_ne l (by simp [N])
  constData l := const_ne l (by simp)
  constObj l := const_ne l (by simp)
  constText l := const_ne l (by simp)

theorem varOk (t : String) : VarOk N (Toy.var t) :=
  ⟨show "pipe_".toList.all isWord = true by decide, fun l => const_ne l (by simp [Toy.var])⟩

theorem consts : PyConsts R N where
  none _ := rfl
  again v u u' h := by
    simp only [R, Toy.R, Prod.mk.injEq] at h
    simp [R, Toy.R, h.1]
  neg _ _ := rfl
  missing _ := rfl

/-- `c.item("a", default=7)`, then `c.if_(c.this() > 3, inc(c.this()), c.input_arg("k"))`, then a label, then a list
with an optional item. -/
def conv : Conv V :=
  .pipe (.pipe (.pipe (.lookupD false .this [.naive (.str "a")] (.naive (.int 7)))
    (.ifc (.bin .gt .this (.naive (.int 3))) (.call (.naive (.obj (.fn "inc"))) [.this] []) (.arg "k") false))
    (.caching .this "seen" [] []))
    (.coll .list [.bin .add .this (.naive (.int (-1))), .opt .this (.not (.eqs [.this, .label "seen"])), .arg "k"])

/-- The text of the converter. -/
theorem text : sourceText N Toy.var "converter_" false false conv = Agg.joinLines [
    [],
    "def converter_(data_, *, k):".toList,
    "    global add_label_, get_by_label_".toList,
    "    pipe_ = get_or_default_(data_,7)".toList,
    "    pipe_ = (inc_(pipe_) if (pipe_ > 3) else k)".toList,
    "    pipe_ = (add_label_('seen', pipe_) or get_by_label_('seen'))".toList,
    "    return list(items_(pipe_,k))".toList,
    []] := by decide +kernel

/-- The texts of the functions. -/
theorem helperTexts : (bodyHelpers N Toy.var conv).map (fun h => (helperName h, helperText N h)) = [
    ("get_or_default_", Agg.joinLines [
      [],
      "def get_or_default_(obj_, default_):".toList,
      "    global add_label_, get_by_label_".toList,
      "    try:".toList,
      "        return obj_['a']".toList,
      "    except (TypeError, KeyError, IndexError, AttributeError):".toList,
      "        return default_".toList,
      []]),
    ("items_", Agg.joinLines [
      [],
      "def items_(data_, k):".toList,
      "    yield (data_ + -1)".toList,
      "    if (not (data_ == get_by_label_('seen'))):".toList,
      "        yield data_".toList,
      "    yield k".toList,
      "        ".toList])] := by decide +kernel

/-- The functions in the module. -/
def getOrDefault : Def where
  params := ["obj_", "default_"]
  kwOnly := []
  body := [.global ["add_label_", "get_by_label_"],
    .try_ [.ret (.sub (.name "obj_") (.str ['a']))]
      (.display .tuple [.name "TypeError", .name "KeyError", .name "IndexError", .name "AttributeError"])
      [.ret (.name "default_")]]

/-- The generator function in the module. -/
def items : Def where
  params := ["data_", "k"]
  kwOnly := []
  body := [.yield_ (.bin .add (.name "data_") (.neg (.num 1))),
    .ite (.not (.cmp (.name "data_") [.eq] [.call (.name "get_by_label_") [.str ['s', 'e', 'e', 'n']] []]))
      [.yield_ (.name "data_")] [],
    .yield_ (.name "k")]

/-- The module. -/
def G : Globals V := fun n =>
  if n = "list" then some (.builtin (.kind .list))
  else if n = "tuple" then some (.builtin (.kind .tuple))
  else if n = "set" then some (.builtin (.kind .set))
  else if n = "dict" then some (.builtin (.kind .dict))
  else if n = "sorted" then some (.builtin .sorted)
  else if n = "OrderedDict" then some (.builtin .orderedDict)
  else if n = "getattr" then some (.builtin .getattr)
  else if n = "setattr" then some (.builtin .setattr)
  else if n = "delattr" then some (.builtin .delattr)
  else if n = "get_by_label_" then some (.builtin .getLabel)
  else if n = "add_label_" then some (.builtin .addLabel)
  else if n = "TypeError" ∨ n = "KeyError" ∨ n = "IndexError" ∨ n = "AttributeError" then some (.builtin (.exc n))
  else if n = "inc_" then some (.val (.fn "inc"))
  else if n = "get_or_default_" then some (.def_ getOrDefault)
  else if n = "items_" then some (.def_ items)
  else none

theorem module_ : Module G := by constructor <;> rfl

theorem fit : Fit N G conv.args (labelsOf conv) (objsOf conv) := by
  have h : conv.args = ["k", "k"] := by rfl
  have h' : labelsOf conv = ["seen", "seen"] := by rfl
  have h'' : objsOf conv = [.fn "inc"] := by rfl
  rw [h, h', h'']
  refine ⟨?_, ?_, ?_⟩ <;> intro n hn <;> simp only [List.mem_cons, List.not_mem_nil, or_false, or_self] at hn <;>
    subst hn
  · exact ⟨⟨rfl, by decide⟩, by decide⟩
  · intro p h
    have := congrArg String.toList h
    simp [N] at this
  · rfl

theorem stagesOk : ∀ d ∈ stages conv, d.ok true true = true ∧ readable d none = true ∧ runnable d = true := by
  have h : (stages conv).all (fun d => d.ok true true && readable d none && runnable d) = true := by decide +kernel
  intro d hd
  have := List.all_eq_true.mp h d hd
  simpa only [Bool.and_eq_true, and_assoc] using this

theorem helperDefs : (bodyHelpers N Toy.var conv).map (fun h => (helperName h, helperDef N h)) =
    [("get_or_default_", getOrDefault), ("items_", items)] := by with_unfolding_all rfl

theorem loaded : Loaded N G (bodyHelpers N Toy.var conv) := by
  refine loaded_of (var := Toy.var) names module_ (fun _ => ⟨rfl, show isConstName "i_" = false by decide⟩)
    (fun _ => ⟨show isName "pipe_" = true by decide +kernel, rfl⟩) (fun d hd => (stagesOk d hd).2) fit (fun h hh => ?_)
  have hm := List.mem_map_of_mem (f := fun h => (helperName h, helperDef N h)) hh
  rw [helperDefs, List.mem_cons, List.mem_cons] at hm
  rcases hm with hm | hm | hm
  · obtain ⟨h1, h2⟩ := Prod.mk.inj hm
    rw [h1, h2]
    rfl
  · obtain ⟨h1, h2⟩ := Prod.mk.inj hm
    rw [h1, h2]
    rfl
  · cases hm

theorem argsOk : ∀ a ∈ conv.args, isName a = true ∧ ∀ t, N.param t ≠ a ∧ Toy.var t ≠ a := by
  have h : conv.args = ["k", "k"] := by rfl
  rw [h]
  intro n hn
  simp only [List.mem_cons, List.not_mem_nil, or_false, or_self] at hn
  subst hn
  exact ⟨by decide +kernel, fun t => ⟨by simp [N], by simp [Toy.var]⟩⟩

/-- What Python reads. -/
def body : List Stmt.Stmt := [
  .global ["add_label_", "get_by_label_"],
  .assign [.name "pipe_"] (.call (.name "get_or_default_") [.name "data_", .num 7] []),
  .assign [.name "pipe_"]
    (.ifexp (.call (.name "inc_") [.name "pipe_"] []) (.cmp (.name "pipe_") [.gt] [.num 3]) (.name "k")),
  .assign [.name "pipe_"] (.bool false [.call (.name "add_label_") [.str ['s', 'e', 'e', 'n'], .name "pipe_"] [],
    .call (.name "get_by_label_") [.str ['s', 'e', 'e', 'n']] []]),
  .ret (.call (.name "list") [.call (.name "items_") [.name "pipe_", .name "k"] []] [])]

theorem kws : kwNames conv = ["k"] := by decide +kernel

theorem body_eq : globalStmt :: stageStmts N (genStages N Toy.var (stages conv) "data_" 0) = body := by with_unfolding_all rfl

/-- The text is read as this function. -/
theorem reads : Defines (sourceText N Toy.var "converter_" false false conv) "converter_" ⟨["data_"], ["k"], body⟩ := by
  have := defines_source (var := Toy.var) names module_ (fun _ => ⟨rfl, show isConstName "i_" = false by decide⟩)
    (fun _ => ⟨show isName "pipe_" = true by decide +kernel, rfl⟩) (fun d hd => (stagesOk d hd).2) (name := "converter_")
    (by decide +kernel) false false (fun a ha => (argsOk a ha).1) fit
  rwa [kws, body_eq] at this

/-- The hypotheses of C51 are met. -/
example : ∃ n0, ∀ n, n0 ≤ n → ∀ (k data : V) (t : St V World),
    let r := callConverter R 100 G (calls R 100 G n) ⟨["data_"], ["k"], body⟩ [data] [k] t
    let r' := den R 100 (bind ["k"] [k]) conv data (split N t)
    r.1 = r'.1 ∧ r.2.u = r'.2.u ∧ ∀ l, (∀ p, N.cached p ≠ l) → r.2.labels l = r'.2.labels l := by
  obtain ⟨b, hb, n0, h⟩ := C51_text_partial (fuel := 100) (fun _ => rfl) namesOk varOk true
    (fun _ v u => ⟨Toy.truthy v, rfl⟩) names consts module_ cached_inj
    (fun _ => ⟨rfl, show isConstName "i_" = false by decide⟩)
    (fun _ => ⟨show isName "pipe_" = true by decide +kernel, rfl⟩) conv stagesOk "converter_" (by decide +kernel)
    false false (by decide) (by decide) (by simp [receivers]) argsOk fit loaded
  have := (hb _).mp reads
  simp only [List.cons.injEq, Stmt.Stmt.def_.injEq, and_true, true_and] at this
  obtain ⟨_, _, rfl⟩ := this
  refine ⟨n0, fun n hn k data t => ?_⟩
  have := h n hn [] [k] data t rfl (by rw [kws]; rfl)
  rw [kws] at this
  exact this

/-- The text of a function of `c.this().tap(c.set_item("a", c.input_arg("k")), c.del_item("b"))`. -/
example : (helpers (gen N false (.tap .this [.mutSetItem (.naive (.str "a")) (.arg "k"), .mutDelItem (.naive (.str "b"))])
    (.name "data_") [0])).map (helperText N) = [Agg.joinLines [
      [],
      "def tap_(data_, k):".toList,
      "    data_['a'] = k".toList,
      "    data_.pop('b')".toList,
      "    return data_".toList,
      []]] := by decide +kernel

/-- The text of a method. -/
example : sourceText N Toy.var "converter_" true false (.bin .add (.arg "self") .this) = Agg.joinLines [
    [],
    "def converter_(self, data_):".toList,
    "    global add_label_, get_by_label_".toList,
    "    return (self + data_)".toList,
    []] := by decide +kernel

/-- A run: `{"a": 5}` gives `[5, 10]`. -/
example : (callConverter R 100 G (calls R 100 G 1) ⟨["data_"], ["k"], body⟩ [.dict [.str "a", .int 5]] [.int 10]
    Toy.s0).1 = .ok (.list [.int 5, .int 10]) := by decide +kernel

/-- A run: `[]` gives `[7, 10]`, from the default. -/
example : (callConverter R 100 G (calls R 100 G 1) ⟨["data_"], ["k"], body⟩ [.list []] [.int 10] Toy.s0).1 =
    .ok (.list [.int 7, .int 10]) := by decide +kernel

/-- `if data_: return 1` / `else: return 2`. -/
def branch : List Stmt.Stmt := [.ite (.name "data_") [.ret (.num 1)] [.ret (.num 2)]]

example : (callConverter R 100 G (calls R 100 G 1) ⟨["data_"], [], branch⟩ [.int 5] [] Toy.s0).1 = .ok (.int 1) := by decide +kernel

example : (callConverter R 100 G (calls R 100 G 1) ⟨["data_"], [], branch⟩ [.int 0] [] Toy.s0).1 = .ok (.int 2) := by decide +kernel

/-- `return tuple(data_)`: the argument is no generator. -/
example : (callConverter R 100 G (calls R 100 G 1) ⟨["data_"], [], [.ret (.call (.name "tuple") [.name "data_"] [])]⟩
    [.list [.int 5]] [] Toy.s0).1 = .ok (.tuple [.int 5]) := by decide +kernel

/-- A function with `yield` only in the body or only in the handler of a `try` is a generator function. -/
example : yieldsAny [.try_ [.yield_ (.num 1)] (.name "KeyError") [.pass]] = true ∧ yieldsAny [.try_ [.pass] (.name "KeyError") [.yield_ (.num 1)]] = true := by
  decide +kernel

end Demo

end Verif.Exec
