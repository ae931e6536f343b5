import Verif.Options.Model
/-!
# C06 (contexts nest like a stack), C07 (outermost exit restores defaults), C08 (threads isolated)
-/
set_option autoImplicit false

namespace Verif.Options

variable {Name Val : Type} [DecidableEq Name]

/-! ## Specification: a stack of scopes -/

namespace Spec

/-- Scopes of one thread, innermost first. -/
abbrev Stack (Name Val : Type) := List (Name → Val)

def current (defaults : Name → Val) (st : Stack Name Val) : Name → Val := st.head?.getD defaults

def step (defaults : Name → Val) (st : Stack Name Val) : Ev Name Val → Stack Name Val × Option Val
  | .enter => (current defaults st :: st, none)
  | .exit => (st.tail, none)
  | .set i n v => (st.modify i (fun o m => if m = n then v else o m), none)
  | .toDefaults i (some n) => (st.modify i (fun o m => if m = n then defaults m else o m), none)
  | .toDefaults i none => (st.modify i (fun _ => defaults), none)
  | .read n => (st, some (current defaults st n))

/-- The values read by a single thread's program. -/
def run (defaults : Name → Val) (st : Stack Name Val) : List (Ev Name Val) →
    Stack Name Val × List Val
  | [] => (st, [])
  | e :: es =>
    let (st', o) := step defaults st e
    let (st'', os) := run defaults st' es
    (st'', o.toList ++ os)

end Spec

/-- Depth of open contexts after a list of events; `none` if an exit has no matching entry. -/
def depth : Nat → List (Ev Name Val) → Option Nat
  | d, [] => some d
  | d, .enter :: es => depth (d + 1) es
  | 0, .exit :: _ => none
  | d + 1, .exit :: es => depth d es
  | d, _ :: es => depth d es

/-- No context is left right after leaving a nested one, except the outermost: `justLeft` says
the last enter/exit event was an exit. -/
def NoDoubleExit : Nat → Bool → List (Ev Name Val) → Prop
  | _, _, [] => True
  | d, _, .enter :: es => NoDoubleExit (d + 1) false es
  | 0, _, .exit :: _ => False
  | d + 1, justLeft, .exit :: es => (justLeft = true → d = 0) ∧ NoDoubleExit d true es
  | d, b, _ :: es => NoDoubleExit d b es

/-- Events of one thread as a run of the process. -/
def solo (t : Nat) (es : List (Ev Name Val)) : List (Nat × Ev Name Val) := es.map (t, ·)

/-! ## Simulation for C06 -/

/-- The thread's references in order, with the objects of the open contexts being the scopes. -/
structure Sim (t : Nat) (justLeft : Bool) (w : World Name Val) (st : Spec.Stack Name Val) :
    Prop where
  refs : (w.threads t).refs.map (w.heap[·]?) = st.map some
  nodup : (w.threads t).refs.Nodup
  opt : (w.threads t).options = (w.threads t).refs.head?
  prev : (w.threads t).prev = if justLeft then none else (w.threads t).refs.tail.head?

theorem Sim.len {t b} {w : World Name Val} {st} (s : Sim t b w st) :
    (w.threads t).refs.length = st.length := by
  have := congrArg List.length s.refs; simpa using this

theorem refs_lt {t b} {w : World Name Val} {st} (s : Sim t b w st) :
    ∀ a ∈ (w.threads t).refs, a < w.heap.length := by
  intro a ha
  have : w.heap[a]? ∈ st.map some := by
    rw [← s.refs]; exact List.mem_map.2 ⟨a, ha, rfl⟩
  obtain ⟨x, _, hx⟩ := List.mem_map.1 this
  exact (List.getElem?_eq_some_iff.1 hx.symm).1

theorem sim_current {t b} {w : World Name Val} {st} (s : Sim t b w st) (defaults : Obj Name Val) :
    currentObj defaults w t = Spec.current defaults st := by
  have h := s.refs
  unfold currentObj Spec.current
  rw [s.opt]
  cases hr : (w.threads t).refs with
  | nil =>
    rw [hr] at h
    cases st with
    | nil => rfl
    | cons a st => simp at h
  | cons a as =>
    rw [hr] at h
    cases st with
    | nil => simp at h
    | cons x st =>
      simp at h
      simp [h.1]

theorem sim_modify {t b} {w : World Name Val} {st} (s : Sim t b w st) (i : Nat)
    (f : Obj Name Val → Obj Name Val) : Sim t b (modify w t i f) (st.modify i f) := by
  unfold modify
  cases hi : (w.threads t).refs[i]? with
  | none =>
    have : st.length ≤ i := by
      rw [← s.len]; exact List.getElem?_eq_none_iff.1 hi
    have : st.modify i f = st := by
      apply List.ext_getElem?
      intro j
      rw [List.getElem?_modify]
      split
      · subst_vars
        rw [List.getElem?_eq_none this]; rfl
      · simp
    rw [this]
    exact s
  | some a =>
    refine ⟨?_, s.nodup, s.opt, s.prev⟩
    apply List.ext_getElem?
    intro j
    have hj := congrArg (·[j]?) s.refs
    simp only [List.getElem?_map] at hj ⊢
    cases hr : (w.threads t).refs[j]? with
    | none =>
      rw [hr] at hj
      cases hs : st[j]? with
      | none => simp [List.getElem?_modify, hs]
      | some x => simp [hs] at hj
    | some c =>
      rw [hr] at hj
      cases hs : st[j]? with
      | none => simp [hs] at hj
      | some x =>
        rw [hs] at hj
        simp only [Option.map_some, Option.some.injEq] at hj
        simp only [Option.map_some, List.getElem?_modify, hs, hj]
        by_cases hij : i = j
        · subst hij
          have : a = c := by rw [hi] at hr; exact Option.some.inj hr
          simp [this]
        · have hne : a ≠ c := by
            intro hac
            subst hac
            obtain ⟨h1, h1'⟩ := List.getElem?_eq_some_iff.1 hi
            obtain ⟨h2, h2'⟩ := List.getElem?_eq_some_iff.1 hr
            exact hij (List.getElem_inj s.nodup |>.1 (h1'.trans h2'.symm))
          simp [hij, hne]

/-- One event keeps the simulation. -/
theorem sim_step {t b} {w : World Name Val} {st} (s : Sim t b w st) (defaults : Obj Name Val)
    (e : Ev Name Val) (es : List (Ev Name Val)) (hnd : NoDoubleExit st.length b (e :: es)) :
    ∃ b', Sim t b' (step defaults w t e).1 (Spec.step defaults st e).1 ∧
      (step defaults w t e).2 = (Spec.step defaults st e).2 ∧
      NoDoubleExit (Spec.step defaults st e).1.length b' es := by
  cases e with
  | enter =>
    refine ⟨false, ?_, rfl, by simpa [NoDoubleExit, Spec.step] using hnd⟩
    refine ⟨?_, ?_, ?_, ?_⟩
    · simp only [step, enter, setThread, if_true, Spec.step, List.map_cons]
      rw [sim_current s defaults]
      congr 1
      · simp
      · rw [← s.refs]
        apply List.map_congr_left
        intro a ha
        exact List.getElem?_append_left (refs_lt s a ha)
    · simp only [step, enter, setThread, if_true, List.nodup_cons]
      refine ⟨?_, s.nodup⟩
      intro hc
      have := refs_lt s _ hc
      omega
    · simp [step, enter, setThread]
    · simp [step, enter, setThread, s.opt]
  | exit =>
    cases hl : st with
    | nil => rw [hl] at hnd; simp [NoDoubleExit] at hnd
    | cons x xs =>
      rw [hl] at hnd
      simp only [List.length_cons, NoDoubleExit] at hnd
      refine ⟨true, ⟨?_, ?_, ?_, ?_⟩, rfl, by simpa [Spec.step] using hnd.2⟩
      · have := s.refs
        rw [hl] at this
        simp only [step, exit, setThread, if_true, Spec.step, List.tail_cons]
        rw [List.map_tail, this]
        rfl
      · simpa [step, exit, setThread] using s.nodup.sublist (List.tail_sublist _)
      · simp only [step, exit, setThread, if_true]
        rw [s.prev]
        cases b with
        | false => simp
        | true =>
          have h0 : xs.length = 0 := hnd.1 rfl
          have hlen := s.len
          rw [hl] at hlen
          simp only [List.length_cons, h0] at hlen
          match hr : (w.threads t).refs, hlen with
          | [a], _ => simp
      · simp [step, exit, setThread]
  | set i n v =>
    refine ⟨b, sim_modify s i _, rfl, ?_⟩
    cases hst : st <;> simpa [NoDoubleExit, Spec.step, hst] using hnd
  | toDefaults i n? =>
    cases n? with
    | none =>
      refine ⟨b, sim_modify s i _, rfl, ?_⟩
      cases hst : st <;> simpa [NoDoubleExit, Spec.step, hst] using hnd
    | some n =>
      refine ⟨b, ?_, rfl, ?_⟩
      · have := sim_modify s i (resetObj defaults · (some n))
        simp only [step, Spec.step]
        have he : (fun (o : Obj Name Val) m => if m = n then defaults m else o m) =
            (resetObj defaults · (some n)) := by
          funext o m
          simp only [resetObj, upd]
          split
          · subst_vars; rfl
          · rfl
        rw [he]
        exact this
      · cases hst : st <;> simpa [NoDoubleExit, Spec.step, hst] using hnd
  | read n =>
    refine ⟨b, s, ?_, ?_⟩
    · simp only [step, Spec.step, readOpt, sim_current s defaults]
    · cases hst : st <;> simpa [NoDoubleExit, Spec.step, hst] using hnd

theorem sim_run (defaults : Obj Name Val) (t : Nat) (es : List (Ev Name Val)) :
    ∀ {b} {w : World Name Val} {st}, Sim t b w st → NoDoubleExit st.length b es →
    (run defaults w (solo t es)).2.map Prod.snd = (Spec.run defaults st es).2 := by
  induction es with
  | nil => intro b w st _ _; rfl
  | cons e es ih =>
    intro b w st s h
    obtain ⟨b', s', ho, h'⟩ := sim_step s defaults e es h
    have := ih s' h'
    simp only [solo, List.map_cons, run, Spec.run, List.map_append] at this ⊢
    rw [this, ← ho]
    cases (step defaults w t e).2 <;> simp

/-! ## C06 -/

/-- **C06 is violated by the code.**  Three nested contexts: after leaving the two inner ones, the
program is still inside the first context, where it had set option 0 to 1, but reads the default 0:
`_ctx` has a single `prev_options` slot. -/
theorem C06_refuted : ∃ es : List (Ev Nat Nat), depth 0 es = some 1 ∧
    (run (fun _ => 0) init (solo 0 es)).2.map Prod.snd ≠ (Spec.run (fun _ => 0) [] es).2 := by
  refine ⟨[.enter, .set 0 0 1, .enter, .enter, .exit, .exit, .read 0], by decide, ?_⟩
  decide

/-- **C06, partial** (the full statement is the conclusion for every well-bracketed run; it is
refuted above).  For every run of a thread in which no nested context is left directly after
leaving another nested context — in particular for nesting of depth at most two — every read
returns what the stack of scopes prescribes. -/
theorem C06_stack_partial (defaults : Obj Name Val) (t : Nat) (es : List (Ev Name Val))
    (h : NoDoubleExit 0 false es) :
    (run defaults init (solo t es)).2.map Prod.snd = (Spec.run defaults [] es).2 :=
  sim_run defaults t es (st := []) (b := false) ⟨rfl, by simp [init], rfl, rfl⟩ h

/-- Nesting depth never exceeds `m`. -/
def MaxDepth (m : Nat) : Nat → List (Ev Name Val) → Prop
  | d, [] => d ≤ m
  | d, .enter :: es => d ≤ m ∧ MaxDepth m (d + 1) es
  | 0, .exit :: _ => False
  | d + 1, .exit :: es => d + 1 ≤ m ∧ MaxDepth m d es
  | d, _ :: es => d ≤ m ∧ MaxDepth m d es

/-- Runs of depth at most two satisfy the hypothesis of `C06_stack_partial`. -/
theorem noDoubleExit_of_depth_two (es : List (Ev Name Val)) : ∀ d b,
    MaxDepth 2 d es → (b = true → d ≤ 1) → NoDoubleExit d b es := by
  induction es with
  | nil => intros; trivial
  | cons e es ih =>
    intro d b h hb
    cases e with
    | enter => exact ih _ _ h.2 (by simp)
    | exit =>
      cases d with
      | zero => exact h.elim
      | succ d =>
        refine ⟨fun hb' => by have := hb hb'; omega, ih _ _ h.2 ?_⟩
        intro _; have := h.1; omega
    | set i n v => cases d <;> exact ih _ _ h.2 hb
    | toDefaults i n => cases d <;> exact ih _ _ h.2 hb
    | read n => cases d <;> exact ih _ _ h.2 hb

/-- **C06, partial**: nesting of depth at most two behaves like a stack. -/
theorem C06_depth_two_partial (defaults : Obj Name Val) (t : Nat) (es : List (Ev Name Val))
    (h : MaxDepth 2 0 es) :
    (run defaults init (solo t es)).2.map Prod.snd = (Spec.run defaults [] es).2 :=
  C06_stack_partial defaults t es (noDoubleExit_of_depth_two es 0 false h (by simp))

/-- A run of depth two with reads at both levels and after leaving. -/
example : (run (fun _ => 0) init (solo 3 [.enter, .set 0 7 1, .enter, .read 7, .set 0 7 2, .read 7,
      .set 1 7 5, .read 7, .exit, .read 7, .exit, .read (7 : Nat)])).2.map Prod.snd
    = [1, 2, 2, 5, 0] := by decide

example : MaxDepth 2 0 ([.enter, .set 0 7 1, .enter, .read 7, .exit, .exit] : List (Ev Nat Nat)) := by
  simp [MaxDepth]

/-! ## C07 -/

theorem c07_aux (defaults : Obj Name Val) (t : Nat) (es : List (Ev Name Val)) :
    ∀ (d : Nat) (w : World Name Val), (d = 0 → (w.threads t).options = none) →
      (d = 1 → (w.threads t).prev = none) → depth d es = some 0 →
      ((run defaults w (solo t es)).1.threads t).options = none := by
  induction es with
  | nil =>
    intro d w h0 _ h
    simp only [depth, Option.some.injEq] at h
    exact h0 h
  | cons e es ih =>
    intro d w h0 h1 h
    have hm : ∀ i f, (modify w t i f).threads = w.threads := by
      intro i f; unfold modify; split <;> rfl
    cases e with
    | enter =>
      refine ih (d + 1) _ (by simp) ?_ (by cases d <;> exact h)
      intro hd
      have : d = 0 := by omega
      simp [step, enter, setThread, h0 this]
    | exit =>
      cases d with
      | zero => simp [depth] at h
      | succ d =>
        refine ih d _ ?_ ?_ h
        · intro hd
          simp only [step, exit, setThread, if_true]
          exact h1 (by omega)
        · intro _; simp [step, exit, setThread]
    | set i n v =>
      refine ih d _ ?_ ?_ (by cases d <;> exact h) <;> simp only [step, hm] <;> assumption
    | toDefaults i n =>
      refine ih d _ ?_ ?_ (by cases d <;> exact h) <;> simp only [step, hm] <;> assumption
    | read n => exact ih d w h0 h1 (by cases d <;> exact h)

/-- **C07.** After any run of a thread that enters and leaves contexts in a well-bracketed way (any
depth, any assignments) and has left all of them, every option read is the default. -/
theorem C07_defaults_restored (defaults : Obj Name Val) (t : Nat) (es : List (Ev Name Val))
    (h : depth 0 es = some 0) (n : Name) :
    readOpt defaults (run defaults init (solo t es)).1 t n = defaults n := by
  have := c07_aux defaults t es 0 init (fun _ => rfl) (by simp) h
  simp [readOpt, currentObj, this]

/-- Three levels with assignments: back to the default 0. -/
example : readOpt (fun _ => 0) (run (fun _ => 0) init (solo 0
      [.enter, .set 0 7 1, .enter, .set 0 7 2, .enter, .set 0 7 3, .exit, .exit, .exit])).1 0 (7 : Nat)
    = 0 := by decide

/-! ## C08 -/

/-- The events of thread `t` in a run. -/
def proj (t : Nat) (es : List (Nat × Ev Name Val)) : List (Ev Name Val) :=
  (es.filter (·.1 == t)).map Prod.snd

/-- Addresses a thread can reach. -/
def reach (s : Thread) : List Nat := s.options.toList ++ s.prev.toList ++ s.refs

/-- Thread `t` sees in `w` (shared process) the same as in `a` (alone), up to the addresses `ρ`. -/
structure Iso (t : Nat) (w a : World Name Val) (ρ : Nat → Nat) (owner : Nat → Nat) : Prop where
  opt : (w.threads t).options = (a.threads t).options.map ρ
  prev : (w.threads t).prev = (a.threads t).prev.map ρ
  refs : (w.threads t).refs = (a.threads t).refs.map ρ
  objs : ∀ i, i < a.heap.length → w.heap[ρ i]? = a.heap[i]?
  inj : ∀ i j, i < a.heap.length → j < a.heap.length → ρ i = ρ j → i = j
  bound : ∀ i ∈ reach (a.threads t), i < a.heap.length
  own : ∀ u, ∀ i ∈ reach (w.threads u), i < w.heap.length ∧ owner i = u
  mine : ∀ i, i < a.heap.length → ρ i < w.heap.length ∧ owner (ρ i) = t

theorem modify_threads (w : World Name Val) (t i : Nat) (f) : (modify w t i f).threads = w.threads := by
  unfold modify; split <;> rfl

theorem modify_len (w : World Name Val) (t i : Nat) (f) :
    (modify w t i f).heap.length = w.heap.length := by
  unfold modify; split <;> simp

/-- A step of another thread does not disturb `t`. -/
theorem iso_other (defaults : Obj Name Val) {t u : Nat} {w a : World Name Val} {ρ owner}
    (h : Iso t w a ρ owner) (hu : u ≠ t) (e : Ev Name Val) :
    ∃ owner', Iso t (step defaults w u e).1 a ρ owner' := by
  have htu : t ≠ u := fun h => hu h.symm
  have hmod : ∀ i f, Iso t (modify w u i f) a ρ owner := by
    intro i f
    refine ⟨by rw [modify_threads]; exact h.opt, by rw [modify_threads]; exact h.prev,
      by rw [modify_threads]; exact h.refs, ?_, h.inj, h.bound, ?_, ?_⟩
    · intro j hj
      rw [← h.objs j hj]
      unfold modify
      cases hr : (w.threads u).refs[i]? with
      | none => rfl
      | some c =>
        have hc := (h.own u c (by
          simp only [reach, List.mem_append]; exact .inr (List.mem_of_getElem? hr))).2
        have hne : c ≠ ρ j := by
          rintro rfl
          rw [(h.mine j hj).2] at hc
          exact htu hc
        simp [List.getElem?_modify, hne]
    · intro v j hj
      rw [modify_threads] at hj
      rw [modify_len]
      exact h.own v j hj
    · intro j hj
      rw [modify_len]
      exact h.mine j hj
  cases e with
  | set i n v => exact ⟨owner, hmod i _⟩
  | toDefaults i n => exact ⟨owner, hmod i _⟩
  | read n => exact ⟨owner, h⟩
  | exit =>
    refine ⟨owner, ?_⟩
    refine ⟨by simp [step, exit, setThread, htu, h.opt], by simp [step, exit, setThread, htu, h.prev],
      by simp [step, exit, setThread, htu, h.refs], h.objs, h.inj, h.bound, ?_, h.mine⟩
    intro v j hj
    by_cases hv : v = u
    · subst hv
      apply h.own v j
      simp only [step, exit, setThread, if_true, reach, Option.toList_none, List.append_nil,
        List.mem_append] at hj ⊢
      rcases hj with hj | hj
      · exact .inl (.inr hj)
      · exact .inr (List.mem_of_mem_tail hj)
    · apply h.own v j
      simpa [step, exit, setThread, hv] using hj
  | enter =>
    refine ⟨fun i => if i = w.heap.length then u else owner i, ?_⟩
    refine ⟨by simp [step, enter, setThread, htu, h.opt], by simp [step, enter, setThread, htu, h.prev],
      by simp [step, enter, setThread, htu, h.refs], ?_, h.inj, h.bound, ?_, ?_⟩
    · intro i hi
      rw [← h.objs i hi]
      exact List.getElem?_append_left (h.mine i hi).1
    · intro v j hj
      by_cases hv : v = u
      · subst hv
        simp only [step, enter, setThread, if_true, reach, Option.toList_some, List.mem_append,
          List.mem_cons, List.not_mem_nil, or_false, List.length_append, List.length_cons,
          List.length_nil] at hj ⊢
        by_cases hjl : j = w.heap.length
        · simp [hjl]
        · have hj' : j ∈ reach (w.threads v) := by
            simp only [reach, List.mem_append]
            rcases hj with (hj | hj) | hj | hj
            · exact absurd hj hjl
            · exact .inl (.inl hj)
            · exact absurd hj hjl
            · exact .inr hj
          have := h.own v j hj'
          simp only [hjl, if_false]
          omega
      · have hj' : j ∈ reach (w.threads v) := by simpa [step, enter, setThread, hv] using hj
        have := h.own v j hj'
        have hjl : j ≠ w.heap.length := by omega
        simp only [step, enter, List.length_append, List.length_cons, List.length_nil, hjl, if_false]
        omega
    · intro i hi
      have := h.mine i hi
      have hjl : ρ i ≠ w.heap.length := by omega
      simp only [step, enter, List.length_append, List.length_cons, List.length_nil, hjl, if_false]
      omega

theorem iso_read (defaults : Obj Name Val) {t : Nat} {w a : World Name Val} {ρ owner}
    (h : Iso t w a ρ owner) : currentObj defaults w t = currentObj defaults a t := by
  unfold currentObj
  rw [h.opt]
  cases ho : (a.threads t).options with
  | none => rfl
  | some p =>
    have hp := h.bound p (by simp [reach, ho])
    simp only [Option.map_some, h.objs p hp]

/-- A step of `t` itself keeps the correspondence and outputs the same. -/
theorem iso_self (defaults : Obj Name Val) {t : Nat} {w a : World Name Val} {ρ owner}
    (h : Iso t w a ρ owner) (e : Ev Name Val) :
    (step defaults w t e).2 = (step defaults a t e).2 ∧
    ∃ ρ' owner', Iso t (step defaults w t e).1 (step defaults a t e).1 ρ' owner' := by
  have hmod : ∀ i f, Iso t (modify w t i f) (modify a t i f) ρ owner := by
    intro i f
    refine ⟨by simp only [modify_threads]; exact h.opt, by simp only [modify_threads]; exact h.prev,
      by simp only [modify_threads]; exact h.refs, ?_, ?_, ?_, ?_, ?_⟩
    · intro j hj
      rw [modify_len] at hj
      unfold modify
      rw [h.refs, List.getElem?_map]
      cases hr : (a.threads t).refs[i]? with
      | none => exact h.objs j hj
      | some c =>
        have hc := h.bound c (by
          simp only [reach, List.mem_append]; exact .inr (List.mem_of_getElem? hr))
        simp only [Option.map_some, List.getElem?_modify, h.objs j hj]
        by_cases hcj : c = j
        · subst hcj; simp
        · have : ρ c ≠ ρ j := fun hh => hcj (h.inj c j hc hj hh)
          simp [hcj, this]
    · intro i' j'
      rw [modify_len]
      exact h.inj i' j'
    · intro j hj
      rw [modify_threads] at hj
      rw [modify_len]
      exact h.bound j hj
    · intro v j hj
      rw [modify_threads] at hj
      rw [modify_len]
      exact h.own v j hj
    · intro j hj
      rw [modify_len] at hj
      rw [modify_len]
      exact h.mine j hj
  cases e with
  | set i n v => exact ⟨rfl, ρ, owner, hmod i _⟩
  | toDefaults i n => exact ⟨rfl, ρ, owner, hmod i _⟩
  | read n => exact ⟨by simp only [step, readOpt, iso_read defaults h], ρ, owner, h⟩
  | exit =>
    refine ⟨rfl, ρ, owner, ?_⟩
    refine ⟨by simp [step, exit, setThread, h.prev], by simp [step, exit, setThread],
      by simp [step, exit, setThread, h.refs, List.map_tail], h.objs, h.inj, ?_, ?_, h.mine⟩
    · intro j hj
      apply h.bound j
      simp only [step, exit, setThread, if_true, reach, Option.toList_none, List.append_nil,
        List.mem_append] at hj ⊢
      rcases hj with hj | hj
      · exact .inl (.inr hj)
      · exact .inr (List.mem_of_mem_tail hj)
    · intro v j hj
      by_cases hv : v = t
      · subst hv
        apply h.own v j
        simp only [step, exit, setThread, if_true, reach, Option.toList_none, List.append_nil,
          List.mem_append] at hj ⊢
        rcases hj with hj | hj
        · exact .inl (.inr hj)
        · exact .inr (List.mem_of_mem_tail hj)
      · apply h.own v j
        simpa [step, exit, setThread, hv] using hj
  | enter =>
    refine ⟨rfl, fun i => if i = a.heap.length then w.heap.length else ρ i,
      fun i => if i = w.heap.length then t else owner i, ?_⟩
    have hb : ∀ j ∈ reach (a.threads t), j ≠ a.heap.length := fun j hj => by
      have := h.bound j hj; omega
    refine ⟨?_, ?_, ?_, ?_, ?_, ?_, ?_, ?_⟩
    · simp [step, enter, setThread]
    · simp only [step, enter, setThread, if_true, h.opt]
      cases ho : (a.threads t).options with
      | none => rfl
      | some p =>
        have := hb p (by simp [reach, ho])
        simp [this]
    · simp only [step, enter, setThread, if_true, h.refs, List.map_cons, List.cons.injEq, true_and]
      apply List.map_congr_left
      intro j hj
      have := hb j (by simp [reach, hj])
      simp [this]
    · intro i hi
      simp only [step, enter, List.length_append, List.length_cons, List.length_nil] at hi ⊢
      by_cases hia : i = a.heap.length
      · subst hia
        simp only [if_true, iso_read defaults h]
        simp
      · have hi' : i < a.heap.length := by omega
        simp only [hia, if_false]
        rw [List.getElem?_append_left (h.mine i hi').1, List.getElem?_append_left hi']
        exact h.objs i hi'
    · intro i j hi hj hij
      simp only [step, enter, List.length_append, List.length_cons, List.length_nil] at hi hj
      by_cases hia : i = a.heap.length <;> by_cases hja : j = a.heap.length
      · rw [hia, hja]
      · have := h.mine j (by omega)
        simp only [hia, hja, if_true, if_false] at hij
        omega
      · have := h.mine i (by omega)
        simp only [hia, hja, if_true, if_false] at hij
        omega
      · simp only [hia, hja, if_false] at hij
        exact h.inj i j (by omega) (by omega) hij
    · intro j hj
      simp only [step, enter, setThread, if_true, reach, Option.toList_some, List.mem_append,
        List.mem_cons, List.not_mem_nil, or_false, List.length_append, List.length_cons,
        List.length_nil] at hj ⊢
      by_cases hjl : j = a.heap.length
      · omega
      · have hj' : j ∈ reach (a.threads t) := by
          simp only [reach, List.mem_append]
          rcases hj with (hj | hj) | hj | hj
          · exact absurd hj hjl
          · exact .inl (.inl hj)
          · exact absurd hj hjl
          · exact .inr hj
        have := h.bound j hj'
        omega
    · intro v j hj
      by_cases hv : v = t
      · subst hv
        simp only [step, enter, setThread, if_true, reach, Option.toList_some, List.mem_append,
          List.mem_cons, List.not_mem_nil, or_false, List.length_append, List.length_cons,
          List.length_nil] at hj ⊢
        by_cases hjl : j = w.heap.length
        · simp [hjl]
        · have hj' : j ∈ reach (w.threads v) := by
            simp only [reach, List.mem_append]
            rcases hj with (hj | hj) | hj | hj
            · exact absurd hj hjl
            · exact .inl (.inl hj)
            · exact absurd hj hjl
            · exact .inr hj
          have := h.own v j hj'
          simp only [hjl, if_false]
          omega
      · have hj' : j ∈ reach (w.threads v) := by simpa [step, enter, setThread, hv] using hj
        have := h.own v j hj'
        have hjl : j ≠ w.heap.length := by omega
        simp only [step, enter, List.length_append, List.length_cons, List.length_nil, hjl, if_false]
        omega
    · intro i hi
      simp only [step, enter, List.length_append, List.length_cons, List.length_nil] at hi ⊢
      by_cases hia : i = a.heap.length
      · simp [hia]
      · have := h.mine i (by omega)
        have hne : ρ i ≠ w.heap.length := by omega
        simp only [hia, hne, if_false]
        omega

theorem iso_run (defaults : Obj Name Val) (t : Nat) (es : List (Nat × Ev Name Val)) :
    ∀ {w a : World Name Val} {ρ owner}, Iso t w a ρ owner →
    (run defaults w es).2.filter (·.1 == t) = (run defaults a (solo t (proj t es))).2 := by
  induction es with
  | nil => intro w a ρ owner _; rfl
  | cons p es ih =>
    intro w a ρ owner h
    obtain ⟨u, e⟩ := p
    by_cases hu : u = t
    · subst hu
      obtain ⟨ho, ρ', owner', h'⟩ := iso_self defaults h e
      have := ih h'
      simp only [run, proj, List.filter_cons, beq_self_eq_true, if_true, List.map_cons, solo,
        List.filter_append] at this ⊢
      rw [this, ho]
      cases (step defaults a u e).2 <;> simp
    · obtain ⟨owner', h'⟩ := iso_other defaults h hu e
      have := ih h'
      have hb : (u == t) = false := by simpa using hu
      simp only [run, proj, List.filter_cons, hb, Bool.false_eq_true, if_false, List.filter_append]
        at this ⊢
      rw [this]
      cases (step defaults w u e).2 <;> simp [hb]

/-- **C08.** In every interleaving of any number of threads (any nesting, any assignments), the
values a thread reads are those it reads when it runs alone. -/
theorem C08_thread_isolation (defaults : Obj Name Val) (es : List (Nat × Ev Name Val)) (t : Nat) :
    (run defaults init es).2.filter (·.1 == t) =
      (run defaults init (solo t (proj t es))).2 := by
  refine iso_run defaults t es (ρ := id) (owner := fun _ => 0) ?_
  refine ⟨rfl, rfl, rfl, ?_, ?_, ?_, ?_, ?_⟩ <;> simp [init, reach]

/-- Two threads interleaved; thread 1 changes option 7, thread 0 does not see it. -/
example : (run (fun _ => 0) init [(0, .enter), (1, .enter), (1, .set 0 7 9), (0, .read 7),
    (1, .read (7 : Nat))]).2 = [(0, 0), (1, 9)] := by decide

end Verif.Options
