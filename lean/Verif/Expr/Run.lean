import Verif.Expr.Class

/-!
# Expressions: from generated code to converters
-/

set_option autoImplicit false

namespace Verif.Expr

section
variable {Val U Err : Type} {R : Runtime Val U Err} {fuel : Nat} {N : Names Val} {A : Env Val}
  {P0 : (String → Option Val) → U → Prop}

/-- What can be seen of a run: the value or exception, the labels of the user, and everything else; not
the labels made by `If`. -/
def view {α : Type} (r : Except Err α × St Val U) : Except Err α × (String → Option Val) × U :=
  (r.1, r.2.labels, r.2.u)

theorem view_eq {α : Type} {r r' : Except Err α × St Val U} (h1 : r.1 = r'.1) (h2 : r.2.Same r'.2) :
    view r = view r' := by
  unfold view
  rw [h1, h2.1, h2.2]

theorem same_of_view {α : Type} {r r' : Except Err α × St Val U} (h : view r = view r') :
    r.1 = r'.1 ∧ r.2.Same r'.2 := by
  simp only [view, Prod.mk.injEq] at h
  exact ⟨h.1, h.2.1, h.2.2⟩

/-- A property of labels and state which nothing the conversion does can break. -/
def Kept (R : Runtime Val U Err) (P0 : (String → Option Val) → U → Prop) (ss : List String) : Prop :=
  Closed R (fun s => P0 s.labels s.u) ss []

theorem Kept.true (ss : List String) : Kept R (fun _ _ => True) ss where
  op _ _ _ _ := trivial
  truthy _ _ _ := trivial
  next _ _ _ := trivial
  user _ _ _ _ _ := trivial
  cached _ _ _ _ _ := trivial

theorem Kept.mono {ss ss' : List String} (h : Kept R P0 ss) (hs : ∀ n ∈ ss', n ∈ ss) : Kept R P0 ss' :=
  Closed.mono h hs (List.prefix_refl [])

/-- The code of a conversion meeting the side conditions, with a variable as its input. -/
theorem run_good (hnone : NoneFalsy R) {c : Conv Val} {x : String} {v : Val} {ρ : Env Val} (p : List Nat)
    (hx : ρ x = some v) (hρ : Agree N A ρ c.args) (hk : Kept R P0 c.sets)
    (hg : Good R fuel N A P0 false c (.name x) p v) {s t : St Val U} (h0 : P0 s.labels s.u) (hst : s.Same t) :
    view (eval R fuel (gen N false c (.name x) p) ρ s) = view (den R fuel A c v t) ∧
      P0 (eval R fuel (gen N false c (.name x) p) ρ s).2.labels (eval R fuel (gen N false c (.name x) p) ρ s).2.u := by
  have hc : Closed R (fun s => P0 s.labels s.u) c.sets p := Closed.mono hk (fun _ h => h) (List.nil_prefix)
  have H : Hyp R fuel N A P0 (fun s => P0 s.labels s.u) (fun s => P0 s.labels s.u) false (.name x) p ρ v c.args c.sets :=
    Hyp.var hx hρ hc hc (fun _ h => h)
  obtain ⟨h1, h2, h3, _⟩ := (gen_ok (fuel := fuel) hnone c).plain H hg s t h0 hst
  exact ⟨view_eq h1 h2, h3⟩

/-- The code of a conversion passing the check, with a variable as its input. -/
theorem run_ok (hnone : NoneFalsy R) (hN : NamesOk N) {tp : Bool} (ht : TruthAll R tp (fun _ _ => True))
    {c : Conv Val} (hc : c.ok tp true = true) {x : String} {v : Val} {ρ : Env Val} (p : List Nat)
    (hx : ρ x = some v) (hv : VarOk N x) (hxa : x ∉ c.args) (hρ : Agree N A ρ c.args)
    {s t : St Val U} (hst : s.Same t) :
    view (eval R fuel (gen N false c (.name x) p) ρ s) = view (den R fuel A c v t) :=
  (run_good hnone p hx hρ (Kept.true _) (good_of_ok hN ht c false true (.name x) p v hc
    (fun n hn => ⟨(hρ n hn).2.2.1, (hρ n hn).2.2.2⟩)
    ⟨trivial, fun _ => ⟨x, rfl, hv, hxa⟩⟩) trivial hst).1

/-- Conversions one after another: each gets the result of the one before; the first exception ends it. -/
def inOrder (run : Conv Val → Val → St Val U → Except Err Val × St Val U) :
    List (Conv Val) → Val → St Val U → Except Err Val × St Val U
  | [], v, s => (.ok v, s)
  | c :: cs, v, s =>
    match run c v s with
    | (.ok x, s') => inOrder run cs x s'
    | (.error e, s') => (.error e, s')

theorem inOrder_append (run : Conv Val → Val → St Val U → Except Err Val × St Val U) (cs ds : List (Conv Val))
    (v : Val) (s : St Val U) :
    inOrder run (cs ++ ds) v s = match inOrder run cs v s with
      | (.ok x, s') => inOrder run ds x s'
      | (.error e, s') => (.error e, s') := by
  induction cs generalizing v s with
  | nil => rfl
  | cons c cs ih =>
    simp only [List.cons_append, inOrder]
    split
    · exact ih _ _
    · rfl

theorem den_stages : ∀ (c : Conv Val) (v : Val) (s : St Val U),
    den R fuel A c v s = inOrder (den R fuel A) (stages c) v s
  | c, v, s => by
    cases c with
    | pipe a b =>
      simp only [stages, den]
      refine Eq.trans ?_ (inOrder_append (den R fuel A) (stages a) [b] v s).symm
      rw [bind_run, ← den_stages a v s]
      simp only [inOrder]
      cases ha : den R fuel A a v s with
      | mk r s1 =>
        cases r with
        | error e => rfl
        | ok x =>
          dsimp only
          cases h : den R fuel A b x s1 with
          | mk r s' => cases r <;> rfl
    | _ =>
      simp only [stages, inOrder]
      cases h : den R fuel A _ v s with
      | mk r s' => cases r <;> rfl

theorem mem_stages_args : ∀ (c d : Conv Val), d ∈ stages c → ∀ n ∈ d.args, n ∈ c.args
  | c, d, h, n, hn => by
    cases c with
    | pipe a b =>
      simp only [stages, List.mem_append, List.mem_singleton] at h
      simp only [Conv.args, List.mem_append]
      rcases h with h | h
      · exact Or.inl (mem_stages_args a d h n hn)
      · subst h
        exact Or.inr hn
    | _ =>
      simp only [stages, List.mem_singleton] at h
      subst h
      exact hn

theorem stages_ne_nil (c : Conv Val) : stages c ≠ [] := by
  cases c <;> simp [stages]

theorem truthy_run {β : Type} (y : Val) (k : Bool → M Val U Err β) (s : St Val U) :
    (runTruthy R y >>= k) s = match R.truthy y s.u with
      | (.ok b, u) => k b { s with u := u }
      | (.error e, u) => (.error e, { s with u := u }) := by
  rw [bind_run]
  unfold runTruthy
  generalize R.truthy y s.u = z
  obtain ⟨r, u⟩ := z
  cases r <;> rfl

theorem op_run {β : Type} (o : Op) (xs : List Val) (k : Val → M Val U Err β) (s : St Val U) :
    (runOp R o xs >>= k) s = match R.op o xs s.u with
      | (.ok b, u) => k b { s with u := u }
      | (.error e, u) => (.error e, { s with u := u }) := by
  rw [bind_run]
  unfold runOp
  generalize R.op o xs s.u = z
  obtain ⟨r, u⟩ := z
  cases r <;> rfl

theorem op_last (o : Op) (xs : List Val) (s : St Val U) :
    runOp R o xs s = match R.op o xs s.u with
      | (r, u) => (r, { s with u := u }) := rfl

theorem next_run {β : Type} (x : Val) (k : Option Val → M Val U Err β) (s : St Val U) :
    (runNext R x >>= k) s = match R.next x s.u with
      | (.ok b, u) => k b { s with u := u }
      | (.error e, u) => (.error e, { s with u := u }) := by
  rw [bind_run]
  unfold runNext
  generalize R.next x s.u = z
  obtain ⟨r, u⟩ := z
  cases r <;> rfl

/-- What is asked of input arguments: all are given, and named unlike the variables of the generated code. -/
structure ArgsFit (N : Names Val) (var : String → String) (A : Env Val) (ns : List String) : Prop where
  given : ∀ n ∈ ns, (A n).isSome
  data : ∀ n ∈ ns, n ≠ "data_"
  param : ∀ n ∈ ns, ∀ t, N.param t ≠ n
  var : ∀ n ∈ ns, ∀ t, var t ≠ n

theorem ArgsFit.mono {var : String → String} {ns ns' : List String} (h : ArgsFit N var A ns)
    (hs : ∀ n ∈ ns', n ∈ ns) : ArgsFit N var A ns' :=
  ⟨fun n hn => h.given n (hs n hn), fun n hn => h.data n (hs n hn), fun n hn => h.param n (hs n hn),
    fun n hn => h.var n (hs n hn)⟩

theorem run_stages (hnone : NoneFalsy R) (hN : NamesOk N) {tp : Bool} (ht : TruthAll R tp (fun _ _ => True))
    {var : String → String} (hvar : ∀ t, VarOk N (var t)) (cs : List (Conv Val)) :
    ∀ (x : String) (n : Nat) (v : Val) (ρ : Env Val) (s t : St Val U), cs ≠ [] →
    (∀ c ∈ cs, c.ok tp true = true) → (∀ c ∈ cs, ArgsFit N var A c.args) →
    (∀ c ∈ cs, ∀ a ∈ c.args, ρ a = A a ∧ a ≠ x) → ρ x = some v → VarOk N x → s.Same t →
    view (runStages R fuel (genStages N var cs x n) ρ s) = view (inOrder (den R fuel A) cs v t) := by
  induction cs with
  | nil => intro x n v ρ s t h; exact absurd rfl h
  | cons c cs ih =>
    intro x n v ρ s t _ hok hfit hρ hx hv hst
    have hagree : Agree N A ρ c.args := fun a ha =>
      have hf := hfit c (by simp)
      ⟨(hρ c (by simp) a ha).1, hf.given a ha, hf.data a ha, hf.param a ha⟩
    have hrun := run_ok (fuel := fuel) hnone hN ht (hok c (by simp)) [n] hx hv
      (fun h => (hρ c (by simp) x h).2 rfl) hagree hst
    obtain ⟨h1, h2⟩ := same_of_view hrun
    cases cs with
    | nil =>
      simp only [genStages, runStages, inOrder]
      rw [hrun]
      cases h : den R fuel A c v t with
      | mk r s' => cases r <;> rfl
    | cons d ds =>
      simp only [genStages, runStages]
      rw [bind_run]
      simp only [inOrder]
      cases he : eval R fuel (gen N false c (.name x) [n]) ρ s with
      | mk r s' =>
        cases hd : den R fuel A c v t with
        | mk r' t' =>
          rw [he, hd] at h1 h2
          dsimp only at h1 h2
          subst h1
          cases r with
          | error e => exact view_eq rfl h2
          | ok y =>
            have := ih (var x) (n + 1) y (ρ.set (var x) y) s' t' (by simp)
              (fun c' hc' => hok c' (by simp [hc'])) (fun c' hc' => hfit c' (by simp [hc']))
              (fun c' hc' a ha => by
                have hne := (hfit c' (List.mem_cons_of_mem _ hc')).var a ha x
                refine ⟨?_, fun h => hne h.symm⟩
                unfold Env.set
                rw [if_neg (fun h => hne h.symm)]
                exact (hρ c' (List.mem_cons_of_mem _ hc') a ha).1)
              (by simp [Env.set]) (hvar x) h2
            simpa only [genStages, inOrder] using this

/-- The converter of a conversion, all of whose stages pass the check. -/
theorem converter_ok (hnone : NoneFalsy R) (hN : NamesOk N) {tp : Bool} (ht : TruthAll R tp (fun _ _ => True))
    {var : String → String} (hvar : ∀ t, VarOk N (var t)) {c : Conv Val}
    (hok : ∀ d ∈ stages c, d.ok tp true = true) (hfit : ArgsFit N var A c.args) (data : Val) (s : St Val U) :
    view (converter R fuel N var c A data s) = view (den R fuel A c data s) := by
  rw [den_stages]
  refine run_stages hnone hN ht hvar (stages c) "data_" 0 data _ s s (stages_ne_nil c) hok
    (fun d hd => hfit.mono (mem_stages_args c d hd)) ?_ (by simp [Env.set]) ⟨by decide, hN.constData⟩
    (St.Same.rfl' s)
  intro d hd a ha
  have := hfit.data a (mem_stages_args c d hd a ha)
  refine ⟨?_, this⟩
  unfold Env.set
  rw [if_neg this]

end

end Verif.Expr
