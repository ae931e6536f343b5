import Verif.Stmt.TemplateSame

/-!
# Stmt: built-in reduces with the same hash

Nothing here is code of the repository.
-/

set_option autoImplicit false

namespace Verif.Stmt

open Verif.Text Verif.Agg Verif.Reducers

/-! ## Reducers with the same statements -/

/-- `Dict` and `ArrayDistinct` as `DictLast`, which has the same statements. -/
def Fn.norm : Fn → Fn
  | .dict | .arrayDistinct => .dictLast
  | f => f

theorem near_table : (Fn.all.all fun f => Fn.all.all fun g => !f.near g || decide (f.norm = g.norm)) = true := by
  decide +kernel

theorem near_norm {f g : Fn} (h : f.near g = true) : f.norm = g.norm := by
  have := List.all_eq_true.1 (List.all_eq_true.1 near_table f f.mem_all) g g.mem_all
  simpa [h] using this

/-- The second argument: `ArrayDistinct` has `None`. -/
def Fn.second {A : Type} (f : Fn) (none' y : A) : A := if f = .arrayDistinct then none' else y

theorem norm_firstH (f : Fn) (xt yt : List Tok) :
    f.firstH.map (putH xt yt) = f.norm.firstH.map (putH xt (f.second [.name "None"] yt)) := by
  cases f <;> rfl

theorem norm_reduceH (f : Fn) (xt yt : List Tok) :
    f.reduceH.map (putH xt yt) = f.norm.reduceH.map (putH xt (f.second [.name "None"] yt)) := by
  cases f <;> rfl

section
variable {V E : Type} [BEq V]

theorem norm_first (ops : Ops V E) (f : Fn) (r : Option (Slot V)) (x y : Except E V) :
    (f.reducer ops).first r x y = (f.norm.reducer ops).first r x (f.second (.ok ops.none) y) := by
  cases f <;> try rfl
  · cases x <;> rfl

theorem norm_reduce (ops : Ops V E) (f : Fn) (r a : Option (Slot V)) (x y : Except E V) :
    (f.reducer ops).reduce r a x y = (f.norm.reducer ops).reduce r a x (f.second (.ok ops.none) y) := by
  cases f <;> try rfl
  · cases r with
    | none => cases x <;> rfl
    | some s => cases s <;> cases x <;> rfl

theorem norm_tag (f : Fn) : f.tag = f.norm.tag := by cases f <;> rfl

theorem norm_factory (f : Fn) : f.factory = f.norm.factory := by cases f <;> rfl

/-- A reducer which does not mention its second argument does not use it. -/
theorem first_noY (ops : Ops V E) {f : Fn} (h : f.usesY = false) (r : Option (Slot V)) (x y y' : Except E V) :
    (f.reducer ops).first r x y = (f.reducer ops).first r x y' := by
  cases f <;> first | rfl | exact absurd h (by decide +kernel)

theorem reduce_noY (ops : Ops V E) {f : Fn} (h : f.usesY = false) (r a : Option (Slot V)) (x y y' : Except E V) :
    (f.reducer ops).reduce r a x y = (f.reducer ops).reduce r a x y' := by
  cases f <;> first | rfl | exact absurd h (by decide +kernel)

theorem first_noX (ops : Ops V E) {f : Fn} (h : f.usesX = false) (r : Option (Slot V)) (x x' y y' : Except E V) :
    (f.reducer ops).first r x y = (f.reducer ops).first r x' y' := by
  cases f <;> first | rfl | exact absurd h (by decide +kernel)

theorem reduce_noX (ops : Ops V E) {f : Fn} (h : f.usesX = false) (r a : Option (Slot V)) (x x' y y' : Except E V) :
    (f.reducer ops).reduce r a x y = (f.reducer ops).reduce r a x' y' := by
  cases f <;> first | rfl | exact absurd h (by decide +kernel)

end

theorem usesY_arity (f : Fn) (h : f.arity ≠ 2) (hf : f ≠ .arrayDistinct) : f.norm.usesY = false := by
  revert h hf
  cases f <;> first | (intro h _; exact absurd rfl h) | (intro _ h; exact absurd rfl h) | (intro _ _; decide +kernel)

section
variable {V E : Type} {P : Py V E} {ops : Ops V E} {condSem : String → V → Except E Bool} {args : List String}
  {env : String → Option (PVal V)} {i j : Nat} {u v : BRed V E}

/-- What an expression gives is determined by its tree. -/
theorem gives_det (ha : ArgsOk args) {a : Ast} {x x' : V → Except E V} (h : Gives P args env a x)
    (h' : Gives P args env a x') : x = x' := by
  funext row
  let st : St V := ⟨fun n => if n = "row_" then some (.user row) else if n = "_none" then some .sentinel else env n,
    [], [], [], [], []⟩
  have hc : Ctx args env st := by
    refine ⟨rfl, fun a h => ?_⟩
    have h1 := ha.fixed a h
    simp only [List.mem_cons, List.not_mem_nil, or_false, not_or] at h1
    simp [st, h1]
  have e := (h st row hc rfl).symm.trans (h' st row hc rfl)
  cases hx : x row <;> cases hx' : x' row <;> rw [hx, hx'] at e <;> simp_all [lift, Except.map]

theorem mixed_none {ls : List (List HTok)} {xt yt : List Tok} {xa ya : Ast} (hx : Rd xt xa) (hy : Rd yt ya)
    {I : List (List Char)} (hl : I.map (lexFrom .start) = ls.map (fun l => some (putH xt yt l)))
    (hg : ls.all goodLine = true) (hne : I ≠ [])
    (hu : (ls.head?.map fun l => unif l [.tok .if_, .tok .is_, .tok (.name "_none"), .tok .colon]) = some false) :
    I.head? ≠ some "if  is _none:".toList := by
  intro h
  obtain ⟨i, I', rfl⟩ := List.exists_cons_of_ne_nil hne
  cases ls with
  | nil => simp at hu
  | cons l ls =>
    simp only [List.head?_cons, Option.some.injEq, Option.map_some] at h hu
    simp only [List.map_cons, List.cons.injEq] at hl
    rw [h] at hl
    have h0 : lexFrom .start "if  is _none:".toList = some [.if_, .is_, .name "_none", .colon] := by decide +kernel
    rw [h0, Option.some.injEq] at hl
    simp only [List.all_cons, Bool.and_eq_true] at hg
    have := unif_of_eq hx hy hx hy (m := [.tok .if_, .tok .is_, .tok (.name "_none"), .tok .colon]) hg.1
      (by decide) (by rw [← hl.1]; rfl)
    rw [hu] at this
    cases this

theorem firstH_mixed (f : Fn) :
    (f.firstH.head?.map fun l => unif l [.tok .if_, .tok .is_, .tok (.name "_none"), .tok .colon]) = some false := by
  cases f <;> decide +kernel

theorem map_some_inj {A : Type} {f g : A → List Tok} {as bs : List A} (h : as.map (fun l => some (f l)) = bs.map (fun l => some (g l))) :
    as.map f = bs.map g := by
  have : (as.map f).map some = (bs.map g).map some := by simpa [Function.comp_def] using h
  exact (List.map_inj_right (fun _ _ h => Option.some.inj h)).1 this

/-- In `group_by`, built-in reduces which are compared by the same text are the same reduction under the same
condition. -/
theorem same_hash (L : OpsOk P ops) (ha : ArgsOk args) (hu : BOk P condSem args env false i u) (hv : BOk P condSem args env false j v)
    (hui : u.initial = none) (hvi : v.initial = none)
    (huc : ∀ c, u.codes.cond = some c → ¬ (placeText false i).toList <:+: c.toList)
    (hvc : ∀ c, v.codes.cond = some c → ¬ (placeText false j).toList <:+: c.toList)
    (h : u.hash false i = v.hash false j) :
    (u.red P ops false i).cond = (v.red P ops false j).cond ∧ (u.red P ops false i).init = (v.red P ops false j).init ∧
      (u.red P ops false i).two = (v.red P ops false j).two ∧ u.f.tag = v.f.tag ∧ u.f.factory = v.f.factory := by
  letI := P.beq
  obtain ⟨xt, yt, ya, I, T, hx, hy, hya, hs, hI, hT, hne⟩ := hash_lines hu hui huc
  obtain ⟨xt', yt', ya', I', T', hx', hy', hya', hs', hI', hT', hne'⟩ := hash_lines hv hvi hvc
  have he : codeHash (textOf false i u.text) = codeHash (textOf false j v.text) := by
    have := congrArg String.toList h
    simpa [BRed.hash] using this
  rw [he, hs'] at hs
  rcases hashRaw_inj hne' hne hs with ⟨hc, rfl, rfl⟩ | hm | hm
  · have e1 := map_some_inj (hI.symm.trans hI')
    have e2 := map_some_inj (hT.symm.trans hT')
    have hn : u.f.norm = v.f.norm := by
      have halike : u.f.alike v.f = true := by
        simp only [Fn.alike, Bool.and_eq_true]
        exact ⟨unifAll_of_eq hx hy hx' hy' (firstH_good _) (firstH_good _) e1,
          unifAll_of_eq hx hy hx' hy' (reduceH_good _) (reduceH_good _) e2⟩
      rcases alike_near halike with h | h | h
      · exact near_norm h
      · exact absurd e1 (not_rowNear h _ _ _ _)
      · exact absurd e1.symm (not_rowNear h _ _ _ _)
    rw [norm_firstH u.f, norm_firstH v.f, hn] at e1
    have hrd : ∀ (f : Fn) {t : List Tok} {a : Ast}, Rd t a → Rd (f.second [.name "None"] t) (f.second none_ a) := by
      intro f t a h
      unfold Fn.second
      split
      · exact (pr_name "None").rd
      · exact h
    obtain ⟨hxx, hyy⟩ := argsAll_of_eq hx (hrd u.f hy) hx' (hrd v.f hy') (firstH_good v.f.norm) e1
    have huse : ∀ {t : HTok} {f : Fn}, (f.firstH.any fun l => l.any fun s => decide (s = t)) = true →
        ∃ l ∈ f.firstH, t ∈ l := by
      intro t f h
      simp only [List.any_eq_true, decide_eq_true_eq] at h
      obtain ⟨l, hl, s, hs, rfl⟩ := h
      exact ⟨l, hl, hs⟩
    have hxe : v.f.norm.usesX = true → u.x = v.x := by
      intro h
      have := hxx (huse h)
      have h1 := hu.fn.x
      rw [this] at h1
      exact gives_det ha h1 hv.fn.x
    have hg : ∀ {k : Nat} {w : BRed V E} {wa : Ast}, BOk P condSem args env false k w → (w.f.arity = 2 → wa = w.ya) →
        w.f.norm.usesY = true →
        Gives P args env (w.f.second none_ wa) (fun row => w.f.second (.ok ops.none) (w.y row)) := by
      intro k w wa hw hwa hy
      unfold Fn.second
      by_cases hf : w.f = .arrayDistinct
      · simp only [hf, if_true]
        intro st row _ _
        have hn := ev_none L st
        rw [hn]
        rfl
      · simp only [hf, if_false]
        have h2 : w.f.arity = 2 := by
          apply Classical.byContradiction
          intro h2
          rw [usesY_arity w.f h2 hf] at hy
          cases hy
        rw [hwa h2]
        exact hw.fn.y h2
    have hye : v.f.norm.usesY = true →
        (fun row => u.f.second (.ok ops.none) (u.y row)) = (fun row => v.f.second (.ok ops.none) (v.y row)) := by
      intro h
      have h0 := hyy (huse h)
      have h1 := hg hu hya (by rw [hn]; exact h)
      rw [h0] at h1
      exact gives_det ha h1 (hg hv hya' h)
    have hcond : u.codes.cond = v.codes.cond := by
      cases hcu : u.codes.cond <;> cases hcv : v.codes.cond <;> rw [hcu, hcv] at hc <;> simp_all [String.toList_inj]
    refine ⟨hcond, ?_, ?_, ?_, ?_⟩
    · funext row r
      simp only [BRed.red, redOf, hui, hvi]
      rw [norm_first ops u.f, norm_first ops v.f, hn]
      cases hX : v.f.norm.usesX with
      | false => exact first_noX ops hX _ _ _ _ _
      | true =>
        rw [hxe hX]
        cases hY : v.f.norm.usesY with
        | false => exact first_noY ops hY _ _ _ _
        | true => rw [congrFun (hye hY) row]
    · funext row r
      simp only [BRed.red, redOf]
      rw [norm_reduce ops u.f, norm_reduce ops v.f, hn]
      cases hX : v.f.norm.usesX with
      | false => exact reduce_noX ops hX _ _ _ _ _ _
      | true =>
        rw [hxe hX]
        cases hY : v.f.norm.usesY with
        | false => exact reduce_noY ops hY _ _ _ _ _
        | true => rw [congrFun (hye hY) row]
    · rw [norm_tag u.f, norm_tag v.f, hn]
    · rw [norm_factory u.f, norm_factory v.f, hn]
  · exact absurd hm (mixed_none hx' hy' hI' (firstH_good _) hne' (firstH_mixed _))
  · exact absurd hm (mixed_none hx hy hI (firstH_good _) hne (firstH_mixed _))

end

end Verif.Stmt
