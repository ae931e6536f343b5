import Verif.Stmt.Template
import Verif.Stmt.AggVars
import Verif.Text.SubstParse

/-!
# Stmt: formatted templates as texts with codes in them

How the statements of a template are read is computed with names in the place of the codes; `Verif/Text/Subst.lean`
transfers this to the codes.  Nothing here is code of the repository.
-/

set_option autoImplicit false

namespace Verif.Stmt

open Verif.Text Verif.Agg

/-- A part of a formatted line. -/
inductive TPart
  | ch (c : Char)
  /-- the variable -/
  | res
  | arg (n : Nat)

/-- What `str.format` writes. -/
def TPart.ofOut : FOut → TPart
  | .ch c => .ch c
  | .arg n => .arg n

/-- Both formatting operations in one. -/
def partsGo : FState → List (Option Char) → Option (List TPart)
  | .lit, [] => some []
  | _, [] => none
  | st, some c :: l => (fstep st c).bind fun (o, st') => (partsGo st' l).map (o.map TPart.ofOut ++ ·)
  | .lit, none :: l => (partsGo .lit l).map (.res :: ·)
  | _, none :: _ => none

/-- The parts of a line of a template. -/
def parts (s : String) : Option (List TPart) := (percentGo [] s.toList).bind (partsGo .lit)

/-- The text of parts. -/
def render (var : List Char) (args : List (List Char)) : List TPart → Option (List Char)
  | [] => some []
  | .ch c :: l => (render var args l).map (c :: ·)
  | .res :: l => (render var args l).map (var ++ ·)
  | .arg n :: l =>
    match args[n]? with
    | some a => (render var args l).map (a ++ ·)
    | none => none

/-- No braces, which `str.format` would read. -/
def noBrace (s : List Char) : Bool := s.all fun c => c != '{' && c != '}'

theorem putArgs_append (args : List (List Char)) (a b : List FOut) :
    putArgs args (a ++ b) = (putArgs args a).bind fun x => (putArgs args b).map (x ++ ·) := by
  induction a with
  | nil => simp [putArgs]
  | cons o a ih =>
    cases o with
    | ch c =>
      simp only [List.cons_append, putArgs, ih]
      cases putArgs args a <;> cases putArgs args b <;> rfl
    | arg n =>
      simp only [List.cons_append, putArgs, ih]
      cases args[n]? with
      | none => rfl
      | some x =>
        simp only
        cases putArgs args a <;> cases putArgs args b <;> simp

theorem render_append (var : List Char) (args : List (List Char)) (a b : List TPart) :
    render var args (a ++ b) = (render var args a).bind fun x => (render var args b).map (x ++ ·) := by
  induction a with
  | nil => simp [render]
  | cons o a ih =>
    cases o with
    | ch c =>
      simp only [List.cons_append, render, ih]
      cases render var args a <;> cases render var args b <;> rfl
    | res =>
      simp only [List.cons_append, render, ih]
      cases render var args a <;> cases render var args b <;> simp
    | arg n =>
      simp only [List.cons_append, render, ih]
      cases args[n]? with
      | none => rfl
      | some x =>
        simp only
        cases render var args a <;> cases render var args b <;> simp

theorem render_out (var : List Char) (args : List (List Char)) (os : List FOut) :
    render var args (os.map TPart.ofOut) = putArgs args os := by
  induction os with
  | nil => rfl
  | cons o os ih =>
    cases o with
    | ch c => simp [TPart.ofOut, render, putArgs, ih]
    | arg n =>
      simp only [List.map_cons, TPart.ofOut, render, putArgs, ih]
      cases args[n]? <;> rfl

/-- Text without braces is written as it is. -/
theorem fgo_noBrace : ∀ {s : List Char}, noBrace s = true → ∀ rest : List Char,
    fgo .lit (s ++ rest) = (fgo .lit rest).map (s.map FOut.ch ++ ·)
  | [], _, rest => by simp
  | c :: s, h, rest => by
    simp only [noBrace, List.all_cons, Bool.and_eq_true, bne_iff_ne, ne_eq] at h
    have ih := fgo_noBrace (s := s) h.2 rest
    simp only [List.cons_append, fgo, fstep, if_neg h.1.1, if_neg h.1.2, Option.bind_some, ih, List.map_cons]
    cases fgo .lit rest <;> simp

theorem putArgs_chars (args : List (List Char)) (s : List Char) : putArgs args (s.map FOut.ch) = some s := by
  induction s with
  | nil => rfl
  | cons c s ih => simp [putArgs, ih]

/-- Formatting in two steps is the same as in one. -/
theorem format_parts {var : List Char} (hv : noBrace var = true) (args : List (List Char)) :
    ∀ (l : List (Option Char)) (st : FState) (ps : List TPart), partsGo st l = some ps → ∀ rest : List Char,
      (fgo st (putVar var l ++ rest)).bind (putArgs args) =
        (render var args ps).bind fun x => ((fgo .lit rest).bind (putArgs args)).map (x ++ ·)
  | [], st, ps, h, rest => by
    cases st <;> simp only [partsGo, Option.some.injEq, reduceCtorEq] at h
    subst h
    simp [putVar, render]
  | some c :: l, st, ps, h, rest => by
    have hu : partsGo st (some c :: l) =
        (fstep st c).bind fun (o, st') => (partsGo st' l).map (o.map TPart.ofOut ++ ·) := by cases st <;> rfl
    rw [hu] at h
    cases hs : fstep st c with
    | none => rw [hs] at h; cases h
    | some x =>
      obtain ⟨o, st'⟩ := x
      rw [hs] at h
      simp only [Option.bind_some, Option.map_eq_some_iff] at h
      obtain ⟨qs, hq, rfl⟩ := h
      have ih := format_parts hv args l st' qs hq rest
      have hf : fgo st (c :: (putVar var l ++ rest)) =
          (fstep st c).bind fun (o, st') => (fgo st' (putVar var l ++ rest)).map (o ++ ·) := by cases st <;> rfl
      have e : putVar var (some c :: l) ++ rest = c :: (putVar var l ++ rest) := by simp [putVar]
      rw [e, hf, hs, render_append, render_out]
      simp only [Option.bind_some]
      cases hg : fgo st' (putVar var l ++ rest) with
      | none =>
        rw [hg] at ih
        simp only [Option.bind_none, Option.map_none] at ih ⊢
        cases hp : putArgs args o with
        | none => rfl
        | some a =>
          simp only [Option.bind_some]
          cases hr : render var args qs with
          | none => rfl
          | some b =>
            rw [hr] at ih
            simp only [Option.bind_some] at ih
            simp only [Option.map_some, Option.bind_some]
            cases hx : (fgo .lit rest).bind (putArgs args) with
            | none => rfl
            | some y => rw [hx] at ih; cases ih
      | some w =>
        rw [hg] at ih
        simp only [Option.bind_some, Option.map_some] at ih ⊢
        rw [putArgs_append, ih]
        cases putArgs args o with
        | none => rfl
        | some a =>
          cases render var args qs with
          | none => rfl
          | some b =>
            simp only [Option.bind_some, Option.map_some]
            cases (fgo .lit rest).bind (putArgs args) <;> simp
  | none :: l, st, ps, h, rest => by
    cases st with
    | lit =>
      simp only [partsGo, Option.map_eq_some_iff] at h
      obtain ⟨qs, hq, rfl⟩ := h
      have ih := format_parts hv args l .lit qs hq rest
      have e : putVar var (none :: l) ++ rest = var ++ (putVar var l ++ rest) := by simp [putVar]
      rw [e, fgo_noBrace hv]
      simp only [render]
      cases hg : fgo .lit (putVar var l ++ rest) with
      | none =>
        rw [hg] at ih
        simp only [Option.bind_none, Option.map_none] at ih ⊢
        cases hr : render var args qs with
        | none => rfl
        | some b =>
          rw [hr] at ih
          simp only [Option.bind_some] at ih
          simp only [Option.map_some, Option.bind_some]
          cases hx : (fgo .lit rest).bind (putArgs args) with
          | none => rfl
          | some y => rw [hx] at ih; cases ih
      | some w =>
        rw [hg] at ih
        simp only [Option.bind_some, Option.map_some] at ih ⊢
        rw [putArgs_append, putArgs_chars, ih]
        simp only [Option.bind_some]
        cases render var args qs with
        | none => rfl
        | some b =>
          simp only [Option.bind_some, Option.map_some]
          cases (fgo .lit rest).bind (putArgs args) <;> simp
    | _ => cases h

/-- The parts of the lines of a template. -/
def partsAll : List String → Option (List (List TPart))
  | [] => some []
  | s :: ss => (parts s).bind fun p => (partsAll ss).map (p :: ·)

/-- The texts of lines. -/
def renderAll (var : List Char) (args : List (List Char)) : List (List TPart) → Option (List (List Char))
  | [] => some []
  | p :: ps => (render var args p).bind fun a => (renderAll var args ps).map (a :: ·)

theorem joinLines_cons (a b : List Char) (ls : List (List Char)) :
    joinLines (a :: b :: ls) = a ++ '\n' :: joinLines (b :: ls) := by
  rw [joinLines]
  exact List.cons_ne_nil _ _

theorem percentAll_cons {var : List Char} {s : String} {ss : List String} {p : List TPart}
    (h : parts s = some p) : ∃ l, percentGo [] s.toList = some l ∧ partsGo .lit l = some p ∧
      percentAll var (s :: ss) = (percentAll var ss).map (putVar var l :: ·) := by
  simp only [parts, Option.bind_eq_some_iff] at h
  obtain ⟨l, h1, h2⟩ := h
  exact ⟨l, h1, h2, by simp [percentAll, percent, h1]⟩

/-- The lines of a template are formatted one by one. -/
theorem format_lines {var : List Char} (hv : noBrace var = true) (args : List (List Char)) :
    ∀ (ss : List String) (pss : List (List TPart)), partsAll ss = some pss →
      (percentAll var ss).bind (fun ls => format args (joinLines ls)) = (renderAll var args pss).map joinLines
  | [], pss, h => by
    cases h
    rfl
  | [s], pss, h => by
    simp only [partsAll, Option.map_some, Option.bind_eq_some_iff, Option.some.injEq] at h
    obtain ⟨p, hp, rfl⟩ := h
    obtain ⟨l, _, h2, h3⟩ := percentAll_cons (var := var) (ss := []) hp
    have := format_parts hv args l .lit p h2 []
    rw [h3]
    simp only [percentAll, Option.map_some, Option.bind_some, joinLines, format, renderAll]
    rw [List.append_nil] at this
    rw [this]
    cases render var args p <;> simp [fgo, putArgs, joinLines]
  | s :: s' :: ss, pss, h => by
    simp only [partsAll, Option.bind_eq_some_iff] at h
    obtain ⟨p, hp, h⟩ := h
    simp only [Option.map_eq_some_iff] at h
    obtain ⟨qss, hq, rfl⟩ := h
    have ih := format_lines hv args (s' :: ss) qss hq
    simp only [partsAll, Option.bind_eq_some_iff, Option.map_eq_some_iff] at hq
    obtain ⟨l, _, h2, h3⟩ := percentAll_cons (var := var) (ss := s' :: ss) hp
    rw [h3]
    obtain ⟨q, qss', rfl⟩ : ∃ q qss', qss = q :: qss' := by
      obtain ⟨q, _, hq⟩ := hq
      obtain ⟨qs, _, rfl⟩ := hq
      exact ⟨_, _, rfl⟩
    obtain ⟨p', hp', hq'⟩ := hq
    obtain ⟨l', _, h2', h3'⟩ := percentAll_cons (var := var) (ss := ss) hp'
    rw [h3'] at ih ⊢
    cases hpa : percentAll var ss with
    | none =>
      rw [hpa] at ih
      simp only [Option.map_none, Option.bind_none] at ih ⊢
      have ih' : renderAll var args (q :: qss') = none := by
        cases hx : renderAll var args (q :: qss') with
        | none => rfl
        | some y => rw [hx] at ih; cases ih
      simp only [renderAll] at ih' ⊢
      rw [ih']
      cases render var args p <;> rfl
    | some ms =>
      rw [hpa] at ih
      simp only [Option.map_some, Option.bind_some, format] at ih ⊢
      have e : joinLines (putVar var l :: putVar var l' :: ms) =
          putVar var l ++ '\n' :: joinLines (putVar var l' :: ms) := by
        exact joinLines_cons _ _ _
      have := format_parts hv args l .lit p h2 ('\n' :: joinLines (putVar var l' :: ms))
      rw [e, this]
      have hn : fgo .lit ('\n' :: joinLines (putVar var l' :: ms)) =
          (fgo .lit (joinLines (putVar var l' :: ms))).map (.ch '\n' :: ·) := by
        simp only [fgo, fstep]
        rw [if_neg (by decide), if_neg (by decide)]
        rfl
      rw [hn]
      have hb : ((fgo .lit (joinLines (putVar var l' :: ms))).map (.ch '\n' :: ·)).bind (putArgs args) =
          ((fgo .lit (joinLines (putVar var l' :: ms))).bind (putArgs args)).map ('\n' :: ·) := by
        cases fgo .lit (joinLines (putVar var l' :: ms)) <;> rfl
      rw [hb, ih]
      have hr : renderAll var args (p :: q :: qss') =
          (render var args p).bind fun a => (renderAll var args (q :: qss')).map (a :: ·) := rfl
      rw [hr]
      cases render var args p with
      | none => rfl
      | some a =>
        simp only [Option.bind_some]
        cases hx : renderAll var args (q :: qss') with
        | none => rfl
        | some ys =>
          simp only [Option.map_some, Option.some.injEq]
          have : ys ≠ [] := by
            rintro rfl
            simp only [renderAll, Option.bind_eq_some_iff, Option.map_eq_some_iff] at hx
            obtain ⟨_, _, _, _, h⟩ := hx
            cases h
          obtain ⟨y, ys, rfl⟩ := List.exists_cons_of_ne_nil this
          exact (joinLines_cons a y ys).symm

/-- `_format_statements` line by line. -/
theorem formatStatements_eq {var : List Char} (hv : noBrace var = true) (args : List (List Char)) {ss : List String}
    {pss : List (List TPart)} (h : partsAll (if ss.isEmpty then ["pass"] else ss) = some pss) :
    formatStatements var ss args = (renderAll var args pss).map joinLines :=
  format_lines hv args _ _ h

end Verif.Stmt
