import Verif.Stmt.TemplateHash

/-!
# Stmt: reduces with the same text are the same

Nothing here is code of the repository.
-/

set_option autoImplicit false

namespace Verif.Stmt

open Verif.Text Verif.Agg Verif.Reducers

/-! ## Lines with the same tokens -/

/-- Nothing which belongs to an argument follows it. -/
def HTok.follows : List HTok → Bool
  | [] => true
  | .tok t :: _ => decide (1 ≤ strength [t])
  | _ => false

/-- After each argument there is something which does not belong to it. -/
def goodLine : List HTok → Bool
  | [] => true
  | .tok _ :: l => goodLine l
  | _ :: l => HTok.follows l && goodLine l

/-- Two lines may have the same tokens. -/
def unif : List HTok → List HTok → Bool
  | [], [] => true
  | [], _ :: _ => false
  | _ :: _, [] => false
  | .tok a :: l, .tok b :: m => decide (a = b) && unif l m
  | .tok a :: _, _ :: _ => startTok a
  | _ :: _, .tok b :: _ => startTok b
  | _ :: l, _ :: m => unif l m

/-- The same for several lines. -/
def unifAll : List (List HTok) → List (List HTok) → Bool
  | [], [] => true
  | l :: ls, m :: ms => unif l m && unifAll ls ms
  | _, _ => false

theorem strength_cons (t : Tok) (r : List Tok) : strength (t :: r) = strength [t] := by
  cases t <;> rfl

theorem follows_strength {l : List HTok} (h : HTok.follows l = true) (xt yt : List Tok) : 1 ≤ strength (putH xt yt l) := by
  cases l with
  | nil => exact (by decide : 1 ≤ strength [])
  | cons a l =>
    cases a with
    | tok t =>
      simp only [HTok.follows, decide_eq_true_eq] at h
      simp only [putH, List.flatMap_cons, HTok.put, List.cons_append, List.nil_append]
      rw [strength_cons]
      exact h
    | _ => cases h

theorem rd_split {xt xt' r r' : List Tok} {xa xa' : Ast} (h : Rd xt xa) (h' : Rd xt' xa') (hs : 1 ≤ strength r)
    (hs' : 1 ≤ strength r') (e : xt ++ r = xt' ++ r') : xt = xt' ∧ xa = xa' ∧ r = r' := by
  have h1 := h.read r hs
  rw [e] at h1
  have h2 := ev_unique h1 (h'.read r' hs')
  cases h2
  exact ⟨List.append_cancel_right e, rfl, rfl⟩

section
variable {xt yt xt' yt' : List Tok} {xa ya xa' ya' : Ast} (hx : Rd xt xa) (hy : Rd yt ya) (hx' : Rd xt' xa')
  (hy' : Rd yt' ya')
include hx hy hx' hy'

theorem unif_of_eq : ∀ {l m : List HTok}, goodLine l = true → goodLine m = true →
    putH xt yt l = putH xt' yt' m → unif l m = true
  | [], [], _, _, _ => rfl
  | [], a :: m, _, hm, e => by
    exfalso
    simp only [putH, List.flatMap_nil, List.flatMap_cons] at e
    cases a with
    | tok t => simp [HTok.put] at e
    | x =>
      obtain ⟨t, l, rfl, _⟩ := hx'.start
      simp [HTok.put] at e
    | y =>
      obtain ⟨t, l, rfl, _⟩ := hy'.start
      simp [HTok.put] at e
  | a :: l, [], hl, _, e => by
    exfalso
    simp only [putH, List.flatMap_nil, List.flatMap_cons] at e
    cases a with
    | tok t => simp [HTok.put] at e
    | x =>
      obtain ⟨t, l, rfl, _⟩ := hx.start
      simp [HTok.put] at e
    | y =>
      obtain ⟨t, l, rfl, _⟩ := hy.start
      simp [HTok.put] at e
  | a :: l, b :: m, hl, hm, e => by
    have e' : a.put xt yt ++ putH xt yt l = b.put xt' yt' ++ putH xt' yt' m := by simpa [putH] using e
    have rdA : ∀ c : HTok, (∀ t, c ≠ .tok t) → ∃ q, Rd (c.put xt yt) q := by
      intro c hc
      cases c with
      | tok t => exact absurd rfl (hc t)
      | x => exact ⟨xa, hx⟩
      | y => exact ⟨ya, hy⟩
    have rdB : ∀ c : HTok, (∀ t, c ≠ .tok t) → ∃ q, Rd (c.put xt' yt') q := by
      intro c hc
      cases c with
      | tok t => exact absurd rfl (hc t)
      | x => exact ⟨xa', hx'⟩
      | y => exact ⟨ya', hy'⟩
    have args : (∀ t, a ≠ .tok t) → (∀ t, b ≠ .tok t) → HTok.follows l = true → HTok.follows m = true →
        goodLine l = true → goodLine m = true → unif l m = true := by
      intro ha hb hfl hfm hgl hgm
      obtain ⟨q, hq⟩ := rdA a ha
      obtain ⟨q', hq'⟩ := rdB b hb
      obtain ⟨_, _, e2⟩ := rd_split hq hq' (follows_strength hfl xt yt) (follows_strength hfm xt' yt') e'
      exact unif_of_eq hgl hgm e2
    cases a with
    | tok t =>
      cases b with
      | tok t' =>
        simp only [HTok.put, List.cons_append, List.nil_append, List.cons.injEq] at e'
        simp only [unif, Bool.and_eq_true, decide_eq_true_eq]
        exact ⟨e'.1, unif_of_eq hl hm e'.2⟩
      | x =>
        obtain ⟨s, r, hr, hs⟩ := hx'.start
        rw [HTok.put, HTok.put, hr] at e'
        simp only [List.cons_append, List.cons.injEq] at e'
        rw [unif, e'.1, hs]
        simp
      | y =>
        obtain ⟨s, r, hr, hs⟩ := hy'.start
        rw [HTok.put, HTok.put, hr] at e'
        simp only [List.cons_append, List.cons.injEq] at e'
        rw [unif, e'.1, hs]
        simp
    | x =>
      simp only [goodLine, Bool.and_eq_true] at hl
      cases b with
      | tok t' =>
        obtain ⟨s, r, hr, hs⟩ := hx.start
        rw [HTok.put, HTok.put, hr] at e'
        simp only [List.cons_append, List.cons.injEq] at e'
        rw [unif, ← e'.1, hs]
        all_goals simp
      | x =>
        simp only [goodLine, Bool.and_eq_true] at hm
        exact args (by simp) (by simp) hl.1 hm.1 hl.2 hm.2
      | y =>
        simp only [goodLine, Bool.and_eq_true] at hm
        exact args (by simp) (by simp) hl.1 hm.1 hl.2 hm.2
    | y =>
      simp only [goodLine, Bool.and_eq_true] at hl
      cases b with
      | tok t' =>
        obtain ⟨s, r, hr, hs⟩ := hy.start
        rw [HTok.put, HTok.put, hr] at e'
        simp only [List.cons_append, List.cons.injEq] at e'
        rw [unif, ← e'.1, hs]
        all_goals simp
      | x =>
        simp only [goodLine, Bool.and_eq_true] at hm
        exact args (by simp) (by simp) hl.1 hm.1 hl.2 hm.2
      | y =>
        simp only [goodLine, Bool.and_eq_true] at hm
        exact args (by simp) (by simp) hl.1 hm.1 hl.2 hm.2

/-- Lines with the same tokens. -/
theorem unifAll_of_eq : ∀ {ls ms : List (List HTok)}, ls.all goodLine = true → ms.all goodLine = true →
    ls.map (putH xt yt) = ms.map (putH xt' yt') → unifAll ls ms = true
  | [], [], _, _, _ => rfl
  | [], _ :: _, _, _, e => by simp at e
  | _ :: _, [], _, _, e => by simp at e
  | l :: ls, m :: ms, hl, hm, e => by
    simp only [List.all_cons, Bool.and_eq_true] at hl hm
    simp only [List.map_cons, List.cons.injEq] at e
    simp only [unifAll, Bool.and_eq_true]
    exact ⟨unif_of_eq hx hy hx' hy' hl.1 hm.1 e.1, unifAll_of_eq hl.2 hm.2 e.2⟩

/-- The arguments in a line are determined by the tokens of the line. -/
theorem args_of_eq : ∀ {l : List HTok}, goodLine l = true → putH xt yt l = putH xt' yt' l →
    (.x ∈ l → xa = xa') ∧ (.y ∈ l → ya = ya')
  | [], _, _ => by simp
  | a :: l, hl, e => by
    have e' : a.put xt yt ++ putH xt yt l = a.put xt' yt' ++ putH xt' yt' l := by simpa [putH] using e
    cases a with
    | tok t =>
      simp only [HTok.put, List.cons_append, List.nil_append, List.cons.injEq, true_and] at e'
      have ih := args_of_eq (l := l) hl e'
      simpa using ih
    | x =>
      simp only [goodLine, Bool.and_eq_true] at hl
      obtain ⟨_, h1, e2⟩ := rd_split hx hx' (follows_strength hl.1 xt yt) (follows_strength hl.1 xt' yt') e'
      have ih := args_of_eq (l := l) hl.2 e2
      exact ⟨fun _ => h1, by simpa using ih.2⟩
    | y =>
      simp only [goodLine, Bool.and_eq_true] at hl
      obtain ⟨_, h1, e2⟩ := rd_split hy hy' (follows_strength hl.1 xt yt) (follows_strength hl.1 xt' yt') e'
      have ih := args_of_eq (l := l) hl.2 e2
      exact ⟨by simpa using ih.1, fun _ => h1⟩

theorem argsAll_of_eq : ∀ {ls : List (List HTok)}, ls.all goodLine = true → ls.map (putH xt yt) = ls.map (putH xt' yt') →
    ((∃ l ∈ ls, .x ∈ l) → xa = xa') ∧ ((∃ l ∈ ls, .y ∈ l) → ya = ya')
  | [], _, _ => by simp
  | l :: ls, hl, e => by
    simp only [List.all_cons, Bool.and_eq_true] at hl
    simp only [List.map_cons, List.cons.injEq] at e
    have h1 := args_of_eq hx hy hx' hy' hl.1 e.1
    have h2 := argsAll_of_eq hl.2 e.2
    constructor
    · rintro ⟨m, hm, hxm⟩
      rcases List.mem_cons.1 hm with rfl | hm
      · exact h1.1 hxm
      · exact h2.1 ⟨m, hm, hxm⟩
    · rintro ⟨m, hm, hxm⟩
      rcases List.mem_cons.1 hm with rfl | hm
      · exact h1.2 hxm
      · exact h2.2 ⟨m, hm, hxm⟩

end

/-! ## The reducers -/

theorem firstH_good (f : Fn) : f.firstH.all goodLine = true := by
  cases f <;> decide +kernel

theorem reduceH_good (f : Fn) : f.reduceH.all goodLine = true := by
  cases f <;> decide +kernel

/-- `Dict` or `DictLast`, which have the same statements. -/
def Fn.isDict : Fn → Bool
  | .dict | .dictLast => true
  | _ => false

/-- The statements may have the same tokens. -/
def Fn.alike (f g : Fn) : Bool := unifAll f.firstH g.firstH && unifAll f.reduceH g.reduceH

/-- The reducers with statements which may have the same tokens. -/
def Fn.near (f g : Fn) : Bool :=
  decide (f = g) || f.isDict && g.isDict || decide (f = .arrayDistinct) && g.isDict || f.isDict && decide (g = .arrayDistinct)

/-- `Max` or `Min`, and `MaxRow` or `MinRow`. -/
def Fn.rowNear : Fn → Fn → Bool
  | .max, .maxRow | .max, .minRow | .min, .maxRow | .min, .minRow => true
  | _, _ => false

/-- All reducers. -/
def Fn.all : List Fn :=
  [.sum, .sumOrNone, .max, .min, .count, .countDistinct, .first, .last, .maxRow, .minRow, .array, .arrayDistinct, .dict,
    .dictArray, .dictArrayDistinct, .dictSum, .dictSumOrNone, .dictMax, .dictMin, .dictCount, .dictCountDistinct, .dictFirst,
    .dictLast]

theorem Fn.mem_all (f : Fn) : f ∈ Fn.all := by
  cases f <;> decide

theorem alike_table : (Fn.all.all fun f => Fn.all.all fun g => !f.alike g || f.near g || f.rowNear g || g.rowNear f) = true := by
  decide +kernel

theorem alike_near {f g : Fn} (h : f.alike g = true) : f.near g = true ∨ f.rowNear g = true ∨ g.rowNear f = true := by
  have := List.all_eq_true.1 (List.all_eq_true.1 alike_table f f.mem_all) g g.mem_all
  simp only [h, Bool.not_true, Bool.false_or, Bool.or_eq_true] at this
  rcases this with (h | h) | h
  · exact .inl h
  · exact .inr (.inl h)
  · exact .inr (.inr h)

theorem firstH_extreme {f : Fn} (h : f = .max ∨ f = .min) : f.firstH =
    [[.tok .if_, .x, .tok .is_, .tok .not_, .tok (.name "None"), .tok .colon], [.tok .assign, .x]] := by
  rcases h with rfl | rfl <;> decide +kernel

theorem firstH_row {f : Fn} (h : f = .maxRow ∨ f = .minRow) : f.firstH =
    [[.tok .if_, .x, .tok .is_, .tok .not_, .tok (.name "None"), .tok .colon],
      [.tok .assign, .tok .lpar, .x, .tok .comma, .y, .tok .rpar]] := by
  rcases h with rfl | rfl <;> decide +kernel

theorem not_rowNear {f g : Fn} (h : f.rowNear g = true) (xt yt xt' yt' : List Tok) :
    f.firstH.map (putH xt yt) ≠ g.firstH.map (putH xt' yt') := by
  have hf : f = .max ∨ f = .min := by
    cases f <;> cases g <;> first | exact absurd h Bool.false_ne_true | simp
  have hg : g = .maxRow ∨ g = .minRow := by
    cases f <;> cases g <;> first | exact absurd h Bool.false_ne_true | simp
  rw [firstH_extreme hf, firstH_row hg]
  intro e
  simp only [List.map_cons, List.map_nil, List.cons.injEq, and_true] at e
  have h1 := congrArg List.length e.1
  have h2 := congrArg List.length e.2
  simp only [putH, List.flatMap_cons, List.flatMap_nil, HTok.put, List.length_append, List.length_cons, List.length_nil] at h1 h2
  omega

/-- The statements of a reducer mention its first argument. -/
def Fn.usesX (f : Fn) : Bool := f.firstH.any (fun l => l.any (fun t => decide (t = .x)))

/-- The statements of a reducer mention its second argument. -/
def Fn.usesY (f : Fn) : Bool := f.firstH.any (fun l => l.any (fun t => decide (t = .y)))

theorem usesX_count {f : Fn} (h : f ≠ .count) : f.usesX = true := by
  revert h
  cases f <;> first | (intro _; decide +kernel) | (intro h; exact absurd rfl h)

/-! ## The text of a built-in reduce without its variable -/

theorem puts_code {var : List Char} {vt : List Tok} {va : Ast} (hv : LxDot var vt) {as : List (List Char)}
    {argsL : List (List Tok × Ast × Bool)} (hl : as.length ≤ 3)
    (h : ∀ (n : Nat) (c : List Char), as[n]? = some c →
      ∃ p : List Tok × Ast × Bool, argsL[n]? = some p ∧ Lx c p.1) : Puts var as (codeFill (vt, va) argsL) where
  plain := codeFill_plain _ _
  var := ⟨_, _, codeFill_res _ _, hv⟩
  args := by
    intro n c hn
    obtain ⟨p, hp, ha⟩ := h n c hn
    have hlt : n < 3 := by
      have := (List.getElem?_eq_some_iff.1 hn).1
      omega
    exact ⟨p.1, p.2.1, p.2.2, by rw [codeFill_arg _ _ hlt, hp], ha⟩

theorem fill_ne {σ : Fill} (hσ : ∀ x, isPh x = false → σ x = none) : ∀ {ts : List Tok}, ts.any plainTok = true →
    fill σ ts ≠ []
  | [], h => by simp at h
  | t :: ts, h => by
    rw [fill_cons]
    simp only [List.any_cons, Bool.or_eq_true] at h
    rcases h with h | h
    · cases t with
      | name x =>
        have h1 : isPh x = false := by simpa [plainTok] using h
        simp [fillTok, hσ x h1]
      | _ => simp [fillTok]
    · have := fill_ne hσ h
      simp [this]

theorem map_mem {A B : Type} {f : A → B} {as : List A} {bs : List B} (h : as.map f = bs) : ∀ a ∈ as, f a ∈ bs := by
  rintro a ha
  rw [← h]
  exact List.mem_map_of_mem ha

/-- The lines of a formatted template, with and without the variable. -/
theorem tpl_lines {two : Bool} {n : Nat} {ss : List String} {hl : List (List HTok)} (hH : hashLines two ss = some hl)
    (ht : tplOk two n ss = true) {old : List Char} (ho : 12 ≤ old.length) (hc : ∀ c ∈ old, isSep c = false)
    (hb : noBrace old = true) {as bs : List (List Char)} {σ : Fill} (hσ : Puts old as σ) {xt yt : List Tok} {xa ya : Ast}
    (hτ : Puts [] bs (hashFill two xt yt xa ya)) (hs : Swap (fun k => two && k == 0) old [] as bs) (hbl : bs.length = n)
    {s : List Char} (h : formatStatements old ss as = some s) :
    ∃ xs I, s = joinLines xs ∧ xs ≠ [] ∧ (∀ l ∈ xs, '\n' ∉ l ∧ l ≠ []) ∧ xs.map (replaceAll old []) = I ∧
      (∀ l ∈ I, '\n' ∉ l) ∧ I.map (lexFrom .start) = hl.map (fun l => some (putH xt yt l)) ∧ I ≠ [] := by
  unfold tplOk at ht
  unfold hashLines at hH
  cases hp : partsAll (if ss.isEmpty then ["pass"] else ss) with
  | none => rw [hp] at ht; cases ht
  | some ps =>
    rw [hp] at ht hH
    simp only [Bool.and_eq_true] at ht
    simp only [Option.bind_some, Option.bind_eq_some_iff] at hH
    obtain ⟨tss, hts, hH⟩ := hH
    split at hH
    · next hall =>
      cases hH
      simp only [Bool.and_eq_true, List.all_eq_true, Bool.not_eq_true', List.isEmpty_eq_false_iff] at hall
      rw [formatStatements_eq hb as hp, Option.map_eq_some_iff] at h
      obtain ⟨xs, h, rfl⟩ := h
      subst hbl
      obtain ⟨I, hI⟩ := renderAll_some (var := []) ht.2
      have lx := lex_partsAll hσ hts h
      have li := lex_partsAll hτ hts hI
      have hxs : xs ≠ [] := by
        rintro rfl
        have : tss = [] := by simpa using lx.symm
        exact hall.2 this
      have hIs : I ≠ [] := by
        rintro rfl
        have : tss = [] := by simpa using li.symm
        exact hall.2 this
      refine ⟨xs, I, rfl, hxs, ?_, each_rename ho hc hs ps ht.1 xs I h hI, ?_, ?_, hIs⟩
      · intro l hl
        obtain ⟨ts, hts, e⟩ := List.mem_map.1 (map_mem lx l hl)
        refine ⟨lex_oneLine l .start rfl e.symm, ?_⟩
        rintro rfl
        have h0 : lexFrom .start [] = some [] := rfl
        rw [h0, Option.some.injEq] at e
        exact fill_ne hσ.plain (hall.1 ts hts).1 e
      · intro l hl
        obtain ⟨ts, hts, e⟩ := List.mem_map.1 (map_mem li l hl)
        exact lex_oneLine l .start rfl e.symm
      · rw [li, List.map_map]
        apply List.map_congr_left
        intro ts hts
        simp only [Function.comp_apply]
        rw [fill_hash two xt yt xa ya (hall.1 ts hts).2]
    · cases hH

theorem lx_nil : Lx [] [] := fun cs _ _ => by simp

theorem lxDot_nil : LxDot [] [] := fun cs _ => by simp

section
variable {V E : Type} {P : Py V E} {ops : Ops V E} {condSem : String → V → Except E Bool} {args : List String}
  {env : String → Option (PVal V)} {i j : Nat} {u v : BRed V E}

/-- The lines of the text by which a built-in reduce is compared, in `group_by`. -/
theorem hash_lines (hb : BOk P condSem args env false i u) (hin : u.initial = none)
    (hcf : ∀ c, u.codes.cond = some c → ¬ (placeText false i).toList <:+: c.toList) :
    ∃ xt yt ya I T, Rd xt u.xa ∧ Rd yt ya ∧ (u.f.arity = 2 → ya = u.ya) ∧
      splitNl (codeHash (textOf false i u.text)) = hashRaw (u.codes.cond.map String.toList) I T ∧
      I.map (lexFrom .start) = u.f.firstH.map (fun l => some (putH xt yt l)) ∧
      T.map (lexFrom .start) = u.f.reduceH.map (fun l => some (putH xt yt l)) ∧ I ≠ [] := by
  have hlen := hb.codes.length
  obtain ⟨b, hg⟩ := genBlock_some u.f hlen false i 0
  have ht : textOf false i u.text = b := by simp [textOf, BRed.text, hg]
  rw [ht]
  have hci : u.codes.initial = none := by
    have h1 := hb.initial
    rw [hin] at h1
    have h2 := hb.codes.initial
    cases hia : u.ia with
    | some a => rw [hia] at h1; exact h1.elim
    | none =>
      rw [hia] at h2
      cases hci : u.codes.initial with
      | none => rfl
      | some c => rw [hci] at h2; exact h2.elim
  simp only [genBlock, Option.bind_eq_some_iff, Option.map_eq_some_iff] at hg
  obtain ⟨init, h1, two, h2, rfl⟩ := hg
  rw [hci] at h1
  simp only [Option.map_none, Template.genInitial] at h1
  simp only [Template.genTwo] at h2
  have ho := placeText_length false i
  have hs := placeText_sep false i
  have hnb := placeText_noBrace false i
  have hfree : ∀ a ∈ u.codes.args.map String.toList, ¬ (placeText false i).toList <:+: a := by
    intro a ha
    rw [List.mem_map] at ha
    obtain ⟨x, hx, rfl⟩ := ha
    exact hb.free.1 x hx
  -- the tokens of the arguments
  have hargs : ∃ xt yt ya, Rd xt u.xa ∧ Rd yt ya ∧ (u.f.arity = 2 → ya = u.ya) ∧
      ∀ (n : Nat) (c : List Char), (u.codes.args.map String.toList)[n]? = some c →
        ∃ p : List Tok × Ast × Bool, [(xt, u.xa, false), (yt, ya, false)][n]? = some p ∧ Lx c p.1 := by
    obtain ⟨cx, xt, rest, ha, hx, hrest⟩ := hb.codes.args
    split at hrest
    · obtain ⟨cy, yt, rfl, hy⟩ := hrest
      refine ⟨xt, yt, u.ya, hx.rd, hy.rd, fun _ => rfl, ?_⟩
      intro n c hn
      rw [ha] at hn
      match n, hn with
      | 0, hn => cases hn; exact ⟨_, rfl, hx.lx⟩
      | 1, hn => cases hn; exact ⟨_, rfl, hy.lx⟩
      | n + 2, hn => simp at hn
    · next h2' =>
      subst hrest
      refine ⟨xt, xt, u.xa, hx.rd, hx.rd, fun h => absurd h h2', ?_⟩
      intro n c hn
      rw [ha] at hn
      match n, hn with
      | 0, hn => cases hn; exact ⟨_, rfl, hx.lx⟩
      | n + 1, hn => simp at hn
  obtain ⟨xt, yt, ya, hxr, hyr, hya, hget⟩ := hargs
  have hle : (u.codes.args.map String.toList).length ≤ 2 := by
    rw [List.length_map, hlen]
    cases u.f <;> decide
  have hget' : ∀ (w : List Char) (wt : List Tok) (wa : Ast) (q : Bool), Lx w wt → ∀ (n : Nat) (c : List Char),
      (w :: u.codes.args.map String.toList)[n]? = some c →
        ∃ p : List Tok × Ast × Bool, [(wt, wa, q), (xt, u.xa, false), (yt, ya, false)][n]? = some p ∧ Lx c p.1 := by
    intro w wt wa q hw n c hn
    cases n with
    | zero => cases hn; exact ⟨_, rfl, hw⟩
    | succ n =>
      rw [List.getElem?_cons_succ] at hn ⊢
      exact hget n c hn
  have hv := place_code false i
  obtain ⟨xs, I, e1, x1, x2, x3, x4, x5, x6⟩ := tpl_lines (first_hashLines u.f) (first_tplOk u.f) ho hs hnb
    (puts_code (va := place false i) (place_lxDot false i) (by omega) hget)
    (xt := xt) (yt := yt) (xa := u.xa) (ya := ya) (by
      unfold hashFill
      exact puts_code lxDot_nil (by omega) (by simpa using hget))
    (swap_same hfree) (by rw [List.length_map, hlen]) h1
  obtain ⟨ys, T, e2, y1, y2, y3, y4, y5, _⟩ := tpl_lines (reduce_hashLines u.f) (reduce_tplOk u.f true) ho hs hnb
    (puts_code (va := place false i) (place_lxDot false i) (by rw [List.length_cons]; omega)
      (hget' _ (placeToks false i) (place false i) true hv.lx))
    (bs := [] :: u.codes.args.map String.toList)
    (xt := xt) (yt := yt) (xa := u.xa) (ya := ya) (by
      unfold hashFill
      exact puts_code lxDot_nil (by rw [List.length_cons]; omega) (by
        simp only [if_true]
        exact hget' _ _ _ _ lx_nil))
    (by
      intro n a b ha hb
      cases n with
      | zero =>
        simp only [List.getElem?_cons_zero, Option.some.injEq] at ha hb
        exact ⟨ha.symm, hb.symm⟩
      | succ n =>
        simp only [List.getElem?_cons_succ] at ha hb
        rw [ha] at hb
        cases hb
        simp only [Bool.true_and, Nat.add_eq_zero_iff, Nat.one_ne_zero, and_false, beq_iff_eq, if_false]
        exact ⟨trivial, hfree a (List.mem_of_getElem? ha)⟩)
    (by rw [List.length_cons, List.length_map, hlen]) h2
  refine ⟨xt, yt, ya, I, T, hxr, hyr, hya, ?_, x5, y5, x6⟩
  refine hash_split ho hs rfl e1 e2 x1 y1 x2 y2 ?_ x3 y3 x4 y4
  intro c hc
  cases hcc : u.codes.cond with
  | none => rw [hcc] at hc; cases hc
  | some c' =>
    rw [hcc] at hc
    cases hc
    refine ⟨?_, hcf c' hcc⟩
    have := hb.codes.cond
    rw [hcc] at this
    cases hd : u.cond with
    | none => rw [hd] at this; exact this.elim
    | some d =>
      rw [hd] at this
      have h0 := this.1 [] rfl (by simp)
      rw [List.append_nil] at h0
      exact lex_oneLine _ .start rfl h0

end

end Verif.Stmt
