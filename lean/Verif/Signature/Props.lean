import Verif.Signature.Model
import Mathlib.Data.List.TakeWhile
import Mathlib.Tactic.Tauto
/-!
# C12 (signature) and C31 (converters as methods)
-/
set_option autoImplicit false

namespace Verif.Signature

/-! ## Specification of Python parameter lists -/

namespace Spec

/-- Split at commas. -/
def splitComma : Str → List Str
  | [] => [[]]
  | c :: cs =>
    if c = ',' then [] :: splitComma cs
    else match splitComma cs with
      | [] => [[c]]
      | w :: ws => (c :: w) :: ws

def strip (s : Str) : Str := s.dropWhile (· = ' ')

/-- Positional-or-keyword parameters and keyword-only parameters of a parameter list. A parameter
with a default (`x=1`) is listed under the text before `=`. -/
def parse (sig : Str) : List Str × List Str :=
  let items := (splitComma sig).map strip
  let name (s : Str) : Str := s.takeWhile (fun c => c ≠ '=')
  ((items.takeWhile (· ≠ ['*'])).map name, ((items.dropWhile (· ≠ ['*'])).drop 1).map name)

/-- The names the generated code will use as variables: `input_arg`s, not labels. -/
def needed (deps : List Dep) (n : Str) : Prop := ∃ d ∈ deps, d.isLabel = false ∧ d.argName = n

end Spec

/-! ## get_args -/

theorem foldl_dict_spec (ds : List Dep) : ∀ (m : List (Str × Dep)),
    (∀ p ∈ m, p.2.argName = p.1) → (Dict.keys m).Nodup →
    let r := ds.foldl (fun m d => Dict.set m d.argName d) m
    (∀ p ∈ r, p.2.argName = p.1) ∧ (Dict.keys r).Nodup ∧
    (∀ n, n ∈ Dict.keys r ↔ n ∈ Dict.keys m ∨ ∃ d ∈ ds, d.argName = n) := by
  induction ds with
  | nil => intro m h1 h2; exact ⟨h1, h2, by simp⟩
  | cons d ds ih =>
    intro m h1 h2
    have hm : ∀ (m : List (Str × Dep)) k (v : Dep) p, p ∈ Dict.set m k v → p ∈ m ∨ p = (k, v) := by
      intro m
      induction m with
      | nil => intro k v p hp; simp [Dict.set] at hp; exact .inr hp
      | cons a m ihm =>
        intro k v p hp
        obtain ⟨x, y⟩ := a
        by_cases hx : x = k
        · subst hx
          simp only [Dict.set, beq_self_eq_true, if_true, List.mem_cons] at hp
          rcases hp with hp | hp
          · exact .inr hp
          · exact .inl (List.mem_cons_of_mem _ hp)
        · have hx' : (x == k) = false := by simpa using hx
          simp only [Dict.set, hx', Bool.false_eq_true, if_false, List.mem_cons] at hp
          rcases hp with hp | hp
          · exact .inl (by rw [hp]; simp)
          · rcases ihm k v p hp with hp | hp
            · exact .inl (List.mem_cons_of_mem _ hp)
            · exact .inr hp
    have hk : ∀ n, n ∈ Dict.keys (Dict.set m d.argName d) ↔ n ∈ Dict.keys m ∨ d.argName = n := by
      intro n
      cases h : Dict.has m d.argName with
      | true =>
        rw [Dict.set_keys_of_has _ _ _ h]
        obtain ⟨a, ha, hak⟩ := (Dict.get?_isSome_iff m d.argName).1 h
        have := eq_of_beq hak; subst this
        constructor
        · exact .inl
        · rintro (h | rfl)
          · exact h
          · exact ha
      | false =>
        rw [Dict.set_of_not_has _ _ _ h]
        simp only [Dict.keys, List.map_append, List.map_cons, List.map_nil, List.mem_append,
          List.mem_cons, List.not_mem_nil, or_false]
        rw [eq_comm (a := n)]
    have hnd : (Dict.keys (Dict.set m d.argName d)).Nodup := by
      cases h : Dict.has m d.argName with
      | true => rw [Dict.set_keys_of_has _ _ _ h]; exact h2
      | false =>
        rw [Dict.set_of_not_has _ _ _ h]
        simp only [Dict.keys, List.map_append, List.map_cons, List.map_nil]
        rw [List.nodup_append]
        refine ⟨h2, by simp, ?_⟩
        intro a ha b hb
        simp only [List.mem_cons, List.not_mem_nil, or_false] at hb
        subst hb
        intro he
        have : (Dict.get? m d.argName).isSome :=
          (Dict.get?_isSome_iff m _).2 ⟨a, ha, by simp [he]⟩
        simp [Dict.has, this] at h
    have := ih (Dict.set m d.argName d) (fun p hp => by
      rcases hm _ _ _ p hp with hp | hp
      · exact h1 p hp
      · rw [hp]) hnd
    refine ⟨this.1, this.2.1, ?_⟩
    intro n
    rw [List.foldl_cons, this.2.2 n, hk]
    simp only [List.mem_cons, exists_eq_or_imp, or_assoc]

theorem weak : PySort.WeakOrder (fun a b : Dep => decide (a.argName < b.argName)) where
  asymm := by
    intro a b h
    simp only [decide_eq_true_eq, decide_eq_false_iff_not] at *
    exact List.lt_asymm h
  negTrans := by
    intro a b c h1 h2
    simp only [decide_eq_false_iff_not, List.not_lt] at *
    exact List.le_trans h2 h1

/-- The argument list of a conversion: the needed names, once each, sorted. -/
theorem getArgs_spec (deps : List Dep) :
    let names := (getArgs deps true).map (·.argName)
    (∀ n, n ∈ names ↔ Spec.needed deps n) ∧ names.Nodup ∧ names.Pairwise (· ≤ ·) := by
  intro names
  have f := foldl_dict_spec (deps.filter (fun d => !d.isLabel)) [] (by simp) (by simp [Dict.keys])
  generalize hr : (deps.filter (fun d => !d.isLabel)).foldl
    (fun m d => Dict.set m d.argName d) ([] : List (Str × Dep)) = r at f
  have hn : names.Perm (Dict.keys r) := by
    have h1 : names = (PySort.sorted (fun a b => decide (a.argName < b.argName))
        (r.map Prod.snd)).map (·.argName) := by
      simp only [names, getArgs, if_true, hr]
    rw [h1]
    refine ((PySort.sorted_perm _ _).map _).trans ?_
    rw [List.map_map]
    have : r.map ((·.argName) ∘ Prod.snd) = Dict.keys r :=
      List.map_congr_left fun p hp => f.1 p hp
    rw [this]
  refine ⟨?_, hn.nodup_iff.2 f.2.1, ?_⟩
  · intro n
    rw [hn.mem_iff, f.2.2 n]
    simp only [Dict.keys, List.map_nil, List.not_mem_nil, false_or, List.mem_filter, Bool.not_eq_true',
      Spec.needed, and_assoc]
  · simp only [names, getArgs, if_true]
    rw [List.pairwise_map]
    exact (PySort.sorted_pairwise weak _).imp (by
      intro a b h
      simpa [List.not_lt] using h)

/-! ## Parsing the generated parameter list -/

/-- An argument name as it occurs in a parameter list: non-empty, without the punctuation of
parameter lists. -/
def Plain (n : Str) : Prop := n ≠ [] ∧ ∀ c ∈ n, c ≠ ',' ∧ c ≠ ' ' ∧ c ≠ '*' ∧ c ≠ '='

theorem splitComma_append (a : Str) (h : ∀ c ∈ a, c ≠ ',') (rest : Str) :
    Spec.splitComma (a ++ ',' :: rest) = a :: Spec.splitComma rest := by
  induction a with
  | nil => simp [Spec.splitComma]
  | cons c a ih =>
    have := ih (fun c hc => h c (List.mem_cons_of_mem _ hc))
    simp [Spec.splitComma, this, h c (by simp)]

theorem splitComma_plain (a : Str) (h : ∀ c ∈ a, c ≠ ',') : Spec.splitComma a = [a] := by
  induction a with
  | nil => rfl
  | cons c a ih =>
    have := ih (fun c hc => h c (List.mem_cons_of_mem _ hc))
    simp [Spec.splitComma, this, h c (by simp)]

theorem strip_plain (a : Str) (h : Plain a) : Spec.strip a = a ∧ Spec.strip (' ' :: a) = a := by
  obtain ⟨hne, hc⟩ := h
  cases a with
  | nil => exact absurd rfl hne
  | cons c a =>
    have := (hc c (by simp)).2.1
    simp [Spec.strip, List.dropWhile_cons, this]

/-- Items of a comma separated list of plain names, the first possibly after a blank. -/
theorem items_join (ns : List Str) (h : ∀ n ∈ ns, Plain n) (hne : ns ≠ []) :
    (Spec.splitComma (joinComma ns)).map Spec.strip = ns ∧
    (Spec.splitComma (' ' :: joinComma ns)).map Spec.strip = ns := by
  induction ns with
  | nil => exact absurd rfl hne
  | cons a as ih =>
    have ha := h a (by simp)
    have hcomma : ∀ c ∈ a, c ≠ ',' := fun c hc => (ha.2 c hc).1
    have hcomma' : ∀ c ∈ ' ' :: a, c ≠ ',' := by
      intro c hc
      rcases List.mem_cons.1 hc with rfl | hc
      · decide
      · exact hcomma c hc
    cases as with
    | nil =>
      simp only [joinComma]
      rw [splitComma_plain a hcomma, splitComma_plain _ hcomma']
      have := strip_plain a ha
      simp [this.1, this.2]
    | cons b bs =>
      have ih' := ih (fun n hn => h n (List.mem_cons_of_mem _ hn)) (by simp)
      simp only [joinComma, List.append_assoc, List.cons_append, List.nil_append]
      have e : (' ' :: (a ++ ',' :: ' ' :: joinComma (b :: bs))) =
          (' ' :: a) ++ ',' :: ' ' :: joinComma (b :: bs) := by simp
      rw [splitComma_append a hcomma, e, splitComma_append _ hcomma']
      have := strip_plain a ha
      simp only [List.map_cons, this.1, this.2, ih'.2, and_self]

theorem name_plain (a : Str) (h : Plain a) : a.takeWhile (fun c => decide (c ≠ '=')) = a := by
  rw [List.takeWhile_eq_self_iff]
  intro c hc
  simpa using (h.2 c hc).2.2.2

theorem plain_ne_star (a : Str) (h : Plain a) : a ≠ ['*'] := by
  rintro rfl
  exact (h.2 '*' (by simp)).2.2.1 rfl

theorem parse_pos (ns : List Str) (h : ∀ n ∈ ns, Plain n) (hne : ns ≠ []) :
    Spec.parse (joinComma ns) = (ns, []) := by
  have ht : ns.takeWhile (fun x => decide (x ≠ ['*'])) = ns :=
    List.takeWhile_eq_self_iff.2 fun x hx => by simpa using plain_ne_star x (h x hx)
  have hd : ns.dropWhile (fun x => decide (x ≠ ['*'])) = [] :=
    List.dropWhile_eq_nil_iff.2 fun x hx => by simpa using plain_ne_star x (h x hx)
  simp only [Spec.parse, (items_join ns h hne).1, ht, hd]
  have : ns.map (fun s => s.takeWhile (fun c => decide (c ≠ '='))) = ns := by
    conv => rhs; rw [← List.map_id ns]
    exact List.map_congr_left fun x hx => name_plain x (h x hx)
  simp only [List.drop_nil, List.map_nil, this]

theorem parse_kw (ps ks : List Str) (hp : ∀ n ∈ ps, Plain n) (hk : ∀ n ∈ ks, Plain n)
    (hpne : ps ≠ []) (hkne : ks ≠ []) :
    Spec.parse (joinComma ps ++ ", *, ".toList ++ joinComma ks) = (ps, ks) := by
  have hitems : (Spec.splitComma (joinComma ps ++ ", *, ".toList ++ joinComma ks)).map Spec.strip
      = ps ++ ['*'] :: ks := by
    have key : ∀ ps : List Str, (∀ n ∈ ps, Plain n) → ps ≠ [] → ∀ rest,
        (Spec.splitComma (joinComma ps ++ ',' :: rest)).map Spec.strip
          = ps ++ (Spec.splitComma rest).map Spec.strip ∧
        (Spec.splitComma (' ' :: (joinComma ps ++ ',' :: rest))).map Spec.strip
          = ps ++ (Spec.splitComma rest).map Spec.strip := by
      intro ps
      induction ps with
      | nil => intro _ h; exact absurd rfl h
      | cons a as ih =>
        intro h _ rest
        have ha := h a (by simp)
        have hcomma : ∀ c ∈ a, c ≠ ',' := fun c hc => (ha.2 c hc).1
        have hcomma' : ∀ c ∈ ' ' :: a, c ≠ ',' := by
          intro c hc
          rcases List.mem_cons.1 hc with rfl | hc
          · decide
          · exact hcomma c hc
        have hs := strip_plain a ha
        cases as with
        | nil =>
          simp only [joinComma]
          have e : (' ' :: (a ++ ',' :: rest)) = (' ' :: a) ++ ',' :: rest := by simp
          rw [splitComma_append a hcomma, e, splitComma_append _ hcomma']
          simp [hs.1, hs.2]
        | cons b bs =>
          have ih' := ih (fun n hn => h n (List.mem_cons_of_mem _ hn)) (by simp) rest
          simp only [joinComma, List.append_assoc, List.cons_append, List.nil_append] at ih' ⊢
          have e : ∀ x, (' ' :: (a ++ ',' :: x)) = (' ' :: a) ++ ',' :: x := by simp
          rw [splitComma_append a hcomma, e, splitComma_append _ hcomma']
          simp only [List.map_cons, hs.1, hs.2, ih'.2, List.cons_append, and_self]
    have e1 : joinComma ps ++ ", *, ".toList ++ joinComma ks
        = joinComma ps ++ ',' :: ([' ', '*'] ++ ',' :: (' ' :: joinComma ks)) := by
      have : ", *, ".toList = [',', ' ', '*', ',', ' '] := by decide
      simp [this]
    rw [e1, (key ps hp hpne _).1, splitComma_append [' ', '*'] (by decide)]
    simp only [List.map_cons, (items_join ks hk hkne).2]
    have : Spec.strip [' ', '*'] = ['*'] := by decide
    rw [this]
  have ht : (ps ++ ['*'] :: ks).takeWhile (fun x => decide (x ≠ ['*'])) = ps := by
    rw [List.takeWhile_append_of_pos (fun x hx => by simpa using plain_ne_star x (hp x hx))]
    simp [List.takeWhile_cons]
  have hd : (ps ++ ['*'] :: ks).dropWhile (fun x => decide (x ≠ ['*'])) = ['*'] :: ks := by
    rw [List.dropWhile_append_of_pos (fun x hx => by simpa using plain_ne_star x (hp x hx))]
    simp [List.dropWhile_cons]
  have hmap : ∀ ns : List Str, (∀ n ∈ ns, Plain n) →
      ns.map (fun s => s.takeWhile (fun c => decide (c ≠ '='))) = ns := by
    intro ns h
    conv => rhs; rw [← List.map_id ns]
    exact List.map_congr_left fun x hx => name_plain x (h x hx)
  simp only [Spec.parse, hitems, ht, hd, List.drop_succ_cons, List.drop_zero, hmap ps hp, hmap ks hk]

/-! ## C12 -/

/-- **C12.** Without explicit signature (not both `method` and `class_method`), for every
conversion: the generated parameter list consists of [self] [cls] `data_` as ordinary parameters and
of keyword-only parameters that are exactly the needed argument names other than self/cls, each
once, in sorted order.  Labels are not parameters. -/
theorem C12_default_signature (isW : Char → Bool) (deps : List Dep) (method classMethod : Bool)
    (hboth : ¬ (method = true ∧ classMethod = true))
    (hplain : ∀ n, Spec.needed deps n → Plain n) :
    ∃ sig kws, chooseSignature isW deps none method classMethod = .ok sig ∧
      Spec.parse sig = ((if method then ["self".toList] else []) ++
        (if classMethod then ["cls".toList] else []) ++ ["data_".toList], kws) ∧
      (∀ n, n ∈ kws ↔ Spec.needed deps n ∧ n ≠ "self".toList ∧ n ≠ "cls".toList) ∧
      kws.Nodup ∧ kws.Pairwise (· ≤ ·) := by
  have g := getArgs_spec deps
  have hb : (method && classMethod) = false := by
    cases method <;> cases classMethod <;> simp at hboth ⊢
  let kws := ((getArgs deps true).filter
      (fun a => !(a.argName == "self".toList || a.argName == "cls".toList))).map (·.argName)
  have hk : kws = ((getArgs deps true).map (·.argName)).filter
      (fun a => !(a == "self".toList || a == "cls".toList)) := by
    simp only [kws, List.filter_map]; rfl
  have hmem : ∀ n, n ∈ kws ↔ Spec.needed deps n ∧ n ≠ "self".toList ∧ n ≠ "cls".toList := by
    intro n
    rw [hk, List.mem_filter, g.1 n]
    simp
  have hnd : kws.Nodup := by rw [hk]; exact g.2.1.filter _
  have hsrt : kws.Pairwise (· ≤ ·) := by rw [hk]; exact g.2.2.filter _
  have hkplain : ∀ n ∈ kws, Plain n := fun n hn => hplain n ((hmem n).1 hn).1
  let pos := (if method then ["self".toList] else []) ++
        (if classMethod then ["cls".toList] else []) ++ ["data_".toList]
  have hpos : ∀ n ∈ pos, Plain n := by
    intro n hn
    have : n = "self".toList ∨ n = "cls".toList ∨ n = "data_".toList := by
      simp only [pos] at hn
      cases method <;> cases classMethod <;> simp at hn ⊢ <;> tauto
    rcases this with rfl | rfl | rfl <;> (unfold Plain; decide)
  have hjoin : (if method then "self, ".toList else []) ++ (if classMethod then "cls, ".toList else [])
      ++ "data_".toList = joinComma pos := by
    cases method <;> cases classMethod <;> simp at hboth <;> decide
  have hcode : getArgsDefCode deps true true true =
      if kws.isEmpty then [] else ", *, ".toList ++ joinComma kws := by
    simp only [getArgsDefCode, if_true, kws, List.isEmpty_map]
  refine ⟨_, kws, by simp only [chooseSignature, hb, Bool.false_eq_true, if_false]; rfl, ?_, hmem,
    hnd, hsrt⟩
  rw [hjoin, hcode]
  have hposne : pos ≠ [] := by simp [pos]
  by_cases he : kws = []
  · rw [he]
    simp only [List.isEmpty_nil, if_true, List.append_nil]
    exact parse_pos pos hpos hposne
  · have : kws.isEmpty = false := by simpa using he
    simp only [this, Bool.false_eq_true, if_false, ← List.append_assoc]
    exact parse_kw pos kws hpos hkplain hposne he

/-- Duplicated, unsorted arguments, a label and `self`: parameters `data_, *, a, b`. -/
example : chooseSignature (fun c => c.isAlphanum || c = '_')
      [⟨"b".toList, false⟩, ⟨"lbl".toList, true⟩, ⟨"a".toList, false⟩, ⟨"self".toList, false⟩,
        ⟨"b".toList, false⟩] none true false
    = .ok "self, data_, *, a, b".toList := by decide

/-- Both flags: an exception. -/
theorem C12_both_flags (isW : Char → Bool) (deps : List Dep) :
    chooseSignature isW deps none true true = .error .methodAndClassMethod := rfl

/-! ### Explicit signatures -/

theorem wordsAux_fuel (isW : Char → Bool) (s : Str) : ∀ f g, s.length ≤ f → s.length ≤ g →
    wordsAux isW f s = wordsAux isW g s := by
  suffices h : ∀ n (s : Str), s.length ≤ n → ∀ f g, s.length ≤ f → s.length ≤ g →
      wordsAux isW f s = wordsAux isW g s from h s.length s (Nat.le_refl _)
  intro n
  induction n with
  | zero =>
    intro s hs f g _ _
    have : s = [] := List.length_eq_zero_iff.1 (by omega)
    subst this
    cases f <;> cases g <;> rfl
  | succ n ih =>
    intro s hs f g hf hg
    cases s with
    | nil => cases f <;> cases g <;> rfl
    | cons c cs =>
      simp only [List.length_cons] at hs hf hg
      cases f with
      | zero => omega
      | succ f =>
        cases g with
        | zero => omega
        | succ g =>
          have hdl : (cs.dropWhile isW).length ≤ cs.length := (List.dropWhile_sublist _).length_le
          simp only [wordsAux]
          split
          · rw [ih _ (by omega) f g (by omega) (by omega)]
          · exact ih _ (by omega) f g (by omega) (by omega)

/-- Words of a text that starts with a word. -/
theorem words_word (isW : Char → Bool) (w rest : Str) (hw : w ≠ []) (hall : ∀ c ∈ w, isW c = true)
    (hrest : ∀ c, rest.head? = some c → isW c = false) :
    words isW (w ++ rest) = w :: words isW rest := by
  cases w with
  | nil => exact absurd rfl hw
  | cons c w =>
    have hw' : ∀ x ∈ w, isW x = true := fun x hx => hall x (List.mem_cons_of_mem _ hx)
    have ht : (w ++ rest).takeWhile isW = w := by
      rw [List.takeWhile_append_of_pos hw']
      cases rest with
      | nil => simp
      | cons d rest => simp [List.takeWhile_cons, hrest d rfl]
    have hd : (w ++ rest).dropWhile isW = rest := by
      rw [List.dropWhile_append_of_pos hw']
      cases rest with
      | nil => simp
      | cons d rest => simp [List.dropWhile_cons, hrest d rfl]
    simp only [words, List.cons_append, List.length_cons, wordsAux, hall c (by simp), if_true, ht, hd]
    congr 1
    exact wordsAux_fuel isW rest _ _ (by simp) (Nat.le_refl _)

theorem words_sep (isW : Char → Bool) (c : Char) (rest : Str) (hc : isW c = false) :
    words isW (c :: rest) = words isW rest := by
  simp [words, wordsAux, hc]

theorem words_join (isW : Char → Bool) (h1 : isW ',' = false) (h2 : isW ' ' = false)
    (ns : List Str) (h : ∀ n ∈ ns, n ≠ [] ∧ ∀ c ∈ n, isW c = true) :
    words isW (joinComma ns) = ns := by
  induction ns with
  | nil => rfl
  | cons a as ih =>
    have ha := h a (by simp)
    have ih' := ih (fun n hn => h n (List.mem_cons_of_mem _ hn))
    cases as with
    | nil =>
      have := words_word isW a [] ha.1 ha.2 (by simp)
      simpa [joinComma, words, wordsAux] using this
    | cons b bs =>
      simp only [joinComma, List.append_assoc]
      rw [words_word isW a _ ha.1 ha.2 (by simp [h1])]
      simp only [List.cons_append, List.nil_append]
      rw [words_sep _ _ _ h1, words_sep _ _ _ h2, ih']

/-- **C12, explicit signature.** A non-empty explicit signature is accepted, unchanged, iff every
needed argument name occurs in it as a word; otherwise compilation raises ConversionException naming
exactly the missing arguments. (Argument names are words; the comma and the blank are not word
characters.) -/
theorem C12_explicit_signature (isW : Char → Bool) (h1 : isW ',' = false) (h2 : isW ' ' = false)
    (deps : List Dep) (method classMethod : Bool) (sig : Str) (hsig : sig ≠ [])
    (hword : ∀ n, Spec.needed deps n → n ≠ [] ∧ ∀ c ∈ n, isW c = true) :
    (chooseSignature isW deps (some sig) method classMethod = .ok sig ↔
      ∀ n, Spec.needed deps n → n ∈ words isW sig) ∧
    (¬ (∀ n, Spec.needed deps n → n ∈ words isW sig) →
      ∃ missing, chooseSignature isW deps (some sig) method classMethod
          = .error (.missingArgs missing) ∧
        ∀ n, n ∈ missing ↔ Spec.needed deps n ∧ n ∉ words isW sig) := by
  have g := getArgs_spec deps
  have hw : words isW (getArgsDefCode deps false false true) = (getArgs deps true).map (·.argName) := by
    simp only [getArgsDefCode, Bool.false_eq_true, if_false]
    split
    · rename_i he
      have : getArgs deps true = [] := by simpa using he
      rw [this]; rfl
    · have hc : ", ".toList = [',', ' '] := by decide
      rw [hc]
      simp only [List.cons_append, List.nil_append]
      rw [words_sep _ _ _ h1, words_sep _ _ _ h2]
      exact words_join isW h1 h2 _ fun n hn => hword n ((g.1 n).1 hn)
  let missing := ((getArgs deps true).map (·.argName)).filter
    (fun w => !(words isW sig).contains w)
  have hm : ∀ n, n ∈ missing ↔ Spec.needed deps n ∧ n ∉ words isW sig := by
    intro n
    rw [List.mem_filter, g.1 n]
    simp
  have hch : chooseSignature isW deps (some sig) method classMethod =
      if missing.isEmpty then .ok sig else .error (.missingArgs missing) := by
    cases sig with
    | nil => exact absurd rfl hsig
    | cons c cs => simp only [chooseSignature, hw]; rfl
  constructor
  · rw [hch]
    constructor
    · intro h n hn
      by_cases hc : n ∈ words isW sig
      · exact hc
      · have hmem := (hm n).2 ⟨hn, hc⟩
        cases hmm : missing with
        | nil => rw [hmm] at hmem; simp at hmem
        | cons a as => rw [hmm] at h; simp at h
    · intro h
      have : missing = [] := by
        rw [List.eq_nil_iff_forall_not_mem]
        intro n hn
        exact ((hm n).1 hn).2 (h n ((hm n).1 hn).1)
      simp [this]
  · intro h
    refine ⟨missing, ?_, hm⟩
    rw [hch]
    cases hmm : missing with
    | nil =>
      exfalso; apply h
      intro n hn
      by_cases hc : n ∈ words isW sig
      · exact hc
      · have hmem := (hm n).2 ⟨hn, hc⟩
        rw [hmm] at hmem; simp at hmem
    | cons a as => simp

/-- A signature without the needed `dt` is refused, one with it is accepted. -/
example : chooseSignature (fun c => c.isAlphanum || c = '_') [⟨"dt".toList, false⟩]
      (some "self, data_".toList) false false = .error (.missingArgs ["dt".toList]) ∧
    chooseSignature (fun c => c.isAlphanum || c = '_') [⟨"dt".toList, false⟩]
      (some "self, dt, data_".toList) false false = .ok "self, dt, data_".toList := by decide

/-- **Discrepancy** (words are not parameters): an accepted explicit signature need not *declare*
the needed argument; here `y` only occurs as a default value, so the generated code raises
NameError when called.  (And nothing requires `data_` itself to be declared.) -/
theorem C12_refuted_word_is_parameter :
    ∃ (deps : List Dep) (sig : Str), Spec.needed deps "y".toList ∧
      chooseSignature (fun c => c.isAlphanum || c = '_') deps (some sig) false false = .ok sig ∧
      "y".toList ∉ (Spec.parse sig).1 ++ (Spec.parse sig).2 :=
  ⟨[⟨"y".toList, false⟩], "data_, x=y".toList, ⟨_, List.mem_cons_self, rfl, rfl⟩, by decide, by decide⟩

/-! ## C31 -/

/-- **C31, partial** (full statement: the first conclusion without `truthy inst`). A converter
stored on a class and accessed on a *truthy* instance is called with that instance first, and with
the class when accessed on the class. -/
theorem C31_method_instance_partial {Obj : Type} (truthy : Obj → Bool) (none_ cls : Obj)
    (hnone : truthy none_ = false) (args : List Obj) :
    (∀ inst, truthy inst = true →
      methodCallArgs truthy none_ (some inst) cls args = inst :: args) ∧
    methodCallArgs truthy none_ none cls args = cls :: args := by
  constructor
  · intro inst h; simp [methodCallArgs, instanceOrCls, h]
  · simp [methodCallArgs, instanceOrCls, hnone]

/-- **C31 is violated**: exactly the falsy instances (e.g. of a class with `__len__` returning 0)
are replaced by the class. -/
theorem C31_refuted {Obj : Type} (truthy : Obj → Bool) (none_ cls inst : Obj) (hne : inst ≠ cls)
    (args : List Obj) :
    methodCallArgs truthy none_ (some inst) cls args ≠ inst :: args ↔ truthy inst = false := by
  cases h : truthy inst <;> simp [methodCallArgs, instanceOrCls, h]
  exact hne.symm

/-- Concrete falsy instance: object 1 is falsy, the class is object 9. -/
example : methodCallArgs (fun n : Nat => n ≠ 0 ∧ n ≠ 1) 0 (some 1) 9 [7] = [9, 7] := by decide

end Verif.Signature
