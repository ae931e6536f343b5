import Verif.Names.Lemmas
/-!
# C09 (generated names unique and stable), C10 (wrapped objects intact), C11 (identifier prefixes)
-/
set_option autoImplicit false

namespace Verif.Names

/-! ## C09 -/

/-- **C09.** In one compilation, for any random stream and any sequence of requests: whenever two
requests (at positions `i` and `j`) got names, the names are equal exactly when prefix and hash are
equal. -/
theorem C09_names_unique (rnd : Nat → Char × Char) (rs : List (String × Int))
    (i j : Nat) (p q : String) (h k : Int) (v w : String)
    (hi : rs[i]? = some (p, h)) (hj : rs[j]? = some (q, k))
    (hv : (genNames rnd .init rs).2[i]? = some (some v))
    (hw : (genNames rnd .init rs).2[j]? = some (some w)) :
    v = w ↔ (p = q ∧ h = k) := by
  have s := genNames_spec rnd rs .init inv_init
  have h1 := s.2.2.2 i p h v hi hv
  have h2 := s.2.2.2 j q k w hj hw
  constructor
  · rintro rfl
    exact prefixedHash_inj (s.1.inj _ _ _ h1 h2)
  · rintro ⟨rfl, rfl⟩
    rw [h1] at h2
    exact Option.some.inj h2

/-- **C09, stability**: once a request succeeded, every later identical request succeeds (with the
same name, by `C09_names_unique`), whatever was requested in between. -/
theorem C09_names_stable (rnd : Nat → Char × Char) (rs ss : List (String × Int)) (p : String)
    (h : Int) (v : String) (i : Nat) (hi : rs[i]? = some (p, h))
    (hv : (genNames rnd .init rs).2[i]? = some (some v)) :
    (genName rnd (genNames rnd (genNames rnd .init rs).1 ss).1 p h).2 = some v := by
  have s := genNames_spec rnd rs .init inv_init
  have h1 := s.2.2.2 i p h v hi hv
  have s2 := genNames_spec rnd ss _ s.1
  have h2 := s2.2.2.1 _ _ h1
  simp [genName, h2]

/-- Every name starts with its prefix followed by at least one `_xy` group, so it never equals a
bare prefix. -/
theorem C09_name_shape (rnd : Nat → Char × Char) (st : GenState) (ph pre : String) (n : Nat) :
    ∀ v, (genLoop rnd ph n pre st).2 = some v →
      ∃ m a b, v = pre ++ m ++ String.ofList ['_', a, b] := by
  induction n generalizing pre st with
  | zero => intro v h; simp [genLoop] at h
  | succ n ih =>
    intro v h
    simp only [genLoop] at h
    split at h
    · obtain ⟨m, a, b, e⟩ := ih _ _ v h
      exact ⟨String.ofList ['_', (rnd st.rndPos).1, (rnd st.rndPos).2] ++ m, a, b, by
        rw [e]; simp [String.append_assoc]⟩
    · simp at h
      exact ⟨"", (rnd st.rndPos).1, (rnd st.rndPos).2, by rw [← h]; simp⟩

/-- A stuck random generator (always "aa"): names get longer instead of colliding, also across
prefixes one of which ends in "_aa". -/
example : (genNames (fun _ => ('a', 'a')) .init
      [("v", 1), ("v", 2), ("v", 1), ("v_aa", 1), ("w", 1)]).2
    = [some "v_aa", some "v_aa_aa", some "v_aa", some "v_aa_aa_aa", some "w_aa"] := by decide

/-- The eleventh name from a stuck generator is refused (AssertionError), not duplicated. -/
example : (genNames (fun _ => ('a', 'a')) .init
      ((List.range 11).map fun i : Nat => ("v", Int.ofNat i))).2.getLast? = some none := by decide

/-! ## C11 -/

/-- Specification: an ASCII identifier start / part, by character codes. -/
def asciiIdentStart (c : Char) : Prop :=
  (97 ≤ c.toNat ∧ c.toNat ≤ 122) ∨ (65 ≤ c.toNat ∧ c.toNat ≤ 90) ∨ c.toNat = 95

def asciiIdentPart (c : Char) : Prop := asciiIdentStart c ∨ (48 ≤ c.toNat ∧ c.toNat ≤ 57)

theorem legalLeading_iff (c : Char) : legalLeading c = true ↔ asciiIdentStart c := by
  simp only [legalLeading, asciiIdentStart, Bool.or_eq_true, Bool.and_eq_true, decide_eq_true_eq,
    beq_iff_eq, Char.le_def, UInt32.le_iff_toNat_le, ← Char.toNat_inj, Char.toNat]
  simp only [show ('a').val.toNat = 97 from rfl, show ('z').val.toNat = 122 from rfl,
    show ('A').val.toNat = 65 from rfl, show ('Z').val.toNat = 90 from rfl,
    show ('_').val.toNat = 95 from rfl]
  omega

theorem legalChar_iff (c : Char) : legalChar c = true ↔ asciiIdentPart c := by
  have := legalLeading_iff c
  simp only [legalLeading, asciiIdentPart, legalChar, Bool.or_eq_true, Bool.and_eq_true,
    decide_eq_true_eq, beq_iff_eq] at this ⊢
  rw [← this]
  simp only [Char.le_def, UInt32.le_iff_toNat_le, Char.toNat, ← Char.toNat_inj]
  simp only [show ('0').val.toNat = 48 from rfl, show ('9').val.toNat = 57 from rfl]
  constructor
  · rintro (((h | h) | h) | h)
    · exact .inr h
    · exact .inl (.inl (.inl h))
    · exact .inl (.inl (.inr h))
    · exact .inl (.inr h)
  · rintro (((h | h) | h) | h)
    · exact .inl (.inl (.inr h))
    · exact .inl (.inr h)
    · exact .inr h
    · exact .inl (.inl (.inl h))

theorem mem_of_mem_dropWhile {α : Type} (p : α → Bool) (l : List α) (x : α)
    (h : x ∈ l.dropWhile p) : x ∈ l := (List.dropWhile_suffix p).subset h

/-- **C11.** For every string: the derived prefix consists of ASCII letters, digits and
underscores, its first character is not a digit, and it keeps exactly the legal characters from the
first legal leading one on (as a subsequence, in order). -/
theorem C11_identifier (s : String) :
    (∀ c ∈ (varNameFromString s).toList, asciiIdentPart c) ∧
    (∀ c, (varNameFromString s).toList.head? = some c → asciiIdentStart c) ∧
    (varNameFromString s).toList.Sublist s.toList := by
  simp only [varNameFromString, String.toList_ofList]
  refine ⟨?_, ?_, ?_⟩
  · intro c hc
    have := mem_of_mem_dropWhile _ _ _ hc
    exact (legalChar_iff c).1 (List.mem_filter.1 this).2
  · intro c hc
    have := List.head?_dropWhile_not (fun c => !legalLeading c) (s.toList.filter legalChar)
    rw [hc] at this
    simp at this
    exact (legalLeading_iff c).1 this
  · exact (List.dropWhile_sublist _).trans List.filter_sublist

/-- **C11.** A name that already is an ASCII identifier is kept unchanged; so the function is
idempotent. -/
theorem C11_identifier_kept (s : String) (h : ∀ c ∈ s.toList, asciiIdentPart c)
    (h0 : ∀ c, s.toList.head? = some c → asciiIdentStart c) : varNameFromString s = s := by
  have hf : s.toList.filter legalChar = s.toList :=
    List.filter_eq_self.2 fun c hc => (legalChar_iff c).2 (h c hc)
  rw [varNameFromString, hf]
  rw [← String.toList_inj, String.toList_ofList]
  cases hs : s.toList with
  | nil => rfl
  | cons c cs =>
    have := (legalLeading_iff c).2 (h0 c (by rw [hs]; rfl))
    simp [List.dropWhile_cons, this]

theorem C11_idempotent (s : String) :
    varNameFromString (varNameFromString s) = varNameFromString s :=
  C11_identifier_kept _ (C11_identifier s).1 (C11_identifier s).2.1

/-- A lambda's name, and one with leading digits and a non-ASCII letter. -/
example : varNameFromString "<lambda>" = "lambda" ∧ varNameFromString "1 2é_x9" = "_x9" := by
  decide

/-! ## C10 -/

/-- Everything needed for a wrapped object to be itself at run time: see `C10_intact_partial`. -/
structure Safe (os : List Obj) (args builtins : List (String × Value)) (generated : List String) :
    Prop where
  /-- `_hash_item` and the prefix tell apart the objects stored under generated names. -/
  hashes : ∀ i j p h, Obj.other i p h ∈ os → Obj.other j p h ∈ os → i = j
  /-- callables with a `conv_name` have different ones, not clashing with generated names. -/
  convNames : ∀ i j n, Obj.named i n ∈ os → Obj.named j n ∈ os → i = j
  convFresh : ∀ i n, Obj.named i n ∈ os → n ∉ generated
  /-- builtins are found: not shadowed by an argument or a generated name. -/
  builtinOk : ∀ i n, Obj.builtin i n ∈ os →
    Dict.get? builtins n = some (.obj i) ∧ n ∉ generated ∧ ∀ j, Obj.named j n ∉ os
  /-- converter arguments do not shadow any used name. -/
  argsOk : ∀ n, Dict.get? args n ≠ none →
    n ∉ generated ∧ (∀ i, Obj.builtin i n ∉ os) ∧ (∀ i, Obj.named i n ∉ os)
  /-- no instance of a subclass of int or str. -/
  noSubclass : ∀ i t, Obj.intLike i t ∉ os

/-- Invariant of the compile loop: what the globals hold. -/
structure GInv (os : List Obj) (ctx : Ctx) : Prop where
  inv : Inv ctx.names
  prov : ∀ n v, Dict.get? ctx.globals n = some v →
    (∃ i, Obj.named i n ∈ os ∧ v = .obj i) ∨
    (∃ i p h, Obj.other i p h ∈ os ∧ v = .obj i ∧
      Dict.get? ctx.names.prefixedHashToName (prefixedHash p h) = some n)

theorem genAll_spec (rnd : Nat → Char × Char) (all : List Obj) (os : List Obj) :
    ∀ (ctx : Ctx), GInv all ctx → (∀ o ∈ os, o ∈ all) →
    let r := genAll rnd ctx os
    GInv all r.1 ∧
    (∀ n, Dict.has ctx.globals n = true → Dict.has r.1.globals n = true) ∧
    (∀ k v, Dict.get? ctx.names.prefixedHashToName k = some v →
      Dict.get? r.1.names.prefixedHashToName k = some v) ∧
    (∀ x, x ∈ ctx.names.generated → x ∈ r.1.names.generated) ∧
    (∀ (n : Nat) o c, os[n]? = some o → r.2[n]? = some (some c) →
      match o with
      | .none => c = .lit .none
      | .bool b => c = .lit (.bool b)
      | .int n => c = .lit (.int n)
      | .str s => c = .lit (.str s)
      | .intLike _ t => c = .text t
      | .builtin _ n => c = .name n
      | .named _ n => c = .name n ∧ Dict.has r.1.globals n = true
      | .other _ p h => ∃ nm, c = .name nm ∧ Dict.has r.1.globals nm = true ∧
          Dict.get? r.1.names.prefixedHashToName (prefixedHash p h) = some nm) := by
  induction os with
  | nil =>
    intro ctx g _
    exact ⟨g, fun _ h => h, fun _ _ h => h, fun _ h => h, by simp⟩
  | cons o os ih =>
    intro ctx g hall
    have hset : ∀ (d : List (String × Value)) n v m, Dict.has d m = true →
        Dict.has (Dict.set d n v) m = true := by
      intro d n v m h
      simp only [Dict.has, Dict.get?_set] at h ⊢
      split
      · rfl
      · exact h
    -- the step: invariant, monotonicity, and the code of `o`
    have step : GInv all (genNaive rnd ctx o).1 ∧
        (∀ n, Dict.has ctx.globals n = true → Dict.has (genNaive rnd ctx o).1.globals n = true) ∧
        (∀ k v, Dict.get? ctx.names.prefixedHashToName k = some v →
          Dict.get? (genNaive rnd ctx o).1.names.prefixedHashToName k = some v) ∧
        (∀ x, x ∈ ctx.names.generated → x ∈ (genNaive rnd ctx o).1.names.generated) ∧
        (∀ c, (genNaive rnd ctx o).2 = some c →
          match o with
          | .none => c = .lit .none
          | .bool b => c = .lit (.bool b)
          | .int n => c = .lit (.int n)
          | .str s => c = .lit (.str s)
          | .intLike _ t => c = .text t
          | .builtin _ n => c = .name n
          | .named _ n => c = .name n ∧ Dict.has (genNaive rnd ctx o).1.globals n = true
          | .other _ p h => ∃ nm, c = .name nm ∧
              Dict.has (genNaive rnd ctx o).1.globals nm = true ∧
              Dict.get? (genNaive rnd ctx o).1.names.prefixedHashToName (prefixedHash p h)
                = some nm) := by
      have ho := hall o (by simp)
      cases o with
      | none => exact ⟨g, fun _ h => h, fun _ _ h => h, fun _ h => h, fun c h => by simp [genNaive] at h; exact h.symm⟩
      | bool b => exact ⟨g, fun _ h => h, fun _ _ h => h, fun _ h => h, fun c h => by simp [genNaive] at h; exact h.symm⟩
      | int n => exact ⟨g, fun _ h => h, fun _ _ h => h, fun _ h => h, fun c h => by simp [genNaive] at h; exact h.symm⟩
      | str s => exact ⟨g, fun _ h => h, fun _ _ h => h, fun _ h => h, fun c h => by simp [genNaive] at h; exact h.symm⟩
      | intLike i t => exact ⟨g, fun _ h => h, fun _ _ h => h, fun _ h => h, fun c h => by simp [genNaive] at h; exact h.symm⟩
      | builtin i n => exact ⟨g, fun _ h => h, fun _ _ h => h, fun _ h => h, fun c h => by simp [genNaive] at h; exact h.symm⟩
      | named i n =>
        refine ⟨⟨g.inv, ?_⟩, fun m h => hset _ _ _ _ h, fun _ _ h => h, fun _ h => h, ?_⟩
        · intro m v h
          simp only [genNaive, Dict.get?_set] at h
          split at h
          · rename_i hm
            have := eq_of_beq hm; subst this
            simp at h
            exact .inl ⟨i, ho, h.symm⟩
          · exact g.prov m v h
        · intro c hc
          simp only [genNaive, Option.some.injEq] at hc
          refine ⟨hc.symm, ?_⟩
          simp [genNaive, Dict.has, Dict.get?_set]
      | other i p h =>
        have s := genName_spec rnd ctx.names p h g.inv
        simp only [genNaive]
        cases hr : genName rnd ctx.names p h with
        | mk st r =>
          rw [hr] at s
          cases r with
          | none =>
            have s5 := s.2.2.2.2 rfl
            refine ⟨⟨s.1, ?_⟩, fun _ h => h, s.2.1, s.2.2.1, by simp⟩
            intro m v hm
            simp only at hm ⊢
            rcases g.prov m v hm with hl | ⟨i', p', h', h1, h2, h3⟩
            · exact .inl hl
            · exact .inr ⟨i', p', h', h1, h2, s.2.1 _ _ h3⟩
          | some nm =>
            have s4 := (s.2.2.2.1 nm rfl).1
            refine ⟨⟨s.1, ?_⟩, fun m h => hset _ _ _ _ h, s.2.1, s.2.2.1, ?_⟩
            · intro m v hm
              simp only [Dict.get?_set] at hm
              split at hm
              · rename_i hm2
                have := eq_of_beq hm2; subst this
                simp at hm
                exact .inr ⟨i, p, h, ho, hm.symm, s4⟩
              · rcases g.prov m v hm with hl | ⟨i', p', h', h1, h2, h3⟩
                · exact .inl hl
                · exact .inr ⟨i', p', h', h1, h2, s.2.1 _ _ h3⟩
            · intro c hc
              simp only [Option.some.injEq] at hc
              refine ⟨nm, hc.symm, ?_, s4⟩
              simp [Dict.has, Dict.get?_set]
    have s2 := ih _ step.1 (fun o' h => hall o' (List.mem_cons_of_mem _ h))
    simp only [genAll]
    refine ⟨s2.1, fun n h => s2.2.1 n (step.2.1 n h), fun k v h => s2.2.2.1 k v (step.2.2.1 k v h),
      fun x h => s2.2.2.2.1 x (step.2.2.2.1 x h), ?_⟩
    intro n o' c hn hc
    cases n with
    | zero =>
      simp only [List.getElem?_cons_zero, Option.some.injEq] at hn hc
      subst hn
      have := step.2.2.2.2 c hc
      cases o <;> simp only at this ⊢
      case named => exact ⟨this.1, s2.2.1 _ this.2⟩
      case other =>
        obtain ⟨nm, h1, h2, h3⟩ := this
        exact ⟨nm, h1, s2.2.1 _ h2, s2.2.2.1 _ _ h3⟩
      all_goals exact this
    | succ n =>
      simp only [List.getElem?_cons_succ] at hn hc
      exact s2.2.2.2.2 n o' c hn hc

/-- **C10, partial** (the full statement has no hypothesis `Safe`; see the refutations below).
For any objects wrapped in one conversion and any random stream: if the hashes used for naming
separate the objects and no argument shadows a used name, then whenever code for the `n`-th object
was generated, it evaluates in the finished converter to that very object. -/
theorem C10_intact_partial (rnd : Nat → Char × Char) (os : List Obj)
    (args builtins : List (String × Value)) (reprEval : String → Option Value) :
    let r := genAll rnd ⟨.init, []⟩ os
    Safe os args builtins r.1.names.generated →
    ∀ (n : Nat) o c, os[n]? = some o → r.2[n]? = some (some c) →
      c.eval ⟨args, r.1.globals, builtins, reprEval⟩ = some o.value := by
  intro r safe n o c hn hc
  have s := genAll_spec rnd os os ⟨.init, []⟩ ⟨inv_init, by simp [Dict.get?]⟩ (fun _ h => h)
  have hcode := s.2.2.2.2 n o c hn hc
  have hmem : o ∈ os := List.mem_of_getElem? hn
  have glob : ∀ nm, Dict.has r.1.globals nm = true → Dict.get? args nm = none →
      ∀ v, Dict.get? r.1.globals nm = some v →
      Code.eval ⟨args, r.1.globals, builtins, reprEval⟩ (.name nm) = some v := by
    intro nm _ ha v hv
    simp [Code.eval, ha, hv]
  cases o with
  | none => simp only at hcode; subst hcode; rfl
  | bool b => simp only at hcode; subst hcode; rfl
  | int m => simp only at hcode; subst hcode; rfl
  | str t => simp only at hcode; subst hcode; rfl
  | intLike i t => exact absurd hmem (safe.noSubclass i t)
  | builtin i m =>
    simp only at hcode; subst hcode
    have hb := safe.builtinOk i m hmem
    have ha : Dict.get? args m = none := by
      cases h : Dict.get? args m with
      | none => rfl
      | some v => exact absurd hmem ((safe.argsOk m (by simp [h])).2.1 i)
    have hg : Dict.get? r.1.globals m = none := by
      cases h : Dict.get? r.1.globals m with
      | none => rfl
      | some v =>
        rcases s.1.prov m v h with ⟨j, h1, _⟩ | ⟨j, p, k, _, _, h3⟩
        · exact absurd h1 (hb.2.2 j)
        · exact absurd (s.1.inv.vals _ _ h3) hb.2.1
    simp [Code.eval, ha, hg, hb.1, Obj.value]
  | named i m =>
    simp only at hcode
    obtain ⟨rfl, hh⟩ := hcode
    have ha : Dict.get? args m = none := by
      cases h : Dict.get? args m with
      | none => rfl
      | some v => exact absurd hmem ((safe.argsOk m (by simp [h])).2.2 i)
    cases hv : Dict.get? r.1.globals m with
    | none => rw [Dict.has, hv] at hh; simp at hh
    | some v =>
      rw [glob m hh ha v hv]
      rcases s.1.prov m v hv with ⟨j, h1, h2⟩ | ⟨j, p, k, _, _, h3⟩
      · rw [h2, safe.convNames j i m h1 hmem]; rfl
      · exact absurd (s.1.inv.vals _ _ h3) (safe.convFresh i m hmem)
  | other i p h =>
    simp only at hcode
    obtain ⟨nm, rfl, hh, hname⟩ := hcode
    have hgen := s.1.inv.vals _ _ hname
    have ha : Dict.get? args nm = none := by
      cases h : Dict.get? args nm with
      | none => rfl
      | some v => exact absurd hgen (safe.argsOk nm (by simp [h])).1
    cases hv : Dict.get? r.1.globals nm with
    | none => rw [Dict.has, hv] at hh; simp at hh
    | some v =>
      rw [glob nm hh ha v hv]
      rcases s.1.prov nm v hv with ⟨j, h1, h2⟩ | ⟨j, p', k, h1, h2, h3⟩
      · exact absurd hgen (safe.convFresh j nm h1)
      · have := prefixedHash_inj (s.1.inv.inj _ _ _ hname h3)
        obtain ⟨rfl, rfl⟩ := this
        rw [h2, safe.hashes j i p h h1 hmem]; rfl

/-- Two functions with different hashes, one converter and a builtin satisfy the hypotheses. -/
example : Safe [.other 1 "f" 10, .other 2 "f" 20, .named 3 "converter_zz", .builtin 4 "len"]
    [("data_", .int 1)] [("len", .obj 4)] ["f_ab", "f_cd"] where
  hashes := by simp; omega
  convNames := by simp
  convFresh := by simp
  builtinOk := by
    simp only [List.mem_cons, List.not_mem_nil, or_false, reduceCtorEq, false_or, Obj.builtin.injEq]
    rintro i n ⟨rfl, rfl⟩; exact ⟨by decide, by decide, by simp⟩
  argsOk := by
    intro n hn
    have : n = "data_" := by
      by_cases h : "data_" = n
      · exact h.symm
      · simp [Dict.get?, h] at hn
    subst this
    refine ⟨by decide, ?_, ?_⟩ <;> simp
  noSubclass := by simp

/-- **C10 is violated**: two closures of one factory (same code object, hence the same
`_hash_item`) get one name, and the last one wins for both. -/
theorem C10_refuted_closures :
    let r := genAll (fun n => (Char.ofNat (97 + n), 'x')) ⟨.init, []⟩
      [.other 1 "add_n" 777, .other 2 "add_n" 777]
    r.2 = [some (.name "add_n_ax"), some (.name "add_n_ax")] ∧
    Code.eval ⟨[], r.1.globals, [], fun _ => none⟩ (.name "add_n_ax") = some (.obj 2) ∧
    (Obj.other 1 "add_n" 777).value = .obj 1 := by decide

/-- **C10 is violated**: the floats `-1.0` and `-2.0` (both of Python hash `-2`). -/
theorem C10_refuted_floats : ∃ o₁ o₂ : Obj, o₁.value ≠ o₂.value ∧
    let r := genAll (fun _ => ('a', 'b')) ⟨.init, []⟩ [o₁, o₂]
    r.2[0]?.map (·.map (Code.eval ⟨[], r.1.globals, [], fun _ => none⟩)) = some (some (some o₂.value)) :=
  ⟨.other 1 "v" (-2), .other 2 "v" (-2), by decide, by decide⟩

/-- **C10 is violated**: an argument named like a builtin shadows it
(`c.call_func(len, c.input_arg("len"))`). -/
theorem C10_refuted_shadowed_builtin :
    let r := genAll (fun _ => ('a', 'b')) ⟨.init, []⟩ [.builtin 1 "len"]
    r.2 = [some (.name "len")] ∧
    Code.eval ⟨[("len", .int 5)], r.1.globals, [("len", .obj 1)], fun _ => none⟩ (.name "len")
      = some (.int 5) := by decide

/-- **C10 is violated**: an instance of a subclass of int or str (e.g. an enum member whose repr is
`<Color.RED: 1>`) is emitted as its repr text: no evaluation of a *text* can return the object. -/
theorem C10_refuted_subclass (reprEval : String → Option Value)
    (hplain : ∀ t i, reprEval t ≠ some (.obj i)) (t : String) (i : Nat) :
    let r := genAll (fun _ => ('a', 'b')) ⟨.init, []⟩ [.intLike i t]
    r.2 = [some (.text t)] ∧
    Code.eval ⟨[], r.1.globals, [], reprEval⟩ (.text t) ≠ some (Obj.intLike i t).value :=
  ⟨rfl, hplain t i⟩

end Verif.Names
