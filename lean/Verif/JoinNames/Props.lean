import Verif.JoinNames.Model

/-!
# C64: rows in the condition of a join; C65: arguments of a join
-/

set_option autoImplicit false

namespace Verif.JoinNames

open Verif

variable {V E : Type}

/-! ## Specification -/

namespace Spec

/-- What a condition says: `c.LEFT` and `c.RIGHT` are the rows, everywhere; `c.this()` is the input of the part, which
a pipe and a comprehension change. -/
def value (rt : Rt V E) (l r : V) (args : String → V) : Conv V → V → Except E V
  | .this, x => .ok x
  | .left, _ => .ok l
  | .right, _ => .ok r
  | .arg n, _ => .ok (args n)
  | .lit v, _ => .ok v
  | .op1 o a, x => (value rt l r args a x).bind (rt.op1 o)
  | .op2 o a b, x => (value rt l r args a x).bind fun u => (value rt l r args b x).bind fun v => rt.op2 o u v
  | .pipe a b, x => (value rt l r args a x).bind (value rt l r args b)
  | .comp a, x => (rt.items x).bind fun xs => (xs.mapM (value rt l r args a)).map rt.list

/-- No row is mentioned. -/
def NoRow : Conv V → Prop
  | .left => False
  | .right => False
  | .op1 _ a => NoRow a
  | .op2 _ a b => NoRow a ∧ NoRow b
  | .pipe a b => NoRow a ∧ NoRow b
  | .comp a => NoRow a
  | _ => True

/-- Rows are mentioned only where the input is still the row: not in later stages of pipes, not in comprehensions. -/
def AtHead : Conv V → Prop
  | .op1 _ a => AtHead a
  | .op2 _ a b => AtHead a ∧ AtHead b
  | .pipe a b => AtHead a ∧ NoRow b
  | .comp a => NoRow a
  | _ => True

end Spec

/-! ## Lemmas -/

theorem forAll_eq (f : V → Except E V) : ∀ xs : List V, forAll f xs = xs.mapM f
  | [] => rfl
  | x :: xs => by
    rw [List.mapM_cons, forAll, forAll_eq f xs]
    rcases f x with e | y
    · rfl
    · change _ = (xs.mapM f).bind _
      rcases xs.mapM f with e | ys <;> rfl

theorem bind_ok {α β : Type} {m : Except E α} {f : α → Except E β} {b : β} (h : m.bind f = .ok b) :
    ∃ a, m = .ok a ∧ f a = .ok b := by
  rcases m with e | a
  · simp [Except.bind] at h
  · exact ⟨a, rfl, h⟩

theorem map_ok {α β : Type} {m : Except E α} {f : α → β} {b : β} (h : m.map f = .ok b) :
    ∃ a, m = .ok a ∧ f a = b := by
  rcases m with e | a
  · simp [Except.map] at h
  · exact ⟨a, rfl, by simpa [Except.map] using h⟩

theorem forAll_of (f g : V → Except E V) (h : ∀ x y, f x = .ok y → g x = .ok y) : ∀ (xs ys : List V),
    forAll f xs = .ok ys → forAll g xs = .ok ys
  | [], ys, hf => hf
  | x :: xs, ys, hf => by
    unfold forAll at hf ⊢
    rcases hx : f x with e | y
    · simp [hx] at hf
    · rw [hx] at hf
      rw [h x y hx]
      dsimp only at hf ⊢
      rcases hr : forAll f xs with e | zs
      · simp [hr] at hf
      · rw [hr] at hf
        rw [forAll_of f g h xs zs hr]
        exact hf

/-- What both kinds of generation do, with the rows being as the wrapper says. -/
theorem gen_value (rt : Rt V E) (l r : V) (args : String → V) (nm : Code V → String) (att : Code V → Code V → Bool)
    (lr : String × String) (hl : ∀ c, nm c ≠ lr.1) (hr : ∀ c, nm c ≠ lr.2) : ∀ (c : Conv V) (env : String → V)
    (inp : Code V) (x v : V), env lr.1 = l → env lr.2 = r → (∀ n ∈ c.args, env n = args n ∧ ∀ k, nm k ≠ n) →
    inp.eval rt env = .ok x → Spec.value rt l r args c x = .ok v →
    (gen nm att (some lr) c inp).eval rt env = .ok v := by
  intro c
  induction c with
  | this => intro env inp x v _ _ _ hx hv; simp only [Spec.value, Except.ok.injEq] at hv; rw [← hv]; exact hx
  | left =>
    intro env inp x v h1 _ _ _ hv
    simp only [Spec.value, Except.ok.injEq] at hv
    simp only [gen, Code.eval, h1, hv]
  | right =>
    intro env inp x v _ h2 _ _ hv
    simp only [Spec.value, Except.ok.injEq] at hv
    simp only [gen, Code.eval, h2, hv]
  | arg n =>
    intro env inp x v _ _ ha _ hv
    simp only [Spec.value, Except.ok.injEq] at hv
    simp only [gen, Code.eval, (ha n (by simp [Conv.args])).1, hv]
  | lit w => intro env inp x v _ _ _ _ hv; exact hv
  | op1 o a ih =>
    intro env inp x v h1 h2 ha hx hv
    obtain ⟨u, hu, hv⟩ := bind_ok hv
    simp only [gen, Code.eval, ih env inp x u h1 h2 ha hx hu, hv]
  | op2 o a b iha ihb =>
    intro env inp x v h1 h2 ha hx hv
    obtain ⟨u, hu, hv⟩ := bind_ok hv
    obtain ⟨w, hw, hv⟩ := bind_ok hv
    simp only [gen, Code.eval,
      iha env inp x u h1 h2 (fun n hn => ha n (by simp [Conv.args, hn])) hx hu,
      ihb env inp x w h1 h2 (fun n hn => ha n (by simp [Conv.args, hn])) hx hw, hv]
  | pipe a b iha ihb =>
    intro env inp x v h1 h2 ha hx hv
    obtain ⟨u, hu, hv⟩ := bind_ok hv
    have e1 := iha env inp x u h1 h2 (fun n hn => ha n (by simp [Conv.args, hn])) hx hu
    have e2 := ihb env _ u v h1 h2 (fun n hn => ha n (by simp [Conv.args, hn])) e1 hv
    simp only [gen]
    split
    · simp only [Code.eval, e1, e2]
    · exact e2
  | comp a ih =>
    intro env inp x v h1 h2 ha hx hv
    obtain ⟨xs, hxs, hv⟩ := bind_ok hv
    obtain ⟨ys, hys, rfl⟩ := map_ok hv
    rw [← forAll_eq] at hys
    have := forAll_of _ (fun y => (gen nm att (some lr) a (.name (nm inp))).eval rt
      (fun n => if n = nm inp then y else env n)) (fun y z hz => ih _ _ y z
        (by simp only [(hl inp).symm, if_false, h1]) (by simp only [(hr inp).symm, if_false, h2])
        (fun n hn => ⟨by simp only [((ha n hn).2 inp).symm, if_false, (ha n hn).1], (ha n hn).2⟩)
        (by simp only [Code.eval, if_true]) hz) xs ys hys
    simp only [gen, Code.eval, hx, hxs, this]

/-- Without rows the wrapper does not matter. -/
theorem gen_noRow (nm : Code V → String) (att : Code V → Code V → Bool) (W : Wrapper) : ∀ (c : Conv V) (inp : Code V),
    Spec.NoRow c → gen nm att none c inp = gen nm att W c inp := by
  intro c
  induction c with
  | this => intro inp _; rfl
  | left => intro inp h; exact h.elim
  | right => intro inp h; exact h.elim
  | arg n => intro inp _; rfl
  | lit w => intro inp _; rfl
  | op1 o a ih => intro inp h; simp only [gen, ih inp h]
  | op2 o a b iha ihb => intro inp h; simp only [gen, iha inp h.1, ihb inp h.2]
  | pipe a b iha ihb => intro inp h; simp only [gen, iha inp h.1, ihb _ h.2]
  | comp a ih => intro inp h; simp only [gen, ih _ h]

/-- On a row, the rows at the heads are the row. -/
theorem gen_atHead (nm : Code V → String) (att : Code V → Code V → Bool) (W : String × String) (row : String) :
    ∀ (c : Conv V), Spec.AtHead c → (c.usesLeft = true → W.1 = row) → (c.usesRight = true → W.2 = row) →
    gen nm att none c (.name row) = gen nm att (some W) c (.name row) := by
  intro c
  induction c with
  | this => intro _ _ _; rfl
  | left => intro _ h _; simp only [gen, h rfl]
  | right => intro _ _ h; simp only [gen, h rfl]
  | arg n => intro _ _ _; rfl
  | lit w => intro _ _ _; rfl
  | op1 o a ih => intro h hl hr; simp only [gen, ih h hl hr]
  | op2 o a b iha ihb =>
    intro h hl hr
    simp only [Conv.usesLeft, Conv.usesRight, Bool.or_eq_true] at hl hr
    simp only [gen, iha h.1 (fun u => hl (.inl u)) (fun u => hr (.inl u)),
      ihb h.2 (fun u => hl (.inr u)) (fun u => hr (.inr u))]
  | pipe a b iha ihb =>
    intro h hl hr
    simp only [Conv.usesLeft, Conv.usesRight, Bool.or_eq_true] at hl hr
    simp only [gen, iha h.1 (fun u => hl (.inl u)) (fun u => hr (.inl u)), gen_noRow nm att (some W) b _ h.2]
  | comp a ih => intro h _ _; simp only [gen, gen_noRow nm att (some W) a _ h]

/-! ## C64 -/

/-- **C64 in the inner loop** (conjuncts on both rows; on the left row in left and outer joins; on the right row in
outer joins): whatever the conjunct, however its rows are mentioned, the code computes what the conjunct says. -/
theorem C64_inner_loop (rt : Rt V E) (nm : Code V → String) (att : Code V → Code V → Bool) (how : Join.How)
    (swapped : Bool) (row : String) (c : Conv V) (l r : V) (env : String → V) (inp : Code V) (x v : V)
    (hnm : ∀ k, nm k ≠ "left_item" ∧ nm k ≠ "right_item")
    (hargs : ∀ n ∈ c.args, n ≠ "left_item" ∧ n ≠ "right_item" ∧ ∀ k, nm k ≠ n)
    (hplace : c.usesLeft = true ∧ c.usesRight = true ∨ c.usesLeft = true ∧ how.leftJoin = true ∨
      c.usesRight = true ∧ c.usesLeft = false ∧ how.rightJoin = true)
    (hx : inp.eval rt (loopEnv swapped l r env) = .ok x) (hv : Spec.value rt l r env c x = .ok v) :
    (filterCode nm att how swapped row inp c).eval rt (loopEnv swapped l r env) = .ok v := by
  have key : (gen nm att (some (wrapperNames swapped)) c inp).eval rt (loopEnv swapped l r env) = .ok v := by
    refine gen_value rt l r env nm att _ ?_ ?_ c _ inp x v ?_ ?_ ?_ hx hv
    · intro k; cases swapped <;> simp [wrapperNames, hnm k]
    · intro k; cases swapped <;> simp [wrapperNames, hnm k]
    · cases swapped <;> simp [wrapperNames, loopEnv]
    · cases swapped <;> simp [wrapperNames, loopEnv]
    · intro n hn
      obtain ⟨h1, h2, h3⟩ := hargs n hn
      exact ⟨by simp only [loopEnv, h1, h2, if_false], h3⟩
  unfold filterCode
  rcases hplace with ⟨h1, h2⟩ | ⟨h1, h2⟩ | ⟨h1, h2, h3⟩
  · simp only [h1, h2, Bool.and_self, if_true, key]
  · cases h3 : c.usesRight <;> simp [h1, h2, key]
  · simp only [h1, h2, h3, Bool.false_and, Bool.false_eq_true, if_false, if_true, key]

/-- **C64, partial** (missing: rows mentioned in later stages of pipes or in comprehensions, see `C64_refuted_key` and
`C64_refuted_filter`).  A filter of a collection, or a side of an equality of keys, which mentions the rows of its
collection only where the input is still the row: on each row it computes what it says. -/
theorem C64_key_partial (rt : Rt V E) (nm : Code V → String) (att : Code V → Code V → Bool) (row : String) (c : Conv V)
    (l r : V) (env : String → V) (v : V) (hnm : ∀ k, nm k ≠ row) (hargs : ∀ n ∈ c.args, ∀ k, nm k ≠ n)
    (hhead : Spec.AtHead c)
    (hside : c.usesRight = false ∧ env row = l ∨ c.usesLeft = false ∧ env row = r)
    (hv : Spec.value rt l r env c (env row) = .ok v) : (keyCode nm att row c).eval rt env = .ok v := by
  have hval : ∀ (c : Conv V) (l l' r r' : V) (x : V), (c.usesLeft = true → l = l') → (c.usesRight = true → r = r') →
      Spec.value rt l r env c x = Spec.value rt l' r' env c x := by
    intro c
    induction c with
    | this => intros; rfl
    | left => intro l l' r r' x h _; simp only [Spec.value, h rfl]
    | right => intro l l' r r' x _ h; simp only [Spec.value, h rfl]
    | arg n => intros; rfl
    | lit w => intros; rfl
    | op1 o a ih => intro l l' r r' x h1 h2; simp only [Spec.value, ih l l' r r' x h1 h2]
    | op2 o a b iha ihb =>
      intro l l' r r' x h1 h2
      simp only [Conv.usesLeft, Conv.usesRight, Bool.or_eq_true] at h1 h2
      simp only [Spec.value, iha l l' r r' x (fun u => h1 (.inl u)) (fun u => h2 (.inl u)),
        ihb l l' r r' x (fun u => h1 (.inr u)) (fun u => h2 (.inr u))]
    | pipe a b iha ihb =>
      intro l l' r r' x h1 h2
      simp only [Conv.usesLeft, Conv.usesRight, Bool.or_eq_true] at h1 h2
      simp only [Spec.value, iha l l' r r' x (fun u => h1 (.inl u)) (fun u => h2 (.inl u)),
        funext fun y => ihb l l' r r' y (fun u => h1 (.inr u)) (fun u => h2 (.inr u))]
    | comp a ih =>
      intro l l' r r' x h1 h2
      simp only [Spec.value, funext fun y => ih l l' r r' y h1 h2]
  have hg : keyCode nm att row c = gen nm att (some (row, row)) c (.name row) :=
    gen_atHead nm att (row, row) row c hhead (fun _ => rfl) (fun _ => rfl)
  rw [hg]
  refine gen_value rt (env row) (env row) env nm att (row, row) hnm hnm c env _ (env row) v rfl rfl
    (fun n hn => ⟨rfl, hargs n hn⟩) rfl ?_
  rw [← hv]
  rcases hside with ⟨h1, h2⟩ | ⟨h1, h2⟩
  · exact hval c _ _ _ _ _ (fun _ => h2) (fun u => by rw [h1] at u; exact absurd u (by decide))
  · exact hval c _ _ _ _ _ (fun u => by rw [h1] at u; exact absurd u (by decide)) (fun _ => h2)

/-- **C64, partial**, for the filters of collections: a conjunct on one row which is not part of the inner loop. -/
theorem C64_filter_partial (rt : Rt V E) (nm : Code V → String) (att : Code V → Code V → Bool) (how : Join.How)
    (swapped : Bool) (row : String) (c : Conv V) (l r : V) (env : String → V) (inp : Code V) (v : V)
    (hnm : ∀ k, nm k ≠ row) (hargs : ∀ n ∈ c.args, ∀ k, nm k ≠ n) (hhead : Spec.AtHead c)
    (hside : c.usesLeft = true ∧ c.usesRight = false ∧ how.leftJoin = false ∧ env row = l ∨
      c.usesLeft = false ∧ c.usesRight = true ∧ how.rightJoin = false ∧ env row = r)
    (hv : Spec.value rt l r env c (env row) = .ok v) :
    (filterCode nm att how swapped row inp c).eval rt env = .ok v := by
  have : filterCode nm att how swapped row inp c = keyCode nm att row c := by
    unfold filterCode keyCode
    rcases hside with ⟨h1, h2, h3, _⟩ | ⟨h1, h2, h3, _⟩ <;> simp [h1, h2, h3]
  rw [this]
  exact C64_key_partial rt nm att row c l r env v hnm hargs hhead
    (by rcases hside with ⟨_, h2, _, h4⟩ | ⟨h1, _, _, h4⟩; exacts [.inl ⟨h2, h4⟩, .inr ⟨h1, h4⟩]) hv

/-! ### Examples and counterexamples -/

/-- Values: numbers and lists of values. -/
inductive Val
  | num (n : ℕ)
  | lst (xs : List Val)

/-- `item 0`, `item 1` and `+` on them. -/
def demoRt : Rt Val String where
  op1 o x :=
    match o, x with
    | "item 0", .lst (a :: _) => .ok a
    | "item 1", .lst (_ :: b :: _) => .ok b
    | _, _ => .error "TypeError"
  op2 o x y :=
    match o, x, y with
    | "+", .num a, .num b => .ok (.num (a + b))
    | ">", .num a, .num b => .ok (.num (if a > b then 1 else 0))
    | _, _, _ => .error "TypeError"
  items x :=
    match x with
    | .lst xs => .ok xs
    | _ => .error "TypeError"
  list := .lst

/-- A naming for comprehensions, as `gen_name` would give. -/
def demoNm : Code Val → String := fun _ => "i_ab"

/-- `c.LEFT.item(0).pipe(c.this() + c.LEFT.item(1))`. -/
def sumOfLeft : Conv Val := .pipe (.op1 "item 0" .left) (.op2 "+" .this (.op1 "item 1" .left))

/-- Nothing is attached where the first stage is used. -/
def demoAtt : Code Val → Code Val → Bool := fun _ _ => false

/-- The rows `(1, 2)` and `(5, 6)`. -/
def row12 : Val := .lst [.num 1, .num 2]
/-- The rows `(1, 2)` and `(5, 6)`. -/
def row56 : Val := .lst [.num 5, .num 6]

/-- `C64_inner_loop` applies: in a left join the conjunct on the left row is part of the inner loop and gives `3`. -/
example : (filterCode demoNm demoAtt .left false "i_zz" (.name "left_") sumOfLeft).eval demoRt
    (loopEnv false row12 row56 fun _ => .num 9) = .ok (.num 3) :=
  C64_inner_loop demoRt demoNm demoAtt .left false "i_zz" sumOfLeft row12 row56 (fun _ => .num 9) (.name "left_")
    (.num 9) (.num 3) (fun _ => by simp [demoNm]) (by intro n hn; simp [sumOfLeft, Conv.args] at hn)
    (.inr (.inl ⟨rfl, rfl⟩)) rfl rfl

/-- `C64_key_partial` applies to `c.RIGHT.item(0).pipe(c.this() + c.input_arg("x"))`. -/
example : (keyCode demoNm demoAtt "row_" (.pipe (.op1 "item 0" .right) (.op2 "+" .this (.arg "x")))).eval demoRt
    (fun n => if n = "row_" then row56 else .num 9) = .ok (.num 14) :=
  C64_key_partial demoRt demoNm demoAtt "row_" _ row12 row56 _ _ (fun _ => by simp [demoNm])
    (by intro n hn k; simp [Conv.args] at hn; subst hn; simp [demoNm]) ⟨trivial, trivial, trivial⟩ (.inr ⟨rfl, rfl⟩) rfl

/-- **C64 is violated** by keys: in the second stage of a pipe `c.LEFT` is not the row but the result of the first
stage, so that the key of the row `(1, 2)` raises instead of being `3`. -/
theorem C64_refuted_key : ∃ (c : Conv Val) (env : String → Val), c.usesRight = false ∧
    Spec.value demoRt (env "left_item") row56 env c (env "left_item") = .ok (.num 3) ∧
    (keyCode demoNm demoAtt "left_item" c).eval demoRt env = .error "TypeError" :=
  ⟨sumOfLeft, fun _ => row12, rfl, rfl, rfl⟩

/-- **C64 is violated** by filters, depending on the kind of the join: `c.LEFT.item(0).pipe(c.LEFT.item(1) > c.this())`
on rows of pairs holds of the left row in a left join, and is computed of something else in an inner join. -/
theorem C64_refuted_filter : ∃ (c : Conv Val) (l r : Val), c.usesLeft = true ∧ c.usesRight = false ∧
    Spec.value demoRt l r (fun _ => l) c l = .ok (.num 1) ∧
    (filterCode demoNm demoAtt .left false "i_zz" (.name "left_") c).eval demoRt (loopEnv false l r fun _ => l)
      = .ok (.num 1) ∧
    (filterCode demoNm demoAtt .inner false "i_zz" (.name "left_") c).eval demoRt (loopEnv false l r fun _ => l)
      = .ok (.num 0) := by
  refine ⟨.pipe (.op1 "item 0" .left) (.op2 ">" (.op1 "item 0" (.op1 "item 1" .left)) (.op1 "item 0" .this)),
    .lst [.lst [.num 3, .lst [.num 2]], .lst [.num 7]], row56, rfl, rfl, rfl, rfl, rfl⟩

/-- **C64 is violated** for arguments named like the variables of the generated loops: `c.input_arg("left_item")` in a
condition on both rows is the left row. -/
theorem C64_refuted_argument : ∃ (c : Conv Val) (env : String → Val),
    Spec.value demoRt (.num 1) (.num 2) env c (.num 0) = .ok (.num 12) ∧
    (filterCode demoNm demoAtt .inner false "i_zz" (.name "left_") c).eval demoRt (loopEnv false (.num 1) (.num 2) env)
      = .ok (.num 4) :=
  ⟨.op2 "+" (.op2 "+" .left .right) (.arg "left_item"), fun _ => .num 9, rfl, rfl⟩

/-! ## C65: arguments -/

open Signature

/-- Positional binding of a call (Python's semantics of calls): each parameter with its value. -/
def Spec.bound (params : List Str) (values : List V) (n : Str) : Option V := (params.zip values).lookup n

theorem lookup_zip_map (env : Str → V) : ∀ (ns : List Str) (n : Str), n ∈ ns →
    (ns.zip (ns.map env)).lookup n = some (env n)
  | [], _, h => absurd h (by simp)
  | m :: ns, n, h => by
    simp only [List.map_cons, List.zip_cons_cons, List.lookup_cons]
    by_cases e : n = m
    · subst e; simp
    · have : (n == m) = false := by simpa using e
      rw [this]
      exact lookup_zip_map env ns n ((List.mem_cons.1 h).resolve_left e)

theorem joinSignature_eq (deps : List Dep) :
    joinSignature deps = joinComma ("left".toList :: "right".toList :: joinCallNames deps) := by
  unfold joinSignature getArgsDefCode joinCallNames
  simp only [Bool.false_eq_true, if_false]
  have hc : ", ".toList = [',', ' '] := by decide
  have hl : "left, right".toList = "left".toList ++ [',', ' '] ++ "right".toList := by decide
  rcases getArgs deps true with _ | ⟨a, as⟩
  · simp only [List.isEmpty_nil, if_true, List.append_nil, List.map_nil, joinComma, hl]
  · simp only [List.isEmpty_cons, Bool.false_eq_true, if_false, List.map_cons, joinComma, hl, hc, List.append_assoc]

/-- **C65, partial** (missing: arguments named `left` or `right`, see `C65_refuted_left`).  The signature of the
converter of a join is accepted, it declares `left`, `right` and each argument of the condition once, and the call binds
`left` and `right` to the two collections and each argument to the value it has where the join is used. -/
theorem C65_partial (isW : Char → Bool) (deps inside : List Dep) (L R : V) (env : Str → V)
    (hplain : ∀ n, Spec.needed deps n → Plain n ∧ n ≠ "left".toList ∧ n ≠ "right".toList ∧ ∀ c ∈ n, isW c = true)
    (hW : isW ',' = false ∧ isW ' ' = false ∧ (∀ c ∈ "leftright".toList, isW c = true))
    (hinside : ∀ n, Spec.needed inside n → n = "left".toList ∨ n = "right".toList ∨ Spec.needed deps n) :
    chooseSignature isW inside (some (joinSignature deps)) false false = .ok (joinSignature deps) ∧
    ∃ params, Spec.parse (joinSignature deps) = (params, []) ∧ params.Nodup ∧
      params.length = (L :: R :: (joinCallNames deps).map env).length ∧
      JoinNames.Spec.bound params (L :: R :: (joinCallNames deps).map env) "left".toList = some L ∧
      JoinNames.Spec.bound params (L :: R :: (joinCallNames deps).map env) "right".toList = some R ∧
      ∀ n, Spec.needed deps n →
        JoinNames.Spec.bound params (L :: R :: (joinCallNames deps).map env) n = some (env n) := by
  obtain ⟨gm, gn, _⟩ := getArgs_spec deps
  have hmem : ∀ n, n ∈ joinCallNames deps ↔ Spec.needed deps n := gm
  have hall : ∀ n ∈ "left".toList :: "right".toList :: joinCallNames deps, Plain n ∧ ∀ c ∈ n, isW c = true := by
    intro n hn
    rcases List.mem_cons.1 hn with rfl | hn
    · exact ⟨by constructor <;> decide, fun c hc => hW.2.2 c (by
        have : "leftright".toList = "left".toList ++ "right".toList := by decide
        rw [this]; exact List.mem_append_left _ hc)⟩
    · rcases List.mem_cons.1 hn with rfl | hn
      · exact ⟨by constructor <;> decide, fun c hc => hW.2.2 c (by
          have : "leftright".toList = "left".toList ++ "right".toList := by decide
          rw [this]; exact List.mem_append_right _ hc)⟩
      · have := hplain n ((hmem n).1 hn)
        exact ⟨this.1, this.2.2.2⟩
  have hnl : "left".toList ∉ joinCallNames deps := fun h => (hplain _ ((hmem _).1 h)).2.1 rfl
  have hnr : "right".toList ∉ joinCallNames deps := fun h => (hplain _ ((hmem _).1 h)).2.2.1 rfl
  have hne : joinSignature deps ≠ [] := by
    have hl : "left, right".toList ≠ [] := by decide
    unfold joinSignature
    exact List.append_ne_nil_of_left_ne_nil hl _
  constructor
  · refine (C12_explicit_signature isW hW.1 hW.2.1 inside false false _ hne ?_).1.2 ?_
    · intro n hn
      have hn' : n ∈ "left".toList :: "right".toList :: joinCallNames deps := by
        rcases hinside n hn with h | h | h
        · exact h ▸ List.mem_cons_self
        · exact h ▸ List.mem_cons_of_mem _ List.mem_cons_self
        · exact List.mem_cons_of_mem _ (List.mem_cons_of_mem _ ((hmem n).2 h))
      exact ⟨(hall n hn').1.1, (hall n hn').2⟩
    · intro n hn
      rw [joinSignature_eq, words_join isW hW.1 hW.2.1 _ fun n hn => ⟨(hall n hn).1.1, (hall n hn).2⟩]
      rcases hinside n hn with h | h | h
      · exact h ▸ List.mem_cons_self
      · exact h ▸ List.mem_cons_of_mem _ List.mem_cons_self
      · exact List.mem_cons_of_mem _ (List.mem_cons_of_mem _ ((hmem n).2 h))
  · refine ⟨"left".toList :: "right".toList :: joinCallNames deps, ?_, ?_, ?_, ?_, ?_, ?_⟩
    · rw [joinSignature_eq]
      exact parse_pos _ (fun n hn => (hall n hn).1) (by simp)
    · have hlr : "left".toList ≠ "right".toList := by decide
      refine List.nodup_cons.2 ⟨?_, List.nodup_cons.2 ⟨hnr, gn⟩⟩
      intro h
      rcases List.mem_cons.1 h with h | h
      · exact hlr h
      · exact hnl h
    · simp
    · simp [JoinNames.Spec.bound]
    · have : ("right".toList == "left".toList) = false := by decide
      simp only [JoinNames.Spec.bound, List.zip_cons_cons, List.lookup_cons, this, beq_self_eq_true]
    · intro n hn
      have h1 : (n == "left".toList) = false := by simpa using (hplain n hn).2.1
      have h2 : (n == "right".toList) = false := by simpa using (hplain n hn).2.2.1
      simp only [JoinNames.Spec.bound, List.zip_cons_cons, List.lookup_cons, h1, h2]
      exact lookup_zip_map env _ n ((hmem n).2 hn)

/-- `C65_partial` applies to a condition with the arguments `y`, `x`, `y` and a label. -/
example : joinSignature [⟨"y".toList, false⟩, ⟨"x".toList, false⟩, ⟨"y".toList, false⟩, ⟨"lab".toList, true⟩] =
    "left, right, x, y".toList ∧
    JoinNames.Spec.bound (V := ℕ) ["left".toList, "right".toList, "x".toList, "y".toList]
      (1 :: 2 :: (joinCallNames [⟨"y".toList, false⟩, ⟨"x".toList, false⟩]).map
        fun n => if n = "x".toList then 7 else 8) "y".toList = some 8 := by decide

/-- **C65 is violated** by an argument named `left`: the signature declares `left` twice, which Python refuses
(`SyntaxError`: duplicate argument). -/
theorem C65_refuted_left : ∃ deps : List Dep, (∀ d ∈ deps, Plain d.argName) ∧
    joinSignature deps = "left, right, left".toList ∧ ¬ (Spec.parse (joinSignature deps)).1.Nodup :=
  ⟨[⟨"left".toList, false⟩], by
    intro d hd
    obtain rfl := List.mem_singleton.1 hd
    constructor <;> decide, by decide, by decide⟩

end Verif.JoinNames
