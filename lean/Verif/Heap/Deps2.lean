import Verif.Heap.Deps
/-!
# The invariant of `Deps` under labelling, piping and the other derivations
-/
set_option autoImplicit false

namespace Verif.Heap

variable {P : Type} {own : P → Bool}

local notation "Addr" => Nat

/-- Only `a` refers to its label dict. -/
def OwnDict (h : Heap P) (a : Addr) : Prop :=
  ∀ (q : Addr) n na d, q ≠ a → h.nodes[q]? = some n → h.nodes[a]? = some na → na.labels = some d →
    n.labels ≠ some d

theorem NoRef.modify {h : Heap P} {a : Addr} (hr : NoRef h a) (x : Addr) (f : Node P → Node P)
    (hf : ∀ n, a ∉ children h n → a ∉ children h (f n)) : NoRef (modify h x f) a := by
  intro q n hn
  simp only [modify_nodes] at hn
  rw [children_modify]
  split at hn
  · obtain ⟨m, hm, rfl⟩ := Option.map_eq_some_iff.1 hn
    exact hf m (hr q m hm)
  · exact hr q n hn

theorem labels_dependsOn (h : Heap P) (a b x : Addr) :
    ((dependsOn h a b).nodes[x]?).map (·.labels) = (h.nodes[x]?).map (·.labels) := by
  simp only [dependsOn, modify_nodes]
  split
  · cases h.nodes[x]? <;> simp
  · rfl

theorem OwnDict.congr {h h' : Heap P} {a : Addr} (ho : OwnDict h a)
    (e : ∀ x : Addr, (h'.nodes[x]?).map (·.labels) = (h.nodes[x]?).map (·.labels)) : OwnDict h' a := by
  intro q n na d hq hn hna hd
  have e1 := e q
  have e2 := e a
  rw [hn, Option.map_some] at e1
  rw [hna, Option.map_some] at e2
  obtain ⟨m, hm, em⟩ := Option.map_eq_some_iff.1 e1.symm
  obtain ⟨ma, hma, ema⟩ := Option.map_eq_some_iff.1 e2.symm
  rw [← em]
  exact ho q m ma d hq hm hma (by rw [ema]; exact hd)

theorem OwnDict.alloc {h : Heap P} {a : Addr} (ho : OwnDict h a) (ha : a < h.nodes.length)
    (n : Node P) (hl : n.labels = none) : OwnDict (alloc h n).1 a := by
  intro q m na d hq hm hna hd
  rw [alloc_nodes] at hm hna
  rw [if_neg (by omega)] at hna
  split at hm
  · cases hm; simp [hl]
  · exact ho q m na d hq hm hna hd

/-- What labelling needs to know about a fresh `CachingConversion`. -/
structure Fresh (h : Heap P) (a : Addr) : Prop where
  lt : a < h.nodes.length
  noRef : NoRef h a
  own : OwnDict h a

theorem Fresh.dependsOn {h : Heap P} {a : Addr} (f : Fresh h a) (x b : Addr) :
    Fresh (dependsOn h x b) a :=
  ⟨by rw [dependsOn_length]; exact f.lt, f.noRef.dependsOn x b, f.own.congr (labels_dependsOn h x b)⟩

theorem Fresh.bare {h : Heap P} {a : Addr} (f : Fresh h a) (t : P) :
    Fresh (construct h t none []).1 a :=
  ⟨by rw [construct_length]; exact Nat.lt_succ_of_lt f.lt,
    NoRef.alloc f.noRef _ (by simp [children]), OwnDict.alloc f.own f.lt _ rfl⟩

theorem Dict.mem_set_values {V : Type} (m : List (String × V)) (l : String) (v x : V)
    (h : x ∈ (Dict.set m l v).map Prod.snd) : x = v ∨ x ∈ m.map Prod.snd := by
  induction m with
  | nil => simp [Dict.set] at h; exact .inl h
  | cons e m ih =>
    obtain ⟨k, w⟩ := e
    simp only [Dict.set] at h
    split at h
    · simp only [List.map_cons, List.mem_cons] at h ⊢
      rcases h with h | h
      · exact .inl h
      · exact .inr (.inr h)
    · simp only [List.map_cons, List.mem_cons] at h ⊢
      rcases h with h | h
      · exact .inr (.inl h)
      · rcases ih h with h | h
        · exact .inl h
        · exact .inr (.inr h)

/-- Labelling a fresh `CachingConversion`. -/
theorem Inv.addLabel {h : Heap P} (i : Inv own h) (cls : Cls P) {a : Addr} (f : Fresh h a) (l : String)
    (c? : Option Addr) (hc : ∀ c, c? = some c → c < h.nodes.length ∧ c ≠ a) :
    Inv own (addLabel cls h a l c?).1 ∧ Fresh (addLabel cls h a l c?).1 a := by
  have conv : Inv own (labelConv cls h c?).1 ∧ Fresh (labelConv cls h c?).1 a ∧
      (labelConv cls h c?).2 < (labelConv cls h c?).1.nodes.length ∧ (labelConv cls h c?).2 ≠ a := by
    cases c? with
    | some c => exact ⟨i, f, (hc c rfl).1, (hc c rfl).2⟩
    | none =>
      refine ⟨i.construct _ _ _ (by simp), f.bare _, ?_, ?_⟩
      · simp only [labelConv]
        rw [construct_length, construct_addr]
        exact Nat.lt_succ_self _
      · simp only [labelConv]
        rw [construct_addr]
        exact Nat.ne_of_gt f.lt
  simp only [Heap.addLabel]
  split
  · exact ⟨i, f⟩
  · rename_i nd hnd
    split
    · exact ⟨i, f⟩
    · rename_i d hd
      split
      · exact ⟨i, f⟩
      · generalize hx : labelConv cls h c? = x at conv
        obtain ⟨h1, c⟩ := x
        obtain ⟨i1, f1, hlt, hne⟩ := conv
        simp only at i1 f1 hlt hne ⊢
        have i2 := i1.dependsOn a hlt
        have f2 := f1.dependsOn a c
        have hup : ∀ (q : Addr) n, (Heap.dependsOn h1 a c).nodes[q]? = some n →
            ∀ x ∈ children (Heap.dependsOn h1 a c) n, x = a → q = a := by
          intro q n hn x hx e
          subst e
          exact absurd hx (f2.noRef q n hn)
        split
        · refine ⟨i2.assign (fun y => y = a) a [] _ (by simp) rfl
            (fun n => ⟨rfl, rfl, rfl, fun c hc => .inl hc⟩) hup (by simp), ?_⟩
          refine ⟨by rw [modify_length]; exact f2.lt, f2.noRef.modify _ _ (fun n hn => hn),
            f2.own.congr fun x => ?_⟩
          simp only [modify_nodes]
          split
          · cases (Heap.dependsOn h1 a c).nodes[x]? <;> simp
          · rfl
        · -- the dict of `a`
          obtain ⟨na, hna⟩ : ∃ na, (Heap.dependsOn h1 a c).nodes[a]? = some na :=
            ⟨_, List.getElem?_eq_getElem f2.lt⟩
          have hnal : na.labels = some d := by
            have e1 : (h1.nodes[a]?).map (·.labels) = some (some d) := by
              have : h1.nodes[a]? = some nd := by
                cases c? with
                | some c' =>
                  simp only [labelConv, Prod.mk.injEq] at hx
                  rw [← hx.1]; exact hnd
                | none =>
                  simp only [labelConv] at hx
                  have := (construct_ext (n := h.nodes.length) (m := 0) h cls.bareItem none []
                    (Nat.le_refl _)).nodes a f.lt
                  rw [hx] at this
                  rw [this]; exact hnd
              rw [this, Option.map_some, hd]
            have e2 := labels_dependsOn h1 a c a
            rw [hna, e1] at e2
            simpa using e2
          refine ⟨i2.link (fun y => y = a) [c] ?_ rfl (by simp) ?_ hup ?_, ?_⟩
          · intro x hx
            rw [List.mem_singleton.1 hx, dependsOn_length]; exact hlt
          · intro x m hm
            refine ⟨m, hm, rfl, rfl, rfl, fun y hy => ?_⟩
            by_cases hxa : x = a
            · subst hxa
              have hmn : m = na := by
                have : (Heap.dependsOn h1 x c).nodes[x]? = some m := hm
                rw [hna] at this
                exact (Option.some.inj this).symm
              subst hmn
              simp only [children, hnal, Option.elim_some, List.mem_append,
                List.getElem?_modify] at hy ⊢
              rcases hy with hy | hy
              · exact .inl (.inl hy)
              · cases hdd : (Heap.dependsOn h1 x c).dicts[d]? with
                | none => rw [hdd] at hy; simp at hy
                | some dict =>
                  rw [hdd] at hy
                  simp only [if_true, Option.map_eq_map, Option.map_some, Option.getD_some] at hy ⊢
                  rcases Dict.mem_set_values _ _ _ _ hy with e | e
                  · exact .inr ⟨trivial, by simp [e]⟩
                  · exact .inl (.inr e)
            · left
              have hml := f2.own x m na d hxa hm hna hnal
              rwa [children_congr (h := Heap.dependsOn h1 a c)] at hy
              intro d' hd'
              have hdd : d ≠ d' := fun e => hml (e ▸ hd')
              simp only [List.getElem?_modify, if_neg hdd]
              simp
          · intro y hy hyl x hx
            subst hy
            rw [List.mem_singleton.1 hx]
            exact Has.of_dependsOn f1.lt hne
          · refine ⟨f2.lt, ?_, f2.own⟩
            intro q m hm hq
            have hqm : (Heap.dependsOn h1 a c).nodes[q]? = some m := hm
            have hno := f2.noRef q m hqm
            simp only [children, List.mem_append] at hq hno
            rcases hq with hq | hq
            · exact hno (.inl hq)
            · cases hl : m.labels with
              | none => rw [hl] at hq; simp at hq
              | some d' =>
                rw [hl] at hq hno
                simp only [Option.elim_some, List.getElem?_modify] at hq hno
                cases hdd : (Heap.dependsOn h1 a c).dicts[d']? with
                | none => rw [hdd] at hq; split at hq <;> simp at hq
                | some dict =>
                  rw [hdd] at hq hno
                  split at hq
                  · simp only [Option.map_eq_map, Option.map_some, Option.getD_some] at hq hno
                    rcases Dict.mem_set_values _ _ _ _ hq with e | e
                    · exact hne e.symm
                    · exact hno (.inr e)
                  · exact hno (.inr (by simpa using hq))

theorem addLabel_length_le (cls : Cls P) (h : Heap P) (a : Addr) (l : String) (c? : Option Addr) :
    h.nodes.length ≤ (addLabel cls h a l c?).1.nodes.length := by
  have hl : h.nodes.length ≤ (labelConv cls h c?).1.nodes.length := by
    cases c? with
    | some c => exact Nat.le_refl _
    | none => simp only [labelConv]; rw [construct_length]; exact Nat.le_succ _
  simp only [addLabel]
  split
  · exact Nat.le_refl _
  · split
    · exact Nat.le_refl _
    · split
      · exact Nat.le_refl _
      · split
        · rw [modify_length, dependsOn_length]; exact hl
        · simp only; rw [dependsOn_length]; exact hl

theorem Inv.addLabels (cls : Cls P) {a : Addr} (ls : List (String × Option Addr)) :
    ∀ {h : Heap P}, Inv own h → Fresh h a →
    (∀ e ∈ ls, ∀ c, e.2 = some c → c < h.nodes.length ∧ c ≠ a) →
    Inv own (addLabels cls h a ls).1 ∧ Fresh (addLabels cls h a ls).1 a := by
  induction ls with
  | nil => intro h i f _; exact ⟨i, f⟩
  | cons e ls ih =>
    intro h i f hc
    obtain ⟨l, c?⟩ := e
    have h1 := i.addLabel cls f l c? (fun c hx => hc (l, c?) (by simp) c hx)
    have hl := addLabel_length_le cls h a l c?
    simp only [Heap.addLabels]
    split
    · rename_i h2 r heq
      rw [heq] at h1 hl
      exact ih h1.1 h1.2 fun e he c hx =>
        ⟨Nat.lt_of_lt_of_le (hc e (List.mem_cons_of_mem _ he) c hx).1 hl,
          (hc e (List.mem_cons_of_mem _ he) c hx).2⟩
    · rename_i h2 r heq
      rw [heq] at h1
      exact h1

theorem mkCaching_length (cls : Cls P) (h : Heap P) (conv : Addr) :
    (mkCaching cls h conv).1.nodes.length = h.nodes.length + 1 := by
  simp only [mkCaching]
  rw [modify_length, construct_length]

/-- `CachingConversion(conv)` -/
theorem Inv.mkCaching {h : Heap P} (i : Inv own h) (cls : Cls P) {conv : Addr}
    (hv : conv < h.nodes.length) :
    Inv own (mkCaching cls h conv).1 ∧ Fresh (mkCaching cls h conv).1 h.nodes.length := by
  have i1 := i.construct cls.caching none [conv] (by simpa using hv)
  have hlen := construct_length h cls.caching none [conv]
  have ha : (Heap.construct h cls.caching none [conv]).2 = h.nodes.length := rfl
  have hd : (Heap.construct h cls.caching none [conv]).1.dicts = h.dicts := rfl
  obtain ⟨nk, hk⟩ : ∃ nk, (Heap.construct h cls.caching none [conv]).1.nodes[h.nodes.length]? =
      some nk := ⟨_, List.getElem?_eq_getElem (by rw [hlen]; exact Nat.lt_succ_self _)⟩
  have hkl : nk.labels = none := by
    simp only [Heap.construct, Option.toList, List.nil_append, List.foldl_cons, List.foldl_nil,
      Heap.dependsOn, modify_nodes, alloc_nodes] at hk
    simp [Heap.alloc] at hk
    rw [← hk]
  generalize hg : (Heap.construct h cls.caching none [conv]).1 = g at *
  have hnr : NoRef g h.nodes.length := by
    rw [← hg]
    refine NoRef.foldDeps _ (NoRef.alloc (i.1.noRef (Nat.le_refl _)) _ ?_)
    simp only [children]
    simp
    omega
  have nodes : ∀ x, (Heap.mkCaching cls h conv).1.nodes[x]? =
      if h.nodes.length = x then (g.nodes[x]?).map (fun n => { n with labels := some g.dicts.length })
      else g.nodes[x]? := by
    intro x
    simp only [Heap.mkCaching, hg, ha, modify_nodes]
  have dicts : (Heap.mkCaching cls h conv).1.dicts = g.dicts ++ [[]] := by
    simp only [Heap.mkCaching, hg, ha]
    rfl
  have ch : ∀ (x : Addr) m, (Heap.mkCaching cls h conv).1.nodes[x]? = some m → ∃ n, g.nodes[x]? = some n ∧
      m.tag = n.tag ∧ m.deps = n.deps ∧
      children (Heap.mkCaching cls h conv).1 m = children g n ∧
      (∀ d, m.labels = some d → d ≤ g.dicts.length) ∧
      (x ≠ h.nodes.length → m = n) := by
    intro x m hm
    rw [nodes] at hm
    split at hm
    · rename_i hx
      subst hx
      rw [hk, Option.map_some] at hm
      cases hm
      refine ⟨nk, hk, rfl, rfl, ?_, ?_, fun h => absurd rfl h⟩
      · simp only [children, hkl, dicts, Option.elim_some, Option.elim_none]
        simp
      · intro d hd; simp at hd; omega
    · refine ⟨m, hm, rfl, rfl, ?_, ?_, fun _ => rfl⟩
      · apply children_congr
        intro d hd
        have := (i1.1 x m hm).2.1 d hd
        rw [dicts, List.getElem?_append_left this]
      · intro d hd
        exact Nat.le_of_lt ((i1.1 x m hm).2.1 d hd)
  have tags : ∀ x, keyAt own (Heap.mkCaching cls h conv).1 x = keyAt own g x := by
    intro x
    simp only [keyAt, nodes]
    split
    · cases g.nodes[x]? <;> simp
    · rfl
  have hl2 : (Heap.mkCaching cls h conv).1.nodes.length = g.nodes.length := by
    rw [mkCaching_length, hlen]
  refine ⟨?_, ?_, ?_, ?_⟩
  · obtain ⟨hc, S, hS⟩ := i1
    refine ⟨fun x m hm => ?_, S, fun x m hm => ?_⟩
    · obtain ⟨n, hn, _, e2, e3, e4, _⟩ := ch x m hm
      obtain ⟨q1, _, q3⟩ := hc x n hn
      rw [hl2, e2, e3]
      refine ⟨q1, fun d hd => ?_, q3⟩
      rw [dicts]
      simpa using Nat.lt_succ_of_le (e4 d hd)
    · obtain ⟨n, hn, _, e2, e3, _⟩ := ch x m hm
      rw [e2, e3]
      simp only [tags]
      exact hS x n hn
  · rw [mkCaching_length]; exact Nat.lt_succ_self _
  · intro q m hm
    obtain ⟨n, hn, _, _, e3, _⟩ := ch q m hm
    rw [e3]
    exact hnr q n hn
  · intro q n na d hq hn hna hdl e
    obtain ⟨n', hn', _, _, _, _, e6⟩ := ch q n hn
    have := e6 hq
    subst this
    have hlt := (i1.1 q n hn').2.1 d e
    rw [nodes, if_pos rfl, hk, Option.map_some] at hna
    cases hna
    simp at hdl
    omega

end Verif.Heap
