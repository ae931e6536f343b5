import Verif.Exec.Run
import Verif.Exec.FnRead

/-!
# Exec: functions of the module are read from their texts

`defined_of_loaded`: a module whose functions are read from the generated texts has the functions meant by the
generated code.
-/

set_option autoImplicit false

namespace Verif.Exec

open Verif.Expr Verif.Text

section
variable {Val : Type} {N : Names Val} {G : Globals Val} {printable : Char → Bool}

theorem params_nodup {args : List String} (ha : argsOk G args) (hd : args.Nodup) : ("data_" :: args).Nodup :=
  List.nodup_cons.mpr ⟨fun h => (ha _ h).2 rfl, hd⟩

/-- The functions called by an expression have names, and are read as meant. -/
def ReadsHelpers (N : Names Val) (hs : List (PyExpr Val)) : Prop :=
  ∀ h ∈ hs, isName (helperName h) = true ∧ Defines (helperText N h) (helperName h) (helperDef N h)

theorem ReadsHelpers.nil : ReadsHelpers N ([] : List (PyExpr Val)) := fun _ h => by cases h

theorem ReadsHelpers.append {as bs : List (PyExpr Val)} (ha : ReadsHelpers N as) (hb : ReadsHelpers N bs) :
    ReadsHelpers N (as ++ bs) := fun h hh => by
  rcases List.mem_append.mp hh with hh | hh
  · exact ha h hh
  · exact hb h hh

theorem ReadsHelpers.cons {a : PyExpr Val} {bs : List (PyExpr Val)} (hn : isName (helperName a) = true)
    (ha : Defines (helperText N a) (helperName a) (helperDef N a)) (hb : ReadsHelpers N bs) : ReadsHelpers N (a :: bs) := fun h hh => by
  rcases List.mem_cons.mp hh with rfl | hh
  · exact ⟨hn, ha⟩
  · exact hb h hh

theorem readsHelpers_step {e : PyExpr Val} {es : List (PyExpr Val)} (h : ReadsHelpers N (helpers e))
    (hs : ReadsHelpers N (helpersAll es)) : ReadsHelpers N (helpersAll (e :: es)) := by
  rw [helpersAll]
  exact h.append hs

section
variable (hN : PyNames printable N)
include hN

set_option maxHeartbeats 1600000 in
mutual

theorem readsHelpers : ∀ (e : PyExpr Val), wf N e = true → Own N G e → ReadsHelpers N (helpers e)
  | .name _, _, _ => by rw [helpers]; exact .nil
  | .const _, _, _ => by rw [helpers]; exact .nil
  | .getLabel _, _, _ => by rw [helpers]; exact .nil
  | .addLabel l e, hw, ho => by
    simp only [wf, Bool.and_eq_true] at hw
    simp only [Own] at ho
    rw [helpers]
    exact readsHelpers e hw.2 ho.2
  | .attach a b, hw, ho => by
    simp only [wf, Bool.and_eq_true] at hw
    simp only [Own] at ho
    rw [helpers]
    exact (readsHelpers a hw.1 ho.1).append (readsHelpers b hw.2 ho.2)
  | .sub a b, hw, ho => by
    simp only [wf, Bool.and_eq_true] at hw
    simp only [Own] at ho
    rw [helpers]
    exact (readsHelpers a hw.1.2 ho.1).append (readsHelpers b hw.2 ho.2)
  | .dot a _, hw, ho => by
    simp only [wf, Bool.and_eq_true] at hw
    simp only [Own] at ho
    rw [helpers]
    exact readsHelpers a hw.2 ho
  | .getattr a b, hw, ho => by
    simp only [wf, Bool.and_eq_true] at hw
    simp only [Own] at ho
    rw [helpers]
    exact (readsHelpers a hw.1 ho.1).append (readsHelpers b hw.2 ho.2)
  | .call f args kw, hw, ho => by
    simp only [wf, Bool.and_eq_true] at hw
    simp only [Own] at ho
    rw [helpers]
    exact (readsHelpers f hw.1.2 ho.1).append (readsHelpers_all args hw.2 ho.2)
  | .boolop _ es, hw, ho => by
    simp only [wf, Bool.and_eq_true] at hw
    simp only [Own] at ho
    rw [helpers]
    exact readsHelpers_all es hw.2 ho
  | .eqs es, hw, ho => by
    simp only [wf, Bool.and_eq_true] at hw
    simp only [Own] at ho
    rw [helpers]
    exact readsHelpers_all es hw.2 ho.2
  | .not e, hw, ho => by
    simp only [wf] at hw
    simp only [Own] at ho
    rw [helpers]
    exact readsHelpers e hw ho
  | .bin o a b, hw, ho => by
    simp only [Own] at ho
    rw [helpers]
    have h : wf N a = true ∧ wf N b = true := by
      cases o <;> simp only [wf, Bool.and_eq_true] at hw <;> first | exact hw | exact ⟨hw.1.2, hw.2⟩
    exact (readsHelpers a h.1 ho.1).append (readsHelpers b h.2 ho.2)
  | .neg e, hw, ho => by
    simp only [wf] at hw
    simp only [Own] at ho
    rw [helpers]
    exact readsHelpers e hw ho
  | .ifexp t c f, hw, ho => by
    simp only [wf, Bool.and_eq_true] at hw
    simp only [Own] at ho
    rw [helpers]
    exact (readsHelpers t hw.1.1 ho.1).append ((readsHelpers c hw.1.2 ho.2.1).append (readsHelpers f hw.2 ho.2.2))
  | .comp k item value var iter _ cond sort, hw, ho => by
    simp only [wf, Bool.and_eq_true] at hw
    simp only [Own] at ho
    rw [helpers]
    exact (readsHelpers item hw.1.1.1.2 ho.2.2.1).append ((readsHelpers value hw.1.1.2 ho.2.2.2.1).append
      ((readsHelpers iter hw.1.2 ho.2.2.2.2.1).append (readsHelpers cond hw.2 ho.2.2.2.2.2)))
  | .display k items, hw, ho => by
    simp only [wf, Bool.and_eq_true] at hw
    simp only [Own] at ho
    rw [helpers]
    exact readsHelpers_all items hw.2 ho
  | .getOrDefault fname body g self obj dflt, hw, ho => by
    simp only [wf, Bool.and_eq_true] at hw
    simp only [Own] at ho
    rw [helpers]
    exact .cons hw.1.1.1.1 (defines_default hw.1.1.1.1 (code_of hN hw.1.1.1.2)) ((readsHelpers body hw.1.1.1.2 ho.1).append
      ((readsHelpers self hw.1.1.2 ho.2.1).append ((readsHelpers obj hw.1.2 ho.2.2.1).append
      (readsHelpers dflt hw.2 ho.2.2.2))))
  | .optItems k fname flags body obj args, hw, ho => by
    simp only [wf, Bool.and_eq_true] at hw
    simp only [Own] at ho
    rw [helpers]
    obtain ⟨ts, hi⟩ := items_of hN flags body hw.1.1.2
    exact .cons hw.1.1.1 (defines_items hw.1.1.1 hw.2 (params_nodup ho.2.2.1 ho.2.2.2.2.2.2) hi
      (itemTexts_ne ho.2.2.2.2.1 ho.2.2.2.2.2.1)) ((readsHelpers_all body hw.1.1.2 ho.1).append
      (readsHelpers obj hw.1.2 ho.2.1))
  | .optDict fname flags body obj args, hw, ho => by
    simp only [wf, Bool.and_eq_true] at hw
    simp only [Own] at ho
    rw [helpers]
    obtain ⟨ts, hi⟩ := pairs_of hN flags body hw.1.1.2
    exact .cons hw.1.1.1 (defines_items hw.1.1.1 hw.2 (params_nodup ho.2.2.1 ho.2.2.2.2.2) hi
      (pairTexts_ne ho.2.2.2.1 ho.2.2.2.2.1)) ((readsHelpers_all body hw.1.1.2 ho.1).append
      (readsHelpers obj hw.1.2 ho.2.1))
  | .tap fname obj stmts args, hw, ho => by
    simp only [wf, Bool.and_eq_true] at hw
    simp only [Own] at ho
    rw [helpers]
    obtain ⟨ts, hi⟩ := lines_of hN stmts ho.2.2.2.2
    exact .cons hw.1.1 (defines_tap hw.1.1 hw.2 (params_nodup ho.2.2.1 ho.2.2.2.1) hi) ((readsHelpers_stmts stmts ho.2.2.2.2 ho.1).append
      (readsHelpers obj hw.1.2 ho.2.1))
  | .setattr o k v, hw, ho => by
    simp only [wf, Bool.and_eq_true] at hw
    simp only [Own] at ho
    rw [helpers]
    exact (readsHelpers o hw.1.1 ho.1).append ((readsHelpers k hw.1.2 ho.2.1).append (readsHelpers v hw.2 ho.2.2))
  | .pop o k, hw, ho => by
    simp only [wf, Bool.and_eq_true] at hw
    simp only [Own] at ho
    rw [helpers]
    exact (readsHelpers o hw.1.2 ho.1).append (readsHelpers k hw.2 ho.2)
  | .delattr o k, hw, ho => by
    simp only [wf, Bool.and_eq_true] at hw
    simp only [Own] at ho
    rw [helpers]
    exact (readsHelpers o hw.1 ho.1).append (readsHelpers k hw.2 ho.2)
  | .setitem _ _ _, _, ho => by simp [Own] at ho
  | .bad _, _, ho => by simp [Own] at ho
  | .given _ _, _, ho => by simp [Own] at ho

theorem readsHelpers_all : ∀ (es : List (PyExpr Val)), wfAll N es = true → OwnAll N G es →
    ReadsHelpers N (helpersAll es)
  | [], _, _ => by rw [helpersAll]; exact .nil
  | e :: es, hw, ho => by
    simp only [wfAll, Bool.and_eq_true] at hw
    simp only [OwnAll] at ho
    exact readsHelpers_step (readsHelpers e hw.1 ho.1) (readsHelpers_all es hw.2 ho.2)

theorem readsHelpers_stmts : ∀ (es : List (PyExpr Val)), (∀ st ∈ es, wfStmt N st = true) → OwnStmts N G es →
    ReadsHelpers N (helpersAll es)
  | [], _, _ => by rw [helpersAll]; exact .nil
  | .setitem a b c :: es, hw, ho => by
    have h := hw _ List.mem_cons_self
    simp only [wfStmt, wf, Bool.and_eq_true] at h
    simp only [OwnStmts] at ho
    refine readsHelpers_step ?_ (readsHelpers_stmts es (fun st h => hw st (List.mem_cons_of_mem _ h)) ho.2)
    rw [helpers]
    exact (readsHelpers a h.1.1.2 ho.1.1).append ((readsHelpers b h.1.2 ho.1.2.1).append (readsHelpers c h.2 ho.1.2.2))
  | .name x :: es, hw, ho => by
    rw [OwnStmts] at ho
    · exact readsHelpers_step (readsHelpers (.name x) (hw _ List.mem_cons_self) ho.1)
        (readsHelpers_stmts es (fun st h => hw st (List.mem_cons_of_mem _ h)) ho.2)
    · exact fun _ _ _ h => nomatch h
  | .const l :: es, hw, ho => by
    rw [OwnStmts] at ho
    · exact readsHelpers_step (readsHelpers (.const l) (hw _ List.mem_cons_self) ho.1)
        (readsHelpers_stmts es (fun st h => hw st (List.mem_cons_of_mem _ h)) ho.2)
    · exact fun _ _ _ h => nomatch h
  | .getLabel l :: es, hw, ho => by
    rw [OwnStmts] at ho
    · exact readsHelpers_step (readsHelpers (.getLabel l) (hw _ List.mem_cons_self) ho.1)
        (readsHelpers_stmts es (fun st h => hw st (List.mem_cons_of_mem _ h)) ho.2)
    · exact fun _ _ _ h => nomatch h
  | .addLabel l e :: es, hw, ho => by
    rw [OwnStmts] at ho
    · exact readsHelpers_step (readsHelpers (.addLabel l e) (hw _ List.mem_cons_self) ho.1)
        (readsHelpers_stmts es (fun st h => hw st (List.mem_cons_of_mem _ h)) ho.2)
    · exact fun _ _ _ h => nomatch h
  | .attach a b :: es, hw, ho => by
    rw [OwnStmts] at ho
    · exact readsHelpers_step (readsHelpers (.attach a b) (hw _ List.mem_cons_self) ho.1)
        (readsHelpers_stmts es (fun st h => hw st (List.mem_cons_of_mem _ h)) ho.2)
    · exact fun _ _ _ h => nomatch h
  | .sub a b :: es, hw, ho => by
    rw [OwnStmts] at ho
    · exact readsHelpers_step (readsHelpers (.sub a b) (hw _ List.mem_cons_self) ho.1)
        (readsHelpers_stmts es (fun st h => hw st (List.mem_cons_of_mem _ h)) ho.2)
    · exact fun _ _ _ h => nomatch h
  | .dot a b :: es, hw, ho => by
    rw [OwnStmts] at ho
    · exact readsHelpers_step (readsHelpers (.dot a b) (hw _ List.mem_cons_self) ho.1)
        (readsHelpers_stmts es (fun st h => hw st (List.mem_cons_of_mem _ h)) ho.2)
    · exact fun _ _ _ h => nomatch h
  | .getattr a b :: es, hw, ho => by
    rw [OwnStmts] at ho
    · exact readsHelpers_step (readsHelpers (.getattr a b) (hw _ List.mem_cons_self) ho.1)
        (readsHelpers_stmts es (fun st h => hw st (List.mem_cons_of_mem _ h)) ho.2)
    · exact fun _ _ _ h => nomatch h
  | .call a b c :: es, hw, ho => by
    rw [OwnStmts] at ho
    · exact readsHelpers_step (readsHelpers (.call a b c) (hw _ List.mem_cons_self) ho.1)
        (readsHelpers_stmts es (fun st h => hw st (List.mem_cons_of_mem _ h)) ho.2)
    · exact fun _ _ _ h => nomatch h
  | .boolop a b :: es, hw, ho => by
    rw [OwnStmts] at ho
    · exact readsHelpers_step (readsHelpers (.boolop a b) (hw _ List.mem_cons_self) ho.1)
        (readsHelpers_stmts es (fun st h => hw st (List.mem_cons_of_mem _ h)) ho.2)
    · exact fun _ _ _ h => nomatch h
  | .eqs a :: es, hw, ho => by
    rw [OwnStmts] at ho
    · exact readsHelpers_step (readsHelpers (.eqs a) (hw _ List.mem_cons_self) ho.1)
        (readsHelpers_stmts es (fun st h => hw st (List.mem_cons_of_mem _ h)) ho.2)
    · exact fun _ _ _ h => nomatch h
  | .not a :: es, hw, ho => by
    rw [OwnStmts] at ho
    · exact readsHelpers_step (readsHelpers (.not a) (hw _ List.mem_cons_self) ho.1)
        (readsHelpers_stmts es (fun st h => hw st (List.mem_cons_of_mem _ h)) ho.2)
    · exact fun _ _ _ h => nomatch h
  | .bin a b c :: es, hw, ho => by
    rw [OwnStmts] at ho
    · exact readsHelpers_step (readsHelpers (.bin a b c) (hw _ List.mem_cons_self) ho.1)
        (readsHelpers_stmts es (fun st h => hw st (List.mem_cons_of_mem _ h)) ho.2)
    · exact fun _ _ _ h => nomatch h
  | .neg a :: es, hw, ho => by
    rw [OwnStmts] at ho
    · exact readsHelpers_step (readsHelpers (.neg a) (hw _ List.mem_cons_self) ho.1)
        (readsHelpers_stmts es (fun st h => hw st (List.mem_cons_of_mem _ h)) ho.2)
    · exact fun _ _ _ h => nomatch h
  | .ifexp a b c :: es, hw, ho => by
    rw [OwnStmts] at ho
    · exact readsHelpers_step (readsHelpers (.ifexp a b c) (hw _ List.mem_cons_self) ho.1)
        (readsHelpers_stmts es (fun st h => hw st (List.mem_cons_of_mem _ h)) ho.2)
    · exact fun _ _ _ h => nomatch h
  | .comp a b c d e f g h :: es, hw, ho => by
    rw [OwnStmts] at ho
    · exact readsHelpers_step (readsHelpers (.comp a b c d e f g h) (hw _ List.mem_cons_self) ho.1)
        (readsHelpers_stmts es (fun st h => hw st (List.mem_cons_of_mem _ h)) ho.2)
    · exact fun _ _ _ h => nomatch h
  | .display a b :: es, hw, ho => by
    rw [OwnStmts] at ho
    · exact readsHelpers_step (readsHelpers (.display a b) (hw _ List.mem_cons_self) ho.1)
        (readsHelpers_stmts es (fun st h => hw st (List.mem_cons_of_mem _ h)) ho.2)
    · exact fun _ _ _ h => nomatch h
  | .getOrDefault a b c d e f :: es, hw, ho => by
    rw [OwnStmts] at ho
    · exact readsHelpers_step (readsHelpers (.getOrDefault a b c d e f) (hw _ List.mem_cons_self) ho.1)
        (readsHelpers_stmts es (fun st h => hw st (List.mem_cons_of_mem _ h)) ho.2)
    · exact fun _ _ _ h => nomatch h
  | .optItems a b c d e f :: es, hw, ho => by
    rw [OwnStmts] at ho
    · exact readsHelpers_step (readsHelpers (.optItems a b c d e f) (hw _ List.mem_cons_self) ho.1)
        (readsHelpers_stmts es (fun st h => hw st (List.mem_cons_of_mem _ h)) ho.2)
    · exact fun _ _ _ h => nomatch h
  | .optDict a b c d e :: es, hw, ho => by
    rw [OwnStmts] at ho
    · exact readsHelpers_step (readsHelpers (.optDict a b c d e) (hw _ List.mem_cons_self) ho.1)
        (readsHelpers_stmts es (fun st h => hw st (List.mem_cons_of_mem _ h)) ho.2)
    · exact fun _ _ _ h => nomatch h
  | .tap a b c d :: es, hw, ho => by
    rw [OwnStmts] at ho
    · exact readsHelpers_step (readsHelpers (.tap a b c d) (hw _ List.mem_cons_self) ho.1)
        (readsHelpers_stmts es (fun st h => hw st (List.mem_cons_of_mem _ h)) ho.2)
    · exact fun _ _ _ h => nomatch h
  | .setattr a b c :: es, hw, ho => by
    rw [OwnStmts] at ho
    · exact readsHelpers_step (readsHelpers (.setattr a b c) (hw _ List.mem_cons_self) ho.1)
        (readsHelpers_stmts es (fun st h => hw st (List.mem_cons_of_mem _ h)) ho.2)
    · exact fun _ _ _ h => nomatch h
  | .pop a b :: es, hw, ho => by
    rw [OwnStmts] at ho
    · exact readsHelpers_step (readsHelpers (.pop a b) (hw _ List.mem_cons_self) ho.1)
        (readsHelpers_stmts es (fun st h => hw st (List.mem_cons_of_mem _ h)) ho.2)
    · exact fun _ _ _ h => nomatch h
  | .delattr a b :: es, hw, ho => by
    rw [OwnStmts] at ho
    · exact readsHelpers_step (readsHelpers (.delattr a b) (hw _ List.mem_cons_self) ho.1)
        (readsHelpers_stmts es (fun st h => hw st (List.mem_cons_of_mem _ h)) ho.2)
    · exact fun _ _ _ h => nomatch h
  | .bad a :: es, hw, ho => by
    rw [OwnStmts] at ho
    · exact readsHelpers_step (readsHelpers (.bad a) (hw _ List.mem_cons_self) ho.1)
        (readsHelpers_stmts es (fun st h => hw st (List.mem_cons_of_mem _ h)) ho.2)
    · exact fun _ _ _ h => nomatch h
  | .given a b :: es, hw, ho => by
    rw [OwnStmts] at ho
    · exact readsHelpers_step (readsHelpers (.given a b) (hw _ List.mem_cons_self) ho.1)
        (readsHelpers_stmts es (fun st h => hw st (List.mem_cons_of_mem _ h)) ho.2)
    · exact fun _ _ _ h => nomatch h

end

/-- A module which has the functions read from the texts has the functions which are meant. -/
theorem defined_of_loaded {e : PyExpr Val} (hw : wf N e = true) (ho : Own N G e)
    (hl : Loaded N G (helpers e)) :
    Defined N G (helpers e) := by
  intro h hh
  obtain ⟨d, h1, h2⟩ := hl h hh
  obtain ⟨hn, hr⟩ := readsHelpers hN e hw ho h hh
  rw [defines_unique h1 hr] at h2
  refine ⟨h2, ?_⟩
  simp only [isName, Bool.and_eq_true, Bool.not_eq_true'] at hn
  exact hn.2

end

end

end Verif.Exec
