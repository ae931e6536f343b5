import Verif.Stmt.Grammar
import Verif.Stmt.Demo

/-!
# Stmt: facts about the reference semantics

The semantics of statements in `Verif/Stmt/Run.lean` is not code of the repository; these facts say what it must at
least satisfy, and some texts show what the reader refuses.
-/

set_option autoImplicit false

namespace Verif.Stmt

open Verif.Text Verif.Stmt.Grammar

variable {V E : Type}

/-- `is` is symmetric. -/
theorem same_symm (P : Py V E) (x y : PVal V) : same P x y = same P y x := by
  cases x <;> cases y <;> simp only [same] <;> simp only [Bool.or_comm, Bool.and_comm]

/-- `x is None` is decided for every object, and only `None` is. -/
theorem is_none (P : Py V E) (n : V) (hn : P.isNone n = true) (x : PVal V) :
    same P x (.user n) = some (match x with | .user v => P.isNone v | _ => false) := by
  cases x <;> simp [same, hn]

/-- Only a function which the text defines can be called, with as many arguments as it has parameters, and it must
return. -/
theorem callDef_ok (P : Py V E) (f : String) (args : List (PVal V)) (b : List Stmt) (v : Val V)
    (h : callDef P f args b = .ok v) : ∃ ps body st r, b = [.def_ f ps [] body] ∧ ps.length = args.length ∧
      execAll P body ⟨fun x => (ps.zip args).lookup x, [], [], [], [], []⟩ = .ok (st, .ret r) ∧ v = dec st.heap r := by
  unfold callDef at h
  split at h
  · split at h
    · rename_i hc
      obtain ⟨rfl, hl⟩ := hc
      split at h
      · cases h
      · rename_i he
        cases h
        exact ⟨_, _, _, _, rfl, hl, he, rfl⟩
      · cases h
    · cases h
  · cases h

/-- A text which is read, in all kinds of statements. -/
example : (readText 60 "def f(a, *, b, c):\n    global x, y\n    try:\n        a = b[0] = c.d\n        del a[1]\n    except KeyError:\n        return 1\n    for i in c:\n        if i:\n            break\n        elif a:\n            a += 1\n        else:\n            pass").isSome = true := by
  decide +kernel

/-- Assignment to a number. -/
example : (readText 40 "1 = x").isNone = true := by decide +kernel

/-- Assignment to a constant. -/
example : (readText 40 "None = x").isNone = true := by decide +kernel

/-- Deletion of a number. -/
example : (readText 40 "del 1").isNone = true := by decide +kernel

/-- Parameters without a closing bracket. -/
example : (readText 40 "def f(a, *, b:\n    pass").isNone = true := by decide +kernel

/-- The same parameter twice. -/
example : (readText 40 "def f(a, *, a):\n    pass").isNone = true := by decide +kernel

/-- A block which is not indented. -/
example : (readText 40 "if a:\nb").isNone = true := by decide +kernel

/-- A statement which is indented for no reason. -/
example : (readText 40 "a\n    b").isNone = true := by decide +kernel

/-- `try` without `except`. -/
example : (readText 40 "try:\n    a").isNone = true := by decide +kernel

end Verif.Stmt
