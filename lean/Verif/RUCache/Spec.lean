import Verif.RUCache.Model
/-!
# Independent specification of a second-chance ("clock") cache

Nothing here mentions the deque, the put-back set or the eviction loop of the implementation.
-/
set_option autoImplicit false

namespace Verif.RUCache.Spec

variable {K V : Type} [BEq K]

/-- A cached entry: `used` says it was read or overwritten since it last entered the queue. -/
structure Entry (K V : Type) where
  key : K
  val : V
  used : Bool

/-- The queue, oldest entry first. -/
abbrev Queue (K V : Type) := List (Entry K V)

def lookup (q : Queue K V) (k : K) : Option V := (q.find? (·.key == k)).map (·.val)

def touch (q : Queue K V) (k : K) : Queue K V :=
  q.map fun e => if e.key == k then { e with used := true } else e

def overwrite (q : Queue K V) (k : K) (v : V) : Queue K V :=
  q.map fun e => if e.key == k then { e with val := v, used := true } else e

/-- Entries that lose their second chance move behind the others, marked unused. -/
def reset (q : Queue K V) : Queue K V := q.map fun e => { e with used := false }

/-- Make room for one entry: the victim is the oldest unused entry; the used ones before it move
to the back of the queue, marked unused.  If every entry is used, all marks are cleared and the
oldest entry goes. -/
def makeRoom (q : Queue K V) : Queue K V × Option (K × V) :=
  match q.dropWhile (·.used) with
  | e :: rest => (rest ++ reset (q.takeWhile (·.used)), some (e.key, e.val))
  | [] =>
    match q with
    | [] => ([], none)
    | e :: rest => (reset rest, some (e.key, e.val))

def step (size : Nat) (q : Queue K V) : Op K V → Queue K V × Obs K V
  | .get k => (touch q k, .got (lookup q k))
  | .has k b => (if b then touch q k else q, .hasRes (lookup q k).isSome)
  | .set k v =>
    if (lookup q k).isSome then (overwrite q k v, .setDone [])
    else if q.length < size then (q ++ [⟨k, v, false⟩], .setDone [])
    else
      let (q', victim) := makeRoom q
      (q' ++ [⟨k, v, false⟩], .setDone victim.toList)

def run (size : Nat) (q : Queue K V) : List (Op K V) → Queue K V × List (Obs K V)
  | [] => (q, [])
  | op :: ops =>
    let (q', o) := step size q op
    let (q'', os) := run size q' ops
    (q'', o :: os)

end Verif.RUCache.Spec
