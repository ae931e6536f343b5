import Verif.Py.Dict
/-!
# Model of `RUCache` (src/convtools/utils.py 10-57)

Simplifications: keys are compared with a lawful equality (in the repo all keys are strings);
`max_size` is a constant of the cache; the `on_evict` callback is represented by the list of
`(key, value)` pairs it is called with (the only callback in the repo, `clean_line_cache`, never
raises and never touches the cache).  A method returns the new state together with either its
result or the exception: a raised exception leaves the partially updated state behind.
-/
set_option autoImplicit false

namespace Verif.RUCache

variable {K V : Type} [BEq K]

/-- Exceptions the methods can raise. -/
inductive Exc where
  | indexError   -- `deque.pop` from an empty deque (utils.py 48)
  | keyError     -- `dict.pop` of an absent key (utils.py 53)
  deriving DecidableEq, Repr

/-- utils.py 13-20: the instance attributes.  `keys` is the deque, head of the list = left end;
`putBack` is the set `_keys_to_be_put_back`; `data` is the dict. -/
structure Cache (K V : Type) where
  maxSize : Int
  keys : List K
  putBack : List K
  data : List (K × V)

/-- utils.py 13-20: `RUCache(max_size)`. -/
def init (maxSize : Int) : Cache K V := ⟨maxSize, [], [], []⟩

/-- `set.add` as used in utils.py 24, 31, 41. -/
def setAdd (s : List K) (k : K) : List K := if s.contains k then s else k :: s

/-- Outcome of `_evict`: new state, the `on_evict` calls in order, and the exception if one was
raised. -/
structure Evicted (K V : Type) where
  cache : Cache K V
  calls : List (K × V)
  exc : Option Exc

/-- utils.py 46-57: the body of `_evict`, one recursion step per loop iteration; the first
argument is the number of remaining iterations of `range(self.max_size + 1)`. -/
def evictLoop (expected : Int) : Nat → Cache K V → List (K × V) → Evicted K V
  | 0, c, calls => ⟨c, calls, none⟩
  | n + 1, c, calls =>
    if (c.keys.length : Int) > expected then
      match c.keys.getLast? with
      | none => ⟨c, calls, some .indexError⟩
      | some key =>
        if c.putBack.contains key then
          evictLoop expected n
            { c with keys := key :: c.keys.dropLast, putBack := c.putBack.erase key } calls
        else
          match Dict.get? c.data key with
          | none => ⟨{ c with keys := c.keys.dropLast }, calls, some .keyError⟩
          | some value =>
            evictLoop expected n
              { c with keys := c.keys.dropLast, data := Dict.erase c.data key }
              (calls ++ [(key, value)])
    else ⟨c, calls, none⟩

/-- utils.py 45-57. (`range(n)` is empty for negative `n`: `Int.toNat`.) -/
def evict (c : Cache K V) (expected : Int) : Evicted K V :=
  evictLoop expected (c.maxSize + 1).toNat c []

/-- utils.py 22-26 -/
def get (c : Cache K V) (k : K) : Cache K V × Option V :=
  match Dict.get? c.data k with
  | some v => ({ c with putBack := setAdd c.putBack k }, some v)
  | none => (c, none)

/-- utils.py 38-43 -/
def hasKey (c : Cache K V) (k : K) (bumpUp : Bool) : Cache K V × Bool :=
  if Dict.has c.data k then
    (if bumpUp then { c with putBack := setAdd c.putBack k } else c, true)
  else (c, false)

/-- utils.py 28-36 -/
def set (c : Cache K V) (k : K) (v : V) : Evicted K V :=
  if Dict.has c.data k then
    ⟨{ c with data := Dict.set c.data k v, putBack := setAdd c.putBack k }, [], none⟩
  else
    let c1 := { c with data := Dict.set c.data k v }
    if (c1.keys.length : Int) > c1.maxSize - 1 then
      let r := evict c1 (c1.maxSize - 1)
      match r.exc with
      | some e => ⟨r.cache, r.calls, some e⟩
      | none => ⟨{ r.cache with keys := k :: r.cache.keys }, r.calls, none⟩
    else ⟨{ c1 with keys := k :: c1.keys }, [], none⟩

/-- The public calls a client can make (utils.py 22, 28, 38). -/
inductive Op (K V : Type) where
  | get (k : K)
  | set (k : K) (v : V)
  | has (k : K) (bumpUp : Bool)

/-- What a client observes of one call: the returned value (or exception) and the `on_evict`
calls made meanwhile.  `get` returns `none` when the caller's default would be returned. -/
inductive Obs (K V : Type) where
  | got (v : Option V)
  | hasRes (b : Bool)
  | setDone (evicted : List (K × V))
  | raised (e : Exc) (evicted : List (K × V))

/-- One public call (utils.py 22-43). -/
def step (c : Cache K V) : Op K V → Cache K V × Obs K V
  | .get k => let (c', r) := get c k; (c', .got r)
  | .has k b => let (c', r) := hasKey c k b; (c', .hasRes r)
  | .set k v =>
    let r := set c k v
    match r.exc with
    | some e => (r.cache, .raised e r.calls)
    | none => (r.cache, .setDone r.calls)

/-- A whole history of calls. -/
def run (c : Cache K V) : List (Op K V) → Cache K V × List (Obs K V)
  | [] => (c, [])
  | op :: ops =>
    let (c', o) := step c op
    let (c'', os) := run c' ops
    (c'', o :: os)

end Verif.RUCache
