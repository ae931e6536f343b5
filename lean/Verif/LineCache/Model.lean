import Verif.RUCache.Model
/-!
# Model of source publishing: `_ConverterCallable.populate_line_cache` (src/convtools/base.py)

Simplifications: an entry of `linecache.cache` is represented by the source text alone (the code
stores `(len, None, splitlines, filename)`, all functions of the text and the name); the capacity
(1000 at base.py 40) is a parameter; `RUCache.set` is not followed by exception handling because
no exception is possible for a capacity >= 1 (theorem C01).  Other users of `linecache` are
modelled by the event `extDelete` (`linecache.clearcache` and `checkcache` only delete).
-/
set_option autoImplicit false

namespace Verif.LineCache

open RUCache (Cache)

/-- The process-wide state: `linecache.cache` (convtools entries) and the class attribute
`_ConverterCallable.linecache_keys` (base.py 40). -/
structure State where
  lines : List (String × String)
  known : Cache String Unit

/-- base.py 40 with capacity `n`, before anything was published. -/
def init (n : Nat) : State := ⟨[], RUCache.init n⟩

/-- base.py 24-28: `clean_line_cache(key, _)`; deleting an absent key is swallowed. -/
def cleanLineCache (lines : List (String × String)) (key : String) : List (String × String) :=
  Dict.erase lines key

/-- base.py 103-112: the loop body of `populate_line_cache` for one `(fake_filename, code_str)`. -/
def publishOne (s : State) (file : String × String) : State :=
  let (known, present) := RUCache.hasKey s.known file.1 true
  if present then { s with known := known }
  else
    let lines := Dict.set s.lines file.1 file.2
    let r := RUCache.set known file.1 ()
    { lines := r.calls.foldl (fun l call => cleanLineCache l call.1) lines, known := r.cache }

/-- base.py 101-112: `populate_line_cache` of a converter whose `_fake_filename_to_code_str` has
the given items. -/
def publish (s : State) (files : List (String × String)) : State := files.foldl publishOne s

/-- Events: a converter publishes (base.py 65, 80, 93), or foreign code deletes an entry. -/
inductive Event where
  | publish (files : List (String × String))
  | extDelete (name : String)

/-- One event. -/
def step (s : State) : Event → State
  | .publish files => publish s files
  | .extDelete name => { s with lines := Dict.erase s.lines name }

/-- A history of converters publishing their sources. -/
def runPublishes (s : State) (converters : List (List (String × String))) : State :=
  converters.foldl publish s

end Verif.LineCache
