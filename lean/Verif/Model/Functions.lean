import Verif.Model.Caches
import Verif.Model.Parsers
/-!
# The parsing functions with their caches: /repo/versions/functions.py

`version_type` is always left at its default, so the key of each cache is the string; `hash` is the hash of strings. The
parsers do not call the cached functions: only `parse_version_set` reaches another cache, that of
`specifier_to_version_set` (/repo/versions/parsers.py 265-270).
-/

namespace Verif

/-- `parse_version`, /repo/versions/functions.py 28-39. -/
def parseVersion (hash : PyStr → Int) (s : PyStr) : Cached PyStr Version Version :=
  .wrap hash (fun a b => decide (a = b)) s (.pure (Version.parse s))

/-- `parse_specifier`, /repo/versions/functions.py 42-53. -/
def parseSpecifier (hash : PyStr → Int) (s : PyStr) : Cached PyStr Specifier Specifier :=
  .wrap hash (fun a b => decide (a = b)) s (.pure (Specifier.parse s))

/-- The caches of `parse_version_set` and `specifier_to_version_set`. -/
structure SetCaches where
  parsed : Cache PyStr VSet := []
  converted : Cache Specifier VSet := []

/-- `specifier_to_version_set`, /repo/versions/converters.py 57-84, which has the second of the caches. -/
def convertCall (H : Hasher) (lim : Nat) (t : Specifier) (c : SetCaches) : Except PyErr VSet × SetCaches :=
  let r := t.toSetCached H lim c.converted
  (r.1, { c with converted := r.2 })

/-- `parse_version_set`, /repo/versions/functions.py 56-67, and `VersionSetParser.parse`, /repo/versions/parsers.py
265-270. -/
def parseVersionSet (hash : PyStr → Int) (H : Hasher) (lim : Nat) (s : PyStr) (c : SetCaches) : Except PyErr VSet × SetCaches :=
  match c.parsed.find? (fun entry => decide (hash entry.1 = hash s) && decide (entry.1 = s)) with
  | some entry => (.ok entry.2, c)
  | none =>
    match Specifier.parse s with
    | .error e => (.error e, c)
    | .ok t =>
      match convertCall H lim t c with
      | (.error e, c') => (.error e, c')
      | (.ok x, c') => (.ok x, { c' with parsed := (s, x) :: c'.parsed })

/-- A call that reaches these caches. -/
inductive SetCall
  | parse (s : PyStr)
  | convert (t : Specifier)

def SetCall.run (hash : PyStr → Int) (H : Hasher) (lim : Nat) : SetCall → SetCaches → Except PyErr VSet × SetCaches
  | parse s => parseVersionSet hash H lim s
  | convert t => convertCall H lim t

/-- The caches after a history of calls in a new process. -/
def setHistory (hash : PyStr → Int) (H : Hasher) (lim : Nat) (calls : List SetCall) : SetCaches :=
  calls.foldl (fun c call => (call.run hash H lim c).2) {}

end Verif
