import Verif.Model.SubclassCaches
import Verif.Model.Functions
/-!
# `parse_version_set` with versions of more than one class: /repo/versions/functions.py 56-67
-/

namespace Verif

/-- The caches of `parse_version_set` and `specifier_to_version_set`, for all classes. -/
structure TSetCaches where
  parsed : Cache (PyStr × Option Nat) TSet := []
  converted : Cache TSpecifier TSet := []

section
variable (hash : PyStr × Option Nat → Int) (hashS : TSpecifier → Int) (S : ItemSort) (lim : Nat) (base : Nat)

/-- `specifier_to_version_set`, /repo/versions/converters.py 57-84, which has the second of the caches. -/
def convertCallT (t : TSpecifier) (c : TSetCaches) : Except PyErr TSet × TSetCaches :=
  let r := t.toSetCached hashS S lim c.converted
  (r.1, { c with converted := r.2 })

/-- `parse_version_set`, /repo/versions/functions.py 56-67, and `VersionSetParser.parse`, /repo/versions/parsers.py
265-270. The key is the arguments that were passed; the default of `version_type` is the class `base`. -/
def parseVersionSetT (key : PyStr × Option Nat) (c : TSetCaches) : Except PyErr TSet × TSetCaches :=
  match c.parsed.find? (fun entry => decide (hash entry.1 = hash key) && decide (entry.1 = key)) with
  | some entry => (.ok entry.2, c)
  | none =>
    match Specifier.parse key.1 with
    | .error e => (.error e, c)
    | .ok t =>
      match convertCallT hashS S lim (t.ofClass (key.2.getD base)) c with
      | (.error e, c') => (.error e, c')
      | (.ok x, c') => (.ok x, { c' with parsed := (key, x) :: c'.parsed })

/-- A call that reaches these caches. -/
inductive TSetCall
  | parse (key : PyStr × Option Nat)
  | convert (t : TSpecifier)

def TSetCall.run : TSetCall → TSetCaches → Except PyErr TSet × TSetCaches
  | parse key => parseVersionSetT hash hashS S lim base key
  | convert t => convertCallT hashS S lim t

/-- The caches after a history of calls in a new process. -/
def setHistoryT (calls : List TSetCall) : TSetCaches :=
  calls.foldl (fun c call => (call.run hash hashS S lim base c).2) {}
end

end Verif
