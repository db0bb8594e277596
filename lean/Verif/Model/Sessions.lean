import Verif.Model.Functions
/-!
# Programs that use the cached functions: /repo/versions/functions.py, converters.py

A process has the five caches of the package: those of `parse_version`, `parse_specifier`, `parse_version_set`,
`specifier_to_version_set` and `version_set_to_specifier`. A program is a list of statements; each applies a function or a
method of the package to strings and to results of earlier statements, named by their numbers. An exception is a result like
any other, and the program goes on; a statement that refers to something that is not there, or is not of the type needed,
raises `TypeError`.
-/

namespace Verif

/-- What a statement returns. -/
inductive Outcome
  | version (v : Version)
  | specifier (s : Specifier)
  | set (x : VSet)
  | bool (b : Bool)

abbrev Result := Except PyErr Outcome

/-- The functions with caches, in a process with state `σ`. -/
structure Library (σ : Type) where
  parseVersion : PyStr → σ → Except PyErr Version × σ
  parseSpecifier : PyStr → σ → Except PyErr Specifier × σ
  parseVersionSet : PyStr → σ → Except PyErr VSet × σ
  toSet : Specifier → σ → Except PyErr VSet × σ
  fromSet : VSet → σ → Except PyErr Specifier × σ

/-- The caches of a process, empty when it starts. -/
structure Process where
  versions : Cache PyStr Version := []
  specifiers : Cache PyStr Specifier := []
  sets : SetCaches := {}
  back : Cache VSet Specifier := []

/-- The package: /repo/versions/functions.py 28-67, /repo/versions/converters.py 57-124. -/
def Library.cached (hash : PyStr → Int) (H : Hasher) (lim : Nat) : Library Process where
  parseVersion s p := let r := Verif.parseVersion hash s p.versions; (r.1, { p with versions := r.2 })
  parseSpecifier s p := let r := Verif.parseSpecifier hash s p.specifiers; (r.1, { p with specifiers := r.2 })
  parseVersionSet s p := let r := Verif.parseVersionSet hash H lim s p.sets; (r.1, { p with sets := r.2 })
  toSet t p := let r := convertCall H lim t p.sets; (r.1, { p with sets := r.2 })
  fromSet x p := let r := Specifier.fromSetCached H lim x p.back; (r.1, { p with back := r.2 })

/-- The package with the decorators removed. -/
def Library.plain (lim : Nat) : Library Unit where
  parseVersion s _ := (Version.parse s, ())
  parseSpecifier s _ := (Specifier.parse s, ())
  parseVersionSet s _ := (VSet.parse lim s, ())
  toSet t _ := (t.toSet lim, ())
  fromSet x _ := (Specifier.fromSet lim x, ())

/-- A statement; the numbers are those of earlier statements. -/
inductive Statement
  | parseVersion (s : PyStr)
  | parseSpecifier (s : PyStr)
  | parseVersionSet (s : PyStr)
  /-- `SpecifierOne(type, version)`, /repo/versions/specifiers.py 79-86. -/
  | operator (t : OpType) (version : Nat)
  /-- `SpecifierAny.of`, /repo/versions/specifiers.py 125-127. -/
  | anyOf (specifiers : List Nat)
  /-- `SpecifierAll.of`, /repo/versions/specifiers.py 171-173. -/
  | allOf (specifiers : List Nat)
  /-- `specifier_to_version_set`. -/
  | toSet (specifier : Nat)
  /-- `version_set_to_specifier`. -/
  | fromSet (set : Nat)
  /-- `simplify`, /repo/versions/converters.py 41-54. -/
  | simplify (specifier : Nat)
  | intersection (a b : Nat)
  | union (a b : Nat)
  | difference (a b : Nat)
  | symmetricDifference (a b : Nat)
  | complement (a : Nat)
  /-- `specifier.accepts(version)`. -/
  | accepts (specifier version : Nat)
  /-- `version in set`. -/
  | contains (set version : Nat)
  /-- `==` of two specifiers. -/
  | sameSpecifier (a b : Nat)
  /-- `==` of two sets. -/
  | sameSet (a b : Nat)

namespace Statement

/-- The version that statement `i` returned. -/
def getVersion (env : List Result) (i : Nat) : Except PyErr Version :=
  match env[i]? with
  | some (.ok (.version v)) => .ok v
  | _ => .error .typeError

def getSpecifier (env : List Result) (i : Nat) : Except PyErr Specifier :=
  match env[i]? with
  | some (.ok (.specifier s)) => .ok s
  | _ => .error .typeError

def getSet (env : List Result) (i : Nat) : Except PyErr VSet :=
  match env[i]? with
  | some (.ok (.set x)) => .ok x
  | _ => .error .typeError

variable {σ : Type}

/-- A result of a function with cache. -/
def returns {α : Type} (f : α → Outcome) (r : Except PyErr α × σ) : Result × σ := (r.1.map f, r.2)

/-- Evaluate the argument, then call. -/
def call {α : Type} (a : Except PyErr α) (f : α → σ → Result × σ) (p : σ) : Result × σ :=
  match a with
  | .error e => (.error e, p)
  | .ok x => f x p

def run (L : Library σ) (lim : Nat) (env : List Result) (p : σ) : Statement → Result × σ
  | parseVersion s => returns .version (L.parseVersion s p)
  | parseSpecifier s => returns .specifier (L.parseSpecifier s p)
  | parseVersionSet s => returns .set (L.parseVersionSet s p)
  | operator t i => (do .ok (.specifier (.one (← Operator.create t (← getVersion env i)))), p)
  | anyOf l => (do .ok (.specifier (← Specifier.anyOf (← l.mapM (getSpecifier env)))), p)
  | allOf l => (do .ok (.specifier (← Specifier.allOf (← l.mapM (getSpecifier env)))), p)
  | toSet i => call (getSpecifier env i) (fun s p => returns .set (L.toSet s p)) p
  | fromSet i => call (getSet env i) (fun x p => returns .specifier (L.fromSet x p)) p
  | simplify i => call (getSpecifier env i) (fun s p =>
      let r := L.toSet s p
      call r.1 (fun x p => returns .specifier (L.fromSet x p)) r.2) p
  | intersection i j => (do .ok (.set (← (← getSet env i).intersection lim (← getSet env j))), p)
  | union i j => (do .ok (.set (← (← getSet env i).unionWith lim (← getSet env j))), p)
  | difference i j => (do .ok (.set (← (← getSet env i).difference lim (← getSet env j))), p)
  | symmetricDifference i j => (do .ok (.set (← (← getSet env i).symmetricDifference lim (← getSet env j))), p)
  | complement i => (do .ok (.set (← (← getSet env i).complement lim)), p)
  | accepts i j => (do .ok (.bool (← (← getSpecifier env i).accepts (← getVersion env j))), p)
  | contains i j => (do .ok (.bool ((← getSet env i).contains (← getVersion env j))), p)
  | sameSpecifier i j => (do .ok (.bool ((← getSpecifier env i).eq (← getSpecifier env j))), p)
  | sameSet i j => (do .ok (.bool ((← getSet env i).eq (← getSet env j))), p)

/-- The results of a program, given those of earlier statements. -/
def runFrom (L : Library σ) (lim : Nat) : List Result → σ → List Statement → List Result
  | env, _, [] => env
  | env, p, s :: rest =>
    let r := s.run L lim env p
    runFrom L lim (env ++ [r.1]) r.2 rest

/-- The results of a program in a new process, with the caches. -/
def session (hash : PyStr → Int) (H : Hasher) (lim : Nat) (program : List Statement) : List Result :=
  runFrom (.cached hash H lim) lim [] {} program

/-- The results of a program without the caches. -/
def reference (lim : Nat) (program : List Statement) : List Result := runFrom (.plain lim) lim [] () program

end Statement
end Verif
