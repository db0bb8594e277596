import Verif.Model.Strings
import Verif.Model.Hash
/-!
# Methods of specifiers under a limit on nested calls

`accepts`, `to_string`, `to_short_string`, `hash` and `specifier_to_version_set` call themselves on the specifiers inside
`SpecifierAny` and `SpecifierAll`. The interpreter raises `RecursionError` when calls are nested too deeply. Here the first
argument is the number of nested calls of the same method that still fit. How many frames one such call takes differs from
method to method and from one version of the interpreter to the next, so the number is a parameter. The calls below an
operator do not depend on the specifier around it, and are not counted.
-/

namespace Verif.Specifier

/-- `any(call(specifier) for specifier in specifiers)`. -/
def anyCalls (call : Specifier → Except PyErr Bool) : List Specifier → Except PyErr Bool
  | [] => .ok false
  | s :: rest => do if ← call s then .ok true else anyCalls call rest

/-- `all(call(specifier) for specifier in specifiers)`. -/
def allCalls (call : Specifier → Except PyErr Bool) : List Specifier → Except PyErr Bool
  | [] => .ok true
  | s :: rest => do if ← call s then allCalls call rest else .ok false

/-- `tuple(call(specifier) for specifier in specifiers)`. -/
def eachCall {α : Type} (call : Specifier → Except PyErr α) : List Specifier → Except PyErr (List α)
  | [] => .ok []
  | s :: rest => do
    let a ← call s
    let as ← eachCall call rest
    .ok (a :: as)

/-- `accepts`: /repo/versions/specifiers.py 55-56, 69-70, 85-86, 133-134, 179-180. -/
def acceptsIn : Nat → Specifier → Version → Except PyErr Bool
  | 0, _, _ => .error .recursionError
  | _ + 1, never, _ => .ok false
  | _ + 1, always, _ => .ok true
  | _ + 1, one o, v => o.accepts v
  | n + 1, any l, v => anyCalls (fun s => acceptsIn n s v) l
  | n + 1, all l, v => allCalls (fun s => acceptsIn n s v) l

/-- `to_string`: /repo/versions/specifiers.py 58-59, 72-73, 136-139, 182-185. -/
def toStrIn : Nat → Specifier → Except PyErr PyStr
  | 0, _ => .error .recursionError
  | _ + 1, never => .ok "0".toList
  | _ + 1, always => .ok "*".toList
  | _ + 1, one o => .ok o.toStr
  | n + 1, any l => do .ok (wrapAround (join " || ".toList (← eachCall (toStrIn n) l)))
  | n + 1, all l => do .ok (wrapAround (join ", ".toList (← eachCall (toStrIn n) l)))

/-- `to_short_string`: /repo/versions/specifiers.py 141-144, 187-190. -/
def toShortStrIn : Nat → Specifier → Except PyErr PyStr
  | 0, _ => .error .recursionError
  | _ + 1, never => .ok "0".toList
  | _ + 1, always => .ok "*".toList
  | _ + 1, one o => .ok o.toShortStr
  | n + 1, any l => do .ok (wrapAround (join "||".toList (← eachCall (toShortStrIn n) l)))
  | n + 1, all l => do .ok (wrapAround (join ",".toList (← eachCall (toShortStrIn n) l)))

/-- The generated `__hash__`: /repo/versions/specifiers.py 51, 65, 79, 101-109, 147-155. -/
def hashIn (H : Hasher) : Nat → Specifier → Except PyErr Int
  | 0, _ => .error .recursionError
  | _ + 1, never => .ok (H.tuple [H.cls .never])
  | _ + 1, always => .ok (H.tuple [H.cls .always])
  | _ + 1, one o => .ok (H.operator o)
  | n + 1, any l => do .ok (H.tuple [H.cls .any, H.tuple (← eachCall (hashIn H n) l)])
  | n + 1, all l => do .ok (H.tuple [H.cls .all, H.tuple (← eachCall (hashIn H n) l)])

/-- The rest of `reduce(combine, map(call, specifiers))`; `map` is lazy. -/
def reduceCalls (combine : VSet → VSet → Except PyErr VSet) (call : Specifier → Except PyErr VSet) : VSet → List Specifier → Except PyErr VSet
  | acc, [] => .ok acc
  | acc, s :: rest => do reduceCalls combine call (← combine acc (← call s)) rest

/-- The body of `specifier_to_version_set`, /repo/versions/converters.py 69-84; every call has hashed its argument first. -/
def toSetIn (lim : Nat) : Nat → Specifier → Except PyErr VSet
  | 0, _ => .error .recursionError
  | _ + 1, one o => o.toSet lim
  | _ + 1, never => .ok .empty
  | _ + 1, always => .ok .universal
  | n + 1, all l => match l with
    | [] => .error .typeError
    | s :: rest => do reduceCalls (VSet.intersection lim) (toSetIn lim n) (← toSetIn lim n s) rest
  | n + 1, any l => match l with
    | [] => .error .typeError
    | s :: rest => do reduceCalls (VSet.unionWith lim) (toSetIn lim n) (← toSetIn lim n s) rest

end Verif.Specifier
