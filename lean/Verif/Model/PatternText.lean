import Verif.Model.Regex
import Verif.Model.Strings
/-!
# The texts of the patterns, and the syntax of `re`

`Verif.Model.Regex` writes the patterns of /repo/versions/patterns.py as trees. Here are the strings that the module
passes to `re.compile`, put together the way the module does it, and a parser of the part of the syntax of `re` that they
are written in. `Rx.run` gives the tree that the parser returns its meaning, anchors included.
-/

namespace Verif

/-! ## Strings -/

namespace PatternText

/-- `re.escape`: a backslash before each character that is special to `re`. -/
def escape (s : PyStr) : PyStr :=
  s.flatMap fun c => if c ∈ "()[]{}?*+-|^$\\.&~# \t\n\r\x0b\x0c".toList then ['\\', c] else [c]

/-- `OPTIONAL`, /repo/versions/patterns.py 91-92, with `QUESTION` of /repo/versions/constants.py 117. -/
def optional (s : PyStr) : PyStr := s ++ ['?']

/-- `SET`, /repo/versions/patterns.py 95-96, with `create_wrap_around` of /repo/versions/string.py 129-136. -/
def set (s : PyStr) : PyStr := ['['] ++ s ++ [']']

/-- `UNION` and `UNION_ITERABLE`, /repo/versions/patterns.py 87-88: `"|".join`. -/
def union (l : List PyStr) : PyStr := join ['|'] l

/-- `COMBINE` and `COMBINE_ITERABLE`, /repo/versions/patterns.py 84-85: `"".join`. -/
def combine (l : List PyStr) : PyStr := l.flatten

/-- `CREATE_GROUP(name).format`, /repo/versions/patterns.py 209: `r"(?P<{}>{{}})".format(name).format(s)`. -/
def createGroup (name s : PyStr) : PyStr := "(?P<".toList ++ name ++ ">".toList ++ s ++ ")".toList

/-- The constants of /repo/versions/patterns.py 100-106 and of /repo/versions/constants.py. -/
def alphaDigit : PyStr := "[a-z0-9]".toList
def alpha : PyStr := "[a-z]".toList
def digit : PyStr := "[0-9]".toList
def separators : List PyStr := [".".toList, "-".toList, "_".toList]
def separator : PyStr := set (escape (combine separators))
def prePhases : List PyStr := ["alpha".toList, "beta".toList, "a".toList, "b".toList, "c".toList, "rc".toList, "preview".toList, "pre".toList]
def postPhases : List PyStr := ["post".toList, "rev".toList, "r".toList]
def devPhases : List PyStr := ["dev".toList]
/-- /repo/versions/patterns.py 214. -/
def wildcard : PyStr := union ["x".toList, escape "*".toList]

/-- The values of the expressions in braces in the f-strings; the names of groups are in
/repo/versions/patterns.py 112-133. -/
def expressions : List (PyStr × PyStr) := [
  ("V_LITERAL".toList, "v".toList),
  ("ALPHA".toList, alpha), ("DIGIT".toList, digit), ("ALPHA_DIGIT".toList, alphaDigit),
  ("SEPARATOR".toList, separator), ("DASH".toList, "-".toList), ("WILDCARD".toList, wildcard),
  ("ESCAPE(EXCLAMATION)".toList, escape "!".toList), ("ESCAPE(DOT)".toList, escape ".".toList),
  ("ESCAPE(PLUS)".toList, escape "+".toList),
  ("UNION_ITERABLE(PRE_PHASES)".toList, union prePhases),
  ("UNION_ITERABLE(POST_PHASES)".toList, union postPhases),
  ("UNION_ITERABLE(DEV_PHASES)".toList, union devPhases),
  ("EPOCH".toList, "epoch".toList), ("RELEASE".toList, "release".toList),
  ("PHASE".toList, "phase".toList), ("VALUE".toList, "value".toList),
  ("PRE".toList, "pre".toList), ("PRE_PHASE".toList, "pre_phase".toList), ("PRE_VALUE".toList, "pre_value".toList),
  ("POST_IMPLICIT".toList, "post_implicit".toList),
  ("POST".toList, "post".toList), ("POST_PHASE".toList, "post_phase".toList), ("POST_VALUE".toList, "post_value".toList),
  ("DEV".toList, "dev".toList), ("DEV_PHASE".toList, "dev_phase".toList), ("DEV_VALUE".toList, "dev_value".toList),
  ("LOCAL".toList, "local".toList)]

/-- An f-string: `{expression}` is replaced by its value. The first argument holds what was read of the expression, in
reverse, after an opening brace. An expression that is not in the table stays in its braces. -/
def format : Option PyStr → PyStr → PyStr
  | none, [] => []
  | none, c :: t => if c = '{' then format (some []) t else c :: format none t
  | some k, [] => '{' :: k.reverse
  | some k, c :: t =>
    if c = '}' then
      (match expressions.lookup k.reverse with
        | some v => v
        | none => '{' :: k.reverse ++ ['}']) ++ format none t
    else format (some (c :: k)) t

/-- `TAG_PATTERN`, /repo/versions/patterns.py 137. -/
def tag : PyStr := format none "^(?P<{PHASE}>{ALPHA}+)(?:{SEPARATOR}?(?P<{VALUE}>{DIGIT}+))?$".toList

/-- `PUBLIC_VERSION_PATTERN`, /repo/versions/patterns.py 142-190. -/
def publicVersion : PyStr := format none "
    {V_LITERAL}?

    (?:
        (?P<{EPOCH}>{DIGIT}+){ESCAPE(EXCLAMATION)}
    )?

    (?P<{RELEASE}>{DIGIT}+(?:{ESCAPE(DOT)}{DIGIT}+)*)

    (?:
        {SEPARATOR}?

        (?P<{PRE}>
            (?P<{PRE_PHASE}>{UNION_ITERABLE(PRE_PHASES)})
            (?:
                {SEPARATOR}?
                (?P<{PRE_VALUE}>{DIGIT}+)
            )?
        )
    )?

    (?:
        (?:{DASH}(?P<{POST_IMPLICIT}>{DIGIT}+))
        |
        (?:
            {SEPARATOR}?

            (?P<{POST}>
                (?P<{POST_PHASE}>{UNION_ITERABLE(POST_PHASES)})
                (?:
                    {SEPARATOR}?
                    (?P<{POST_VALUE}>{DIGIT}+)
                )?
            )
        )
    )?

    (?:
        {SEPARATOR}?

        (?P<{DEV}>
            (?P<{DEV_PHASE}>{UNION_ITERABLE(DEV_PHASES)})
            (?:
                {SEPARATOR}?
                (?P<{DEV_VALUE}>{DIGIT}+)
            )?
        )
    )?
".toList

/-- `LOCAL_PATTERN`, /repo/versions/patterns.py 194-198. -/
def local_ : PyStr := format none "
    (?:
        {ESCAPE(PLUS)}(?P<{LOCAL}>{ALPHA_DIGIT}+(?:{SEPARATOR}{ALPHA_DIGIT}+)*)
    )?
".toList

/-- `VERSION_PATTERN`, /repo/versions/patterns.py 200. -/
def version : PyStr := combine [publicVersion, local_]

/-- `WILDCARD_VERSION_PATTERN`, /repo/versions/patterns.py 216-302. -/
def wildcardVersion : PyStr := format none "
    {V_LITERAL}?

    (?:
        (?:{DIGIT}+){ESCAPE(EXCLAMATION)}
    )?

    (?:
        (?:{WILDCARD})
        |
        (?:
            (?:{DIGIT}+(?:{ESCAPE(DOT)}{DIGIT}+)*)

            (?:
                (?:{ESCAPE(DOT)}(?:{WILDCARD}))
                |
                (?:
                    (?:
                        {SEPARATOR}?

                        (?:
                            (?:{UNION_ITERABLE(PRE_PHASES)})
                            {SEPARATOR}?
                            (?:{WILDCARD})
                        )
                    )
                    |
                    (?:
                        (?:
                            {SEPARATOR}?

                            (?:
                                (?:{UNION_ITERABLE(PRE_PHASES)})
                                (?:
                                    {SEPARATOR}?
                                    (?:{DIGIT}+)
                                )?
                            )
                        )?
                        (?:
                            (?:
                                (?:{DASH}(?:{WILDCARD}))
                                |
                                (?:
                                    {SEPARATOR}?

                                    (?:
                                        (?:{UNION_ITERABLE(POST_PHASES)})
                                        {SEPARATOR}?
                                        (?:{WILDCARD})
                                    )
                                )
                            )
                            |
                            (?:
                                (?:
                                    (?:{DASH}(?:{DIGIT}+))
                                    |
                                    (?:
                                        {SEPARATOR}?

                                        (?:
                                            (?:{UNION_ITERABLE(POST_PHASES)})
                                            (?:
                                                {SEPARATOR}?
                                                (?:{DIGIT}+)
                                            )?
                                        )
                                    )
                                )?
                                (?:
                                    {SEPARATOR}?

                                    (?:
                                        (?:{UNION_ITERABLE(DEV_PHASES)})
                                        {SEPARATOR}?
                                        (?:{WILDCARD})
                                    )
                                )
                            )
                        )
                    )
                )
            )
        )
    )
".toList

/-- `OPERATOR_GROUP` and `VERSION_GROUP`, /repo/versions/patterns.py 206-212. -/
def operatorGroup : PyStr → PyStr := createGroup "operator".toList
def versionGroup : PyStr → PyStr := createGroup "version".toList

/-- `WILDCARD_SPECIFICATION_PATTERN`, /repo/versions/patterns.py 306-309. -/
def wildcardSpecification : PyStr :=
  combine [optional (operatorGroup (union ["==".toList, "=".toList, "!=".toList])), versionGroup wildcardVersion]
/-- `ORDER_SPECIFICATION_PATTERN`, /repo/versions/patterns.py 313-316. -/
def orderSpecification : PyStr :=
  combine [operatorGroup (union ["<=".toList, ">=".toList, "<".toList, ">".toList]), versionGroup publicVersion]
/-- `CARET_SPECIFICATION_PATTERN`, /repo/versions/patterns.py 320-322. -/
def caretSpecification : PyStr := combine [operatorGroup (escape "^".toList), versionGroup publicVersion]
/-- `TILDE_SPECIFICATION_PATTERN`, /repo/versions/patterns.py 326-328. -/
def tildeSpecification : PyStr :=
  combine [operatorGroup (union ["~=".toList, "~".toList]), versionGroup publicVersion]
/-- `EQUAL_SPECIFICATION_PATTERN`, /repo/versions/patterns.py 332-335. -/
def equalSpecification : PyStr :=
  combine [optional (operatorGroup (union ["==".toList, "=".toList, "!=".toList])), versionGroup version]

end PatternText

/-! ## Syntax -/

/-- A parsed pattern. -/
inductive Rx
  /-- one character in one of the ranges (a literal is the range from itself to itself), ignoring case -/
  | cls (ranges : List (Char × Char))
  /-- `^` and `$` -/
  | start | finish
  | eps
  | seq (a b : Rx)
  | alt (a b : Rx)
  | opt (a : Rx)
  | star (a : Rx)
  | plus (a : Rx)
  | group (g : Grp) (a : Rx)
  deriving DecidableEq, Repr

namespace Rx

/-- The names of the groups, /repo/versions/patterns.py 112-133, 206-207. -/
def groupNames : List (PyStr × Grp) := [
  ("epoch".toList, .epoch), ("release".toList, .release), ("phase".toList, .phase), ("value".toList, .value),
  ("pre".toList, .pre), ("pre_phase".toList, .prePhase), ("pre_value".toList, .preValue),
  ("post_implicit".toList, .postImplicit),
  ("post".toList, .post), ("post_phase".toList, .postPhase), ("post_value".toList, .postValue),
  ("dev".toList, .dev), ("dev_phase".toList, .devPhase), ("dev_value".toList, .devValue),
  ("local".toList, .local_), ("operator".toList, .operator), ("version".toList, .version)]

/-- `re.VERBOSE`: whitespace outside of classes does not count. -/
def skip (s : PyStr) : PyStr := s.dropWhile fun c => decide (c ∈ " \t\n\r\x0b\x0c".toList)

/-- A backslash makes a character literal unless it is a letter or a digit (these have other meanings). -/
def escapable (c : Char) : Bool := !(decide ('a' ≤ c ∧ c ≤ 'z') || decide ('A' ≤ c ∧ c ≤ 'Z') || decide ('0' ≤ c ∧ c ≤ '9'))

/-- The inside of a class, up to the closing bracket: ranges, characters and escaped characters. -/
def parseClass : PyStr → Option (List (Char × Char) × PyStr)
  | [] => none
  | ']' :: s => some ([], s)
  | '\\' :: c :: s => if escapable c then (parseClass s).map fun r => ((c, c) :: r.1, r.2) else none
  | '[' :: _ => none
  | '^' :: _ => none
  | '-' :: _ => none
  | c :: '-' :: d :: s =>
    if d ∈ "[]\\".toList then none else (parseClass s).map fun r => ((c, d) :: r.1, r.2)
  | c :: s => (parseClass s).map fun r => ((c, c) :: r.1, r.2)

/-- `?`, `*` or `+` after an item, once. Lazy, possessive and counted repetitions are not part of this syntax. -/
def parseRepeat (a : Rx) (s : PyStr) : Option (Rx × PyStr) :=
  match skip s with
  | '?' :: s => if s.head? ∈ ['?', '*', '+', '{'].map some then none else some (opt a, s)
  | '*' :: s => if s.head? ∈ ['?', '*', '+', '{'].map some then none else some (star a, s)
  | '+' :: s => if s.head? ∈ ['?', '*', '+', '{'].map some then none else some (plus a, s)
  | '{' :: _ => none
  | s => some (a, s)

mutual

/-- Alternatives, up to a closing parenthesis or the end. The first argument bounds the number of calls. -/
def parseAlt : Nat → PyStr → Option (Rx × PyStr)
  | 0, _ => none
  | n + 1, s => match parseSeq n s with
    | some (a, '|' :: s) => match parseAlt n s with
      | some (b, s) => some (alt a b, s)
      | none => none
    | r => r

/-- Items, up to a bar, a closing parenthesis or the end. -/
def parseSeq : Nat → PyStr → Option (Rx × PyStr)
  | 0, _ => none
  | n + 1, s => match skip s with
    | [] => some (eps, [])
    | '|' :: s => some (eps, '|' :: s)
    | ')' :: s => some (eps, ')' :: s)
    | s => match parseAtom n s with
      | none => none
      | some (a, s) => match parseRepeat a s with
        | none => none
        | some (a, s) => match parseSeq n s with
          | none => none
          | some (eps, s) => some (a, s)
          | some (b, s) => some (seq a b, s)

/-- One item, without repetition. -/
def parseAtom : Nat → PyStr → Option (Rx × PyStr)
  | 0, _ => none
  | n + 1, '(' :: '?' :: ':' :: s => match parseAlt n s with
    | some (a, ')' :: s) => some (a, s)
    | _ => none
  | n + 1, '(' :: '?' :: 'P' :: '<' :: s => match groupNames.lookup (s.takeWhile (· != '>')) with
    | none => none
    | some g => match parseAlt n ((s.dropWhile (· != '>')).drop 1) with
      | some (a, ')' :: s) => some (group g a, s)
      | _ => none
  | _ + 1, '[' :: s => match parseClass s with
    | some ([], _) => none
    | some (l, s) => some (cls l, s)
    | none => none
  | _ + 1, '\\' :: c :: s => if escapable c then some (cls [(c, c)], s) else none
  | _ + 1, '^' :: s => some (start, s)
  | _ + 1, '$' :: s => some (finish, s)
  | _ + 1, c :: s => if c ∈ ".\\[{()*+?^$|#".toList then none else some (cls [(c, c)], s)
  | _ + 1, [] => none

end

/-- `re.compile(text, re.IGNORECASE | re.VERBOSE)`; `none` is a text outside of this syntax. -/
def parse (text : PyStr) : Option Rx :=
  match parseAlt (3 * text.length + 3) text with
  | some (a, []) => some a
  | _ => none

/-! ## Meaning -/

/-- Other lower case characters with the same upper case, in the table of extra cases of `re`: for i and s. -/
def extraCases (c : Char) : List Char :=
  if c = 'i' then ['ı'] else if c = 's' then ['ſ'] else
    if c = 'ı' then ['i'] else if c = 'ſ' then ['s'] else []

/-- The characters of a range. -/
def chars (r : Char × Char) : List Char := (List.range (r.2.toNat + 1 - r.1.toNat)).map fun i => Char.ofNat (r.1.toNat + i)

/-- `re.IGNORECASE`: the lower case of the character is the lower case of a character of the ranges, or an extra case of
one. -/
def classHas (ranges : List (Char × Char)) (c : Char) : Bool :=
  (ranges.flatMap chars).any fun i => decide (Re.lower c = Re.lower i) || decide (Re.lower c ∈ extraCases (Re.lower i))

/-- The ways to match a prefix of what is left of a string of length `n`, in the order in which they are tried. -/
def run (n : Nat) : Rx → Re.State → List Re.State
  | cls l, st => match st.1 with
    | [] => []
    | c :: rest => if classHas l c then [(rest, st.2)] else []
  | start, st => if st.1.length = n then [st] else []
  | finish, st => if st.1 = [] ∨ st.1 = ['\n'] then [st] else []
  | eps, st => [st]
  | seq a b, st => (run n a st).flatMap (run n b)
  | alt a b, st => run n a st ++ run n b st
  | opt a, st => run n a st ++ [st]
  | star a, st => Re.iterate (run n a) st.1.length st
  | plus a, st => (run n a st).flatMap fun st' => Re.iterate (run n a) st'.1.length st'
  | group g a, st => (run n a st).map fun st' => (st'.1, (g, st.1.take (st.1.length - st'.1.length)) :: st'.2)

/-- `pattern.fullmatch(string)`. -/
def fullmatch (r : Rx) (s : PyStr) : Option Re.Caps :=
  ((run s.length r (s, [])).find? fun st => st.1.isEmpty).map (·.2)

end Rx

/-- `re.compile(text, FLAGS).fullmatch(string)`: the outer `none` is a text that the parser rejects. -/
def PatternText.fullmatch (text s : PyStr) : Option (Option Re.Caps) := (Rx.parse text).map fun r => r.fullmatch s

end Verif
