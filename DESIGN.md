# Design

Formal model, in Lean 4, of `versions` (Python, `/repo`). The code is never run; the model was written by
reading it. `properties.jsonl` lists the properties, `MANIFEST.json` says which theorem states which.

## Layout

| directory (under `lean/Verif`) | content |
|---|---|
| `Model/` | the model, one definition per function of `/repo`, each citing file and lines |
| `Spec/` | small specifications independent of the model (what a set of versions is, grammar, ...) |
| `Proofs/` | lemmas |
| `Props/` | the property theorems (`C01_...`), each with an `example` meeting its hypotheses |

## Modelling decisions

* Python `int` is `Int`, `str` is `List Char`, tuples and lists are `List`. Frozen attrs classes are structures.
* Exceptions are values: `Except PyErr α`. `RecursionError` is fuel exhaustion: recursive set operations take a
  fuel argument; "does not terminate" means `recursionError` for every fuel, "terminates" means the same result for
  every sufficiently large fuel.
* Comparison operators are modelled the way Python evaluates them: five Boolean functions per class
  (`==`, `<`, `<=`, `>`, `>=`), tuples compared by first differing element, infinities through their own tables and
  through reflected calls. That they amount to one linear order is a theorem, not a definition.
* `list.sort` is a stable insertion sort with the class's own `<`. Where comparisons may raise (C106), nothing is assumed about
  which items it compares: what it returns is a permutation with neighbours in order, what it raises some comparison has raised.
* Iterators/generators are lists; a generator's exceptions surface when it is consumed, which here is at once.
* `lru_cache` is an association list consulted through (hash, `==`); hashes of strings are an arbitrary function.
* Regular expressions are a deep embedding with a backtracking matcher in priority order (greedy first), which is the
  documented behaviour of `re`. `IGNORECASE` is modelled with the Unicode exceptions of `[a-z]`.

## Trusted base

* Lean's kernel. Every property theorem depends on at most `propext`, `Classical.choice`, `Quot.sound`
  (checked with `#print axioms`); no own axioms, no `sorry`, no `native_decide`/`bv_decide`.
* That the model reads the code correctly (the cited lines). `Verif/Tests/Repository.lean` transcribes the project's own
  test suite (/repo/tests) and `Verif/Tests/Documentation.lean` the examples in its README and docstrings, case by case,
  and the kernel evaluates them on the model; they are a check of the model, not proofs of anything.
* Behaviour of the dependencies as documented: `attrs` (generated `__eq__`, `__lt__`, `__hash__`, `evolve`,
  converters and validators), `re`, `functools.lru_cache`, `functools.reduce`, `funcs.primitives.increment`,
  `iters`, `orderings`.

Simplifications and what is not modelled:

* Python's limit on int/str conversion (4300 digits), except for C100, where the limit is any number; memory.
* `int` and `str.isdigit` know ASCII digits only, except for C102, which is over any table of digits that Unicode may have and
  shows that versions, tags, specifiers and sets are parsed the same. `Epoch`, `Release` and `Local.parse` differ on other digits.
* `re.fullmatch` is the first path, in priority order, that consumes the whole string; the anchors in the patterns are
  implied by that. `IGNORECASE` is the table of characters that match `[a-z]` and the letters of the keywords. That the
  pattern trees are what the texts in patterns.py mean is C105; there the syntax of `re` is the part that the texts use.
* Subclasses of `Version`, except for C99, C106, C107 and C109: elsewhere `version_type` is left at its default. The subclasses of C99 add and
  override nothing. The base class `Tag` is modelled on its own for C92 only.
* The methods and operators of version sets (`&`, `|`, ...) are modelled for operands that are version sets, except for C104,
  where they are any object of the package.
* `click` in `main.py`: the command is the function of its flags. Protocols (`Specification`, `Versioned`,
  `VersionSetProtocol`) have no behaviour of their own beyond the methods modelled in the classes.
* Threads act on the caches only by whole lookups and stores (C97): a dictionary operation that calls `__eq__` of the keys,
  which is Python code, is assumed to take effect at one moment. All other objects are immutable.
* Exceptions are their classes, except for C115, where they have messages. `max`, `min`, `sorted` and `set` of CPython (C116) use
  the methods of versions as documented.
* Arguments of the wrong type, except for comparisons (C89), the guards (C85) and version sets (C104).

## Plan per property

| id | model | proof |
|---|---|---|
| C01 | five comparison functions of `Version` over its comparison key | map to a lexicographic `LinearOrder`, `f a b = decide (key a < key b)` |
| C02 | release key with trailing zeros removed | strip lemma: equal strips iff equal at every index with default 0 |
| C03, C04 | same | case analysis on the key |
| C05 | attrs hash: fields that take part | equal implies equal hash for an arbitrary string hash; counterexample for operators |
| C06-C09 | `Release` functions with Python indices | list lemmas |
| C10-C12, C14 | `Version` functions | order lemmas |
| C13, C17, C18 | `next_*_breaking`, `matches_*` | reduce to prefix comparison of zero-padded releases |
| C15, C16 | `matches_*`, `translate_*` | case split on operator |
| C19-C31 | `version_sets.py` | every item is a half-open interval of *cuts* (a version and a side); every predicate of the code is a comparison of cuts; loops by induction over sorted lists |
| C26-C28 converse | density of versions (extend the local segment) | explicit witness between any two well-formed versions |
| C32-C35 | specifiers and converters | induction over the specifier tree |
| C36, C37, C47 | caches as association lists | invariant over all histories; counterexample for `~=` |
| C38-C42 | string functions, patterns, parsers | matcher in continuation-passing style; soundness and completeness wrt. a declarative path relation; round trip by following the first successful path |
| C43-C46, C50-C53 | specifier parser, set strings | same; a declarative grammar of specifier strings, proved sound, complete and unambiguous |
| C48, C49, C54-C58 | operator syntax, predicates, order by inclusion and sizes of sets | cuts again |
| C59, C60 | PEP 440 strings, order field by field | own specification of both, then equivalence |
| C61-C63 | metadata, command line, strings of segments | unfolding; string lemmas |
| C64, C65 | negative indices, slices, `weaken` | list lemmas, case analysis on the key |
| C66, C67 | versions that strings denote: least, no greatest, dense | witness between any two canonical versions; sets are told apart by them |
| C68-C72 | operators against the specifier clauses of PEP 440 | own specification of the clauses over the order of C60 (which is that of PEP 440 when phases are spelled alike, C80); exact difference per operator |
| C73, C74 | `^`, `~`, `~=` are transitive; bumps are least and monotone | bumped versions compared by prefix |
| C75 | joining requirement strings by `,` and `|` | grammar of C50, extensionality of C28 and C67 |
| C76 | the predicates of ranges | cuts of C26, density |
| C77 | named parts | C06 |
| C78 | bumps at different places | as C74 |
| C79 | `parse_version_set` on joined strings, and where it returns | as C22 and C75; sets that at each version are right-open, or at each of a set of versions left-closed instead, are closed under union and intersection and never make unions fail |
| C80 | the order of PEP 440 proper | own specification; places of phases against C60, then C14 |
| C81 | normal form of PEP 440 by rewriting the text | own specification on the parts of a spelling (no numbers computed); C41, C42, C59 |
| C82 | operator types, predicates, constructors | tables; a finite list of versions tells the types apart |
| C83 | strings and representations are injective; constructors of segments | round trips of C39 and C63; the candidate phase by cutting at its first letter |
| C84 | backtracking engine with continuations and a step count | engine = first of the list model; cost of continuations: linear, and constant where a number goes on, so the loops add up |
| C85 | values as specifiers, sets, versions or others; guards; `matches` | membership depends on the key only; induction over specifiers for equality; C32, C33 for conversions |
| C86 | number of operators, shapes | edges of a set: the cuts where it changes; every Boolean combination has only edges of its operands; distinct ends are distinct edges |
| C87 | the object with its flag; a sequence of calls | every step that returns True fetches an item; C23's loop invariant |
| C88 | constructors as they are; the operators used in a specifier | `C88_range`, `C88_joined`: exactly when. `C88_conversion`, `C88_conjunctive`: by induction on the specifier, with C16 for operators, C22 for unions. `C88_parse`: with C51. |
| C89 | `Model/Comparisons`: the method of each class with `NotImplemented`, and Python's dispatch | `C89_equality`, `C89_classes`: by cases on the classes, from the keys of C01. `C89_outcome`, `C89_order`: exactly when, agreement, transitivity. `C89_infinities`. `C89_extended`: the comparisons with infinities inside the keys are those of the dispatch. |
| C90 | normal form (C19) | `C90_shortest`: a version in each item and one in each gap force as many items. `C90_unique`: then the correspondence is one to one. `C90_results`: with C19, C48. |
| C91 | what hashes tell apart, and the cost of dictionaries | hash equality characterised by shape, for collision-free hash functions of the built-in types; counting calls of == in a dictionary model (`Model/Dict`), whose contents are specified for every hash (`C91_dictionary`, `C91_calls`) |
| C92 | which strings are tags, and the base class `Tag` | own grammar of tag texts; the base class modelled apart (`Model/BaseTag`) and compared with its subclasses |
| C93 | which version sets are read back from their strings, and that the strings determine the sets | the text of a set is split at pipes and commas into parts, each of which is read or fails |
| C94 | how many rounds the loops of set operations and of conversions take | operations that count their rounds, shown to return the same; each round takes an item, and calls on two items take a bounded number of rounds |
| C95 | equal versions have the same content, and give equal versions when changed in the same way; exactly when `to_semantic`, `next_breaking` and each operator tell equal versions apart; the cache of the converter is sound exactly for collections of operators in which equal ones are not told apart | `C02_eq_iff` for the content; the upper ends of windows of equal versions are equal or bumped at different places, and then the smaller one is a version that tells the operators apart; cached conversions by `Coherent` of C36, the converse by the history of one operator |
| C96 | Model/Sessions.lean (all five caches in one state, programs over results of earlier statements, the same interpreter with the plain functions as reference) | Props/Sessions.lean: a relation between the two runs kept by every statement (equal versions; equal specifiers over operators that are read alike; sets with the same versions and ends that strings can denote); conversions of sets use only simple operators, so nothing they make can break the condition |
| C97 | threads that share all five caches, with any interleaving of lookups and stores: results right up to spelling under the condition of C95, termination under fair schedules, agreement with the sessions of C96 for one thread, spelling may depend on the turns | tasks as trees of lookups and stores; an invariant of the memory and of every task (whatever right value a lookup finds, what is stored and returned is right) kept by each step; well-founded induction on tasks; simulation of the cached computations by tasks run alone |
| C98 | results of programs in threads have the meaning of their statements, and exceptions known reasons | `C98_meaning`: invariant of C97 with `Statement.Gives` and `Statement.Fails`, which do not mention `Statement.run`; C20–C25, C28, C32–C35, C53, C88 |
| C99 | versions of subclasses of `Version`, alone and mixed | `Model/Subclasses`: every version carries its class, every comparison may raise; C99_one_class is a conservativity theorem over C01–C98's model, the others give exact outcomes for foreign versions |
| C100 | parsing and printing under Python's limit on digits | `Model/DigitLimit` writes parsers and printers once more over limited `int` and `str`; `Spec/Numerals` says which numerals a string contains without the patterns; conservativity plus exact failures, by the shapes of C41 and C43 |
| C101 | `SpecifierParser` with any `version_parser` | `Model/DigitLimit` has the version parser as an argument; `Spec/ParserBy` is the grammar of C51 over a parser; proof by the shapes of single operators, which do not mention the parser |
| C102 | parsing with any table of Unicode digits | `Model/UnicodeDigits` writes the parsers once more over a table; `Spec/IntText` is the grammar of `int`; versions by the shapes of C41 (captured groups are ASCII digits and the four letters), segments by splitting |
| C103 | strings of nested specifiers are unambiguous; representations of version sets | a string begins with the string of at most one specifier that a stop follows, by recursion on both; the printers of C93 with C83 |
| C104 | the methods of version sets with any object of the package as operand, over the comparisons of C89 | on sets the functions are the ones of Model/VersionSets.lean; otherwise by cases over the classes; `extract` gives nothing, and merging a list in normal form leaves it alone |
| C105 | `PatternText` (f-strings and their substitution), `Rx` (parser of the syntax of `re`, meaning with anchors) | texts and trees computed by the kernel; simulation between trees; induction over escaped strings |
| C106 | set operations on versions of subclasses of `Version` | `Model/SubclassSets`: the operations with raising comparisons and an abstract `list.sort`; conservativity over the one-class model by the same recursion; for two classes, a sorted list of both must begin with a bottomless item followed by one of the other class, whose `intersects` raises |
| C107 | caches with keys of several classes | `Model/SubclassCaches`; equal keys hold versions of the same classes, and are the same if they hold none; invariant: entries without versions are right; the part of the cache for a class depends on that part alone; then the one-class run is mapped into the class |
| C108 | questions about requirement strings | `Props/Decisions`: the intersection with `>=0.dev0` has ends that strings denote and no unbounded lower end, so C67 is exact; `==` of the specifiers by C33 and the operators that conversion makes |
| C109 | caches give what they gave | `Proofs/CacheReuse`: `==` of keys is an equivalence, so what is found stays found; `Proofs/CacheExceptions`: every entry is explained by the entries for its parts, and no conversion adds an entry for a heavier key; `Model/SubclassFunctions`, `Props/CacheReuse`: the cache in front holds only what the one behind holds |
| C110 | C109 for threads: an entry may be replaced by a thread that was inside a call when it was stored, and by no other | `C110_violation` gives the schedule; `C110_between_specifiers`, `C110_between_sets`: tasks store nothing for a key that their lookups find |
| C111 | Which operators accept everything that another one accepts against the same version, as equivalences; opposite pairs, for matching and for sets | `C111_tilde_caret`, `C111_tilde_equal_tilde`, `C111_tilde_equal_caret`, `C111_wildcard`, `C111_unstable`, `C111_opposite`, `C111_opposite_sets`, `C111_at_least` |
| C112 | Versions that programs make by parsing, constructing and calling methods are exactly those that strings denote, so they are read back | `C112_call`, `C112_made` (induction over programs), `C112_read_back`, `C112_negative`, `C112_exceptions` (which calls raise what) |
| C113 | Unions built by hand: what the loops of the set operations guarantee for items in any order | `Proofs/LooseUnions.lean` goes through the loops again without the hypothesis that the items are sorted with gaps; the invariants keep only one inclusion |
| C114 | Ranges with equal bounds: each operation on items for everything the constructors accept | `Props/Degenerate.lean` goes through the operations again on cuts, where an empty range may have its lower cut at or above its upper cut |
| C115 | messages of exceptions: the parsers and constructors with messages | the model with messages erases to the model of the other properties (`C115_same`); the messages are characterised by an independent relation on spelled strings |
| C116 | `max`, `min`, `sorted` and `set` of CPython over versions | exact characterisations of the loops of `max`, `min` and `set`; `sorted` by a specification with exactly one solution |
| C117 | Which requirements on a version its bumps satisfy | all indices and numbers of bumps; from the windows of C13, C17, C18 and the bumps of C10, C11; `bumpTimes` repeats `next_at` |
| C118 | Wildcards are nested or disjoint, and the other windows are cut out of them | from C18_wildcard_general, C13, C17; `wild` is the version that `==p.*` is read as |
| C119 | nested specifiers and the limit on nested calls | `Model/Nesting`: the methods with a number of nested calls that still fit; induction on that number; strings and simplified specifiers by C50 and C86; folds by induction on the list of added requirements |
| C120 | which requirements conflict | each operator accepts the versions from its own on that lie in a set closed downwards; the greatest version named decides; for sets, the same on cuts, with the intersections of C20 |
| C121 | storing sets as strings | induction on the program: C45_short for each result, equal operands give equal results or the same exception (`SameSet`), ends come from the operands (C48) |
| C122 | From text to answer: strings of requirements on release numbers accept exactly the numbers that the documentation says, on strings and lists of natural numbers alone | `C122_order`, `C122_single`, `C122_formula`, `C122_set` |
| C123 | From text to answer on public versions of PEP 440 with epochs and tags; order, windows and sets, stated on strings and a plain record of numbers | `C123_order`, `C123_single`, `C123_formula`, `C123_set` |
| C124 | Sets read from requirements on release numbers: `==`, `includes`, `intersects` and `is_empty` are questions about lists of natural numbers, with one exception below `0` | `C124_sets`, `C124_operations`, `C124_equal`, `C124_includes`, `C124_intersects`, `C124_empty` |
| C125 | From text to text: public versions are read, changed by any number of calls and written; the string is stated on a plain record of numbers | `C125_edit`, `C125_last_phase`, `C125_program` |
| C126 | how requirements on public versions are written as version sets, from text to text | records and `Ask.setText` without the model; exact complement of points and windows from cover and ends; `C93_short` for reading back |
| C127 | Choosing and sorting from text to text | the client programs `pickText` and `sortTexts` over the model's parsers, acceptance, `max`/`sorted` (C116) and printing; C123 for meaning and order, injectivity of the reading of public versions |
| C128 | Candidates with local segments, from operator to text | `C128_operator`, `C128_order`, `C128_public`, `C128_formula`, `C128_set` |
| C129 | Requirements and candidates in any spelling, from text to answer | `C129_formula`, `C129_set`, `C129_covers` |
| C130 | A resolver's core over text: fold of `intersection`, filter, `max` | `C130_resolve`, `C130_fails`, `C130_order`, `C130_further`, `C130_joined` |
| C131 | Lock lines, later and withdrawn versions, and the order of the versions on offer | `C131_lock`, `C131_published`, `C131_withdrawn`, `C131_offers` |
| C132 | The program of C130 with local builds on offer | `C132_resolve`, `C132_fails`, `C132_preferred` |
| C133 | `^`, `~`, `~=`, `== v.*` on two versions | `C133_implies`, `C133_both`, `C133_meet`, `C133_sets` |
| C134 | `^`, `~`, `~=`, `== v.*` beside bounds | `C134_bounds`, `C134_within`, `C134_meets`, `C134_sets` |
| C135 | what `^`, `~`, `~=` and wildcards on a pre-release accept beside the same on its final release | `C135_kept`, `C135_ends`, `C135_apart`, `C135_sets` |
| C136 | when two of `^`, `~`, `~=` and `== v.*` as alternatives leave no gap, and `union` of their sets is one range | `C136_gapless`, `C136_sets` |
| C137 | the set that `intersection` makes of one of `^`, `~`, `~=`, `== v.*` and a comparison | `C137_cut` |
| C138 | the sets that `intersection`, `difference` and `complement` make of `^`, `~`, `~=`, `== v.*` | `C138_sets`, `C138_complement` |
| C139 | the set that `intersection` makes of one of `^`, `~`, `~=`, `== v.*` and `!= w.*` | `C139_accepts`, `C139_sets` |
| C140 | which of `==`, `=`, `!=`, `<`, `<=`, `>`, `>=` imply and meet which, and what their sets answer | `C140_implies`, `C140_meets`, `C140_sets` |
| C141 | which of `==`, `=`, `!=`, `<`, `<=`, `>`, `>=` as alternatives leave nothing out; whether their sets can be joined, and when the result is universal | `C141_covers`, `C141_sets`, `C141_returns` |
| C142 | which of `==`, `=`, `!=`, `<`, `<=`, `>`, `>=` are opposite or the same, as requirements and as sets | `C142_opposite`, `C142_same`, `C142_sets` |
| C143 | what the sets of `==`, `=`, `!=`, `<`, `<=`, `>`, `>=` have in common and leave of each other; `difference` is wrong exactly for a bound without a `!=` it implies | `C143_common`, `C143_left` |

Where the code violates what one would expect, the property says so, and a theorem exhibits the violation next to the
strongest true version.

## Mutation testing

`seeded/LOG.jsonl` has one line per wrong program tried: the definition of the model that was edited, the edit, the claim
it breaks, the theorems that failed to check, and the theorems that were tightened because they did not fail. A theorem
counts as failed if its proof, or a lemma it rests on, no longer checks; the log says so only if the statement is really
about the edited behaviour.

## Findings (each is a theorem)

Sets:
* `union` recurses without bound when a single version is the excluded lower end of a range: `== 1 || > 1`
  (`C22_union_diverges`).
* range minus a union one of whose items covers it returns the range; union minus the empty set is the empty set
  (`C23_violations`); hence `^` of disjoint sets is empty (`C25_violation`).
* `VersionUnion` has no operators and no `symmetric_difference` (`C54_union_fails`); `~x` is a `TypeError` for all sets
  (`C54_invert_fails`).
* The empty set prints as `0`, which parses as the version 0 (`C45_empty`).
* `>= 0.dev0` holds every version that a string can denote, but is not universal; `< 0.dev0` is not empty
  (`C67_violation`).

Operators and specifiers:
* `=` and `==` are equal but hash differently (`C05_violation`).
* `~= 1.0` and `~= 1.0.0` are equal specifiers with different sets, so the conversion cache makes results depend on
  history (`C36_violation`, `C47_violation`).
* Bumping a dev release of a post release gives a smaller version (`C10_next_at`); `^`, `~` and wildcards on such
  versions cannot be translated and match nothing (`C16_failure`, `C16_accepts`).
* `~ 1.0rc1` and `^ 0.1rc1` do not accept `1.0` and `0.1` (`C18_tilde_unstable`, `C13_caret_unstable_zero`).
* Compatibility (`^`, `~`, `~=`) is not transitive through an equal version with fewer parts (`C73_violation`).
* The strings of `SpecifierAny` and `SpecifierAll` do not parse (`C46_*`); nor do the strings of order, caret and tilde
  operators on local versions, nor long strings with a `candidate` tag (`C44_local_fails`, `C44_candidate_fails`).
* Against PEP 440: `==`, `!=` and `<=` do not ignore the local segment of the candidate; `<` and `>` do not exclude pre- and
  post-releases of the version; `~=` and `==.*` let in pre-releases of the next release (`C68`-`C71`).

Versions and segments:
* `to_pep440_string` leaves upper-case letters in the local segment (`C59_violation`, `C81_normal`), and local segments
  that differ only in case are different versions (`C80_local_violation`).
* `1.0c2 < 1.0rc1` and `1.0.post2 < 1.0.rev1`, though PEP 440 takes `c` for `rc` and `rev` for `post` (`C80_violation`);
  `normalize` repairs this (`C80_normalize`).
* `1.0RC1` matches the pattern, but is rejected with a plain `ValueError`; only the local segment may have upper case
  (`C42_*`).
* `Tag.parse("a-1")` is the opposite number (`C63_tag_negative`); `Epoch.parse` and `Release.parse` accept what `int` does.
* `next_at(-1)` is a `ValueError` for every release, `has_at` is true for every negative index (`C64_next_back`,
  `C64_before_start`).
* `weaken` does not keep the order (`C65_weaken_order`); with negative parts the order of releases is not the order of
  their parts (`C02_negative_parts`).
* `ItemsDifference.step` called again after `False` appends the last item once more (`C87_again_violation`); the library
  itself does not do that.
* Comparing a range with anything else raises `AttributeError` rather than `TypeError`, also with an infinity on the right,
  while `infinity < range` returns (`C89_outcome`).
* All versions have the same hash, so a set or dictionary of n versions takes n(n-1)/2 comparisons (`C91_versions`, `C91_quadratic`).
* Converting a specifier with n alternatives to a set takes a number of rounds quadratic in n, as `reduce` merges all the items again for each alternative (`C94_quadratic`); merging them all at once takes 2n.
* A range with equal ends of which one is left out, e.g. `VersionRange(3, 3, True, False)`, prints as `0`, which is read as the version 0 (`C93_equal_ends`).
* C95: `to_semantic` does not respect `==`: `1.2.3 == 1.2.3.0`, but `to_semantic` gives `1.2.3` and `1.2.4`. Nor does `next_breaking`: `0 == 0.0`, but it gives `1` and `0.1`. `C95_operators` says which operators tell equal versions apart, and `C95_cache_exact` that just those make conversions depend on their history (C36).
* C99: for a version of another class than the specifier's, `!= a` accepts while the set of `!= a` raises `TypeError`; C15 holds only within one class. `VersionRange.intersects` answers `True` for two ranges of different classes that are unbounded on the same side, though their intersection raises.
* C100: a version string with a number of more than 4300 digits raises `ValueError` and not `ParseVersionError`; the version `9…9` of 4300 nines parses and prints, but `^9…9` is a specifier whose version set cannot be printed (C100_nines).
* C102: `Local.from_string("²")` raises `ValueError`: `str.isdigit` says yes, `int` says no. `Epoch.from_string("٣")` is 3 though no version string contains it.
* C104: `union.includes(x)` is `True` for every `x` that is not a version set, e.g. a version that is not in the union; `VersionUnion.of(version)` is the empty set, and the empty set united with a version is the version. `UNIVERSAL_SET.contains(epoch)` is `True`.
* C106: `VersionPoint.intersection` of a point and a union of points of another class is empty, but the union's intersection with the point raises `TypeError` (`is_higher` is asked even when the items do not meet); `intersects` and `includes` answer for some pairs of sets whose intersection and union raise.
* C110: two threads that convert equal specifiers at the same time may change what the cache holds, so that one thread gets two different sets for one specifier object (`~=1.0` beside `~=1.0.0`).
* C111: `~` and `~=` are the same for three parts, but `~1.2` is narrower than `~=1.2` and wider than `~=` with four parts; `^0.0.3` is narrower than `~0.0.3`, while `^1.2.3` is wider than `~1.2.3`; no order between `^` and `~` holds for all versions.
* C112: the setters and constructors accept negative numbers (`set_major(-1)`), and then return versions that no string denotes.
* C113: `VersionUnion(items)` does not sort its items, and every loop except that of `contains` relies on their order. For x < y the union `VersionUnion((y, x))` contains x, but does not intersect it, while x intersects the union; its complement contains x.
* C114: a range with equal bounds, such as `[v, v)`, is accepted but breaks `union` with v: `[v, v) | v` is `[v, v)`, and `v | (v, v]` raises `RecursionError`. `[v, v]` equals the point v, but `v.includes([v, v])` is False; `intersects` answers True for an empty range inside another.
* C115: the tag constructors show the converted phase: `PostTag("a")` says that `alpha` is not allowed. `parsers.py` imports `InternalError` from `sqlite3` instead of raising its own (the branches can not be reached). The message of `~=` says "with with".
* C117: the final release never satisfies `~` of its own pre-release (`1.0` is not in `~1.0-rc.1`), and not `^` either if the major part is 0.
* C118: a pre-release such as `2.0-rc.1` satisfies `==1.*`, but no `==p.q.*` at all; `1.0-rc.2` satisfies `~=1.0-rc.1`, but not `==1.*`.
* C119: a specifier built by adding requirements one at a time (`specifier = SpecifierAll.of(specifier, t)`) nests one level per requirement, because `of` does not flatten. Every method of it, `accepts` and `hash` included, raises `RecursionError` once the interpreter's limit is reached, while `SpecifierAll.of(*all_of_them)` and everything read from a string is at most three deep.
* C121: a stored empty result turns into the version 0: `(< 1 ∩ > 2) ∪ > 3` gains 0 when its results go through short strings (`C121_violation`).
