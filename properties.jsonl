{"id": "C01", "title": "Versions are totally ordered", "statement": "For any two versions exactly one of `a < b`, `a == b`, `a > b` holds; `<` and `==` are transitive; `<=`, `>=`, `!=` agree with them. The same holds for epochs, releases, tags, local segments, and versions together with the two infinities; epochs are ordered by value, tags by phase and then value.", "quantifier": "all pairs and triples of versions (any epoch, release of any length, any tags, any local segment)", "why_tests_cant": "the version space is infinite and the comparison mixes ints, strings, tuples and two infinity singletons; tests only sample pairs", "anchors": ["versions/version.py:Version.compare_key", "versions/types.py:Infinity,NegativeInfinity", "versions/segments/release.py:Release.compare_parts", "versions/segments/local.py:Local.compare_parts"]}
{"id": "C02", "title": "Equality is exactly 'same version up to trailing zeros'", "statement": "`a == b` holds iff epochs are equal, the releases agree at every position when missing parts read as 0 (for releases with no negative parts), and the pre, post, dev tags and local segments are equal.", "quantifier": "all pairs of versions", "why_tests_cant": "release length is unbounded", "anchors": ["versions/segments/release.py:Release.default_compare_parts", "versions/version.py:Version.default_compare_key"]}
{"id": "C03", "title": "Development, pre, final and post stages are ordered", "statement": "Within one epoch and release: dev release < any alpha < any beta < any rc < the final release < the final release with a local segment < any post release; a dev of a pre (post) release is below that pre (post) release and above everything before it.", "quantifier": "all epochs, releases, tag values and local segments", "why_tests_cant": "tag values and locals are unbounded", "anchors": ["versions/version.py:Version.compute_compare_tags", "versions/segments/tags.py:Tag"]}
{"id": "C04", "title": "Local segment order", "statement": "A version with a local segment is above the same version without one; numeric local parts are above alphanumeric ones and compare numerically; a proper prefix of a local segment is below it.", "quantifier": "all versions and local segments", "why_tests_cant": "local segments have unbounded length and contents", "anchors": ["versions/segments/local.py:Local.default_compare_parts", "versions/version.py:Version.compute_compare_local"]}
{"id": "C05", "title": "Equal values hash equal", "statement": "If two versions (or version ranges/points, or tags) are equal, their hashes are equal, so they can be used as dict keys or set members. (Specifiers violate this: `=` and `==` operators are equal but hash differently.)", "quantifier": "all pairs of equal values, any string hash function", "why_tests_cant": "quantifies over all pairs and over hash seeds", "anchors": ["versions/version.py:Version (attrs hash)", "versions/version_sets.py:VersionRange.__hash__", "versions/operators.py:OperatorType.__hash__"]}
{"id": "C06", "title": "Reading and writing release parts", "statement": "After `set_at(i, x)` with i >= 0 the part at i is x, every other part reads as before (missing as 0), the precision is max(old, i+1), and all other segments are untouched; `get_at` beyond the end returns the default; `set_at_unchecked`/`get_at_unchecked` out of bounds raise IndexError.", "quantifier": "all releases, indices and values", "why_tests_cant": "unbounded lengths and indices", "anchors": ["versions/segments/release.py:Release.set_at,get_at,pad_to"]}
{"id": "C07", "title": "Bumping a release part", "statement": "`release.next_at(i)` with i >= 0 is, when no part is negative, strictly greater than the release and than every release sharing its parts up to i; parts before i are kept, part i is incremented, later parts are 0, precision is max(old, i+1).", "quantifier": "all releases and indices (strictly greater: no negative parts)", "why_tests_cant": "unbounded lengths and indices", "anchors": ["versions/segments/release.py:Release.next_at"]}
{"id": "C08", "title": "to_semantic gives a three-part version that is not smaller", "statement": "`to_semantic()` always has exactly three parts, is never smaller than the original, equals it when it had at most three parts, is strictly greater otherwise, and keeps epoch, tags and local.", "quantifier": "all versions with no negative release parts", "why_tests_cant": "unbounded lengths", "anchors": ["versions/segments/release.py:Release.to_semantic", "versions/version.py:Version.to_semantic"]}
{"id": "C09", "title": "Padding does not change a version", "statement": "`pad_to`, `pad_to_index`, `pad_to_next` with zero padding give a version equal to the original, with at least the requested precision.", "quantifier": "all versions and lengths", "why_tests_cant": "unbounded lengths", "anchors": ["versions/segments/release.py:Release.pad_to"]}
{"id": "C10", "title": "Bumping a version gives a stable, greater version", "statement": "`next_major/minor/micro/patch/at` always give a version with no tags and no local, and it is strictly greater than the original, except exactly when the original is a dev release of a post release (post and dev set, no pre), where the result is smaller.", "quantifier": "all versions with no negative release parts, all indices", "why_tests_cant": "unbounded; exception found by proof", "anchors": ["versions/version.py:Version.next_at"]}
{"id": "C11", "title": "Bumping tags", "statement": "`next_post` is always strictly greater; `next_pre`, `next_pre_phase` and `next_dev` are strictly greater when that tag is present; `next_pre_phase` goes alpha -> beta -> rc -> None; when the pre (dev) tag is absent, a new alpha.0 (dev.0) is added.", "quantifier": "all versions", "why_tests_cant": "unbounded", "anchors": ["versions/version.py:Version.next_pre,next_pre_phase,next_post,next_dev"]}
{"id": "C12", "title": "to_stable", "statement": "`to_stable()` is stable, idempotent, returns stable versions unchanged, and otherwise drops tags and local; the result is never smaller than the original unless it is a dev release of a post release.", "quantifier": "all versions", "why_tests_cant": "unbounded", "anchors": ["versions/version.py:Version.to_stable"]}
{"id": "C13", "title": "Caret ranges follow the leftmost-non-zero rule", "statement": "For a stable `against`, a version that does not lead to a final one (not a pre-release, not a dev release of a final release) matches `^against` iff it is >= against and has the same epoch and the same parts up to and including the leftmost non-zero one among major/minor/micro (or the last given one of these when they are all zero). Pre- and dev releases of the next breaking release match too. For an unstable `against` with major 0 only versions of the same release that lead to the final one match (`^0.1rc1` does not accept `0.1`).", "quantifier": "all versions with non-negative parts", "why_tests_cant": "unbounded lengths and values", "anchors": ["versions/version.py:Version.next_breaking", "versions/operators.py:matches_caret"]}
{"id": "C14", "title": "Normalization", "statement": "`normalize()` is idempotent, keeps everything but tag phases, never fails, and yields only the phases alpha, beta, rc, post, dev; versions already using those phases are unchanged. It does not preserve order in general (candidate and preview compare below rc).", "quantifier": "all versions", "why_tests_cant": "unbounded", "anchors": ["versions/version.py:Version.normalize", "versions/phases.py:PHASE_TO_NORMAL"]}
{"id": "C15", "title": "Specifier matching and set translation agree", "statement": "For each of the thirteen operators, if an operator translates into a version set then that set contains exactly the versions the operator matches.", "quantifier": "all operators, versions and against versions", "why_tests_cant": "unbounded", "anchors": ["versions/operators.py:matches_*,translate_*"]}
{"id": "C16", "title": "When translation fails", "statement": "Translating an operator that passed its constructor fails only for caret, tilde and wildcard operators on a dev release of a post release (with the exact conditions), and then no version matches the operator at all (for !=*, every version does).", "quantifier": "all operators and versions", "why_tests_cant": "unbounded; exception found by proof", "anchors": ["versions/operators.py:translate_caret,translate_tilde,translate_wildcard_equal"]}
{"id": "C17", "title": "~= is prefix matching", "statement": "For any `against` with n >= 2 parts, a version that does not lead to a final one matches `~= against` iff it is >= against, has the same epoch and the same first n-1 parts; pre- and dev releases of the next such release match too. With one part the operator raises ValueError on construction.", "quantifier": "all versions with non-negative parts", "why_tests_cant": "unbounded", "anchors": ["versions/operators.py:matches_tilde_equal,Operator.validate"]}
{"id": "C18", "title": "~ and wildcard operators are prefix matching", "statement": "For a stable `against`, a version that does not lead to a final one matches `~ against` iff it is >= against and has the same epoch, major and (if given) minor; it matches `== p.*` iff its epoch and leading parts are p; `*` matches everything; `!= p.*` matches exactly the rest. For an unstable `against`, `~` and wildcards accept only versions of the same release that lead to the final one (`~1.0rc1` does not accept `1.0`).", "quantifier": "all versions with non-negative parts", "why_tests_cant": "unbounded", "anchors": ["versions/operators.py:matches_tilde,matches_wildcard_equal"]}
{"id": "C19", "title": "Sets only ever come in normal form", "statement": "Every version set produced by translation and by union, intersection, difference, complement and symmetric difference of such sets is in normal form: items non-empty, sorted, pairwise disjoint and not adjacent, at least two in a union, none universal.", "quantifier": "all sets reachable through the API", "why_tests_cant": "unbounded histories of operations", "anchors": ["versions/version_sets.py:VersionUnion.merge,VersionRange.intersection"]}
{"id": "C20", "title": "Intersection is exact", "statement": "`a.intersection(b)` never fails and contains exactly the versions in both.", "quantifier": "all normal-form sets and versions", "why_tests_cant": "unbounded numbers of items", "anchors": ["versions/version_sets.py:VersionRange.intersection,VersionUnion.intersection"]}
{"id": "C21", "title": "Union is exact", "statement": "Whenever `a.union(b)` returns, it contains exactly the versions in either.", "quantifier": "all normal-form sets and versions", "why_tests_cant": "unbounded numbers of items", "anchors": ["versions/version_sets.py:VersionUnion.merge"]}
{"id": "C22", "title": "Union termination", "statement": "`a.union(b)` returns unless a single version p in a or b is the excluded lower end of a range in a or b, and no range in a or b reaches p from below (holds p or ends at p). In that case it recurses without bound (RecursionError), e.g. `== 1 || > 1`, unless a is a single range and b a single version.", "quantifier": "all normal-form sets", "why_tests_cant": "non-termination can not be observed by a finite run of tests; all inputs", "anchors": ["versions/version_sets.py:VersionPoint.union,VersionUnion.merge"]}
{"id": "C23", "title": "Difference is exact", "statement": "`a.difference(b)` contains exactly the versions of a not in b. The code violates this in two cases: range minus a union one of whose items covers the range (returns the range), and union minus the empty set (returns the empty set); it is exact in all others.", "quantifier": "all normal-form sets and versions", "why_tests_cant": "unbounded numbers of items; exceptions found by proof", "anchors": ["versions/version_sets.py:VersionRange.difference_iterator,ItemsDifference"]}
{"id": "C24", "title": "Complement is exact and involutive", "statement": "`a.complement()` never fails, contains exactly the versions not in a, and `a.complement().complement() == a`.", "quantifier": "all normal-form sets", "why_tests_cant": "unbounded numbers of items", "anchors": ["versions/version_sets.py:complement"]}
{"id": "C25", "title": "Symmetric difference", "statement": "`a.symmetric_difference(b)` (a not a union, the union of a and b returns) contains the versions in exactly one of a and b. The code violates this when a and b have no version in common and their union is not a single range: then it returns the empty set. It is exact otherwise. A union on the left has no such method (AttributeError).", "quantifier": "all normal-form sets and versions", "why_tests_cant": "unbounded; exception found by proof", "anchors": ["versions/version_sets.py:VersionSetProtocol.symmetric_difference"]}
{"id": "C26", "title": "includes means subset", "statement": "If `a.includes(b)` then every version of b is in a; and conversely, `a.includes(b)` is true whenever every version of b is in a (over versions whose local parts are well-formed).", "quantifier": "all normal-form sets; versions with valid tags and non-empty release, and local parts that are numbers or strings with characters from `0` on, not all zeros", "why_tests_cant": "unbounded numbers of items; converse needs witnesses from a dense order", "anchors": ["versions/version_sets.py:includes"]}
{"id": "C27", "title": "intersects means overlap", "statement": "`a.intersects(b)` is true iff `a.intersection(b)` is not empty, iff some version is in both.", "quantifier": "all normal-form sets", "why_tests_cant": "unbounded numbers of items", "anchors": ["versions/version_sets.py:intersects"]}
{"id": "C28", "title": "Set equality is extensional", "statement": "Two normal-form sets are `==` iff they contain the same versions.", "quantifier": "all normal-form sets", "why_tests_cant": "unbounded", "anchors": ["versions/version_sets.py:VersionRange.__eq__,VersionUnion.__eq__"]}
{"id": "C29", "title": "Boolean algebra laws", "statement": "Up to `==`: intersection and union are commutative, associative, idempotent, absorbing and distributive; De Morgan's laws hold (whenever the unions return).", "quantifier": "all normal-form sets", "why_tests_cant": "unbounded", "anchors": ["versions/version_sets.py"]}
{"id": "C30", "title": "Range order", "statement": "`compare` on ranges and points is a total order that agrees with `==`: lexicographic by lower end, then upper end.", "quantifier": "all ranges and points", "why_tests_cant": "unbounded", "anchors": ["versions/version_sets.py:VersionRange.compare"]}
{"id": "C31", "title": "VersionUnion.of does not depend on argument order", "statement": "If `VersionUnion.of` returns for two permutations of the same sets, the results are equal, and it contains exactly the versions of its arguments.", "quantifier": "all lists of normal-form sets, all permutations", "why_tests_cant": "factorially many orders", "anchors": ["versions/version_sets.py:VersionUnion.of,merge"]}
{"id": "C32", "title": "A specifier accepts what its set contains", "statement": "Whenever `specifier_to_version_set(s)` returns (no cache involved), `s.accepts(v) == set.contains(v)` for all v.", "quantifier": "all specifiers of any nesting and size, all versions", "why_tests_cant": "unbounded trees", "anchors": ["versions/converters.py:specifier_to_version_set", "versions/specifiers.py"]}
{"id": "C33", "title": "Set to specifier and back is the identity", "statement": "For every normal-form set x, `version_set_to_specifier(x)` succeeds, accepts exactly the versions in x, and converting it back gives a set equal to x.", "quantifier": "all normal-form sets", "why_tests_cant": "unbounded", "anchors": ["versions/converters.py:version_set_to_specifier"]}
{"id": "C34", "title": "simplify preserves meaning and is idempotent", "statement": "Whenever `simplify(s)` returns, it accepts exactly the versions s accepts, and simplifying again gives an equal specifier.", "quantifier": "all specifiers, all versions", "why_tests_cant": "unbounded trees", "anchors": ["versions/converters.py:simplify"]}
{"id": "C35", "title": "any/all specifiers", "statement": "`SpecifierAny.of`/`SpecifierAll.of` of any specifiers accept a version iff any/all of the given specifiers do (none: nothing/everything).", "quantifier": "all tuples of specifiers", "why_tests_cant": "unbounded", "anchors": ["versions/specifiers.py:SpecifierAny,SpecifierAll"]}
{"id": "C36", "title": "Conversion does not depend on call history", "statement": "`specifier_to_version_set` (cached by specifier equality) should return the same set no matter which conversions ran before. The code violates this: `~= 1.0` and `~= 1.0.0` are equal specifiers with different sets. It holds for histories in which equal specifiers have equal sets, e.g. when only ==, !=, <, <=, >, >= are used.", "quantifier": "all call histories", "why_tests_cant": "quantifies over all histories of the process-wide cache", "anchors": ["versions/converters.py:specifier_to_version_set", "versions/utils.py:cache"]}
{"id": "C37", "title": "version_set_to_specifier does not depend on call history", "statement": "For every history of calls, the cached `version_set_to_specifier` returns a specifier accepting the same versions as the uncached one.", "quantifier": "all call histories", "why_tests_cant": "histories", "anchors": ["versions/converters.py:version_set_to_specifier"]}
{"id": "C38", "title": "Short string round trip", "statement": "For every version with non-negative numbers and well-formed local parts, parsing `to_short_string()` gives back the same version, with the same parts.", "quantifier": "all such versions", "why_tests_cant": "unbounded", "anchors": ["versions/version.py:Version.to_short_string", "versions/patterns.py:VERSION", "versions/parsers.py:VersionParser"]}
{"id": "C39", "title": "String round trip", "statement": "For every version with non-negative numbers and well-formed local parts whose pre tag is not `candidate`, parsing `to_string()` gives back the same version. For `candidate` it always fails with ParseVersionError.", "quantifier": "all such versions", "why_tests_cant": "unbounded", "anchors": ["versions/version.py:Version.to_string", "versions/patterns.py:VERSION", "versions/constants.py:PRE_PHASES"]}
{"id": "C40", "title": "Everything parsed is canonical", "statement": "If `parse_version(s)` returns v then v has non-negative numbers, allowed phases, well-formed local parts, and `parse_version(v.to_short_string()) == v` with the same parts.", "quantifier": "all strings", "why_tests_cant": "unbounded strings", "anchors": ["versions/parsers.py:VersionParser.parse"]}
{"id": "C41", "title": "Alternative spellings", "statement": "A leading v, different or omitted separators, short phases, omitted zero tag values and implicit post releases parse to the same version as the canonical spelling.", "quantifier": "all versions and all spellings of them", "why_tests_cant": "unbounded", "anchors": ["versions/patterns.py:PUBLIC_VERSION_PATTERN"]}
{"id": "C42", "title": "Failure of parse_version", "statement": "`parse_version` fails only with a ValueError; with ParseVersionError iff the string does not match the version grammar; upper-case phases match the grammar but are rejected with a plain ValueError.", "quantifier": "all strings", "why_tests_cant": "unbounded strings", "anchors": ["versions/parsers.py:VersionParser.parse,TagParser.parse"]}
{"id": "C43", "title": "Whitespace and pipes do not matter", "statement": "`parse_specifier(s)` depends only on the non-whitespace characters of s, and `|` and `||` are interchangeable.", "quantifier": "all strings", "why_tests_cant": "unbounded strings", "anchors": ["versions/parsers.py:SpecifierParser.parse", "versions/string.py:clear_whitespace,split_pipes"]}
{"id": "C44", "title": "Operator string round trip", "statement": "Parsing the (short) string of a single specifier with a public canonical version gives an equal specifier (for wildcard operators: when the wildcarded number is 0).", "quantifier": "all operators and such versions", "why_tests_cant": "unbounded", "anchors": ["versions/operators.py:Operator.to_string", "versions/parsers.py:SpecifierParser"]}
{"id": "C45", "title": "Version set string round trip", "statement": "Parsing the (short) string of a non-empty normal-form set with canonical public end points gives an equal set. The empty set prints as `0`, which parses as the version 0.", "quantifier": "all such sets", "why_tests_cant": "unbounded", "anchors": ["versions/version_sets.py:to_string", "versions/functions.py:parse_version_set"]}
{"id": "C46", "title": "Strings of any/all specifiers do not parse", "statement": "`parse_specifier` fails with ParseSpecificationError on the string of every SpecifierAny and SpecifierAll.", "quantifier": "all such specifiers", "why_tests_cant": "unbounded", "anchors": ["versions/specifiers.py:SpecifierAny.to_string", "versions/parsers.py"]}
{"id": "C47", "title": "Parsing is a pure function of the string", "statement": "The cached `parse_version`/`parse_specifier` return the same result as the uncached parse for every history of calls, while `parse_version_set` depends on the history through C36.", "quantifier": "all call histories", "why_tests_cant": "histories", "anchors": ["versions/functions.py"]}
{"id": "C48", "title": "Set operations invent no versions", "statement": "Every end of a range or point in the result of union, intersection, difference, complement and symmetric difference is an end of a range or point in an operand.", "quantifier": "all sets, normal form or not", "why_tests_cant": "unbounded numbers of items and merge steps", "anchors": ["versions/version_sets.py:VersionUnion.merge,ItemsDifference"]}
{"id": "C49", "title": "Set operations respect equality", "statement": "Equal operands (`==`) give equal results of union, intersection and complement and the same answers of includes and intersects, so results do not depend on how a set was built.", "quantifier": "all normal-form sets", "why_tests_cant": "unbounded; equal sets have many representations (1 and 1.0.0)", "anchors": ["versions/version_sets.py"]}
{"id": "C50", "title": "Grammar and meaning of specifier strings", "statement": "A string is read as a specifier iff, without its whitespace, it is lists of operators separated by `|`/`||` with the operators separated by commas, each operator a sign (or none) and a spelling of its version, or a wildcard form; the result is any of the lists, each all of its operators; `x` and `*` mean the same.", "quantifier": "all strings", "why_tests_cant": "infinite language, nested separators, optional whitespace, regular expression with many alternatives", "anchors": ["versions/parsers.py:SpecifierParser", "versions/constants.py"]}
{"id": "C51", "title": "Failures of parse_specifier", "statement": "parse_specifier fails only with ParseSpecificationError, ParseVersionError or ValueError; each happens exactly for the described strings (no specifier form / wildcard `X` / phase not in lower case or `~=` on a single release number); strings of several parts fail with the error of the first failing part.", "quantifier": "all strings", "why_tests_cant": "all strings outside an infinite language", "anchors": ["versions/parsers.py:SpecifierParser", "versions/operators.py:Operator"]}
{"id": "C52", "title": "Parsed specifiers are valid and compositional", "statement": "Every specifier returned by parse_specifier is one the constructors accept; it accepts a version iff one of its parts between pipes does, and such a part accepts iff all its parts between commas do; accepting never fails.", "quantifier": "all strings, all versions", "why_tests_cant": "infinite language and unbounded versions", "anchors": ["versions/parsers.py:SpecifierParser", "versions/specifiers.py"]}
{"id": "C53", "title": "parse_version_set agrees with parse_specifier", "statement": "Whenever parse_version_set returns, the set contains exactly the versions the parsed specifier accepts; it fails whenever parse_specifier fails, with the same error; a single specifier converts unless its caret/tilde/tilde-equal/wildcard translation has its upper end below its lower one.", "quantifier": "all strings, all versions", "why_tests_cant": "infinite language, unbounded versions", "anchors": ["versions/parsers.py:VersionSetParser", "versions/functions.py"]}
{"id": "C54", "title": "The operator syntax of version sets", "statement": "`in`, `&`, `|`, `-`, `^` and the in-place forms mean what the methods mean if the left operand is not a union; violated: with a union on the left they are TypeErrors, so `a | b | c` fails once `a | b` is a union, and `~a` is a TypeError for every set.", "quantifier": "all sets", "why_tests_cant": "unbounded sets; Python's operator dispatch on four classes", "anchors": ["versions/version_sets.py:VersionSetProtocol", "versions/version_sets.py:VersionUnion"]}
{"id": "C55", "title": "What the predicates of sets say", "statement": "is_empty, is_point, is_universal hold iff no, exactly one, every version is in the set, for everything the constructors accept; `version` is the single version of a point and a ValueError otherwise; exclude_version is the one version a union lacks, or None.", "quantifier": "all items the constructor accepts, all normal-form sets", "why_tests_cant": "quantifies over all versions", "anchors": ["versions/version_sets.py:VersionRange.is_empty,is_point,version", "versions/version_sets.py:VersionUnion.exclude_version"]}
{"id": "C56", "title": "Ranges as the constructor accepts them", "statement": "For all ranges the constructor accepts, including empty ones such as (1, 1) and single-version ranges [1, 1], intersection is exact and never fails, includes is never wrongly true, intersects never wrongly false; violated: union, difference, includes, intersects and == on empty ranges.", "quantifier": "all ranges the constructor accepts", "why_tests_cant": "unbounded versions and degenerate ends", "anchors": ["versions/version_sets.py:VersionRange"]}
{"id": "C57", "title": "Inclusion is a lattice order", "statement": "`includes` is a partial order up to ==, with the empty set least and the universal set greatest; intersection is the greatest lower and union the least upper bound; both are monotone and complement reverses the order; a includes b iff a&b == b iff a|b == a iff b-a is empty (where exact).", "quantifier": "all normal-form sets", "why_tests_cant": "unbounded sets", "anchors": ["versions/version_sets.py"]}
{"id": "C58", "title": "Results have few items", "statement": "The results of operations on sets with m and n items have at most m+n-1 (intersection), m+n (union, difference) and n+1 (complement) items, and VersionUnion.of at most the sum; the bounds are reached for every m and n.", "quantifier": "all sets, normal form or not", "why_tests_cant": "unbounded numbers of items", "anchors": ["versions/version_sets.py:VersionUnion,ItemsDifference"]}
{"id": "C59", "title": "to_pep440_string and the canonical strings of PEP 440", "statement": "For every canonical version to_pep440_string returns a string that parses to the normalized version; it matches the canonical pattern of PEP 440 (appendix B, local labels in normal form) exactly if the local segment has no upper-case letters, and every canonical string arises this way; canonical strings are fixed by parse, normalize and print; parse-and-print is idempotent; two versions have the same PEP 440 string iff they normalize to the same version. Upper-case local letters are left as they are although PEP 440 lower-cases them (a theorem exhibits the violation).", "quantifier": "all canonical versions, all strings", "why_tests_cant": "unbounded numbers, releases and local segments", "anchors": ["versions/version.py:to_pep440_string,normalize", "versions/segments/tags.py"]}
{"id": "C60", "title": "The order of versions, field by field", "statement": "a < b holds exactly if the first difference among epoch, zero-padded release, pre, post, dev and local segments decides so, with dev-only releases before pre-releases before finals before posts, a dev of anything before that thing, no local before any local, strings before numbers in local segments; the phases come in the order alpha, beta, candidate, preview, rc and post, rev. (C80 compares this with the order of PEP 440, where some of these phases are the same.)", "quantifier": "all valid versions without negative release parts", "why_tests_cant": "unbounded versions", "anchors": ["versions/version.py:compare_epoch,compare_release,compare_pre,compare_post,compare_dev,compare_local"]}
{"id": "C61", "title": "python_version_info", "statement": "For every sys.version_info that Python can have, python_version_info exists, its short string is the one Python documents (X.Y.Z with aN, bN, rcN), and versions are ordered and equal exactly as the tuples; other release levels raise ValueError.", "quantifier": "all sys.version_info tuples with non-negative numbers", "why_tests_cant": "unbounded numbers", "anchors": ["versions/meta.py"]}
{"id": "C62", "title": "What the command prints, and get_version", "statement": "With --raw the command prints a string that parses to the version of the library or of Python, otherwise the name and a space before it; get_version returns what parse_version returns for the __version__ string whatever was parsed before.", "quantifier": "all flags, all sys.version_info, all call histories", "why_tests_cant": "unbounded histories", "anchors": ["versions/main.py", "versions/versioned.py", "versions/functions.py:parse_version"]}
{"id": "C63", "title": "Strings of segments", "statement": "Epoch.parse and Release.parse invert the strings of all epochs and releases, also negative ones, and Epoch.parse fails only with ValueError; Tag.parse inverts long and short strings of tags with non-negative numbers, and reads short strings of tags with negative numbers as the opposite number; Local.parse never fails on strings whose only digits are ASCII digits (C102 has the others), and inverts the string of a local segment exactly if its numbers are not negative and its other parts contain no separator and are not spelled like numbers.", "quantifier": "all segments, all strings, with the ASCII digits as the only digits", "why_tests_cant": "unbounded strings", "anchors": ["versions/segments/epoch.py:parse", "versions/segments/release.py:parse", "versions/segments/tags.py:parse", "versions/segments/local.py:parse"]}
{"id": "C64", "title": "Negative indices and slices", "statement": "In a release of n parts the index i - n means the index i for reading, writing and bumping, except that bumping the last part through the index -1 is a ValueError for every release; has_at is true for every negative index, and reading, writing and bumping before the first part is an IndexError, even reading with a default; slice(i) keeps the first i parts and all the other segments, fails exactly for i = 0, and never makes a version with non-negative parts greater.", "quantifier": "all versions, all indices", "why_tests_cant": "unbounded releases and indices", "anchors": ["versions/segments/release.py:has_at", "versions/segments/release.py:get_at", "versions/segments/release.py:set_at", "versions/segments/release.py:next_at", "versions/version.py:slice"]}
{"id": "C65", "title": "Removing segments and weaken", "statement": "Removing the local segment or the post tag makes a version smaller, removing the dev tag makes it greater, removing the pre tag makes it greater except for dev releases of pre-releases, and nothing else changes; v.weaken(other) is other without the local segment and post tag that v lacks, is never greater than other, is idempotent, and does not keep the order of versions.", "quantifier": "all versions", "why_tests_cant": "unbounded versions", "anchors": ["versions/version.py:weaken", "versions/version.py:without_pre", "versions/version.py:without_post", "versions/version.py:without_dev", "versions/version.py:without_local"]}
{"id": "C66", "title": "The order of the versions that strings denote", "statement": "Among the versions that strings can denote 0.dev0 is the least, there is no greatest, and between any two different ones there is another.", "quantifier": "all strings", "why_tests_cant": "unbounded strings", "anchors": ["versions/version.py:compare_key", "versions/parsers.py:VersionParser"]}
{"id": "C67", "title": "Sets told apart by the versions that strings denote", "statement": "Every set that a string denotes is in normal form with ends that strings can denote; such sets include each other, are equal or intersect exactly as their versions that strings can denote say, together with whether they have a lower end; >= 0.dev0 holds all versions that strings can denote without being the universal set and < 0.dev0 holds none of them without being empty.", "quantifier": "all specifier strings, all version strings", "why_tests_cant": "infinitely many versions", "anchors": ["versions/version_sets.py:includes", "versions/version_sets.py:intersects", "versions/parsers.py:VersionSetParser"]}
{"id": "C68", "title": "== and != against PEP 440", "statement": "The operators ==, = and != decide as version matching and version exclusion of PEP 440, except exactly on candidates with a local segment that equal, but for it, a version without one: these the library tells apart.", "quantifier": "all versions with non-negative parts", "why_tests_cant": "unbounded versions", "anchors": ["versions/operators.py:matches_equal", "versions/operators.py:matches_not_equal"]}
{"id": "C69", "title": ">= and <= against PEP 440", "statement": "The operator >= on a version without local segment decides as PEP 440; <= decides as PEP 440 except exactly on candidates with a local segment that equal the version but for it, which the library rejects.", "quantifier": "all versions with non-negative parts", "why_tests_cant": "unbounded versions", "anchors": ["versions/operators.py:matches_greater_or_equal", "versions/operators.py:matches_less_or_equal"]}
{"id": "C70", "title": "< and > against PEP 440", "statement": "The operators < and > accept whatever the exclusive ordered comparisons of PEP 440 allow; on a final version, < accepts besides exactly what leads to that version, and > accepts besides exactly the post-releases and local versions of it; on a pre-release < decides as PEP 440.", "quantifier": "all versions with non-negative parts", "why_tests_cant": "unbounded versions", "anchors": ["versions/operators.py:matches_less", "versions/operators.py:matches_greater"]}
{"id": "C71", "title": "~= and wildcards against PEP 440", "statement": "The operator ~= accepts what the compatible release clause of PEP 440 allows and besides exactly what leads to the first release after the window; == p.* and != p.* decide as prefix matching and exclusion except exactly on what leads to p itself and on what leads to the first release after the window.", "quantifier": "all versions with non-negative parts", "why_tests_cant": "unbounded versions", "anchors": ["versions/operators.py:matches_tilde_equal", "versions/operators.py:matches_wildcard_equal", "versions/operators.py:matches_wildcard_not_equal"]}
{"id": "C72", "title": "Final candidates against PEP 440", "statement": "On candidates that are final releases every operator that has a clause in PEP 440, on a version without local segment, decides as that clause.", "quantifier": "all clauses, all versions with non-negative parts", "why_tests_cant": "unbounded versions", "anchors": ["versions/operators.py:OPERATOR"]}
{"id": "C73", "title": "Compatibility is transitive", "statement": "If b is accepted by ^a and c by ^b, then c is accepted by ^a, when a and b are stable and b has at least as many release parts as a; the same for ~ and for ~= (where b only has to be neither a pre- nor a dev-release of a final version). With fewer parts in the middle version this fails for all three, even if b == a.", "quantifier": "all versions a, b with non-negative parts, all versions c", "why_tests_cant": "unbounded versions", "anchors": ["versions/operators.py:matches_caret", "versions/operators.py:matches_tilde", "versions/operators.py:matches_tilde_equal"]}
{"id": "C74", "title": "Bumps are least and monotone", "statement": "From a stable version v on, next_major/next_minor/next_micro/next_at give the least final version not sharing the bumped prefix: exactly the versions sharing it, and those that lead to the result, come before it. On stable versions bumping preserves the order.", "quantifier": "all stable versions with non-negative parts, all indices", "why_tests_cant": "unbounded versions and indices", "anchors": ["versions/version.py:Version.next_at"]}
{"id": "C75", "title": "Joining requirement strings joins their sets", "statement": "If s and t are specifier strings then s|t and s||t are, accepting what one of them accepts, and, without pipes in them, s,t accepting what both accept. parse_version_set(s,t) returns whenever both parts do (on strings without pipes: exactly when no operator is one of those without a set) and equals the intersection; parse_version_set(s|t) equals the union when these return; the order of the parts does not matter. parse_version_set(s).includes(parse_version_set(t)) says that every version a string can denote that t accepts is accepted by s, up to missing lower ends.", "quantifier": "all strings", "why_tests_cant": "unbounded strings", "anchors": ["versions/parsers.py:SpecificationParser", "versions/functions.py:parse_version_set"]}
{"id": "C76", "title": "The predicates of ranges say what they are called", "statement": "For a valid range: is_left_closed iff it has a least version, is_right_closed iff it has a greatest one (open: the contrary); left/right bounded iff some version is below/above all of its versions (unbounded: the contrary); a.is_strictly_lower(b) (b.is_strictly_higher(a)) iff every version of a comes before every version of b; a.is_lower(b) iff some version of a comes before all versions of b, is_higher mirrored; is_left_adjacent iff a is wholly before b and no version is between.", "quantifier": "all pairs of valid ranges", "why_tests_cant": "ranges hold infinitely many versions", "anchors": ["versions/version_sets.py:VersionRange"]}
{"id": "C77", "title": "Named parts", "statement": "major, minor, micro, patch read parts 0, 1, 2, 2, missing ones as 0; extra is the rest; has_* tell which exist; set_* write that part and nothing else, filling with zeros; writing twice keeps the last, writing different parts commutes, writing a greater number makes the version greater.", "quantifier": "all versions, all indices, all numbers", "why_tests_cant": "unbounded releases", "anchors": ["versions/version.py:Version.set_major"]}
{"id": "C78", "title": "How bumps relate to each other", "statement": "For a stable version a bump further to the right comes strictly before one further to the left, and bumping right and then left equals bumping left only; next_breaking is at most next_major. For an unstable version all bumps coincide, and next_breaking is greater than next_major unless the major number is 0, when they are the same.", "quantifier": "all valid versions with non-negative numbers, all pairs of indices", "why_tests_cant": "unbounded releases", "anchors": ["versions/version.py:Version.next_at"]}
{"id": "C79", "title": "When parse_version_set returns", "statement": "For specifier strings s and t, t without a pipe, parse_version_set of s|t or s||t is the union of parse_version_set(s) and parse_version_set(t), with the same failures; for a clause t and s without pipes, that of s,t is the intersection. So parse_version_set(s|t) returns iff both parts do and no point of either meets a range of either that starts right after it (except range | point); it fails with RecursionError otherwise. It returns for every specifier string none of whose operators lacks a set, if no version stands both behind an ==, = or <= and behind a > or != of the string; so if none of them is ==, = or <=, or none of them is > or !=. For two requirements that have sets, s|t fails exactly if s is == or = and t is > on an equal version.", "quantifier": "all strings, all recursion limits of at least 2", "why_tests_cant": "number and order of groups unbounded", "anchors": ["versions/functions.py:parse_version_set", "versions/specifiers.py:SpecifierAny.to_version_set", "versions/version_sets.py:VersionUnion.of"]}
{"id": "C80", "title": "The order of PEP 440 proper", "statement": "In PEP 440 the phases c, pre and preview are spellings of rc, rev and r are spellings of post, and local labels are compared without case. On versions whose local segments are in lower case, a < b is the order of PEP 440 unless a and b spell the same phase differently; after normalize, < is that order and == its equality without this restriction. Violations: without normalize, cN comes before every preview and rcM and postN before every revM whatever the numbers; local labels that differ in case are different versions, in an order that PEP 440 does not have, even after normalize.", "quantifier": "all pairs of valid versions without negative release parts", "why_tests_cant": "unbounded versions", "anchors": ["versions/version.py:normalize,compare_pre,compare_post,compare_local", "versions/segments/tags.py:normalize", "versions/phases.py"]}
{"id": "C81", "title": "The normal form of PEP 440, by rewriting the text", "statement": "For every string in the grammar of versions with phases in lower case, parsing and to_pep440_string give the text that the normalization rules of PEP 440 give when applied to the string itself (strip leading zeros, drop the leading v and a zero epoch, a/b/rc/.post/.dev, omitted numbers are 0, explicit post releases, dots in local segments), except that local labels keep their case; it is the normal form exactly if phases and labels have no upper-case letters. Two strings denote the same version after normalize exactly if their normal texts agree.", "quantifier": "all version strings", "why_tests_cant": "unbounded strings", "anchors": ["versions/version.py:to_pep440_string", "versions/patterns.py", "versions/parsers.py"]}
{"id": "C82", "title": "Operator types, their predicates and constructors", "statement": "The operator built by the k-th of the thirteen constructors holds the given version and satisfies the k-th of the thirteen predicates and no other; only ~= can fail, with ValueError, exactly for versions with a single release part. is_unary holds exactly for ^ and ~, is_wildcard exactly for the three wildcard types. Two operator types are equal exactly if they match the same versions against all versions, which is the case exactly for = and ==, with or without wildcard. Type and value determine each other, and string is the value without the wildcard.", "quantifier": "all operator types, all valid versions", "why_tests_cant": "unbounded versions in matching", "anchors": ["versions/operators.py:OperatorType,Operator"]}
{"id": "C83", "title": "Strings and representations determine versions and segments", "statement": "Canonical versions with equal strings, or equal representations, are identical, including those with the candidate phase whose strings do not parse. The same holds for the representations of epochs, releases, tags (with their class) and readable local segments. Releases and local segments are determined by their parts through every constructor, which fail with ValueError exactly for no parts; Tag.create accepts exactly the long and short phases of its class and is a ValueError otherwise.", "quantifier": "all canonical versions; all segments", "why_tests_cant": "unbounded numbers and parts", "anchors": ["versions/representation.py", "versions/version.py:to_string", "versions/segments/release.py:from_parts,set_parts", "versions/segments/local.py:from_parts,set_parts", "versions/segments/tags.py:create"]}
{"id": "C84", "title": "Matching takes time linear in the length of the string", "statement": "For each pattern in patterns.py that the parsers use (tag, version, wildcard, order, equal, caret and tilde specification) there is a constant B such that the backtracking engine rejects or accepts every string of n characters in at most B * (n + 1) steps; likewise for all five specification patterns on all the clauses of a specification string together. The engine that stops at the first success finds the match that the rest of the model uses. (For comparison, (?:a|a)* needs at least 2^n steps on some strings.)", "quantifier": "all strings", "why_tests_cant": "catastrophic backtracking shows only on adversarial strings", "anchors": ["versions/patterns.py:TAG,VERSION,WILDCARD_SPECIFICATION,ORDER_SPECIFICATION,EQUAL_SPECIFICATION,CARET_SPECIFICATION,TILDE_SPECIFICATION", "versions/parsers.py:parse,parse_single"]}
{"id": "C85", "title": "Matching respects equality and conversion", "statement": "For all versions v and w that compare equal, v.matches(x) and w.matches(x) return the same for every set and every constructible specifier. v.matches(s) = v.matches(x) whenever specifier s converts to the set x, and likewise from sets in normal form to specifiers. Each specifier passes exactly one of the five guards, each set exactly one of empty, range and union; is_specification holds of exactly these; matches raises AttributeError on everything else, and each converter raises TypeError on the other kinds.", "quantifier": "all versions, all specifiers, all sets, all values", "why_tests_cant": "infinitely many pairs of equal versions and of specifications with the same meaning", "anchors": ["versions/version.py:matches", "versions/specification.py:is_specification", "versions/specifiers.py:is_specifier", "versions/version_sets.py:is_version_set", "versions/converters.py:specifier_to_version_set,version_set_to_specifier"]}
{"id": "C86", "title": "The shape and size of simplified specifiers", "statement": "For every constructible specifier s that simplifies: simplify(s) is never, always, != v, or one or several pieces, each of which is == v, a lower bound, an upper bound, or a lower bound and an upper bound; it has at most twice as many operators as s, and at most twice as many as any other specifier with the same set. The factor cannot be improved: for every n some specifier with n operators is simplified to one with 2n.", "quantifier": "all specifiers, all pairs of specifiers with equal sets", "why_tests_cant": "sizes compound through arbitrarily deep nesting", "anchors": ["versions/converters.py:simplify,specifier_to_version_set,version_set_to_specifier", "versions/converters_utils.py:try_exclude_version,try_range_simple,try_range_unwrap", "versions/specifiers.py:SpecifierAny.of_iterable,SpecifierAll.of"]}
{"id": "C87", "title": "ItemsDifference in any order of calls", "statement": "For every ItemsDifference and every sequence of calls of prepare, step, loop and compute: the object is prepared exactly from the first prepare or compute on; before that step and loop raise ValueError, after that prepare and compute do, and the object is unchanged. loop calls step at most once more than there are items left to fetch. On the items of two normal sets, the second not empty, compute returns normal items in order with gaps that hold exactly the difference, whatever raising calls came before, and preparing by hand, stepping and looping gives the same. A step after False appends the last item again.", "quantifier": "all items, all call sequences", "why_tests_cant": "unboundedly many interleavings", "anchors": ["versions/version_sets.py:ItemsDifference"]}
{"id": "C88", "title": "Which exceptions the constructors and conversions raise", "statement": "The constructor of VersionRange raises ValueError exactly if an absent bound is included or the bounds are out of order; that of VersionUnion raises ValueError and those of SpecifierAny and SpecifierAll raise TypeError exactly on fewer than two members, while their class methods never raise. Converting a valid specifier to a version set returns only if each operator inside translates, and fails only with ValueError, in which case some operator inside is one that does not translate, or with RecursionError; without alternatives inside it fails only with ValueError and exactly in that case. parse_version_set fails only with the three errors of parse_specifier and RecursionError, and with the last only if the string contains '|'.", "quantifier": "all bounds and inclusion flags, all lists of items and specifiers, all valid specifiers of any nesting without negative release parts, all strings, all recursion limits with room for two nested calls", "why_tests_cant": "The exception depends on which of arbitrarily many nested operators and joins fails first; tests check a handful of failing calls and no test can show that no other exception escapes.", "anchors": ["versions/version_sets.py:399-407", "versions/version_sets.py:1009-1038", "versions/specifiers.py:93-98", "versions/converters.py:58-84", "versions/parsers.py:265-270"]}
{"id": "C89", "title": "Comparing objects of any two classes", "statement": "Between any two objects of the package (segments, versions, operators and their types, specifiers, version sets, the infinities), == as dispatched by Python is reflexive, symmetric and transitive, != is its negation, and objects of different classes are never equal, except that a point may equal a range. <, <=, > and >= return exactly if both operands are of one ordered class, or the left one is an infinity, or the right one is and the left one is not a range; otherwise they raise AttributeError exactly if one operand is a range and the other is not, and TypeError in all other cases. Where < returns, the other three return and agree with < and ==, a comparison agrees with its reflection, and < is transitive. The infinities bound everything, negation swaps them and reverses their order, is_any_infinity holds of exactly these two.", "quantifier": "all pairs and triples of objects of the package, all four ordering operators", "why_tests_cant": "The result depends on which of two methods Python calls, for every pair of classes and every value; tests compare a few values of the same class.", "anchors": ["versions/types.py:29-123", "versions/version_sets.py:531-550", "versions/operators.py:758-766", "versions/segments/tags.py:40-205", "versions/version.py:39-61"]}
{"id": "C90", "title": "Normal forms are the shortest", "statement": "No list of ranges and points that stands for the same versions is shorter than a set in normal form, and a list of the same length has the same ranges and points up to order; so union, intersection and complement return sets with the fewest items that stand for the versions they should.", "quantifier": "all normal-form sets with well-formed ends, all lists of ranges and points", "why_tests_cant": "The claim is about every other way to write the same set of versions; a test can only try some of them.", "anchors": ["versions/version_sets.py:1022-1098", "versions/version_sets.py:1204-1337"]}
{"id": "C91", "title": "What hashes tell apart", "statement": "All versions have the same hash, and so have all releases and all local segments, while epochs and tags are told apart. With hash functions of the built-in types that have no collisions, two sets have the same hash exactly if they have as many items with the same kinds of ends, and two specifiers exactly if they differ at most in the versions of their operators. So putting n different versions into a set or dictionary calls == exactly n(n-1)/2 times, and likewise for specifiers with one operator of one type, the keys of the conversion cache. Whatever the hash functions, a set of versions or of version sets holds some of the keys in their order, no two equal and one equal to every key; == is called at most once for every two keys with one hash, so never for version sets or specifiers of different shapes.", "quantifier": "all versions, segments, sets and specifiers; all hash functions; all lists of different versions", "why_tests_cant": "Tests compare a few hashes for equality; that all versions collide shows as slowness only, and no test bounds the number of comparisons", "anchors": ["versions/version.py:39-61", "versions/segments/release.py:28-35", "versions/segments/local.py:23-32", "versions/version_sets.py:531-532", "versions/operators.py:768-769", "versions/specifiers.py:51-155", "versions/utils.py:17"]}
{"id": "C92", "title": "Tags: strings, phases and the base class", "statement": "A tag of a class is parsed from exactly the strings word, word n, word sep n where word is a phase of the class or its short form in lower case; a string of another form is a ParseTagError and one with another word a ValueError. No string parses as tags of two classes. The base class Tag parses, creates and fails exactly as one of its three subclasses does, and its methods next, normalize, next_phase and set_value agree with those of the class that the phase belongs to; normalize and next_phase never leave the class.", "quantifier": "all strings, all tags, all values", "why_tests_cant": "The repository tests no tag strings apart from those inside versions", "anchors": ["versions/segments/tags.py:36-178", "versions/parsers.py:75-95", "versions/phases.py:107-109", "versions/patterns.py:137-138"]}
{"id": "C93", "title": "Which version sets are read back, and when strings of sets are equal", "statement": "Let a set be non-empty, in normal form, with canonical end points. (1) Its short string parses as an equal set exactly when the set is `!= v` for some version or no end of a range has a local segment; otherwise parsing raises ParseSpecificationError. (2) Its string parses as an equal set exactly when the same holds and no version in it has the phase `candidate`; otherwise parsing raises ParseSpecificationError. (3) Whether they are read or not, two such sets with the same short string are equal; the same for strings without the phase `candidate`. (4) The only other set with the short string of the empty set is the version 0. (5) A range with equal ends, which the constructor accepts, is empty and prints as `0` unless it has both ends, and then prints as its lower end.", "quantifier": "all such sets", "why_tests_cant": "sets have any number of items with any versions as ends", "anchors": ["versions/version_sets.py:to_string", "versions/version_sets.py:to_short_string", "versions/functions.py:parse_version_set", "versions/parsers.py:SpecifierParser"]}
{"id": "C94", "title": "The loops of the set operations", "statement": "Let the sets be in normal form and have m and n items. (1) `contains` takes at most m rounds of loops; `includes` and `intersects` at most m + n - 1. (2) `intersection` takes at most 3 (m + n - 1) rounds, `difference` and, when it returns, `union` at most 7 (m + n), `complement` at most 7 (m + 1). (3) Converting a valid specifier with k parts to a set takes, when it succeeds, at most 14 k^2 rounds. (4) For the specifier `== v1 || ... || == vn` with increasing versions it takes exactly n (n + 1) - 2 rounds, although `VersionUnion.of` makes the same set in at most 2 n.", "quantifier": "all sets in normal form, all valid specifiers, all sequences of versions", "why_tests_cant": "running times on some inputs say nothing about the growth of the number of rounds", "anchors": ["versions/version_sets.py:merge", "versions/version_sets.py:includes", "versions/version_sets.py:intersects", "versions/version_sets.py:intersection", "versions/version_sets.py:difference", "versions/version_sets.py:union", "versions/converters.py:specifier_to_version_set"]}
{"id": "C95", "title": "What equal versions have in common", "statement": "Let a and b be versions with a == b (such as 1.0 and 1.0.0). (1) They have the same epoch, tags and local segment, the same parts at all indices from 0 on, and the same answers to is_stable, is_pre_release and so on. (2) Changing both in the same way (next_at and its kin, set_at, padding, next_pre, next_post, next_dev, normalize, next_epoch, to_stable, setting tags or local segment, weaken) gives equal versions or the same exception. (3) to_semantic gives equal versions exactly if both or neither have more than three parts; next_breaking exactly if they are unstable, or do not start with two zeros, or agree in having one, two or more parts. (4) Operators of the same type on a and b accept the same versions exactly if the number of parts given matters in the same way: it never matters for ==, =, !=, <, <=, >, >=; it matters for ~= always, for ~ only up to 2 and if stable, for ^ only as for next_breaking, for the wildcard operators if stable. (5) Given operators accepted by the constructor and one spelling of wildcard operators, converting specifiers made of them to sets is independent of what was converted before exactly if equal operators among them agree in this way.", "quantifier": "all versions and operators, all histories of conversions", "why_tests_cant": "equal versions with different numbers of parts are rarely paired in tests, and a bad result of the cache depends on the order in which operators are used", "anchors": ["versions/version.py:to_semantic", "versions/version.py:next_breaking", "versions/version.py:next_at", "versions/version.py:weaken", "versions/operators.py:next_tilde_equal_breaking", "versions/operators.py:next_tilde_breaking", "versions/operators.py:next_wildcard_breaking", "versions/operators.py:matches_caret", "versions/converters.py:specifier_to_version_set"]}
{"id": "C96", "title": "Programs see the same results with the caches as without, if equal operators are read alike", "statement": "Run a program of any length that parses versions, specifiers and sets, builds specifiers, converts in both directions, simplifies, combines sets and asks `accepts`, `in` and `==`, each statement on results of earlier ones, in one process in which `parse_version`, `parse_specifier`, `parse_version_set`, `specifier_to_version_set` and `version_set_to_specifier` all keep their caches. If of any two equal operators made in the program the same parts matter (C95), then every statement gives what it gives when no function has a cache: the same exception, the same version or truth value, or an equal specifier or set with the same versions. If two strings denote operators of the same type that are equal but not read alike, then reading the sets of both gives a wrong second set. Even under the condition the spelling of a version can change: after `==1`, the set of `==1.0` is that of `==1`.", "quantifier": "for all programs, string hashes, hash functions, recursion limits of at least two", "why_tests_cant": "The caches are filled by one call and read by any later one, so a wrong result shows only for certain orders of calls in one process; the tests call each function once on its own.", "anchors": ["versions/functions.py:28-67", "versions/converters.py:41-124", "versions/utils.py:17", "versions/specifiers.py:115-177"]}
{"id": "C97", "title": "Threads that share the caches", "statement": "Let programs run in threads of one process that share the five caches and take turns in any way between single lookups and stores (a function that is not found in its cache runs without a lock, so several threads may run it at once, and a later result replaces an earlier one). If of any two equal operators that the programs make the same parts matter, then whenever a thread is through, each of its statements gave what it gives without caches and without the other threads: the same exception, the same version or truth value, or an equal specifier or set that accepts or contains the same versions. A thread that gets turns again and again gets through whatever the other threads do. A thread without others gives exactly the results of the program in a process of its own. Which spelling of equal sets a thread gets may depend on the turns.", "quantifier": "for all lists of programs, all schedules (lists of thread numbers, for termination all endless fair ones), all hash functions, all recursion limits of at least 2", "why_tests_cant": "Interleavings of threads cannot be enumerated, and a test that runs threads sees few of them; whether a stale or racing entry can give a wrong answer depends on all earlier calls of all threads.", "anchors": ["versions/utils.py:17", "versions/functions.py:28-67", "versions/converters.py:41-124"]}
{"id": "C98", "title": "Results of programs in threads mean what they say", "statement": "Several programs run in threads of one process that share the five caches. Whenever a thread is through, it has one result per statement, in order, and each result is what the statement's name says of the results before it: a parsed version or specifier is the one parsed, a set read from a string contains what the specifier of that string accepts, `anyOf` and `allOf` accept what some or every listed specifier accepts, conversions and `simplify` keep the accepted versions, intersections, unions, complements and (outside the known cases) differences and symmetric differences contain what they should, `==` of sets is true exactly if they contain the same versions. What a statement raises has a known reason: intersections, complements, conversions of sets, `accepts`, `in` and comparisons fail only for arguments that are not there, unions otherwise only by RecursionError where a point and a range clash, conversions of specifiers only by ValueError for a broken operator or by RecursionError.", "quantifier": "for all lists of programs whose equal operators agree in the parts that matter, all schedules, all threads that are through and all their statements", "why_tests_cant": "A test runs one interleaving and compares a few results; the meaning must hold for every program, every schedule and every version.", "anchors": ["versions/functions.py:28-67", "versions/converters.py:41-124", "versions/version_sets.py:133-170", "versions/specifiers.py:55-180"]}
{"id": "C99", "title": "Versions of more than one class", "statement": "`parse_version`, `parse_specifier`, `parse_version_set` and `get_version` take a subclass of `Version`. With versions of one class everything is as without subclasses, and results keep the class. Versions of two classes are never equal and every order comparison of them raises TypeError. A specifier answers or raises the same for every version foreign to it: `==` refuses it, `!=` accepts it, `*` accepts it, every other operator raises TypeError. A set contains a foreign version if it is universal, raises TypeError if it has a range with an end, and otherwise does not contain it. So an operator and its set agree on foreign versions, failures included, for every operator but `!=`, which accepts them while its set raises. Items of two classes other than the universal set have no union (TypeError), and no intersection unless both are points. Specifiers and sets of two classes are equal only if they hold no versions, so results cached for one class are not returned for the other.", "quantifier": "for all versions, valid operators, specifiers, items and sets in normal form and all pairs of classes", "why_tests_cant": "The repository's tests use no subclass of Version; which comparisons are reached, and so which calls raise, depends on the shape of both operands.", "anchors": ["versions/functions.py:24-67", "versions/version.py:39", "versions/versioned.py:56-71", "versions/operators.py:250-466", "versions/version_sets.py:474-754", "versions/version_sets.py:957-990"]}
{"id": "C100", "title": "The limit on the number of digits", "statement": "CPython converts between `int` and `str` only up to a number of digits (4300 unless changed). Under any limit, parsing a version string gives the same as without a limit if no number in the string has more digits (leading zeros count), and raises ValueError if it would be read but some number is longer; specifier strings and the strings of version sets likewise, clause by clause. `to_string` and `to_short_string` of a version, a specifier or a set in normal form give the same as without a limit if every number has at most so many digits, and raise ValueError otherwise. A version that was parsed under a limit prints under it and reads back. The next version of a parsed one prints iff the bumped number is not the largest of the limit: the version of as many nines as the limit allows parses and prints, but neither its next major version nor the version set of `^` before it can be printed.", "quantifier": "for all limits, strings, versions, specifiers and version sets in normal form", "why_tests_cant": "The repository's tests contain no number with more than a few digits; the limit is a setting of the interpreter and the numerals of a string depend on how the patterns divide it.", "anchors": ["versions/parsers.py:75-152", "versions/parsers.py:158-277", "versions/segments/release.py:413-423", "versions/segments/local.py:19-20", "versions/version.py:122-202", "versions/operators.py:954-975", "versions/version_sets.py:858-922", "versions/version_sets.py:1178-1198"]}
{"id": "C101", "title": "Specifier parsers over any version parser", "statement": "`SpecifierParser` and `VersionSetParser` take the version parser as a field. Whatever that parser does, a string is read as a specifier iff it is built of operators, commas and pipes by the grammar, each version being what the parser gives for its string. A string without commas and pipes that does not have the form of an operator raises ParseSpecificationError and the version parser is not called; otherwise there is one call, on a version string (or one with the wildcard `X` at the end, which the default parser refuses) that does not depend on the parser, and an exception of the parser is the exception of the whole. Two parsers that agree on such strings give the same specifiers and version sets. A parser that changes the versions of another one gives the same specifier with the versions changed, and the same exceptions, as long as it does not change which versions have one release number only.", "quantifier": "for all version parsers (functions from strings to versions or exceptions) and all strings", "why_tests_cant": "Tests only use the default version parser; the claim ranges over functions.", "anchors": ["versions/parsers.py:158-277", "versions/functions.py:24-67"]}
{"id": "C102", "title": "Strings with the digits of Unicode", "statement": "`int` reads every character with a decimal value and `str.isdigit` knows still more characters; which ones depends on the version of Unicode. Whatever the table of digits is (as long as it is right on ASCII, whitespace and four letters, and digits include the characters with decimal values), versions, tags, specifiers and version sets are parsed the same. `Epoch.from_string` reads exactly blanks, a sign, groups of decimal characters with single underscores between them, blanks, and raises ValueError otherwise; `Release.from_string` exactly such numbers with dots between them. `Local.from_string` raises ValueError iff some part between separators consists of digits of which one has no decimal value, and otherwise reads the parts of decimal characters as numbers and the others as strings; what it read prints as a string that it reads as the same segment. On ASCII strings the table does not matter.", "quantifier": "for all tables of digits and all strings", "why_tests_cant": "The characters that count as digits depend on the interpreter; there are unboundedly many strings and tables.", "anchors": ["versions/segments/epoch.py:34-44", "versions/segments/release.py:413-423", "versions/segments/local.py:19-20", "versions/segments/local.py:103-113", "versions/string.py:89", "versions/parsers.py:75-152"]}
{"id": "C103", "title": "Strings of specifiers and representations of version sets determine them", "statement": "Two specifiers that the constructors accept, nested in any way, over canonical versions (wildcards on versions without a local segment), have the same string, the same short string or the same representation iff they are the same up to the last number of the versions that wildcards hide; without wildcards they are identical, with operators, segments of versions, order and parentheses, although strings with parentheses are never read by the parser and strings with candidate tags or local segments often are not. Representations of version sets in normal form with canonical ends never fail and determine the set, the empty set (whose string is that of the version 0) included, up to == where a set leaves out exactly one version and identically otherwise.", "quantifier": "all specifiers that the constructors accept, of any nesting; all version sets in normal form", "why_tests_cant": "unbounded nesting and numbers; a collision needs two particular values at once", "anchors": ["versions/representation.py", "versions/specifiers.py:to_string,to_short_string", "versions/operators.py:to_string,to_short_string,wildcard_string", "versions/version_sets.py:to_string"]}
{"id": "C104", "title": "Operands that are not version sets", "statement": "With an operand that is an object of the package but not a version set: all methods of ranges raise TypeError and all methods of single versions raise AttributeError; the empty set gives itself or the operand unchecked, except that `includes` raises AttributeError; a union treats the operand as the empty set, so `union.includes(version)` is True for every version, and only `symmetric_difference` raises; `VersionUnion.of` skips such arguments. The operators `&`, `|`, `-`, `^` and `in` accordingly. `contains` with an object that is not a version: False for the empty set, single versions and for infinities; ranges raise TypeError (AttributeError for version set items), except that the range without ends contains every object that is neither an infinity nor an item. With version sets and versions as operands, this is the same as in the other properties.", "quantifier": "all version sets in normal form, all objects of the package", "why_tests_cant": "infinitely many operands of many classes; the tests use version sets only", "anchors": ["versions/version_sets.py:VersionEmpty,VersionRange,VersionPoint,VersionUnion.extract,VersionUnion.merge,VersionRange.contains", "versions/version_sets.py:VersionSetProtocol.__and__,__or__,__sub__,__xor__,__contains__", "versions/types.py:Infinity,NegativeInfinity"]}
{"id": "C105", "title": "The compiled patterns", "statement": "Each text that patterns.py passes to re.compile (tag, public version, version, wildcard version, and the five kinds of specifications), put together from the f-strings, constants and helpers of the module and read by the syntax of `re` with IGNORECASE and VERBOSE, is a valid pattern; its fullmatch finds on every string what the pattern tree of the model finds, with the same groups and captured texts, and the anchors of the tag pattern make no difference. The helpers do what they are for: alternatives of escaped strings without letters match exactly those strings, and an escaped string without letters in brackets matches exactly its characters.", "quantifier": "all strings; all lists of strings without letters", "why_tests_cant": "infinitely many strings; wrong escaping, grouping or precedence shows only on particular ones", "anchors": ["versions/patterns.py:ESCAPE,COMBINE,UNION,OPTIONAL,SET,SEPARATOR,CREATE_GROUP", "versions/patterns.py:TAG_PATTERN,PUBLIC_VERSION_PATTERN,LOCAL_PATTERN,VERSION_PATTERN,WILDCARD_VERSION_PATTERN", "versions/patterns.py:WILDCARD_SPECIFICATION_PATTERN,ORDER_SPECIFICATION_PATTERN,CARET_SPECIFICATION_PATTERN,TILDE_SPECIFICATION_PATTERN,EQUAL_SPECIFICATION_PATTERN", "versions/string.py:create_wrap_around,concat_empty,concat_pipe"]}
{"id": "C106", "title": "Sets of versions of more than one class", "statement": "Let versions carry their class, where versions of different classes are unequal and ordering them raises TypeError. On sets of one class every operation (includes, intersects, intersection, union, difference, symmetric difference, complement), every translation of an operator, the conversion of specifiers and parse_version_set return the set of the one-class model in that class. The empty and the universal set belong to every class, and no other set in normal form does. For two sets in normal form of different classes, neither empty nor universal: the union raises TypeError; so does the symmetric difference, except that it is AttributeError on a VersionUnion; the intersection and the difference raise TypeError, unless the left set is a point and the right set has no ranges, when they are the empty set and the left set; includes answers False or raises TypeError, and which of them is determined by the ranges of the left set and the first item of the right set; intersects answers True exactly if the first items are unbounded on the same side, False exactly if a point meets a set without ranges, and raises TypeError otherwise.", "quantifier": "for all classes, all version sets, all specifiers and strings, all recursion limits and all implementations of list.sort that return sorted permutations and raise only what comparisons raise", "why_tests_cant": "Which comparisons are made, and so whether an operation raises, depends on the shapes of both sets and on the order in which list.sort compares items; the tests use one class and one sort.", "anchors": ["versions/version_sets.py:145-370", "versions/version_sets.py:578-860", "versions/version_sets.py:940-1000", "versions/version_sets.py:1005-1326", "versions/operators.py:469-661", "versions/converters.py:58-84", "versions/functions.py:52-67", "versions/parsers.py:98-146"]}
{"id": "C107", "title": "The caches keep versions of different classes apart", "statement": "`specifier_to_version_set` and `version_set_to_specifier` keep one dictionary each for all subclasses of `Version`. Converting a specifier (or set) of one class after converting any specifiers (sets) of any classes gives exactly the result that the one-class caches give after the conversions for that class alone; so C36 and C37 hold in each class for itself. This is so for any hashes of the keys of other classes, and also if the other specifiers mix classes and their conversions raise half-way. `version_set_to_specifier` and `simplify` on one class give the one-class results in that class. `parse_version` and `parse_specifier` with any `version_type` give what the parser gives in that class, whatever was parsed before.", "quantifier": "all histories of specifiers, sets and strings with any classes, all specifiers, sets and strings, all hash functions, all implementations of list.sort", "why_tests_cant": "A test would have to fill the caches with keys of several classes in many orders, with colliding hashes; the invariant is about the whole dictionary and every history.", "anchors": ["versions/converters.py:57-124", "versions/converters_utils.py:31-83", "versions/functions.py:24-53", "versions/utils.py:17"]}
{"id": "C108", "title": "Questions about requirement strings are decided by set operations", "statement": "Let `d` be the set of `>=0.dev0`. For requirement strings r and q with sets x and y: some version is accepted by r iff `x.intersects(d)`; every version is accepted iff `x.includes(d)`; every version accepted by r is accepted by q iff `y.includes(x & d)`; some version is accepted by both iff `y.intersects(x & d)`; r and q accept the same versions iff `x & d == y & d`, and iff the specifiers made of these sets are `==`; exactly one version (up to `==`) is accepted iff `x & d` is a point. The versions meant are those that strings denote, and `x & d` is always defined.", "quantifier": "all requirement strings for which parse_version_set returns, all versions that strings denote, all recursion limits", "why_tests_cant": "The questions are about infinitely many versions; that the answers are exact needs the density of the versions that strings denote, also next to the ends of the ranges.", "anchors": ["versions/version_sets.py:350-361", "versions/version_sets.py:630-700", "versions/version_sets.py:963-975", "versions/version_sets.py:1111-1175", "versions/functions.py:56-67", "versions/converters.py:57-124"]}
{"id": "C109", "title": "What the caches have once given, they give again", "statement": "If converting a specifier (set) returns x, then after any further calls converting any `==` specifier (set) with the same hash returns the same x, and leaves the cache as it is; this needs no condition on the specifiers. If converting a specifier (with operators other than `=` and `=*`) raises an exception, it raises the same exception after any further calls, though exceptions are not cached and the parts may by then be found in the cache. The cache of `parse_version_set` cannot be noticed: each call gives exactly what parsing and `specifier_to_version_set` with its cache give. `parse_version_set` with any `version_type`, after any calls with any classes, gives what the one-class functions give after the calls for that class alone; passing `Version` and leaving `version_type` out give the same.", "quantifier": "all histories of calls before and after, all specifiers, sets, strings and classes, all hash functions, all recursion limits, all implementations of list.sort", "why_tests_cant": "The caches live for the whole process; a test sees single histories, while the claim is about what any later calls can do to an entry.", "anchors": ["versions/converters.py:57-124", "versions/functions.py:24-67", "versions/parsers.py:265-270", "versions/utils.py:17"]}
{"id": "C110", "title": "Threads and what the caches gave", "statement": "What C109 says about one thread fails with several. Let two strings be read as `==` operators with the same hash whose sets are x and y. A thread that reads the first string and converts the result twice may get x and then y for the same specifier object, if another thread that missed the cache before x was stored stores y after it; for `~=1.0` and `~=1.0.0` the two sets contain different versions. But if at a moment when all threads are between statements a cache of the converters has x for a key, then whatever the threads do later, a conversion of an equal key with the same hash gives x and leaves the caches as they are.", "quantifier": "for all pairs of strings read as equal operators, all programs, all schedules before and after, all keys, all hash functions, all recursion limits", "why_tests_cant": "Whether an entry is replaced depends on how lookups and stores of several threads interleave; a test sees few schedules.", "anchors": ["versions/utils.py:17", "versions/converters.py:57-124", "versions/functions.py:28-67"]}
{"id": "C111", "title": "Operators on the same version", "statement": "For a stable version with non-negative parts: `~a` accepts no more than `^a` unless a is 0.0 with a third part; `^a` no more than `~a` iff a has one part or major 0; `~=a` and `~a` accept the same iff a has three parts, `~` is narrower with two and `~=` with more; `~=a` is within `^a` iff a has four parts or more or a non-zero part before the last; `^a` is within `~=a` iff a has at most four parts and only zeros before the last but one; wildcard equality accepts what `~=` accepts on a version without tags (two parts or more). For an unstable version `~` and wildcard equality accept the same, `~=` strictly more, `^` the same as `~` iff major is 0. `==`/`!=`, `<`/`>=`, `<=`/`>` and the wildcard pair exclude each other: every version is accepted by exactly one, and their sets are each other's complements. `==`, `>`, `~=`, `^`, `~` and wildcard equality except `*` are within `>=`.", "quantifier": "all versions a with non-negative parts and all versions v; all operator types", "why_tests_cant": "The claims are equivalences over all versions of any number of parts; a test samples versions, and the exceptions (0.0.x, one part, pre-releases) are exactly where samples are missing.", "anchors": ["versions/operators.py:82-232", "versions/operators.py:250-466", "versions/operators.py:469-661", "versions/version.py:next_breaking"]}
{"id": "C112", "title": "Versions made by programs", "statement": "The versions that a program can make, by parsing, from_parts, create, and any sequence of calls of the 45 methods that return versions, with arguments that are not negative, tags and segments that constructors return, and local parts of numbers or ASCII letters and digits (indices and lengths arbitrary), are exactly those that some string denotes. Each is read back from its short string, its normalized form also from its long string, and no two have the same string. With a negative number set_at, set_epoch_value and set_pre return versions that no string denotes. A call raises an exception only in these cases: ValueError if it is given no parts, for slice(i) with i = 0 or i <= -precision, and for next_at(-1) of a stable version; IndexError for set_at and next_at before the first part and set_at_unchecked outside of the parts.", "quantifier": "all programs: every finite sequence of parse, constructor and method calls with plain arguments; all versions", "why_tests_cant": "Programs are sequences of any length over 45 methods with arguments from infinite sets; tests can only call single methods on samples.", "anchors": ["versions/version.py:296-953", "versions/segments/release.py", "versions/segments/tags.py", "versions/parsers.py"]}
{"id": "C113", "title": "Unions built by hand", "statement": "Let the sets be unions built with `VersionUnion(items)`, whose items are non-empty ranges and single versions in any order and however they overlap, or normal sets. `contains` is exact. Whatever `VersionUnion.of` or `union` returns has exactly the versions of the arguments, and is in normal form unless it is one of the two sets. If `includes` returns True the inclusion holds; if `intersects` returns True some version is in both. `intersects` of a single range or version, and `includes` of a range, are exact. Whatever `intersection` returns has only versions of both; whatever `difference` returns (the second set having an item) has only versions of the first and all those that are not in the second; `complement` has all the versions that are not in the set. The other halves fail for every two versions x < y in the union [y, x]: it contains both and neither includes [x, y] nor intersects x nor equals what `VersionUnion.of` makes of it, its intersection with x is empty, its difference with x and its complement contain x.", "quantifier": "All sets whose items are each in normal form, all versions and recursion limits; the violation for all x < y.", "why_tests_cant": "Tests build unions with `VersionUnion.of` or from specifiers, so the loops, which rely on the order of the items, never see items out of order.", "anchors": ["versions/version_sets.py:1019-1047", "versions/version_sets.py:1048-1092", "versions/version_sets.py:1111-1176", "versions/version_sets.py:833-853", "versions/version_sets.py:1203-1326"]}
{"id": "C114", "title": "Ranges with equal bounds", "statement": "`VersionRange` accepts exactly the bounds with min <= max (unbounded ends not included), so it accepts [v, v], which holds v, and [v, v), (v, v] and (v, v), which hold nothing. For any two items that the constructors accept: `intersection` never fails and is exact; `difference` and `complement` are exact whenever they return; the `union` of two ranges never fails and is exact, and any other union is exact whenever it returns, except that of a range that holds nothing and a version equal to its bounds. `is_empty` is True exactly for the ranges that hold nothing. `includes` returns True only if the inclusion holds, and whenever it holds if the receiver is a range and the argument holds something. `intersects` returns False only if there is no common version, and whenever there is none if both items hold something. Strings and specifiers are made of a range as of the set in normal form with the same versions. The exceptions are violations for all versions: [v, v) and (v, v) lose v in the union with v; v united with (v, v] or (v, v) raises RecursionError, and so does a range starting with v minus (v, v]; a range that holds nothing intersects every range around it; v equals [v, v], but does not include it, while [v, v] includes itself.", "quantifier": "All items that the constructors accept, all versions and recursion limits.", "why_tests_cant": "Tests use ranges with different bounds, and `[v, v]` and the three empty ranges go through branches of every operation that were written for other cases.", "anchors": ["versions/version_sets.py:399-407", "versions/version_sets.py:540-592", "versions/version_sets.py:610-661", "versions/version_sets.py:667-754", "versions/version_sets.py:763-853", "versions/version_sets.py:948-990", "versions/converters.py:94-117", "versions/version_sets.py:855-920"]}
{"id": "C115", "title": "What the messages of exceptions show", "statement": "Every exception of the parsers and constructors has a message, and the message identifies the culprit. `parse_version` shows the whole string if it is not in the grammar, and otherwise the first phase (pre, post, dev) not written in lower case, as written, with the class of its tag. `parse_specifier` raises what the first failing part raises (in the order of writing, across commas and pipes), and shows a piece of the string without whitespace, commas and pipes: the whole part if it has no form of a specifier, the version after the sign if the wildcard is `X`, the phase if it is not in lower case, or that `~=` needs two release numbers. Two failures with the same message are of the same exception class, and one with ParseSpecificationError shows a part that occurs in both strings. A tag constructor shows the long form of the phase, not what was given. `VersionRange` complains about infinity if an absent bound is included, and about the order of the bounds otherwise; `version`, `VersionUnion`, `SpecifierAny`, `SpecifierAll` and the operators raise their messages exactly on non-points, on 0 or 1 items, and on `~=` with one release number. No other exceptions occur, in particular not the InternalErrors.", "quantifier": "All strings, versions, items, phases and lists.", "why_tests_cant": "Tests check that a ParseVersionError is raised, not which of several faults in a string is reported, nor the text.", "anchors": ["versions/parsers.py:39-66", "versions/parsers.py:75-95", "versions/parsers.py:98-150", "versions/parsers.py:153-262", "versions/segments/tags.py:39-60", "versions/operators.py:809-820", "versions/specifiers.py:89-113", "versions/version_sets.py:380-407", "versions/version_sets.py:594-608", "versions/version_sets.py:1005-1014"]}
{"id": "C116", "title": "Choosing from lists of versions", "statement": "`max` and `min` of a list of versions give a greatest and a least version, the first one of several equal ones, and the same version up to `==` in whatever order the list is. `sorted` gives the only list with the same versions, in ascending order, with equal versions in the order given; for two orders of a list the results are equal in each place. In a sorted list, the versions of a range are consecutive. The latest version in a set, `max(v for v in versions if v in s)`, is absent exactly if the set has no version of the list; it is a greatest version of the list in the set, up to `==` independent of the order of the list and of which of equal versions it has; it does not decrease when the set grows; in a union it is the greater one of the latest versions in the parts; and if a second set contains it, it is the latest version in the intersection. The specifier and the set of a string choose the same versions from every list, without exceptions. `set(versions)` keeps one of each group of equal versions, and its size depends neither on the order nor on the hashes of the process.", "quantifier": "All lists of versions, sets in normal form, strings and hash functions.", "why_tests_cant": "Tests sort a few lists; that the loop of max and every stable sort agree on all lists needs the order to be total and compatible with equality and hashing.", "anchors": ["versions/version.py:38-82", "versions/version_sets.py:610-626", "versions/version_sets.py:957-961", "versions/version_sets.py:1106-1109", "versions/specifiers.py:86-186"]}
{"id": "C117", "title": "Which requirements on a version its bumps satisfy", "statement": "Let w be `v.next_at(j)` with j >= 0. If v has no pre and dev tags, w satisfies `^v` exactly if j is to the right of the leftmost non-zero part (the caret index), `~v` exactly if j is at least 2 (at least 1 if v has one part), `~=v` and, if v has no tags, `==v.*` exactly if j is the last index or beyond, `!=v.*` exactly otherwise, and always `>`, `>=` and `!=` and never `<`, `<=` and `==`. `next_post` satisfies `^`, `~`, `~=`, `>` and `>=`; `next_pre` and `next_dev` satisfy none of these, for they come before v. n bumps at the same index add n to that part and clear the rest; repeated major bumps pass every version of the same or a smaller epoch, and repeated bumps at an index never reach a bump further to the left. If v has a pre or dev tag, w is the final version: it satisfies `~=v` unless v is a dev release of a post release, `^v` if in addition the major part is not zero, and never `~v`.", "quantifier": "All versions with non-negative parts, all indices from 0 on, all numbers of repetitions.", "why_tests_cant": "The tests of operators and of bumps are separate; none takes the bump of the version in the requirement, least of all for unstable versions.", "anchors": ["versions/version.py:396-477", "versions/version.py:604-673", "versions/operators.py:176-247", "versions/operators.py:250-305", "versions/operators.py:422-466"]}
{"id": "C118", "title": "Wildcards are nested or disjoint, and the other windows are cut out of them", "statement": "Two requirements `==p.*` and `==q.*` with as many parts either are the same or have no version in common, and `==p.q.*` allows nothing that `==p.*` does not. For every n > 0, a version satisfies `==p.*` for exactly one p of n parts (of its epoch), unless it leads to a final version (a pre-release, or a dev release of a final one) whose parts from the n-th on are zero; then it satisfies none. `~=v` is `>=v, ==p.*` where p is v without the last part, as PEP 440 says, `^v` is `>=v, ==p.*` where p are the parts up to the leftmost non-zero one, and `~v` is `>=v, ==p.*` where p are the first two parts or the only one; for `~=` unless v leads to a final version, for `^` and `~` if v has no pre and dev tags.", "quantifier": "All versions with non-negative parts, all lists of non-negative parts.", "why_tests_cant": "A partition of all versions is a statement about all pairs of prefixes and all versions; the tests match a few versions against a few wildcards.", "anchors": ["versions/operators.py:82-247", "versions/operators.py:250-305", "versions/operators.py:422-445"]}
{"id": "C119", "title": "Nested specifiers and the limit on nested calls", "statement": "accepts, to_string, to_short_string, hash and specifier_to_version_set on specifiers call themselves on the specifiers inside. When n nested calls fit below the interpreter's recursion limit: to_string, to_short_string and hash return what they return without a limit iff the specifier is nested no deeper than n, and raise RecursionError otherwise; accepts and specifier_to_version_set return the same as without a limit if it is nested no deeper than n, and accepts otherwise returns that or raises RecursionError. Specifiers that parse_specifier, simplify or version_set_to_specifier return are nested at most 3 deep, whatever the length of the string or the number of items. Violation: a program that adds requirements one at a time with SpecifierAll.of(specifier, t) or SpecifierAny.of(specifier, t) gets a specifier of which no method returns unless more nested calls fit than requirements were added, although it accepts the same versions as the flat specifier made from all of them at once; with the new requirement in front, whether accepts returns depends on the version.", "quantifier": "All specifiers, versions, strings, lists of added requirements, and limits", "why_tests_cant": "The depth at which the interpreter gives up is far above what tests nest, and depends on the frames already in use; no test shows that parsing never nests deeper than a constant", "anchors": ["versions/specifiers.py:55-56", "versions/specifiers.py:69-70", "versions/specifiers.py:85-86", "versions/specifiers.py:115-144", "versions/specifiers.py:161-190", "versions/converters.py:58-84"]}
{"id": "C120", "title": "Which requirements conflict", "statement": "Consider requirements with ^, ~, ~=, ==, =, >=, wildcards other than *, < and <=, at least one of them not < or <=. Some version satisfies all of them iff one of the versions named in them (by an operator other than < and <=) does, and that version is then the least one that satisfies them all. specifier_to_version_set on all of them together gives the empty set iff none of these versions satisfies all of them. Two requirements without < and <= can be satisfied together iff the version of one of them satisfies both. If every two requirements of such a list can be satisfied together, all of them can. Violation: with > or != it is not enough to try the versions that are named, and three requirements may conflict although no two of them do.", "quantifier": "All lists of valid operators of these kinds, and all versions", "why_tests_cant": "The claims are about every version and every list; tests try a few combinations of requirements against a few versions", "anchors": ["versions/operators.py:82-247", "versions/operators.py:250-466", "versions/operators.py:469-661", "versions/converters.py:58-84", "versions/specifiers.py:147-180"]}
{"id": "C121", "title": "Version sets may be kept as strings between operations, unless one is empty or has local ends", "statement": "Take any program that reads requirement strings with parse_version_set and combines the sets with intersection, union, difference, symmetric_difference and complement. If the sets read have no end with a local segment and no operation gives the empty set, then replacing every result by its to_short_string() and reading it again for the next operation changes nothing: the final string is read as a set == to the one computed without strings, with the same versions, and if the program raises, both ways raise the same exception. An empty result breaks this (it is printed as 0, which is read as the version 0), and so does a local segment at the end of a range (the string is not read).", "quantifier": "all programs over the five operations, all requirement strings, all recursion limits from 2 on", "why_tests_cant": "Programs nest operations without bound over infinitely many strings, and the rewritten representations differ in details (1 against 1.0) which the operations have to ignore at every step.", "anchors": ["versions/version_sets.py: VersionSet.intersection, union, difference, symmetric_difference, complement, to_short_string", "versions/functions.py: parse_version_set"]}
{"id": "C122", "title": "From text to answer: requirements on release numbers", "statement": "Write release numbers as decimal numerals with dots between them, and a requirement as one of the signs ^ ~ ~= == = != < <= > >= before release numbers, or == = != before release numbers followed by .*; combine requirements with commas into groups and groups with || into a string, with whitespace anywhere. parse_specifier reads every such string (with at least two numbers after ~=), parse_version reads the release numbers x, and accepts returns True exactly if for some group x satisfies every requirement of the group, where the requirements mean, with numbers after the end taken as zero: < and the like the order at the first place that differs; ^a not below a and equal to a up to the first non-zero of its first three numbers (up to the last of these if all are zero); ~a not below a and equal at the first two numbers (the first one if a has only one); ~=a not below a and equal at all numbers of a but the last; ==a.* equal at all numbers of a. If parse_version_set reads the same string, then the set contains x under the same condition, and it reads every string of one group.", "quantifier": "All non-empty lists of groups of well-formed requirements on natural numbers of any size, all strings that differ from their text by whitespace, all release numbers.", "why_tests_cant": "The strings, the numbers in them, their lengths and the number of requirements and groups are unbounded; the meaning is stated on numbers alone, so the theorem covers the whole way through lexing, parsing, bumping and comparing at once.", "anchors": ["versions/functions.py: parse_version, parse_specifier, parse_version_set", "versions/operators.py: matches_*, translate_*", "versions/specifiers.py: accepts", "versions/version_sets.py: contains"]}
{"id": "C123", "title": "From text to answer: requirements on the public versions of PEP 440", "statement": "The same for public versions of PEP 440 in their prescribed spelling (N!N.N{a|b|rc}N.postN.devN) as candidates and as operands: parse_version reads them all, comparisons follow the order of PEP 440, to_short_string and to_pep440_string give the same string back; and strings of requirements (operands of .* have only an epoch and numbers) with commas, bars and whitespace accept exactly the versions that satisfy all requirements of one group. The windows: ^a, for a without pre and dev tag, accepts the versions not below a that share the epoch and the numbers up to the first non-zero of the first three, or that lead to (are pre-releases of, or development releases of) the final release with that number increased by one and zeros behind; with pre or dev tag the place is the first number if that is not zero, and otherwise only versions with the same numbers that lead to the final release are accepted. ~a is the same with the second number (the first if there is only one), and with pre or dev tag only versions with the same numbers that lead to the final release; ~=a with the last number but one; ==a.* with the last one. A version set read from the same string contains the version under the same condition; one group alone is read as a set if no operand is a development release of a post-release.", "quantifier": "All non-empty lists of groups of well-formed requirements on public versions, all strings that differ from their text by whitespace, all public versions.", "why_tests_cant": "Versions, operands, numbers and formulas are unbounded, and the meaning is stated without the model: one statement covers reading, bumping, comparing, matching and conversion to sets, including pre-releases at the upper end, which tests on a few versions miss.", "anchors": ["versions/functions.py: parse_version, parse_specifier, parse_version_set", "versions/operators.py: matches_*, translate_*", "versions/version.py: to_short_string, to_pep440_string", "versions/specifiers.py: accepts", "versions/version_sets.py: contains"]}
{"id": "C124", "title": "Requirements on release numbers are decided by release numbers", "statement": "For version sets read from strings of requirements on release numbers (commas, bars, whitespace; all signs): two are == exactly if the same release numbers meet both strings and both or neither are open below 0, that is have a group whose signs are all <, <=, != or !=.*; one includes the other exactly if every release number that meets the other meets it and it is open below 0 if the other is; they intersect exactly if some release number meets both or both are open below 0; one is empty exactly if no release number meets it and it is not open below 0. So pre-releases, post-releases, epochs and local segments never decide these questions. The same holds for all normal sets whose ends are final versions of epoch 0, with containing 0.dev0 in place of open below 0, and the operations on sets give such sets again.", "quantifier": "All pairs of non-empty lists of groups of well-formed requirements on release numbers and all strings that write them; all normal version sets with such ends.", "why_tests_cant": "The questions range over all versions with all tags; that it is enough to look at release numbers, with arbitrarily many numbers, is a statement about infinitely many candidates, and the exception below 0 is one that tests on usual versions do not meet.", "anchors": ["versions/version_sets.py: __eq__, includes, intersects, is_empty, intersection, union, difference, symmetric_difference, complement", "versions/functions.py: parse_version_set", "versions/operators.py: translate_*"]}
{"id": "C125", "title": "From text to text: the methods that change versions", "statement": "A public version of PEP 440 in its prescribed spelling is read with parse_version, any of next_major, next_minor, next_micro, next_patch, next_at, next_pre, next_pre_phase, next_post, next_dev, next_epoch, next_breaking, to_stable, to_semantic, normalize, set_at, set_epoch_value, pad_to, slice, without_pre, without_post, without_dev and without_tags are called, in any order and number, and to_short_string or to_pep440_string is called: none of the calls fails, and the string written is that of the plain record changed as documented (bumps of unstable versions only drop the tags; bumps write max(len, i + 1) numbers; next_pre starts at a0, drops post and dev; next_post drops dev; next_breaking bumps the first non-zero of the first two numbers, else the third, else the last; to_semantic rounds up), and is read back as the version the calls gave. next_pre_phase returns None exactly after rc.", "quantifier": "All public versions (any epoch, any non-empty list of numbers, any tags), all lists of calls with any natural arguments.", "why_tests_cant": "Versions and sequences of calls are unbounded; one statement fixes every character of what release tools write after any sequence of calls.", "anchors": ["versions/version.py: next_*, to_stable, to_semantic, normalize, set_at, set_epoch_value, pad_to, slice, without_*", "versions/segments/release.py", "versions/segments/tags.py: next, next_phase", "versions/functions.py: parse_version"]}
{"id": "C126", "title": "A requirement on public versions is written as the version set a reader of the documentation expects, and reads back", "statement": "For every requirement on a public version of PEP 440 (any sign of the documentation, any epoch, numbers and tags; `.*` after numbers only; at least two numbers for `~=`; the operand not a development release of a post-release), `parse_version_set` of its text returns a set whose `to_short_string` is: `>=a,<b` for `^`, `~`, `~=` and `==\u2026*`, with `b` the final release given by the documented rule for that sign on plain records; `a` for `==` and `=`; `!=a` for `!=`; the comparison itself for `<`, `<=`, `>`, `>=`; `<a||>=b` for `!=\u2026*`. For wildcards the operand is written with a further zero. Reading the string written gives an equal set.", "quantifier": "all well-formed requirements with operands that are not development releases of post-releases, all limits on recursion", "why_tests_cant": "The text written depends on the sign, on which of the numbers is the first non-zero one, on the tags of the operand and on the internal complement of the set (which decides between `!=a` and `<a||>=b`); tests cover some operands of each sign.", "anchors": ["versions/version_sets.py:858-920", "versions/version_sets.py:1094-1098", "versions/version_sets.py:1178-1196", "versions/operators.py:469-661", "versions/functions.py"]}
{"id": "C127", "title": "From text to text: choosing and sorting published versions", "statement": "Let versions be given as public versions of PEP 440 in their canonical spelling and a requirement as a string of comma- and bar-separated clauses on such versions. The program that parses all of them, keeps the versions that the specifier accepts, takes max and prints it with to_short_string never raises; it yields nothing exactly if no version satisfies the requirement, and otherwise the text, as it was written, of the first version in the list that satisfies the requirement, is greater in the order of PEP 440 than all satisfying ones before it, and not smaller than the satisfying ones after it. The program that parses versions, sorts them and prints them yields the given texts, permuted so that none comes before a smaller one and equal ones keep their order. Requirement satisfaction and order are those of C123, stated about the strings alone.", "quantifier": "all well-formed formulas of requirements, all ways to put whitespace into them, all finite lists of public versions, no bounds", "why_tests_cant": "Tests pick from a few lists; the interplay of parsing, acceptance, the comparison operators, ties between equal versions with different texts (2 and 2.0) and printing over all lists cannot be enumerated", "anchors": ["versions/functions.py:24-67", "versions/specifiers.py:79-185", "versions/version.py:38-110", "versions/version.py:155-200", "versions/operators.py:82-466", "versions/parsers.py:96-277"]}
{"id": "C128", "title": "From text to answer: local builds as candidates", "statement": "A version with a local segment, put to a requirement whose operand has none: == and = never accept it, != always does, <= accepts it exactly if < accepts its public part, > exactly if >= accepts its public part, and each other requirement (<, >=, ^, ~, ~=, and the wildcards) exactly if it accepts the public part; also the failures are the same. From text: a local build, written as a public version of PEP 440 in canonical spelling, a plus and a dotted label of numbers and lower-case words, parses; two of them are ordered by their public versions and, when those are equal, by the labels (words before numbers, numbers by value, words by character codes, a prefix first); they are equal exactly if both are; to_short_string and to_pep440_string give back the text. Against a public version a local build is smaller exactly if its public version is, greater otherwise and never equal. A string of comma- and bar-separated clauses on public versions, with any whitespace, is read as a specifier that accepts the local build exactly if its public version is as all clauses of one group want it, and read as a version set, the set contains it under the same condition.", "quantifier": "all operator types, all versions without local segment as operands and with one as candidates; all local builds with non-empty labels, all well-formed formulas of requirements, no bounds", "why_tests_cant": "Tests try a couple of +local candidates; that 1+a satisfies >1 and !=1 but not <=1, ==1, and that every computed upper bound ignores labels, follows for all versions only from how the comparison keys are built", "anchors": ["versions/version.py: compare, compute_compare_local, next_*, next_breaking, to_short_string, to_pep440_string", "versions/operators.py: matches_*, translate_*", "versions/segments/local.py: Local, compare", "versions/functions.py: parse_version, parse_specifier, parse_version_set", "versions/specifiers.py: accepts", "versions/version_sets.py: contains"]}
{"id": "C129", "title": "From text to answer, in any spelling", "statement": "A requirement string is a formula: groups separated by | or ||, each of requirements separated by commas, with whitespace anywhere. A requirement is a sign and a version; or only a version, which means =; or a sign and a version without tags ending in .x or .*, or that without sign; or ==, =, != or no sign and a version with a local label. Versions, also the candidate, are in any spelling the grammar allows: leading v, zeros before numbers, any separators, alpha and beta in full, -1 for .post1, tags without number, any separators within labels. Then the requirement string is read as a specifier, the candidate string as a version, and the specifier accepts the version exactly if all requirements of one group hold, where holding is stated on numbers, phases and labels: == and = on a local build hold for the same build only, != for all else, and a requirement on a public version holds for a local build as C128 says. The version set read from the string contains the candidate under the same condition. The spellings of candidates that are covered are exactly those with the phases a, alpha, b, beta, rc, post, dev and labels in lower case.", "quantifier": "all formulas, all spellings and whitespace, all public versions and local builds as candidates, no bounds", "why_tests_cant": "The combinations of spelling and sign are unbounded; tests list canonical strings, and one v prefix or x wildcard that is read as something else passes unnoticed", "anchors": ["versions/functions.py: parse_version, parse_specifier, parse_version_set", "versions/parsers.py: Parser, SpecifierParser", "versions/patterns.py", "versions/operators.py: matches_*, translate_*", "versions/specifiers.py: accepts", "versions/version_sets.py: contains", "versions/version.py: compare"]}
{"id": "C130", "title": "From text to text: several requirements on one package", "statement": "A program reads each of several requirement strings with parse_version_set, intersects all the sets (starting from VersionRange()), reads the versions on offer and prints the greatest one that the intersection contains. The strings are in any spelling. If it returns, it prints nothing exactly if no version on offer satisfies all the requirements, and else the greatest that does, the first of several equal ones, in the spelling of PEP 440. It fails exactly if one of the requirements cannot be made a version set, and then with the error of the first of those. The order of the requirement strings and how often each comes is of no consequence, whatever the strings are. If with a further requirement some version is chosen, one was chosen without it too, not a smaller one, and the same one if that satisfies the further requirement. Requirements without | may be joined by commas into one string instead.", "quantifier": "all lists of requirement strings that are formulas in any spelling, all lists of public versions in any spelling, any recursion limit, no bounds", "why_tests_cant": "Tests intersect two or three given ranges; that the fold over any number of sets, with unions among them, never fails and loses or adds no version is not a matter of examples", "anchors": ["versions/version_sets.py: intersection, contains", "versions/functions.py: parse_version_set, parse_version", "versions/specifiers.py: to_version_set", "versions/parsers.py: SpecifierParser, VersionSetParser", "versions/version.py: compare, to_short_string"]}
{"id": "C131", "title": "From text to text: what is chosen later", "statement": "The program is that of C130, the requirement strings are any. If it chooses a version and prints s, then the lock line ==s chooses s again, alone and together with the requirements, from the same versions on offer and from these followed by any later ones. When one more version is published, the program still returns, and chooses what it chose before or the new version, and the new one only if that is above the former choice. Withdrawing a version that was not chosen changes nothing. From the same versions listed in another order the same version is chosen, up to trailing zeros in its spelling.", "quantifier": "all lists of requirement strings for which the program returns, all lists of public versions and local builds in any spelling, any recursion limit, no bounds", "why_tests_cant": "These are statements about two runs of a program of parsing, conversion, intersection and comparison, for every set of requirements and every history of publications", "anchors": ["versions/version_sets.py: intersection, contains", "versions/functions.py: parse_version_set, parse_version", "versions/specifiers.py: to_version_set", "versions/operators.py: translate_equal", "versions/version.py: compare, to_short_string"]}
{"id": "C132", "title": "From text to text: requirements on a package of which there are local builds", "statement": "The program is that of C130, and local builds (1.0+cu.2) are among the versions on offer; operands of == and != may be local builds. Strings are in any spelling. If the program returns, it prints nothing exactly if no version on offer satisfies all the requirements, and else the greatest that does, where a local build is above its public version and builds of one version are ordered by their labels. It fails exactly if one of the requirements cannot be made a version set, whatever is on offer. If the requirements are without labels and without ==, = and <= (other than with .*), the public version of a local build on offer is never chosen.", "quantifier": "all lists of requirement strings that are formulas in any spelling, all lists of public versions and local builds in any spelling, any recursion limit, no bounds", "why_tests_cant": "Which of a public version and its local builds is chosen follows from the comparison, each translation of an operator and the intersection together; tests have no local builds in version sets", "anchors": ["versions/version_sets.py: intersection, contains", "versions/functions.py: parse_version_set, parse_version", "versions/specifiers.py: to_version_set", "versions/segments.py: Local", "versions/version.py: compare, to_short_string"]}
{"id": "C133", "title": "`^`, `~`, `~=` and `== v.*` on two versions", "statement": "Each of ^v, ~v, ~=v and == v.* on a stable version (a release or post-release) ends at the bump of one part of v: for ^ the leftmost of the first three parts that is not zero (the last of these if all are zero), for ~ the second or only part, for ~= and the wildcard the last but one (for the wildcard on a post-release the last). Let o and p be two such requirements, of the same or different kinds, ending at parts i and j. Every version that p accepts is accepted by o exactly if o accepts the version of p and i is not right of j. If the version of p is not below that of o, both together accept exactly the versions from that of p up to its bump at the further right of i and j, or nothing if o does not accept the version of p. Some version satisfies both exactly if one of them accepts the version of the other. The version sets of the requirement strings answer likewise: includes and intersects are true exactly under these conditions.", "quantifier": "all pairs of these operators on stable versions of any length, with any epoch; all requirement strings that are read as such operators; any recursion limit; no bounds", "why_tests_cant": "Relates the ends of two windows made from different versions of different length; a finite set of pairs cannot cover the cases of how far the versions agree", "anchors": ["versions/operators.py: next_caret_breaking, next_tilde_breaking, next_tilde_equal_breaking, next_wildcard_breaking, matches_caret, matches_tilde, matches_tilde_equal, matches_wildcard_equal, translate_caret, translate_tilde, translate_tilde_equal, translate_wildcard_equal", "versions/version.py: next_at, next_breaking", "versions/version_sets.py: includes, intersects"]}
{"id": "C134", "title": "`^`, `~`, `~=` and `== v.*` beside bounds", "statement": "Let p be one of ^v, ~v, ~=v and == v.* on a stable version, ending at the bump n of v as in C133. Every version that p accepts satisfies >= w exactly if w is not above v, > w exactly if w is below v, < w exactly if n is not above w, and <= w under the same condition as < w, since no version is the greatest below n; it satisfies != w exactly if p does not accept w. Conversely every version with >= w and < u is accepted by p exactly if u is not above w, or v is not above w and u is not above n. Some version satisfies both p and >= w, or both p and > w, exactly if w is below n; p and < w exactly if v is below w; p and <= w exactly if v is not above w; p and != w always. The version sets of the strings answer likewise: includes and intersects are true exactly under these conditions.", "quantifier": "all four operators on stable versions of any length, all versions w and u including pre-releases, development releases and local builds; all requirement strings that are read as such operators; any recursion limit; no bounds", "why_tests_cant": "Says for every version which bounds follow and which do not; that <= n is no weaker than < n needs a version between any two", "anchors": ["versions/operators.py: matches_greater, matches_greater_or_equal, matches_less, matches_less_or_equal, matches_not_equal, matches_caret, matches_tilde, matches_tilde_equal, matches_wildcard_equal, and the translate_ functions of the same operators", "versions/version.py: next_at, next_breaking, compare", "versions/version_sets.py: includes, intersects"]}
{"id": "C135", "title": "Requirements on a pre-release beside those on its final release", "statement": "Let v be a version with a pre-release or a development tag and f the version with the same epoch and release and nothing else. ^v with a major number other than 0, and ~=v with at least two parts, accept x exactly if v is not above x and x is below f or accepted by the same operator on f. ~v, == v.*, = v.*, and ^v with major number 0 accept x exactly if v is not above x and x is below f; together with the same operator on f (for the wildcards, with at least two parts) they have no version in common. The version sets of the strings answer likewise: unless v is a development release of a post-release, the set of ^v or ~=v of the first kind includes that of f and is not included in it; the sets of the second kind do not intersect.", "quantifier": "all versions v with a pre-release or development tag, of any epoch and length; all versions x; all requirement strings that are read as such operators; any recursion limit; no bounds", "why_tests_cant": "Says for every unstable version which operators carry a requirement on to the final release and which stop short of it; samples of candidates cannot show that two requirements never meet", "anchors": ["versions/operators.py: matches_caret, matches_tilde, matches_tilde_equal, matches_wildcard_equal, and the translate_ functions of the same operators", "versions/version.py: next_breaking, next_major, next_minor, next_patch, next_at, to_stable, compare", "versions/version_sets.py: includes, intersects"]}
{"id": "C136", "title": "`^`, `~`, `~=` and `== v.*` as alternatives", "statement": "Let p and q be two of ^v, ~v, ~=v and == v.* on stable versions, p on v ending at the bump n, q on w ending at the bump m, as in C133. Every version that is not below v and is below n or m is accepted by p or by q exactly if w is not above n. If v is not above w, union of the version sets of the strings always returns, whatever the recursion limit from 2 on; it contains exactly the versions that p or q accepts; it is a single range exactly if w is not above n, and then equals the range from v (included) to the later of n and m (excluded).", "quantifier": "all pairs of the four operators on stable versions of any length; all requirement strings that are read as such operators; all versions as candidates; any recursion limit from 2 on; no bounds", "why_tests_cant": "Says for every pair of windows whether joining them leaves a gap; that union finds the single range exactly then cannot be sampled, since the gap may be a single version", "anchors": ["versions/operators.py: matches_caret, matches_tilde, matches_tilde_equal, matches_wildcard_equal, and the translate_ functions of the same operators", "versions/version.py: next_at, next_breaking, compare", "versions/version_sets.py: union, merge, __eq__"]}
{"id": "C137", "title": "What a bound leaves of `^`, `~`, `~=` and `== v.*`", "statement": "Let p be one of ^v, ~v, ~=v and == v.* on a stable version, ending at the bump n of v as in C133. intersection of the version set of its string with that of a bound on w always returns. With >= w it equals the range from v to n if w is not above v, from w to n if w is between, and is empty if n is not above w; with > w the same, the range excluding w; with < w it is empty if w is not above v, the range from v to w or the whole; with <= w it is empty, the single version w if w equals v, the range including w, or the whole; with == w or = w it is the single version w if w is not below v and below n, and empty otherwise; with != w it is the whole if w is below v or not below n, the range without its lower end if w equals v, and otherwise the union of the ranges from v to w and from w to n, both without w.", "quantifier": "all four operators on stable versions of any length; all seven comparison operators on all versions that strings denote, including pre-releases and local builds; all requirement strings that are read as such operators; any recursion limit; no bounds", "why_tests_cant": "Gives the resulting set for every pair of operands, not whether it contains a few samples", "anchors": ["versions/version_sets.py: intersection, merge, __eq__", "versions/operators.py: the translate_ functions", "versions/version.py: next_at, next_breaking, compare"]}
{"id": "C138", "title": "What two of `^`, `~`, `~=` and `== v.*` have in common and leave of each other", "statement": "Let p and q be two of ^v, ~v, ~=v and == v.* on stable versions, p on v ending at the bump n, q on w ending at the bump m, as in C133, with v not above w. intersection and difference of the version sets of their strings always return. If n is not above w, the intersection is empty and the difference equals the set of p. Otherwise m is not above n exactly if the place that q increases is not left of the place that p increases. If n is not above m, the intersection equals the range from w to n and the difference the range from v to w, or is empty if v equals w. If m is below n, the intersection equals the set of q and the difference the ranges from v to w and from m to n, or the latter alone if v equals w. complement of the set of p equals what is below v and what is from n on. All ranges include their lower and exclude their upper end.", "quantifier": "all pairs of the four operators on stable versions of any length; all requirement strings that are read as such operators; any recursion limit; no bounds", "why_tests_cant": "Gives the resulting set for every pair of operands, not whether it contains a few samples", "anchors": ["versions/version_sets.py: intersection, difference, complement, merge, __eq__", "versions/operators.py: the translate_ functions of the four operators", "versions/version.py: next_at, next_breaking, compare"]}
{"id": "C139", "title": "What `!= w.*` leaves of `^`, `~`, `~=` and `== v.*`", "statement": "Let p be one of ^v, ~v, ~=v and == v.* on a stable version, ending at the bump n as in C133, and let == w.* on a stable version end at the bump m. != w.* accepts exactly the versions below w and those not below m. intersection of the version sets of p and != w.* always returns: it equals the set of p if n is not above w or m is not above v; it is empty if w is not above v and n is not above m; it equals the range from m to n if w is not above v and m is between v and n; the range from v to w if w is between v and n and n is not above m; and the union of both ranges if v is below w and m is below n. All ranges include their lower and exclude their upper end.", "quantifier": "all four operators on stable versions of any length and all stable operands of the wildcard, including post-releases; all requirement strings that are read as such operators; all versions as candidates; any recursion limit; no bounds", "why_tests_cant": "Gives the resulting set for every pair of operands, not whether it contains a few samples", "anchors": ["versions/operators.py: matches_wildcard_not_equal, matches_wildcard_equal, translate_wildcard_not_equal, next_wildcard_breaking, and the matches_ and translate_ functions of the four operators", "versions/version_sets.py: intersection, complement, merge, __eq__", "versions/version.py: next_at, compare"]}
{"id": "C140", "title": "Which comparisons imply and meet which", "statement": "Let t and u be any of ==, =, !=, <, <=, >, >=, and a and b versions. The table BoundImplies says when every version that satisfies u b satisfies t a: for instance > b implies >= a and > a exactly if a is not above b, >= b implies > a exactly if a is below b, < b implies <= a exactly if b is not above a, > b implies != a exactly if a is not above b, == b implies == a exactly if they are equal, and a lower bound never implies an upper bound or an equality. The table BoundMeets says when some version satisfies both: for instance > a and < b, or > a and <= b, exactly if a is below b, >= a and <= b exactly if a is not above b, two lower bounds always, != a and any bound always. includes and intersects of the version sets of the strings answer by these tables.", "quantifier": "all 49 pairs of comparisons; all well-formed versions (of any epoch, negative ones included, as versions can be constructed); all requirement strings that are read as comparisons; any recursion limit; no bounds", "why_tests_cant": "Both directions for all versions; that > b does not imply >= a when a is above b needs a version between, and that no bound implies one of the other direction needs versions beyond any two", "anchors": ["versions/operators.py: matches_equal, matches_not_equal, matches_less, matches_less_or_equal, matches_greater, matches_greater_or_equal, and the translate_ functions of the same operators", "versions/version.py: compare", "versions/version_sets.py: includes, intersects"]}
{"id": "C141", "title": "Which comparisons as alternatives leave nothing out, and when their sets can be joined", "statement": "Let t and u be any of ==, =, !=, <, <=, >, >=, and a and b versions. The table BoundCovers says when every version satisfies t a or u b: >= a with <= b or < b, and > a with <= b, exactly if a is not above b; > a with < b exactly if a is below b; != a with == b exactly if they are equal, with != b exactly if they differ, with >= b exactly if b is not above a, with > b exactly if b is below a, and likewise for upper bounds; no other pair. When the union of the version sets of the strings is returned, it is never empty, and it is universal by this table. The union recurses without end exactly if the first is == or =, the second is >, and the versions are equal; in every other case, the other order included, it returns.", "quantifier": "all 49 pairs of comparisons; all well-formed versions; all requirement strings that are read as comparisons; any recursion limit; no bounds", "why_tests_cant": "Both directions for all versions; that nothing else covers needs versions between and beyond any two; that the recursion never ends holds at every limit", "anchors": ["versions/operators.py: matches_equal, matches_not_equal, matches_less, matches_less_or_equal, matches_greater, matches_greater_or_equal, and the translate_ functions of the same operators", "versions/version.py: compare", "versions/version_sets.py: union, of_iterable, is_universal, is_empty"]}
{"id": "C142", "title": "Which comparisons are opposite and which are the same, as requirements and as sets", "statement": "Let t and u be any of ==, =, !=, <, <=, >, >=, and a and b versions. u b accepts exactly the versions that t a rejects if and only if a equals b and t and u are == or = and !=, < and >=, or <= and >, in either order. t a and u b accept the same versions if and only if a equals b and t and u are the same, where = and == count as the same. So the version sets of two comparison strings are equal exactly in the second case; complement of the set of the one always returns, and equals the set of the other exactly in the first case.", "quantifier": "all 49 pairs of comparisons; all well-formed versions; all requirement strings that are read as comparisons; any recursion limit; no bounds", "why_tests_cant": "Both directions for all versions; that no other pair is opposite or the same needs versions between and beyond any two", "anchors": ["versions/operators.py: matches_equal, matches_not_equal, matches_less, matches_less_or_equal, matches_greater, matches_greater_or_equal, and the translate_ functions of the same operators", "versions/version.py: compare", "versions/version_sets.py: complement, difference, __eq__"]}
{"id": "C143", "title": "What comparisons have in common and leave of each other, as sets", "statement": "Let t and u be any of ==, =, !=, <, <=, >, >=, and x and y the version sets of the strings that are read as t a and u b. intersection of x and y always returns; it is empty exactly if no version satisfies both, and equals x exactly if t a implies u b, by the tables of C140. difference of x and y always returns. If t is <, <=, > or >= and u is != and t a implies != b, it is x itself, though nothing should be left. In all other cases it has exactly the versions that satisfy t a and not u b; it is empty exactly if t a implies u b, and equals x exactly if no version satisfies both.", "quantifier": "all 49 pairs of comparisons; all requirement strings that are read as comparisons; any recursion limit; no bounds", "why_tests_cant": "That difference is wrong for these pairs only, and exact for all others, is a claim about all versions and all pairs of strings", "anchors": ["versions/version_sets.py: intersection, difference, is_empty, __eq__", "versions/operators.py: the translate_ functions of ==, !=, <, <=, >, >=", "versions/version.py: compare"]}
