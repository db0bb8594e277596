{
 "C07": "Strictly-greater needs non-negative parts in the original (C02_negative_parts shows why).",
 "C08": "For releases without negative parts.",
 "C10": "For releases without negative parts.",
 "C12": "",
 "C14": "",
 "C22": "lim counts nested calls of union on ranges and points; 'returns' means the same result for every limit from 2 on.",
 "C23": "Includes the two violations as theorems.",
 "C25": "Includes the violation as a theorem.",
 "C26": "The converse is over well-formed versions (Version.Wf): only there versions are dense.",
 "C19": "C19_built_normal: induction over everything a program can build.",
 "C34": "Idempotence for every recursion limit from 2 on.",
 "C05": "For arbitrary hash functions of the built-in types; the violation by specifiers is a theorem.",
 "C36": "Includes the violation as a theorem; the positive part is for any collection of operators in which equal operators are simple or on the same version.",
 "C43": "| and || are interchangeable between parts that have no pipes and, except the first and last, are not blank; an example shows `1 | | 2` is read as `1 || 2` whereas `1 || || 2` fails.",
 "C44": "Local versions are covered in =, ==, != and proved unreadable elsewhere; long strings need no candidate tag, and are proved unreadable with one; wildcards are read with 0 as the last number.",
 "C45": "Long strings need ends without candidate tag (C44_candidate_fails shows why). C45_empty: the violation for the empty set.",
 "C46": "",
 "C47": "version_type left at its default. parse_version_set under the hypothesis of C36; C47_violation is the failure without it."
}