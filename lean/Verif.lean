import Verif.Model.Py
import Verif.Model.Segments
import Verif.Model.Version
import Verif.Spec.Basic
import Verif.Proofs.Order
import Verif.Proofs.Release
import Verif.Proofs.Version
import Verif.Props.Versions
import Verif.Model.VersionSets
import Verif.Spec.Sets
import Verif.Proofs.Cuts
import Verif.Proofs.Items
import Verif.Proofs.Merge
import Verif.Proofs.SetOps
import Verif.Proofs.Loops
import Verif.Proofs.Loops2
import Verif.Proofs.Density
import Verif.Proofs.SetLevel
import Verif.Proofs.SetLevel2
import Verif.Props.Sets
import Verif.Model.Operators
import Verif.Spec.Operators
import Verif.Proofs.Operators
import Verif.Props.Operands
import Verif.Props.Operators
import Verif.Model.Specifiers
import Verif.Spec.Specifiers
import Verif.Proofs.Specifiers
import Verif.Props.Specifiers
import Verif.Model.Hash
import Verif.Model.Caches
import Verif.Proofs.Caches
import Verif.Props.Hash
import Verif.Props.Caches
import Verif.Model.Strings
import Verif.Model.Regex
import Verif.Model.Parsers
import Verif.Spec.Regex
import Verif.Spec.Spelling
import Verif.Proofs.Regex
import Verif.Proofs.Spelling
import Verif.Proofs.SpellingUnique
import Verif.Proofs.Parsing
import Verif.Proofs.Printing
import Verif.Props.Parsing
import Verif.Spec.Specification
import Verif.Proofs.Wildcard
import Verif.Proofs.SpecParsing
import Verif.Proofs.Splitting
import Verif.Proofs.OpPrinting
import Verif.Proofs.SetPrinting
import Verif.Model.Functions
import Verif.Model.Sessions
import Verif.Model.Threads
import Verif.Props.SpecParsing
import Verif.Spec.SpecifierText
import Verif.Proofs.SpecGrammar
import Verif.Props.SpecGrammar
import Verif.Model.SetOperators
import Verif.Proofs.Made
import Verif.Proofs.Sizes
import Verif.Props.SetSyntax
import Verif.Props.SetPredicates
import Verif.Props.SetOrder
import Verif.Spec.Pep440
import Verif.Proofs.Pep440
import Verif.Props.Pep440
import Verif.Spec.Order
import Verif.Props.Order
import Verif.Model.Meta
import Verif.Props.Meta
import Verif.Props.Segments
import Verif.Props.Indices
import Verif.Props.Weaken
import Verif.Proofs.CanonicalDensity
import Verif.Proofs.ParsedSets
import Verif.Props.Shape
import Verif.Spec.Pep440Clauses
import Verif.Props.Pep440Clauses
import Verif.Props.Compat
import Verif.Props.SetStrings
import Verif.Model.RangePredicates
import Verif.Props.Ranges
import Verif.Model.Accessors
import Verif.Props.SetDomain
import Verif.Props.SegmentOrder
import Verif.Props.BumpMatch
import Verif.Props.Bumps
import Verif.Props.OperatorOrder
import Verif.Props.Made
import Verif.Props.LooseUnions
import Verif.Props.Degenerate
import Verif.Spec.Decide
import Verif.Spec.Pep440Order
import Verif.Props.Pep440Order
import Verif.Spec.NormalText
import Verif.Props.NormalText
import Verif.Model.Operands
import Verif.Model.OperatorTypes
import Verif.Props.OperatorTypes
import Verif.Model.Records
import Verif.Props.Records
import Verif.Tests.Repository
import Verif.Tests.Documentation
import Verif.Model.Engine
import Verif.Proofs.Engine
import Verif.Proofs.EnginePatterns
import Verif.Props.Engine
import Verif.Model.Protocols
import Verif.Props.Protocols
import Verif.Spec.Simplify
import Verif.Proofs.Edges
import Verif.Props.Simplify
import Verif.Model.ItemsDifference
import Verif.Props.ItemsDifference
import Verif.Props.Failures
import Verif.Model.Comparisons
import Verif.Model.Dict
import Verif.Model.BaseTag
import Verif.Props.Comparisons
import Verif.Props.Minimal
import Verif.Props.HashShape
import Verif.Props.TagStrings
import Verif.Proofs.SetReading
import Verif.Proofs.SetInjective
import Verif.Props.SetReading
import Verif.Model.Rounds
import Verif.Proofs.Rounds
import Verif.Props.Rounds
import Verif.Props.Congruence
import Verif.Proofs.Sessions
import Verif.Props.Sessions
import Verif.Props.Threads
import Verif.Props.Meaning
import Verif.Props.Subclasses
import Verif.Model.DigitLimit
import Verif.Spec.Numerals
import Verif.Spec.ParserBy
import Verif.Proofs.Numerals
import Verif.Proofs.DigitLimit
import Verif.Proofs.ParserBy
import Verif.Proofs.LimitSpecifiers
import Verif.Proofs.LimitPrinting
import Verif.Props.DigitLimit
import Verif.Props.ParserBy
import Verif.Model.UnicodeDigits
import Verif.Spec.IntText
import Verif.Proofs.UnicodeDigits
import Verif.Props.UnicodeDigits
import Verif.Spec.HideLast
import Verif.Proofs.SpecInjective
import Verif.Props.Representations
import Verif.Model.PatternText
import Verif.Spec.Caseless
import Verif.Proofs.PatternText
import Verif.Proofs.PatternEscape
import Verif.Props.PatternText
import Verif.Model.SubclassSets
import Verif.Proofs.SubclassSets
import Verif.Props.SubclassSets
import Verif.Props.SimplifySharp
import Verif.Props.SubclassCaches
import Verif.Props.Decisions
import Verif.Model.SubclassFunctions
import Verif.Proofs.CacheReuse
import Verif.Proofs.CacheExceptions
import Verif.Props.CacheReuse
import Verif.Props.ThreadReuse
import Verif.Model.Messages
import Verif.Spec.Messages
import Verif.Proofs.Messages
import Verif.Props.Messages
import Verif.Model.Choosing
import Verif.Props.Choosing
import Verif.Props.Wildcards
import Verif.Props.Nesting
import Verif.Props.Conflicts
import Verif.Props.StoredSets
import Verif.Props.FromText
import Verif.Props.FromPublic
import Verif.Props.ReleaseDecides
import Verif.Props.PublicEdits
import Verif.Props.SetTexts
import Verif.Props.PickText
import Verif.Props.LocalBuilds
import Verif.Props.AnySpelling
import Verif.Props.Together
import Verif.Props.AnyOffers
import Verif.Props.Locked
import Verif.Props.Windows
import Verif.Props.WindowBounds
import Verif.Props.FinalRelease
import Verif.Props.JoinedWindows
import Verif.Props.CutWindows
import Verif.Props.SplitWindows
import Verif.Props.ExcludedWindows
import Verif.Props.BoundPairs
import Verif.Props.CoveringBounds
import Verif.Props.OppositeBounds
import Verif.Props.LeftBounds
