import Verif.Props.Lines
import Verif.Props.Input
import Verif.Props.Units
import Verif.Props.Values
import Verif.Props.Headers
import Verif.Props.Previous
import Verif.Props.Layout
import Verif.Props.Spacing
import Verif.Props.Errors
import Verif.Props.Formula
import Verif.Props.CGrammar
import Verif.Props.Plural
import Verif.Props.Messages
import Verif.Props.RoundTrip
import Verif.Props.Exact
import Verif.Props.Accessors
import Verif.Props.Adjacent
import Verif.Props.Breaks
import Verif.Props.Local
import Verif.Props.Broken
import Verif.Props.Hint
import Verif.Props.Where
import Verif.Props.TwoChanges
import Verif.Props.Last
import Verif.Props.Clear
import Verif.Props.Uncomment
import Verif.Props.Translate
import Verif.Props.Select
import Verif.Props.Markers
import Verif.Props.Front
import Verif.Props.Gettext
import Verif.Props.Prefix
import Verif.Props.Resume
import Verif.Props.Change
import Verif.Props.CommentRuns
import Verif.Props.Invariants
import Verif.Props.Lazy
import Verif.Props.Work
import Verif.Props.Choice
import Verif.Props.Program
import Verif.Props.Equality
import Verif.Props.Reorder
import Verif.Props.Opaque
import Verif.Props.Size
import Verif.Props.Steps
import Verif.Props.Merge
import Verif.Props.Width
import Verif.Props.Cause
import Verif.Props.Compose
import Verif.Props.Chars
import Verif.Props.Utf8
import Verif.Props.Periodic
import Verif.Lemmas.RegexMeaning
import Verif.Tests.Crate
import Verif.Tests.Instances
import Verif.Tests.Extractor
import Verif.Props.Forms
import Verif.Props.Counting
import Verif.Props.Drop
import Verif.Props.Table
import Verif.Props.Grammar
import Verif.Props.Blocks
import Verif.Props.Message
import Verif.Props.Pattern
import Verif.Props.Extractor
import Verif.Props.Debug
import Verif.Props.HashOrder
import Verif.Props.Counter
import Verif.Props.CString
import Verif.Props.DebugTree
import Verif.Props.Unsigned
import Verif.Props.FreeLayout
import Verif.Props.Endless
import Verif.Props.Least
import Verif.Props.OneLine
import Verif.Props.Texts
import Verif.Props.Remarks
