import Verif.Lemmas.Agree
import Verif.Lemmas.Basic
import Verif.Lemmas.Calls
import Verif.Lemmas.Canon
import Verif.Lemmas.Complete
import Verif.Lemmas.Cost
import Verif.Lemmas.Dangle
import Verif.Lemmas.Decode
import Verif.Lemmas.Delegates
import Verif.Lemmas.DocRead
import Verif.Lemmas.DocSize
import Verif.Lemmas.Engine
import Verif.Lemmas.Errors
import Verif.Lemmas.Extend
import Verif.Lemmas.Flagged
import Verif.Lemmas.Float
import Verif.Lemmas.Fold
import Verif.Lemmas.Generic
import Verif.Lemmas.Layout
import Verif.Lemmas.Literals
import Verif.Lemmas.Local
import Verif.Lemmas.Lockstep
import Verif.Lemmas.Log
import Verif.Lemmas.Looser
import Verif.Lemmas.Machine
import Verif.Lemmas.Minify
import Verif.Lemmas.NumberTok
import Verif.Lemmas.Opaque
import Verif.Lemmas.Outcome
import Verif.Lemmas.Output
import Verif.Lemmas.Parse
import Verif.Lemmas.Place
import Verif.Lemmas.Render
import Verif.Lemmas.Replay
import Verif.Lemmas.Reserve
import Verif.Lemmas.Roundtrip
import Verif.Lemmas.Shown
import Verif.Lemmas.Size
import Verif.Lemmas.Sound
import Verif.Lemmas.Spoiled
import Verif.Lemmas.Stack
import Verif.Lemmas.StackDebug
import Verif.Lemmas.StackEq
import Verif.Lemmas.StackNeed
import Verif.Lemmas.StackTwin
import Verif.Lemmas.StackWrite
import Verif.Lemmas.Steady
import Verif.Lemmas.StrOps
import Verif.Lemmas.StringTok
import Verif.Lemmas.Strings
import Verif.Lemmas.Tok
import Verif.Lemmas.Tokens
import Verif.Lemmas.Told
import Verif.Lemmas.Trace
import Verif.Lemmas.Trailing
import Verif.Lemmas.Unique
import Verif.Lemmas.Unwind
import Verif.Lemmas.Utf8
import Verif.Lemmas.Valid
import Verif.Lemmas.Viable
import Verif.Lemmas.Window
import Verif.Lemmas.Wp
import Verif.Lemmas.Write
import Verif.Lemmas.WriteFmt
import Verif.Lemmas.Written
import Verif.Model.Compare
import Verif.Model.Cost
import Verif.Model.Debug
import Verif.Model.Display
import Verif.Model.Doc
import Verif.Model.Error
import Verif.Model.ErrorFmt
import Verif.Model.Iter
import Verif.Model.Lazy
import Verif.Model.Number
import Verif.Model.Parser
import Verif.Model.Res
import Verif.Model.Reserve
import Verif.Model.Shown
import Verif.Model.ShownStack
import Verif.Model.Stack
import Verif.Model.Str
import Verif.Model.Tokenizer
import Verif.Model.Utf8
import Verif.Model.Value
import Verif.Model.Write
import Verif.Model.WriteFmt
import Verif.Props.Accept
import Verif.Props.Borrow
import Verif.Props.Callbacks
import Verif.Props.Calls
import Verif.Props.Capacity
import Verif.Props.Collection
import Verif.Props.Compare
import Verif.Props.Compose
import Verif.Props.Cost
import Verif.Props.Dangle
import Verif.Props.DeadPrefix
import Verif.Props.Debug
import Verif.Props.Delegate
import Verif.Props.Doc
import Verif.Props.DocEq
import Verif.Props.Edit
import Verif.Props.Entry
import Verif.Props.EntryConfig
import Verif.Props.ErrorFmt
import Verif.Props.Errors
import Verif.Props.Ex
import Verif.Props.Float
import Verif.Props.Info
import Verif.Props.Iter
import Verif.Props.Lazy
import Verif.Props.Lexemes
import Verif.Props.Local
import Verif.Props.Looser
import Verif.Props.Machine
import Verif.Props.Messages
import Verif.Props.Named
import Verif.Props.NamedDoc
import Verif.Props.NamedParts
import Verif.Props.Numbers
import Verif.Props.Opaque
import Verif.Props.Pair
import Verif.Props.Phrase
import Verif.Props.Place
import Verif.Props.Render
import Verif.Props.Replay
import Verif.Props.Reserve
import Verif.Props.Size
import Verif.Props.Stack
import Verif.Props.Steady
import Verif.Props.Stream
import Verif.Props.Strings
import Verif.Props.Tokenizer
import Verif.Props.Truncate
import Verif.Props.Unwind
import Verif.Props.ValidUtf8
import Verif.Props.Values
import Verif.Props.Viable
import Verif.Props.Write
import Verif.Props.WriteFmt
import Verif.Props.Written
import Verif.Spec.Accept
import Verif.Spec.Borrow
import Verif.Spec.Calls
import Verif.Spec.Compare
import Verif.Spec.Compose
import Verif.Spec.Content
import Verif.Spec.Cost
import Verif.Spec.Dangle
import Verif.Spec.Doc
import Verif.Spec.Edit
import Verif.Spec.Engine
import Verif.Spec.Errors
import Verif.Spec.Float
import Verif.Spec.Fold
import Verif.Spec.Iter
import Verif.Spec.Json
import Verif.Spec.Lexeme
import Verif.Spec.Local
import Verif.Spec.Lookup
import Verif.Spec.Looser
import Verif.Spec.Machine
import Verif.Spec.Named
import Verif.Spec.NamedDoc
import Verif.Spec.Number
import Verif.Spec.Opaque
import Verif.Spec.Pair
import Verif.Spec.Phrase
import Verif.Spec.Place
import Verif.Spec.Replay
import Verif.Spec.Reserve
import Verif.Spec.SameError
import Verif.Spec.Size
import Verif.Spec.Stack
import Verif.Spec.Steady
import Verif.Spec.Stream
import Verif.Spec.Strings
import Verif.Spec.Tok
import Verif.Spec.Trace
import Verif.Spec.Unwind
import Verif.Spec.Viable
import Verif.Spec.Write
import Verif.Spec.WriteFmt
import Verif.Spec.Written
import Verif.Tests.JsonOrg
import Verif.Tests.Suite1
import Verif.Tests.Suite2
import Verif.Tests.Unit
