import Verif.Model.Parser
import Verif.Spec.Grammar
import Verif.Proofs.Heredoc
import Verif.Proofs.Number
import Verif.Props.Document
import Verif.Props.Strings
import Verif.Props.Heredoc
import Verif.Proofs.IntParse
import Verif.Props.Search
import Verif.Props.Literals
import Verif.Proofs.Utf8
import Verif.Props.Sources
import Verif.Model.Container
import Verif.Model.Value
import Verif.Props.Containers
import Verif.Spec.Value
import Verif.Proofs.Merge
import Verif.Proofs.MergeSound
import Verif.Proofs.MergeState
import Verif.Props.Merge
import Verif.Model.OldParser
import Verif.Spec.OldGrammar
import Verif.Proofs.OldParser
import Verif.Proofs.Unique
import Verif.Proofs.OldConcat
import Verif.Props.OldValues
import Verif.Model.Blocks
import Verif.Spec.Blocks
import Verif.Proofs.Blocks
import Verif.Proofs.BlocksGet
import Verif.Proofs.BlocksOrder
import Verif.Proofs.BlocksTypes
import Verif.Props.Blocks
import Verif.Model.De
import Verif.Model.DeTypes
import Verif.Spec.De
import Verif.Proofs.De
import Verif.Props.De
import Verif.Proofs.DeTypes
import Verif.Proofs.DeValues
import Verif.Proofs.DePlain
import Verif.Proofs.DeStruct
import Verif.Props.DeTypes
import Verif.Model.Errors
import Verif.Model.Cli
import Verif.Spec.Cli
import Verif.Props.Cli
import Verif.Props.Errors
import Verif.Proofs.DeOrder
import Verif.Proofs.Replace
import Verif.Proofs.Print
import Verif.Props.Print
import Verif.Proofs.Panic
import Verif.Spec.Equal
import Verif.Props.Equality
import Verif.Model.Hash
import Verif.Props.Hash
import Verif.Model.Float
import Verif.Props.Floats
import Verif.Model.BlocksMut
import Verif.Props.BlocksMut
import Verif.Model.Construct
import Verif.Props.Construct
import Verif.Spec.OldPosition
import Verif.Proofs.OldPanic
import Verif.Spec.Agree
import Verif.Proofs.Agree
import Verif.Spec.OldPrint
import Verif.Proofs.OldPrint
import Verif.Props.Agree
import Verif.Spec.Reads
import Verif.Proofs.Reads
import Verif.Props.Reads
import Verif.Spec.Alike
import Verif.Proofs.Alike
import Verif.Props.Alike
import Verif.Tests.Base
import Verif.Tests.Lexical
import Verif.Tests.Syntax
import Verif.Tests.Legacy
import Verif.Tests.Blocks
import Verif.Tests.De
import Verif.Model.ValueEq
import Verif.Spec.ValueEq
import Verif.Proofs.ValueEq
import Verif.Proofs.ValueEqMerge
import Verif.Props.ValueEq
import Verif.Spec.Laid
import Verif.Proofs.Laid
import Verif.Props.Laid
import Verif.Spec.OldLaid
import Verif.Proofs.OldLaid
import Verif.Props.OldLaid
import Verif.Model.Calls
import Verif.Proofs.Calls
import Verif.Model.OldCalls
import Verif.Spec.Depth
import Verif.Proofs.OldCalls
import Verif.Proofs.Depth
import Verif.Props.Calls
import Verif.Proofs.EscapeFail
import Verif.Proofs.OldEscapeFail
import Verif.Proofs.AtSuffix
import Verif.Props.EscapeErrors
import Verif.Props.Messages
import Verif.Props.Conversions
import Verif.Model.Debug
import Verif.Spec.Debug
import Verif.Proofs.Debug
import Verif.Proofs.DebugValue
import Verif.Props.Debug
import Verif.Spec.Calls
import Verif.Proofs.CallsLower
import Verif.Spec.Write
import Verif.Proofs.Write
import Verif.Props.Write
import Verif.Model.Traits
import Verif.Spec.Traits
import Verif.Proofs.Traits
import Verif.Props.Traits
import Verif.Props.Schema
import Verif.Proofs.Embed
import Verif.Props.Embed
import Verif.Spec.LineEnds
import Verif.Proofs.LineEnds
import Verif.Proofs.LineEndsDown
import Verif.Props.LineEnds
import Verif.Props.DebugText
import Verif.Spec.OldLineEnds
import Verif.Proofs.OldLineEnds
import Verif.Props.OldLineEnds
import Verif.Props.OldEmbed
import Verif.Model.ErrorAt
import Verif.Spec.ErrorAt
import Verif.Proofs.ErrorAt
import Verif.Props.ErrorAt
import Verif.Proofs.OldErrorAt
import Verif.Props.OldErrorAt
import Verif.Spec.Slices
import Verif.Spec.OldSlices
import Verif.Proofs.Slices
import Verif.Proofs.OldSlices
import Verif.Proofs.SlicesDe
import Verif.Props.Slices
import Verif.Spec.Refused
import Verif.Proofs.NumberEnd
import Verif.Props.Refused
import Verif.Spec.RustTerm
import Verif.Props.RustTerm
import Verif.Model.Tools
import Verif.Props.Tools
import Verif.Spec.Pieces
import Verif.Proofs.Pieces
import Verif.Props.Pieces
import Verif.Proofs.LastChar
import Verif.Spec.Failure
import Verif.Proofs.Failure
import Verif.Proofs.FailureMain
import Verif.Proofs.FailureOrder
import Verif.Props.Failure
import Verif.Spec.Edit
import Verif.Proofs.Edit
import Verif.Props.Edit
import Verif.Spec.OldEdit
import Verif.Proofs.OldEdit
import Verif.Props.OldEdit
import Verif.Spec.EditRead
import Verif.Props.ObjectTypes
import Verif.Props.EditRead
import Verif.Proofs.EditRead
import Verif.Proofs.AlikePlace
import Verif.Props.Spelling
import Verif.Spec.PlainData
import Verif.Proofs.AnyValue
import Verif.Props.AnyValue
import Verif.Spec.Wording
import Verif.Props.Wording
import Verif.Props.OldRefused
import Verif.Props.OldEmbedIff
import Verif.Witness.Base
import Verif.Witness.Document
import Verif.Witness.Text
import Verif.Witness.Legacy
import Verif.Witness.Merge
import Verif.Witness.Blocks
import Verif.Witness.Types
import Verif.Witness.De
import Verif.Witness.DeEdit
import Verif.Spec.Truncate
import Verif.Proofs.Truncate
import Verif.Proofs.OldTruncate
import Verif.Props.Truncate
import Verif.Witness.Truncate
import Verif.Spec.Rename
import Verif.Proofs.Rename
import Verif.Proofs.OldRename
import Verif.Props.Rename
import Verif.Witness.Rename
import Verif.Props.OwnedValue
import Verif.Props.Tables
import Verif.Witness.Tables
import Verif.Props.BlocksPlace
import Verif.Proofs.RecognizeFloat
import Verif.Model.Incomplete
import Verif.Spec.Incomplete
import Verif.Proofs.Incomplete
import Verif.Props.Incomplete
import Verif.Props.Bytes
import Verif.Witness.Bytes
import Verif.Props.DeKeys
import Verif.Witness.DeKeys
import Verif.Props.OldStrings
import Verif.Witness.OldStrings
import Verif.Props.DeAttrs
import Verif.Witness.DeAttrs
import Verif.Props.Work
import Verif.Props.Brackets
import Verif.Props.OldWork
import Verif.Props.DebugTree
import Verif.Model.DebugLine
import Verif.Proofs.DebugLine
import Verif.Spec.Line
import Verif.Props.DebugLine
import Verif.Props.BlocksEq
import Verif.Props.DebugError
import Verif.Props.CutConfig
import Verif.Props.Files
import Verif.Proofs.MergeStages
import Verif.Proofs.MergeUnique
import Verif.Props.Stages
import Verif.Spec.Grown
import Verif.Props.CutMerged
import Verif.Props.BlocksEqTrans
import Verif.Props.CutMergedBytes
