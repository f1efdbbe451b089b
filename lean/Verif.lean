import Verif.Basic
import Verif.Spec.Accept
import Verif.Spec.Arena
import Verif.Spec.Concurrent
import Verif.Spec.Declared
import Verif.Spec.Decode
import Verif.Spec.EncWord
import Verif.Spec.Fits
import Verif.Spec.Gen.Closed
import Verif.Spec.Gen.Comments
import Verif.Spec.Gen.Declared
import Verif.Spec.Gen.Derives
import Verif.Spec.Gen.Describes
import Verif.Spec.Gen.Field
import Verif.Spec.Gen.Getter
import Verif.Spec.Gen.GoFile
import Verif.Spec.Gen.GoText
import Verif.Spec.Gen.GoTypes
import Verif.Spec.Gen.Graph
import Verif.Spec.Gen.Header
import Verif.Spec.Gen.Imports
import Verif.Spec.Gen.Legal
import Verif.Spec.Gen.Lexical
import Verif.Spec.Gen.Literals
import Verif.Spec.Gen.Names
import Verif.Spec.Gen.Paths
import Verif.Spec.Gen.ProtoGrammar
import Verif.Spec.Gen.Reads
import Verif.Spec.Gen.Scope
import Verif.Spec.Gen.Search
import Verif.Spec.Gen.Source
import Verif.Spec.Gen.StrLit
import Verif.Spec.Gen.Switches
import Verif.Spec.Gen.Text
import Verif.Spec.Gen.Texts
import Verif.Spec.Gen.TokenTypes
import Verif.Spec.Gen.Warm
import Verif.Spec.Grammar
import Verif.Spec.Heap
import Verif.Spec.Jobs
import Verif.Spec.Lazy
import Verif.Spec.Left
import Verif.Spec.MemEncode
import Verif.Spec.Memory
import Verif.Spec.Narrowed
import Verif.Spec.Nesting
import Verif.Spec.Older
import Verif.Spec.OneofCases
import Verif.Spec.Output
import Verif.Spec.Plain
import Verif.Spec.Pool
import Verif.Spec.Rearranged
import Verif.Spec.Records
import Verif.Spec.Regular
import Verif.Spec.Retyped
import Verif.Spec.Round
import Verif.Spec.Same
import Verif.Spec.Schema
import Verif.Spec.TagWords
import Verif.Spec.Types
import Verif.Spec.Varint
import Verif.Spec.Weight
import Verif.Spec.Whole
import Verif.Model.Api
import Verif.Model.Coder
import Verif.Model.DecodeLeft
import Verif.Model.DecodePool
import Verif.Model.Decoder
import Verif.Model.Desc
import Verif.Model.DescMap
import Verif.Model.Encoder
import Verif.Model.Gen.Antlr.Ast
import Verif.Model.Gen.Antlr.Atn
import Verif.Model.Gen.Antlr.Input
import Verif.Model.Gen.Antlr.LexerData
import Verif.Model.Gen.Antlr.LexerSim
import Verif.Model.Gen.Antlr.Parser
import Verif.Model.Gen.Antlr.ParserCode
import Verif.Model.Gen.Antlr.ParserData
import Verif.Model.Gen.Antlr.Predict
import Verif.Model.Gen.Ast
import Verif.Model.Gen.Code
import Verif.Model.Gen.Comments
import Verif.Model.Gen.Enum
import Verif.Model.Gen.Field
import Verif.Model.Gen.Getter
import Verif.Model.Gen.GoNames
import Verif.Model.Gen.Grammar
import Verif.Model.Gen.Header
import Verif.Model.Gen.Imports
import Verif.Model.Gen.Lexer
import Verif.Model.Gen.Listener
import Verif.Model.Gen.Loader
import Verif.Model.Gen.Num
import Verif.Model.Gen.Options
import Verif.Model.Gen.Paths
import Verif.Model.Gen.Pipeline
import Verif.Model.Gen.Reader
import Verif.Model.Gen.Resolve
import Verif.Model.Gen.Search
import Verif.Model.Gen.Service
import Verif.Model.Gen.StrLit
import Verif.Model.Gen.Strs
import Verif.Model.Gen.Text
import Verif.Model.Gen.Verify
import Verif.Model.GoErrors
import Verif.Model.Goroutines
import Verif.Model.GrpcCodec
import Verif.Model.Heap
import Verif.Model.HeapCodec
import Verif.Model.MemDecoder
import Verif.Model.MemEncoder
import Verif.Model.MemSizer
import Verif.Model.Memory
import Verif.Model.Oneof
import Verif.Model.Protowire
import Verif.Model.Sizer
import Verif.Model.SliceGrow
import Verif.Model.Span
import Verif.Model.Tag
import Verif.Model.TypeCache
import Verif.Model.Value
import Verif.Model.Wire
import Verif.Lemmas.Acts
import Verif.Lemmas.AllocCount
import Verif.Lemmas.CacheFuel
import Verif.Lemmas.Carries
import Verif.Lemmas.Coders
import Verif.Lemmas.Consume
import Verif.Lemmas.DecMap
import Verif.Lemmas.DecRefine
import Verif.Lemmas.DecScalar
import Verif.Lemmas.DecShape
import Verif.Lemmas.DecTyped
import Verif.Lemmas.DecUnknown
import Verif.Lemmas.DescOf
import Verif.Lemmas.EncRefine
import Verif.Lemmas.EncodeMore
import Verif.Lemmas.Extend
import Verif.Lemmas.FieldFold
import Verif.Lemmas.Finalize
import Verif.Lemmas.Fixed
import Verif.Lemmas.Frame
import Verif.Lemmas.Fresh
import Verif.Lemmas.Gen.Antlr.AtnTree
import Verif.Lemmas.Gen.Antlr.Bound
import Verif.Lemmas.Gen.Antlr.Cache
import Verif.Lemmas.Gen.Antlr.First
import Verif.Lemmas.Gen.Antlr.Inv
import Verif.Lemmas.Gen.Antlr.Lang
import Verif.Lemmas.Gen.Antlr.Ll1
import Verif.Lemmas.Gen.Antlr.Numbers
import Verif.Lemmas.Gen.Antlr.ParserSets
import Verif.Lemmas.Gen.Antlr.ParserTree
import Verif.Lemmas.Gen.Antlr.PredCache
import Verif.Lemmas.Gen.Antlr.PredCert
import Verif.Lemmas.Gen.Antlr.PredCert13
import Verif.Lemmas.Gen.Antlr.PredCert27
import Verif.Lemmas.Gen.Antlr.PredCertRows
import Verif.Lemmas.Gen.Antlr.PredCode
import Verif.Lemmas.Gen.Antlr.PredExec
import Verif.Lemmas.Gen.Antlr.PredFull
import Verif.Lemmas.Gen.Antlr.PredMono
import Verif.Lemmas.Gen.Antlr.PredSites
import Verif.Lemmas.Gen.Antlr.PredTable
import Verif.Lemmas.Gen.Antlr.PredWords
import Verif.Lemmas.Gen.Antlr.Rows
import Verif.Lemmas.Gen.Antlr.Run
import Verif.Lemmas.Gen.Antlr.Table
import Verif.Lemmas.Gen.Antlr.Tokens
import Verif.Lemmas.Gen.Antlr.Tree
import Verif.Lemmas.Gen.Antlr.TreeDefs
import Verif.Lemmas.Gen.Antlr.TreeSound
import Verif.Lemmas.Gen.Antlr.Types
import Verif.Lemmas.Gen.Antlr.Words
import Verif.Lemmas.Gen.Chains
import Verif.Lemmas.Gen.CommentDirs
import Verif.Lemmas.Gen.FieldTypes
import Verif.Lemmas.Gen.Fields
import Verif.Lemmas.Gen.Getters
import Verif.Lemmas.Gen.GoScan
import Verif.Lemmas.Gen.GoStructs
import Verif.Lemmas.Gen.GoText
import Verif.Lemmas.Gen.GoTypes
import Verif.Lemmas.Gen.GoUnique
import Verif.Lemmas.Gen.Grammar
import Verif.Lemmas.Gen.GrammarFile
import Verif.Lemmas.Gen.GrammarNormal
import Verif.Lemmas.Gen.GrammarRules
import Verif.Lemmas.Gen.Legal
import Verif.Lemmas.Gen.Lexer
import Verif.Lemmas.Gen.Listener
import Verif.Lemmas.Gen.ListenerMsg
import Verif.Lemmas.Gen.ListenerTop
import Verif.Lemmas.Gen.Named
import Verif.Lemmas.Gen.Pipeline
import Verif.Lemmas.Gen.Reader
import Verif.Lemmas.Gen.ReaderLayout
import Verif.Lemmas.Gen.ReaderTree
import Verif.Lemmas.Gen.ReaderWalk
import Verif.Lemmas.Gen.Schema
import Verif.Lemmas.Gen.Separate
import Verif.Lemmas.Gen.Slots
import Verif.Lemmas.Gen.Structs
import Verif.Lemmas.Gen.Switches
import Verif.Lemmas.Gen.TextDecls
import Verif.Lemmas.Gen.TextEnum
import Verif.Lemmas.Gen.TextFile
import Verif.Lemmas.Gen.TextLines
import Verif.Lemmas.Gen.TextMessage
import Verif.Lemmas.Gen.TextNames
import Verif.Lemmas.Gen.TextPlain
import Verif.Lemmas.Gen.TextUnique
import Verif.Lemmas.GoTyped
import Verif.Lemmas.Group
import Verif.Lemmas.Heap
import Verif.Lemmas.HeapCodec
import Verif.Lemmas.Lazy
import Verif.Lemmas.Left
import Verif.Lemmas.Lift
import Verif.Lemmas.MapPerm
import Verif.Lemmas.Mem.Dec
import Verif.Lemmas.Mem.DecField
import Verif.Lemmas.Mem.DecStruct
import Verif.Lemmas.Mem.Enc
import Verif.Lemmas.Mem.EncRead
import Verif.Lemmas.Mem.EncStruct
import Verif.Lemmas.Mem.Frame
import Verif.Lemmas.Mem.Grow
import Verif.Lemmas.Mem.Interleave
import Verif.Lemmas.Mem.Keeps
import Verif.Lemmas.Mem.Prog
import Verif.Lemmas.Mem.Rep
import Verif.Lemmas.Mem.Shows
import Verif.Lemmas.Mem.Sim
import Verif.Lemmas.Mem.Size
import Verif.Lemmas.Mem.Top
import Verif.Lemmas.Mem.Value
import Verif.Lemmas.Narrowed
import Verif.Lemmas.Older
import Verif.Lemmas.Output
import Verif.Lemmas.Packed
import Verif.Lemmas.Parse
import Verif.Lemmas.Pool
import Verif.Lemmas.Rearranged
import Verif.Lemmas.Regular
import Verif.Lemmas.RegularField
import Verif.Lemmas.RegularSchema
import Verif.Lemmas.RegularStruct
import Verif.Lemmas.Relay
import Verif.Lemmas.Relayed
import Verif.Lemmas.Retyped
import Verif.Lemmas.Round
import Verif.Lemmas.RoundDepth
import Verif.Lemmas.RoundMsg
import Verif.Lemmas.RoundShape
import Verif.Lemmas.SameJoin
import Verif.Lemmas.SameMsg
import Verif.Lemmas.SameSelf
import Verif.Lemmas.SizeRefine
import Verif.Lemmas.Skip
import Verif.Lemmas.SlowMap
import Verif.Lemmas.Steps
import Verif.Lemmas.Tables
import Verif.Lemmas.TagExact
import Verif.Lemmas.TagParse
import Verif.Lemmas.TypeCache
import Verif.Lemmas.TypedPerm
import Verif.Lemmas.Varint
import Verif.Lemmas.Weight
import Verif.Lemmas.Whole
import Verif.Lemmas.ZigZag
import Verif.Props.Amplification
import Verif.Props.Arena
import Verif.Props.Canonical
import Verif.Props.Concurrent
import Verif.Props.Depth
import Verif.Props.Desc
import Verif.Props.DescMap
import Verif.Props.Fits
import Verif.Props.Gen.Closed
import Verif.Props.Gen.Code
import Verif.Props.Gen.Comments
import Verif.Props.Gen.Enum
import Verif.Props.Gen.Getter
import Verif.Props.Gen.GoNames
import Verif.Props.Gen.GoTypes
import Verif.Props.Gen.Grammar
import Verif.Props.Gen.Header
import Verif.Props.Gen.Imports
import Verif.Props.Gen.Input
import Verif.Props.Gen.Legal
import Verif.Props.Gen.Lexer
import Verif.Props.Gen.LexerSim
import Verif.Props.Gen.Listener
import Verif.Props.Gen.Literals
import Verif.Props.Gen.Loader
import Verif.Props.Gen.Names
import Verif.Props.Gen.Options
import Verif.Props.Gen.Parser
import Verif.Props.Gen.Paths
import Verif.Props.Gen.Pipeline
import Verif.Props.Gen.Predict
import Verif.Props.Gen.Reader
import Verif.Props.Gen.Resolve
import Verif.Props.Gen.Search
import Verif.Props.Gen.Service
import Verif.Props.Gen.StrLit
import Verif.Props.Gen.StructTag
import Verif.Props.Gen.Switches
import Verif.Props.Gen.Text
import Verif.Props.Gen.Verify
import Verif.Props.GrpcCodec
import Verif.Props.Heap
import Verif.Props.Jobs
import Verif.Props.Lazy
import Verif.Props.Left
import Verif.Props.Lists
import Verif.Props.Marshal
import Verif.Props.MemEncode
import Verif.Props.MemSize
import Verif.Props.Memory
import Verif.Props.Narrowed
import Verif.Props.Newer
import Verif.Props.Older
import Verif.Props.Oneof
import Verif.Props.Pool
import Verif.Props.Rearranged
import Verif.Props.Regular
import Verif.Props.Relay
import Verif.Props.RelayLimits
import Verif.Props.Retyped
import Verif.Props.Round
import Verif.Props.Sample
import Verif.Props.SampleBools
import Verif.Props.SampleBox
import Verif.Props.SampleItems
import Verif.Props.SampleMix
import Verif.Props.SampleMove
import Verif.Props.SampleNarrow
import Verif.Props.SampleNode
import Verif.Props.SampleOld
import Verif.Props.SampleRaw
import Verif.Props.SampleWide
import Verif.Props.Slices
import Verif.Props.Tags
import Verif.Props.Truncation
import Verif.Props.TypeCache
import Verif.Props.Unmarshal
import Verif.Props.Wire
