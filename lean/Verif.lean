import Verif.Props.Encoding
import Verif.Props.ParserCore
import Verif.Props.ParserText
import Verif.Props.ParserLit
import Verif.Props.Leftover
import Verif.Props.Dump
import Verif.Props.Value
import Verif.Props.Convert
import Verif.Props.Heap
import Verif.Props.Float
import Verif.Props.Decimal
import Verif.Props.Stream
import Verif.Props.Sink
import Verif.Props.Truncate
import Verif.Props.Stack
import Verif.Props.Stable
import Verif.Props.Threads
import Verif.Props.Pretty
import Verif.Props.Wrapper
import Verif.Props.ParseMemory
import Verif.Props.ConvertMemory
import Verif.Props.Bind
import Verif.Props.ObjectType
import Verif.Props.Message
import Verif.Props.Parts
import Verif.Props.DumpMessage
import Verif.Props.Live
import Verif.Props.ConvertMessage
import Verif.Props.StackOps
import Verif.Props.Lives
import Verif.Props.Steps
import Verif.Props.Effort
import Verif.Props.Refuse
import Verif.Props.Order
import Verif.Props.LiveRange
import Verif.Props.LivesRange
import Verif.Props.Size
import Verif.Props.SizeDouble
import Verif.Props.Settings
import Verif.Props.StreamState
import Verif.Props.Scalar
import Verif.Props.EqExact
import Verif.Props.EffortExact
import Verif.Props.PeekExact
import Verif.Props.ResetExact
import Verif.Props.LostExact
import Verif.Props.IndentExact
import Verif.Props.WholeExact
import Verif.Props.Noncharacter
import Verif.Props.Utf8Exact
import Verif.Props.LtExact
import Verif.Props.ExactText
import Verif.Props.RfcExact
import Verif.Props.Comment
import Verif.Props.Reread
import Verif.Props.DumpHeap
import Verif.Props.ExactCalls
import Verif.Props.ExactHandler
import Verif.Props.DumpPlain
import Verif.Props.Tested
import Verif.Conformity.Parser
import Verif.Conformity.Files
import Verif.Conformity.Serializer
import Verif.Conformity.Basic
import Verif.Conformity.Conversion
