import Verif.StringView.Props
import Verif.StringView.OverloadProps
import Verif.Strings.Props
import Verif.Substring.Props
import Verif.Text.Props
import Verif.Text.CatObjects
import Verif.Text.CatTypes
import Verif.ToNumber.Props
import Verif.ToNumber.FloatProps
import Verif.SlidingBuffer.Props
import Verif.SlidingBuffer.Throw
import Verif.Integer.BitManip
import Verif.Integer.GcdLcm
import Verif.Integer.NumUtil
import Verif.Statistics.Props
import Verif.Statistics.Range
import Verif.Span.Props
import Verif.Span.Construct
import Verif.Optional.Props
import Verif.Optional.Compare
import Verif.Optional.Ref
import Verif.Optional.Members
import Verif.Expected.Props
import Verif.Expected.Monadic
import Verif.Finalizer
import Verif.TypeName
import Verif.TimeUtil
import Verif.Stream
import Verif.Hexdump.Props
import Verif.Hexdump.Forward
import Verif.SmallVector.Violated
import Verif.Containers.Traversal
import Verif.SmallVector.Iterators
import Verif.Trigger.Props
import Verif.Trigger.Fair
import Verif.ThreadPool.Witness
import Verif.ThreadPool.Fair
import Verif.Date.Text
import Verif.Date.FormatProps
import Verif.Date.FormatParts
import Verif.Date.ParseProps
import Verif.Date.ParseNamesProps
import Verif.Date.ParseWordsProps
import Verif.Date.ParsePartsSpec
import Verif.Date.ParseParts
import Verif.Date.ParsePartsReads
import Verif.Date.ParseAnyProps
import Verif.Date.ParsePlain
import Verif.Date.ParseSoundProps
import Verif.Date.ParseCalm
import Verif.Date.ParseTotal
import Verif.Date.ParseAmounts
import Verif.Date.ParseTotalProps
import Verif.Date.Partial
import Verif.Date.PartialProps
import Verif.Variant.Guarantees
import Verif.Variant.Access
import Verif.Variant.Choice
import Verif.Variant.Members
import Verif.Strings.Regex
import Verif.Strings.Inserter
import Verif.Strings.JoinMemory
import Verif.Text.CatMemory
import Verif.Strings.Views
import Verif.Strings.Alias
import Verif.Expected.Void
import Verif.ToNumber.IeeeProps
import Verif.ToNumber.CatFloat
import Verif.NumUtil.Ulp
import Verif.Ieee.Sqrt
import Verif.Statistics.Ieee
import Verif.Statistics.IeeeLemmas
import Verif.Statistics.IeeeProps
import Verif.Expected.Members
import Verif.Expected.RefQual
import Verif.ThreadPool.Failure
import Verif.ThreadPool.Own
import Verif.ThreadPool.UserCode
import Verif.ThreadPool.Race
import Verif.ThreadPool.Linear
import Verif.Trigger.Race
import Verif.ThreadPool.Delay
import Verif.ThreadPool.AddTask
import Verif.Date.TextParts
import Verif.Date.TextPartsProps
import Verif.NumUtil.Orders
import Verif.Date.ParseSequence
import Verif.Date.StreamState
import Verif.Date.StreamStateProps
import Verif.Date.Keyword
import Verif.Date.KeywordProps
import Verif.Variant.Dispatch
import Verif.Traits.Invoke
import Verif.Expected.Swap
import Verif.Expected.Convert
import Verif.Date.RoundFloat
import Verif.Date.UnitRatio
import Verif.Date.FloatTime
import Verif.ThreadPool.HandleValues
import Verif.Hexdump.Calls
import Verif.Hexdump.Helper
import Verif.OwnContent
