import Verif.Core
import Verif.Model.Serialize
import Verif.Model.Span
import Verif.Model.Deserializer
import Verif.Spec.Bytes
import Verif.Spec.Cursor
import Verif.Spec.Lex
import Verif.Lemmas.Serialize
import Verif.Lemmas.Span
import Verif.Lemmas.Deserializer
import Verif.Props.Serialize
import Verif.Props.Span
import Verif.Props.Deserializer
import Verif.Model.Base64
import Verif.Spec.Base64
import Verif.Lemmas.Base64
import Verif.Props.Base64
import Verif.Model.Unicode
import Verif.Spec.Utf8
import Verif.Lemmas.Unicode
import Verif.Props.Unicode
import Verif.Model.String
import Verif.Spec.Strings
import Verif.Lemmas.String
import Verif.Props.String
import Verif.Model.WordWrap
import Verif.Spec.Wrap
import Verif.Lemmas.WordWrap
import Verif.Lemmas.WordWrapFit
import Verif.Lemmas.WordWrapCut
import Verif.Props.WordWrap
import Verif.Model.Number
import Verif.Model.Parser
import Verif.Spec.Numeral
import Verif.Lemmas.Number
import Verif.Lemmas.Parser
import Verif.Props.Parser
import Verif.Lemmas.Hoare
import Verif.Model.Sort
import Verif.Spec.Order
import Verif.Lemmas.Sort
import Verif.Props.Sort
import Verif.Lemmas.SortCost
import Verif.Props.SortCost
import Verif.Model.Tree
import Verif.Spec.Tree
import Verif.Lemmas.Tree
import Verif.Lemmas.TreeOrder
import Verif.Lemmas.TreeEdit
import Verif.Props.Tree
import Verif.Model.Flags
import Verif.Props.Flags
import Verif.Model.Signal
import Verif.Spec.Signal
import Verif.Lemmas.Signal
import Verif.Props.Signal
import Verif.Model.SpinLock
import Verif.Props.SpinLock
import Verif.Model.ScopeExit
import Verif.Spec.ScopeExit
import Verif.Props.ScopeExit
import Verif.Model.Singleton
import Verif.Props.Singleton
import Verif.Model.OMap
import Verif.Props.OMap
import Verif.Model.Views
import Verif.Props.Views
import Verif.Model.Enum
import Verif.Props.Enum
import Verif.Model.Misc
import Verif.Props.Misc
import Verif.Model.Assert
import Verif.Props.Assert
import Verif.Model.Exception
import Verif.Props.Exception
import Verif.Model.Linq
import Verif.Props.Linq
import Verif.Model.LinqEffects
import Verif.Spec.Visit
import Verif.Props.LinqEffects
import Verif.Model.SharedRef
import Verif.Props.SharedRef
import Verif.Model.UniqueRef
import Verif.Props.UniqueRef
import Verif.Lemmas.ComputeFloat
import Verif.Model.FloatParse
import Verif.Spec.Decimal
import Verif.Lemmas.FloatLongest
import Verif.Model.Platform
import Verif.Model.Bigint
import Verif.Lemmas.Platform
import Verif.Lemmas.BigintOps
import Verif.Model.DigitComp
import Verif.Lemmas.DigitMantissa
import Verif.Lemmas.DigitCompNearest
import Verif.Spec.FloatEnv
import Verif.Spec.Special
import Verif.Model.FloatFrom
import Verif.Lemmas.FloatEnv
import Verif.Lemmas.FloatFrom
import Verif.Lemmas.FloatSpecial
import Verif.Lemmas.FloatUnique
import Verif.Lemmas.FloatRange
import Verif.Props.FloatFrom
import Verif.Props.ParserHistory
import Verif.Model.VersionText
import Verif.Props.VersionText
import Verif.Model.MathFloat
import Verif.Spec.MathFloat
import Verif.Lemmas.RoundErr
import Verif.Lemmas.MathFloat
import Verif.Lemmas.MathPow
import Verif.Props.MathFloat
import Verif.Props.MathPow
import Verif.Model.Demangle
import Verif.Props.Demangle
import Verif.Model.TypeTraits
import Verif.Spec.Types
import Verif.Props.TypeTraits
import Verif.Spec.Release
import Verif.Props.Release
import Verif.Props.MathLong
import Verif.Model.SignalCopy
import Verif.Spec.SignalCopy
import Verif.Lemmas.SignalCopy
import Verif.Props.SignalCopy
import Verif.Spec.SpinLockLive
import Verif.Props.SpinLockLive
import Verif.Model.ExceptionText
import Verif.Lemmas.ExceptionText
import Verif.Props.ExceptionText
import Verif.Model.SingletonExit
import Verif.Props.SingletonExit
import Verif.Model.TreeMemory
import Verif.Lemmas.TreeMemory
import Verif.Props.TreeMemory
import Verif.Model.LogThreads
import Verif.Props.LogThreads
import Verif.Model.TreeCost
import Verif.Props.TreeCost
import Verif.Model.TreeAddr
import Verif.Spec.TreeAddr
import Verif.Lemmas.TreeAddr
import Verif.Lemmas.TreeAddrEdit
import Verif.Lemmas.TreeAddrKeep
import Verif.Props.TreeAddr
import Verif.Spec.TreeErase
import Verif.Props.TreeErase
import Verif.Spec.NumberList
import Verif.Props.NumberList
import Verif.Model.SharedThreads
import Verif.Spec.SharedThreads
import Verif.Lemmas.SharedThreads
import Verif.Props.SharedThreads
import Verif.Props.WrapAgain
import Verif.Props.TreeUndo
import Verif.Props.FloatText
import Verif.Props.KeepOrder
import Verif.Props.Piecewise
import Verif.Spec.DecimalRound
import Verif.Model.SortDepth
import Verif.Props.SortDepth
import Verif.Spec.DataRace
import Verif.Model.SingletonThreads
import Verif.Props.SingletonThreads
import Verif.Props.TextPieces
import Verif.Props.SortSame
import Verif.Props.WrapWider
import Verif.Model.SpinLocks
import Verif.Spec.Locks
import Verif.Props.SpinLocks
import Verif.Spec.LocksLive
import Verif.Props.SpinLocksLive
import Verif.Model.SpanMem
import Verif.Spec.SpanMem
import Verif.Props.SpanMem
import Verif.Spec.Overloaded
import Verif.Model.Overloaded
import Verif.Props.Overloaded
import Verif.Spec.Utf8Any
import Verif.Props.UnicodeAny
import Verif.Model.SignalNet
import Verif.Spec.SignalNet
import Verif.Lemmas.SignalNet
import Verif.Props.SignalNet
import Verif.Model.Preprocessor
import Verif.Model.Config
import Verif.Spec.Config
import Verif.Lemmas.Config
import Verif.Props.Config
import Verif.Model.Windows
import Verif.Spec.Windows
import Verif.Props.Windows
import Verif.Model.Macros
import Verif.Spec.Macros
import Verif.Props.Macros
import Verif.Model.AssertOverloads
import Verif.Spec.AssertOverloads
import Verif.Props.AssertOverloads
import Verif.Model.SpanConv
import Verif.Spec.SpanConv
import Verif.Props.SpanConv
import Verif.Model.LinqReuse
import Verif.Spec.LinqReuse
import Verif.Props.LinqReuse
import Verif.Model.VisitMany
import Verif.Spec.VisitMany
import Verif.Props.VisitMany
import Verif.Props.SharedGraph
import Verif.Model.RefCompare
import Verif.Spec.RefCompare
import Verif.Props.RefCompare
import Verif.Model.SingletonLibs
import Verif.Props.SingletonLibs
import Verif.Model.Destructable
import Verif.Props.Destructable
import Verif.Model.MathExcess
import Verif.Spec.MathExcess
import Verif.Lemmas.MathExcess
import Verif.Lemmas.MathExcessPow
import Verif.Props.MathExcess
import Verif.Model.TreeInit
import Verif.Spec.TreeInit
import Verif.Props.TreeInit
import Verif.Model.TreeAlloc
import Verif.Spec.TreeAlloc
import Verif.Lemmas.TreeAlloc
import Verif.Props.TreeAlloc
import Verif.Model.SignalAlloc
import Verif.Spec.SignalAlloc
import Verif.Props.SignalAlloc
import Verif.Model.SortCopies
import Verif.Spec.SortCopies
import Verif.Lemmas.SortCopies
import Verif.Props.SortCopies
import Verif.Model.LinqAlloc
import Verif.Spec.LinqAlloc
import Verif.Lemmas.LinqAlloc
import Verif.Props.LinqAlloc
import Verif.Model.TreeAssign
import Verif.Spec.TreeAssign
import Verif.Lemmas.TreeAssign
import Verif.Props.TreeAssign
import Verif.Model.TreeDepth
import Verif.Props.TreeDepth
import Verif.Model.VirtualBases
import Verif.Spec.VirtualBases
import Verif.Props.VirtualBases
import Verif.Model.ViewsLive
import Verif.Props.ViewsLive
import Verif.Model.CompareCalls
import Verif.Spec.CompareCalls
import Verif.Props.CompareCalls
import Verif.Model.TreeIterAlloc
import Verif.Spec.TreeIterAlloc
import Verif.Props.TreeIterAlloc
import Verif.Model.MakeString
import Verif.Spec.MakeString
import Verif.Props.MakeString
import Verif.Model.VisitRefs
import Verif.Spec.VisitRefs
import Verif.Props.VisitRefs
import Verif.Model.TreeNowhere
import Verif.Props.TreeNowhere
import Verif.Model.ViewsNodes
import Verif.Props.ViewsNodes
import Verif.Model.StreamFail
import Verif.Props.StreamFail
import Verif.Model.StreamFormat
import Verif.Props.StreamFormat
import Verif.Model.StreamTypes
import Verif.Props.StreamTypes
import Verif.Props.LinqCopies
import Verif.Model.AssertAndroid
import Verif.Props.AssertAndroid
import Verif.Conformance.Base64
import Verif.Conformance.String
import Verif.Conformance.Data
import Verif.Conformance.Containers
import Verif.Conformance.Objects
