import Verif.Base
import Verif.Lemmas.Allocator
import Verif.Lemmas.AnyAllocator
import Verif.Lemmas.AnyAnswers
import Verif.Lemmas.AnyAnswersCount
import Verif.Lemmas.Api
import Verif.Lemmas.ArgConcat
import Verif.Lemmas.ArgDefs
import Verif.Lemmas.ArgNormal
import Verif.Lemmas.ArgParse
import Verif.Lemmas.ArgParseDebug
import Verif.Lemmas.ArgParseProps
import Verif.Lemmas.ArgParseWord
import Verif.Lemmas.ArgWritten
import Verif.Lemmas.Atomic
import Verif.Lemmas.AtomicBarrier
import Verif.Lemmas.AtomicClients
import Verif.Lemmas.AtomicMSVC
import Verif.Lemmas.AtomicOnce
import Verif.Lemmas.AtomicShare
import Verif.Lemmas.AtomicStack
import Verif.Lemmas.BitPrograms
import Verif.Lemmas.Bitset
import Verif.Lemmas.BitsetAlias
import Verif.Lemmas.BitsetCost
import Verif.Lemmas.BitsetProps
import Verif.Lemmas.BitsetReach
import Verif.Lemmas.BitsetRefuse
import Verif.Lemmas.BitsetWord
import Verif.Lemmas.Build
import Verif.Lemmas.BuildFiles
import Verif.Lemmas.BuildTools
import Verif.Lemmas.ContainerDebug
import Verif.Lemmas.Destroyed
import Verif.Lemmas.Dictionary
import Verif.Lemmas.ExampleProgram
import Verif.Lemmas.Examples
import Verif.Lemmas.Fair
import Verif.Lemmas.FairSpin
import Verif.Lemmas.Fields
import Verif.Lemmas.Format
import Verif.Lemmas.FormatNeg
import Verif.Lemmas.FormatWord
import Verif.Lemmas.Guarded
import Verif.Lemmas.Init
import Verif.Lemmas.LibC
import Verif.Lemmas.Limits
import Verif.Lemmas.List
import Verif.Lemmas.ListFrame
import Verif.Lemmas.ListNodes
import Verif.Lemmas.ListProps
import Verif.Lemmas.ListReach
import Verif.Lemmas.ListSame
import Verif.Lemmas.ListTarget
import Verif.Lemmas.ListTargetReach
import Verif.Lemmas.LockOrder
import Verif.Lemmas.Macros
import Verif.Lemmas.Merge
import Verif.Lemmas.NullPointers
import Verif.Lemmas.NumOrder
import Verif.Lemmas.Numbers
import Verif.Lemmas.Owned
import Verif.Lemmas.Pointers
import Verif.Lemmas.Primes
import Verif.Lemmas.Replace
import Verif.Lemmas.Requests
import Verif.Lemmas.RequestsMore
import Verif.Lemmas.Rotate
import Verif.Lemmas.Shared
import Verif.Lemmas.SharedLists
import Verif.Lemmas.SharedMixed
import Verif.Lemmas.SharedVec
import Verif.Lemmas.Sieve
import Verif.Lemmas.Split
import Verif.Lemmas.Stays
import Verif.Lemmas.String
import Verif.Lemmas.StringAlias
import Verif.Lemmas.StringAssert
import Verif.Lemmas.StringCost
import Verif.Lemmas.StringData
import Verif.Lemmas.StringDebug
import Verif.Lemmas.StringMake
import Verif.Lemmas.StringNeg
import Verif.Lemmas.StringPointers
import Verif.Lemmas.StringProps
import Verif.Lemmas.StringQuiet
import Verif.Lemmas.StringReach
import Verif.Lemmas.StringRefuse
import Verif.Lemmas.StringSame
import Verif.Lemmas.StringSearch
import Verif.Lemmas.StringWord
import Verif.Lemmas.StringWordReach
import Verif.Lemmas.Sync
import Verif.Lemmas.Targets
import Verif.Lemmas.Tends
import Verif.Lemmas.TestSuite
import Verif.Lemmas.Thread
import Verif.Lemmas.Together
import Verif.Lemmas.Transfer
import Verif.Lemmas.Types
import Verif.Lemmas.Undo
import Verif.Lemmas.Vector
import Verif.Lemmas.VectorAlias
import Verif.Lemmas.VectorBounds
import Verif.Lemmas.VectorBytes
import Verif.Lemmas.VectorBytesSim
import Verif.Lemmas.VectorCost
import Verif.Lemmas.VectorDebug
import Verif.Lemmas.VectorDtor
import Verif.Lemmas.VectorEach
import Verif.Lemmas.VectorNeg
import Verif.Lemmas.VectorOracle
import Verif.Lemmas.VectorOrder
import Verif.Lemmas.VectorProps
import Verif.Lemmas.VectorReach
import Verif.Lemmas.VectorSame
import Verif.Lemmas.VectorSearch
import Verif.Lemmas.VectorShrink
import Verif.Lemmas.VectorSwap
import Verif.Lemmas.VectorWord
import Verif.Lemmas.VectorWordReach
import Verif.Lemmas.ViewChain
import Verif.Lemmas.WinThreads
import Verif.Lemmas.Windows
import Verif.Lemmas.Work
import Verif.Model.Allocator
import Verif.Model.Api
import Verif.Model.ArgParse
import Verif.Model.ArgParseDebug
import Verif.Model.ArgParseWord
import Verif.Model.ArgTypes
import Verif.Model.Atomic
import Verif.Model.AtomicMSVC
import Verif.Model.Bitset
import Verif.Model.BitsetAlias
import Verif.Model.BitsetDebug
import Verif.Model.BitsetWord
import Verif.Model.Build
import Verif.Model.BuildTools
import Verif.Model.Destroyed
import Verif.Model.Div64
import Verif.Model.Examples
import Verif.Model.Format
import Verif.Model.FormatWord
import Verif.Model.Guarded
import Verif.Model.Initializers
import Verif.Model.LibC
import Verif.Model.LibCMem
import Verif.Model.Limits
import Verif.Model.List
import Verif.Model.ListDebug
import Verif.Model.ListTarget
import Verif.Model.LockOrder
import Verif.Model.Macros
import Verif.Model.Merge
import Verif.Model.NullPointers
import Verif.Model.Owned
import Verif.Model.Pointers
import Verif.Model.Primes
import Verif.Model.Sgr
import Verif.Model.Sieve
import Verif.Model.Sources
import Verif.Model.String
import Verif.Model.StringAlias
import Verif.Model.StringData
import Verif.Model.StringDebug
import Verif.Model.StringPointers
import Verif.Model.StringWord
import Verif.Model.Sync
import Verif.Model.Targets
import Verif.Model.TestSuite
import Verif.Model.Thread
import Verif.Model.Transfer
import Verif.Model.Types
import Verif.Model.Vector
import Verif.Model.VectorBytes
import Verif.Model.VectorDebug
import Verif.Model.VectorDtor
import Verif.Model.VectorEach
import Verif.Model.VectorOrder
import Verif.Model.VectorSwap
import Verif.Model.VectorWord
import Verif.Model.ViewObject
import Verif.Model.WinThreads
import Verif.Model.Windows
import Verif.Model.Work
import Verif.Props.Allocator
import Verif.Props.AnyAllocator
import Verif.Props.AnyAnswers
import Verif.Props.Api
import Verif.Props.ArgConcat
import Verif.Props.ArgDefs
import Verif.Props.ArgNormal
import Verif.Props.ArgParse
import Verif.Props.ArgParseWord
import Verif.Props.ArgWritten
import Verif.Props.Atomic
import Verif.Props.AtomicBarrier
import Verif.Props.AtomicClients
import Verif.Props.AtomicMSVC
import Verif.Props.AtomicOnce
import Verif.Props.AtomicShare
import Verif.Props.AtomicStack
import Verif.Props.BitPrograms
import Verif.Props.Bitset
import Verif.Props.BitsetCost
import Verif.Props.BitsetRefuse
import Verif.Props.BitsetSizes
import Verif.Props.BitsetWord
import Verif.Props.Build
import Verif.Props.BuildTools
import Verif.Props.ContainerDebug
import Verif.Props.Defaults
import Verif.Props.Destroyed
import Verif.Props.Dictionary
import Verif.Props.Div64
import Verif.Props.Examples
import Verif.Props.Fair
import Verif.Props.Fields
import Verif.Props.Format
import Verif.Props.FormatNeg
import Verif.Props.FormatWord
import Verif.Props.Guarded
import Verif.Props.Init
import Verif.Props.Initializers
import Verif.Props.LibC
import Verif.Props.Limits
import Verif.Props.List
import Verif.Props.ListAccess
import Verif.Props.ListNodes
import Verif.Props.ListSame
import Verif.Props.ListTarget
import Verif.Props.LockOrder
import Verif.Props.Macros
import Verif.Props.Merge
import Verif.Props.Mixed
import Verif.Props.NullPointers
import Verif.Props.NullResults
import Verif.Props.NumOrder
import Verif.Props.Numbers
import Verif.Props.Owned
import Verif.Props.Pointers
import Verif.Props.Primes
import Verif.Props.Replace
import Verif.Props.Requests
import Verif.Props.Rotate
import Verif.Props.Sgr
import Verif.Props.SharedLists
import Verif.Props.Sieve
import Verif.Props.Split
import Verif.Props.String
import Verif.Props.StringAlias
import Verif.Props.StringCost
import Verif.Props.StringData
import Verif.Props.StringDebug
import Verif.Props.StringNeg
import Verif.Props.StringPointers
import Verif.Props.StringRefuse
import Verif.Props.StringSame
import Verif.Props.StringWord
import Verif.Props.Sync
import Verif.Props.Targets
import Verif.Props.TestSuite
import Verif.Props.Thread
import Verif.Props.Together
import Verif.Props.Transfer
import Verif.Props.Types
import Verif.Props.Undo
import Verif.Props.Vector
import Verif.Props.VectorAlias
import Verif.Props.VectorBytes
import Verif.Props.VectorCost
import Verif.Props.VectorDebug
import Verif.Props.VectorDtor
import Verif.Props.VectorEach
import Verif.Props.VectorNeg
import Verif.Props.VectorOracle
import Verif.Props.VectorOrder
import Verif.Props.VectorSame
import Verif.Props.VectorShrink
import Verif.Props.VectorSwap
import Verif.Props.VectorWord
import Verif.Props.ViewChain
import Verif.Props.ViewObject
import Verif.Props.WinThreads
import Verif.Props.Windows
import Verif.Props.Work
import Verif.Spec.Allocator
import Verif.Spec.AnyAllocator
import Verif.Spec.AnyAnswers
import Verif.Spec.Api
import Verif.Spec.ArgDefs
import Verif.Spec.ArgNormal
import Verif.Spec.ArgParse
import Verif.Spec.ArgParseRun
import Verif.Spec.ArgParseWord
import Verif.Spec.ArgWritten
import Verif.Spec.Atomic
import Verif.Spec.AtomicBarrier
import Verif.Spec.AtomicClients
import Verif.Spec.AtomicOnce
import Verif.Spec.AtomicShare
import Verif.Spec.AtomicStack
import Verif.Spec.BitPrograms
import Verif.Spec.Bitset
import Verif.Spec.BitsetCost
import Verif.Spec.BitsetRun
import Verif.Spec.BitsetWord
import Verif.Spec.Build
import Verif.Spec.BuildTools
import Verif.Spec.ContainerDebug
import Verif.Spec.Dictionary
import Verif.Spec.ExampleProgram
import Verif.Spec.Fair
import Verif.Spec.Fields
import Verif.Spec.Format
import Verif.Spec.Guarded
import Verif.Spec.Heap
import Verif.Spec.Initializers
import Verif.Spec.LibC
import Verif.Spec.LibCRun
import Verif.Spec.Limits
import Verif.Spec.List
import Verif.Spec.ListNodes
import Verif.Spec.ListRun
import Verif.Spec.ListSame
import Verif.Spec.ListTarget
import Verif.Spec.LockOrder
import Verif.Spec.Macros
import Verif.Spec.Merge
import Verif.Spec.Mixed
import Verif.Spec.NullPointers
import Verif.Spec.NumOrder
import Verif.Spec.Numbers
import Verif.Spec.Owned
import Verif.Spec.Pointers
import Verif.Spec.Primes
import Verif.Spec.Replace
import Verif.Spec.Requests
import Verif.Spec.Rotate
import Verif.Spec.Sgr
import Verif.Spec.SharedLists
import Verif.Spec.Split
import Verif.Spec.String
import Verif.Spec.StringCost
import Verif.Spec.StringDebug
import Verif.Spec.StringPointers
import Verif.Spec.StringRun
import Verif.Spec.StringSame
import Verif.Spec.StringWord
import Verif.Spec.Sync
import Verif.Spec.Thread
import Verif.Spec.Together
import Verif.Spec.Types
import Verif.Spec.Undo
import Verif.Spec.Vector
import Verif.Spec.VectorAnyAllocator
import Verif.Spec.VectorBytes
import Verif.Spec.VectorCost
import Verif.Spec.VectorDebug
import Verif.Spec.VectorDtor
import Verif.Spec.VectorOrder
import Verif.Spec.VectorRun
import Verif.Spec.VectorSame
import Verif.Spec.VectorSorted
import Verif.Spec.VectorWord
import Verif.Spec.ViewChain
import Verif.Spec.Windows
import Verif.Spec.Work
import Verif.Axioms
