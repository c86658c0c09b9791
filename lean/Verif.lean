import Verif.AggTwice
import Verif.Bytes
import Verif.BytesProofs
import Verif.Calm
import Verif.Compare
import Verif.Conc
import Verif.ConcInv
import Verif.ConcKeep
import Verif.ConcLin
import Verif.ConcLog
import Verif.ConcProps
import Verif.ConcSamples
import Verif.ConcTime
import Verif.Cost
import Verif.Count
import Verif.Cut
import Verif.CutMachine
import Verif.DiffExact
import Verif.Exec
import Verif.FindAvail
import Verif.FloatRun
import Verif.FloatStep
import Verif.Heap
import Verif.HeapAgg
import Verif.HeapDiff
import Verif.HeapDiffCost
import Verif.HeapNode
import Verif.HeapRead
import Verif.HeapReadCost
import Verif.HeapRoots
import Verif.HeapSet
import Verif.HeapSetApi
import Verif.HeapSetCost
import Verif.HeapSetCost2
import Verif.HeapSetProofs
import Verif.HeapSetProofs2
import Verif.HeapShare
import Verif.HeapTable
import Verif.HeapTableProofs
import Verif.Iface
import Verif.IfaceFlat
import Verif.IfaceRun
import Verif.IfaceStep
import Verif.Machine
import Verif.NoSwap
import Verif.PanicStep
import Verif.Panics
import Verif.PanicsAgg
import Verif.PanicsDiff
import Verif.Prefix
import Verif.PropAggExact
import Verif.PropAggTwice
import Verif.PropAlgebra
import Verif.PropAlloc
import Verif.PropBoth
import Verif.PropCode
import Verif.PropCode2
import Verif.PropConcBad
import Verif.PropConcBad2
import Verif.PropConcMix
import Verif.PropConcMixEx
import Verif.PropConcSets
import Verif.PropConcSteady
import Verif.PropConcSteady2
import Verif.PropConcTables
import Verif.PropContains
import Verif.PropCost
import Verif.PropDiffCost
import Verif.PropDiffOrder
import Verif.PropFloat
import Verif.PropIface
import Verif.PropLocal
import Verif.PropLookup
import Verif.PropMade
import Verif.PropMap
import Verif.PropMemory
import Verif.PropNet
import Verif.PropNil
import Verif.PropOrder
import Verif.PropPanics
import Verif.PropParse
import Verif.PropRace
import Verif.PropRanges
import Verif.PropReads
import Verif.PropReenter
import Verif.PropReenterMap
import Verif.PropRetry
import Verif.PropScript
import Verif.PropScriptSets
import Verif.PropSeq
import Verif.PropSeqSets
import Verif.PropSeqTables
import Verif.PropSetCost
import Verif.PropSetCount
import Verif.PropSetEdit
import Verif.PropSetExact
import Verif.PropSetText
import Verif.PropSets
import Verif.PropSizes
import Verif.PropStorable
import Verif.PropSync
import Verif.PropTableAgg
import Verif.PropTableCost
import Verif.PropTableCustom
import Verif.PropTableDerived
import Verif.PropTableDiff
import Verif.PropTableEntries
import Verif.PropTableExact
import Verif.PropTableShared
import Verif.PropTables
import Verif.PropText
import Verif.PropUncomparable
import Verif.PropValid
import Verif.PropValues
import Verif.PropWalkAddr
import Verif.Race
import Verif.RaceInv
import Verif.ReadsCalm
import Verif.Reenter
import Verif.ReenterMap
import Verif.ReenterWalk
import Verif.RepoTests
import Verif.RepoTests4
import Verif.RepoTests6
import Verif.RepoTestsNodes
import Verif.Script
import Verif.ScriptSim
import Verif.Seq
import Verif.SeqSet
import Verif.SeqTable
import Verif.SetApi
import Verif.SetApiProofs
import Verif.SetCallCost
import Verif.SetCanon
import Verif.SetClean
import Verif.SetCost
import Verif.SetCost2
import Verif.SetEdit
import Verif.SetInv
import Verif.SetLib
import Verif.SetLin
import Verif.SetNode
import Verif.SetOps
import Verif.SetRange
import Verif.SetWalks
import Verif.Spec
import Verif.SpecTable
import Verif.Table
import Verif.TableAgg
import Verif.TableApi
import Verif.TableApiProofs
import Verif.TableCost
import Verif.TableDiff
import Verif.TableDiffOrder
import Verif.TableInv
import Verif.TableLib
import Verif.TableLin
import Verif.TableOps
import Verif.Takes
import Verif.Text
import Verif.TextPrint
import Verif.TextProofs
import Verif.Tidy
import Verif.Trie
import Verif.U128
import Verif.Uncomp
import Verif.UncompAgg
import Verif.UncompCmd
import Verif.UncompKeys
import Verif.UncompLoud
import Verif.UncompStep
import Verif.Walk
import Verif.Word
