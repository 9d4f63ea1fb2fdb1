import Verif.Props.Prime
import Verif.Props.PrintStats
import Verif.Props.Bit
import Verif.Props.Hash
import Verif.Props.Set
import Verif.Props.HashHeap
import Verif.Props.HashIter
import Verif.Props.TabStats
import Verif.Props.Stack
import Verif.Props.Objects
import Verif.Props.Lists
import Verif.Props.StrMem
import Verif.Props.StrPool
import Verif.Props.Arg
import Verif.Props.BaseN
import Verif.Props.Text
import Verif.Props.Sl
import Verif.Props.Flags
import Verif.Props.Timer
import Verif.Props.Log
import Verif.Props.Pr
import Verif.Props.PrIO
import Verif.Props.PrChild
import Verif.Props.Source
import Verif.Props.SourceErr
import Verif.Props.Error
import Verif.Props.Builtins
import Verif.Props.ListsOwned
import Verif.Props.Maa
import Verif.Props.TimerPrint
import Verif.Props.StrStats
import Verif.Props.StrIterate
import Verif.Props.HashStats
import Verif.Props.SetHeap
import Verif.Props.Tables
import Verif.Props.SetProgs
import Verif.Props.Xmalloc
import Verif.Props.Shared
import Verif.Props.TabProgs
import Verif.Props.Counters
import Verif.Props.UniqueCounter
import Verif.Props.LstProgs
import Verif.Props.SlProgs
import Verif.Props.Oom
import Verif.Props.Handles
import Verif.Props.PrExec
import Verif.Props.ListsReuse
import Verif.Props.Growth
import Verif.Props.PoolStrings
import Verif.Props.Names
import Verif.Props.ArgGram
import Verif.Props.OomNames
import Verif.Props.SlLoose
import Verif.Props.SlDebug
import Verif.Props.TabLoose
import Verif.Props.SlDump
import Verif.Props.OomWorld
import Verif.Props.Borrowed
import Verif.Props.BorrowedTim
import Verif.Props.Symbols
import Verif.Props.SetsLoose
import Verif.Props.DebugOut
import Verif.Props.SlFickle
import Verif.Props.Asked
import Verif.Props.SlAsked
import Verif.Props.SetsAsked
import Verif.Props.Syslog
import Verif.Props.Version
import Verif.Props.Watch
import Verif.Props.WatchMany
