import Verif.Model.Core
import Verif.Model.Arena
import Verif.Lemmas.Arena
import Verif.Props.Arena
import Verif.Model.CharsetTable
import Verif.Model.Charset
import Verif.Props.Charset
import Verif.Model.Ctx
import Verif.Model.Lws
import Verif.Lemmas.Lws
import Verif.Props.Lws
import Verif.Model.Num
import Verif.Props.Num
import Verif.Model.Str
import Verif.Lemmas.Str
import Verif.Props.Str
import Verif.Model.ArenaStr
import Verif.Props.Store
import Verif.Props.Quoted
import Verif.Model.Trie
import Verif.Model.TrieTable
import Verif.Model.Index
import Verif.Model.Parser
import Verif.Model.Host
import Verif.Lemmas.Trie
import Verif.Props.Index
import Verif.Lemmas.Parser
import Verif.Lemmas.QuotedSafe
import Verif.Lemmas.Parses
import Verif.Props.Version
import Verif.Props.Host
import Verif.Lemmas.Loop
import Verif.Model.Uri
import Verif.Lemmas.Known
import Verif.Props.Uri
import Verif.Props.UriSafe
import Verif.Props.Tel
import Verif.Model.Param
import Verif.Model.Addr
import Verif.Lemmas.QuotedVal
import Verif.Props.Param
import Verif.Props.ParamSafe
import Verif.Props.Addr
import Verif.Props.AddrSafe
import Verif.Model.Headers
import Verif.Lemmas.Marks
import Verif.Props.Method
import Verif.Props.Headers
import Verif.Props.HeadersSafe
import Verif.Model.StartLine
import Verif.Model.Message
import Verif.Lemmas.GSafe
import Verif.Props.StartLine
import Verif.Props.RawHeader
import Verif.Props.MessageSafe
import Verif.Props.BodySafe
import Verif.Props.Names
import Verif.Props.HeaderLines
import Verif.Props.MessageEnc
import Verif.Props.MessageText
import Verif.Props.ContentLen
import Verif.Props.MessageRound
import Verif.Props.MessageFacts
import Verif.Props.MessageIdem
import Verif.Model.Search
import Verif.Props.Search
import Verif.Props.Lookup
import Verif.Props.Settings
import Verif.Props.Plain
import Verif.Lemmas.Cap
import Verif.Props.Capacity
import Verif.Props.Memory
import Verif.Lemmas.Reads
import Verif.Lemmas.ReadsPrim
import Verif.Lemmas.Acc
import Verif.Lemmas.TrieNodes
import Verif.Props.Grammar
import Verif.Props.IndexCr
import Verif.Props.ReadsUri
import Verif.Props.ReadsAddr
import Verif.Props.ReadsHeaders
import Verif.Props.ReadsStart
import Verif.Props.ReadsMsg
import Verif.Props.GrammarPlain
import Verif.Props.AccUri
import Verif.Props.AccAddr
import Verif.Props.AccHeaders
import Verif.Props.AccStart
import Verif.Props.AccMsg
import Verif.Lemmas.Mem
import Verif.Props.MemUri
import Verif.Props.MemAddr
import Verif.Props.MemMsg
import Verif.Props.Tight
import Verif.Props.Exact
import Verif.Props.MemLow
import Verif.Props.StoreVis
import Verif.Props.EncodeTwice
import Verif.Model.Heap
import Verif.Model.HeapUri
import Verif.Model.HeapEnc
import Verif.Lemmas.Sep
import Verif.Lemmas.Sim
import Verif.Lemmas.SimMem
import Verif.Lemmas.Shapes
import Verif.Lemmas.Shows
import Verif.Props.HeapUri
import Verif.Props.HeapShow
import Verif.Model.HeapAddr
import Verif.Props.HeapAddr
import Verif.Model.HeapHeaders
import Verif.Props.HeapHeaders
import Verif.Lemmas.Sees
import Verif.Model.HeapMsg
import Verif.Props.HeapMsg
import Verif.Props.HeapBody
import Verif.Props.HeapEncode
import Verif.Props.HeapEncodeMsg
import Verif.Props.HeapEncodeTop
import Verif.Model.Ref
import Verif.Props.Ref
import Verif.Model.MemPrim
import Verif.Props.MemPrim
import Verif.Props.Errors
import Verif.Props.ErrorText
import Verif.Lemmas.Loc
import Verif.Lemmas.LocPrim
import Verif.Lemmas.LocPrim2
import Verif.Lemmas.LocHost
import Verif.Lemmas.LocScheme
import Verif.Lemmas.LocName
import Verif.Lemmas.LocAddr
import Verif.Lemmas.LocLine
import Verif.Props.Local
import Verif.Lemmas.Shift
import Verif.Lemmas.ShiftPrim
import Verif.Lemmas.ShiftName
import Verif.Lemmas.ShiftAddr
import Verif.Lemmas.ShiftLine
import Verif.Props.Shift
import Verif.Props.Append
import Verif.Props.Forget
import Verif.Model.HeapOps
import Verif.Props.HeapOps
import Verif.Props.ParamLookup
import Verif.Props.PanicExact
import Verif.Props.HangExact
import Verif.Props.HangParam
