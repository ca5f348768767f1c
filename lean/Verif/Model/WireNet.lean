import Verif.Model.Wire
import Verif.Model.NetDocs

/-!
# Calls of the gRPC service, with the encoding

The client functions of net/grpc/grpcc.go, the handlers of net/grpc/grpc.go and between them the messages of `Model/Wire`.
Of the grpc library only this is modelled: the client marshals the request, the server unmarshals these bytes into a fresh
message and calls the handler, and the reply goes back in the same way. A crash in the handler or in `Unmarshal` ends the
server (grpc-go does not recover). The connection itself, time-outs and lost calls are not modelled.
-/

namespace Riot.Wire

open Riot Riot.Net

/-- `none` is a crash. -/
def ofOpt {α : Type} : Option α → Out α
  | none => .panic
  | some a => .ok a

/-- doc.pb.go:784-905: a unary call; `E` is what the handler does on the server. -/
def rpc {A B E : Type} (sent : Option Str) (read : Str → Out A) (handler : A → Out (E × B)) (write : B → Option Str)
    (readBack : Str → Out B) : Out (E × B) :=
  (ofOpt sent).bind fun bs => (read bs).bind fun a => (handler a).bind fun r =>
    (ofOpt (write r.2)).bind fun back => (readBack back).bind fun b => .ok (r.1, b)

/-- net/grpc/grpc.go:79-82 `HeartBeat` -/
def heartBeat (m : HeartReq) : Out (Unit × Reply) := .ok ((), { result := m.msg })

/-- A heart beat over gRPC. -/
def rpcHeart (n : BitVec 32) : Out (Unit × Reply) :=
  rpc ({ msg := n } : HeartReq).marshal (HeartReq.unmarshal {}) heartBeat Reply.marshal (Reply.unmarshal {})

/-- net/grpc/grpc.go:75-77, 90-94 `Delete`: the call on the engine variable of the package (see C60). -/
def deleteHandler {F : Type} (m : DeleteReq) : Out (Call (DocData F) × Reply) := .ok (.remove m.docId false, {})

/-- net/grpc/grpcc.go:115-138 `InitDelGrpcc` -/
def rpcDelete {F : Type} (docId : Str) : Out (Call (DocData F) × Reply) :=
  rpc ({ docId := docId } : DeleteReq).marshal (DeleteReq.unmarshal {}) deleteHandler Reply.marshal (Reply.unmarshal {})

/-- net/grpc/grpc.go:51-55: the attributes of the document; when `proto.Unmarshal` fails, this is only logged, and the
message has whatever was read before the error (`left`). -/
def attriRead (left : Str → Str × Int) (bs : Str) : Out (Str × Int) :=
  match ({} : AttriMsg).unmarshal bs with
  | .ok a => .ok (a.time, a.ts.toInt)
  | .err => .ok (left bs)
  | .panic => .panic
  | .hang => .hang

/-- The token of a message as the handler copies it (net/grpc/grpc.go:36-48). -/
def tokenOf (t : TokenMsg) : TokenData := { text := t.text, locations := t.locations.map BitVec.toInt }

/-- The fields of `DocReq` as in `Model/NetDocs`. -/
def pbDoc (m : DocReq) : PbDoc :=
  { docId := m.docId, content := m.content, attri := m.attri.map fun b => UInt8.ofNat b.val, tokens := m.tokens.map tokenOf
    labels := m.labels, fields := m.fields.map fun b => UInt8.ofNat b.val, forceUpdate := m.forceUpdate }

/-- net/grpc/grpc.go:84-88 `DocInx` with 35-72 `addDoc` -/
def docHandler {F : Type} (left : Str → Str × Int) (m : DocReq) : Out (Call (DocData F) × Reply) :=
  (attriRead left m.attri).bind fun a => .ok (addDoc (fun _ => a) (pbDoc m), {})

/-- A call of `DocInx` with the request `m`. -/
def rpcDoc {F : Type} (left : Str → Str × Int) (m : DocReq) : Out (Call (DocData F) × Reply) :=
  rpc m.marshal (DocReq.unmarshal {}) (docHandler left) Reply.marshal (Reply.unmarshal {})

/-- net/grpc/grpcc.go:44-67 `InitGrpcc`: the request has only content, attributes and tokens. -/
def clientDocMsg (content attri : Str) (tokens : List TokenMsg) : DocReq :=
  { content := content, attri := attri, tokens := tokens }

/-- net/grpc/grpcc.go:80-104 `InitSearchRpc`: the request. -/
def searchMsg (id query time : Str) (offset max : Int) (docIds : Option (GoMap Bool)) (logic : Logic) : SearchMsg :=
  { id := id, query := query, time := time, outputOffset := BitVec.ofInt 32 offset, maxOutputs := BitVec.ofInt 32 max
    docIds := docIds
    logic := some
      { must := logic.must, should := logic.should, notIn := logic.notIn
        expr := some { must := logic.expr.must, should := logic.expr.should, notIn := logic.expr.notIn } } }

/-- The fields of `SearchReq` as in `Model/NetDocs`; the values of the map are not used by a search. -/
def pbSearch (m : SearchMsg) : PbSearch :=
  { query := m.query, offset := m.outputOffset.toInt, max := m.maxOutputs.toInt
    docIds := m.docIds.map fun g => g.entries.map Prod.fst
    logic := m.logic.map fun l =>
      { must := l.must, should := l.should, notIn := l.notIn
        expr := l.expr.map fun e => { must := e.must, should := e.should, notIn := e.notIn } } }

/-- net/grpc/search.go:81-93: one document of the reply. -/
def textMsg (t : Text) : TextMsg :=
  { id := t.id, content := t.content, attri := some { time := t.time, ts := BitVec.ofInt 64 t.ts } }

/-- net/grpc/search.go:101-107: the reply; `now` is `time.Now().Unix()`. -/
def replyMsg (now : BitVec 64) (texts : List Text) : ReplyMsg :=
  { len := BitVec.ofNat 32 texts.length, timestamp := now, docs := texts.map textMsg }

/-- net/grpc/grpc.go:96-136 `Search` -/
def searchHandler {F : Type} (gs : GSort) (conf : Conf) (search : SearchReq F → Option (SearchResp F AttriVal))
    (now : BitVec 64) (m : SearchMsg) : Out (Unit × ReplyMsg) :=
  (ofOpt (grpcServerSearch gs conf search (pbSearch m))).bind fun texts => .ok ((), replyMsg now texts)

/-- net/grpc/grpcc.go:70-112 `InitSearchRpc` against `server.Search`; `order` is the order of the map in the client. -/
def rpcSearch {F : Type} (gs : GSort) (conf : Conf) (search : SearchReq F → Option (SearchResp F AttriVal))
    (now : BitVec 64) (order : List (Str × Bool)) (m : SearchMsg) : Out (Unit × ReplyMsg) :=
  rpc (m.marshal order) (SearchMsg.unmarshal {}) (searchHandler gs conf search now) ReplyMsg.marshal
    (ReplyMsg.unmarshal {})

/-- net/grpc/search.go:43-64, 150-175: a document of a reply as the merge uses it; `Attri` is dereferenced. -/
def textOf (t : TextMsg) : Option Text :=
  t.attri.map fun a => { id := t.id, content := t.content, time := a.time, ts := a.ts.toInt }

end Riot.Wire
