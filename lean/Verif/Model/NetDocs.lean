import Verif.Model.Net
import Verif.Model.Segment
import Verif.Model.Pipeline

/-!
# Documents and searches over HTTP and gRPC

What the servers make of a request: the call on the engine. `none` is a Go panic. The transport is not modelled,
except for what protobuf cannot carry: `int` values are sent as `int32`, and an empty map or list is not sent at all.
-/

namespace Riot.Net

open Riot

deriving instance DecidableEq for TokenData, DocText

/-- types/doc_index_data.go:19-42 `DocData`: what the engine is given for a document. -/
structure DocData (F : Type) where
  text : DocText
  attri : Option AttriVal := none
  fields : Option F := none
  deriving DecidableEq

/-- net/grpc/riot-pb/doc.pb.go:76-88 `DocReq`. `attri` and `fields` are encoded messages. -/
structure PbDoc where
  docId : Str := []
  content : Str := []
  attri : List UInt8 := []
  tokens : List TokenData := []
  labels : List Str := []
  fields : List UInt8 := []
  forceUpdate : Bool := false

/-- net/grpc/grpc.go:35-72 `addDoc` with net/com/search.go:93-96 `AddDocInx`: the call on the engine. `unmarshal` is
what `proto.Unmarshal` leaves in the attribute message (also when it fails, which is only logged). The locations are
`int32` in the message and `int` in the document, the same numbers. -/
def addDoc {F : Type} (unmarshal : List UInt8 → Str × Int) (p : PbDoc) : Call (DocData F) :=
  .index p.docId
    { text := { content := p.content, tokens := p.tokens.map (fun t => { text := t.text, locations := t.locations }) }
      attri := some (.attri (unmarshal p.attri).1 (unmarshal p.attri).2) }
    p.forceUpdate

/-- net/grpc/grpcc.go:31-41 `Doc`: what a user gives to the client. -/
structure ClientDoc (F : Type) where
  docId : Nat
  content : Str := []
  attri : List UInt8 := []
  tokens : List TokenData := []
  labels : List Str := []
  fields : Option F := none
  forceUpdate : Bool := false

/-- net/grpc/grpcc.go:44-67 `InitGrpcc`: the request the client sends. -/
def clientReq {F : Type} (d : ClientDoc F) : PbDoc :=
  { content := d.content, attri := d.attri, tokens := d.tokens }

/-- net/http/http.go:133-165 `AddIndex`: the form values `docid` and `query` (the first of each, empty if absent), the
time of the server. -/
def httpAdd {F : Type} (docid query : Option Str) (time : Str) (ts : Int) : Call (DocData F) :=
  .index (docid.getD []) { text := { content := query.getD [] }, attri := some (.attri time ts) } false

/-- net/http/http.go:168-174 `DelIndex`, net/com/search.go:132-134 `Delete`. -/
def httpDel {F : Type} (docid : Str) : Call (DocData F) := .remove docid false

/-- store_worker.go:41-46: does gob encode a document? An interface value is encoded if it is nil or its type is
registered (`gob.Register`). `attri`: is `types.Attri` registered; `other`: is the type of an attribute of another type
registered; `fields`: is the type of the scoring fields registered. -/
structure Registered where
  attri : Bool := false
  other : Bool := false
  fields : Bool := false
  deriving DecidableEq, Repr

/-- Encoding of a document by `gob` (see `Registered`). -/
def Registered.encodes {F : Type} (r : Registered) (d : DocData F) : Bool :=
  (match d.attri with
    | none => true
    | some (.attri _ _) => r.attri
    | some .other => r.other) &&
  (match d.fields with
    | none => true
    | some _ => r.fields)

/-! ## Searches over gRPC -/

/-- net/grpc/riot-pb/doc.pb.go:623-710 `Logic`: `expr` is a pointer. -/
structure PbLogic where
  must : Bool := false
  should : Bool := false
  notIn : Bool := false
  expr : Option LExpr := none
  deriving DecidableEq, Repr

/-- net/grpc/riot-pb/doc.pb.go:322-333 `SearchReq`; `docIds = none` is the nil map. -/
structure PbSearch where
  query : Str := []
  offset : Int := 0
  max : Int := 0
  docIds : Option (List Str) := none
  logic : Option PbLogic := none
  deriving DecidableEq, Repr

/-- net/grpc/grpc.go:96-136 `server.Search`: a nil `Logic` or `Expr` is dereferenced. -/
def grpcServerSearch {F : Type} (gs : GSort) (conf : Conf)
    (search : SearchReq F → Option (SearchResp F AttriVal)) (p : PbSearch) : Option (List Text) :=
  match p.logic with
  | none => none
  | some l =>
    match l.expr with
    | none => none
    | some e => serverSearch gs conf search p.query p.offset p.max p.docIds
        { must := l.must, should := l.should, notIn := l.notIn, expr := e }

/-- net/grpc/etcd.go:89-130 `eserver.Search`, up to the call of `wgGrpc`: the arguments of the distributed search
(query, offset, limit, DocIds, Logic). -/
def eserverArgs (conf : Conf) (p : PbSearch) : Option (Str × (Int × Int) × Option (List Str) × Logic) :=
  match p.logic with
  | none => some (p.query, limits conf p.offset p.max, p.docIds, {})
  | some l =>
    match l.expr with
    | none => none
    | some e => some (p.query, limits conf p.offset p.max, p.docIds,
        { must := l.must, should := l.should, notIn := l.notIn, expr := e })

/-- An empty map is not sent: the receiver has a nil map. -/
def sentDocIds : Option (List Str) → Option (List Str)
  | some [] => none
  | d => d

/-- net/grpc/grpcc.go:70-112 `InitSearchRpc`: the request the server receives from the client. -/
def clientSearch (query : Str) (offset max : Int) (docIds : Option (List Str)) (logic : Logic) : PbSearch :=
  { query := query, offset := int32 offset, max := int32 max, docIds := sentDocIds docIds
    logic := some { must := logic.must, should := logic.should, notIn := logic.notIn, expr := some logic.expr } }

end Riot.Net
