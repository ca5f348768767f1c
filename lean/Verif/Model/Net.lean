import Verif.Model.EngineSearch

/-!
# The network front ends (net/com, net/http, net/grpc)

The HTTP and gRPC servers in front of one engine, and the merge of the answers of several
servers. `none` is a Go panic. Not modelled here: the transport (JSON: Model/Json, protobuf: Model/Wire; HTTP, gRPC, etcd not at all):
an answer that arrives is the list of texts the server produced; an answer that does not arrive
(error, time-out, empty body: http/dist.go:41-45, grpc/search.go:119-123) is absent from the
list of answers. The response's time stamp and `Len` (the number of its documents) are left out.
-/

namespace Riot.Net

open Riot

/-- net/http/search.go:22-28 `Text`, net/grpc/riot-pb `Text`: the part both have, with
`types.Attri` (types/doc_data.go: `Time`, `Ts`) flattened. `Score` is left out. -/
structure Text where
  id : Str
  content : Str := []
  time : Str := []
  ts : Int
  deriving DecidableEq, Repr

/-- The dynamic value of a non-nil `Attri interface{}`: a `types.Attri` or something else. -/
inductive AttriVal
  | attri (time : Str) (ts : Int)
  | other
  deriving DecidableEq, Repr

/-- net/http/search.go:42-62 `docsSlice.Less`, net/grpc/search.go:43-64 `rpcSlice.Less`. -/
def textLess (a b : Text) : Bool :=
  if a.ts = b.ts then decide (b.id < a.id) else decide (b.ts < a.ts)

/-- net/http/http.go:106-115 and net/grpc/search.go:81-93: one entry of `textArr`; the type
assertion panics if the attribute is nil or not a `types.Attri`. -/
def toText {F : Type} (d : ScoredDoc F AttriVal) : Option Text :=
  match d.attri with
  | some (.attri time ts) =>
    some { id := d.scoredID.docId, content := d.content, time := time, ts := ts }
  | _ => none

/-- net/com/conf.go:29-46 `Engine`: the fields a search uses. -/
structure Conf where
  outputOffset : Int := 0
  maxOutputs : Int := 0
  deriving DecidableEq, Repr

/-- net/http/http.go:86-89, net/grpc/grpc.go:116-119: offset and limit of a request. -/
def limits (conf : Conf) (offset max : Int) : Int × Int :=
  if max = 0 then (conf.outputOffset, conf.maxOutputs) else (offset, max)

/-- net/com/search.go:115-129 `Search`: the request sent to the engine. -/
def comReq {F : Type} (query : Str) (offset max : Int) (docIds : Option (List Str)) (logic : Logic) :
    SearchReq F :=
  { text := query, docIds := docIds, logic := logic,
    rankOpts := some { outputOffset := offset, maxOutputs := max } }

/-- net/http/http.go:118-122, net/grpc/search.go:95-99: sort and cut. -/
def sortCut (gs : GSort) (max : Int) (texts : List Text) : Option (List Text) :=
  let t := gs textLess texts
  if (t.length : Int) > max then goSub t 0 max else some t

/-- net/http/http.go:101-130 (`Search`), net/grpc/search.go:68-108 (`rpcSearch`): the server's
answer from the engine's response. `max` is the resolved limit (in gRPC the resolution is made
twice, by the handler and by `rpcSearch`, with the same result). -/
def serverAnswer {F : Type} (gs : GSort) (max : Int) (resp : Option (SearchResp F AttriVal)) :
    Option (List Text) := do
  let (_, docs) ← Engine.searchDoc resp
  let texts ← docs.mapM toText
  sortCut gs max texts

/-- One search on one server: net/http/http.go:54-130 `Search`; net/grpc/grpc.go:96-136 with
net/grpc/search.go:68-108. `search` is the engine's `Search`. -/
def serverSearch {F : Type} (gs : GSort) (conf : Conf)
    (search : SearchReq F → Option (SearchResp F AttriVal)) (query : Str) (offset max : Int)
    (docIds : Option (List Str)) (logic : Logic) : Option (List Text) :=
  let lim := limits conf offset max
  serverAnswer gs lim.2 (search (comReq query lim.1 lim.2 docIds logic))

/-- net/http/dist.go:83-110, net/grpc/search.go:150-175: the merged answer. A single answer is
passed on as it is. -/
def merge (gs : GSort) (max : Int) (answers : List (List Text)) : Option (List Text) :=
  match answers with
  | [a] => some a
  | _ =>
    let docs := gs textLess answers.flatten
    if (docs.length : Int) > max then goSub docs 0 (max - 1) else some docs

/-- net/http/dist.go:53-114 `WgDist`, net/grpc/search.go:131-178 `wgGrpc`: `answers` are the
collected answers. `conf` is the package's configuration variable. -/
def dist (gs : GSort) (conf : Conf) (max : Int) (answers : List (List Text)) : Option (List Text) :=
  merge gs (if max = 0 then conf.maxOutputs else max) answers

/-! ## Collecting the answers: shared variables, one goroutine per server -/

/-- The goroutine of one server (http/dist.go:37-50 `WgPost`, grpc/search.go:116-129 `WgRpc`):
not started, running, it has read the shared slice for `append`, it has written it back and
called `Done`. -/
inductive Post
  | idle
  | ready
  | loaded (seen : List (List Text))
  | done
  deriving DecidableEq, Repr

/-- A request: not started, waiting for its goroutines, past `Wait`, answered. -/
inductive Req
  | idle
  | waiting
  | woken
  | answered (data : List (List Text))
  deriving DecidableEq, Repr

/-- The package variables `wgdata`/`rpcdata` and (implicitly) `wg`/`rpcwg`, shared by all
requests, the requests and their goroutines. -/
structure Coll where
  data : List (List Text) := []
  reqs : Nat → Req := fun _ => .idle
  posts : Nat → Nat → Post := fun _ _ => .idle

/-- The atomic actions. -/
inductive CollAct
  /-- `wgdata = nil` and one goroutine per server (http/dist.go:54, 72-77; grpc/search.go:132,
  142-146). The goroutines are started in one action. -/
  | start (r : Nat)
  /-- read of the shared slice in `wgdata = append(wgdata, data)` -/
  | load (r i : Nat)
  /-- write of the shared slice, `wg.Done()`. Two appends that read the same slice end up in the
  same place: one of the two answers is lost. (With a shared backing array the survivor may be
  either one; here it is the last writer.) -/
  | store (r i : Nat)
  /-- `wg.Wait()` returns -/
  | wake (r : Nat)
  /-- the shared slice is read and merged -/
  | finish (r : Nat)
  deriving DecidableEq, Repr

/-- `answers r`: the answers the servers give to request `r`. -/
def Coll.step (answers : Nat → List (List Text)) (requests : Nat) (s : Coll) : CollAct → Option Coll
  | .start r =>
    if s.reqs r = .idle ∧ r < requests then
      some { data := []
             reqs := fun x => if x = r then .waiting else s.reqs x
             posts := fun x i => if x = r then (if i < (answers r).length then .ready else .idle)
               else s.posts x i }
    else none
  | .load r i =>
    if s.posts r i = .ready then
      some { s with posts := fun x j => if x = r ∧ j = i then .loaded s.data else s.posts x j }
    else none
  | .store r i =>
    match s.posts r i, (answers r)[i]? with
    | .loaded seen, some a =>
      some { s with data := seen ++ [a]
                    posts := fun x j => if x = r ∧ j = i then .done else s.posts x j }
    | _, _ => none
  | .wake r =>
    if s.reqs r = .waiting ∧ ∀ x < requests, ∀ i < (answers x).length,
        s.posts x i = .idle ∨ s.posts x i = .done then
      some { s with reqs := fun x => if x = r then .woken else s.reqs x }
    else none
  | .finish r =>
    if s.reqs r = .woken then
      some { s with reqs := fun x => if x = r then .answered s.data else s.reqs x }
    else none

/-- A schedule. -/
def Coll.run (answers : Nat → List (List Text)) (requests : Nat) (s : Coll) : List CollAct → Option Coll
  | [] => some s
  | a :: as => (s.step answers requests a).bind (fun s' => s'.run answers requests as)

/-! ## The engine variables of the packages -/

/-- net/com/search.go:28 `Searcher` and net/grpc/search.go:30 `searcher = com.Searcher`: is the
engine initialised? The second variable is a copy, made when the package is initialised. -/
structure Engines where
  com : Bool := false
  grpc : Bool := false
  deriving DecidableEq, Repr

/-- The calls a gRPC server process makes. -/
inductive GrpcCall
  /-- grpc.InitEngine (net/grpc/search.go:35-38) -/
  | initEngine
  /-- the DocInx handler (net/grpc/grpc.go:84-88): `com.AddDocInx` -/
  | docInx (id : Str)
  /-- the Search handler: `com.Search` -/
  | search (query : Str)
  /-- the Delete handler (net/grpc/grpc.go:75-77, 91-95): `searcher.RemoveDoc` -/
  | delete (id : Str)
  deriving DecidableEq, Repr

/-- One call; `none`: the process exits (engine.go:283-285, 402-404, 435-437, 763-765
`log.Fatal`). -/
def Engines.call (s : Engines) : GrpcCall → Option Engines
  | .initEngine => if s.com then none else some { s with com := true }
  | .docInx _ => if s.com then some s else none
  | .search _ => if s.com then some s else none
  | .delete _ => if s.grpc then some s else none

/-- A sequence of calls. -/
def Engines.calls (s : Engines) : List GrpcCall → Option Engines
  | [] => some s
  | c :: cs => (s.call c).bind (fun s' => s'.calls cs)

end Riot.Net
