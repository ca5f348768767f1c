import Verif.Model.NetDocs
import Verif.Props.Net
import Verif.Props.Restart
import Verif.Props.Sound
import Verif.Props.Segment

/-!
# Documents and searches through the servers: C80, C81, C82
-/

namespace Riot.Net

open Riot

variable {F : Type}

/-- The engine of a server: it makes documents from their text as the engine does with environment `env` and options
`e` (`Model/Segment`). -/
def Segments (env : TextEnv) (e : TextOpts) (c : PipeCfg (DocData F)) : Prop :=
  ∀ id x, IsDocIndexOf env e id x.text (c.docOf id x)

theorem Segments.docOk {env : TextEnv} {e : TextOpts} {c : PipeCfg (DocData F)} (h : Segments env e c) : c.DocOk :=
  fun id x => (h id x).id

theorem Segments.keysOk {env : TextEnv} {e : TextOpts} {c : PipeCfg (DocData F)} (h : Segments env e c) : c.KeysOk :=
  fun id x => (C39_keys_once_and_frequency env e id x.text _ (h id x)).1

/-! ## C80 -/

/-- **C80** (partial: the id, the content, the tokens and the force flag; the labels are lost, see
`C80_refuted_labels_ignored`) After a gRPC request for document `p.docId` and a Flush, where calls about this document
are separated by Flushes, a plain search finds the document on the shard it is routed to exactly if all searched words
are keys the segmenter makes from the content and the tokens of the request (`C41_keys_exact` says which). -/
theorem C80_server_document_found_partial {env : TextEnv} {e : TextOpts} {c : PipeCfg (DocData F)}
    (hseg : Segments env e c) {so : Sorter} (hso : SortOk so) (o : IndexerOpts)
    (db : Fin c.stores → List (Str × DocData F)) (unmarshal : List UInt8 → Str × Int) (p : PbDoc) (h0 : p.docId ≠ str "0")
    (st : Pipe c) (l : List (Call (DocData F)))
    (h : Rounds db p.docId st (l ++ [addDoc unmarshal p])) :
    ∃ s : Fin c.shards, ∀ ix : Indexer, (Indexer.init o).run so (st.idxLog s) = some ix →
      ∀ (log2 : Rat → Rat) (tokens labels : List Str) (docIds : Option (List Str)) (docs : List IndexedDoc) (n : Nat),
      ix.lookup log2 tokens labels docIds false = some (docs, n) →
      (p.docId ∈ docs.map (·.docId) ↔ tokens ++ labels ≠ [] ∧ Allowed docIds p.docId ∧
        ∀ k ∈ tokens ++ labels, ¬ (e.notUseGse = false ∧ IsStopLine env k) ∧
          (actualKeys env e { content := p.content, tokens := p.tokens } k ∨
            (e.pinYin = true ∧ k ∈ pinyinOf env e p.content))) := by
  let x : DocData F := { text := { content := p.content, tokens := p.tokens }
                         attri := some (.attri (unmarshal p.attri).1 (unmarshal p.attri).2) }
  have hx : (addDoc unmarshal p : Call (DocData F)) = .index p.docId x p.forceUpdate := by
    unfold addDoc
    have : p.tokens.map (fun t => ({ text := t.text, locations := t.locations } : TokenData)) = p.tokens := by
      simp
    rw [this]
  refine ⟨c.route p.docId x, fun ix hix log2 tokens labels docIds docs n hlk => ?_⟩
  rw [C53_disciplined_content hseg.docOk hseg.keysOk hso o db p.docId h0 st _ h _ ix hix log2 tokens labels docIds docs n
    hlk, hx]
  unfold Matches
  rw [ideal_last_index hseg.docOk p.docId h0 l x p.forceUpdate _ rfl]
  simp only [Option.some.injEq, exists_eq_left']
  refine and_congr_right fun _ => and_congr_right fun _ => ?_
  refine forall₂_congr fun k _ => ?_
  rw [DocIndex.keys, C41_keys_exact env e p.docId x.text _ (hseg p.docId x) k]
  simp [x]

/-- **C80 is refuted** for labels and scoring fields: a gRPC request leads to the same call whatever its labels and
fields are; no label becomes a search key unless the content or the tokens make it one. -/
theorem C80_refuted_labels_ignored (unmarshal : List UInt8 → Str × Int) (p : PbDoc) (labels : List Str) (fields : List UInt8) :
    (addDoc unmarshal { p with labels := labels, fields := fields } : Call (DocData F)) = addDoc unmarshal p ∧
    ∃ x : DocData F, addDoc unmarshal p = .index p.docId x p.forceUpdate ∧ x.fields = none ∧ x.text.labels = [] ∧
      ∀ (env : TextEnv) (e : TextOpts) (doc : DocIndex), IsDocIndexOf env e p.docId x.text doc →
        ∀ k, k ∈ doc.keywords.map (·.text) →
          actualKeys env e { content := p.content, tokens := p.tokens } k ∨
            (e.pinYin = true ∧ k ∈ pinyinOf env e p.content) := by
  refine ⟨rfl, _, rfl, rfl, rfl, ?_⟩
  intro env e doc hd k hk
  have := ((C41_keys_exact env e p.docId _ doc hd k).1 hk).2
  simpa using this

/-- The calls of a server that only the gRPC client of this repository uses (net/grpc/grpcc.go), and Flush. -/
def ClientCall (unmarshal : List UInt8 → Str × Int) (a : Call (DocData F)) : Prop :=
  a = .flush ∨ ∃ d : ClientDoc F, a = addDoc unmarshal (clientReq d)

/-- **C80 is refuted** for documents sent with the repository's own client: it does not send the id. Whatever documents
are sent, by any number of clients, at every moment of every run of the engine behind the server (races included), a
search finds nothing but the one document with the empty id. If no refresh overlaps a removal, that is at most one
result per shard, however many documents were sent. -/
theorem C80_refuted_client_drops_ids {env : TextEnv} {e : TextOpts} {c : PipeCfg (DocData F)} (hseg : Segments env e c)
    {so : Sorter} (hso : SortOk so) {o : IndexerOpts} (unmarshal : List UInt8 → Str × Int)
    {as : List (FAct c.toPipeSize (DocData F))} {st : Fine c}
    (h : (Fine.start c o (fun _ => [])).run so as = some st)
    (hcalls : ∀ a ∈ st.pipe.calls, ClientCall unmarshal a.2)
    (s : Fin c.shards) (log2 : Rat → Rat) (tokens labels : List Str) (hne : tokens ++ labels ≠ [])
    (docIds : Option (List Str)) (docs : List IndexedDoc) (n : Nat)
    (hl : (st.shard s).ix.lookup log2 tokens labels docIds false = some (docs, n)) :
    (∀ x ∈ docs, x.docId = []) ∧
    ((Fine.start c o (fun _ => [])).NoClash so as → (st.shard s).dead = false → (o.indexType = .locs → tokens ≠ []) →
      docs.length ≤ 1) := by
  have hid : ∀ x ∈ docs, x.docId = [] := by
    intro x hx
    obtain ⟨k, hk⟩ := List.exists_mem_of_ne_nil _ hne
    obtain ⟨y, f, hy, _⟩ := C63_no_phantoms_partial hseg.docOk hso h s log2 tokens labels docIds false docs n hl x hx k hk
    have hrec : c.recovered (fun _ => []) = [] := by
      unfold PipeCfg.recovered; split <;> simp
    unfold Pipe.given at hy
    rw [hrec] at hy
    simp only [List.map_nil, List.nil_append, List.mem_map] at hy
    obtain ⟨⟨i, a⟩, ha, he⟩ := hy
    rcases hcalls _ ha with hf | ⟨d, hd⟩
    · rw [hf] at he; cases he
    · rw [hd] at he
      simp only [addDoc, clientReq, Call.index.injEq] at he
      exact he.1.symm
  refine ⟨hid, fun hc hd ht => ?_⟩
  obtain ⟨_, _, vis, _, hall⟩ := C62_search_during_calls_partial hseg.keysOk hso h hc s hd log2
  obtain ⟨docs', h1, h2, _⟩ := hall tokens labels docIds ht
  rw [hl] at h1
  simp only [Option.some.injEq, Prod.mk.injEq] at h1
  obtain ⟨rfl, _⟩ := h1
  match docs, hid, h2 with
  | [], _, _ => simp
  | [_], _, _ => simp
  | a :: b :: l, hid, h2 =>
    exfalso
    simp only [List.map_cons, List.pairwise_cons] at h2
    have := h2.1 b.docId (by simp)
    rw [hid a (by simp), hid b (by simp)] at this
    exact absurd this (lt_irrefl _)

/-- **C80** What the repository's client keeps of a document: whatever id, labels, scoring fields and force flag it is given, the
server's call is about the empty id, without labels, without fields and without force; content, tokens and attribute
arrive. -/
theorem C80_client_document (unmarshal : List UInt8 → Str × Int) (d : ClientDoc F) :
    ∃ x : DocData F, addDoc unmarshal (clientReq d) = .index [] x false ∧ x.fields = none ∧ x.text.labels = [] ∧
      x.text.content = d.content ∧ x.text.tokens = d.tokens ∧
      x.attri = some (.attri (unmarshal d.attri).1 (unmarshal d.attri).2) :=
  ⟨_, rfl, rfl, rfl, rfl, by simp [clientReq], rfl⟩

/-! ## C81 -/

/-- The request carries a Logic with an Expr: the server passes the query, the offset and limit (or
its own, if the limit is 0), the DocIds and the Logic to the engine unchanged. -/
theorem search_forwarded (gs : GSort) (conf : Conf) (search : SearchReq F → Option (SearchResp F AttriVal))
    (query : Str) (offset max : Int) (docIds : Option (List Str)) (logic : Logic) :
    grpcServerSearch gs conf search ⟨query, offset, max, docIds, some ⟨logic.must, logic.should, logic.notIn,
      some logic.expr⟩⟩ = serverSearch gs conf search query offset max docIds logic ∧
    eserverArgs conf ⟨query, offset, max, docIds, some ⟨logic.must, logic.should, logic.notIn, some logic.expr⟩⟩ =
      some (query, limits conf offset max, docIds, logic) := ⟨rfl, rfl⟩

/-- **C81 is refuted**: a search request without Logic, or with a Logic without Expr (both are optional in the
protocol), crashes the server, whatever else it asks and whatever the engine holds. The etcd server crashes on the
second. -/
theorem C81_refuted_plain_search_crashes (gs : GSort) (conf : Conf)
    (search : SearchReq F → Option (SearchResp F AttriVal)) (p : PbSearch)
    (hp : p.logic = none ∨ ∃ l, p.logic = some l ∧ l.expr = none) :
    grpcServerSearch gs conf search p = none ∧ (p.logic ≠ none → eserverArgs conf p = none) := by
  unfold grpcServerSearch eserverArgs
  rcases hp with hp | ⟨l, hp, hl⟩
  · simp [hp]
  · simp [hp, hl]


/-- **C81** (etcd server) A request without Logic is a plain search for it: query, offset and limit (its own if the limit is 0) and DocIds
are passed on, with no clauses. -/
theorem C81_etcd_plain_search (conf : Conf) (p : PbSearch) (hp : p.logic = none) :
    eserverArgs conf p = some (p.query, if p.max = 0 then ((conf.outputOffset : Int), (conf.maxOutputs : Int)) else (p.offset, p.max),
      p.docIds, {}) := by
  unfold eserverArgs
  rw [hp]
  simp only [limits]

/-- **C81** (partial: offset and limit fit in 32 bits and a restriction to documents names at least one) A search through
the repository's client and the server is the search itself. -/
theorem C81_client_search_partial (gs : GSort) (conf : Conf) (search : SearchReq F → Option (SearchResp F AttriVal))
    (query : Str) (offset max : Int) (docIds : Option (List Str)) (logic : Logic)
    (ho : -2 ^ 31 ≤ offset ∧ offset < 2 ^ 31) (hm : -2 ^ 31 ≤ max ∧ max < 2 ^ 31) (hd : docIds ≠ some []) :
    grpcServerSearch gs conf search (clientSearch query offset max docIds logic) =
      serverSearch gs conf search query offset max docIds logic := by
  have hs : sentDocIds docIds = docIds := by
    unfold sentDocIds
    split
    · exact absurd rfl hd
    · rfl
  unfold clientSearch
  rw [int32_small ho.1 ho.2, int32_small hm.1 hm.2, hs]
  rfl

/-- **C81 is refuted** for large limits: a limit that is a multiple of 2^32 is sent as 0, so the server uses its own
offset and limit; one between 2^31 and 2^32 is sent as a negative number. -/
theorem C81_refuted_large_limit (gs : GSort) (conf : Conf) (search : SearchReq F → Option (SearchResp F AttriVal))
    (query : Str) (offset : Int) (docIds : Option (List Str)) (logic : Logic) :
    (∀ k : Int, grpcServerSearch gs conf search (clientSearch query offset (2 ^ 32 * k) docIds logic) =
      serverAnswer gs conf.maxOutputs (search (comReq query conf.outputOffset conf.maxOutputs (sentDocIds docIds) logic))) ∧
    (∀ max : Int, 2 ^ 31 ≤ max → max < 2 ^ 32 → (clientSearch query offset max docIds logic).max = max - 2 ^ 32) := by
  refine ⟨fun k => ?_, fun max h1 h2 => ?_⟩
  · have : int32 (2 ^ 32 * k) = 0 := by unfold int32; omega
    unfold clientSearch grpcServerSearch serverSearch limits
    simp only [this, if_true]
  · show int32 max = _
    unfold int32; omega

/-- **C81 is refuted** for an empty restriction: a search restricted to no documents finds nothing in the engine, but
through gRPC it is the unrestricted search. -/
theorem C81_refuted_empty_restriction (gs : GSort) (conf : Conf) (search : SearchReq F → Option (SearchResp F AttriVal))
    (query : Str) (offset max : Int) (logic : Logic) :
    grpcServerSearch gs conf search (clientSearch query offset max (some []) logic) =
      grpcServerSearch gs conf search (clientSearch query offset max none logic) ∧
    (∀ {so : Sorter}, SortOk so → ∀ (o : IndexerOpts) (h : List IdxOp), (∀ op ∈ h, OpOk op) →
      ∀ ix, (Indexer.init o).run so h = some ix → ∀ (log2 : Rat → Rat) (tokens labels : List Str)
        (docs : List IndexedDoc) (n : Nat), ix.lookup log2 tokens labels (some []) false = some (docs, n) →
        docs = []) := by
  refine ⟨rfl, ?_⟩
  intro so hso o h hok ix hrun log2 tokens labels docs n hl
  obtain ⟨tr, _, hall⟩ := C02_docids_plain hso o h hok ix hrun
  have := hall h.length le_rfl ix (by rw [List.take_length]; exact hrun) log2 tokens labels [] docs n hl
  match docs, this with
  | [], _ => rfl
  | x :: l, this => simpa using (this x.docId).1 (by simp)

/-! ## C82 -/

/-- The calls the HTTP and gRPC servers make on their engine. -/
def ServerCall (unmarshal : List UInt8 → Str × Int) (a : Call (DocData F)) : Prop :=
  a = .flush ∨ (∃ p, a = addDoc unmarshal p) ∨ (∃ docid query time ts, a = httpAdd docid query time ts) ∨
    (∃ docid, a = httpDel docid)

theorem ServerCall.index {unmarshal : List UInt8 → Str × Int} {d : Str} {x : DocData F} {f : Bool}
    (h : ServerCall unmarshal (.index d x f)) : x.fields = none ∧ ∃ time ts, x.attri = some (.attri time ts) := by
  rcases h with h | ⟨p, h⟩ | ⟨docid, query, time, ts, h⟩ | ⟨docid, h⟩
  · cases h
  · simp only [addDoc, Call.index.injEq] at h
    rw [h.2.1]; exact ⟨rfl, _, _, rfl⟩
  · simp only [httpAdd, Call.index.injEq] at h
    rw [h.2.1]; exact ⟨rfl, _, _, rfl⟩
  · cases h

/-- **C82 is refuted** The engine of a server uses a store (net/com/search.go:77), but `types.Attri`, which every
document of the servers carries, is not registered with gob (no `gob.Register` outside the examples): in every run, at
every moment, whatever is called and however often it is flushed, no database gains or changes a document; documents
that were there stay as they were or are removed. -/
theorem C82_refuted_nothing_stored {c : PipeCfg (DocData F)} (r : Registered) (hr : r.attri = false)
    (henc : ∀ x, c.encodes x = r.encodes x) (unmarshal : List UInt8 → Str × Int)
    (db : Fin c.stores → List (Str × DocData F)) (as : List (Act c.toPipeSize (DocData F))) (st : Pipe c)
    (hrun : (Pipe.start c db).run as = some st) (hcalls : ∀ a ∈ st.calls, ServerCall unmarshal a.2)
    (m : Fin c.stores) (d : Str) :
    st.dbContent db m d = listedDb (db m) d ∨
      (st.dbContent db m d = none ∧ ∃ i f, (i, Call.remove d f) ∈ st.calls) := by
  rcases C43_crash_whole_documents db as st hrun m d with h | ⟨i, x, f, h1, h2, _⟩ | h
  · exact Or.inl h
  · exfalso
    obtain ⟨_, time, ts, hx⟩ := (hcalls _ h1).index
    rw [henc, Registered.encodes, hx] at h2
    simp [hr] at h2
  · exact Or.inr h

/-- **C82 is refuted**, seen from the restart: a server that started on empty databases and was given any documents, ends
(after a Flush or not); the databases are empty, and the new engine's Init indexes nothing. -/
theorem C82_refuted_restart_empty {c : PipeCfg (DocData F)} (r : Registered) (hr : r.attri = false)
    (henc : ∀ x, c.encodes x = r.encodes x) (unmarshal : List UInt8 → Str × Int)
    (as : List (Act c.toPipeSize (DocData F))) (st : Pipe c)
    (hrun : (Pipe.start c (fun _ => [])).run as = some st) (hcalls : ∀ a ∈ st.calls, ServerCall unmarshal a.2)
    (db' : Fin c.stores → List (Str × DocData F)) (hdb' : ∀ m, ListsDb (db' m) (st.dbContent (fun _ => []) m)) :
    (∀ m, db' m = []) ∧ c.recovered db' = [] := by
  have hall : ∀ m, db' m = [] := by
    intro m
    cases hm : db' m with
    | nil => rfl
    | cons x l =>
      exfalso
      have hx := ((hdb' m).2 x.1 x.2).1 (by rw [hm]; simp)
      rcases C82_refuted_nothing_stored r hr henc unmarshal _ as st hrun hcalls m x.1 with h | ⟨h, _⟩
      · rw [hx] at h; simp [listedDb] at h
      · rw [hx] at h; simp at h
  refine ⟨hall, ?_⟩
  unfold PipeCfg.recovered
  split
  · simp [hall]
  · rfl

/-- The data of the last Index(d) among the calls; the one from before, if there is none. -/
def lastGiven (d : Str) (before : Option (DocData F)) (calls : List (Call (DocData F))) : Option (DocData F) :=
  calls.foldl (fun acc a => match a with
    | .index id x _ => if id = d then some x else acc
    | _ => acc) before

theorem lastStored_server {c : PipeCfg (DocData F)} {unmarshal : List UInt8 → Str × Int} {r : Registered}
    (hr : r.attri = true) (henc : ∀ x, c.encodes x = r.encodes x) (d : Str) (calls : List (Call (DocData F))) :
    ∀ before, (∀ a ∈ calls, ServerCall unmarshal a) →
      lastStored c d before calls = lastGiven d before calls := by
  induction calls with
  | nil => intro _ _; rfl
  | cons a l ih =>
    intro before h
    unfold lastStored lastGiven
    rw [List.foldl_cons, List.foldl_cons]
    have hstep : ∀ b1 b2 : Option (DocData F), b1 = b2 → lastStored c d b1 l = lastGiven d b2 l := by
      rintro b _ rfl
      exact ih b (fun a ha => h a (by simp [ha]))
    refine hstep _ _ ?_
    cases a with
    | index id x f =>
      have hx := (h _ (List.mem_cons_self ..)).index
      obtain ⟨h1, time, ts, h2⟩ := hx
      have : c.encodes x = true := by rw [henc, Registered.encodes, h2, h1]; simp [hr]
      simp [this]
    | remove => rfl
    | flush => rfl

/-- **C82** (partial: the program registers `types.Attri` with gob, which the servers do not do) Then documents added
through the servers survive: after a Flush and a restart (at any later moment with no calls about `d` in between),
flushed, a plain search finds `d` exactly if the data of the last request for `d` (the one from before, if there is
none) is routed to the shard and has all searched keys. `d` was added one request at a time and not removed. -/
theorem C82_registered_recovers_partial {env : TextEnv} {e : TextOpts} {c : PipeCfg (DocData F)} (hseg : Segments env e c)
    (r : Registered) (hr : r.attri = true) (henc : ∀ x, c.encodes x = r.encodes x)
    (unmarshal : List UInt8 → Str × Int) (hs : c.useStore = true) {so : Sorter}
    (hso : SortOk so) (o : IndexerOpts) (db db' : Fin c.stores → List (Str × DocData F)) (hdb : DbOk c db)
    (d : Str) (h0 : d ≠ str "0") (as : List (Act c.toPipeSize (DocData F))) (st st' u : Pipe c)
    (hrun : (Pipe.start c db).run as = some st) (hcalls : ∀ a ∈ st.calls, ServerCall unmarshal a.2)
    (hseq : SequentialFor d (Pipe.start c db) as) (hrm : ∀ i f, (i, Call.remove d f) ∉ st.calls)
    (i : Fin c.clients) (hf : FlushCompletes i st st') (later : List (Act c.toPipeSize (DocData F)))
    (hl : st'.run later = some u) (hno : NoCallAbout d later)
    (hdb' : ∀ m, ListsDb (db' m) (u.dbContent db m))
    (as' : List (Act c.toPipeSize (DocData F))) (v v' : Pipe c) (hrun' : (Pipe.start c db').run as' = some v)
    (hno' : NoCallAbout d as') (j : Fin c.clients) (hf' : FlushCompletes j v v')
    (s : Fin c.shards) (ix : Indexer)
    (hix : (Indexer.init o).run so (v'.idxLog s) = some ix) (log2 : Rat → Rat)
    (tokens labels : List Str) (docIds : Option (List Str)) (docs : List IndexedDoc) (n : Nat)
    (hlk : ix.lookup log2 tokens labels docIds false = some (docs, n)) :
    d ∈ docs.map (·.docId) ↔
      ∃ x, lastGiven d (listedDb (db (c.storeRoute d)) d) (st.calls.map (·.2)) = some x ∧
        c.route d x = s ∧ tokens ++ labels ≠ [] ∧ Allowed docIds d ∧
        ∀ k ∈ tokens ++ labels, k ∈ (c.docOf d x).keys := by
  rw [C43_restart_recovers hs hseg.docOk hseg.keysOk hso o db db' hdb d h0 as st st' u hrun hseq hrm i hf later hl hno
    hdb' as' v v' hrun' hno' j hf' s ix hix log2 tokens labels docIds docs n hlk,
    lastStored_server (unmarshal := unmarshal) hr henc d _ _ (by
      intro a ha
      obtain ⟨b, hb, rfl⟩ := List.mem_map.1 ha
      exact hcalls b hb)]

/-! ## Witnesses -/

/-- A server's engine with one shard and one store shard; the words of a text are separated by spaces. -/
def netPipe (r : Registered) : PipeCfg (DocData Nat) where
  clients := 1
  gse := 1
  shards := 1
  stores := 1
  segCap := 2
  idxCap := 2
  rankCap := 2
  useStore := true
  docOf id x := docOf demoEnv {} id x.text
  route _ _ := ⟨0, by decide⟩
  storeRoute _ := ⟨0, by decide⟩
  encodes := r.encodes
  emptyData := { text := {} }

theorem netPipe_segments (r : Registered) : Segments demoEnv {} (netPipe r) :=
  fun id x => docOf_isDocIndexOf demoEnv {} id x.text

def nclient (r : Registered) : Fin (netPipe r).clients := ⟨0, by simp [netPipe]⟩
def nshard (r : Registered) : Fin (netPipe r).shards := ⟨0, by simp [netPipe]⟩
def nstore (r : Registered) : Fin (netPipe r).stores := ⟨0, by simp [netPipe]⟩

/-- A request with labels and a token. -/
def netDoc : PbDoc := { docId := str "1", content := str "big cat", labels := [str "animal"], tokens := [⟨str "tok", [3]⟩] }

/-- What `proto.Unmarshal` does with an attribute message, as an example. -/
def demoUnmarshal (b : List UInt8) : Str × Int := ([], b.length)

/-- The calls of a server: a gRPC document and an HTTP document. -/
def netCalls (r : Registered) : List (Fin (netPipe r).clients × Call (DocData Nat)) :=
  [(nclient r, addDoc demoUnmarshal netDoc), (nclient r, httpAdd (some (str "2")) (some (str "small dog")) (str "now") 5)]

theorem netCalls_server (r : Registered) : ∀ a ∈ netCalls r, ServerCall demoUnmarshal a.2 := by
  intro a ha
  simp only [netCalls, List.mem_cons, List.not_mem_nil, or_false] at ha
  rcases ha with rfl | rfl
  · exact Or.inr (Or.inl ⟨_, rfl⟩)
  · exact Or.inr (Or.inr (Or.inl ⟨_, _, _, _, rfl⟩))

/-- C80, C82: the documents of `netCalls` are found after a Flush by their words and tokens, not by their labels;
nothing is written to the database without the registration, both are with it. -/
def netShown (r : Registered) : Option (Pipe (netPipe r)) :=
  (Pipe.start (netPipe r) (fun _ => [])).round (demoActs _) (nclient r) (netCalls r)

example : (netShown {}).any (fun st => decide (st.findKey (nshard _) "cat" = some [str "1"] ∧
    st.findKey (nshard _) "tok" = some [str "1"] ∧ st.findKey (nshard _) "animal" = some [] ∧
    st.findKey (nshard _) "dog" = some [str "2"] ∧ (st.dbLog (nstore _)).length = 0)) = true := by decide +kernel

example : (netShown { attri := true }).any (fun st => decide (st.findKey (nshard _) "cat" = some [str "1"] ∧
    (st.dbLog (nstore _)).length = 2 ∧
    (st.dbContent (fun _ => []) (nstore _) (str "1")).map (·.text.content) = some (str "big cat"))) = true := by
  decide +kernel

/-- The hypotheses of `C82_refuted_nothing_stored`, `C82_refuted_restart_empty` (with `r = {}`) and of the first part of
`C82_registered_recovers_partial` (with `attri` registered) are met by a run whose calls are `netCalls`. -/
theorem netRun (r : Registered)
    (h : ((Pipe.start (netPipe r) (fun _ => [])).run ((Pipe.start (netPipe r) (fun _ => [])).session (demoActs _) (netCalls r))).any
      (fun st => decide (st.calls = netCalls r) &&
        (st.flushBy (nclient r) (st.flushSched (demoActs _) (nclient r))).isSome) = true) :
    ∃ (as : List (Act (netPipe r).toPipeSize (DocData Nat))) (st st' : Pipe (netPipe r)),
      (Pipe.start (netPipe r) (fun _ => [])).run as = some st ∧ st.calls = netCalls r ∧
      (∀ a ∈ st.calls, ServerCall demoUnmarshal a.2) ∧ SequentialFor (str "1") (Pipe.start (netPipe r) (fun _ => [])) as ∧
      (∀ i f, (i, Call.remove (str "1") f) ∉ st.calls) ∧ FlushCompletes (nclient r) st st' := by
  obtain ⟨st, hst, hp⟩ := (Option.any_eq_true _ _).1 h
  simp only [Bool.and_eq_true, decide_eq_true_eq] at hp
  obtain ⟨st', hst'⟩ := Option.isSome_iff_exists.1 hp.2
  refine ⟨_, st, st', hst, hp.1, by rw [hp.1]; exact netCalls_server r, sequential_one rfl _ _ _ _ hst, ?_,
    flushBy_completes hst'⟩
  intro i f
  rw [hp.1]
  simp [netCalls, addDoc, httpAdd]

example := netRun {} (by decide +kernel)
example := netRun { attri := true } (by decide +kernel)

/-- Documents for the client, with different ids. -/
def clientDocs : List (ClientDoc Nat) :=
  [{ docId := 1, content := str "big cat", forceUpdate := true }, { docId := 2, content := str "small cat" }]

def clientCalls : List (Fin (netPipe {}).clients × Call (DocData Nat)) :=
  clientDocs.map (fun d => (nclient {}, addDoc demoUnmarshal (clientReq d))) ++ [(nclient {}, .flush)]

def clientStart : Fine (netPipe {}) := Fine.start (netPipe {}) (smallOpts .docIds 10) (fun _ => [])

/-- The hypotheses of `C80_refuted_client_drops_ids` are met: two documents are sent, with ids 1 and 2 and the common word
"cat"; a search for "cat" finds one document, with the empty id. -/
example : ∃ (as : List (FAct (netPipe {}).toPipeSize (DocData Nat))) (st : Fine (netPipe {})),
    clientStart.run insSort as = some st ∧ (∀ a ∈ st.pipe.calls, ClientCall demoUnmarshal a.2) ∧
    clientStart.NoClash insSort as ∧ (st.shard (nshard {})).dead = false ∧ st.pipe.calls.length = 3 ∧
    idsOf ((st.shard (nshard {})).ix.lookup (fun x => x) [str "cat"] [] none false) = some [str ""] := by
  let as := clientStart.session insSort (fineCands _ ++ shardCands _) clientCalls
  have h : (clientStart.run insSort as).any (fun st => decide (st.pipe.calls = clientCalls) &&
      clientStart.noClashB insSort as && !(st.shard (nshard {})).dead &&
      decide (idsOf ((st.shard (nshard {})).ix.lookup (fun x => x) [str "cat"] [] none false) = some [str ""])) = true := by
    decide +kernel
  obtain ⟨st, hst, hp⟩ := (Option.any_eq_true _ _).1 h
  simp only [Bool.and_eq_true, decide_eq_true_eq, Bool.not_eq_true'] at hp
  obtain ⟨⟨⟨h1, h2⟩, h3⟩, h4⟩ := hp
  refine ⟨as, st, hst, ?_, noClash_of_B _ h2, h3, by rw [h1]; rfl, h4⟩
  intro a ha
  rw [h1] at ha
  simp only [clientCalls, List.mem_append, List.mem_map, List.mem_singleton] at ha
  rcases ha with ⟨d, _, rfl⟩ | rfl
  · exact Or.inr ⟨d, rfl⟩
  · exact Or.inl rfl

/-- C80: the hypotheses of `C80_server_document_found_partial`: a round with the request `netDoc`. -/
example : ∃ (st : Pipe (netPipe {})) (l : List (Call (DocData Nat))),
    Rounds (fun _ => []) netDoc.docId st (l ++ [addDoc demoUnmarshal netDoc]) := by
  obtain ⟨as, st, st', h1, h2, _, _, _, h6⟩ := netRun {} (by decide +kernel)
  have hf : (((netPipe {}).recovered (fun _ => [])).map (fun x => Call.index x.1 x.2 false) ++
      st.calls.map (·.2)).filter (Call.about netDoc.docId) = [] ++ [addDoc demoUnmarshal netDoc] := by
    rw [h2]; decide +kernel
  have := Rounds.first (db := fun _ => []) (d := netDoc.docId) as (nclient {}) st st' h1 h6 (by rw [hf]; simp)
  rw [hf] at this
  exact ⟨st', [], this⟩

/-- C81: a request the server answers, one that crashes it, and one with a large limit. -/
def oneDoc : List (ShardView Nat AttriVal) := [netShard [("a", 1, 5), ("c", 2, 6)]]

example : (grpcServerSearch insGSort { maxOutputs := 10 } (netEngine oneDoc)
      (clientSearch (str "b") 0 5 none {})).map (·.map (·.id)) = some [str "c", str "a"] ∧
    grpcServerSearch insGSort { maxOutputs := 10 } (netEngine oneDoc) { query := str "b", max := 5 } = none ∧
    (clientSearch (str "b") 0 (2 ^ 32 + 1) none {}).max = 1 ∧ (clientSearch (str "b") 0 (2 ^ 31) none {}).max = -2 ^ 31 := by
  decide +kernel

example : (grpcServerSearch insGSort { maxOutputs := 10 } (netEngine oneDoc)
      (clientSearch (str "b") 0 5 (some []) {})).map (·.map (·.id)) = some [str "c", str "a"] ∧
    (serverSearch insGSort { maxOutputs := 10 } (netEngine oneDoc) (str "b") 0 5 (some []) {}).map (·.map (·.id)) = some [] := by
  decide +kernel

end Riot.Net
