# Formal model of go-ego/riot in Lean 4 — design

## Layout

| directory | contents |
|---|---|
| `lean/Verif/Basic` | Go strings (byte lists, bytewise order), slices with run-time checks, maps |
| `lean/Verif/Model` | the model: one definition per Go function (or part of one), each with a `file:lines` citation |
| `lean/Verif/Spec`  | small, model-independent specifications (maps, sets, costs, orders) and witnesses for examples |
| `lean/Verif/Proofs`| lemmas and invariants |
| `lean/Verif/Props` | the property theorems `Cnn_…`, with non-vacuity examples and refutations |
| `seeded/LOG.jsonl` | log of seeded wrong programs and which theorems reject them |
| `tools` | regeneration of `lean/Verif.lean` and `MANIFEST.json`, the seeding harness |

A property that the unchanged code violates is kept in full in `properties.jsonl`; in `Props`
there is then (a) a refutation theorem `Cnn_refuted…` (or a theorem that characterises the failure
for all inputs) and (b) a theorem `Cnn_…_partial` proving the claim under the weakest hypothesis
found. MANIFEST.json says which is which; its status is `partial` for these.

## Conventions of the model

* A Go panic (index or slice out of range, failed type assertion, nil) and `log.Fatal` are `none`.
  Loops that Go does not bound structurally carry fuel; running out of fuel is `none` too, so
  "returns `some`" means: terminates and does not panic.
* `string` = list of bytes (`List (Fin 256)`) with the lexicographic order. `map` = association
  list with unique keys (`GoMap`); where Go ranges over a map, the theorems hold for every order.
* `float32` values that are computed (BM25, token lengths) are exact rationals, `log2` is a
  parameter; Model/Float32 repeats the functions concerned with a rounding after every operation
  (C78, C79). Scores returned by user code are `nan | -inf | rational | +inf`.
* `int`, `uint64` counters are unbounded (`getShard` is modelled with `UInt32`; page arithmetic and time-outs in 64 bits: `Model/Int64`, C97).
* `sort.Sort` is any function that returns a permutation, sorted if the comparison is a strict
  weak order (`SortOk`, `GSortOk`); it is not assumed stable. The contracts are satisfiable
  (insertion sort, `insSort_ok`, `insGSort_ok`).
* The sort routines the repository contains itself (`core/uint64.go`) are modelled line by line.

## What is modelled, and where

| code | model | properties |
|---|---|---|
| core/indexer.go: Init, AddDocToCache, AddDocs, RemoveDocToCache, RemoveDocs, HasDoc, searchIndex | Model/Indexer (calls atomic) | C04–C07, C12, C18, C19, C51, C52 |
| core/indexer.go: Lookup, internalLookup, BM25 | Model/Lookup | C01, C02, C03, C08, C11, C13 |
| core/indexer.go: AddDocs, RemoveDocs, AddDocToCache, RemoveDocToCache, Lookup, BM25 in float32 | Model/Float32 | C78, C79 |
| core/indexer.go: computeTokenProximity | Model/Proximity | C09, C10 |
| core/indexer.go: LogicLookup, findIn*Table, unionTable | Model/Lookup | C02, C13–C17 |
| core/ranker.go, types/search_response.go (orders) | Model/Ranker | C20–C23 |
| engine.go: Search, SearchDoc, SearchID, RankID, Ranks, TimeOut, NotTimeOut; indexer_worker.go: indexerLookup, orderLess; ranker_worker.go: rankerRank | Model/EngineSearch | C24–C27, C36 |
| the channels, threads and time-outs of searches | Model/SearchProto | C27, C28 |
| segment.go, engine.go: Tokens, Segment; stop_tokens.go (membership) | Model/Segment | C37–C42 |
| engine.go: Index, RemoveDoc, Flush, Init (workers, store recovery), store_worker.go, riot.go: HasDocDB, GetDBAllIds | Model/Pipeline (index calls atomic per shard) | C30–C34, C43, C44, C46, C53, C54 |
| core/indexer.go with its locks and shared arrays: add worker and remove worker of one shard | Model/Shard | C35, C55 |
| Model/Pipeline with the workers of Model/Shard | Model/Fine | C35, C55–C57, C62, C63 |
| core/uint64.go | Model/Sort | C47–C49 |
| store/*.go | Model/Backends | C45 |
| store_worker.go on the libraries of Model/Backends: operations, storeInit, any number of restarts | Model/StoreLib | C90 |
| what a power failure leaves of the databases, Close of the databases | Model/Durable | C91, C92 |
| net/http, net/grpc, net/com (search, merge, collection of answers) | Model/Net | C50, C58–C60 |
| net/grpc: addDoc, server.Search, eserver.Search, InitGrpcc, InitSearchRpc; net/http: AddIndex, DelIndex; net/com: AddDocInx, Delete | Model/NetDocs | C80–C82 |
| net/grpc/riot-pb/doc.pb.go: Marshal, MarshalTo, Size, Unmarshal of the eleven messages, encodeVarintDoc, sovDoc, skipDoc | Model/Wire | C110–C113, C115 |
| net/grpc: the handlers and client functions around the encoding; HeartBeat, Delete | Model/WireNet | C114 |
| net/http/http.go Search (form values), net/http/dist.go WgDist (the form it sends) | Model/HttpForm | C116, C117 |
| net/http: `json.Marshal`/`json.Unmarshal` of JsonResponse and Text, the body of Search, the merge of bodies in WgDist (encoding/json of Go 1.13 as far as it is used; formatting of float32 a parameter) | Model/Json | C118, C125, C119 |
| engine.go: Store (opening the files with another number of store shards) | Model/Pipeline with two configurations | C83 |
| segment.go with Model/Full: from texts to responses | Model/Segment + Model/Full (Spec/FullText) | C84 |
| riot.go: HasDoc and the slice engine.indexers (append, copied mutexes) | Model/HasDoc | C61 |
| core/ranker.go under its lock: AddDoc, RemoveDoc and Rank calls of several goroutines | Model/RankerConc | C64 |
| types/engine_init_options.go, engine.go: Init (allocation), initDef, CheckMem, riot.go: NewEngine | Model/Options | C65, C66 |
| how calls end, by the calls before them: engine.go: Init, WithGse, Index, RemoveDoc, Search, Flush, Close, getShard, riot.go: HasDoc, HasDocDB, GetDBAllIds, GetDBAllDocs, counters.go | Model/Lifecycle | C121 |
| store/store.go, engine.go: Store (opening the files), net/com/search.go: InitEngine | Model/Config | C85–C87 |
| examples/codelab/search_server.go, examples/weibo/custom_scoring_criteria.go, examples/pinyin_weibo/main.go (not: HTTP, JSON, reading the file) | Model/Examples | C106–C108 |
| examples/benchmark/benchmark.go (without times, profiles, useStore) | Model/Benchmark | C126 |
| examples/store/main.go (initEngine, main) | Spec/Races | C127 |
| examples/pinyin/main.go | Spec/PinyinProgram | C128 |
| examples/simple/main.go, examples/logic/main.go `logic1` (documents and requests) | Spec/Programs | C124 |
| segment.go: locations, frequencies and lengths in every mode | Model/Segment | C67 |
| engine.go: Search, TimeOut, NotTimeOut, indexer_worker.go: indexerLookup, ranker_worker.go: rankerRank, core/ranker.go: Rank, all together with the pipeline and the shard locks (Model/Fine): any number of concurrent searches | Model/Full | C73–C76, C88, C89 |
| stop_tokens.go: Init, IsStopToken; riot.go: GetDBAllDocs; core/data.go; info.go: UsedMem, UsedDisk, ToKB…; net/heartb/heart.go: Grpcc, heart, restart | Model/Misc | C68–C72 |

## How it is proved

* C01–C03, C08, C13, C51 — invariant of the table (rows strictly sorted, non-empty, aligned with
  locations and frequencies, consistent with a ghost map `known` of the documents physically in
  the table); binary search by induction on the interval; the lookup loop by the invariant
  "pointers of the other rows bound the part still relevant".
* C04–C07, C12, C17–C19, C52 — every history that does not panic is a `Trace` of abstract steps on
  (visible map, waiting adds); the abstract steps are then compared with the ideal map.
* C09, C10 — invariant on back pointers; optimality by an exchange argument.
* C14–C16 — set characterisation of each table helper, composed. Requests that mix flags and lists: `Logic.Clear` says when the clauses mean what they say; otherwise `C14_mixed_takes_previous`.
* C20–C27, C36 — ranking and paging as lists; merge of truncated sorted lists is a page of the
  global ranking (`merge_page`).
* C28, C32–C34, C43, C44, C53 — state machines run by arbitrary schedules (lists of actions);
  invariants by induction on the schedule; termination by a measure; liveness as "no reachable
  state with work left is stuck" plus a bound on the number of steps.
* C35, C55 — lock-level state machine, exact characterisation of the deadlocks, linearisation by a
  simulation of the atomic model when no refresh overlaps a removal.
* C56, C57 — invariant of the whole engine with locks under "gentle" use, then C54 by refinement.
* C37–C42 — functional correctness of the text pipeline for every tokenizer.
* C45, C46 — each backend refines a map; engine store functions over it.
* C47–C49 — permutation and sortedness invariants per loop; quicksort, heapsort and SymMerge.
* C50, C58–C60 — sort contract, interleavings of the unsynchronised append.
* C62 — an invariant of a shard in the middle of calls (what is visible = what the returned calls
  left, except hidden documents), stepped along every action of both workers; lock exclusion.
* C63 — an invariant of every schedule (races included): every posting, cached document and document in
  a worker's hands comes from a version that was given; a plain lookup on any table, however damaged,
  returns only documents listed under every key. One version for all words holds without overlapping
  refreshes and removals and is refuted by a schedule with them.
* C64 — simulation: each candidate is scored in a state reached between the beginning and the end of the
  call; a frame argument for untouched candidates; a schedule shows that it is no snapshot.
* C65, C66 — field-wise computation of the initialised options; C11 for the value; an invariant of the
  lookup loop for engines that score everything 0.
* C67 — exact values of the token map after each loop.
* C68–C72 — induction over the file, the store history, the calls, the heartbeats; modular arithmetic.
* C73 — a history invariant over runs of Model/Full: every request in progress and every answer carries the moment of its lookup and of each ranker read; at most one answer per shard and search; then the collecting code, over any entries (`respond_entries`).
* C74 — C73 plus a simulation of Model/Full by Model/Fine (`full_run_fine`): at every lookup moment the untouched document is found iff it was at the beginning (C62), and its ranker log does not change.
* C75 — a decreasing measure for termination; invariants of channels and workers for the absence of stuck states; for crossed locks a blocked-shard invariant over all later runs, counting the places that can hold a request.
* C77 — the same counting as C32, with the counters a thread saw at its last action; refuted for
  overlapping Flushes on several shards and for overlapping Index and RemoveDoc, proved for Flushes on one shard.
* C76 — a gentle run of Model/Full is one of Model/Fine, whose shards never clash (C54); with it C75, C13, C22 and C74.
* C78 — simulation up to the total (for every rounding function); whole numbers up to 2^24 are exact, and by
  the table invariant all intermediate totals are sums of lengths of stored documents.
* C79 — a calculus of numbers that differ by a factor `q^k`, `q = 2^24/(2^24-1)`, through each operation
  of the formula; relative error of `f32` from the definition of rounding; Bernoulli's inequality.
* C80, C82 — C53, C41, C63, C43 for the calls the servers make. C81 — case analysis of the request.
* C83 — C43's content theorem for the old engine, the recovery of databases in which at most one file holds the
  document, and a frame lemma: an engine never touches a document in a file that its configuration does not assign.
* C84 — C76 with the keys of C41; what the calls leave on a shard as "the last text given".
* C88 — the invariant of C62/C76 with two more facts: every executed index call was followed exactly (`Followed`), and the
  cache never overflows (`Fits`); what is visible of a document then changes only by removals until the next forced call.
* C89 — refuted: no call of a server refreshes the index, so by the facts of C88 nothing becomes visible (numDocs 0 on every
  shard) while the caches do not overflow; positive part: C84 composed with C59.
* C85, C86, C87 — the options after Init as a function of the user's; opening as a function of registry, environment and a
  parameter that says which opens succeed; induction over the RegisterStore calls and the shards.
* C90 — the operation logs of Model/Pipeline replayed on a library: refinement per key, induction over the lives.
* C91 — of each operation log a first part is on the disk (all of it for libraries that sync); every first part of a log is the log at some
  moment (induction over the run), so C90 applies. What the libraries sync is taken from their documentation.
* C92 — a database closed at a moment keeps the content of that moment; C90 at that moment.
* C93 — the loops of PinYin give the list of the specification (`pinyinOf`, induction over characters and syllables), which is used by all
  specifications of keys and locations (C41, C67, C80, C84).
* C94 — composition: C84/C89 for each server (its own engine, history and schedule), C58 for the collecting goroutines, C50 for the merge.
* C95 — composition: C84 with the statistics exported (`Fine.Stats` at the moment of the lookup); last-Flush lemma (the last index call of every shard is a forced refresh, so no removal is pending); C12/C11 for the counters, C67/C41 from postings to texts. Refuted for two shards by a computed run.
* C96 — composition: C73 (ranked, orderless, count-only) with what each index finds after a last Flush (`state_after_flush`: the shard's history ends with a forced refresh and what it shows is what the calls leave), C14/C15 on refreshed indexes, C41 from keys to texts. Refuted for NotIn-only requests and for DocIds without Must, by computed runs.
* C97 — the functions that compute with offsets, limits and time-outs once more with 64-bit wrap-around (`Model/Int64`); equality with the unbounded functions below 2^63 transports C24; the crash beyond is characterised exactly by computing the wrapped bounds.
* C98 — everything a lookup reads (rows, states, lengths, two statistics) is a function of the documents held up to the order of their keywords: rows are sorted lists with a given membership, sums and counts are invariant under permutation; hence equal answers (`Spec/History`, `Proofs/Alike`, `Props/History`), for single indexes, complete searches and shards of running engines; the concrete pair of runs is in `Props/HistoryDemo`.
* C99 — read off the representation invariant of the index after a refresh (`Props/History`).
* C100 — corollary of C24: every page is cut from some ranking of the same entries; with equal score vectors the rankings agree in scores, without ties they are the same list (`Props/Paging`, `Spec/Paging`); refuted with ties on two shards.
* C101 — from the exactness of plain and logic lookups in every reachable state (C01, C14, C15) to the set laws (`Props/Algebra`).
* C102 — the query tokens of a text compared with its keys (C41) in each segmentation mode; through the engine by C84 (`Props/OwnText`); the modes and texts where it fails are refuted.
* C103 — `Props/Idle`: on every refreshed state (any history) the state equations `step (flush) = same`, `step (remove absent) = same`, and, through the invariant and the "alike" relation of C98, equality of every answer for double additions, double removals and undone additions.
* C104 — `Props/Sharding`: `HoldTogether` (the shards partition the documents); what all shards find is a function of the documents alone up to BM25, so the scored lists of two engines are permutations of each other; C24 turns this into equal pages. Not expressible without the BM25 exclusion: C95 refutes it.
* C105 — C73 for collections indexed once: the index finds what C84/C95 say, the ranker holds the indexed data, so the answers of the shards are the `filterMap` of the criteria over the documents of the shard; the shards partition the collection (`Spec/Criteria`, `Props/Criteria`; schedules for examples: `Props/Collection`). Proved. (For documents indexed more than once the ranker may hold older fields: C33.)
* C106 — `Model/Examples` (splitting, ParseUint, the map, criteria, request, page); inversion of splitting and decimal numbers, last-line-wins of the map, then C105 with the order of the score vectors (`Spec/Examples`, `Props/Examples`, `Props/ExamplesDemo`). Proved; the map `wbs` is read while it is written (a data race at start-up) — not expressible here: the theorem is about the time after Flush.
* C107 — as C106. Refuted for the post with number 0, whose id "0" is never indexed; proved for the others.
* C108 — as C106. Refuted: the slice of tokens is never emptied, so each line has the pinyin of all lines before it, and each line is also shown as an empty post; proved: exactly which documents are shown, and that the lines with the pinyin are among them.
* C109 — C105 twice: the results are a function of the collection, its grouping on shards and its statistics, which are invariant under permutation (`Props/ShardingRun`); C104_engines is the same with any grouping, for criteria without BM25.
* C110 — doc.pb.go modelled byte by byte (`Model/Wire`); the encoding of protocol buffers and doc.proto as inductive relations on bytes (`Spec/Wire`); per field one lemma "this field makes the loop of Unmarshal do what the relation says", then induction over the sequence of fields; skipDoc by mutual induction over nested groups.
* C111 — every writer lemma gives the bytes it writes into a buffer with enough room, their number (= Size) and that they are an encoding in the sense of C110; reading back is C110.
* C112 — refuted (eleven bytes crash every message: the end of a field is computed without overflow check). Proved for all bytes in which no varint, at any position, has a value in [2^63 − length, 2^63) (`HugeLength`): every crash needs a length of that size. A consequence: no crash in less than 2^28 bytes without four consecutive 0xff.
* C113 — the models of the loops carry step counters (length of the input + 1; twice that in skipDoc); the theorem says that the counters never run out. Same induction as C112.
* C114 — C111 on both ways of the call around the handlers of `Model/NetDocs` (`Model/WireNet`).
* C115 — a message read under doc.proto has only unknown fields in XXX_unrecognized (induction over the fields), so C111 applies.
* C116 — `strconv.Atoi`/`Itoa` modelled as in Go's library, compared with an inductive definition of decimal notation (`Spec/HttpForm`); induction over the digits.
* C117 — refuted for every engine: a negative offset or limit makes the cut of the page panic; exact condition under which already the shard's goroutine panics (which ends the process; a panic in an HTTP handler is recovered by net/http). Partial: positive limits with offset + limit < 2^63 are answered.
* C118 — `encoding/json` (writer with its escapes, reader of arbitrary JSON text, assignment to the structs) modelled in `Model/Json`; UTF-8 is specified by the encodings of the scalar values (`Spec/Json`), decoding is proved to invert it; a mutual induction over JSON values shows that reading inverts writing up to the replacement of what is not UTF-8; the merge is then transported through the bytes. Partial: refuted for texts that are not UTF-8 and for NaN scores.
* C119 — composition of C105 (a collection indexed and flushed), C116 (the form) and C118 (the body): `Model/Json.httpBody` from the form to the bytes, decoded by the client.
* C120 — on Model/Pipeline: the positive part by the measure of C32 and conservation of the counters; the refutation is an infinite run given as a function of the step number, by induction over the 12-step half cycles in which two goroutines overlap their Index calls. A round of the waiting loop of Flush is taken at one moment (`Pipe.roundNow`). Partial: refuted.
* C121 — `Model/Lifecycle`: the parts of the engine that decide how a call ends (initialized, options after Init, number of databases); induction over the sequence of calls with an invariant that ties them to the calls made before. Refuted by HasDocDB (panic before Init or without store; proved for every engine without store) and by a number of shards of 2^32 (division by zero). Panics that depend on requests are C05, C13, C25, C97.
* C122 — composition on Model/Full: C73 (what a count-only or orderless search collects), the exact content of the shards after the last Flush (as for C105), and the division of the collection among the shards.
* C123 — composition on Model/Full: conservation of database operations (a quiet engine has executed all of them), the content of the databases as the fold of the executed operations (Proofs/PipelineStore), the reading of the files at the start (`recovered`), then C105/C109/C122 applied to the second process. Removed documents: Props/RoundsDb (a deletion comes after every write of its document, if the calls about it are separated by Flushes). Power loss: C91; fewer store shards: C83.
* C124 — the documents and requests of examples/simple and examples/logic as Spec (`Spec/Programs`), the keys of ASCII texts by C41, the answer by C105/C84 (`SearchedCollection`, every schedule), the rest by evaluating which of the three or four texts have the words (closed terms, by the kernel). The general statement is `C124_response`.
* C125 — Spec/JsonText is the grammar of RFC 8259 (and RFC 3629) as inductive relations, independent of any reader; `parse` is proved to be that grammar (both directions), the output of `marshal` to be in it, and `unmarshal` to read any JSON text that shows an answer (Spec/JsonBody).
* C126 — examples/benchmark (`Model/Benchmark`): the documents it indexes and removes, its calls, and the map its goroutines fill under a read lock and then a write lock (as a transition system: any interleaving). The calls leave exactly the copies with a number above numDeleteDocs (`C126_calls`), every search returns min(100, matches) ids (`C126_search`, from C105), and every interleaving prints that number (`C126_record`). Refuted for more than 100 matches (the page is counted, not NumDocs) and for -idonly=false (SearchID panics).
* C127 — races about one document (`Spec/Races`): C74 strengthened so that in every response after all work is done each entry shows a version given to its shard and each document whose own calls were separated by Flushes is exact, whatever calls about other documents raced (`C127_undisturbed`). Applied to examples/store, which indexes "5" and removes it without a Flush between: "1", "2", "3" are exact under every schedule (`C127_store_partial`); the absence of "5" is refuted (`C127_refuted_store`).
* C128 — the whole response of a search by words, for any engine whose scoring accepts every document (`C128_whole_response`, from C105), and examples/pinyin as an instance (`Spec/PinyinProgram`: what the program expects of the segmenter and of gpy for its three texts is a hypothesis, met by an example run).
* C129 — documents that are only indexed, never removed: what the index shows of a document after a Flush when its Index calls raced, by induction over the abstract trace of the index (`Trace.kept`), conservation of calls in the pipeline, and the search of Model/Full; that the last version decides is refuted by a concrete run (Spec/Repeated, Props/Repeated).
* C130 — updates after a Flush: from a state of the index in which nothing of the document waits, what it shows after new adds is one of them (`Trace.replaced`, induction over the new calls), with the conservation of calls between two moments of the pipeline; a concrete run repairs the stale document of C129 (Spec/Updated, Props/Updated).
* C131 — removals after a Flush: from a state in which nothing of the document waits, a removal without adds leaves nothing visible or waiting (`Trace.removed`), lifted to the search as for C130 (Spec/Updated, Props/RemovedAfter).
* C61 — frame lemmas of append; a stuck-shard invariant over all later schedules.

## What is not modelled

* The external libraries: gse (segmentation), pinyin, murmur, gob, goleveldb, bbolt, badger,
  HTTP, gRPC, etcd, toml; of encoding/json what the HTTP server uses is modelled (Model/Json). (The generated protobuf code of the repository is modelled, Model/Wire; not modelled of it:
  nil elements of repeated messages, on which MarshalTo crashes, deterministic marshalling by reflection, the difference
  between nil and empty slices, the kinds of errors and the message that is left after an error.) They appear as parameters (arbitrary functions, or maps
  with the documented errors; gob: decoding what was encoded gives the value back).
* float32 overflow, underflow and fused multiply-add; frequencies above 2^24; rounding in scores computed
  by criteria; a BM25 denominator of 0 (possible only with a negative K1 or B outside [0, 1]; exact rationals give 0 there,
  Go an infinity or NaN); integer overflow of counters, memory exhaustion, I/O errors of the databases.
* The Go memory model below atomic actions: unsynchronised accesses are interleaved as atomic reads
  and writes of the variables concerned. Goroutine fairness (liveness is stated as absence of stuck
  states and bounded work). Safety theorems hold for every order in which RWMutex lets readers and
  writers in; the liveness theorems of Model/Full (C75, C76) also hold if waiting writers exclude new
  readers (`Full.Stuck`, `Full.WritersFirst`).
* Time: a time-out is an event that may happen at any moment.
* The system figures behind info.go, toml configuration (New), etcd registration, the transport
  of heartbeats, logging, the examples
  (except those of Model/Examples), data and testdata programs.
* In Model/Pipeline: an indexing call of a worker is atomic (refined by Model/Fine), unbuffered
  store channels have capacity 1, database calls are atomic and succeed (refused calls: Model/StoreLib, C90). Flush loads the two sides of
  each equation it waits for at different moments (left side first where the code says so, any order
  where Go leaves it open). In Model/Shard: sorting the removal slice is one action.
* A scoring criterion is a pure function of the candidate and the registered fields.
* Slices are values, except where the code shares arrays between goroutines (the remove cache, Model/Shard, and
  `engine.indexers`, Model/HasDoc): the data of a request or a document are not changed by the caller after the call.

## Evidence that the model is the code

No Go code runs in this sandbox, so the model is checked by reading (every definition cites its lines) and by running the
project's own unit tests on it: `Verif/Tests/Core.lean` (core/indexer_test.go), `Verif/Tests/Ranker.lean`
(core/ranker_test.go) and `Verif/Tests/Engine.lean` (engine_test.go and riot_test.go, those without the large dictionary)
transcribe the calls and the expected values of the Go tests, including BM25 scores, proximities, snippet locations and the
paging; the kernel evaluates the model and finds the same values. These are tests, not proofs, and no claim rests on them.
For the engine tests `gse` is replaced by longest match and `murmur` by MurmurHash3 with seed 1 (the seed is inferred: the
expected scores of several tests depend on which documents share a shard, and with it all of them come out).

## Trusted base

Lean's kernel, and the axioms `propext`, `Classical.choice`, `Quot.sound` (every theorem depends on
a subset of these three; `AXIOMS.txt` lists them per property theorem, produced by
`tools/axioms.sh`). No axioms of our own, no `native_decide`, no `bv_decide`. Concrete runs are
evaluated by the kernel (`decide +kernel`, and the tactic `kernel_rfl`, which closes `a = b` with
`Eq.refl a` and leaves the check to the kernel). The tie between model and Go code is by reading
only (citations in each definition).
