{"id": "C01", "title": "AND search returns exactly the matching documents", "statement": "Lookup(tokens, labels, nil, false) on an index returns a document if and only if the document is currently visible (added and made visible, not removed since) and every token and every label of the request is one of its search keys; each such document is returned exactly once, in strictly descending DocId order.", "quantifier": "every reachable index content, every list of tokens and labels (any length, repeated or unknown keys), every index type", "why_tests_cant": "Result depends on the merge of arbitrarily long posting lists with moving upper bounds; a boundary error shows only for particular relative positions of ids in the lists.", "anchors": ["core/indexer.go:Lookup", "core/indexer.go:internalLookup", "core/indexer.go:searchIndex"]}
{"id": "C02", "title": "DocIds restriction", "statement": "When a request carries a non-nil DocIds set, no document outside the set is returned, and every matching document inside it is returned, for plain (AND), Must, Should and NotIn requests alike.", "quantifier": "every index content, every DocIds set (including empty), every request form", "why_tests_cant": "The restriction must hold for every combination of request flags and every set; existing tests only look at one set.", "anchors": ["core/indexer.go:internalLookup", "core/indexer.go:LogicLookup", "core/indexer.go:unionTable"]}
{"id": "C03", "title": "Count-only agrees with a full lookup", "statement": "Lookup with countDocsOnly=true returns no documents and the same number as the number of documents returned with countDocsOnly=false, for plain and for logic requests.", "quantifier": "every index content and every request", "why_tests_cant": "Two code paths that must agree on every input.", "anchors": ["core/indexer.go:Lookup", "core/indexer.go:internalLookup", "core/indexer.go:LogicLookup", "core/indexer.go:unionTable"]}
{"id": "C04", "title": "Add/remove histories refine a map", "statement": "After any history of AddDocToCache / RemoveDocToCache calls (any forceUpdate flags, any cache size) followed by a forced refresh, the visible content of the index is the map obtained by executing the history on an empty map: last added version per DocId, nothing for removed ids.", "quantifier": "every history of add/remove/refresh calls, every DocCacheSize >= 1", "why_tests_cant": "Histories are unbounded and interact with the cache-full trigger, the pending-remove cache and duplicates; tests fix one short history.", "anchors": ["core/indexer.go:AddDocToCache", "core/indexer.go:RemoveDocToCache", "core/indexer.go:AddDocs", "core/indexer.go:RemoveDocs"]}
{"id": "C05", "title": "Index mutation never crashes", "statement": "No history of AddDocToCache / RemoveDocToCache calls makes the index panic (index out of range).", "quantifier": "every history, every DocCacheSize >= 1", "why_tests_cant": "The crash needs a particular cache fill pattern.", "anchors": ["core/indexer.go:AddDocToCache", "core/indexer.go:RemoveDocToCache"]}
{"id": "C06", "title": "A processed removal is immediately invisible", "statement": "Once RemoveDocToCache(d) has been executed on an index in which d is visible, no plain search returns d, whether or not the removal has been flushed, until d is added again.", "quantifier": "every history, every search", "why_tests_cant": "Depends on all later histories before the flush.", "anchors": ["core/indexer.go:RemoveDocToCache", "core/indexer.go:internalLookup"]}
{"id": "C07", "title": "HasDoc is exact", "statement": "HasDoc(d) is true if and only if d is currently visible to searches.", "quantifier": "every history, every d", "why_tests_cant": "Must hold after every history.", "anchors": ["core/indexer.go:HasDoc", "riot.go:HasDoc"]}
{"id": "C08", "title": "Posting data stays attached to its document", "statement": "For a location index, the token locations a lookup returns for a document are, token by token, exactly the locations the document was added with; adding or removing other documents never shifts, mixes or loses them.", "quantifier": "every history of adds and removes, every document and token", "why_tests_cant": "Parallel arrays are shifted and compacted in place; misalignment depends on the exact interleaving of positions.", "anchors": ["core/indexer.go:AddDocs", "core/indexer.go:RemoveDocs", "core/indexer.go:internalLookup"]}
{"id": "C09", "title": "Token-proximity is attained", "statement": "The token proximity reported for a document is the value of Sum |P(i+1)-P(i)-L(i)| at the reported snippet locations, and every reported snippet location is a location of the corresponding token in that document.", "quantifier": "every document, every non-empty token list, all location lists", "why_tests_cant": "Dynamic programming with back-pointers over arbitrary location lists.", "anchors": ["core/indexer.go:computeTokenProximity"]}
{"id": "C10", "title": "Token-proximity is optimal", "statement": "The reported token proximity is the minimum of Sum |P(i+1)-P(i)-L(i)| over all choices of one location per token.", "quantifier": "every token list and all ascending location lists", "why_tests_cant": "A minimum over exponentially many choices.", "anchors": ["core/indexer.go:computeTokenProximity", "docs/en/token_proximity.md"]}
{"id": "C11", "title": "BM25 value", "statement": "The BM25 value of a returned document is the documented formula: sum over the query tokens of IDF*TF*(k1+1)/(TF+k1*(1-b+b*D/L)) with IDF=log2(N/df+1), where N, df, L are taken over the currently visible documents, and 0 contribution for tokens with zero frequency.", "quantifier": "every index content and query", "why_tests_cant": "The statistics must stay consistent over all add/remove histories.", "anchors": ["core/indexer.go:internalLookup", "core/indexer.go:AddDocs", "core/indexer.go:RemoveDocs", "docs/en/bm25.md"]}
{"id": "C12", "title": "Index statistics stay consistent", "statement": "At every point the number of documents used for ranking statistics equals the number of visible documents, and after a flush the total token length equals the sum of the token lengths of the visible documents; the document counter never goes below zero.", "quantifier": "every history of adds and removes", "why_tests_cant": "Counter drift accumulates over histories.", "anchors": ["core/indexer.go:AddDocToCache", "core/indexer.go:AddDocs", "core/indexer.go:RemoveDocs"]}
{"id": "C13", "title": "Search never crashes", "statement": "Lookup never panics, whatever tokens, labels, DocIds and logic options the request carries.", "quantifier": "every reachable index, every request", "why_tests_cant": "Crash inputs are corner combinations (empty token list, logic flags without keys).", "anchors": ["core/indexer.go:Lookup", "core/indexer.go:internalLookup", "core/indexer.go:LogicLookup", "core/indexer.go:computeTokenProximity"]}
{"id": "C14", "title": "Must search is exact", "statement": "A logic request with Must returns exactly the documents that contain all Must keys, at least one Should key when Should keys are requested, and none of the NotIn keys, in strictly descending DocId order.", "quantifier": "every index content, every Must/Should/NotIn combination with Must", "why_tests_cant": "All combinations of key lists and posting lists.", "anchors": ["core/indexer.go:LogicLookup", "core/indexer.go:findInMustTable", "core/indexer.go:findInShouldTable", "core/indexer.go:findInNotInTable"]}
{"id": "C15", "title": "Should search is exact", "statement": "A logic request with Should and without Must returns exactly the documents that contain at least one Should key and none of the NotIn keys, each once.", "quantifier": "every index content, every Should/NotIn key list", "why_tests_cant": "Union with deduplication over arbitrary posting lists.", "anchors": ["core/indexer.go:LogicLookup", "core/indexer.go:unionTable"]}
{"id": "C16", "title": "NotIn search excludes", "statement": "No logic request ever returns a document that contains one of its NotIn keys.", "quantifier": "every index content, every logic request", "why_tests_cant": "All combinations of logic options.", "anchors": ["core/indexer.go:LogicLookup", "core/indexer.go:findInNotInTable", "types/search_request.go:Logic"]}
{"id": "C17", "title": "Logic search never returns removed documents", "statement": "A logic request never returns a document whose removal has been processed.", "quantifier": "every history and every logic request", "why_tests_cant": "Depends on whether the removal has been flushed.", "anchors": ["core/indexer.go:LogicLookup", "core/indexer.go:unionTable"]}
{"id": "C18", "title": "Re-adding a document never hides it", "statement": "While a document is visible and only re-adds of it are performed (no removal), it stays visible after every call.", "quantifier": "every history, every cache size", "why_tests_cant": "Needs the cache-full trigger to coincide with an update.", "anchors": ["core/indexer.go:AddDocToCache"]}
{"id": "C19", "title": "No lost or resurrected document: RemoveDoc after Index", "statement": "If RemoveDoc(d) is called after Index(d) and no later Index(d) follows, then after Flush the document d is not found.", "quantifier": "every history ending with the removal of d and a flush", "why_tests_cant": "Depends on whether the add was still cached.", "anchors": ["core/indexer.go:RemoveDocToCache", "core/indexer.go:AddDocToCache", "engine.go:RemoveDoc"]}
{"id": "C20", "title": "Ranking order", "statement": "Rank returns documents ordered by score vectors, lexicographically from largest to smallest (smallest to largest with ReverseOrder); a vector that extends another with the same prefix ranks higher.", "quantifier": "every list of candidate documents, every scoring function with comparable scores", "why_tests_cant": "All permutations and score vectors.", "anchors": ["core/ranker.go:RankDocs", "core/ranker.go:RankDocID", "types/search_response.go:Less"]}
{"id": "C21", "title": "Rank returns only known, scored documents, with their stored data", "statement": "A ranked document is one of the candidates, is registered with the ranker, received a non-empty score, and carries the fields, content and attributes most recently registered for it and the locations of the candidate; conversely each such candidate is counted once in the returned number.", "quantifier": "every ranker history and candidate list", "why_tests_cant": "Every history of AddDoc/RemoveDoc.", "anchors": ["core/ranker.go:rankOutDocs", "core/ranker.go:rankOutIDs", "core/ranker.go:AddDoc", "core/ranker.go:RemoveDoc"]}
{"id": "C22", "title": "Pagination of one ranking", "statement": "With OutputOffset o>=0 and MaxOutputs m, Rank returns positions o..o+m-1 of the ranking (all from o on when m=0), without reading out of range; consecutive pages tile the ranking without gap or overlap, and the reported total does not depend on o and m.", "quantifier": "every ranking length, every o>=0, every m>=0", "why_tests_cant": "Boundary arithmetic over all sizes.", "anchors": ["core/ranker.go:maxOutput", "engine.go:maxRankOutput"]}
{"id": "C23", "title": "Score order is a strict weak order", "statement": "The comparison used for sorting is irreflexive, transitive and has transitive incomparability for all score vectors.", "quantifier": "all score vectors", "why_tests_cant": "NaN and unequal lengths are corner cases of an infinite domain.", "anchors": ["types/search_response.go:ScoredDocs.Less", "types/search_response.go:ScoredIDs.Less"]}
{"id": "C24", "title": "Sharded search equals global search", "statement": "Engine.Search over any number of shards returns the requested page of the ranking of all matching documents of all shards: output is sorted, has the right length, consists of matching documents, and no returned-range document is outranked by an omitted one that should precede it.", "quantifier": "every number of shards, every distribution of documents, every non-negative offset and limit, every shard answer order, every scoring function with comparable scores", "why_tests_cant": "Top-k truncation per shard followed by merge; wrong per-shard limits show only for skewed distributions.", "anchors": ["engine.go:Search", "engine.go:Ranks", "engine.go:RankID", "ranker_worker.go:rankerRank", "engine.go:maxRankOutput"]}
{"id": "C25", "title": "NumDocs is the total number of matches", "statement": "NumDocs of a search response is the number of matching ranked documents over all shards, independent of OutputOffset/MaxOutputs and of the order in which shards answer.", "quantifier": "every distribution, every page", "why_tests_cant": "All interleavings of shard answers.", "anchors": ["engine.go:NotTimeOut", "engine.go:Ranks", "ranker_worker.go:rankerRank"]}
{"id": "C26", "title": "Count-only search equals full search at engine level", "statement": "Search with CountDocsOnly reports the same NumDocs as the same search without it.", "quantifier": "every engine content, every request and scoring rule", "why_tests_cant": "Must agree for every scoring function and every document set.", "anchors": ["indexer_worker.go:indexerLookup", "core/ranker.go:rankOutDocs"]}
{"id": "C27", "title": "Timeout returns a sound partial result", "statement": "With a timeout, every returned document is one a complete search would rank, NumDocs never exceeds the complete total, and if Timeout is reported false then the answer is complete.", "quantifier": "every schedule of shard answers and timer expirations", "why_tests_cant": "Schedules.", "anchors": ["engine.go:TimeOut", "engine.go:Ranks"]}
{"id": "C28", "title": "A slow or abandoned search never blocks the workers", "statement": "Every worker's answer to a search can be delivered without blocking, even when the requester has stopped reading after a timeout; each shard delivers exactly one answer per search.", "quantifier": "every schedule, every number of shards", "why_tests_cant": "Blocking depends on schedules.", "anchors": ["engine.go:Search", "indexer_worker.go:indexerLookup", "ranker_worker.go:rankerRank"]}
{"id": "C29", "title": "Shard routing is in range and deterministic", "statement": "The shard of a document is hash mod NumShards, always in [0,NumShards), and the same (DocId, Content) always goes to the same shard.", "quantifier": "every 32-bit hash value, every NumShards >= 1", "why_tests_cant": "2^32 hashes times all shard counts.", "anchors": ["engine.go:getShard", "engine.go:internalIndexDoc"]}
{"id": "C30", "title": "Re-indexing replaces the previous version engine-wide", "statement": "After Index(d,v1), Flush, Index(d,v2), Flush, a search finds d only by the keys of v2 and returns it at most once.", "quantifier": "every pair of contents, every NumShards, every hash function", "why_tests_cant": "Depends on hash values of contents.", "anchors": ["engine.go:internalIndexDoc", "engine.go:getShard", "segment.go:segmenterWorker"]}
{"id": "C31", "title": "RemoveDoc reaches the document wherever it is", "statement": "RemoveDoc(d) sends the removal to the indexer and ranker of every shard, so that after it is processed and flushed no shard returns d.", "quantifier": "every number of shards, every placement of d", "why_tests_cant": "Every placement.", "anchors": ["engine.go:RemoveDoc"]}
{"id": "C32", "title": "Flush waits for all indexing work", "statement": "When Flush returns (no concurrent Index/RemoveDoc), every document indexed before is in its shard's index, every removal before has been executed on every shard, and every shard performed a forced refresh after that.", "quantifier": "every schedule of segmenter, indexer and remover workers", "why_tests_cant": "Schedules of concurrent workers and buffered channels.", "anchors": ["engine.go:Flush", "indexer_worker.go:indexerAddDoc", "indexer_worker.go:indexerRemoveDoc", "segment.go:segmenterWorker"]}
{"id": "C33", "title": "After Flush every indexed document can be returned by Search", "statement": "When Flush returns, the ranker of the document's shard knows every document indexed before, so Search can return it.", "quantifier": "every schedule", "why_tests_cant": "Schedules.", "anchors": ["engine.go:Flush", "ranker_worker.go:rankerAddDoc", "segment.go:segmenterWorker"]}
{"id": "C34", "title": "Counters never overtake requests", "statement": "NumIndexed never exceeds the number of Index calls and NumRemoved never exceeds NumShards times the number of RemoveDoc calls, at every moment; both reach equality when all work is done.", "quantifier": "every schedule", "why_tests_cant": "Schedules.", "anchors": ["counters.go", "indexer_worker.go", "engine.go:Flush"]}
{"id": "C35", "title": "No deadlock between indexing, removal and search", "statement": "The add worker and the remove worker of a shard never block each other forever.", "quantifier": "every schedule of lock acquisitions", "why_tests_cant": "Deadlocks need a specific interleaving.", "anchors": ["core/indexer.go:AddDocToCache", "core/indexer.go:RemoveDocToCache"]}
{"id": "C36", "title": "Typed search entry points never crash", "statement": "SearchDoc and SearchID return for every request for which Search returns.", "quantifier": "every request and engine option", "why_tests_cant": "Crash depends on option combination.", "anchors": ["engine.go:SearchDoc", "engine.go:SearchID", "engine.go:Search"]}
{"id": "C37", "title": "Stop tokens never become search keys", "statement": "With a segmenter configured, no stop token is ever registered as a search key of a document (from content, tokens, labels or pinyin).", "quantifier": "every content, token list, label list, stop list and Using mode", "why_tests_cant": "All texts.", "anchors": ["segment.go:makeTokensMap", "segment.go:segmenterWorker", "stop_tokens.go"]}
{"id": "C38", "title": "Every label is a search key and keeps locations intact", "statement": "Each (non-stop) label of an indexed document is one of its search keys; adding labels never changes the locations of a token of the text.", "quantifier": "every document", "why_tests_cant": "All label/token coincidences.", "anchors": ["segment.go:segmenterWorker"]}
{"id": "C39", "title": "Each search key is registered once, with frequency = number of locations", "statement": "The keys produced for a document are pairwise distinct, and a key's frequency equals the number of its locations.", "quantifier": "every document and Using mode", "why_tests_cant": "All texts.", "anchors": ["segment.go:segmenterWorker", "segment.go:ForSplitData"]}
{"id": "C40", "title": "Every word of the text is findable (no segmenter)", "statement": "With NotUseGse and Using=0, after indexing a document, each non-empty space-separated lower-cased word of its content is a search key, and a query made of such words (single spaces) has exactly those words as tokens, so an AND search finds the document.", "quantifier": "every content and every query made of its words", "why_tests_cant": "All texts.", "anchors": ["segment.go:defaultTokens", "segment.go:ForSplitData", "engine.go:Tokens"]}
{"id": "C41", "title": "Using modes select the documented key sources", "statement": "The set of search keys is determined by the documented rule of the Using option: 0 content and tokens, 1 content only when content is not empty, 2 tokens only, 1 or 3 with empty content tokens only, 3 content by segmenter and by character, 4 by spaces.", "quantifier": "every content, token list, Using value", "why_tests_cant": "All texts and modes.", "anchors": ["segment.go:segmenterData", "segment.go:splitData", "docs/en/segmenter.md"]}
{"id": "C42", "title": "Split-mode locations are ascending", "statement": "The locations assigned in split modes are strictly ascending per key, start at 1 and never exceed the reported token count, so that proximity and location output see sorted lists.", "quantifier": "every text", "why_tests_cant": "All texts.", "anchors": ["segment.go:ForSplitData"]}
{"id": "C43", "title": "Restart recovers exactly the stored documents", "statement": "After Index calls that were flushed and closed, a restarted engine re-indexes exactly the stored documents: last indexed data per DocId whose encoding succeeded.", "quantifier": "every history of Index calls and every number of store shards", "why_tests_cant": "Histories and crash points.", "anchors": ["store_worker.go:storeIndexDoc", "store_worker.go:storeInit", "engine.go:Store"]}
{"id": "C44", "title": "Removed documents do not come back after restart", "statement": "After RemoveDoc(d), Flush, Close and restart, d is not in the index.", "quantifier": "every schedule of the store workers", "why_tests_cant": "The deletion is asynchronous.", "anchors": ["engine.go:RemoveDoc", "store_worker.go:storeRemoveDoc", "engine.go:Close"]}
{"id": "C45", "title": "Store backends implement the same map", "statement": "For the three bundled backends, Has(k) is true exactly when k was Set and not deleted since, Get returns the last value Set, and ForEach visits every pair once.", "quantifier": "every history of Set/Delete", "why_tests_cant": "Histories; empty values.", "anchors": ["store/bolt_store.go", "store/badger_store.go", "store/ldb_store.go"]}
{"id": "C46", "title": "Store shard is a function of DocId", "statement": "Index, RemoveDoc and HasDocDB use the same store shard for a DocId, in range for every StoreShards >= 1; GetDBAllIds returns every stored id once.", "quantifier": "every DocId, every StoreShards", "why_tests_cant": "All ids.", "anchors": ["engine.go:Index", "engine.go:RemoveDoc", "riot.go:HasDocDB", "riot.go:GetDBAllIds"]}
{"id": "C47", "title": "core.Asc and core.Desc sort", "statement": "Asc/Desc rearrange any slice into ascending/descending order, keep the multiset of elements and never read or write out of range.", "quantifier": "every slice of uint64", "why_tests_cant": "Quick sort with heap-sort fallback and insertion sort: all lengths and patterns.", "anchors": ["core/uint64.go:Asc", "core/uint64.go:Desc", "core/uint64.go:quickSortAsc", "core/uint64.go:doPivotAsc", "core/uint64.go:heapSortAsc"]}
{"id": "C48", "title": "core.StableAsc and core.StableDesc sort", "statement": "StableAsc/StableDesc rearrange any slice into ascending/descending order, keep the multiset of elements and never read or write out of range.", "quantifier": "every slice of uint64", "why_tests_cant": "In-place merge by rotation for all lengths.", "anchors": ["core/uint64.go:StableAsc", "core/uint64.go:symMergeAsc", "core/uint64.go:rotateAsc", "core/uint64.go:StableDesc"]}
{"id": "C49", "title": "IsSortedAsc/IsSortedDesc decide sortedness", "statement": "IsSortedAsc returns true exactly for ascending slices, IsSortedDesc exactly for descending ones.", "quantifier": "every slice of uint64", "why_tests_cant": "All slices.", "anchors": ["core/uint64.go:IsSortedAsc", "core/uint64.go:IsSortedDesc"]}
{"id": "C50", "title": "Distributed merge respects the limit and order", "statement": "The merged answer of several servers is ordered by timestamp then id (newest first), contains only documents of the servers and contains min(total, maxOutputs) of them.", "quantifier": "every set of server answers and every limit", "why_tests_cant": "All sizes.", "anchors": ["net/http/dist.go:WgDist", "net/grpc/search.go:wgGrpc"]}
{"id": "C51", "title": "Binary search contract", "statement": "Position search in a posting list finds a present document at its position, and otherwise returns the unique insertion position that keeps the list sorted.", "quantifier": "every strictly sorted list, every sub-range, every id", "why_tests_cant": "All lengths and positions.", "anchors": ["core/indexer.go:searchIndex"]}
{"id": "C52", "title": "A removed document can be added again", "statement": "After RemoveDoc(d) and Index(d) in any order of flushes, with the Index last and a final Flush, d is visible with its new keys.", "quantifier": "every history in which d is removed then added", "why_tests_cant": "State machine of pending deletes.", "anchors": ["core/indexer.go:AddDocToCache", "core/indexer.go:AddDocs"]}
{"id": "C53", "title": "Flush-separated calls give exactly the called-for content", "statement": "If every two calls about a document are separated by a Flush, then after the last Flush the document is visible on a shard exactly with the keys its last call asked for on that shard (last Index routed there and not removed since), every search on the shard agrees with that content, and no shard panics.", "quantifier": "every number of shards, segmenter threads and clients, every schedule, every database content at start, every interleaving with calls about other documents", "why_tests_cant": "schedules of many workers and channels are unbounded; the property must hold for every interleaving", "anchors": ["engine.go: Index, RemoveDoc, Flush", "segment.go: segmenterWorker", "indexer_worker.go", "core/indexer.go"]}
{"id": "C54", "title": "From calls to search answers", "statement": "On an engine whose calls about each document were separated by Flushes, where no document was indexed again after its removal and all background work is done, every plain Search returns the requested page of a ranking of exactly the documents whose last version on a shard was not removed and has all keys of the request, each once per shard.", "quantifier": "every number of shards and threads, every schedule, every database content, every request (tokens, labels, id filter, offset, limit), every order of shard answers, every scoring rule with comparable non-empty scores", "why_tests_cant": "it quantifies over all schedules, histories and requests", "anchors": ["engine.go: Index, RemoveDoc, Flush, Search", "segment.go", "indexer_worker.go", "ranker_worker.go", "core/indexer.go", "core/ranker.go"]}
{"id": "C55", "title": "Overlapping index calls behave like atomic ones", "statement": "The add worker and the remove worker of a shard may execute AddDocToCache and RemoveDocToCache at the same time; the shard behaves as if the calls were executed one at a time, in the order in which they return.", "quantifier": "every number of shards, every history of calls, every interleaving of the lock operations of the workers and of searches", "why_tests_cant": "the interleavings at the granularity of lock operations are unbounded and the harmful ones are rare", "anchors": ["core/indexer.go:AddDocToCache", "core/indexer.go:RemoveDocToCache", "core/indexer.go:RemoveDocs", "indexer_worker.go"]}
{"id": "C56", "title": "Gentle use of an engine is safe", "statement": "If no call is forced, Flush is called only while no other call is in progress, and between two Flushes fewer documents go to a shard than its cache holds, then no worker ever panics, no refresh overlaps a removal, the workers never block each other, and all calls return.", "quantifier": "every number of clients, shards and threads, every history of gentle calls (concurrent updates and removals of the same documents included), every interleaving of lock operations, every database content at start", "why_tests_cant": "schedules of many goroutines and locks", "anchors": ["engine.go: Index, RemoveDoc, Flush", "core/indexer.go:AddDocToCache", "core/indexer.go:RemoveDocToCache", "indexer_worker.go", "segment.go:segmenterWorker"]}
{"id": "C57", "title": "From gentle, disciplined calls to answers with overlapping index calls", "statement": "An engine used gently and with the calls about each document separated by Flushes (no document indexed again after its removal) answers, when its work is done, every plain Search from the actual indexes of its shards with the requested page of a ranking of exactly the documents the calls leave.", "quantifier": "every number of shards and threads, every interleaving of lock operations, every database content, every request and order of shard answers", "why_tests_cant": "it quantifies over all schedules, histories and requests", "anchors": ["engine.go: Index, RemoveDoc, Flush, Search", "core/indexer.go", "core/ranker.go", "indexer_worker.go", "ranker_worker.go"]}
{"id": "C58", "title": "A distributed search merges exactly the answers of its own servers", "statement": "Whatever the order in which the servers answer and whatever other distributed searches run at the same time, a distributed search merges every answer its servers gave, each once, and nothing else.", "quantifier": "every number of servers and requests, every schedule of the goroutines", "why_tests_cant": "Lost and foreign answers depend on the interleaving of unsynchronised appends.", "anchors": ["net/http/dist.go:WgPost", "net/http/dist.go:WgDist", "net/grpc/search.go:WgRpc", "net/grpc/search.go:wgGrpc"]}
{"id": "C59", "title": "The network servers show the engine's page", "statement": "A search through the HTTP or gRPC server answers with exactly the documents of the engine's page for the given (or configured) offset and limit, newest first, and does not crash.", "quantifier": "every index content, query, offset, limit and configuration", "why_tests_cant": "All contents and limits.", "anchors": ["net/http/http.go:Search", "net/grpc/search.go:rpcSearch", "net/com/search.go:Search"]}
{"id": "C60", "title": "The gRPC server serves every sequence of calls after its initialisation", "statement": "After InitEngine a gRPC server process survives every sequence of index, search and delete calls.", "quantifier": "every sequence of calls", "why_tests_cant": "All sequences.", "anchors": ["net/grpc/grpc.go:DelDoc", "net/grpc/search.go:searcher", "net/com/search.go:Searcher"]}
{"id": "C61", "title": "HasDoc only reads", "statement": "HasDoc answers whether some shard has the document, and any number of HasDoc calls, at any moments, changes no shard and blocks no indexing or removal.", "quantifier": "every schedule of HasDoc calls and indexing/removal calls, every number of shards, every growth strategy of append", "why_tests_cant": "HasDoc appends to the engine's slice of indexers; whether that moves the slice while a worker holds a lock depends on the schedule and the allocator.", "anchors": ["riot.go:HasDoc", "core/indexer.go:HasDoc", "engine.go:Init"]}
{"id": "C62", "title": "A search during index calls sees every document in the version of the finished calls", "statement": "At every moment, whatever indexing and removal calls are in progress, a search of a shard sees one state of the index, and finds each document in the version the calls that have returned left; a document that is replaced is found all the time, first in its old and then in its new version.", "quantifier": "every schedule of the worker and search goroutines of an engine at lock granularity, every moment, every request", "why_tests_cant": "The moments between two lock sections of a refresh are hit by few schedules.", "anchors": ["core/indexer.go:AddDocToCache", "core/indexer.go:RemoveDocToCache", "core/indexer.go:Lookup", "indexer_worker.go"]}
{"id": "C63", "title": "A search never returns a document for words it was not given with", "statement": "At every moment of every execution, a document returned by a search of a shard was given to the engine (by an index call or from the store) in a version that contains every searched token and label.", "quantifier": "every schedule of client, worker and search goroutines at lock granularity, including racing refreshes and removals, every moment, every request", "why_tests_cant": "Phantom results come from particular interleavings of several lock sections; tests run a few schedules.", "anchors": ["core/indexer.go:AddDocToCache", "core/indexer.go:AddDocs", "core/indexer.go:RemoveDocToCache", "core/indexer.go:RemoveDocs", "core/indexer.go:Lookup"]}
{"id": "C64", "title": "A ranking made during updates gives each candidate the data of one moment", "statement": "While other goroutines add and remove documents, a Rank call returns the requested page, in the requested order, of entries that candidates have at moments during the call: each entry carries fields, content and attributes of one version of its document, a candidate that is unknown at its moment is left out, the count is the number of entries; if none of the candidates is touched during the call, it is the ranking of the state at its beginning.", "quantifier": "every schedule of AddDoc, RemoveDoc and Rank calls of any number of goroutines, every candidate list, every scoring function, every legal offset and limit", "why_tests_cant": "The ranker unlocks between candidates; which updates fall between two lookups depends on the schedule.", "anchors": ["core/ranker.go:AddDoc", "core/ranker.go:RemoveDoc", "core/ranker.go:rankOutIDs", "core/ranker.go:rankOutDocs", "ranker_worker.go"]}
{"id": "C65", "title": "Unset engine options get working defaults, set options are kept", "statement": "Initialising an engine with options none of which is negative does not panic, starts at least one segmenter worker, one shard and, per shard, at least one lookup and one rank worker with buffered channels; every count, buffer length, index type, BM25 parameter and scoring criterion the user set is used, every one left at zero/nil gets its documented default (8 shards, 8 databases, one worker per processor, frequency index, k1=2 b=0.75, BM25); initialising options twice changes nothing.", "quantifier": "every combination of option values, every number of processors", "why_tests_cant": "The option space is a product of integers, pointers and callbacks; tests try a few combinations.", "anchors": ["types/engine_init_options.go:Init", "engine.go:Init", "engine.go:initDef", "riot.go:New", "riot.go:NewEngine"]}
{"id": "C66", "title": "Without criteria, results are ranked by BM25", "statement": "When neither the engine nor the request gives scoring criteria, every document found by a search is scored with its BM25 value with the default parameters, whichever way the engine was created and the query is expressed.", "quantifier": "every index history, every request without criteria, every way of creating the engine", "why_tests_cant": "Depends on the combination of constructor, index type, query logic and index history.", "anchors": ["types/engine_init_options.go:Init", "types/scoring_criteria.go:RankByBM25", "riot.go:NewEngine", "core/indexer.go:internalLookup", "core/indexer.go:LogicLookup"]}
{"id": "C67", "title": "Postings of a document are exact in every segmentation mode", "statement": "The document sent to the index carries, for every key, exactly the documented locations (index among the pinyin keys; else the locations the user gave with the token; else byte offsets of the segments or positions in the split; none for a mere label), a frequency equal to the number of these locations, and a length counting segments, kept split tokens, user tokens and pinyin keys.", "quantifier": "every document, every option combination, every dictionary segmenter, pinyin converter and stop word list", "why_tests_cant": "All texts and all dictionaries.", "anchors": ["segment.go:makeTokensMap", "segment.go:segmenterData", "segment.go:splitData", "segment.go:ForSplitData", "segment.go:segmenterWorker"]}
{"id": "C68", "title": "A word is a stop token iff it is a line of the stop token file", "statement": "After initialisation with a stop token file, a non-empty word is treated as a stop token exactly if it is one of the lines of the file (Unix or Windows line ends, final newline or not); the empty word never is.", "quantifier": "every file content, every word", "why_tests_cant": "All files, including ones with very long lines.", "anchors": ["stop_tokens.go:Init", "stop_tokens.go:IsStopToken"]}
{"id": "C69", "title": "GetDBAllDocs returns every stored document with its id", "statement": "GetDBAllDocs returns the ids of GetDBAllIds and, at the same positions, the documents last stored under these ids; every stored and not deleted document is returned and nothing else.", "quantifier": "every history of store operations on every number of databases, every storage backend", "why_tests_cant": "All store histories and contents.", "anchors": ["riot.go:GetDBAllDocs", "riot.go:GetDBAllIds", "store/ldb_store.go:ForEach", "store/bolt_store.go:ForEach", "store/badger_store.go:ForEach"]}
{"id": "C70", "title": "The document registry is exact", "statement": "IsDocExist is true exactly for the documents added with AddDocInfo to some shard, and a shard's document counter is the number of its documents.", "quantifier": "every order of calls on every number of shards", "why_tests_cant": "All histories of registrations including repeated ones.", "anchors": ["core/data.go:AddDocInfo", "core/data.go:IsDocExist", "core/data.go:AddDocInfosShard"]}
{"id": "C71", "title": "UsedMem and UsedDisk report the increase since start", "statement": "UsedMem and UsedDisk return the number of bytes by which usage has grown since the program started (0 when it has not grown); ToKB/ToMB/ToGB convert exactly, rounded down.", "quantifier": "every pair of figures reported by the system", "why_tests_cant": "The figures come from the system; a test cannot make usage drop at will.", "anchors": ["info.go:UsedMem", "info.go:UsedDisk", "info.go:ToKB", "info.go:ToMB", "info.go:ToGB"]}
{"id": "C72", "title": "The heartbeat restarts a server only after several failures in a row", "statement": "The heartbeat client restarts the server after four consecutive failed heartbeats, and never restarts a server that has answered one of its last four heartbeats.", "quantifier": "every sequence of answered and failed heartbeats and kill calls", "why_tests_cant": "All histories of an arbitrarily long-running process.", "anchors": ["net/heartb/heart.go:Grpcc", "net/heartb/heart.go:heart", "net/heartb/heart.go:restart"]}
{"id": "C73", "title": "A search overlapping any other activity returns only what the index held during the search", "statement": "A search that overlaps any indexing, removing, flushing and searching returns the requested page, in the requested order, of a ranking whose entries are exactly: for every shard that answered, the documents the shard's index held for the request at one moment between the start and the end of the search, each as registered with the shard's ranker at a later moment before the end. Every shard contributes at most once, and all of them do unless the response is marked as timed out. Orderless and count-only searches return exactly the documents (their number) held at such moments.", "quantifier": "every engine configuration, every stored content, every interleaving of any number of callers, pipeline goroutines, index locks, lookup and rank workers and searches, every timeout", "why_tests_cant": "A test sees a few interleavings; the claim is about all of them.", "anchors": ["engine.go:Search", "engine.go:NotTimeOut", "engine.go:TimeOut", "indexer_worker.go:indexerLookup", "ranker_worker.go:rankerRank", "core/indexer.go:Lookup", "core/ranker.go:Rank"]}
{"id": "C74", "title": "A document nobody touches is unaffected by what happens to others during a search", "statement": "Take a document whose earlier calls were separated by Flushes and have been executed by indexes and rankers when a search begins, and about which no call is made until the search ends. Whatever is indexed, removed, flushed or searched meanwhile, an ordered search ranks it exactly as if nothing else happened: one entry on each answering shard where its last version matches the request, with the data registered for it, and no entry otherwise; it is neither lost nor duplicated by concurrent updates of other documents. The scores and token locations of the entry are those of that last version.", "quantifier": "every engine configuration, every schedule of calls, workers and concurrent searches, every request with one lookup mode, every document other than id \"0\"", "why_tests_cant": "It ranges over all interleavings of a search's shard lookups and ranker reads with index merges, removals and cache refreshes about other documents.", "anchors": ["engine.go:Search", "indexer_worker.go:indexerLookup", "core/indexer.go:AddDocs", "core/indexer.go:RemoveDocs", "core/indexer.go:Lookup", "core/ranker.go:Rank"]}
{"id": "C75", "title": "Every search returns", "statement": "Whatever is indexed, removed, flushed and searched at the same time, every Search call returns: the work caused by finitely many calls and searches ends, and when nothing more can happen every search has returned, even without a time-out. (The code violates this when an update and a removal cross their locks: from then on no search without a time-out returns, and only boundedly many with one.)", "quantifier": "every engine configuration, every schedule of calls, pipeline goroutines, index locks, lookup and rank workers and any number of searches", "why_tests_cant": "Absence of deadlock over all schedules; a test that passes has seen one schedule, and one that hangs does not show that it hangs for ever.", "anchors": ["engine.go:Search", "engine.go:NotTimeOut", "engine.go:TimeOut", "indexer_worker.go:indexerLookup", "ranker_worker.go:rankerRank", "core/indexer.go:AddDocs", "core/indexer.go:RemoveDocs"]}
{"id": "C76", "title": "A gently used engine never crashes and answers every safe search", "statement": "If no call is forced, Flush is called only when no other call is in progress and fewer documents are indexed per shard between two Flushes than the document cache holds, then no worker ever panics and every search whose request avoids the crashing shapes returns a response, at any time and from any number of goroutines. A plain search made when all work is done (documents indexed at most once per Flush, none indexed again after its removal) returns the requested page of a ranking of exactly the documents whose last version matches, each shard contributing each of them once. The scores and token locations of an entry are those of the last version, and its content, fields and attributes are those of a version of that document given to the shard.", "quantifier": "every configuration, every gentle schedule of calls, workers and searches, every request outside the crashing shapes", "why_tests_cant": "Absence of panics, hangs and wrong answers over all interleavings and all histories.", "anchors": ["engine.go:Search", "engine.go:Flush", "engine.go:Index", "engine.go:RemoveDoc", "core/indexer.go:AddDocToCache", "core/indexer.go:RemoveDocToCache", "core/indexer.go:Lookup", "core/ranker.go:Rank"]}
{"id": "C77", "title": "Flush waits for everything issued before it, also when other calls overlap", "statement": "When Flush returns, every shard has executed all additions and removals of the Index and RemoveDoc calls that had returned before Flush was called, and has made a refresh afterwards, whatever other goroutines call meanwhile (Index, RemoveDoc, other Flushes).", "quantifier": "every configuration, every schedule, every set of overlapping calls", "why_tests_cant": "Flush compares counters loaded at different moments while other goroutines increment them; the bad interleavings are rare and depend on the order in which segmenter threads and shards run.", "anchors": ["engine.go:Flush", "engine.go:IndexDoc", "engine.go:RemoveDoc", "segment.go:segmenterWorker", "indexer_worker.go:indexerAddDoc", "indexer_worker.go:indexerRemoveDoc"]}
{"id": "C78", "title": "Token statistics stay right in float32", "statement": "The total token length the index computes with float32 arithmetic is the total of the documents it holds after every history of additions, updates and removals, and float32 arithmetic never changes which documents a lookup finds. (The code violates the first part beyond 2^24 tokens: additions are absorbed by rounding, e.g. after removing a document of 2^24 tokens a remaining one-token document is scored 0.)", "quantifier": "every history of index calls, every sort implementation, every document length, every rounding function (second part)", "why_tests_cant": "Rounding errors depend on the whole history of additions and removals; the effect appears only in large indexes.", "anchors": ["core/indexer.go:AddDocs", "core/indexer.go:RemoveDocs", "core/indexer.go:internalLookup"]}
{"id": "C79", "title": "float32 BM25 values are close to the exact ones", "statement": "For every history and request, the BM25 value of every document computed in float32 differs from the exact value of the documented formula by a relative error of at most (ki + 11 + number of tokens)/2^23, ki being the error of the logarithm in roundings; so documents whose exact values differ by more keep their order.", "quantifier": "every history of index calls, every request, every BM25 parameter with k1 >= 0 and 0 <= b <= 1", "why_tests_cant": "An error bound for all inputs; a test compares finitely many values with a tolerance.", "anchors": ["core/indexer.go:internalLookup", "core/indexer.go:Lookup"]}
{"id": "C80", "title": "A document sent over gRPC is indexed as it was sent", "statement": "A document sent to the gRPC server becomes findable under the DocId it was sent with, by the words of its content, its tokens and its labels, and documents sent with different ids by the repository's client are different documents.", "quantifier": "every document, every sequence and interleaving of requests, every later search", "why_tests_cant": "The losses are silent: the request succeeds and a test that does not search by label, or sends one document, sees nothing.", "anchors": ["net/grpc/grpc.go:addDoc", "net/grpc/grpcc.go:InitGrpcc", "net/com/search.go:AddDocInx"]}
{"id": "C81", "title": "A search over gRPC is the engine's search", "statement": "Every search request the protocol allows is answered as the engine's Search would answer it: with the same text, offset, limit, DocIds and Logic, optional parts left out or not.", "quantifier": "every request, every engine content", "why_tests_cant": "The space of requests includes left-out optional messages, empty maps and numbers beyond 32 bits.", "anchors": ["net/grpc/grpc.go:Search", "net/grpc/etcd.go:Search", "net/grpc/grpcc.go:InitSearchRpc"]}
{"id": "C82", "title": "Documents given to the servers survive a restart", "statement": "The servers run their engine with a store: documents added over HTTP or gRPC are found again after a Flush and a restart.", "quantifier": "every sequence of requests, every schedule, every moment of the end", "why_tests_cant": "A property of all histories and crash points; the failure to encode is not reported.", "anchors": ["net/http/http.go:AddIndex", "net/grpc/grpc.go:addDoc", "net/com/search.go:InitEngine", "store_worker.go:storeIndexDoc"]}
{"id": "C83", "title": "The number of store shards can be changed between restarts", "statement": "An engine restarted with another number of store shards (and any other sizes) serves the documents the earlier one stored, and RemoveDoc and Index keep their meaning for the store.", "quantifier": "every history of the earlier engine, every schedule, all configurations before and after, every run of the new engine and its restarts", "why_tests_cant": "Ranges over all histories of two or three successive engines and all pairs of configurations.", "anchors": ["engine.go:Store", "engine.go:Index", "engine.go:RemoveDoc", "store_worker.go:storeInit", "riot.go:HasDocDB"]}
{"id": "C84", "title": "From texts to answers", "statement": "On an engine used gently (no forced calls, Flush only when no other call is in progress, fewer documents between two Flushes than the cache holds), with the calls about each document separated by Flushes and no document indexed again after its removal, a plain Search made when all work is done returns the requested page of a ranking of exactly the documents that the request allows and whose last text given to a shard (not removed since) has every word of the query text, every token and every label of the request among its search keys, once per shard. Without a segmenter, a query made of words separated by single spaces finds every document whose text contains all the words, and finds only documents in which each word is a word, token, label or a beginning of the text with its spaces taken out. Entries carry the scores and token locations of that text and the content, fields and attributes of a version of that same document.", "quantifier": "all texts, tokens, labels, queries, options and segmenters, all histories and schedules of the whole engine, all pages", "why_tests_cant": "It composes segmentation, routing, caching, indexing, ranking and merging over every schedule and every text.", "anchors": ["segment.go:makeTokensMap", "segment.go:segmenterWorker", "engine.go:Tokens", "engine.go:Index", "engine.go:Search", "core/indexer.go:Lookup"]}
{"id": "C85", "title": "The store library is the one asked for, everywhere", "statement": "An engine with a store uses the library named by the option StoreEngine, if that is empty by the environment variable Riot_Store_Engine, if that is empty too leveldb; a name stands for the function registered last under it with RegisterStore, or for the built-in one. All store shards use the same library, both when the documents are recovered and when new ones are stored; there is exactly one file per store shard, no two shards share a file, and the file depends only on the folder and the number of the shard. If the name stands for nothing or a file cannot be opened, the engine does not start.", "quantifier": "all options that are not negative, sequences of RegisterStore calls, environments, and outcomes of opening the files", "why_tests_cant": "A test fixes one name, one environment and one number of shards.", "anchors": ["store/store.go:OpenStore", "store/store.go:RegisterStore", "engine.go:Store", "engine.go:Init"]}
{"id": "C86", "title": "An engine without a store opens no database", "statement": "An engine made without the option UseStore opens no database and keeps nothing on disk, whatever the other options and whatever the state of the machine.", "quantifier": "all options that are not negative without UseStore, all values of the machine's memory usage", "why_tests_cant": "It depends on the memory usage of the machine at the moment of Init, which a test does not control.", "anchors": ["engine.go:CheckMem", "engine.go:Init", "engine.go:Store"]}
{"id": "C87", "title": "A server's engine has the configured settings", "statement": "The engine behind the HTTP and gRPC servers has the settings of the configuration file: number of shards and store shards (10 if not set), store library and folder, dictionary, segmenter mode, stop token file, segmentation mode; and its results are ranked.", "quantifier": "all configurations with numbers that are not negative, all machines, all histories of the engine and all searches", "why_tests_cant": "A test fixes one configuration; which documents a page is cut from depends on the ranking of every result set.", "anchors": ["net/com/search.go:InitEngine", "net/com/conf.go:Engine", "types/engine_init_options.go:Init"]}
{"id": "C88", "title": "Between two Flushes a search works on the old index", "statement": "Use an engine gently (no forced calls, Flush only while no other call runs, fewer documents between two Flushes than a shard's cache holds) and take a moment at which all its work is done. Until the next Flush call, whatever is indexed or removed meanwhile and by whomever, a plain search works on the index of that moment: a document is found only if its version of that moment matches; if it is not removed meanwhile it is found if that version matches, whatever later Index calls say; if it was removed and the removal has been executed when the search begins, it is not found (removals need no Flush). Its entry has the locations, BM25 and proximity of the version of that moment, while the content, attributes and fields shown and scored are those of some version given before the search ended.", "quantifier": "all gentle histories, moments without pending work, schedules of all goroutines afterwards, requests without logic expressions, and documents (other than id 0, not indexed again after a removal, calls separated by Flushes) ", "why_tests_cant": "It ranges over all interleavings of calls, workers, caches and searches after the moment; a test sees one schedule.", "anchors": ["engine.go:IndexDoc", "riot.go:Flush", "core/indexer.go:AddDocToCache", "core/indexer.go:RemoveDocToCache", "core/indexer.go:Lookup", "core/ranker.go:Rank", "engine.go:Search"]}
{"id": "C89", "title": "A document added through a server is found", "statement": "A document added through the HTTP (or gRPC) server is found by searches of that server made once the engine's work is done: the answer shows the texts of the requested page of the ranking of exactly the documents whose last text has all words of the query, newest first.", "quantifier": "all histories of add, delete and search requests to the server, all schedules of the engine's goroutines, all queries and limits", "why_tests_cant": "The answer depends on which documents sit in the shards' caches, over all histories and schedules; the repository's tests call Flush themselves.", "anchors": ["net/http/http.go:AddIndex", "net/http/http.go:Search", "net/com/search.go:AddDocInx", "net/com/search.go:InitEngine", "net/com/search.go:Flush", "core/indexer.go:AddDocToCache"]}
{"id": "C90", "title": "Every bundled store library keeps the documents of an engine", "statement": "With each of the bundled store libraries (goleveldb, bbolt, badger), over any number of engine lives on the same files: what the next engine reads are whole documents that were given to Index, each once, in the store shard of its DocId; after lives that ended after a Flush it is exactly the last version of each document, HasDocDB says whether there is one, and the restarted engine finds it.", "quantifier": "over all libraries, all documents and DocIds, any number of lives, all calls, schedules and moments at which each life ends", "why_tests_cant": "A test opens one library once and restarts it once; it cannot cover every sequence of lives, every moment of ending and every DocId for each library.", "anchors": ["store_worker.go:storeIndexDoc", "store_worker.go:storeRemoveDoc", "store_worker.go:storeInit", "store/ldb_store.go", "store/bolt_store.go", "store/badger_store.go", "riot.go:HasDocDB"]}
{"id": "C91", "title": "What was flushed survives a power failure", "statement": "If a Flush has returned after the last call about a document, the document is in its store after a power failure at any later moment, in the last version given to Index; and after a power failure at any moment the store holds only whole documents that were given to Index, in a state it had at some moment.", "quantifier": "over the bundled store libraries, all calls and schedules, all moments of power failures, any number of lives", "why_tests_cant": "A test cannot cut the power at every moment, and data in the page cache looks stored to every test process.", "anchors": ["store/ldb_store.go:Set", "store/ldb_store.go:Delete", "store/bolt_store.go:OpenBolt", "store/badger_store.go:OpenBadger", "store/store.go:DefaultStore", "store_worker.go:storeIndexDoc", "engine.go:Flush"]}
{"id": "C92", "title": "Close completes the store", "statement": "When Close has returned, the store holds the last version of every document given before, and nothing done with the engine afterwards changes that; a document that the engine still accepts and shows is stored.", "quantifier": "over all calls before, during and after Close, all schedules, all store libraries", "why_tests_cant": "The effect depends on where other goroutines are when each database is closed, and on what is called later.", "anchors": ["engine.go:Close", "engine.go:Flush", "engine.go:Index", "store_worker.go:storeIndexDoc", "store_worker.go:storeRemoveDoc"]}
{"id": "C93", "title": "PinYin adds the pinyin of a text to its keys", "statement": "With PinYin on, a document is also found by the pinyin and the initials of its text, by its characters and (with a segmenter) by its segmented words, unless they are stop tokens; every other key, with its locations and frequency, is as without PinYin.", "quantifier": "over all texts, tokens and labels, all pinyin and segmentation libraries, all stop token files, all index histories", "why_tests_cant": "The keys come from three loops over the text that share maps with the other key sources; tests look at two or three texts.", "anchors": ["segment.go:PinYin", "segment.go:makeTokensMap", "engine.go:Segment", "types/engine_init_options.go:PinYin"]}
{"id": "C94", "title": "A distributed search finds what the servers have", "statement": "A search sent through the distributed front end (HTTP or gRPC) shows, newest first, the documents of all configured servers whose last text has all the words of the query, up to the limit, each with the text and time stamp it was given with, and nothing else.", "quantifier": "over all numbers of servers, their options, histories and schedules, all queries and limits, and all schedules of the collecting goroutines", "why_tests_cant": "The answer depends on the histories and schedules of several engines and on the interleaving of the goroutines that collect their answers; a test sees one combination.", "anchors": ["net/http/dist.go:WgDist", "net/http/dist.go:WgPost", "net/grpc/search.go:wgGrpc", "net/http/http.go:Search", "net/com/search.go:Search", "engine.go:Search"]}
{"id": "C95", "title": "Scores use the statistics of the documents that exist", "statement": "After a Flush, the BM25 score of a search result is computed with the number of documents that exist (last versions, removed ones excluded), the average length of their texts, and the number of them that contain each word of the query; documents with the same text get the same score.", "quantifier": "over all histories of Index, RemoveDoc and Flush calls ending with a Flush, all texts, all options and schedules, all queries", "why_tests_cant": "The statistics are maintained incrementally by concurrent workers over the whole history of the engine; a test checks the scores of one history.", "anchors": ["core/indexer.go:Lookup", "core/indexer.go:internalLookup", "core/indexer.go:AddDocs", "core/indexer.go:RemoveDocs", "core/indexer.go:RemoveDocToCache", "engine.go:Index", "engine.go:Flush", "engine.go:Search"]}
{"id": "C96", "title": "Logic, orderless and count-only searches give exactly the documents that satisfy them, from texts to answers", "statement": "After a Flush, a search with Must, Should and NotIn clauses returns (a page of) exactly the documents whose last text has all Must keys, one of the Should keys and no NotIn key and that are among the DocIds; an orderless search lists exactly the documents whose last text satisfies the request; a count-only search returns their number. Documents that were removed or whose older version satisfied the request do not appear.", "quantifier": "over all histories of Index, RemoveDoc and Flush calls ending with a Flush, all texts, options and schedules, all other searches going on, all requests", "why_tests_cant": "The answer must be right for every history, schedule and combination of clauses; a test checks a few requests on one history.", "anchors": ["engine.go:Search", "core/indexer.go:Lookup", "core/indexer.go:LogicLookup", "core/indexer.go:findInMustTable", "core/indexer.go:unionTable", "engine.go:NotTimeOut", "engine.go:TimeOut", "engine.go:Index", "engine.go:Flush"]}
{"id": "C97", "title": "Every int is a valid page limit and time-out", "statement": "For every offset and limit an int can hold that is not negative, a search returns the requested page (so the largest int as limit means 'everything from the offset on'), and a search with a time-out of t milliseconds has its deadline t milliseconds after its call. (The code violates this when offset + limit, or the time-out in nanoseconds, exceeds 63 bits: the ranker crashes the process, or the search times out at once.)", "quantifier": "all offsets, limits and time-outs from 0 to 2^63-1, all shards, contents, scoring functions and orders of answers", "why_tests_cant": "It ranges over all 64-bit values; the failures lie at values no example uses, and whether the wrapped intermediate values still give the right page must be shown for all of them.", "anchors": ["ranker_worker.go:rankerRank", "core/ranker.go:maxOutput", "engine.go:maxRankOutput", "engine.go:TimeOut", "types/search_request.go:RankOpts"]}
{"id": "C98", "title": "Answers depend only on the documents held, not on the history", "statement": "Two indexes (or two engines, shard by shard) with the same index type and parameters that hold the same documents answer every request the same: the same documents in the same order with the same locations, proximity, BM25 values and counts, and therefore the same page of scores. Neither the order of the calls, nor versions and documents that were replaced or removed, nor batching, cache sizes, forced calls, schedules, the order of a document's keywords or the sort used matter.", "quantifier": "all pairs of histories, cache sizes, sort implementations, schedules, requests of every kind, offsets, limits and scoring functions", "why_tests_cant": "It relates every two of infinitely many histories and schedules with the same outcome; a test compares two.", "anchors": ["core/indexer.go:AddDocs", "core/indexer.go:RemoveDocs", "core/indexer.go:AddDocToCache", "core/indexer.go:Lookup", "core/indexer.go:LogicLookup", "engine.go:Search", "engine.go:Flush"]}
{"id": "C99", "title": "The index keeps nothing of removed or replaced documents", "statement": "After a refresh the index stores exactly one posting per key of each document it holds, one state and one length entry per document and nothing else: no row, posting, state, length or cached request of a removed document or of an old version remains, so its size depends only on the documents held, and after removing everything it is as empty as a new index. (Between refreshes removed documents keep their postings.)", "quantifier": "all histories of additions, updates and removals with a refresh at the end, all cache sizes and index types", "why_tests_cant": "A leak may need any particular interleaving of additions and removals; the claim is about all of them and about all keys and documents.", "anchors": ["core/indexer.go:AddDocs", "core/indexer.go:RemoveDocs", "core/indexer.go:AddDocToCache", "core/indexer.go:RemoveDocToCache"]}
{"id": "C100", "title": "Paging through the results shows every document once", "statement": "While nothing is indexed or removed, asking the same request for page 0, 1, 2, … of m results shows together the whole ranking in order: no document is shown twice, none is skipped, every page reports the same number of documents, and pages behind the end are empty. (The code violates this for documents with equal scores on different shards: their order depends on which shard answers first, so one can be shown on two pages and another on none.)", "quantifier": "all shards, contents, scoring functions, page sizes, numbers of pages, sort implementations and, for each page separately, orders in which the shards answer", "why_tests_cant": "Each page is an independent search with its own arrival order and its own truncation in every shard; the claim relates all pages under all combinations of these.", "anchors": ["engine.go:Search", "engine.go:Rank", "engine.go:maxRankOutput", "core/ranker.go:maxOutput", "ranker_worker.go:rankerRank"]}
{"id": "C101", "title": "Requests are sets of conditions", "statement": "The order and repetition of words, labels and DocIds do not matter, a word may be given as token or as label, adding words only removes documents, a request for the words of two requests returns what both return, restricting to DocIds filters the answer, Must/Should/NotIn requests are the intersection, union and difference of the plain requests for their keys. (The last is false between refreshes: logic requests still return removed documents.)", "quantifier": "all histories, index types and cache sizes, all pairs of requests", "why_tests_cant": "The laws relate every pair of requests on every reachable index; tests try a few pairs.", "anchors": ["core/indexer.go:Lookup", "core/indexer.go:LogicLookup", "core/indexer.go:internalLookup", "core/indexer.go:findInRow"]}
{"id": "C102", "title": "A document is found by its own text", "statement": "After a document was indexed and flushed, a search with its own text as query finds it. (The code violates this: extra spaces make the empty string a query word, cutting into characters (mode 5) makes no keys of inner words, a text of stop tokens only has no query words, and with a segmenter queries and documents are segmented by different functions.)", "quantifier": "all texts, segmentation modes and options, all other documents and all schedules of gentle use", "why_tests_cant": "It compares two different segmentation paths of the code on every text and every mode.", "anchors": ["engine.go:Tokens", "engine.go:Segment", "segment.go:makeTokensMap", "segment.go:segmenterData", "segment.go:ForSplitData"]}
{"id": "C103", "title": "Calls without effect leave no trace", "statement": "From an index that was just refreshed on, whatever calls led there: flushing again changes nothing; removing a document that is not there changes nothing; adding (forced) the same document twice gives the same answers as adding it once; removing a document twice and flushing gives the same answers as removing it once; and adding a new document, removing it and flushing gives the answers the index gave before. Same answers means: HasDoc and every lookup, with all locations, proximities, BM25 values and counts.", "quantifier": "all histories of index calls (also undisciplined ones) that end with a refresh, all documents, ids, force flags, index types and cache sizes, all sort implementations, and all requests", "why_tests_cant": "A test compares a few answers after a few histories; the claim is about every request on every state, including the statistics, the caches and the states left behind by messy histories.", "anchors": ["core/indexer.go:AddDocToCache", "core/indexer.go:RemoveDocToCache", "core/indexer.go:RemoveDocs", "core/indexer.go:AddDocs", "core/indexer.go:Lookup"]}
{"id": "C104", "title": "Without BM25 the number of shards does not show", "statement": "Two engines that hold the same documents with the same data, on any numbers of shards and distributed over them in any way, give the same answers to every search whose criteria do not look at the BM25 value: the same number of documents, the same score vectors at the same places, and, if no two documents have the same scores, the same documents with the same contents and locations in the same order; orderless searches list the same documents. (BM25 values do depend on the distribution: C95.)", "quantifier": "all numbers of shards, all distributions of the documents, all disciplined histories of each shard that end with a refresh, all plain and Must/Should/NotIn requests, all criteria without BM25 and NaN, all pages, all orders in which the answers of the shards arrive, all sort implementations", "why_tests_cant": "The number of shards, the hash that distributes the documents and the arrival order of the answers vary freely; a test fixes one of each.", "anchors": ["engine.go:Search", "engine.go:Rank", "indexer_worker.go:indexerLookup", "core/indexer.go:Lookup", "core/ranker.go:Rank", "utils/utils.go:MinInt"]}
{"id": "C105", "title": "Criteria may drop documents; the others are all there, correctly scored", "statement": "After a collection of documents with distinct ids was indexed (in any order, by any clients) and flushed (any other documents indexed meanwhile having been removed again), a search with any scoring criteria - also ones that give no scores to some documents - answers with a page of the ranking of exactly the documents of the collection that satisfy the request and get scores, with the scores the criteria compute from the document's text statistics and the fields it was indexed with, its content and attributes; without a time-out all shards answer and the number of results is the number of these documents.", "quantifier": "all collections with distinct ids, all engines (shards, threads, channel sizes, segmentation modes), all schedules of clients and workers, all scoring criteria (pure functions without NaN), all plain and Must/Should/NotIn requests, pages and sort implementations", "why_tests_cant": "The criteria are user code and the schedules are unbounded; a test tries a few criteria on a few documents.", "anchors": ["engine.go:Search", "core/ranker.go:Rank", "ranker_worker.go:rankerRank", "indexer_worker.go:indexerLookup", "segment.go:segmenterWorker"]}
{"id": "C106", "title": "The codelab search server shows the right posts in the right order", "statement": "The search server of examples/codelab reads a file of posts, one per line with ten fields separated by ||||; for every id it keeps the post of the last line about it, with the numbers and texts of the line. After it indexed them and Flush returned, a query is answered with the first hundred of all posts (with an id other than 0, which the engine never indexes) whose texts have all words of the query, the better posts first: those with closer words, then newer ones, then by relevance weighted with reposts; each with its id, time, user and text.", "quantifier": "all data files (lists of lines), all queries with at least one word, all orders in which the map of posts is iterated, all engines and schedules", "why_tests_cant": "The order of a Go map, the schedule of the workers and the data file are arbitrary.", "anchors": ["examples/codelab/search_server.go:indexWeibo", "examples/codelab/search_server.go:Score", "examples/codelab/search_server.go:JsonRpcServer"]}
{"id": "C107", "title": "The weibo search program shows the right posts in the right order", "statement": "The search program of examples/weibo answers its query with the texts of the first hundred of all posts of the data file that contain all words of the query at a distance of at most 150, ordered by day, then by the integer part of BM25, then by reposts, then by length.", "quantifier": "all data files (lists of lines), all queries with at least one word, all engines and schedules", "why_tests_cant": "The data file and the schedule of the workers are arbitrary.", "anchors": ["examples/weibo/custom_scoring_criteria.go:Score", "examples/weibo/custom_scoring_criteria.go:main"]}
{"id": "C108", "title": "The pinyin example finds the lines with a given pinyin", "statement": "The search server of examples/pinyin_weibo answers a query for a pinyin with the lines of the data file that have it, and only those.", "quantifier": "all data files (lists of lines), all pinyin functions, all queries with at least one word, all engines and schedules", "why_tests_cant": "The data file, the pinyin library and the schedule of the workers are arbitrary.", "anchors": ["examples/pinyin_weibo/main.go:indexWeibo", "examples/pinyin_weibo/main.go:JsonRpcServer"]}
{"id": "C109", "title": "Only the collection counts", "statement": "Two engines with the same options (segmentation, index type, BM25 parameters, scoring, data) that route the same documents together give the same answers once the same collection of documents with distinct ids was indexed and flushed and any other documents indexed meanwhile were removed again, whatever the order of the Index calls, the clients that made them, the numbers of threads, the sizes of channels and caches, the databases' numbers and the schedule: every search without a time-out reports the same number of documents and the same scores (also BM25) at the same places, and lists the same documents with the same data if no two results have equal scores.", "quantifier": "all collections with distinct ids, all pairs of engines and of schedules, all orders of the calls, all plain and Must/Should/NotIn requests, all scoring criteria without NaN, all pages and sort implementations", "why_tests_cant": "A test compares a few runs; the claim is about every pair of schedules, orders and engine sizes.", "anchors": ["engine.go:Index", "engine.go:Flush", "engine.go:Search", "core/indexer.go:AddDocs", "core/indexer.go:Lookup", "core/ranker.go:Rank"]}
{"id": "C110", "title": "gRPC messages from any conforming program are understood", "statement": "Whatever bytes a program that follows doc.proto sends for one of the eleven messages of the gRPC service - fields in any order, repeated, numbers in longer form than necessary, packed or single, map entries in any form, nested messages in several parts, groups and fields that this version does not know - Unmarshal succeeds and gives the message that protocol buffers define: the last value of a single field, all values of a repeated one in order, merged nested messages, unknown fields kept byte by byte.", "quantifier": "all messages, all byte sequences that are encodings under doc.proto (shorter than 2^63)", "why_tests_cant": "The encodings of one message are infinitely many and tests only see those that this library's own Marshal writes.", "anchors": ["net/grpc/riot-pb/doc.pb.go:Unmarshal", "net/grpc/riot-pb/doc.pb.go:skipDoc", "net/grpc/riot-pb/doc.proto:DocReq"]}
{"id": "C111", "title": "gRPC messages are written completely and read back unchanged", "statement": "Marshal of any message of the gRPC service never crashes, writes exactly Size() bytes, these are an encoding under doc.proto, and Unmarshal of them gives back the message: all strings, numbers (also negative ones), lists, nested messages and unknown fields. A map arrives with the same entries in every iteration order; an empty map arrives as nil.", "quantifier": "all messages of all eleven types (of less than 2^63 bytes), all iteration orders of maps", "why_tests_cant": "Sizes at the boundaries of the variable-length numbers and all values of all fields together cannot be enumerated.", "anchors": ["net/grpc/riot-pb/doc.pb.go:Marshal", "net/grpc/riot-pb/doc.pb.go:MarshalTo", "net/grpc/riot-pb/doc.pb.go:Size", "net/grpc/riot-pb/doc.pb.go:encodeVarintDoc", "net/grpc/riot-pb/doc.pb.go:sovDoc", "net/grpc/riot-pb/doc.pb.go:Unmarshal"]}
{"id": "C112", "title": "Malformed bytes do not crash the gRPC server", "statement": "Unmarshal of any bytes gives a message or an error; no bytes that arrive at the gRPC port crash the process.", "quantifier": "all byte sequences, all eleven messages", "why_tests_cant": "Crashing bytes are rare: a fuzzer has to hit a length close to 2^63.", "anchors": ["net/grpc/riot-pb/doc.pb.go:Unmarshal", "net/grpc/riot-pb/doc.pb.go:skipDoc"]}
{"id": "C113", "title": "Reading a gRPC message always ends", "statement": "Unmarshal of any bytes ends, after a number of steps that is linear in the number of bytes at each level of nesting; no bytes make it loop.", "quantifier": "all byte sequences shorter than 2^63, all eleven messages", "why_tests_cant": "A test cannot try all inputs, and cannot tell a long loop from an endless one.", "anchors": ["net/grpc/riot-pb/doc.pb.go:Unmarshal", "net/grpc/riot-pb/doc.pb.go:skipDoc"]}
{"id": "C114", "title": "gRPC calls carry the request and the reply", "statement": "The handler of HeartBeat, Delete, DocInx and Search gets, through the encoding, exactly what the client function was given, and the client gets what the handler answered: HeartBeat returns its number; Delete removes the document with the given id; DocInx indexes the given id, content, tokens, option and the marshalled attributes; Search runs with the given query, logic, offset and limit (as int32) and restriction (the same ids for every map order; an empty map is no restriction) and the client receives the texts that the server found, in their order, with their number. If the handler crashes, so does the call.", "quantifier": "all requests and replies (of less than 2^63 bytes), all map iteration orders, all behaviours of the engine's search", "why_tests_cant": "Holds for every request and reply, including negative numbers, empty strings and arbitrary bytes in strings.", "anchors": ["net/grpc/grpcc.go:InitSearchRpc", "net/grpc/grpcc.go:InitDelGrpcc", "net/grpc/grpcc.go:InitGrpcc", "net/grpc/grpc.go:addDoc", "net/grpc/grpc.go:Search", "net/grpc/search.go:rpcSearch", "net/grpc/riot-pb/doc.pb.go:Marshal"]}
{"id": "C115", "title": "A message that is passed on loses nothing", "statement": "A program that receives a message under doc.proto and sends it on (as the distributed search server does with searches) sends bytes that are received as the same message, including the fields that this version of doc.proto does not have.", "quantifier": "all encodings of all eleven messages, all map iteration orders", "why_tests_cant": "Unknown fields of future versions are not in any test.", "anchors": ["net/grpc/riot-pb/doc.pb.go:Unmarshal", "net/grpc/riot-pb/doc.pb.go:Marshal", "net/grpc/etcd.go:Search"]}
{"id": "C116", "title": "The numbers in an HTTP search are the numbers of the search", "statement": "A search over HTTP whose form gives offset and limit in decimal notation is the search for the query with exactly these numbers (the nearest 64-bit number if one is too large; the first value counts if a name occurs several times). Without a limit, offset and limit of the configuration are used. The distributed search asks every server for the query, offset and limit it was asked for.", "quantifier": "all forms, all decimal notations with or without sign, all configurations, all engines", "why_tests_cant": "Tests try a few numbers; decimal notations have no bound on their length.", "anchors": ["net/http/http.go:Search", "net/http/dist.go:WgDist"]}
{"id": "C117", "title": "No search request crashes a server", "statement": "Whatever numbers a form contains, a search over HTTP is answered.", "quantifier": "all forms, all engines, all answers of the shards in all orders", "why_tests_cant": "The space of requests is unbounded and attackers choose from it.", "anchors": ["net/http/http.go:Search", "net/com/search.go:Search", "engine.go:maxRankOutput", "core/ranker.go:maxOutput", "ranker_worker.go:rankerRank"]}
{"id": "C118", "title": "The JSON bodies of the HTTP server carry the answer", "statement": "Whatever documents an HTTP search shows, the body is valid JSON, contains no control character and no markup character, and a client that decodes it gets exactly the documents (ids, contents, attributes, scores), their number and the time. A distributed search decodes the bodies of all servers and its own body gives the client the documents of all servers in order. No bytes a server sends crash it.", "quantifier": "all lists of documents, all byte strings as ids, contents and attributes, all score vectors, all 64-bit time stamps, all numbers of servers and all bodies they may send", "why_tests_cant": "Every byte string has to survive escaping and unescaping, including the invalid ones, every nesting of slices that may be nil, and every body another server might send.", "anchors": ["net/http/http.go:Search", "net/http/search.go:Text", "net/http/search.go:JsonResponse", "net/http/search.go:docsSlice", "net/http/dist.go:WgDist", "net/http/dist.go:WgPost", "types/doc_index_data.go:Attri"]}
{"id": "C119", "title": "An HTTP client sees exactly the page of the matching documents", "statement": "After a collection was indexed and Flush returned, a client that posts a form with a query, an offset and a limit to the HTTP server and decodes the JSON body gets exactly the requested page of the ranking of the documents whose texts satisfy the query: their ids, contents, attributes and scores, newest first, together with their number.", "quantifier": "all collections, all engine configurations and schedules, all queries, all numerals of the form, all score functions and UTF-8 texts", "why_tests_cant": "It composes indexing under every schedule, ranking over every distribution of the documents over the shards, the parsing of every form and the escaping of every text.", "anchors": ["net/http/http.go:Search", "net/com/search.go:Search", "net/http/search.go:docsSlice", "engine.go:Search", "engine.go:Index", "engine.go:Flush"]}
{"id": "C120", "title": "Flush returns while other goroutines keep indexing", "statement": "A Flush returns as long as all other calls return and the workers keep working; it need not wait for the other goroutines to stop calling Index.", "quantifier": "all configurations, all (also infinite) schedules, all numbers of goroutines calling Index, RemoveDoc and Flush", "why_tests_cant": "A liveness property over infinite schedules: no finite test shows that a Flush never returns.", "anchors": ["engine.go:Flush", "engine.go:Index", "engine.go:internalIndexDoc", "indexer_worker.go:indexerAddDoc"]}
{"id": "C121", "title": "Calls in the wrong order are refused with a message", "statement": "A program that uses an engine before Init, or initialises it twice (or calls WithGse after Init), is ended with a message at that call; every other sequence of calls returns from each call. Exactly: Index, RemoveDoc, Search, Flush and Close return after Init and exit with a message before it; Init and WithGse the other way round; HasDoc, the lists of stored ids and the counters always return; HasDocDB returns exactly on an engine with a store and panics otherwise.", "quantifier": "all sequences of API calls on one engine by one goroutine, all options that are not negative with fewer than 2^32 shards, all document ids", "why_tests_cant": "A test tries a few orders; the claim is about every program's sequence of calls, and a log.Fatal ends the test process.", "anchors": ["engine.go:Engine.Init", "engine.go:Engine.WithGse", "engine.go:Engine.Index", "engine.go:Engine.RemoveDoc", "engine.go:Engine.Search", "engine.go:Engine.Flush", "engine.go:Engine.Close", "engine.go:Engine.getShard", "riot.go:Engine.HasDoc", "riot.go:Engine.HasDocDB"]}
{"id": "C122", "title": "Counting and unordered listing are exact for a flushed collection", "statement": "After a collection of documents (each id once) was indexed and flushed (any other documents indexed meanwhile having been removed again), a search with CountDocsOnly and without time-out returns exactly the number of documents of the collection that match the request and no documents; with Orderless it returns exactly the matching documents, each once. The count equals the NumDocs of the full search (whatever its page) if the scoring criteria drop no document, also on another engine with the same settings.", "quantifier": "all collections, numbers of shards and threads, cache and channel sizes, schedules, index types, requests (words, labels, DocIds, Must/Should/NotIn logic) without time-out", "why_tests_cant": "The count is summed over shards from concurrent workers; a test sees one collection, one sharding and one schedule.", "anchors": ["engine.go:Engine.Search", "engine.go:Engine.NotTimeOut", "indexer_worker.go:Engine.indexerLookup", "core/indexer.go:Indexer.Lookup"]}
{"id": "C123", "title": "A flushed collection survives the end of the process and answers as before", "statement": "An engine with storage was given a collection of documents (each id once; other documents may have been indexed and removed again), flushed, and had finished its work when the process ended (at any later moment). Its databases then contain exactly the documents of the collection whose data can be encoded, each in the database of its id. A new engine on these files, with any other configuration that opens at least as many store shards, on which further documents are indexed (or none) and which is flushed, answers every search as an engine on which exactly the stored and the further documents were indexed: every statement about collections (results, scores, counts, independence of sharding) holds of it. In particular the same search gets the same answer before and after the restart, if all data can be encoded and the settings are the same.", "quantifier": "all collections, data, numbers of index and store shards, cache and channel sizes, schedules of clients and workers in both processes, requests, contents of the databases before the first process", "why_tests_cant": "Composes every schedule of two processes with the content of the files between them; a test restarts one engine once with one data set.", "anchors": ["engine.go:Init", "engine.go:Flush", "store_worker.go:storeIndexDoc", "store_worker.go:storeInit", "engine.go:Search"]}
{"id": "C124", "title": "Example programs find what their comments say", "statement": "examples/simple (three English texts, Using 4, IDOnly, no dictionary, query \"google testing\") always finds exactly document \"3\"; examples/logic logic1 (four texts, \"google\" or \"testing\", not \"accidentally\") always finds exactly the documents \"1\", \"3\" and \"4\". More generally, on such an engine a request without a time-out over any collection of ASCII texts that was indexed and flushed gives the ids of exactly the documents whose words satisfy it, each once, with their number and the words of the query.", "quantifier": "every schedule of clients, workers and searches, every number of shards and channel size, every collection of ASCII texts, every plain or clear logic request", "why_tests_cant": "Running the program shows one schedule; which documents a mixed Should/NotIn request finds depends on the keys of all texts and on how flags and lists interact.", "anchors": ["examples/simple/main.go:main", "examples/logic/main.go:logic1", "segment.go:defaultTokens", "core/indexer.go:LogicLookup", "engine.go:Search"]}
{"id": "C125", "title": "HTTP bodies are JSON and any JSON writing of an answer is understood", "statement": "Every body the HTTP server writes is a JSON text by RFC 8259 (with any text in the documents), whose value is the answer: its code, length, time and documents. Conversely the distributed search accepts exactly the texts of RFC 8259 (with U+FFFD for broken characters), gives each text one value, and understands any JSON text that shows an answer, however it is written: any white space, any escapes, any order of the members. What is not JSON contributes no documents.", "quantifier": "all byte strings, all answers, all texts and scores, all JSON values", "why_tests_cant": "The byte strings and the ways of writing a value are unbounded; the encoder has special cases for quotes, control characters, markup, U+2028/U+2029 and broken UTF-8, the reader for escapes, surrogates, numbers and nesting.", "anchors": ["net/http/http.go:Search", "net/http/dist.go:WgDist", "net/http/search.go:JsonResponse"]}
{"id": "C126", "title": "The benchmark program prints how many documents it found", "statement": "examples/benchmark indexes every post of a file numRepeatText times under shuffled numbers, removes the numbers 1 to numDeleteDocs, and lets several goroutines repeat the searches; in the end it prints for each query the number of documents left whose text has all words of the query.", "quantifier": "all files, shuffles, numbers of repeats and deletions, queries with at least one word, dictionaries, schedules of the engine, interleavings and numbers of searching goroutines", "why_tests_cant": "The number comes from a check-then-write race of several goroutines over a shuffled collection; a run shows one interleaving and one shuffle.", "anchors": ["examples/benchmark/benchmark.go:initEngine", "examples/benchmark/benchmark.go:openFile", "examples/benchmark/benchmark.go:deleteDoc", "examples/benchmark/benchmark.go:search", "engine.go:SearchID"]}
{"id": "C127", "title": "Races between calls about one document do not affect the others; examples/store", "statement": "If the calls about some documents race (an Index and a RemoveDoc of the same id without a Flush between them), the search afterwards still returns every other document exactly if its last text has all words of the request, and every document returned shows a version that was given to its shard. For examples/store: the response has documents \"1\", \"2\", \"3\" exactly if their texts have the words of the query, each once, and not the document \"5\" that was removed.", "quantifier": "all engines, dictionaries, schedules of the engine's goroutines, requests, documents and calls about other documents", "why_tests_cant": "Whether the racing calls disturb another document depends on the schedule of segmenters, indexers and rankers; a test sees one schedule.", "anchors": ["examples/store/main.go:initEngine", "examples/store/main.go:main", "engine.go:RemoveDoc", "engine.go:Index", "engine.go:Flush", "core/indexer.go:RemoveDocToCache"]}
{"id": "C128", "title": "A search by words shows the whole matching collection; examples/pinyin", "statement": "After a collection was indexed and flushed, a search for a text without time-out, labels, logic or a small limit returns exactly the documents whose texts have all words of the query as search keys (words, pinyin or labels), each once, and NumDocs is their number. For examples/pinyin: the search for \"zl\" returns \"10\" and \"11\" (在路上), and not \"12\".", "quantifier": "all collections, texts, dictionaries, pinyin libraries, engines, numbers of clients and shards, and schedules", "why_tests_cant": "The schedule of segmenters, indexers, rankers and clients and the libraries are arbitrary; a test has one of each.", "anchors": ["examples/pinyin/main.go:initEngine", "examples/pinyin/main.go:main", "engine.go:Search", "segment.go:PinYin"]}
{"id": "C129", "title": "Indexing a document again and again, without waiting, loses nothing", "statement": "A document is given to Index any number of times, by any callers, one after the other or at the same time, also from the databases at start-up, and is never removed. After a later Flush has returned (and the rankers have done their work), a search finds it in one of the given versions, at most once per shard; if all versions have the same text it is found exactly if that text has all words, tokens and labels of the request. (That it is the last version is false.)", "quantifier": "all configurations, sort and text functions, database contents, schedules, numbers and orders of Index calls, documents and plain search requests, with any activity about other documents during the search", "why_tests_cant": "the order in which racing Index calls reach the shard is a matter of the schedule; a test runs a few orders", "anchors": ["engine.go:Index", "engine.go:Flush", "core/indexer.go:AddDocToCache", "core/indexer.go:AddDocs", "examples/store/main.go:main"]}
{"id": "C130", "title": "An update replaces what was there before, however earlier calls raced", "statement": "If a document is indexed again after a Flush (once or several times, not removed) and a later Flush has returned, searches of a shard that received a new version use one of the new versions only: no version from before is searched there any more, whatever races there were before the first Flush. If it was indexed once, it is found exactly if the new text has all words, tokens and labels of the request.", "quantifier": "all configurations, sort and text functions, database contents, schedules, earlier and new calls about the document, plain search requests, with any activity about other documents", "why_tests_cant": "the earlier calls may have left any of many states (an old version served, a version waiting); a test tries a few of them", "anchors": ["engine.go:Index", "engine.go:Flush", "core/indexer.go:AddDocToCache", "core/indexer.go:AddDocs", "core/indexer.go:RemoveDocToCache"]}
{"id": "C131", "title": "A removal after a Flush is final, however earlier calls raced", "statement": "If a document is removed after a Flush and not indexed again, and a later Flush has returned, no search shows it any more until somebody indexes it again, whatever races between its earlier calls there were before the first Flush, and whatever happens to other documents meanwhile.", "quantifier": "all configurations, sort and text functions, database contents, schedules, earlier calls about the document, plain search requests, with any activity about other documents", "why_tests_cant": "the earlier calls may have left any of many states (an old version served, versions on several shards); a test tries a few of them", "anchors": ["engine.go:RemoveDoc", "engine.go:Flush", "core/indexer.go:RemoveDocToCache", "core/indexer.go:RemoveDocs"]}
