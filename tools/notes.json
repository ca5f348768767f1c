{
"C01": [
"proved",
"Exact at every moment of every panic-free history, relative to the visible documents of the abstract trace; the ideal-map version for disciplined documents after a refresh. Requests that crash are covered by C13."
],
"C02": [
"partial",
"Proved for plain and Must requests; false for Should requests (C02_refuted_should): unionTable ignores DocIds."
],
"C03": [
"proved",
"For every state and every request, plain or logic."
],
"C04": [
"partial",
"Proved for documents used with discipline (no call mentions a document after an add of it before a forced refresh); false in general (C04_refuted_stale_version)."
],
"C05": [
"partial",
"Disciplined histories never crash; exact crash condition for all histories (C05_only_full_cache_crashes); false in general (C05_refuted_repeated_add)."
],
"C06": [
"partial",
"Proved for every id except the reserved id \"0\" (C06_refuted_reserved_id)."
],
"C07": [
"proved",
"At every moment of every panic-free history."
],
"C08": [
"proved",
"At every moment of every panic-free history."
],
"C09": [
"partial",
"Proved for all histories, documents and requests as far as the sum fits the 32-bit result field; false beyond (C09_refuted_large_locations: int32 conversion, core/indexer.go:513). Locations are unbounded integers in the model (no overflow of 64-bit sums)."
],
"C10": [
"partial",
"Optimal when no token starts inside an occurrence of the token before it; false otherwise (C10_refuted_overlap)."
],
"C100": [
"partial",
"Scores: proved with or without ties (C100_scores: the pages show together the score vectors of the whole ranking, the same count each, empty pages behind the end). Documents: proved when no two found documents have the same score vector (C100_pages_partial), for each page with its own sort and arrival order. With ties the full claim is false of the code: C100_refuted_ties (two shards, one document each, equal scores: both pages show document 1)."
],
"C101": [
"partial",
"Plain requests: proved for every reachable index at every moment (C101_sets, C101_and, C101_narrows, C101_restrict). Logic requests as intersection, union and difference of the plain answers: proved directly after a refresh (C101_logic_partial); between refreshes the code violates it: C101_refuted_pending. C101_restrict is about plain requests; Should requests ignore DocIds (C02_refuted_should)."
],
"C102": [
"partial",
"Proved for the modes and texts of OwnWords: without a segmenter modes 0, 4 and 6 and single spaces; with a segmenter modes 0 and 1 if the words of Cut that are no stop tokens are segments of ModeSegment and at least one is (both are functions of the dependency gse, parameters of the model): C102_own_words_partial, and through the whole engine C102_engine_partial. The full claim is false of the code: C102_refuted (double space, mode 5, only stop tokens, differing segmentation functions)."
],
"C103": [
"proved",
"Index level (core.Indexer), any history before the refresh. The engine-level version for disciplined calls is an instance of C98_engines_partial."
],
"C104": [
"proved",
"Snapshots of the shards (ShardView), as in C24, in C104_sharding_invisible; C104_engines says it of two running engines with different shard counts, each under its own schedule. The claim with BM25 in the criteria is false: C95."
],
"C105": [
"proved",
"C105_plain and C105_logic give the answer of each shard, C105_whole the whole response of a request without time-out. Ranges over collections whose ids are indexed once; the fields of an updated document may be stale in the ranker (C33_refuted_stale_fields). Other documents may have been indexed and removed again meanwhile (Remains, Spec/Criteria; an example run with such documents is in Props/Gone)."
],
"C106": [
"proved",
"C106_line: a well-formed line is read as the post it says; C106_load: the last line about an id counts; C106_page: the answer of the running server after indexing and Flush. Scores are exact numbers (float32 rounding could tie close scores). The id \"0\" is never indexed (C04), which the statement excludes."
],
"C107": [
"partial",
"C107_page_partial: all posts but the one with number 0. C107_refuted_first: that post, id \"0\", is never shown although it has the words. Scores are exact numbers."
],
"C108": [
"partial",
"C108_refuted: a pinyin of the first line also finds the second line, and every line is shown a second time as an empty post. Proved: which documents are indexed (C108_docs_partial), that a line is found by its pinyin (C108_own_tokens_partial), and the exact answer (C108_page_partial)."
],
"C109": [
"proved",
"C109_only_the_collection, about two arbitrary runs (SearchedCollection). With equal scores the order of the documents may differ (sort.Sort is not stable); documents indexed more than once: C33, C95. Other documents may have been indexed and removed again meanwhile (Remains, Spec/Criteria; an example run with such documents is in Props/Gone)."
],
"C11": [
"partial",
"Exact right after a forced refresh, over exact rationals with an abstract log2; false while removals are pending (C11_refuted_pending_removal). With float32 rounding: C78, C79."
],
"C110": [
"proved",
"One theorem per message; Spec/Wire is the wire format and doc.proto as relations on bytes."
],
"C111": [
"proved",
"One theorem per message: no crash, exact Size, conforms to doc.proto, read back. XXX_unrecognized must hold unknown fields only (it does in every message made by a program or read by C110, see C115)."
],
"C112": [
"partial",
"The code refutes it: eleven bytes crash Unmarshal of every message (postIndex overflows). Proved for all bytes (below 2^62) in which no varint, at any position, has a 64-bit value v with 2^63 - length <= v < 2^63: a crash needs such a length. C112_bytes_partial is the simple consequence: less than 256 MB and no four consecutive 0xff bytes."
],
"C113": [
"proved",
"For all bytes of length below 2^63, per message."
],
"C114": [
"proved",
"Handlers and client functions of net/grpc composed with the modelled encoding; connection, time-outs and lost calls not modelled."
],
"C115": [
"proved",
"One theorem per message."
],
"C116": [
"proved",
"Model/HttpForm. The parsing of URL and body into form values is trusted; C116_distributed assumes that the configuration holds 64-bit numbers (they are Go ints)."
],
"C117": [
"partial",
"Refuted by the code for every engine: C117_refuted_negative, C117_refuted_form. Proved: exact condition for the crash of a shard (C117_shard_crash_iff); requests with a positive limit, an offset that is not negative and a sum below 2^63 are answered with their page (C117_answered_partial), if no found document lacks types.Attri (see C59)."
],
"C118": [
"partial",
"Proved: every answer with UTF-8 texts, finite scores and 64-bit numbers is decoded from its body exactly (nil and empty slices told apart), for a search and for the merge of any number of servers; for other texts every byte outside a rune becomes U+FFFD; no control or markup character in any body; no body crashes the distributed search for limits \u2265 1. Refuted: texts that are not UTF-8 always come out changed; one NaN or infinite score makes json.Marshal fail, the body is empty and the distributed search loses all documents of that server. Simplified: keys that differ only in case; float formatting is a parameter with a contract (FloatOk)."
],
"C119": [
"proved",
"Full composition form -> engine -> JSON bytes -> client. Hypotheses: the collection was indexed and Flush returned (the server itself never flushes what is added over the network: C89), ids, contents and attributes are UTF-8 and attributes are types.Attri (otherwise C59/C118 refutations), scores can be formatted (NaN/Inf: C118), limit at least 1 (C117, C89)."
],
"C12": [
"proved",
"At every moment of every panic-free history."
],
"C120": [
"partial",
"Refuted: C120_refuted is an infinite run in which two goroutines keep calling Index, all their calls return, all workers become idle again and again, and a Flush of a third goroutine finds its equations false at every moment. Proved: once no new calls are made every Flush returns (bounded number of steps), and one moment at which all clients are idle or in Flush and the workers have nothing to do is enough for the first loop."
],
"C121": [
"partial",
"Exact end of every call of every program (C121_calls_partial, C121_runs_through_partial). The full claim is refuted: HasDocDB panics before Init and on every engine without store (C121_refuted_hasDocDB); 2^32 store shards make Index divide by zero (C121_refuted_shards); HasDoc and the lists answer silently before Init."
],
"C122": [
"proved",
"C122_count, C122_orderless, C122_count_is_numDocs. Ranges over collections whose ids are indexed once (SearchedCollection); for other histories and times C73, C26. Other documents may have been indexed and removed again meanwhile (Remains, Spec/Criteria; an example run with such documents is in Props/Gone)."
],
"C123": [
"proved",
"C123_stored: the databases contain exactly the encodable documents of the collection, each in the database of its id (Props/Survives, also with documents removed meanwhile: Props/RoundsDb). C123_recovered: what a new engine reads. C123_survives: the new engine is a searched collection in the sense of C104/C105/C109/C122. C123_same_answer: the same search gets the same answer before and after. Examples: two processes, one document that cannot be encoded, a further document, two and three store shards. Fewer store shards lose documents (C83), power loss: C91, calls about a document not separated by Flushes: C44."
],
"C124": [
"proved",
"C124_response (any ASCII collection and any clear request), C124_simple and C124_logic (the two programs). Assumes that strings.ToLower is right on ASCII. The other programs: C106-C108; logic2 uses the dictionary segmenter, and its request is one of those in which the query text is ignored (C14_refuted_mixed)."
],
"C125": [
"proved",
"encoding/json is modelled as far as it is used; keys that differ from a field name in case only and keys that occur twice are outside the theorems about answers; the formatting and reading of float32 is a parameter with contract FloatOk (its output is a JSON number and is read back)."
],
"C126": [
"partial",
"Exact for every interleaving and schedule: the number printed is min(100, number of remaining documents with all words) (C126_printed_partial, C126_search, C126_calls, C126_file). The full claim is refuted: beyond 100 matches 100 is printed, since the program counts the documents of the page (C126_refuted_beyond_100), and with -idonly=false the first search panics (C126_refuted_idonly)."
],
"C127": [
"partial",
"Every document other than those whose own calls race is exact under every schedule, and every entry shows a version given to its shard (C127_undisturbed); for examples/store \"1\", \"2\", \"3\" are exact, each at most once, NumDocs is the number found, and only ids of the program appear (C127_store_partial). Missing, because refuted: the absence of \"5\" \u2013 a schedule of the program returns it although it was removed before the Flush (C127_refuted_store)."
],
"C128": [
"proved",
"C128_whole_response for every collection, engine and schedule; C128_pinyin for examples/pinyin, with what the program expects of the libraries as hypotheses (ZlEngine)."
],
"C129": [
"partial",
"Proved for runs in which on no shard a refresh overlaps a removal (every gently used engine, full_gentle_noClash): after a Flush, a document that was only indexed is found if all its versions match, and only if one of them does; exact if all versions are equal. The full claim, that the last version decides, is refuted by a run of one caller (C129_refuted_last_version)."
],
"C13": [
"partial",
"All request shapes except two; both crash (C13_refuted_label_only, C13_refuted_must_without_keys)."
],
"C130": [
"partial",
"Proved for runs in which on no shard a refresh overlaps a removal, for each shard that received a new version; presence for documents that were never removed, once the rankers are done. Not so for a shard that received none: it may go on serving an old version (C30_refuted_two_shards), and a document indexed again after a removal may be lost by the ranker (C33_refuted_readded_document_lost)."
],
"C131": [
"partial",
"Proved for runs in which on no shard a refresh overlaps a removal (every gently used engine). If they overlap the shard may block for ever, so that no Flush returns (C35_refuted); what a later Flush then guarantees is not proved."
],
"C14": [
"partial",
"Exact for visible documents at every moment and for all documents right after a forced refresh, for every request in which it is clear which keys a clause is about (Logic.Clear: flags only, lists only, and mixtures in which no clause asked for by its flag alone follows an explicit list); whatever else is returned is a document whose last visible version matched. False while a removal is pending (C14_refuted), and for the other mixtures (C14_refuted_mixed, the shape of examples/logic logic2): there a flag means the previous list, not the query text (C14_mixed_takes_previous, every request with such lists)."
],
"C15": [
"partial",
"Exact for visible documents at every moment and for all documents right after a forced refresh, for requests whose clauses are clear (Logic.Clear, see C14; includes the mixture of examples/logic logic1); whatever else is returned is a document whose last visible version matched. False while a removal is pending (C15_refuted)."
],
"C16": [
"partial",
"Proved with a Must or Should clause; a NotIn-only request returns exactly the documents it should exclude (C16_notin_only_returns_containing, C16_refuted_notin_only)."
],
"C17": [
"partial",
"Right after a forced refresh; false while a removal is pending (C17_refuted_pending_removal)."
],
"C18": [
"partial",
"Forced re-adds; false in general (C18_refuted_readd_hides)."
],
"C19": [
"partial",
"Documents used with discipline; false in general (C19_refuted_remove_of_cached_add)."
],
"C20": [
"proved",
"For every history, candidate list and scoring function whose scores are comparable (no NaN) and non-negative offset/limit."
],
"C21": [
"proved",
"Exact (as a permutation) for both kinds of ranker; the scoring function is a pure function of document and fields."
],
"C22": [
"proved",
"For non-negative offset and limit (the property's precondition)."
],
"C23": [
"partial",
"NaN-free score vectors; false with NaN (C23_refuted_nan)."
],
"C24": [
"proved",
"Any number of shards, contents, answer order, offset >= 0, limit >= 0; comparable scores. Orderless requests separately (C24_orderless_returns_all_found). Hypothesis: the index lookups of the shards do not crash (C13). Offsets and limits are unbounded integers here; C97 closes the gap to 64 bits."
],
"C25": [
"proved",
"Any page, any answer order, any scoring function (also with NaN); negative limits crash (C25_negative_limit_crashes). Offsets and limits are unbounded integers here; C97 closes the gap to 64 bits."
],
"C26": [
"partial",
"Proved when every found document is registered and gets a score; false in general (C26_refuted_filtered_document): count-only requests never ask the ranker. Offsets and limits are unbounded integers here; C97 closes the gap to 64 bits."
],
"C27": [
"proved",
"Over all schedules of the worker protocol; the response is the complete response over the shards that answered in time. Offsets and limits are unbounded integers here; C97 closes the gap to 64 bits."
],
"C28": [
"proved",
"Protocol model with bounded queues, several threads per shard, any number of concurrent searches, arbitrary schedules; safety and termination."
],
"C29": [
"proved",
"uint32 arithmetic."
],
"C30": [
"partial",
"True when both versions are routed to the same shard (hypothesis of the _partial theorem, with two Flush-separated Index calls); false when the content hash sends the versions to different shards: C30_refuted_two_shards gives the schedule. Missing: nothing else can hold. One index call of a worker is one action here; C55, C56, C57, C73 treat its steps."
],
"C31": [
"partial",
"True when the Index calls of the document were flushed before RemoveDoc (C31_removed_everywhere_partial: every shard, every schedule); false without that Flush, because removals bypass the segmenter queue: C31_refuted_without_flush. One index call of a worker is one action here; C55, C56, C57, C73 treat its steps."
],
"C32": [
"proved",
"For every schedule in which no other call overlaps the Flush (with overlapping calls see C77); the two sides of each awaited equation are loaded at different moments. C32_calls_return: no reachable state is stuck with a call not returned. Index calls that never stop: C120."
],
"C33": [
"partial",
"False as stated: Flush does not wait for the rankers (C33_refuted_rankers_not_awaited); a re-added document can be lost for ever in the ranker (C33_refuted_readded_document_lost) and old fields can win for ever (C33_refuted_stale_fields). Proved: once no work is left, the ranker of a shard knows exactly the never-removed documents routed to it, with their data if given once; every schedule without new calls gets there."
],
"C34": [
"proved",
"Counters never overtake at every reachable state, exact when nothing is left to do."
],
"C35": [
"partial",
"Refuted (C35_refuted: two Index calls about one document and a RemoveDoc of another deadlock the shard for ever; no Flush returns, no search starts). Exact characterisation of the deadlock states (shard and engine), termination of all work, and absence of deadlock when no id is indexed twice or nothing is removed. Model at the granularity of lock operations; the results do not depend on the order in which RWMutex lets readers and writers in (see C75 for searches with writer preference)."
],
"C36": [
"partial",
"Exact characterisation; the property is false (C36_refuted_count_only)."
],
"C37": [
"proved",
"Every mode, text, token list, label list, pinyin result and stop list; also the tokens of a query text."
],
"C38": [
"proved",
"Every mode and document; comparison with the same document without labels."
],
"C39": [
"proved",
"Every mode and document, any map iteration order."
],
"C40": [
"proved",
"Keys, query tokens, and end to end through the index; C40_extra_space_finds_nothing shows that the single-space condition is necessary."
],
"C41": [
"partial",
"Exact key set proved for every mode (C41_keys_exact). Modes 0, 1, 2 and empty content follow the documented rule exactly; modes 3 and 4 contain the documented keys but also concatenations and the user's tokens (C41_refuted_spaces)."
],
"C42": [
"proved",
"Exact positions, strictly ascending, partition of 1..count; whole-document version for the engine without a segmenter."
],
"C43": [
"proved",
"Restarted engine (after Init and a Flush) serves exactly the last flushed, encodable versions; crash version at any moment. Index(d) calls one at a time, no RemoveDoc(d). Refuted: visible before the Flush. Database calls atomic and not failing. Refused database calls: C90; power loss: C91."
],
"C44": [
"partial",
"Proved if everything before RemoveDoc was flushed and the delete goroutine has run; both conditions shown necessary (refutations)."
],
"C45": [
"partial",
"Model/Backends: Get, Set, Delete, ForEach exact for the three backends (libraries stated as maps with their documented errors); Has exact for goleveldb and badger, for bbolt only for non-empty values (C45_refuted_bolt_empty_value); the empty key is refused by bbolt and badger (C45_refuted_empty_key). With non-empty encodings and ordinary ids all three realise the database used by the pipeline model (C45_engine_database)."
],
"C46": [
"proved",
"Store shard in range; GetDBAllIds lists the ids HasDocDB knows, once; HasDocDB after a Flush. Engine modelled with one number of store shards for its databases."
],
"C47": [
"proved",
"core/uint64.go function by function (Model/Sort), ascending and descending halves share the model with different comparison operators; panic and non-termination excluded, result is the sorted permutation."
],
"C48": [
"proved",
"StableAsc/StableDesc modelled with rotation and SymMerge; sorted permutation for every slice, equal to Asc / reverse of Desc. The strict comparison in symMergeDesc is modelled as written."
],
"C49": [
"proved",
"Exact for every slice."
],
"C50": [
"partial",
"Proved: for every set of at least two (or no) answers and every limit \u2265 1 the merge is a prefix of the ordered union of the answers, everything if it fits, and never more than the limit. Refuted: if more documents than the limit arrive, one too few is shown (docs[0:maxOuts-1]); limit 0 (request and configuration) or negative crashes; the offset is applied by every server, so paging loses documents. The encoding of the answers is the subject of C114 (protobuf) and C118 (JSON)."
],
"C51": [
"proved",
"Whole range and sub-ranges."
],
"C52": [
"partial",
"Proved when no older add of the document waits in the cache at the removal; false otherwise (C52_refuted): the old version is served."
],
"C53": [
"proved",
"Content and crash-freedom under the Flush discipline, for every schedule and every interleaving with other documents. One index call of a worker is one action here; C55, C56, C57, C73 treat its steps."
],
"C54": [
"proved",
"Composition of C24, C32, C33, C53: schedule-level to answer-level. One index call of a worker is one action here; C55, C56, C57, C73 treat its steps."
],
"C55": [
"partial",
"Proved (shard and whole engine) when no refresh overlaps a removal; refuted otherwise (C55_refuted: the removal slice shares its array with the cache, a removal is lost and the document can never be found again). A second refutation, C55_refuted_lost_update: an update concurrent with the removal of another document loses the updated document."
],
"C56": [
"proved",
"Invariant over the engine with locks (Model/Fine). Gentle use is defined in Spec/Gentle."
],
"C57": [
"proved",
"C54 carried over to the engine with locks by the refinement of C55/C56."
],
"C58": [
"partial",
"Proved for one request at a time: it merges a sub-multiset of its servers answers, never empty if one answered (every schedule), and all of them if appends do not overlap. Refuted: overlapping appends lose an answer; two requests at a time exchange answers."
],
"C59": [
"partial",
"Proved for limits \u2265 1 and documents with types.Attri: exactly the engine page, newest first. Refuted: without any limit nothing is shown; a document with another attribute crashes the search."
],
"C60": [
"partial",
"Proved for index and search calls. Refuted: every Delete ends the process, because package grpc copied the engine variable before it was initialised."
],
"C61": [
"partial",
"The answer is right at every moment, and without overlap with a worker call nothing changes. The rest is false of the code and refuted: HasDoc appends a blank indexer per shard; for every growth strategy enough HasDoc calls during a worker call copy its held mutex and pre-call counters, so the counters are lost and the shard is blocked for ever."
],
"C62": [
"partial",
"As stated false of the code: a document that is being re-indexed is invisible between the removal of the old and the insertion of the new version (C62_refuted). Proved: every search sees one state (C62_search_sees_one_state, every schedule); at every moment of a run in which no refresh overlaps a removal, a plain search finds exactly the matching documents left by the returned calls, except documents being changed at that moment, with entries computed from the visible version (C62_search_during_calls_partial), and untouched settled documents exactly (C62_untouched_document_partial)."
],
"C63": [
"partial",
"Every schedule incl. races: each word of a hit is in some given version (C63_no_phantoms_partial). One version has all words if no refresh overlaps a removal (C63_one_version_partial). The full claim is false of the code: a race over the removal cache leaves old postings of a removed document, and a re-added document is found for old and new words together (C63_refuted)."
],
"C64": [
"proved",
"For every schedule at lock granularity; comparable (non-NaN) scores for the order part, legal offset and limit. C64_not_a_snapshot shows the limit of the claim: a ranking need not be the ranking of any one state."
],
"C65": [
"proved",
"All fields Init and Engine.Init use; toml loading and dictionary loading are not modelled. Outside the precondition: C65_negative_options (negative shards panic, negative lookup workers leave searches without a worker)."
],
"C66": [
"partial",
"Proved for plain searches on engines whose options leave index type and criteria to their defaults. The full claim is false of the code: engines made by New/NewEngine use DocIdsIndex and score every document [0] (C66_refuted_new_engine), and searches with Must/Should/NotIn carry no BM25 value (C66_refuted_logic)."
],
"C67": [
"proved",
"Every Using mode, with and without segmenter, pinyin, stop tokens, labels. The segmenter, lower-casing, pinyin conversion are arbitrary functions. The list of pinyin keys itself is taken from the model (PinYin), its positions are what is claimed."
],
"C68": [
"partial",
"Proved for files all of whose lines have fewer than 65536 bytes, together with the fact that this list is the one the segmenter uses. Refuted beyond: a longer line silently ends the reading (bufio.Scanner error ignored), so every word after it is no stop token."
],
"C69": [
"proved",
"Every backend, every history, every number of databases; gob is a decoder that inverts the encoder on what was stored."
],
"C70": [
"partial",
"IsDocExist exact after every history; the counter equals the number of AddDocInfo calls and hence of documents when none is added twice. Refuted otherwise: re-adding a document counts it again."
],
"C71": [
"partial",
"Exact while usage is not below that at start; below it the unsigned subtraction wraps (C71_refuted_underflow). Unit conversions exact."
],
"C72": [
"partial",
"Four failures in a row always cause a restart; never a restart with fewer than four failures since the last kill. Refuted: the failures need not be in a row, successes do not reset the counter (C72_refuted_isolated_failures, any number of successes in between)."
],
"C73": [
"proved",
"Whole-engine model (Model/Full): pipeline, shard locks, lookup and rank workers, any number of searches. Three theorems: ordered, orderless, count-only requests. Runs in which a goroutine panics end there (see C01, C02, C25 for when that happens)."
],
"C74": [
"partial",
"In the whole-engine model. Proved for schedules in which, on no shard, a cache refresh overlaps a removal, request without Logic; C74_untouched_document_found_partial drops the condition that the document is registered, for documents never indexed again after a removal. Without the restriction the claim is false of the code (C74_refuted): an update that overlapped the removal of another document is lost although two Flushes returned, and a later undisturbed search does not find the document."
],
"C75": [
"partial",
"Proved: the work ends (C75_work_terminates); every search returns in every run without panics in which no id is indexed twice or nothing is removed. The unrestricted claim is false of the code: C75_refuted exhibits a run after which no search without a time-out ever returns and at most idxCap + lookup threads with one do (the send loop engine.go:798 is not covered by the time-out)."
],
"C76": [
"proved",
"All schedules of Model/Full with gentle calls; requests outside the shapes of C13 and C22. Channels, workers, locks and caches all modelled."
],
"C77": [
"partial",
"The full claim is false of the code (three C77_refuted_* theorems): Flush loads numForceUpdatingReqs/numRemovingReqs/numIndexingReqs before the counter it compares with, so an overlapping Flush (two shards), Index (one shard) or RemoveDoc makes it return early. Proved: with no overlapping call; with any overlapping Flushes on one shard; and, whatever overlaps, that as many documents and removals have been counted as had been asked for."
],
"C78": [
"partial",
"The full claim is false of the code beyond 2^24 tokens (C78_refuted: a remaining document is scored 0; C78_absorption: of any number of one-token documents at most 2^24 tokens are counted). Proved: every history whose totals stay up to 2^24 is computed exactly, and for every rounding function whatsoever the same calls crash and the same documents are found."
],
"C79": [
"partial",
"Proved for histories whose totals stay up to 2^24 tokens (beyond, C78_refuted shows that the value can be 0 instead of positive). Overflow/underflow of the exponent and fused multiply-add are not modelled; the error of the float64 logarithm is the parameter ki."
],
"C80": [
"partial",
"Refuted for labels and fields (dropped by the server) and for the ids of documents sent with the repository client (dropped by the client: all documents are the one with the empty id). Proved: id, content, tokens and force flag of a request reach the engine and the document is found by exactly these keys."
],
"C81": [
"partial",
"Refuted for requests without Logic or Expr (crash), limits beyond 32 bits and an empty DocIds restriction. Proved: all other requests are forwarded unchanged."
],
"C82": [
"partial",
"Refuted: types.Attri is not registered with gob, so no document of the servers is ever stored. Proved for programs that register it."
],
"C83": [
"partial",
"Refuted for fewer store shards (documents of files that are not opened are lost) and for removals and updates after a change (the old file keeps the old version, which returns at the next restart). Proved: after a change that still opens the file of a document, the document is served exactly as stored."
],
"C84": [
"proved",
"Composition of C41 (keys of a text) with C76 (whole engine, every schedule): the specification is in terms of texts only (Spec/FullText). C84_word_search: the same in terms of words, without a segmenter; the extra keys made by leaving out spaces (C41_refuted_spaces) are part of the statement."
],
"C85": [
"proved",
"The library asked for is used for all shards and both opens, one file per shard (C85_store_backend), for every registry, environment and outcome of the opens; the engine starts if everything can be opened. C85_environment_changes_library shows what the property does not promise: the files do not remember their library."
],
"C86": [
"partial",
"Proved when the memory usage of the machine does not print as 99.99 (C86_no_store_partial); false otherwise (C86_refuted_memory): CheckMem turns the store on, in ./riot-index."
],
"C87": [
"partial",
"All settings but gse_mode reach the engine (C87_server_settings_partial). gse_mode is ignored (C87_refuted_gse_mode), and because InitEngine chooses the index of ids, every document found has the score [0] (C87_refuted_order): the engine cuts its page from an arbitrary order. output_offset and max_outputs are used by the servers only (C59)."
],
"C88": [
"proved",
"All schedules of Model/Full with gentle calls; requests outside the shapes of C13 and C22. The mix of old text data and new fields is what the code does (index updated at Flush, rankers updated immediately); stated as it is, also shown by the example."
],
"C89": [
"partial",
"Refuted: the only Flush of a server is the one in InitEngine (net/com/search.go:87; those in AddDocInx and in http Search are commented out), so until a shard was given DocCacheSize documents no search shows anything (C89_refuted_never_found for any request, C89_refuted_http_shows_nothing for the server). Partial: with com.Flush after the last change the server shows exactly the page (C89_flushed_server_shows_page_partial)."
],
"C90": [
"partial",
"Proved for all lives and all libraries: only whole given documents are read (C90_only_given_documents); for ids the library accepts and documents that are not removed, the last version is kept, HasDocDB is right and the restarted engine finds it (the three _partial theorems, induction over the number of lives). Refuted: bbolt and badger refuse the empty DocId (badger also ids that start with !badger!) and storeIndexDoc ignores the error, so such documents are never stored (C90_refuted_refused_ids, C90_refuted_empty_id). Removal: C44."
],
"C91": [
"partial",
"Proved for all lives and power failures: only whole given documents are read (C91_only_given_documents), each database is in a state it had at some moment (C91_earlier_moment_partial), and with bbolt or badger the flushed last version survives (C91_synced_keeps_partial). Refuted for the default store goleveldb, whose writes are not synced: everything since the start can be lost after Flush and Close (C91_refuted_default_store), and an earlier flushed document can be lost while a later one survives (C91_refuted_order)."
],
"C92": [
"partial",
"Proved: Close keeps the last version of every document that is not removed or called about while the databases are closed (C92_close_keeps_partial; removals: C44). Refuted: documents given after Close are accepted and found by searches, but never stored (C92_refuted_after_close, C92_refuted_found_but_lost)."
],
"C93": [
"partial",
"Proved: the added keys are exactly the characters, the beginnings of the text, of its pinyin and of its initials, and the segmented words, minus stop tokens (C93_keys_added), and queries of them find the document (C93_search_by_pinyin). Refuted: pinyin keys replace the locations and counts of content words, every such word has frequency 1 (C93_refuted_frequency), and the pinyin of a part that is not a beginning is no key (C93_refuted_inner_pinyin). Pinyin and segmentation libraries are parameters."
],
"C94": [
"partial",
"Proved end to end (texts given to several engines, their schedules, searches, collecting goroutines, merge) for flushed servers, no offset, appends that do not overlap, and as many documents as the limit admits. Missing parts are refuted elsewhere: C50_refuted_one_document_short, C50_refuted_paging, C58_refuted_lost_answer, C58_refuted_foreign_documents, C89_refuted_http_shows_nothing."
],
"C95": [
"partial",
"Proved end to end per shard (C95_statistics_partial), and for the whole engine if it has one shard (C95_one_shard). The full claim is false: statistics are per shard, so two documents with the same text get different scores (C95_refuted_shards); between Flushes pending removals disturb them (C11_refuted_pending_removal); float32 rounding is C78."
],
"C96": [
"partial",
"Proved from texts to answers, after a last Flush, for plain, Must and Should requests (with NotIn): exact documents for ranked logic, orderless and count-only searches. False for NotIn-only requests and for DocIds without a Must clause (C96_refuted; index level: C16, C02)."
],
"C97": [
"partial",
"Search in 64-bit arithmetic (Model/Int64). Proved: the page is right whenever offset + limit < 2^63; exact crash condition otherwise (C97_crash_iff); deadline right exactly up to 9223372036854 ms. Refuted beyond: C97_refuted_large_limit, C97_refuted_long_timeout."
],
"C98": [
"partial",
"C98_index_partial: two indexes made by disciplined histories with a refresh at the end that hold the same documents (keywords in any order) answer every request the same. C98_search_partial: complete searches over such shards report the same counts and score vectors, and the same documents if there are no ties. C98_engines_partial: any two shards of any two running engines (arbitrary schedules) after a last Flush. Missing: between refreshes it is false (C98_refuted_between: removed documents still appear in Should requests). Undisciplined histories (a document mentioned twice between refreshes) may hold something else than they should (C04, C05, C18), so they are excluded."
],
"C99": [
"partial",
"C99_nothing_left_partial, C99_all_removed_partial: after a refresh (disciplined histories) the index stores exactly the postings, states and lengths of the documents it holds. Missing: between refreshes removed documents keep their postings (C99_refuted_between). The ranker side is C21/C22."
]
}