{
 "claims": [
  {
   "property": "C01",
   "status": "proved",
   "theorems": [
    "Riot.C01_and_search_exact",
    "Riot.C01_and_search_exact_ideal"
   ],
   "note": "Exact at every moment of every panic-free history, relative to the visible documents of the abstract trace; the ideal-map version for disciplined documents after a refresh. Requests that crash are covered by C13."
  },
  {
   "property": "C02",
   "status": "partial",
   "theorems": [
    "Riot.C02_docids_plain",
    "Riot.C02_refuted_should",
    "Riot.C02_docids_must"
   ],
   "note": "Proved for plain and Must requests; false for Should requests (C02_refuted_should): unionTable ignores DocIds."
  },
  {
   "property": "C03",
   "status": "proved",
   "theorems": [
    "Riot.C03_count_only"
   ],
   "note": "For every state and every request, plain or logic."
  },
  {
   "property": "C04",
   "status": "partial",
   "theorems": [
    "Riot.C04_history_refines_map_partial",
    "Riot.C04_disciplined_history_partial",
    "Riot.C04_refuted_stale_version"
   ],
   "note": "Proved for documents used with discipline (no call mentions a document after an add of it before a forced refresh); false in general (C04_refuted_stale_version)."
  },
  {
   "property": "C05",
   "status": "partial",
   "theorems": [
    "Riot.C05_no_crash_partial",
    "Riot.C05_only_full_cache_crashes",
    "Riot.C05_refuted_repeated_add"
   ],
   "note": "Disciplined histories never crash; exact crash condition for all histories (C05_only_full_cache_crashes); false in general (C05_refuted_repeated_add)."
  },
  {
   "property": "C06",
   "status": "partial",
   "theorems": [
    "Riot.C06_removed_invisible",
    "Riot.C06_removed_stays_invisible",
    "Riot.C06_refuted_reserved_id"
   ],
   "note": "Proved for every id except the reserved id \"0\" (C06_refuted_reserved_id)."
  },
  {
   "property": "C07",
   "status": "proved",
   "theorems": [
    "Riot.C07_hasDoc_exact"
   ],
   "note": "At every moment of every panic-free history."
  },
  {
   "property": "C08",
   "status": "proved",
   "theorems": [
    "Riot.C08_locations_attached"
   ],
   "note": "At every moment of every panic-free history."
  },
  {
   "property": "C09",
   "status": "partial",
   "theorems": [
    "Riot.C09_proximity_attained_partial",
    "Riot.C09_refuted_large_locations"
   ],
   "note": "Proved for all histories, documents and requests as far as the sum fits the 32-bit result field; false beyond (C09_refuted_large_locations: int32 conversion, core/indexer.go:513). Locations are unbounded integers in the model (no overflow of 64-bit sums)."
  },
  {
   "property": "C10",
   "status": "partial",
   "theorems": [
    "Riot.C10_proximity_optimal_partial",
    "Riot.C10_refuted_overlap"
   ],
   "note": "Optimal when no token starts inside an occurrence of the token before it; false otherwise (C10_refuted_overlap)."
  },
  {
   "property": "C11",
   "status": "partial",
   "theorems": [
    "Riot.C11_bm25_value_partial",
    "Riot.C11_refuted_pending_removal"
   ],
   "note": "Exact right after a forced refresh, over exact rationals with an abstract log2; false while removals are pending (C11_refuted_pending_removal). With float32 rounding: C78, C79."
  },
  {
   "property": "C12",
   "status": "proved",
   "theorems": [
    "Riot.C12_statistics"
   ],
   "note": "At every moment of every panic-free history."
  },
  {
   "property": "C13",
   "status": "partial",
   "theorems": [
    "Riot.C13_search_never_crashes_partial",
    "Riot.C13_refuted_label_only",
    "Riot.C13_refuted_must_without_keys",
    "Riot.C13_label_only_always_crashes"
   ],
   "note": "All request shapes except two; both crash (C13_refuted_label_only, C13_refuted_must_without_keys)."
  },
  {
   "property": "C14",
   "status": "partial",
   "theorems": [
    "Riot.C14_must_exact_partial",
    "Riot.C14_mixed_takes_previous",
    "Riot.C14_refuted_mixed",
    "Riot.C14_refuted"
   ],
   "note": "Exact for visible documents at every moment and for all documents right after a forced refresh, for every request in which it is clear which keys a clause is about (Logic.Clear: flags only, lists only, and mixtures in which no clause asked for by its flag alone follows an explicit list); whatever else is returned is a document whose last visible version matched. False while a removal is pending (C14_refuted), and for the other mixtures (C14_refuted_mixed, the shape of examples/logic logic2): there a flag means the previous list, not the query text (C14_mixed_takes_previous, every request with such lists)."
  },
  {
   "property": "C15",
   "status": "partial",
   "theorems": [
    "Riot.C15_should_exact_partial",
    "Riot.C15_refuted"
   ],
   "note": "Exact for visible documents at every moment and for all documents right after a forced refresh, for requests whose clauses are clear (Logic.Clear, see C14; includes the mixture of examples/logic logic1); whatever else is returned is a document whose last visible version matched. False while a removal is pending (C15_refuted)."
  },
  {
   "property": "C16",
   "status": "partial",
   "theorems": [
    "Riot.C16_notin_excludes_partial",
    "Riot.C16_notin_only_returns_containing",
    "Riot.C16_refuted_notin_only"
   ],
   "note": "Proved with a Must or Should clause; a NotIn-only request returns exactly the documents it should exclude (C16_notin_only_returns_containing, C16_refuted_notin_only)."
  },
  {
   "property": "C17",
   "status": "partial",
   "theorems": [
    "Riot.C17_no_removed_documents_partial",
    "Riot.C17_refuted_pending_removal"
   ],
   "note": "Right after a forced refresh; false while a removal is pending (C17_refuted_pending_removal)."
  },
  {
   "property": "C18",
   "status": "partial",
   "theorems": [
    "Riot.C18_forced_readd_visible_partial",
    "Riot.C18_refuted_readd_hides"
   ],
   "note": "Forced re-adds; false in general (C18_refuted_readd_hides)."
  },
  {
   "property": "C19",
   "status": "partial",
   "theorems": [
    "Riot.C19_removal_wins_partial",
    "Riot.C19_refuted_remove_of_cached_add"
   ],
   "note": "Documents used with discipline; false in general (C19_refuted_remove_of_cached_add)."
  },
  {
   "property": "C20",
   "status": "proved",
   "theorems": [
    "Riot.C20_rank_order"
   ],
   "note": "For every history, candidate list and scoring function whose scores are comparable (no NaN) and non-negative offset/limit."
  },
  {
   "property": "C21",
   "status": "proved",
   "theorems": [
    "Riot.C21_rank_exact",
    "Riot.C21_rank_ids_and_counts"
   ],
   "note": "Exact (as a permutation) for both kinds of ranker; the scoring function is a pure function of document and fields."
  },
  {
   "property": "C22",
   "status": "proved",
   "theorems": [
    "Riot.C22_pagination",
    "Riot.C22_pages_tile",
    "Riot.C22_negative_offset_crashes"
   ],
   "note": "For non-negative offset and limit (the property's precondition)."
  },
  {
   "property": "C23",
   "status": "partial",
   "theorems": [
    "Riot.C23_score_order_partial",
    "Riot.C23_refuted_nan"
   ],
   "note": "NaN-free score vectors; false with NaN (C23_refuted_nan)."
  },
  {
   "property": "C24",
   "status": "proved",
   "theorems": [
    "Riot.C24_search_is_page_of_global_ranking",
    "Riot.C24_orderless_returns_all_found"
   ],
   "note": "Any number of shards, contents, answer order, offset >= 0, limit >= 0; comparable scores. Orderless requests separately (C24_orderless_returns_all_found). Hypothesis: the index lookups of the shards do not crash (C13). Offsets and limits are unbounded integers here; C97 closes the gap to 64 bits."
  },
  {
   "property": "C25",
   "status": "proved",
   "theorems": [
    "Riot.C25_numDocs_is_total",
    "Riot.C25_negative_limit_crashes"
   ],
   "note": "Any page, any answer order, any scoring function (also with NaN); negative limits crash (C25_negative_limit_crashes). Offsets and limits are unbounded integers here; C97 closes the gap to 64 bits."
  },
  {
   "property": "C26",
   "status": "partial",
   "theorems": [
    "Riot.C26_count_only_equals_full_partial",
    "Riot.C26_refuted_filtered_document"
   ],
   "note": "Proved when every found document is registered and gets a score; false in general (C26_refuted_filtered_document): count-only requests never ask the ranker. Offsets and limits are unbounded integers here; C97 closes the gap to 64 bits."
  },
  {
   "property": "C27",
   "status": "proved",
   "theorems": [
    "Riot.C27_timeout_sound",
    "Riot.C27_partial_documents_are_ranked"
   ],
   "note": "Over all schedules of the worker protocol; the response is the complete response over the shards that answered in time. Offsets and limits are unbounded integers here; C97 closes the gap to 64 bits."
  },
  {
   "property": "C28",
   "status": "proved",
   "theorems": [
    "Riot.C28_delivery_never_blocks",
    "Riot.C28_at_most_one_answer_per_shard",
    "Riot.C28_every_search_completes"
   ],
   "note": "Protocol model with bounded queues, several threads per shard, any number of concurrent searches, arbitrary schedules; safety and termination."
  },
  {
   "property": "C29",
   "status": "proved",
   "theorems": [
    "Riot.C29_shard_in_range"
   ],
   "note": "uint32 arithmetic."
  },
  {
   "property": "C30",
   "status": "partial",
   "theorems": [
    "Riot.C30_reindex_replaces_partial",
    "Riot.C30_refuted_two_shards"
   ],
   "note": "True when both versions are routed to the same shard (hypothesis of the _partial theorem, with two Flush-separated Index calls); false when the content hash sends the versions to different shards: C30_refuted_two_shards gives the schedule. Missing: nothing else can hold. One index call of a worker is one action here; C55, C56, C57, C73 treat its steps."
  },
  {
   "property": "C31",
   "status": "partial",
   "theorems": [
    "Riot.C31_removed_everywhere_partial",
    "Riot.C31_refuted_without_flush"
   ],
   "note": "True when the Index calls of the document were flushed before RemoveDoc (C31_removed_everywhere_partial: every shard, every schedule); false without that Flush, because removals bypass the segmenter queue: C31_refuted_without_flush. One index call of a worker is one action here; C55, C56, C57, C73 treat its steps."
  },
  {
   "property": "C32",
   "status": "proved",
   "theorems": [
    "Riot.C32_flush_waits_for_all_work",
    "Riot.C32_calls_return"
   ],
   "note": "For every schedule in which no other call overlaps the Flush (with overlapping calls see C77); the two sides of each awaited equation are loaded at different moments. C32_calls_return: no reachable state is stuck with a call not returned. Index calls that never stop: C120."
  },
  {
   "property": "C33",
   "status": "partial",
   "theorems": [
    "Riot.C33_quiet_engine_can_rank_partial",
    "Riot.C33_ranker_data_partial",
    "Riot.C33_eventually_rankable_partial",
    "Riot.C33_refuted_rankers_not_awaited",
    "Riot.C33_refuted_readded_document_lost",
    "Riot.C33_refuted_stale_fields"
   ],
   "note": "False as stated: Flush does not wait for the rankers (C33_refuted_rankers_not_awaited); a re-added document can be lost for ever in the ranker (C33_refuted_readded_document_lost) and old fields can win for ever (C33_refuted_stale_fields). Proved: once no work is left, the ranker of a shard knows exactly the never-removed documents routed to it, with their data if given once; every schedule without new calls gets there."
  },
  {
   "property": "C34",
   "status": "proved",
   "theorems": [
    "Riot.C34_counters_never_overtake",
    "Riot.C34_counters_exact_when_done"
   ],
   "note": "Counters never overtake at every reachable state, exact when nothing is left to do."
  },
  {
   "property": "C35",
   "status": "partial",
   "theorems": [
    "Riot.C35_shard_stuck_exactly",
    "Riot.C35_deadlock_blocks_flush",
    "Riot.C35_engine_deadlock_exactly",
    "Riot.C35_no_deadlock_partial",
    "Riot.C35_work_terminates",
    "Riot.C35_refuted"
   ],
   "note": "Refuted (C35_refuted: two Index calls about one document and a RemoveDoc of another deadlock the shard for ever; no Flush returns, no search starts). Exact characterisation of the deadlock states (shard and engine), termination of all work, and absence of deadlock when no id is indexed twice or nothing is removed. Model at the granularity of lock operations; the results do not depend on the order in which RWMutex lets readers and writers in (see C75 for searches with writer preference)."
  },
  {
   "property": "C36",
   "status": "partial",
   "theorems": [
    "Riot.C36_typed_search_returns_iff_partial",
    "Riot.C36_refuted_count_only"
   ],
   "note": "Exact characterisation; the property is false (C36_refuted_count_only)."
  },
  {
   "property": "C37",
   "status": "proved",
   "theorems": [
    "Riot.C37_no_stop_token_is_key",
    "Riot.C37_no_stop_token_in_query"
   ],
   "note": "Every mode, text, token list, label list, pinyin result and stop list; also the tokens of a query text."
  },
  {
   "property": "C38",
   "status": "proved",
   "theorems": [
    "Riot.C38_label_is_key",
    "Riot.C38_labels_keep_locations"
   ],
   "note": "Every mode and document; comparison with the same document without labels."
  },
  {
   "property": "C39",
   "status": "proved",
   "theorems": [
    "Riot.C39_keys_once_and_frequency",
    "Riot.C39_engine_histories_wellformed"
   ],
   "note": "Every mode and document, any map iteration order."
  },
  {
   "property": "C40",
   "status": "proved",
   "theorems": [
    "Riot.C40_words_are_keys",
    "Riot.C40_query_tokens",
    "Riot.C40_search_finds_words",
    "Riot.C40_extra_space_finds_nothing"
   ],
   "note": "Keys, query tokens, and end to end through the index; C40_extra_space_finds_nothing shows that the single-space condition is necessary."
  },
  {
   "property": "C41",
   "status": "partial",
   "theorems": [
    "Riot.C41_keys_exact",
    "Riot.C41_documented_modes_partial",
    "Riot.C41_documented_subset",
    "Riot.C41_refuted_spaces"
   ],
   "note": "Exact key set proved for every mode (C41_keys_exact). Modes 0, 1, 2 and empty content follow the documented rule exactly; modes 3 and 4 contain the documented keys but also concatenations and the user's tokens (C41_refuted_spaces)."
  },
  {
   "property": "C42",
   "status": "proved",
   "theorems": [
    "Riot.C42_split_exact",
    "Riot.C42_split_locations",
    "Riot.C42_document_locations"
   ],
   "note": "Exact positions, strictly ascending, partition of 1..count; whole-document version for the engine without a segmenter."
  },
  {
   "property": "C43",
   "status": "proved",
   "theorems": [
    "Riot.C43_flushed_is_stored",
    "Riot.C43_restart_serves_stored",
    "Riot.C43_restart_recovers",
    "Riot.C43_crash_whole_documents",
    "Riot.C43_refuted_invisible_until_flush"
   ],
   "note": "Restarted engine (after Init and a Flush) serves exactly the last flushed, encodable versions; crash version at any moment. Index(d) calls one at a time, no RemoveDoc(d). Refuted: visible before the Flush. Database calls atomic and not failing. Refused database calls: C90; power loss: C91."
  },
  {
   "property": "C44",
   "status": "partial",
   "theorems": [
    "Riot.C44_removed_from_store_partial",
    "Riot.C44_restart_without_removed_partial",
    "Riot.C44_refuted_delete_not_awaited",
    "Riot.C44_refuted_delete_overtakes"
   ],
   "note": "Proved if everything before RemoveDoc was flushed and the delete goroutine has run; both conditions shown necessary (refutations)."
  },
  {
   "property": "C45",
   "status": "partial",
   "theorems": [
    "Riot.Store.C45_forEach_exact",
    "Riot.Store.C45_forEach_stops",
    "Riot.Store.C45_get_exact",
    "Riot.Store.C45_get_missing",
    "Riot.Store.C45_set_then_get",
    "Riot.Store.C45_set_refused",
    "Riot.Store.C45_has_exact_leveldb",
    "Riot.Store.C45_has_exact_badger",
    "Riot.Store.C45_has_bolt_partial",
    "Riot.Store.C45_refuted_bolt_empty_value",
    "Riot.Store.C45_refuted_empty_key",
    "Riot.Store.C45_backends_agree",
    "Riot.Store.C45_engine_database"
   ],
   "note": "Model/Backends: Get, Set, Delete, ForEach exact for the three backends (libraries stated as maps with their documented errors); Has exact for goleveldb and badger, for bbolt only for non-empty values (C45_refuted_bolt_empty_value); the empty key is refused by bbolt and badger (C45_refuted_empty_key). With non-empty encodings and ordinary ids all three realise the database used by the pipeline model (C45_engine_database)."
  },
  {
   "property": "C46",
   "status": "proved",
   "theorems": [
    "Riot.C46_store_shard_in_range",
    "Riot.C46_all_ids",
    "Riot.C46_has_after_flush"
   ],
   "note": "Store shard in range; GetDBAllIds lists the ids HasDocDB knows, once; HasDocDB after a Flush. Engine modelled with one number of store shards for its databases."
  },
  {
   "property": "C47",
   "status": "proved",
   "theorems": [
    "Riot.Sort.C47_asc_sorts",
    "Riot.Sort.C47_desc_sorts"
   ],
   "note": "core/uint64.go function by function (Model/Sort), ascending and descending halves share the model with different comparison operators; panic and non-termination excluded, result is the sorted permutation."
  },
  {
   "property": "C48",
   "status": "proved",
   "theorems": [
    "Riot.Sort.C48_stableAsc_sorts",
    "Riot.Sort.C48_stableDesc_sorts",
    "Riot.Sort.C48_all_four_agree"
   ],
   "note": "StableAsc/StableDesc modelled with rotation and SymMerge; sorted permutation for every slice, equal to Asc / reverse of Desc. The strict comparison in symMergeDesc is modelled as written."
  },
  {
   "property": "C49",
   "status": "proved",
   "theorems": [
    "Riot.Sort.C49_isSortedAsc_exact",
    "Riot.Sort.C49_isSortedDesc_exact"
   ],
   "note": "Exact for every slice."
  },
  {
   "property": "C50",
   "status": "partial",
   "theorems": [
    "Riot.Net.C50_merged_answer_partial",
    "Riot.Net.C50_all_documents_when_they_fit",
    "Riot.Net.C50_single_answer_unchanged",
    "Riot.Net.C50_merged_answer_is_bounded",
    "Riot.Net.C50_refuted_one_document_short",
    "Riot.Net.C50_refuted_crash",
    "Riot.Net.C50_refuted_paging"
   ],
   "note": "Proved: for every set of at least two (or no) answers and every limit \u2265 1 the merge is a prefix of the ordered union of the answers, everything if it fits, and never more than the limit. Refuted: if more documents than the limit arrive, one too few is shown (docs[0:maxOuts-1]); limit 0 (request and configuration) or negative crashes; the offset is applied by every server, so paging loses documents. The encoding of the answers is the subject of C114 (protobuf) and C118 (JSON)."
  },
  {
   "property": "C51",
   "status": "proved",
   "theorems": [
    "Riot.C51_binary_search",
    "Riot.C51_binary_search_range"
   ],
   "note": "Whole range and sub-ranges."
  },
  {
   "property": "C52",
   "status": "partial",
   "theorems": [
    "Riot.C52_readd_after_remove_partial",
    "Riot.C52_refuted"
   ],
   "note": "Proved when no older add of the document waits in the cache at the removal; false otherwise (C52_refuted): the old version is served."
  },
  {
   "property": "C53",
   "status": "proved",
   "theorems": [
    "Riot.C53_disciplined_content",
    "Riot.C53_disciplined_no_crash"
   ],
   "note": "Content and crash-freedom under the Flush discipline, for every schedule and every interleaving with other documents. One index call of a worker is one action here; C55, C56, C57, C73 treat its steps."
  },
  {
   "property": "C54",
   "status": "proved",
   "theorems": [
    "Riot.C54_search_answers_calls"
   ],
   "note": "Composition of C24, C32, C33, C53: schedule-level to answer-level. One index call of a worker is one action here; C55, C56, C57, C73 treat its steps."
  },
  {
   "property": "C55",
   "status": "partial",
   "theorems": [
    "Riot.C55_refuted_lost_update",
    "Riot.C55_overlapping_calls_atomic_partial",
    "Riot.C55_shard_linear_partial",
    "Riot.C55_refuted"
   ],
   "note": "Proved (shard and whole engine) when no refresh overlaps a removal; refuted otherwise (C55_refuted: the removal slice shares its array with the cache, a removal is lost and the document can never be found again). A second refutation, C55_refuted_lost_update: an update concurrent with the removal of another document loses the updated document."
  },
  {
   "property": "C56",
   "status": "proved",
   "theorems": [
    "Riot.C56_gentle_use_is_safe",
    "Riot.C56_gentle_use_is_atomic"
   ],
   "note": "Invariant over the engine with locks (Model/Fine). Gentle use is defined in Spec/Gentle."
  },
  {
   "property": "C57",
   "status": "proved",
   "theorems": [
    "Riot.C57_gentle_search_answers_calls"
   ],
   "note": "C54 carried over to the engine with locks by the refinement of C55/C56."
  },
  {
   "property": "C58",
   "status": "partial",
   "theorems": [
    "Riot.Net.C58_one_request_partial",
    "Riot.Net.C58_serial_appends_complete",
    "Riot.Net.C58_refuted_lost_answer",
    "Riot.Net.C58_refuted_foreign_documents"
   ],
   "note": "Proved for one request at a time: it merges a sub-multiset of its servers answers, never empty if one answered (every schedule), and all of them if appends do not overlap. Refuted: overlapping appends lose an answer; two requests at a time exchange answers."
  },
  {
   "property": "C59",
   "status": "partial",
   "theorems": [
    "Riot.Net.C59_server_shows_page",
    "Riot.Net.C59_refuted_no_limit_shows_nothing",
    "Riot.Net.C59_refuted_foreign_attribute"
   ],
   "note": "Proved for limits \u2265 1 and documents with types.Attri: exactly the engine page, newest first. Refuted: without any limit nothing is shown; a document with another attribute crashes the search."
  },
  {
   "property": "C60",
   "status": "partial",
   "theorems": [
    "Riot.Net.C60_refuted_grpc_delete_exits",
    "Riot.Net.C60_grpc_index_and_search_served"
   ],
   "note": "Proved for index and search calls. Refuted: every Delete ends the process, because package grpc copied the engine variable before it was initialised."
  },
  {
   "property": "C61",
   "status": "partial",
   "theorems": [
    "Riot.HasDoc.C61_hasDoc_answer",
    "Riot.HasDoc.C61_quiet_hasDoc_reads_only_partial",
    "Riot.HasDoc.C61_fresh_engine_partial",
    "Riot.HasDoc.C61_refuted_hasDoc_blocks_shard"
   ],
   "note": "The answer is right at every moment, and without overlap with a worker call nothing changes. The rest is false of the code and refuted: HasDoc appends a blank indexer per shard; for every growth strategy enough HasDoc calls during a worker call copy its held mutex and pre-call counters, so the counters are lost and the shard is blocked for ever."
  },
  {
   "property": "C62",
   "status": "partial",
   "theorems": [
    "Riot.C62_search_during_calls_partial",
    "Riot.C62_untouched_document_partial",
    "Riot.C62_search_sees_one_state",
    "Riot.C62_refuted"
   ],
   "note": "As stated false of the code: a document that is being re-indexed is invisible between the removal of the old and the insertion of the new version (C62_refuted). Proved: every search sees one state (C62_search_sees_one_state, every schedule); at every moment of a run in which no refresh overlaps a removal, a plain search finds exactly the matching documents left by the returned calls, except documents being changed at that moment, with entries computed from the visible version (C62_search_during_calls_partial), and untouched settled documents exactly (C62_untouched_document_partial)."
  },
  {
   "property": "C63",
   "status": "partial",
   "theorems": [
    "Riot.C63_no_phantoms_partial",
    "Riot.C63_one_version_partial",
    "Riot.C63_refuted"
   ],
   "note": "Every schedule incl. races: each word of a hit is in some given version (C63_no_phantoms_partial). One version has all words if no refresh overlaps a removal (C63_one_version_partial). The full claim is false of the code: a race over the removal cache leaves old postings of a removed document, and a re-added document is found for old and new words together (C63_refuted)."
  },
  {
   "property": "C64",
   "status": "proved",
   "theorems": [
    "Riot.C64_rank_during_updates",
    "Riot.C64_untouched_candidates",
    "Riot.C64_not_a_snapshot"
   ],
   "note": "For every schedule at lock granularity; comparable (non-NaN) scores for the order part, legal offset and limit. C64_not_a_snapshot shows the limit of the claim: a ranking need not be the ranking of any one state."
  },
  {
   "property": "C65",
   "status": "proved",
   "theorems": [
    "Riot.C65_options",
    "Riot.C65_no_dictionary",
    "Riot.C65_init_idempotent",
    "Riot.C65_negative_options"
   ],
   "note": "All fields Init and Engine.Init use; toml loading and dictionary loading are not modelled. Outside the precondition: C65_negative_options (negative shards panic, negative lookup workers leave searches without a worker)."
  },
  {
   "property": "C66",
   "status": "partial",
   "theorems": [
    "Riot.C66_default_score_partial",
    "Riot.C66_refuted_new_engine",
    "Riot.C66_refuted_logic"
   ],
   "note": "Proved for plain searches on engines whose options leave index type and criteria to their defaults. The full claim is false of the code: engines made by New/NewEngine use DocIdsIndex and score every document [0] (C66_refuted_new_engine), and searches with Must/Should/NotIn carry no BM25 value (C66_refuted_logic)."
  },
  {
   "property": "C67",
   "status": "proved",
   "theorems": [
    "Riot.C67_postings_exact"
   ],
   "note": "Every Using mode, with and without segmenter, pinyin, stop tokens, labels. The segmenter, lower-casing, pinyin conversion are arbitrary functions. The list of pinyin keys itself is taken from the model (PinYin), its positions are what is claimed."
  },
  {
   "property": "C68",
   "status": "partial",
   "theorems": [
    "Riot.C68_stop_file_partial",
    "Riot.C68_stop_words_not_keys_partial",
    "Riot.C68_refuted_long_line"
   ],
   "note": "Proved for files all of whose lines have fewer than 65536 bytes, together with the fact that this list is the one the segmenter uses. Refuted beyond: a longer line silently ends the reading (bufio.Scanner error ignored), so every word after it is no stop token."
  },
  {
   "property": "C69",
   "status": "proved",
   "theorems": [
    "Riot.C69_all_docs"
   ],
   "note": "Every backend, every history, every number of databases; gob is a decoder that inverts the encoder on what was stored."
  },
  {
   "property": "C70",
   "status": "partial",
   "theorems": [
    "Riot.C70_exist_exact",
    "Riot.C70_count_partial",
    "Riot.C70_refuted_count"
   ],
   "note": "IsDocExist exact after every history; the counter equals the number of AddDocInfo calls and hence of documents when none is added twice. Refuted otherwise: re-adding a document counts it again."
  },
  {
   "property": "C71",
   "status": "partial",
   "theorems": [
    "Riot.C71_used_partial",
    "Riot.C71_refuted_underflow",
    "Riot.C71_units"
   ],
   "note": "Exact while usage is not below that at start; below it the unsigned subtraction wraps (C71_refuted_underflow). Unit conversions exact."
  },
  {
   "property": "C72",
   "status": "partial",
   "theorems": [
    "Riot.C72_heartbeat_partial",
    "Riot.C72_refuted_isolated_failures"
   ],
   "note": "Four failures in a row always cause a restart; never a restart with fewer than four failures since the last kill. Refuted: the failures need not be in a row, successes do not reset the counter (C72_refuted_isolated_failures, any number of successes in between)."
  },
  {
   "property": "C73",
   "status": "proved",
   "theorems": [
    "Riot.C73_no_timeout",
    "Riot.C73_search_during_everything",
    "Riot.C73_orderless_during_everything",
    "Riot.C73_count_during_everything",
    "Riot.C73_entries_show_versions"
   ],
   "note": "Whole-engine model (Model/Full): pipeline, shard locks, lookup and rank workers, any number of searches. Three theorems: ordered, orderless, count-only requests. Runs in which a goroutine panics end there (see C01, C02, C25 for when that happens)."
  },
  {
   "property": "C74",
   "status": "partial",
   "theorems": [
    "Riot.C74_refuted",
    "Riot.C74_untouched_document_partial",
    "Riot.C74_untouched_document_found_partial"
   ],
   "note": "In the whole-engine model. Proved for schedules in which, on no shard, a cache refresh overlaps a removal, request without Logic; C74_untouched_document_found_partial drops the condition that the document is registered, for documents never indexed again after a removal. Without the restriction the claim is false of the code (C74_refuted): an update that overlapped the removal of another document is lost although two Flushes returned, and a later undisturbed search does not find the document."
  },
  {
   "property": "C75",
   "status": "partial",
   "theorems": [
    "Riot.C75_work_terminates",
    "Riot.C75_search_returns_partial",
    "Riot.C75_deadlock_blocks_searches",
    "Riot.C75_refuted"
   ],
   "note": "Proved: the work ends (C75_work_terminates); every search returns in every run without panics in which no id is indexed twice or nothing is removed. The unrestricted claim is false of the code: C75_refuted exhibits a run after which no search without a time-out ever returns and at most idxCap + lookup threads with one do (the send loop engine.go:798 is not covered by the time-out)."
  },
  {
   "property": "C76",
   "status": "proved",
   "theorems": [
    "Riot.C76_gentle_engine_answers",
    "Riot.C76_quiet_search_exact"
   ],
   "note": "All schedules of Model/Full with gentle calls; requests outside the shapes of C13 and C22. Channels, workers, locks and caches all modelled."
  },
  {
   "property": "C77",
   "status": "partial",
   "theorems": [
    "Riot.C77_undisturbed_flush_partial",
    "Riot.C77_concurrent_flushes_partial",
    "Riot.C77_as_much_as_asked_partial",
    "Riot.C77_refuted_two_flushes",
    "Riot.C77_refuted_overlapping_index",
    "Riot.C77_refuted_overlapping_remove"
   ],
   "note": "The full claim is false of the code (three C77_refuted_* theorems): Flush loads numForceUpdatingReqs/numRemovingReqs/numIndexingReqs before the counter it compares with, so an overlapping Flush (two shards), Index (one shard) or RemoveDoc makes it return early. Proved: with no overlapping call; with any overlapping Flushes on one shard; and, whatever overlaps, that as many documents and removals have been counted as had been asked for."
  },
  {
   "property": "C78",
   "status": "partial",
   "theorems": [
    "Riot.C78_exact_totals_partial",
    "Riot.C78_same_documents_partial",
    "Riot.C78_rounding",
    "Riot.C78_refuted",
    "Riot.C78_absorption"
   ],
   "note": "The full claim is false of the code beyond 2^24 tokens (C78_refuted: a remaining document is scored 0; C78_absorption: of any number of one-token documents at most 2^24 tokens are counted). Proved: every history whose totals stay up to 2^24 is computed exactly, and for every rounding function whatsoever the same calls crash and the same documents are found."
  },
  {
   "property": "C79",
   "status": "partial",
   "theorems": [
    "Riot.C79_close_partial",
    "Riot.C79_order_partial"
   ],
   "note": "Proved for histories whose totals stay up to 2^24 tokens (beyond, C78_refuted shows that the value can be 0 instead of positive). Overflow/underflow of the exponent and fused multiply-add are not modelled; the error of the float64 logarithm is the parameter ki."
  },
  {
   "property": "C80",
   "status": "partial",
   "theorems": [
    "Riot.Net.C80_server_document_found_partial",
    "Riot.Net.C80_refuted_labels_ignored",
    "Riot.Net.C80_refuted_client_drops_ids",
    "Riot.Net.C80_client_document"
   ],
   "note": "Refuted for labels and fields (dropped by the server) and for the ids of documents sent with the repository client (dropped by the client: all documents are the one with the empty id). Proved: id, content, tokens and force flag of a request reach the engine and the document is found by exactly these keys."
  },
  {
   "property": "C81",
   "status": "partial",
   "theorems": [
    "Riot.Net.C81_refuted_plain_search_crashes",
    "Riot.Net.C81_etcd_plain_search",
    "Riot.Net.C81_client_search_partial",
    "Riot.Net.C81_refuted_large_limit",
    "Riot.Net.C81_refuted_empty_restriction",
    "Riot.C81_grpc_client_shows_page_partial"
   ],
   "note": "Refuted for requests without Logic or Expr (crash), limits beyond 32 bits and an empty DocIds restriction. Proved: all other requests are forwarded unchanged."
  },
  {
   "property": "C82",
   "status": "partial",
   "theorems": [
    "Riot.Net.C82_refuted_nothing_stored",
    "Riot.Net.C82_refuted_restart_empty",
    "Riot.Net.C82_registered_recovers_partial"
   ],
   "note": "Refuted: types.Attri is not registered with gob, so no document of the servers is ever stored. Proved for programs that register it."
  },
  {
   "property": "C83",
   "status": "partial",
   "theorems": [
    "Riot.C83_more_shards_recovers_partial",
    "Riot.C83_refuted_fewer_shards",
    "Riot.C83_refuted_removed_comes_back",
    "Riot.C83_refuted_removed_found_again"
   ],
   "note": "Refuted for fewer store shards (documents of files that are not opened are lost) and for removals and updates after a change (the old file keeps the old version, which returns at the next restart). Proved: after a change that still opens the file of a document, the document is served exactly as stored."
  },
  {
   "property": "C84",
   "status": "proved",
   "theorems": [
    "Riot.C84_text_search_exact",
    "Riot.C84_keys_are_words",
    "Riot.C84_word_search"
   ],
   "note": "Composition of C41 (keys of a text) with C76 (whole engine, every schedule): the specification is in terms of texts only (Spec/FullText). C84_word_search: the same in terms of words, without a segmenter; the extra keys made by leaving out spaces (C41_refuted_spaces) are part of the statement."
  },
  {
   "property": "C85",
   "status": "proved",
   "theorems": [
    "Riot.C85_store_backend",
    "Riot.C85_files_distinct",
    "Riot.C85_file_names",
    "Riot.C85_environment_changes_library"
   ],
   "note": "The library asked for is used for all shards and both opens, one file per shard (C85_store_backend), for every registry, environment and outcome of the opens; the engine starts if everything can be opened. C85_environment_changes_library shows what the property does not promise: the files do not remember their library."
  },
  {
   "property": "C86",
   "status": "partial",
   "theorems": [
    "Riot.C86_no_store_partial",
    "Riot.C86_refuted_memory"
   ],
   "note": "Proved when the memory usage of the machine does not print as 99.99 (C86_no_store_partial); false otherwise (C86_refuted_memory): CheckMem turns the store on, in ./riot-index."
  },
  {
   "property": "C87",
   "status": "partial",
   "theorems": [
    "Riot.Net.C87_server_settings_partial",
    "Riot.Net.C87_refuted_gse_mode",
    "Riot.Net.C87_refuted_order"
   ],
   "note": "All settings but gse_mode reach the engine (C87_server_settings_partial). gse_mode is ignored (C87_refuted_gse_mode), and because InitEngine chooses the index of ids, every document found has the score [0] (C87_refuted_order): the engine cuts its page from an arbitrary order. output_offset and max_outputs are used by the servers only (C59)."
  },
  {
   "property": "C88",
   "status": "proved",
   "theorems": [
    "Riot.C88_between_flushes"
   ],
   "note": "All schedules of Model/Full with gentle calls; requests outside the shapes of C13 and C22. The mix of old text data and new fields is what the code does (index updated at Flush, rankers updated immediately); stated as it is, also shown by the example."
  },
  {
   "property": "C89",
   "status": "partial",
   "theorems": [
    "Riot.C89_refuted_never_found",
    "Riot.C89_refuted_http_shows_nothing",
    "Riot.C89_flushed_server_shows_page_partial"
   ],
   "note": "Refuted: the only Flush of a server is the one in InitEngine (net/com/search.go:87; those in AddDocInx and in http Search are commented out), so until a shard was given DocCacheSize documents no search shows anything (C89_refuted_never_found for any request, C89_refuted_http_shows_nothing for the server). Partial: with com.Flush after the last change the server shows exactly the page (C89_flushed_server_shows_page_partial)."
  },
  {
   "property": "C90",
   "status": "partial",
   "theorems": [
    "Riot.C90_only_given_documents",
    "Riot.C90_last_version_kept_partial",
    "Riot.C90_hasDocDB_partial",
    "Riot.C90_restart_finds_partial",
    "Riot.C90_refuted_refused_ids",
    "Riot.C90_refuted_empty_id"
   ],
   "note": "Proved for all lives and all libraries: only whole given documents are read (C90_only_given_documents); for ids the library accepts and documents that are not removed, the last version is kept, HasDocDB is right and the restarted engine finds it (the three _partial theorems, induction over the number of lives). Refuted: bbolt and badger refuse the empty DocId (badger also ids that start with !badger!) and storeIndexDoc ignores the error, so such documents are never stored (C90_refuted_refused_ids, C90_refuted_empty_id). Removal: C44."
  },
  {
   "property": "C91",
   "status": "partial",
   "theorems": [
    "Riot.C91_only_given_documents",
    "Riot.C91_earlier_moment_partial",
    "Riot.C91_synced_keeps_partial",
    "Riot.C91_refuted_default_store",
    "Riot.C91_refuted_order"
   ],
   "note": "Proved for all lives and power failures: only whole given documents are read (C91_only_given_documents), each database is in a state it had at some moment (C91_earlier_moment_partial), and with bbolt or badger the flushed last version survives (C91_synced_keeps_partial). Refuted for the default store goleveldb, whose writes are not synced: everything since the start can be lost after Flush and Close (C91_refuted_default_store), and an earlier flushed document can be lost while a later one survives (C91_refuted_order)."
  },
  {
   "property": "C92",
   "status": "partial",
   "theorems": [
    "Riot.C92_close_keeps_partial",
    "Riot.C92_refuted_after_close",
    "Riot.C92_refuted_found_but_lost"
   ],
   "note": "Proved: Close keeps the last version of every document that is not removed or called about while the databases are closed (C92_close_keeps_partial; removals: C44). Refuted: documents given after Close are accepted and found by searches, but never stored (C92_refuted_after_close, C92_refuted_found_but_lost)."
  },
  {
   "property": "C93",
   "status": "partial",
   "theorems": [
    "Riot.C93_keys_added",
    "Riot.C93_search_by_pinyin",
    "Riot.C93_refuted_frequency",
    "Riot.C93_refuted_inner_pinyin"
   ],
   "note": "Proved: the added keys are exactly the characters, the beginnings of the text, of its pinyin and of its initials, and the segmented words, minus stop tokens (C93_keys_added), and queries of them find the document (C93_search_by_pinyin). Refuted: pinyin keys replace the locations and counts of content words, every such word has frequency 1 (C93_refuted_frequency), and the pinyin of a part that is not a beginning is no key (C93_refuted_inner_pinyin). Pinyin and segmentation libraries are parameters."
  },
  {
   "property": "C94",
   "status": "partial",
   "theorems": [
    "Riot.C94_distributed_search_exact_partial"
   ],
   "note": "Proved end to end (texts given to several engines, their schedules, searches, collecting goroutines, merge) for flushed servers, no offset, appends that do not overlap, and as many documents as the limit admits. Missing parts are refuted elsewhere: C50_refuted_one_document_short, C50_refuted_paging, C58_refuted_lost_answer, C58_refuted_foreign_documents, C89_refuted_http_shows_nothing."
  },
  {
   "property": "C95",
   "status": "partial",
   "theorems": [
    "Riot.C95_statistics_partial",
    "Riot.C95_one_shard",
    "Riot.C95_refuted_shards"
   ],
   "note": "Proved end to end per shard (C95_statistics_partial), and for the whole engine if it has one shard (C95_one_shard). The full claim is false: statistics are per shard, so two documents with the same text get different scores (C95_refuted_shards); between Flushes pending removals disturb them (C11_refuted_pending_removal); float32 rounding is C78."
  },
  {
   "property": "C96",
   "status": "partial",
   "theorems": [
    "Riot.C96_logic_search_partial",
    "Riot.C96_orderless_search_partial",
    "Riot.C96_count_search_partial",
    "Riot.C96_refuted"
   ],
   "note": "Proved from texts to answers, after a last Flush, for plain, Must and Should requests (with NotIn): exact documents for ranked logic, orderless and count-only searches. False for NotIn-only requests and for DocIds without a Must clause (C96_refuted; index level: C16, C02)."
  },
  {
   "property": "C97",
   "status": "partial",
   "theorems": [
    "Riot.C97_page_partial",
    "Riot.C97_crash_iff",
    "Riot.C97_timeout_partial",
    "Riot.C97_refuted_long_timeout",
    "Riot.C97_refuted_large_limit"
   ],
   "note": "Search in 64-bit arithmetic (Model/Int64). Proved: the page is right whenever offset + limit < 2^63; exact crash condition otherwise (C97_crash_iff); deadline right exactly up to 9223372036854 ms. Refuted beyond: C97_refuted_large_limit, C97_refuted_long_timeout."
  },
  {
   "property": "C98",
   "status": "partial",
   "theorems": [
    "Riot.C98_index_partial",
    "Riot.C98_refuted_between",
    "Riot.C98_search_partial",
    "Riot.C98_engines_partial"
   ],
   "note": "C98_index_partial: two indexes made by disciplined histories with a refresh at the end that hold the same documents (keywords in any order) answer every request the same. C98_search_partial: complete searches over such shards report the same counts and score vectors, and the same documents if there are no ties. C98_engines_partial: any two shards of any two running engines (arbitrary schedules) after a last Flush. Missing: between refreshes it is false (C98_refuted_between: removed documents still appear in Should requests). Undisciplined histories (a document mentioned twice between refreshes) may hold something else than they should (C04, C05, C18), so they are excluded."
  },
  {
   "property": "C99",
   "status": "partial",
   "theorems": [
    "Riot.C99_nothing_left_partial",
    "Riot.C99_all_removed_partial",
    "Riot.C99_refuted_between"
   ],
   "note": "C99_nothing_left_partial, C99_all_removed_partial: after a refresh (disciplined histories) the index stores exactly the postings, states and lengths of the documents it holds. Missing: between refreshes removed documents keep their postings (C99_refuted_between). The ranker side is C21/C22."
  },
  {
   "property": "C100",
   "status": "partial",
   "theorems": [
    "Riot.C100_scores",
    "Riot.C100_pages_partial",
    "Riot.C100_refuted_ties"
   ],
   "note": "Scores: proved with or without ties (C100_scores: the pages show together the score vectors of the whole ranking, the same count each, empty pages behind the end). Documents: proved when no two found documents have the same score vector (C100_pages_partial), for each page with its own sort and arrival order. With ties the full claim is false of the code: C100_refuted_ties (two shards, one document each, equal scores: both pages show document 1)."
  },
  {
   "property": "C101",
   "status": "partial",
   "theorems": [
    "Riot.C101_sets",
    "Riot.C101_and",
    "Riot.C101_narrows",
    "Riot.C101_restrict",
    "Riot.C101_logic_partial",
    "Riot.C101_refuted_pending"
   ],
   "note": "Plain requests: proved for every reachable index at every moment (C101_sets, C101_and, C101_narrows, C101_restrict). Logic requests as intersection, union and difference of the plain answers: proved directly after a refresh (C101_logic_partial); between refreshes the code violates it: C101_refuted_pending. C101_restrict is about plain requests; Should requests ignore DocIds (C02_refuted_should)."
  },
  {
   "property": "C102",
   "status": "partial",
   "theorems": [
    "Riot.C102_own_words_partial",
    "Riot.C102_engine_partial",
    "Riot.C102_refuted"
   ],
   "note": "Proved for the modes and texts of OwnWords: without a segmenter modes 0, 4 and 6 and single spaces; with a segmenter modes 0 and 1 if the words of Cut that are no stop tokens are segments of ModeSegment and at least one is (both are functions of the dependency gse, parameters of the model): C102_own_words_partial, and through the whole engine C102_engine_partial. The full claim is false of the code: C102_refuted (double space, mode 5, only stop tokens, differing segmentation functions)."
  },
  {
   "property": "C103",
   "status": "proved",
   "theorems": [
    "Riot.C103_flush_again",
    "Riot.C103_remove_absent",
    "Riot.C103_add_twice",
    "Riot.C103_remove_twice",
    "Riot.C103_undo"
   ],
   "note": "Index level (core.Indexer), any history before the refresh. The engine-level version for disciplined calls is an instance of C98_engines_partial."
  },
  {
   "property": "C104",
   "status": "proved",
   "theorems": [
    "Riot.C104_search",
    "Riot.C104_orderless",
    "Riot.C104_engines"
   ],
   "note": "Snapshots of the shards (ShardView), as in C24, in C104_sharding_invisible; C104_engines says it of two running engines with different shard counts, each under its own schedule. The claim with BM25 in the criteria is false: C95."
  },
  {
   "property": "C105",
   "status": "proved",
   "theorems": [
    "Riot.C105_plain",
    "Riot.C105_logic",
    "Riot.C105_whole",
    "Riot.C105_whole_logic"
   ],
   "note": "C105_plain and C105_logic give the answer of each shard, C105_whole the whole response of a request without time-out. Ranges over collections whose ids are indexed once; the fields of an updated document may be stale in the ranker (C33_refuted_stale_fields). Other documents may have been indexed and removed again meanwhile (Remains, Spec/Criteria; an example run with such documents is in Props/Gone)."
  },
  {
   "property": "C106",
   "status": "proved",
   "theorems": [
    "Riot.C106_line",
    "Riot.C106_skips",
    "Riot.C106_load",
    "Riot.C106_page"
   ],
   "note": "C106_line: a well-formed line is read as the post it says; C106_load: the last line about an id counts; C106_page: the answer of the running server after indexing and Flush. Scores are exact numbers (float32 rounding could tie close scores). The id \"0\" is never indexed (C04), which the statement excludes."
  },
  {
   "property": "C107",
   "status": "partial",
   "theorems": [
    "Riot.C107_line",
    "Riot.C107_page_partial",
    "Riot.C107_refuted_first"
   ],
   "note": "C107_page_partial: all posts but the one with number 0. C107_refuted_first: that post, id \"0\", is never shown although it has the words. Scores are exact numbers."
  },
  {
   "property": "C108",
   "status": "partial",
   "theorems": [
    "Riot.C108_docs_partial",
    "Riot.C108_own_tokens_partial",
    "Riot.C108_page_partial",
    "Riot.C108_refuted"
   ],
   "note": "C108_refuted: a pinyin of the first line also finds the second line, and every line is shown a second time as an empty post. Proved: which documents are indexed (C108_docs_partial), that a line is found by its pinyin (C108_own_tokens_partial), and the exact answer (C108_page_partial)."
  },
  {
   "property": "C109",
   "status": "proved",
   "theorems": [
    "Riot.C109_only_the_collection"
   ],
   "note": "C109_only_the_collection, about two arbitrary runs (SearchedCollection). With equal scores the order of the documents may differ (sort.Sort is not stable); documents indexed more than once: C33, C95. Other documents may have been indexed and removed again meanwhile (Remains, Spec/Criteria; an example run with such documents is in Props/Gone)."
  },
  {
   "property": "C110",
   "status": "proved",
   "theorems": [
    "Riot.Wire.C110_HeartReq",
    "Riot.Wire.C110_Reply",
    "Riot.Wire.C110_DeleteReq",
    "Riot.Wire.C110_TokenData",
    "Riot.Wire.C110_DocReq",
    "Riot.Wire.C110_Expr",
    "Riot.Wire.C110_Logic",
    "Riot.Wire.C110_SearchReq",
    "Riot.Wire.C110_Attri",
    "Riot.Wire.C110_Text",
    "Riot.Wire.C110_SearchReply"
   ],
   "note": "One theorem per message; Spec/Wire is the wire format and doc.proto as relations on bytes."
  },
  {
   "property": "C111",
   "status": "proved",
   "theorems": [
    "Riot.Wire.C111_HeartReq",
    "Riot.Wire.C111_Reply",
    "Riot.Wire.C111_DeleteReq",
    "Riot.Wire.C111_TokenData",
    "Riot.Wire.C111_DocReq",
    "Riot.Wire.C111_Expr",
    "Riot.Wire.C111_Logic",
    "Riot.Wire.C111_Attri",
    "Riot.Wire.C111_Text",
    "Riot.Wire.C111_SearchReply",
    "Riot.Wire.C111_SearchReq"
   ],
   "note": "One theorem per message: no crash, exact Size, conforms to doc.proto, read back. XXX_unrecognized must hold unknown fields only (it does in every message made by a program or read by C110, see C115)."
  },
  {
   "property": "C112",
   "status": "partial",
   "theorems": [
    "Riot.Wire.C112_HeartReq_partial",
    "Riot.Wire.C112_Reply_partial",
    "Riot.Wire.C112_DeleteReq_partial",
    "Riot.Wire.C112_TokenData_partial",
    "Riot.Wire.C112_DocReq_partial",
    "Riot.Wire.C112_Expr_partial",
    "Riot.Wire.C112_Logic_partial",
    "Riot.Wire.C112_SearchReq_partial",
    "Riot.Wire.C112_Attri_partial",
    "Riot.Wire.C112_Text_partial",
    "Riot.Wire.C112_SearchReply_partial",
    "Riot.Wire.C112_bytes_partial",
    "Riot.Wire.C112_refuted",
    "Riot.Wire.C112_refuted_string"
   ],
   "note": "The code refutes it: eleven bytes crash Unmarshal of every message (postIndex overflows). Proved for all bytes (below 2^62) in which no varint, at any position, has a 64-bit value v with 2^63 - length <= v < 2^63: a crash needs such a length. C112_bytes_partial is the simple consequence: less than 256 MB and no four consecutive 0xff bytes."
  },
  {
   "property": "C113",
   "status": "proved",
   "theorems": [
    "Riot.Wire.C113_HeartReq",
    "Riot.Wire.C113_Reply",
    "Riot.Wire.C113_DeleteReq",
    "Riot.Wire.C113_TokenData",
    "Riot.Wire.C113_DocReq",
    "Riot.Wire.C113_Expr",
    "Riot.Wire.C113_Logic",
    "Riot.Wire.C113_SearchReq",
    "Riot.Wire.C113_Attri",
    "Riot.Wire.C113_Text",
    "Riot.Wire.C113_SearchReply"
   ],
   "note": "For all bytes of length below 2^63, per message."
  },
  {
   "property": "C114",
   "status": "proved",
   "theorems": [
    "Riot.Wire.C114_heart_beat",
    "Riot.Wire.C114_delete",
    "Riot.Wire.C114_document",
    "Riot.Wire.C114_client_document",
    "Riot.Wire.C114_search"
   ],
   "note": "Handlers and client functions of net/grpc composed with the modelled encoding; connection, time-outs and lost calls not modelled."
  },
  {
   "property": "C115",
   "status": "proved",
   "theorems": [
    "Riot.Wire.C115_HeartReq",
    "Riot.Wire.C115_Reply",
    "Riot.Wire.C115_DeleteReq",
    "Riot.Wire.C115_TokenData",
    "Riot.Wire.C115_DocReq",
    "Riot.Wire.C115_Expr",
    "Riot.Wire.C115_Logic",
    "Riot.Wire.C115_SearchReq",
    "Riot.Wire.C115_Attri",
    "Riot.Wire.C115_Text",
    "Riot.Wire.C115_SearchReply"
   ],
   "note": "One theorem per message."
  },
  {
   "property": "C116",
   "status": "proved",
   "theorems": [
    "Riot.Net.C116_form_is_search",
    "Riot.Net.C116_no_limit",
    "Riot.Net.C116_no_offset",
    "Riot.Net.C116_distributed"
   ],
   "note": "Model/HttpForm. The parsing of URL and body into form values is trusted; C116_distributed assumes that the configuration holds 64-bit numbers (they are Go ints)."
  },
  {
   "property": "C117",
   "status": "partial",
   "theorems": [
    "Riot.Net.C117_refuted_negative",
    "Riot.Net.C117_refuted_form",
    "Riot.Net.C117_shard_crash_iff",
    "Riot.Net.C117_answered_partial"
   ],
   "note": "Refuted by the code for every engine: C117_refuted_negative, C117_refuted_form. Proved: exact condition for the crash of a shard (C117_shard_crash_iff); requests with a positive limit, an offset that is not negative and a sum below 2^63 are answered with their page (C117_answered_partial), if no found document lacks types.Attri (see C59)."
  },
  {
   "property": "C118",
   "status": "partial",
   "theorems": [
    "Riot.Json.C118_body_reads_back",
    "Riot.Json.C118_reads_mended_partial",
    "Riot.Json.C118_refuted_not_utf8",
    "Riot.Json.C118_refuted_nan",
    "Riot.Json.C118_body_iff_finite",
    "Riot.Json.C118_client_sees",
    "Riot.Json.C118_distributed",
    "Riot.Json.C118_refuted_nan_distributed",
    "Riot.Json.C118_any_bodies",
    "Riot.Json.C118_single_body",
    "Riot.Json.C118_search_body",
    "Riot.Json.C118_no_markup",
    "Riot.Json.C118_refuted_concrete"
   ],
   "note": "Proved: every answer with UTF-8 texts, finite scores and 64-bit numbers is decoded from its body exactly (nil and empty slices told apart), for a search and for the merge of any number of servers; for other texts every byte outside a rune becomes U+FFFD; no control or markup character in any body; no body crashes the distributed search for limits \u2265 1. Refuted: texts that are not UTF-8 always come out changed; one NaN or infinite score makes json.Marshal fail, the body is empty and the distributed search loses all documents of that server. Simplified: keys that differ only in case; float formatting is a parameter with a contract (FloatOk)."
  },
  {
   "property": "C119",
   "status": "proved",
   "theorems": [
    "Riot.Json.C119_http_client"
   ],
   "note": "Full composition form -> engine -> JSON bytes -> client. Hypotheses: the collection was indexed and Flush returned (the server itself never flushes what is added over the network: C89), ids, contents and attributes are UTF-8 and attributes are types.Attri (otherwise C59/C118 refutations), scores can be formatted (NaN/Inf: C118), limit at least 1 (C117, C89)."
  },
  {
   "property": "C120",
   "status": "partial",
   "theorems": [
    "Riot.C120_flush_returns_partial",
    "Riot.C120_pause_suffices_partial",
    "Riot.C120_refuted"
   ],
   "note": "Refuted: C120_refuted is an infinite run in which two goroutines keep calling Index, all their calls return, all workers become idle again and again, and a Flush of a third goroutine finds its equations false at every moment. Proved: once no new calls are made every Flush returns (bounded number of steps), and one moment at which all clients are idle or in Flush and the workers have nothing to do is enough for the first loop."
  },
  {
   "property": "C121",
   "status": "partial",
   "theorems": [
    "Riot.C121_calls_partial",
    "Riot.C121_runs_through_partial",
    "Riot.C121_refuted_hasDocDB",
    "Riot.C121_refuted_shards"
   ],
   "note": "Exact end of every call of every program (C121_calls_partial, C121_runs_through_partial). The full claim is refuted: HasDocDB panics before Init and on every engine without store (C121_refuted_hasDocDB); 2^32 store shards make Index divide by zero (C121_refuted_shards); HasDoc and the lists answer silently before Init."
  },
  {
   "property": "C122",
   "status": "proved",
   "theorems": [
    "Riot.C122_count",
    "Riot.C122_orderless",
    "Riot.C122_count_is_numDocs"
   ],
   "note": "C122_count, C122_orderless, C122_count_is_numDocs. Ranges over collections whose ids are indexed once (SearchedCollection); for other histories and times C73, C26. Other documents may have been indexed and removed again meanwhile (Remains, Spec/Criteria; an example run with such documents is in Props/Gone)."
  },
  {
   "property": "C123",
   "status": "proved",
   "theorems": [
    "Riot.C123_stored",
    "Riot.C123_recovered",
    "Riot.C123_survives",
    "Riot.C123_same_answer"
   ],
   "note": "C123_stored: the databases contain exactly the encodable documents of the collection, each in the database of its id (Props/Survives, also with documents removed meanwhile: Props/RoundsDb). C123_recovered: what a new engine reads. C123_survives: the new engine is a searched collection in the sense of C104/C105/C109/C122. C123_same_answer: the same search gets the same answer before and after. Examples: two processes, one document that cannot be encoded, a further document, two and three store shards. Fewer store shards lose documents (C83), power loss: C91, calls about a document not separated by Flushes: C44."
  },
  {
   "property": "C124",
   "status": "proved",
   "theorems": [
    "Riot.C124_response",
    "Riot.C124_simple",
    "Riot.C124_logic"
   ],
   "note": "C124_response (any ASCII collection and any clear request), C124_simple and C124_logic (the two programs). Assumes that strings.ToLower is right on ASCII. The other programs: C106-C108; logic2 uses the dictionary segmenter, and its request is one of those in which the query text is ignored (C14_refuted_mixed)."
  },
  {
   "property": "C125",
   "status": "proved",
   "theorems": [
    "Riot.Json.C125_reads_exactly",
    "Riot.Json.C125_one_value",
    "Riot.Json.C125_utf8",
    "Riot.Json.C125_not_json",
    "Riot.Json.C125_any_writing",
    "Riot.Json.C125_reads_any_body",
    "Riot.Json.C125_body_is_json",
    "Riot.Json.C125_distributed_any_writing"
   ],
   "note": "encoding/json is modelled as far as it is used; keys that differ from a field name in case only and keys that occur twice are outside the theorems about answers; the formatting and reading of float32 is a parameter with contract FloatOk (its output is a JSON number and is read back)."
  },
  {
   "property": "C126",
   "status": "partial",
   "theorems": [
    "Riot.C126_calls",
    "Riot.C126_file",
    "Riot.C126_search",
    "Riot.C126_refuted_idonly",
    "Riot.C126_record",
    "Riot.C126_printed_partial",
    "Riot.C126_refuted_beyond_100"
   ],
   "note": "Exact for every interleaving and schedule: the number printed is min(100, number of remaining documents with all words) (C126_printed_partial, C126_search, C126_calls, C126_file). The full claim is refuted: beyond 100 matches 100 is printed, since the program counts the documents of the page (C126_refuted_beyond_100), and with -idonly=false the first search panics (C126_refuted_idonly)."
  },
  {
   "property": "C127",
   "status": "partial",
   "theorems": [
    "Riot.C127_undisturbed",
    "Riot.C127_store_partial",
    "Riot.C127_refuted_store"
   ],
   "note": "Every document other than those whose own calls race is exact under every schedule, and every entry shows a version given to its shard (C127_undisturbed); for examples/store \"1\", \"2\", \"3\" are exact, each at most once, NumDocs is the number found, and only ids of the program appear (C127_store_partial). Missing, because refuted: the absence of \"5\" \u2013 a schedule of the program returns it although it was removed before the Flush (C127_refuted_store)."
  },
  {
   "property": "C128",
   "status": "proved",
   "theorems": [
    "Riot.C128_whole_response",
    "Riot.C128_pinyin"
   ],
   "note": "C128_whole_response for every collection, engine and schedule; C128_pinyin for examples/pinyin, with what the program expects of the libraries as hypotheses (ZlEngine)."
  },
  {
   "property": "C129",
   "status": "partial",
   "theorems": [
    "Riot.C129_found_partial",
    "Riot.C129_same_data_partial",
    "Riot.C129_refuted_last_version"
   ],
   "note": "Proved for runs in which on no shard a refresh overlaps a removal (every gently used engine, full_gentle_noClash): after a Flush, a document that was only indexed is found if all its versions match, and only if one of them does; exact if all versions are equal. The full claim, that the last version decides, is refuted by a run of one caller (C129_refuted_last_version)."
  },
  {
   "property": "C130",
   "status": "partial",
   "theorems": [
    "Riot.C130_updated_partial",
    "Riot.C130_repaired_partial"
   ],
   "note": "Proved for runs in which on no shard a refresh overlaps a removal, for each shard that received a new version; presence for documents that were never removed, once the rankers are done. Not so for a shard that received none: it may go on serving an old version (C30_refuted_two_shards), and a document indexed again after a removal may be lost by the ranker (C33_refuted_readded_document_lost)."
  },
  {
   "property": "C131",
   "status": "partial",
   "theorems": [
    "Riot.C131_removed_partial"
   ],
   "note": "Proved for runs in which on no shard a refresh overlaps a removal (every gently used engine). If they overlap the shard may block for ever, so that no Flush returns (C35_refuted); what a later Flush then guarantees is not proved."
  }
 ]
}