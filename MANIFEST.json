{
 "claims": [
  {
   "property": "C01",
   "status": "proved",
   "theorems": [
    "IndraDB.C01_memory",
    "IndraDB.C01_rocks",
    "IndraDB.C01_memory_observed",
    "IndraDB.C01_rocks_observed",
    "IndraDB.C01_memory_any",
    "IndraDB.C01_memory_any_observed"
   ],
   "note": "both datastores"
  },
  {
   "property": "C02",
   "status": "proved",
   "theorems": [
    "IndraDB.C02_memory",
    "IndraDB.C02_rocks",
    "IndraDB.C02_memory_observed",
    "IndraDB.C02_rocks_observed",
    "IndraDB.C02_memory_any",
    "IndraDB.C02_memory_any_observed"
   ],
   "note": "both datastores"
  },
  {
   "property": "C03",
   "status": "partial",
   "theorems": [
    "IndraDB.C03_memory_partial",
    "IndraDB.C03_memory_refuted",
    "IndraDB.C03_memory_release_refuted",
    "IndraDB.C03_memory_any_partial"
   ],
   "note": "The full statement is false of the code. Refutation: EdgeWithPropertyPresence returns edges that were never created (or, in release builds, were deleted) if properties were bulk-inserted for them. What is proved instead: in every state and build, every edge returned by any query that does not draw on EdgeWithPropertyPresence has both endpoints; in debug builds with properties written only to existing owners, every query."
  },
  {
   "property": "C04",
   "status": "proved",
   "theorems": [
    "IndraDB.C04_memory",
    "IndraDB.C04_rocks",
    "IndraDB.C04_rocks_concurrent",
    "IndraDB.C04_rocks_concurrent_more",
    "IndraDB.C04_memory_any"
   ],
   "note": "both datastores; RocksDB also for all interleavings of concurrent calls"
  },
  {
   "property": "C05",
   "status": "proved",
   "theorems": [
    "IndraDB.C05_memory",
    "IndraDB.C05_memory_observed",
    "IndraDB.C05_memory_any",
    "IndraDB.C05_memory_any_observed"
   ],
   "note": ""
  },
  {
   "property": "C06",
   "status": "partial",
   "theorems": [
    "IndraDB.C06_rocks_partial",
    "IndraDB.C06_rocks_refuted",
    "IndraDB.C06_rocks_observed_partial",
    "IndraDB.C06_rocks_observed_refuted"
   ],
   "note": "The full statement is false of the code. Refutation: deleting a vertex leaves its inbound edges: the loop over them deletes the reversed edge. What is proved instead: the exact graph after the call: the intended cascade except for those edges and their properties, from every reachable state, for every query."
  },
  {
   "property": "C07",
   "status": "partial",
   "theorems": [
    "IndraDB.C07_memory",
    "IndraDB.C07_rocks_partial",
    "IndraDB.C07_rocks_refuted",
    "IndraDB.C07_memory_observed",
    "IndraDB.C07_rocks_observed_partial",
    "IndraDB.C07_memory_any",
    "IndraDB.C07_memory_any_observed",
    "IndraDB.C90_rocks_set",
    "IndraDB.C91_rocks_partial",
    "IndraDB.C91_rocks_refuted"
   ],
   "note": "Memory: in full. RocksDB: The full statement is false of the code. Refutation: values that serde_json writes but cannot read (nested more than 127 levels) are accepted, and every later read fails. What is proved instead: on RocksDB the exact effect for every value that can be read back; C78 covers histories with the others."
  },
  {
   "property": "C08",
   "status": "proved",
   "theorems": [
    "IndraDB.C08_memory",
    "IndraDB.C08_rocks",
    "IndraDB.C08_memory_observed",
    "IndraDB.C08_rocks_observed",
    "IndraDB.C08_memory_any",
    "IndraDB.C08_memory_any_observed"
   ],
   "note": "both datastores"
  },
  {
   "property": "C09",
   "status": "partial",
   "theorems": [
    "IndraDB.C09_memory",
    "IndraDB.C09_rocks_partial",
    "IndraDB.C09_rocks_refuted",
    "IndraDB.C09_memory_observed",
    "IndraDB.C09_rocks_observed_partial",
    "IndraDB.C09_memory_any",
    "IndraDB.C09_memory_any_observed"
   ],
   "note": "Memory: in full. RocksDB: The full statement is false of the code. Refutation: edges whose outbound vertex does not exist (after bulk insertion, or after C06) are silently not deleted. What is proved instead: exactly those of the edges whose outbound vertex exists are deleted with their properties, and nothing else."
  },
  {
   "property": "C10",
   "status": "partial",
   "theorems": [
    "IndraDB.C10_memory_partial",
    "IndraDB.C10_memory_fixed_partial",
    "IndraDB.C10_memory_refuted",
    "IndraDB.C10_memory_fixed_observed_partial"
   ],
   "note": "The full statement is false of the code. Refutation: the index is a HashMap keyed by Json, which breaks the Hash contract; 3 and 3.0 in one index may be confused or missed. What is proved instead: exactness whatever hash map lookups find for histories whose values are coherent, and for all values for lookups that do not change over time (up to how the map compares values)."
  },
  {
   "property": "C11",
   "status": "partial",
   "theorems": [
    "IndraDB.C11_memory_release_partial",
    "IndraDB.C11_memory_release_refuted",
    "IndraDB.C11_memory_any_partial",
    "IndraDB.C11_memory_release_exact_partial",
    "IndraDB.C11_memory_release_remembers_partial"
   ],
   "note": "The full statement is false of the code. Refutation: removal from the index is inside debug_assert!, so in release builds entries are never removed and stale owners are returned. What is proved instead: the complete half: no owner is missed; and, for release builds, exactly what is listed: the owners that had the property (value) at some moment since its name was indexed (in checked histories; in all histories nothing else is listed)."
  },
  {
   "property": "C12",
   "status": "proved",
   "theorems": [
    "IndraDB.C12_rocks",
    "IndraDB.C12_rocks_observed",
    "IndraDB.C91_rocks_same_hash",
    "IndraDB.C91_rocks_index_refuted"
   ],
   "note": ""
  },
  {
   "property": "C13",
   "status": "partial",
   "theorems": [
    "IndraDB.C13_rocks_partial",
    "IndraDB.C13_rocks_refuted"
   ],
   "note": "The full statement is false of the code. Refutation: the index stores only a hash, and the hash input has no lengths, so [[],null] and [[null]] collide for every hasher. What is proved instead: value queries return only owners with an equal value if the asked value collides with no different value stored under that name."
  },
  {
   "property": "C14",
   "status": "proved",
   "theorems": [
    "IndraDB.C14_memory",
    "IndraDB.C14_rocks",
    "IndraDB.C14_memory_any"
   ],
   "note": "both datastores"
  },
  {
   "property": "C15",
   "status": "partial",
   "theorems": [
    "IndraDB.C15_memory",
    "IndraDB.C15_rocks_partial",
    "IndraDB.C15_rocks_refuted",
    "IndraDB.C15_memory_observed",
    "IndraDB.C15_rocks_observed",
    "IndraDB.C15_memory_any_observed"
   ],
   "note": "Memory: in full for hash map lookups that do not change over time (see C10). RocksDB: The full statement is false of the code. Refutation: a property bulk-inserted for a vertex that does not exist yet is not found by the index after the vertex was created, even if the name is indexed again. What is proved instead: data unchanged, exactly the name is added, idempotent; the index covers all owners along histories that do not bulk-insert properties of missing owners (nor the same property twice)."
  },
  {
   "property": "C16",
   "status": "proved",
   "theorems": [
    "IndraDB.C16_memory",
    "IndraDB.C16_rocks",
    "IndraDB.C16_memory_observed",
    "IndraDB.C16_rocks_observed",
    "IndraDB.C16_memory_any"
   ],
   "note": "both datastores"
  },
  {
   "property": "C17",
   "status": "proved",
   "theorems": [
    "IndraDB.C17_memory",
    "IndraDB.C17_rocks",
    "IndraDB.C17_memory_observed",
    "IndraDB.C17_rocks_observed",
    "IndraDB.C17_memory_any"
   ],
   "note": "both datastores"
  },
  {
   "property": "C18",
   "status": "proved",
   "theorems": [
    "IndraDB.C18_memory",
    "IndraDB.C18_rocks",
    "IndraDB.C18_memory_observed",
    "IndraDB.C18_rocks_observed",
    "IndraDB.C18_memory_any"
   ],
   "note": "both datastores"
  },
  {
   "property": "C19",
   "status": "proved",
   "theorems": [
    "IndraDB.C19_memory",
    "IndraDB.C19_rocks",
    "IndraDB.C19_memory_any"
   ],
   "note": "both datastores"
  },
  {
   "property": "C20",
   "status": "proved",
   "theorems": [
    "IndraDB.C20_memory",
    "IndraDB.C20_rocks",
    "IndraDB.C20_memory_any"
   ],
   "note": "both datastores"
  },
  {
   "property": "C21",
   "status": "proved",
   "theorems": [
    "IndraDB.C21_memory",
    "IndraDB.C21_rocks",
    "IndraDB.C21_memory_any",
    "IndraDB.C21_rocks_concurrent"
   ],
   "note": "both datastores"
  },
  {
   "property": "C22",
   "status": "proved",
   "theorems": [
    "IndraDB.C22_memory",
    "IndraDB.C22_rocks",
    "IndraDB.C22_memory_any"
   ],
   "note": "both datastores"
  },
  {
   "property": "C23",
   "status": "proved",
   "theorems": [
    "IndraDB.C23_memory",
    "IndraDB.C23_rocks",
    "IndraDB.C23_memory_any"
   ],
   "note": "both datastores"
  },
  {
   "property": "C24",
   "status": "partial",
   "theorems": [
    "IndraDB.C24_memory",
    "IndraDB.C24_rocks_partial",
    "IndraDB.C24_rocks_refuted",
    "IndraDB.C24_memory_any"
   ],
   "note": "Memory: in full. RocksDB: The full statement is false of the code. Refutation: index_property that meets a value it cannot read returns an error, but the name counts as indexed from then on. What is proved instead: in states where all stored values can be read a failing call changes nothing; in every state it changes no stored data, and nothing at all unless it is index_property."
  },
  {
   "property": "C25",
   "status": "proved",
   "theorems": [
    "IndraDB.C25_memory",
    "IndraDB.C25_rocks",
    "IndraDB.C25_memory_any",
    "IndraDB.C25_rocks_concurrent"
   ],
   "note": "both datastores"
  },
  {
   "property": "C26",
   "status": "proved",
   "theorems": [
    "IndraDB.C26_memory",
    "IndraDB.C26_memory_any"
   ],
   "note": ""
  },
  {
   "property": "C27",
   "status": "partial",
   "theorems": [
    "IndraDB.C27_rocks_partial",
    "IndraDB.C27_rocks_refuted"
   ],
   "note": "The full statement is false of the code. Refutation: bulk insertion overwrites the type of an existing vertex and writes edges and properties without looking for endpoints or owners. What is proved instead: the exact effect of bulk insertion in every reachable state, and equality with the individual calls if each item is one that the individual call would carry out."
  },
  {
   "property": "C28",
   "status": "partial",
   "theorems": [
    "IndraDB.C28_partial",
    "IndraDB.C28_refuted",
    "IndraDB.C28_order_refuted"
   ],
   "note": "The full statement is false of the code. Refutation: many differences (C06, C09, C11, C13, C27, C35), and the order of edge types of different lengths. What is proved instead: for every history of the common fragment (stated as hypotheses), in both builds, every reply is the same up to the order of the elements in a listing."
  },
  {
   "property": "C29",
   "status": "proved",
   "theorems": [
    "IndraDB.C29_rocks_process",
    "IndraDB.C29_rocks_power",
    "IndraDB.C29_rocks_data",
    "IndraDB.C29_rocks_log"
   ],
   "note": "All crash points of all executions in which overlapping calls are independent (`Independent`: neither changes what the other looks at, or one is a query that reads once; other queries need not be counted and may overlap anything). C29_rocks_log holds for all interleavings. Hypothesis: fewer than 2^64 indexed names."
  },
  {
   "property": "C30",
   "status": "partial",
   "theorems": [
    "IndraDB.C30_rocks_partial",
    "IndraDB.C30_rocks_data",
    "IndraDB.C30_rocks_refuted",
    "IndraDB.C30_rocks_concurrent_partial"
   ],
   "note": "In full for histories whose values can be read back; refuted otherwise (failed index_property leaves a name in memory only)."
  },
  {
   "property": "C31",
   "status": "partial",
   "theorems": [
    "IndraDB.C31_rocks_create",
    "IndraDB.C31_rocks_partial",
    "IndraDB.C31_rocks_points",
    "IndraDB.C31_rocks_refuted"
   ],
   "note": "The full statement is false of the code. Refutation: a process that dies after creating some but not all column families leaves a directory that cannot be opened. What is proved instead: exactly at which interruption points opening succeeds, and that the data is then kept. Rests on the modelled contract of RocksDB's open and create_cf."
  },
  {
   "property": "C32",
   "status": "partial",
   "theorems": [
    "IndraDB.C32_memory_roundtrip",
    "IndraDB.C32_memory_crash",
    "IndraDB.C32_memory_error",
    "IndraDB.C32_memory_no_path",
    "IndraDB.C32_memory_open",
    "IndraDB.C32_memory_life",
    "IndraDB.C32_memory_refuted",
    "IndraDB.C32_memory_graph_partial",
    "IndraDB.C32_memory_any_partial",
    "IndraDB.C32_memory_refuted_lookup"
   ],
   "note": "Round trip, crash at every point and reported I/O errors: in full (rmp-serde is a parameter with the contract decode(encode x) = x). Refuted for an I/O error in the final buffered write: BufWriter's drop swallows it and sync returns Ok over a truncated image."
  },
  {
   "property": "C33",
   "status": "proved",
   "theorems": [
    "IndraDB.C33_memory",
    "IndraDB.C33_memory_steps",
    "IndraDB.C33_memory_exclusive",
    "IndraDB.C33_memory_progress",
    "IndraDB.C33_memory_any",
    "IndraDB.C33_memory_any_steps"
   ],
   "note": "All interleavings of any number of calls under the datastore's mutex, for every division of the calls into small steps; linearization with real-time order; mutual exclusion; no deadlock."
  },
  {
   "property": "C34",
   "status": "partial",
   "theorems": [
    "IndraDB.C34_rocks_partial",
    "IndraDB.C34_rocks_sequential",
    "IndraDB.C34_rocks_independent",
    "IndraDB.C34_rocks_refuted"
   ],
   "note": "The full statement is false of the code. Refutation: calls read and write RocksDB without a lock: two overlapping calls that create the same vertex both return true. What is proved instead: linearizability whenever overlapping calls are independent: neither changes what the other looks at, or one is a query that reads once, or both are queries; C70 says what overlapping queries report in general."
  },
  {
   "property": "C35",
   "status": "partial",
   "theorems": [
    "IndraDB.C35_memory_partial",
    "IndraDB.C35_memory_refuted_max",
    "IndraDB.C35_memory_refuted_debug",
    "IndraDB.C35_memory_any_partial",
    "IndraDB.C35_memory_release_any_partial",
    "IndraDB.C35_memory_refuted_lookup",
    "IndraDB.C89_memory_release"
   ],
   "note": "The full statement is false of the code. Refutation: reading the properties of the vertex with the greatest UUID panics and poisons the lock for good; in debug builds so does overwriting an indexed property that was set before its owner existed, or deleting one that a hash map lookup misses. What is proved instead: no call ever panics if properties are only written to existing owners and nobody creates the vertex with the greatest id (also whatever hash map lookups find, with coherent values)."
  },
  {
   "property": "C36",
   "status": "proved",
   "theorems": [
    "IndraDB.C36_keys_injective",
    "IndraDB.C36_prefix_scans",
    "IndraDB.C36_decode"
   ],
   "note": ""
  },
  {
   "property": "C37",
   "status": "proved",
   "theorems": [
    "IndraDB.C37_next_uuid"
   ],
   "note": ""
  },
  {
   "property": "C38",
   "status": "proved",
   "theorems": [
    "IndraDB.C38_memory",
    "IndraDB.C38_rocks",
    "IndraDB.C38_memory_any"
   ],
   "note": "both datastores"
  },
  {
   "property": "C39",
   "status": "proved",
   "theorems": [
    "IndraDB.C39_accepts",
    "IndraDB.C39_errors",
    "IndraDB.C39_readback"
   ],
   "note": ""
  },
  {
   "property": "C40",
   "status": "partial",
   "theorems": [
    "IndraDB.C40_refl_symm",
    "IndraDB.C40_transitive_partial",
    "IndraDB.C40_hash_partial",
    "IndraDB.C40_lookup",
    "IndraDB.C40_refuted"
   ],
   "note": "The full statement is false of the code. Refutation: 3 == 3.0 but they hash differently; == is not transitive above 2^53. What is proved instead: reflexive and symmetric for all values; transitive on integers and on floats with integers up to 2^53; equal hashes on integers and on floats other than -0.0; and what a hash map lookup may find."
  },
  {
   "property": "C41",
   "status": "partial",
   "theorems": [
    "IndraDB.C41_partial",
    "IndraDB.C41_refuted"
   ],
   "note": "The full statement is false of the code. Refutation: -1 and u64::MAX, and [[],null] and [[null]], feed the same input. What is proved instead: injective on scalars, flat arrays and objects, and values of the same nesting at any depth, with numbers of one representation."
  },
  {
   "property": "C42",
   "status": "proved",
   "theorems": [
    "IndraDB.C42_query",
    "IndraDB.C42_output",
    "IndraDB.C42_item",
    "IndraDB.C42_set",
    "IndraDB.C42_values",
    "IndraDB.C42_query_injective",
    "IndraDB.C42_new_valid",
    "IndraDB.C90_message_faithful",
    "IndraDB.C94_messages",
    "IndraDB.C94_query"
   ],
   "note": "For all messages; identifiers made with Identifier::new and values that serde_json prints and parses back unchanged (some floats and deeply nested values do not)."
  },
  {
   "property": "C43",
   "status": "proved",
   "theorems": [
    "IndraDB.C43_query",
    "IndraDB.C43_missing",
    "IndraDB.C43_inside",
    "IndraDB.C43_leaves",
    "IndraDB.C43_others",
    "IndraDB.C43_valid",
    "IndraDB.C92_server",
    "IndraDB.C92_refused"
   ],
   "note": ""
  },
  {
   "property": "C44",
   "status": "proved",
   "theorems": [
    "IndraDB.C44_stream",
    "IndraDB.C44_bad_item"
   ],
   "note": "For every datastore."
  },
  {
   "property": "C45",
   "status": "partial",
   "theorems": [
    "IndraDB.C45_memory_partial",
    "IndraDB.C45_rocks_partial",
    "IndraDB.C45_memory_panic_refuted",
    "IndraDB.C45_memory_deep_refuted",
    "IndraDB.C45_rocks_deep_refuted",
    "IndraDB.C45_memory_large_refuted",
    "IndraDB.C45_rocks_large_refuted",
    "IndraDB.C94_memory",
    "IndraDB.C94_rocks"
   ],
   "note": "The full statement is false of the code: 50 nested traversals exceed the protobuf recursion limit, results over 4 MiB cannot be received, and a panic during get is reported as an empty result. The _partial theorems say exactly what happens for every history."
  },
  {
   "property": "C46",
   "status": "partial",
   "theorems": [
    "IndraDB.C46_map_partial",
    "IndraDB.C46_refuted",
    "IndraDB.C46_workers",
    "IndraDB.C46_terminates",
    "IndraDB.C46_naive_count",
    "IndraDB.C46_naive_count_query"
   ],
   "note": "The full statement is false of the code: a mapper call that panics is swallowed by the thread pool and map returns Ok. For mappers that do not panic the _partial theorem is the full statement, for all schedules."
  },
  {
   "property": "C47",
   "status": "proved",
   "theorems": [
    "IndraDB.C47_load",
    "IndraDB.C47_error",
    "IndraDB.C47_execute",
    "IndraDB.C47_client"
   ],
   "note": ""
  },
  {
   "property": "C48",
   "status": "partial",
   "theorems": [
    "IndraDB.C48_ids",
    "IndraDB.C48_count",
    "IndraDB.C48_monotone_partial",
    "IndraDB.C48_refuted",
    "IndraDB.C48_taken"
   ],
   "note": "Exact characterization of collisions; distinct for a clock that never steps back; refuted for a clock that does."
  },
  {
   "property": "C49",
   "status": "proved",
   "theorems": [
    "IndraDB.C49_extract",
    "IndraDB.C49_direction"
   ],
   "note": ""
  },
  {
   "property": "C50",
   "status": "proved",
   "theorems": [
    "IndraDB.C50_memory",
    "IndraDB.C50_rocks",
    "IndraDB.C50_memory_any"
   ],
   "note": "both datastores"
  },
  {
   "property": "C51",
   "status": "partial",
   "theorems": [
    "IndraDB.C51_rocks_partial",
    "IndraDB.C51_rocks_refuted"
   ],
   "note": "The full statement is false of the code. Refutation: two overlapping set_properties calls on an indexed property leave an entry for a value the owner does not have. What is proved instead: exact when overlapping calls are independent; C63 and C69 prove without that hypothesis that no owner is ever missed."
  },
  {
   "property": "C52",
   "status": "proved",
   "theorems": [
    "IndraDB.C52_memory",
    "IndraDB.C52_rocks",
    "IndraDB.C52_memory_any"
   ],
   "note": "both datastores"
  },
  {
   "property": "C53",
   "status": "partial",
   "theorems": [
    "IndraDB.C53_partial",
    "IndraDB.C53_refuted"
   ],
   "note": "False of the code: the macro ignores its version argument."
  },
  {
   "property": "C54",
   "status": "proved",
   "theorems": [
    "IndraDB.C54_memory",
    "IndraDB.C54_rocks",
    "IndraDB.C54_poisoned",
    "IndraDB.C95_memory",
    "IndraDB.C95_rocks",
    "IndraDB.C96_memory",
    "IndraDB.C96_rocks"
   ],
   "note": "C54_poisoned: what the excluded case looks like."
  },
  {
   "property": "C55",
   "status": "proved",
   "theorems": [
    "IndraDB.C55_constructors",
    "IndraDB.C55_built_iff",
    "IndraDB.C55_memory",
    "IndraDB.C55_rocks",
    "IndraDB.C55_memory_any"
   ],
   "note": ""
  },
  {
   "property": "C56",
   "status": "partial",
   "theorems": [
    "IndraDB.C56_dual",
    "IndraDB.C56_kinds",
    "IndraDB.C56_integers",
    "IndraDB.C56_sequences",
    "IndraDB.C56_numbers",
    "IndraDB.C56_order_partial",
    "IndraDB.C56_refuted"
   ],
   "note": "The full statement is false of the code. Refutation: transitivity fails for integers above 2^53 mixed with floats. What is proved instead: everything but transitivity for all values; transitivity for values whose numbers are all integers, or all floats and integers up to 2^53, and for < on single numbers of any kind."
  },
  {
   "property": "C57",
   "status": "proved",
   "theorems": [
    "IndraDB.C57_memory",
    "IndraDB.C57_damaged",
    "IndraDB.C57_volatile",
    "IndraDB.C57_rocks",
    "IndraDB.C57_rocks_starts"
   ],
   "note": "The provisos in the statement are hypotheses of the theorems."
  },
  {
   "property": "C58",
   "status": "proved",
   "theorems": [
    "IndraDB.C58_memory",
    "IndraDB.C58_memory_returns",
    "IndraDB.C58_rocks",
    "IndraDB.C58_rocks_returns",
    "IndraDB.C58_rocks_faulty",
    "IndraDB.C58_memory_any"
   ],
   "note": ""
  },
  {
   "property": "C59",
   "status": "partial",
   "theorems": [
    "IndraDB.C59_rocks_partial",
    "IndraDB.C59_rocks_index_partial",
    "IndraDB.C59_rocks_history_partial",
    "IndraDB.C59_rocks_count_refuted",
    "IndraDB.C59_rocks_index_refuted"
   ],
   "note": "The full statement is false of the code. Refutation: an I/O error while counting all vertices or edges is counted as one item; one during index_property leaves the name marked as indexed in memory. What is proved instead: every other call, in any state and whatever errors occur, does and returns exactly what it would have, or returns an error and changes nothing; index_property writes nothing if it fails, so that reopening gives the state before the call."
  },
  {
   "property": "C60",
   "status": "proved",
   "theorems": [
    "IndraDB.C60_rocks",
    "IndraDB.C60_rocks_sequential"
   ],
   "note": ""
  },
  {
   "property": "C61",
   "status": "partial",
   "theorems": [
    "IndraDB.C61_partial",
    "IndraDB.C61_complete",
    "IndraDB.C61_refuted",
    "IndraDB.C61_rocks_vertex",
    "IndraDB.C61_rocks_short_partial",
    "IndraDB.C61_rocks_vertex_refuted",
    "IndraDB.C61_rocks_utf8_refuted",
    "IndraDB.C61_rocks_edge_refuted"
   ],
   "note": "The full statement is false of the code. Refutation: Deserialize does not validate: identifiers of any length and content; with 256 or more bytes RocksDB reads back something else. What is proved instead: valid for every other way of obtaining one; RocksDB reads back exactly the identifiers of at most 255 bytes."
  },
  {
   "property": "C62",
   "status": "proved",
   "theorems": [
    "IndraDB.C62_memory",
    "IndraDB.C62_rocks"
   ],
   "note": ""
  },
  {
   "property": "C63",
   "status": "proved",
   "theorems": [
    "IndraDB.C63_rocks",
    "IndraDB.C63_rocks_value"
   ],
   "note": ""
  },
  {
   "property": "C64",
   "status": "proved",
   "theorems": [
    "IndraDB.C64_rocks",
    "IndraDB.C64_rocks_stays",
    "IndraDB.C64_rocks_never"
   ],
   "note": ""
  },
  {
   "property": "C65",
   "status": "proved",
   "theorems": [
    "IndraDB.C65_rocks",
    "IndraDB.C65_rocks_faulty",
    "IndraDB.C65_rocks_succeeds"
   ],
   "note": ""
  },
  {
   "property": "C66",
   "status": "proved",
   "theorems": [
    "IndraDB.C66_memory",
    "IndraDB.C66_rocks"
   ],
   "note": ""
  },
  {
   "property": "C67",
   "status": "partial",
   "theorems": [
    "IndraDB.C67_memory_error_refuted",
    "IndraDB.C67_rocks_error_refuted",
    "IndraDB.C67_memory_panic_refuted",
    "IndraDB.C67_rocks_isolated_refuted",
    "IndraDB.C67_rocks_crash_refuted",
    "IndraDB.C67_memory_read_only_partial",
    "IndraDB.C67_rocks_read_only_partial",
    "IndraDB.C67_memory_usable_partial",
    "IndraDB.C67_rocks_sane_partial",
    "IndraDB.C68_memory"
   ],
   "note": "The full statement is false of the code. Refutation: writes before an error, a panic or a crash stay; a panic poisons the memory datastore; on RocksDB overlapping plugins interleave. What is proved instead: a plugin that only reads changes nothing; one that returns leaves the memory datastore usable; on RocksDB, however plugins overlap and end, every later call works as it should on the graph there is. Isolation on the memory datastore is C68."
  },
  {
   "property": "C68",
   "status": "proved",
   "theorems": [
    "IndraDB.C68_memory",
    "IndraDB.C68_memory_any_steps",
    "IndraDB.C68_memory_exclusive",
    "IndraDB.C68_memory_requests"
   ],
   "note": ""
  },
  {
   "property": "C69",
   "status": "proved",
   "theorems": [
    "IndraDB.C69_rocks",
    "IndraDB.C69_rocks_value"
   ],
   "note": ""
  },
  {
   "property": "C70",
   "status": "proved",
   "theorems": [
    "IndraDB.C70_rocks",
    "IndraDB.C70_rocks_vertices",
    "IndraDB.C70_rocks_edges",
    "IndraDB.C70_rocks_properties",
    "IndraDB.C70_rocks_watch"
   ],
   "note": ""
  },
  {
   "property": "C71",
   "status": "proved",
   "theorems": [
    "IndraDB.C71_memory",
    "IndraDB.C71_memory_right"
   ],
   "note": ""
  },
  {
   "property": "C72",
   "status": "proved",
   "theorems": [
    "IndraDB.C72_rocks_errors",
    "IndraDB.C72_rocks_methods",
    "IndraDB.C72_rocks_calm",
    "IndraDB.C72_rocks_sane",
    "IndraDB.C72_rocks_index",
    "IndraDB.C72_rocks_index_value",
    "IndraDB.C72_rocks_progress",
    "IndraDB.C72_rocks_killed",
    "IndraDB.C72_rocks_alone"
   ],
   "note": ""
  },
  {
   "property": "C73",
   "status": "proved",
   "theorems": [
    "IndraDB.C73_rocks",
    "IndraDB.C73_rocks_watch",
    "IndraDB.C73_rocks_all"
   ],
   "note": "For every call that succeeds and meets no I/O error itself (others may). The moments of the call are the states of the database between the accesses of all tasks. Lazy iterators are drained within the call."
  },
  {
   "property": "C74",
   "status": "proved",
   "theorems": [
    "IndraDB.C74_rocks",
    "IndraDB.C74_rocks_stays",
    "IndraDB.C74_rocks_never",
    "IndraDB.C74_rocks_reasons"
   ],
   "note": ""
  },
  {
   "property": "C75",
   "status": "proved",
   "theorems": [
    "IndraDB.C75_rocks",
    "IndraDB.C75_rocks_value"
   ],
   "note": ""
  },
  {
   "property": "C76",
   "status": "proved",
   "theorems": [
    "IndraDB.C76_rocks_process",
    "IndraDB.C76_rocks_refused",
    "IndraDB.C76_rocks_errors",
    "IndraDB.C76_rocks_names",
    "IndraDB.C76_rocks_reasons",
    "IndraDB.C76_rocks_reports",
    "IndraDB.C76_rocks_plugin",
    "IndraDB.C76_rocks_sane",
    "IndraDB.C76_rocks_killed",
    "IndraDB.C76_rocks_index",
    "IndraDB.C76_rocks_alone",
    "IndraDB.C76_rocks_never"
   ],
   "note": ""
  },
  {
   "property": "C77",
   "status": "proved",
   "theorems": [
    "IndraDB.C77_rocks",
    "IndraDB.C77_rocks_rest"
   ],
   "note": "Plugins are well-founded: a plugin whose code runs for ever, or makes calls for ever, is not in the model."
  },
  {
   "property": "C78",
   "status": "proved",
   "theorems": [
    "IndraDB.C78_rocks",
    "IndraDB.C78_rocks_names",
    "IndraDB.C78_rocks_index",
    "IndraDB.C78_rocks_app",
    "IndraDB.C78_rocks_server",
    "IndraDB.C78_rocks_index_app",
    "IndraDB.C78_reader"
   ],
   "note": "Stated for every reader that extends the datastore's own; index exactness for histories in which no index_property is refused (a refused one leaves an indexed name without entries, as the statement says)."
  },
  {
   "property": "C79",
   "status": "proved",
   "theorems": [
    "IndraDB.C79_rocks",
    "IndraDB.C79_rocks_query",
    "IndraDB.C79_rocks_properties",
    "IndraDB.C79_rocks_server",
    "IndraDB.C79_rocks_plugin",
    "IndraDB.C79_rocks_count_false"
   ],
   "note": "No hypotheses on values or I/O errors; `d` is any reader that reads what the datastore can read as the datastore does. Iterators of transactions may be cut short by an I/O error as last item (UpToError). The exception (calls that count all vertices or edges) is part of the statement, and C79_rocks_count_false proves that it is needed."
  },
  {
   "property": "C80",
   "status": "proved",
   "theorems": [
    "IndraDB.C80_bulk_once",
    "IndraDB.C80_bulk_items",
    "IndraDB.C80_bulk_ok",
    "IndraDB.C80_bulk_error",
    "IndraDB.C80_bulk_step",
    "IndraDB.C80_bulk_returns",
    "IndraDB.C80_bulk_aborted_refuted"
   ],
   "note": "Transition system of the sending task, the bounded channel, the transport, the server's handler, the library call, the caller and the network (Model/BulkStream.lean). C80_bulk_step connects it with Store.clientCall, the one-step account used by C44, C45, C68 and C76. C80_bulk_aborted_refuted shows that the proviso about the runtime is needed: if it drops the sending task, a strict prefix is inserted and the caller may get Ok."
  },
  {
   "property": "C81",
   "status": "partial",
   "theorems": [
    "IndraDB.C81_memory_shared",
    "IndraDB.C81_memory_never_refused",
    "IndraDB.C81_memory_unreadable",
    "IndraDB.C81_memory_sole_writer_partial",
    "IndraDB.C81_memory_lost_refuted"
   ],
   "note": "In full except for the last sentence, which is false of the code: two servers, both syncs return Ok, and the vertex saved by the first is gone (C81_memory_lost_refuted). C81_memory_sole_writer_partial: it holds if only one of the servers uses sync."
  },
  {
   "property": "C82",
   "status": "proved",
   "theorems": [
    "IndraDB.C82_get_ok",
    "IndraDB.C82_get_items",
    "IndraDB.C82_get_error",
    "IndraDB.C82_get_step",
    "IndraDB.C82_get_returns",
    "IndraDB.C82_get_task",
    "IndraDB.C82_get_panic_refuted"
   ],
   "note": "Transition system of the blocking task, the bounded channel, the transport, the caller and the network (Model/GetStream.lean). C82_get_step connects it with Store.clientCall, the one-step account used by C45, C68 and C76. C82_get_panic_refuted shows the excepted case to be real: a panic of the library call reaches the caller as Ok with no outputs."
  },
  {
   "property": "C83",
   "status": "partial",
   "theorems": [
    "IndraDB.C83_start_memory",
    "IndraDB.C83_start_rocks",
    "IndraDB.C83_start_repair",
    "IndraDB.C83_start_harmless",
    "IndraDB.C83_start_again",
    "IndraDB.C83_start_locked",
    "IndraDB.C83_start_error",
    "IndraDB.C83_start_life",
    "IndraDB.C83_start_saved_partial",
    "IndraDB.C83_start_saved_refuted",
    "IndraDB.C83_start_overwrites_refuted"
   ],
   "note": "In full except for the last sentence, which is false of the code: Path::exists() also says no if the file cannot be looked at, and the server then starts empty (C83_start_saved_refuted) and overwrites the saved image at the next sync (C83_start_overwrites_refuted). C83_start_saved_partial: it holds if the file can be looked at. clap's parsing and RocksDB's repair are parameters."
  },
  {
   "property": "C84",
   "status": "partial",
   "theorems": [
    "IndraDB.C84_memory_partial",
    "IndraDB.C84_memory_any_partial",
    "IndraDB.Rocks.C84_rocks_partial",
    "IndraDB.C84_memory_refuted",
    "IndraDB.C84_memory_release_refuted",
    "IndraDB.Rocks.C84_rocks_refuted"
   ],
   "note": "Full statement false for edges listed by a property (C84_memory_refuted, C84_memory_release_refuted, Rocks.C84_rocks_refuted). Proved: vertices and their properties for all queries; edges and their properties for all queries without such a part; and everything for all queries after histories that write properties only to existing owners (debug builds of memory; RocksDB)."
  },
  {
   "property": "C85",
   "status": "partial",
   "theorems": [
    "IndraDB.C85_vertex",
    "IndraDB.C85_reflSymm",
    "IndraDB.C85_memory_one_state",
    "IndraDB.C85_rocks_one_state",
    "IndraDB.C85_transitive_partial",
    "IndraDB.C85_exact_partial",
    "IndraDB.C85_transitive_refuted",
    "IndraDB.C85_replies_refuted",
    "IndraDB.C85_queries_refuted",
    "IndraDB.C85_items_refuted"
   ],
   "note": "The laws and the statement on one state in full (edges listed by a property excepted, see C84). The last sentence is false of the code (C85_transitive_refuted, C85_replies_refuted, C85_queries_refuted, C85_items_refuted). C85_transitive_partial: transitive if all numbers are integers, or floats and integers up to 2^53. C85_exact_partial: with integers only, or floats other than -0.0 only, == queries are identical, == replies and items identical but for the types of vertices."
  },
  {
   "property": "C86",
   "status": "proved",
   "theorems": [
    "IndraDB.C86_rocks_presence",
    "IndraDB.C86_rocks_value",
    "IndraDB.C86_rocks_exception"
   ],
   "note": "C86_rocks_exception: the exception does occur. With C63, C69 (no owner is missing) this bounds what index queries list from both sides, also where C51 fails."
  },
  {
   "property": "C87",
   "status": "partial",
   "theorems": [
    "IndraDB.C87_memory_partial",
    "IndraDB.C87_memory_readable_partial",
    "IndraDB.C87_memory_refuted"
   ],
   "note": "The full statement is false of the code. Refutation: a value nested as deep as the limit of the decoder (1024 levels in rmp_serde) is written by sync, which returns Ok, and the file is refused afterwards. What is proved instead: the whole claim for values of at most 1016 levels and images below 4 GiB, whatever fails and wherever the process dies."
  },
  {
   "property": "C88",
   "status": "proved",
   "theorems": [
    "IndraDB.C88_memory"
   ],
   "note": "Strengthens C57: the bytes of the image are modelled (C87), so that nothing is assumed about the codec, and the final flush may fail. A server holds a fixed equivalence of JSON keys in its hash maps (HashEq), as in C57; C87 is proved for arbitrary lookups."
  },
  {
   "property": "C89",
   "status": "proved",
   "theorems": [
    "IndraDB.C89_memory",
    "IndraDB.C89_memory_calls",
    "IndraDB.C89_memory_release",
    "IndraDB.Rocks.C89_rocks"
   ],
   "note": "An equivalence (exactly when, and with which error), and uniqueness of the failing part. In debug builds of the memory datastore the panics of C35 in writes are left open here. C35_memory_release_any_partial is sharpened by C89_memory_release."
  },
  {
   "property": "C90",
   "status": "proved",
   "theorems": [
    "IndraDB.C90_disk",
    "IndraDB.C90_message",
    "IndraDB.C90_injective",
    "IndraDB.C90_message_faithful",
    "IndraDB.C90_rocks_readable",
    "IndraDB.C90_rocks_set",
    "IndraDB.C90_rocks_deep",
    "IndraDB.text_utf8"
   ],
   "note": "Byte by byte: the compact writer and the reader of serde_json (whitespace, escapes, surrogates, number syntax, depth counter, duplicates, trailing bytes). The conversion between floats and digits is a parameter. The crate is not in the repository; its behaviour is modelled from its documentation and source as known."
  },
  {
   "property": "C91",
   "status": "partial",
   "theorems": [
    "IndraDB.C91_partial",
    "IndraDB.C91_rocks_partial",
    "IndraDB.C91_message_partial",
    "IndraDB.C91_rocks_same_hash",
    "IndraDB.C91_refuted",
    "IndraDB.C91_rocks_refuted",
    "IndraDB.C91_rocks_index_refuted",
    "IndraDB.roundUnits_near",
    "IndraDB.roundUnits_bits",
    "IndraDB.C93_float",
    "IndraDB.C93_rocks",
    "IndraDB.C93_message"
   ],
   "note": "The full statement is false of the code. Refutation: 9.060756452069219 is stored with these digits and read as 9.06075645206922, the next float, although the digits stand for the first; with an index the vertex is listed for the value that was set and not for the one queries return. What is proved instead: floats whose printed digits are below 2^53 with a power of ten between -22 and 22 (0.1, prices, whole numbers) come back unchanged, alone and inside values, on disk and in messages. The reader's rounding is proved to give the nearest number with 53 bits; the printer (ryu) is a parameter of which only is assumed that the digits stand for the float."
  },
  {
   "property": "C92",
   "status": "proved",
   "theorems": [
    "IndraDB.C92_disk",
    "IndraDB.C92_message",
    "IndraDB.C92_refused",
    "IndraDB.C92_disk_refused",
    "IndraDB.C92_unique",
    "IndraDB.C92_written",
    "IndraDB.C92_server",
    "IndraDB.C92_cli",
    "IndraDB.JsonGrammar.all_iff",
    "IndraDB.JsonGrammar.text_iff"
   ],
   "note": "The grammar is an inductive specification (Spec/JsonGrammar) that does not mention the parser. The parser is a model of the crate serde_json, which is not in the repository; how digits become floats is a parameter (see C91)."
  },
  {
   "property": "C93",
   "status": "proved",
   "theorems": [
    "IndraDB.C93_read",
    "IndraDB.C93_float",
    "IndraDB.C93_message",
    "IndraDB.C93_rocks",
    "IndraDB.Decimal.read_approx",
    "IndraDB.Decimal.read_none"
   ],
   "note": "Rounding is to 53 bits as in f64; the errors of the up to five roundings and of digits that do not fit in 64 bits are added up. How ryu prints floats is a parameter: assumed is that its digits stand for the float (as in C91)."
  },
  {
   "property": "C94",
   "status": "proved",
   "theorems": [
    "IndraDB.C94_query",
    "IndraDB.C94_setProperties",
    "IndraDB.C94_messages",
    "IndraDB.C94_length",
    "IndraDB.C94_unknown",
    "IndraDB.C94_later",
    "IndraDB.C94_memory",
    "IndraDB.C94_rocks",
    "IndraDB.C94_plugin",
    "IndraDB.C94_layout",
    "IndraDB.C94_layout2",
    "IndraDB.C94_foreign",
    "IndraDB.C94_merged",
    "IndraDB.Store.wireCall_eq",
    "IndraDB.wireExecutePlugin_eq"
   ],
   "note": "prost's encoder and decoder are modelled (varints, wire types, unknown fields and groups, merging, oneof, the limit of 100 levels), the HTTP/2 layer is not. C94_layout pins the bytes of each kind of message to the field numbers of the .proto file."
  },
  {
   "property": "C95",
   "status": "proved",
   "theorems": [
    "IndraDB.C95_accepts",
    "IndraDB.C95_one",
    "IndraDB.C95_text",
    "IndraDB.C95_unique",
    "IndraDB.C95_memory",
    "IndraDB.C95_rocks"
   ],
   "note": "Uuid::parse_str and the text of {:?} are modelled after the uuid crate (1.12.0); the rest of what {:?} prints for a vertex or an edge is not."
  },
  {
   "property": "C96",
   "status": "proved",
   "theorems": [
    "IndraDB.C96_memory",
    "IndraDB.C96_rocks",
    "IndraDB.C96_memory_back",
    "IndraDB.C96_rocks_back",
    "IndraDB.C96_memory_back_edge",
    "IndraDB.C96_rocks_back_edge"
   ],
   "note": "Everything is as characters and bytes: arguments (Names, Spells, JSON grammar), messages (C94), values in RocksDB (JSON text). Not modelled: clap, gRPC framing, the text println makes of the results. Sessions of fewer than 2^64 runs need no assumption on counts (C97)."
  },
  {
   "property": "C97",
   "status": "proved",
   "theorems": [
    "IndraDB.C97_memory",
    "IndraDB.C97_rocks",
    "IndraDB.C97_memory_any",
    "IndraDB.C97_rocks_life"
   ],
   "note": "Store.OnlyMade. Store.countsShort uses it: sessions of the command line client of fewer than 2^64 runs need no assumption on counts (C96)."
  },
  {
   "property": "C98",
   "status": "proved",
   "theorems": [
    "IndraDB.C98_memory",
    "IndraDB.C98_rocks",
    "IndraDB.C98_memory_any",
    "IndraDB.C98_rocks_life"
   ],
   "note": "Reads are assumed to return (in the memory datastore a panic in between makes later calls panic, see C35). On RocksDB a bulk_insert item for the same id with another type may change the type (C27); values come back as stored (C78, C90)."
  },
  {
   "property": "C99",
   "status": "proved",
   "theorems": [
    "IndraDB.C99_memory",
    "IndraDB.C99_rocks",
    "IndraDB.C99_memory_any",
    "IndraDB.C99_rocks_life"
   ],
   "note": "Store.VerticesGone, EdgesGone, VertexPropertiesGone, EdgePropertiesGone. What happens to the edges and properties of deleted vertices is C05 and C06."
  }
 ]
}
