for i in "01 02 08 14 16 17 18 19 20 21 22 23 25 38 50".split():
    c("C"+i,"proved",["C"+i+"_memory","C"+i+"_rocks"],"both datastores")
F="The full statement is false of the code: refuted with a concrete history; the _partial theorem says what holds. "
c("C04","proved",["C04_memory","C04_rocks","C04_rocks_concurrent","C04_rocks_concurrent_more"],"both datastores; RocksDB also for all interleavings of concurrent calls")
c("C06","partial",["C06_rocks_partial","C06_rocks_refuted"],F)
c("C07","partial",["C07_memory","C07_rocks_partial","C07_rocks_refuted"],"Memory: in full. RocksDB: "+F)
c("C09","partial",["C09_memory","C09_rocks_partial","C09_rocks_refuted"],"Memory: in full. RocksDB: "+F)
c("C12","proved",["C12_rocks"])
c("C13","partial",["C13_rocks_partial","C13_rocks_refuted"],F)
c("C15","partial",["C15_memory","C15_rocks_partial","C15_rocks_refuted"],"Memory: in full for hash map lookups that do not change over time (see C10). RocksDB: "+F)
c("C24","partial",["C24_memory","C24_rocks_partial","C24_rocks_refuted"],"Memory: in full. RocksDB: "+F)
c("C27","partial",["C27_rocks_partial","C27_rocks_refuted"],F)
c("C36","proved",["C36_keys_injective","C36_prefix_scans","C36_decode"])
c("C03","partial",["C03_memory_partial","C03_memory_refuted","C03_memory_release_refuted"],F)
c("C05","proved",["C05_memory"])
c("C10","partial",["C10_memory_partial","C10_memory_fixed_partial","C10_memory_refuted"],F+"It is false when equal values that hash differently (such as 3 and 3.0) are used in one index; for histories without such values (`Coherent`) it holds whatever hash map lookups find.")
c("C11","partial",["C11_memory_release_partial","C11_memory_release_refuted"],F)
c("C26","proved",["C26_memory"])
c("C35","partial",["C35_memory_partial","C35_memory_refuted_max","C35_memory_refuted_debug"],F)
c("C37","proved",["C37_next_uuid"])
c("C33", "proved", ["C33_memory", "C33_memory_steps", "C33_memory_exclusive", "C33_memory_progress"],
  "All interleavings of any number of calls under the datastore's mutex, for every division of the calls into small steps; linearization with real-time order; mutual exclusion; no deadlock.")
c("C29","proved",["C29_rocks_process","C29_rocks_power","C29_rocks_data","C29_rocks_log"],"All crash points of all executions in which overlapping calls are independent (`Independent`: neither changes what the other looks at, or one is a query that reads once; other queries need not be counted and may overlap anything). C29_rocks_log holds for all interleavings. Hypothesis: fewer than 2^64 indexed names.")
c("C30","partial",["C30_rocks_partial","C30_rocks_data","C30_rocks_refuted"],"In full for histories whose values can be read back; refuted otherwise (failed index_property leaves a name in memory only).")
c("C31","partial",["C31_rocks_create","C31_rocks_partial","C31_rocks_points","C31_rocks_refuted"],F+"Rests on the modelled contract of RocksDB's open and create_cf.")
c("C34","partial",["C34_rocks_partial","C34_rocks_sequential","C34_rocks_independent","C34_rocks_refuted"],F+" Proved whenever overlapping calls are independent: neither changes what the other looks at, or one is a query that reads once, or both are queries.")
c("C51","partial",["C51_rocks_partial","C51_rocks_refuted"],F)
c("C32","partial",["C32_memory_roundtrip","C32_memory_crash","C32_memory_error","C32_memory_no_path","C32_memory_open","C32_memory_life","C32_memory_refuted"],"Round trip, crash at every point and reported I/O errors: in full (rmp-serde is a parameter with the contract decode(encode x) = x). Refuted for an I/O error in the final buffered write: BufWriter's drop swallows it and sync returns Ok over a truncated image.")
c("C39","proved",["C39_accepts","C39_errors","C39_readback"])
c("C40","partial",["C40_refl_symm","C40_transitive_partial","C40_hash_partial","C40_lookup","C40_refuted"],F)
c("C41","partial",["C41_partial","C41_refuted"],F)
c("C48","partial",["C48_ids","C48_count","C48_monotone_partial","C48_refuted","C48_taken"],"Exact characterization of collisions; distinct for a clock that never steps back; refuted for a clock that does.")
c("C49","proved",["C49_extract","C49_direction"])
c("C42","proved",["C42_query","C42_output","C42_item","C42_set","C42_values","C42_query_injective","C42_new_valid"],"For all messages; identifiers made with Identifier::new and values that serde_json prints and parses back unchanged (some floats and deeply nested values do not).")
c("C43","proved",["C43_query","C43_missing","C43_inside","C43_leaves","C43_others","C43_valid"])
c("C44","proved",["C44_stream","C44_bad_item"],"For every datastore.")
c("C45","partial",["C45_memory_partial","C45_rocks_partial","C45_memory_panic_refuted","C45_memory_deep_refuted","C45_rocks_deep_refuted","C45_memory_large_refuted","C45_rocks_large_refuted"],"The full statement is false of the code: 50 nested traversals exceed the protobuf recursion limit, results over 4 MiB cannot be received, and a panic during get is reported as an empty result. The _partial theorems say exactly what happens for every history.")
c("C52","proved",["C52_memory","C52_rocks"],"both datastores")
c("C46","partial",["C46_map_partial","C46_refuted","C46_workers","C46_terminates","C46_naive_count","C46_naive_count_query"],"The full statement is false of the code: a mapper call that panics is swallowed by the thread pool and map returns Ok. For mappers that do not panic the _partial theorem is the full statement, for all schedules.")
c("C47","proved",["C47_load","C47_error","C47_execute","C47_client"])
c("C53","partial",["C53_partial","C53_refuted"],"False of the code: the macro ignores its version argument.")
c("C28","partial",["C28_partial","C28_refuted","C28_order_refuted"],F+"Listings are compared up to the order of their elements.")
# the same properties by replies alone (Props/Observe)
for pid, names in {'C01':['C01_memory_observed','C01_rocks_observed'],'C02':['C02_memory_observed','C02_rocks_observed'],
  'C05':['C05_memory_observed'],'C06':['C06_rocks_observed_partial','C06_rocks_observed_refuted'],
  'C07':['C07_memory_observed','C07_rocks_observed_partial'],'C08':['C08_memory_observed','C08_rocks_observed'],
  'C09':['C09_memory_observed','C09_rocks_observed_partial'],'C10':['C10_memory_fixed_observed_partial'],
  'C12':['C12_rocks_observed'],'C15':['C15_memory_observed','C15_rocks_observed'],
  'C16':['C16_memory_observed','C16_rocks_observed'],'C17':['C17_memory_observed','C17_rocks_observed'],
  'C18':['C18_memory_observed','C18_rocks_observed']}.items():
    more(pid, names)
c("C54","proved",["C54_memory","C54_rocks","C54_poisoned"],"C54_poisoned: what the excluded case looks like.")
c("C55","proved",["C55_constructors","C55_built_iff","C55_memory","C55_rocks"])
c("C56","partial",["C56_dual","C56_kinds","C56_integers","C56_sequences","C56_numbers","C56_order_partial","C56_refuted"],F+"Everything but transitivity holds for all values; transitivity holds for values whose numbers are all integers, or all floats and integers up to 2^53, and for < on single numbers of any kind.")
c("C57","proved",["C57_memory","C57_damaged","C57_volatile","C57_rocks","C57_rocks_starts"],"The provisos in the statement are hypotheses of the theorems.")
c("C58","proved",["C58_memory","C58_memory_returns","C58_rocks","C58_rocks_returns"])
c("C59","partial",["C59_rocks_partial","C59_rocks_index_partial","C59_rocks_history_partial","C59_rocks_count_refuted","C59_rocks_index_refuted"],F+"It holds for every call except index_property and counts of all vertices or edges.")
more("C58",["C58_rocks_faulty"])
c("C60","proved",["C60_rocks","C60_rocks_sequential"])
# arbitrary hash map lookups of JSON keys (Props/MemoryAny)
for i in "01 02 04 05 07 08 09 14 16 17 18 19 20 21 22 23 24 25 26 38 50 55".split():
    more("C"+i,["C"+i+"_memory_any"])
for i in "01 02 05 07 08 09 15".split():
    more("C"+i,["C"+i+"_memory_any_observed"])
more("C03",["C03_memory_any_partial"])
more("C11",["C11_memory_any_partial"])
more("C11",["C11_memory_release_exact_partial","C11_memory_release_remembers_partial"])
more("C52",["C52_memory_any"])
more("C32",["C32_memory_graph_partial","C32_memory_any_partial","C32_memory_refuted_lookup"])
more("C35",["C35_memory_any_partial","C35_memory_release_any_partial","C35_memory_refuted_lookup"])
more("C33",["C33_memory_any","C33_memory_any_steps"])
more("C58",["C58_memory_any"])
c("C61","partial",["C61_partial","C61_complete","C61_refuted","C61_rocks_vertex","C61_rocks_short_partial","C61_rocks_vertex_refuted","C61_rocks_utf8_refuted","C61_rocks_edge_refuted"],F+"It holds for every way but deserialization; RocksDB reads back exactly the identifiers of at most 255 bytes.")
c("C62","proved",["C62_memory","C62_rocks"])
c("C63","proved",["C63_rocks","C63_rocks_value"])
c("C64","proved",["C64_rocks","C64_rocks_stays","C64_rocks_never"])
c("C65","proved",["C65_rocks","C65_rocks_faulty","C65_rocks_succeeds"])
more("C30",["C30_rocks_concurrent_partial"])

c("C66","proved",["C66_memory","C66_rocks"])
c("C67","partial",["C67_memory_error_refuted","C67_rocks_error_refuted","C67_memory_panic_refuted","C67_rocks_isolated_refuted","C67_rocks_crash_refuted","C67_memory_read_only_partial","C67_rocks_read_only_partial","C67_memory_usable_partial","C67_rocks_sane_partial","C68_memory"],F+"Isolation on the memory datastore is C68.")
c("C68","proved",["C68_memory","C68_memory_any_steps","C68_memory_exclusive"])
c("C69","proved",["C69_rocks","C69_rocks_value"])
c("C70","proved",["C70_rocks","C70_rocks_vertices","C70_rocks_edges","C70_rocks_properties","C70_rocks_watch"])
more("C21",["C21_rocks_concurrent"])
more("C25",["C25_rocks_concurrent"])
c("C71","proved",["C71_memory","C71_memory_right"])
more("C68",["C68_memory_requests"])
c("C72","proved",["C72_rocks_errors","C72_rocks_methods","C72_rocks_calm","C72_rocks_sane","C72_rocks_index","C72_rocks_index_value","C72_rocks_progress","C72_rocks_killed","C72_rocks_alone"])

c("C73","proved",["C73_rocks","C73_rocks_watch","C73_rocks_all"],"For every call that succeeds and meets no I/O error itself (others may). The moments of the call are the states of the database between the accesses of all tasks. Lazy iterators are drained within the call.")
c("C74","proved",["C74_rocks","C74_rocks_stays","C74_rocks_never","C74_rocks_reasons"])
c("C75","proved",["C75_rocks","C75_rocks_value"])

c("C76","proved",["C76_rocks_process","C76_rocks_refused","C76_rocks_errors","C76_rocks_names","C76_rocks_reasons","C76_rocks_reports","C76_rocks_plugin","C76_rocks_sane","C76_rocks_killed","C76_rocks_index","C76_rocks_alone"])
more("C76",["C76_rocks_never"])
c("C77","proved",["C77_rocks","C77_rocks_rest"],"Plugins are well-founded: a plugin whose code runs for ever, or makes calls for ever, is not in the model.")

c("C78","proved",["C78_rocks","C78_rocks_names","C78_rocks_index","C78_rocks_app","C78_rocks_server","C78_rocks_index_app","C78_reader"],"Stated for every reader that extends the datastore's own; index exactness for histories in which no index_property is refused (a refused one leaves an indexed name without entries, as the statement says).")

c("C79","proved",["C79_rocks","C79_rocks_query","C79_rocks_properties","C79_rocks_server","C79_rocks_plugin","C79_rocks_count_false"],
  "No hypotheses on values or I/O errors; `d` is any reader that reads what the datastore can read as the datastore does. Iterators of transactions may be cut short by an I/O error as last item (UpToError). The exception (calls that count all vertices or edges) is part of the statement, and C79_rocks_count_false proves that it is needed.")
c("C80","proved",["C80_bulk_once","C80_bulk_items","C80_bulk_ok","C80_bulk_error","C80_bulk_step","C80_bulk_returns","C80_bulk_aborted_refuted"],
  "Transition system of the sending task, the bounded channel, the transport, the server's handler, the library call, the caller and the network (Model/BulkStream.lean). C80_bulk_step connects it with Store.clientCall, the one-step account used by C44, C45, C68 and C76. C80_bulk_aborted_refuted shows that the proviso about the runtime is needed: if it drops the sending task, a strict prefix is inserted and the caller may get Ok.")
c("C81","partial",["C81_memory_shared","C81_memory_never_refused","C81_memory_unreadable","C81_memory_sole_writer_partial","C81_memory_lost_refuted"],
  "In full except for the last sentence, which is false of the code: two servers, both syncs return Ok, and the vertex saved by the first is gone (C81_memory_lost_refuted). C81_memory_sole_writer_partial: it holds if only one of the servers uses sync.")
c("C82","proved",["C82_get_ok","C82_get_items","C82_get_error","C82_get_step","C82_get_returns","C82_get_task","C82_get_panic_refuted"],
  "Transition system of the blocking task, the bounded channel, the transport, the caller and the network (Model/GetStream.lean). C82_get_step connects it with Store.clientCall, the one-step account used by C45, C68 and C76. C82_get_panic_refuted shows the excepted case to be real: a panic of the library call reaches the caller as Ok with no outputs.")
c("C83","partial",["C83_start_memory","C83_start_rocks","C83_start_repair","C83_start_harmless","C83_start_again","C83_start_locked","C83_start_error","C83_start_life","C83_start_saved_partial","C83_start_saved_refuted","C83_start_overwrites_refuted"],
  "In full except for the last sentence, which is false of the code: Path::exists() also says no if the file cannot be looked at, and the server then starts empty (C83_start_saved_refuted) and overwrites the saved image at the next sync (C83_start_overwrites_refuted). C83_start_saved_partial: it holds if the file can be looked at. clap's parsing and RocksDB's repair are parameters.")
c("C84","partial",["C84_memory_partial","C84_memory_any_partial","Rocks.C84_rocks_partial","C84_memory_refuted","C84_memory_release_refuted","Rocks.C84_rocks_refuted"],
  "Full statement false for edges listed by a property (C84_memory_refuted, C84_memory_release_refuted, Rocks.C84_rocks_refuted). Proved: vertices and their properties for all queries; edges and their properties for all queries without such a part; and everything for all queries after histories that write properties only to existing owners (debug builds of memory; RocksDB).")
c("C85","partial",["C85_vertex","C85_reflSymm","C85_memory_one_state","C85_rocks_one_state","C85_transitive_partial","C85_exact_partial","C85_transitive_refuted","C85_replies_refuted","C85_queries_refuted","C85_items_refuted"],
  "The laws and the statement on one state in full (edges listed by a property excepted, see C84). The last sentence is false of the code (C85_transitive_refuted, C85_replies_refuted, C85_queries_refuted, C85_items_refuted). C85_transitive_partial: transitive if all numbers are integers, or floats and integers up to 2^53. C85_exact_partial: with integers only, or floats other than -0.0 only, == queries are identical, == replies and items identical but for the types of vertices.")
c("C86","proved",["C86_rocks_presence","C86_rocks_value","C86_rocks_exception"],
  "C86_rocks_exception: the exception does occur. With C63, C69 (no owner is missing) this bounds what index queries list from both sides, also where C51 fails.")
c("C87","partial",["C87_memory_partial","C87_memory_readable_partial","C87_memory_refuted"],
  "The bytes are modelled (MessagePack as rmp_serde writes and reads it): C87_memory_partial holds for all databases whose values are nested at most levels - 8 deep (1016 with rmp_serde's limit of 1024) and whose image is below 4 GiB, whatever fails and wherever the process dies. Refuted for deeper values (C87_memory_refuted): sync returns Ok and replaces the file by one that read_msgpack_db refuses, because only the decoder limits the depth.")
c("C88","proved",["C88_memory"],
  "Strengthens C57: the bytes of the image are modelled (C87), so that nothing is assumed about the codec, and the final flush may fail. A server holds a fixed equivalence of JSON keys in its hash maps (HashEq), as in C57; C87 is proved for arbitrary lookups.")
c("C89","proved",["C89_memory","C89_memory_calls","C89_memory_release","Rocks.C89_rocks"],
  "An equivalence (exactly when, and with which error), and uniqueness of the failing part. In debug builds of the memory datastore the panics of C35 in writes are left open here. C35_memory_release_any_partial is sharpened by C89_memory_release.")
c("C90","proved",["C90_disk","C90_message","C90_injective","C90_message_faithful","C90_rocks_readable","C90_rocks_set","C90_rocks_deep","text_utf8"],
  "Byte by byte: the compact writer and the reader of serde_json (whitespace, escapes, surrogates, number syntax, depth counter, duplicates, trailing bytes). The conversion between floats and digits is a parameter. The crate is not in the repository; its behaviour is modelled from its documentation and source as known.")
more("C07",["C90_rocks_set"])
more("C42",["C90_message_faithful"])
c("C91","partial",["C91_partial","C91_rocks_partial","C91_message_partial","C91_rocks_same_hash","C91_refuted","C91_rocks_refuted","C91_rocks_index_refuted","roundUnits_near","roundUnits_bits"],
  "")
more("C12",["C91_rocks_same_hash","C91_rocks_index_refuted"])
more("C07",["C91_rocks_partial","C91_rocks_refuted"])
c("C92","proved",["C92_disk","C92_message","C92_refused","C92_disk_refused","C92_unique","C92_written","C92_server","C92_cli","JsonGrammar.all_iff","JsonGrammar.text_iff"],
  "The grammar is an inductive specification (Spec/JsonGrammar) that does not mention the parser. The parser is a model of the crate serde_json, which is not in the repository; how digits become floats is a parameter (see C91).")
more("C43",["C92_server","C92_refused"])
c("C93","proved",["C93_read","C93_float","C93_message","C93_rocks","Decimal.read_approx","Decimal.read_none"],
  "Rounding is to 53 bits as in f64; the errors of the up to five roundings and of digits that do not fit in 64 bits are added up. How ryu prints floats is a parameter: assumed is that its digits stand for the float (as in C91).")
more("C91",["C93_float","C93_rocks","C93_message"])
c("C94","proved",["C94_query","C94_setProperties","C94_messages","C94_length","C94_unknown","C94_later","C94_memory","C94_rocks","C94_plugin","C94_layout","C94_layout2","C94_foreign","C94_merged","Store.wireCall_eq","wireExecutePlugin_eq"],
  "prost's encoder and decoder are modelled (varints, wire types, unknown fields and groups, merging, oneof, the limit of 100 levels), the HTTP/2 layer is not. C94_layout pins the bytes of each kind of message to the field numbers of the .proto file.")
more("C45",["C94_memory","C94_rocks"])
more("C42",["C94_messages","C94_query"])
c("C95","proved",["C95_accepts","C95_one","C95_text","C95_unique","C95_memory","C95_rocks"],
  "Uuid::parse_str and the text of {:?} are modelled after the uuid crate (1.12.0); the rest of what {:?} prints for a vertex or an edge is not.")
more("C54",["C95_memory","C95_rocks"])
c("C96","proved",["C96_memory","C96_rocks","C96_memory_back","C96_rocks_back","C96_memory_back_edge","C96_rocks_back_edge"],
  "Everything is as characters and bytes: arguments (Names, Spells, JSON grammar), messages (C94), values in RocksDB (JSON text). Not modelled: clap, gRPC framing, the text println makes of the results. Sessions of fewer than 2^64 runs need no assumption on counts (C97).")
more("C54",["C96_memory","C96_rocks"])
c("C97","proved",["C97_memory","C97_rocks"],
  "Store.OnlyMade. Store.countsShort uses it: sessions of the command line client of fewer than 2^64 runs need no assumption on counts (C96).")
c("C98","proved",["C98_memory","C98_rocks"],
  "Reads are assumed to return (in the memory datastore a panic in between makes later calls panic, see C35). On RocksDB a bulk_insert item for the same id with another type may change the type (C27); values come back as stored (C78, C90).")
c("C99","proved",["C99_memory","C99_rocks"],
  "Store.VerticesGone, EdgesGone, VertexPropertiesGone, EdgePropertiesGone. What happens to the edges and properties of deleted vertices is C05 and C06.")
more("C97",["C97_memory_any","C97_rocks_life"])
more("C98",["C98_memory_any","C98_rocks_life"])
more("C99",["C99_memory_any","C99_rocks_life"])
FALSE="The full statement is false of the code. Refutation: "
more("C35",["C89_memory_release"])
def note(pid, refuted, holds, pre=""):
    d=[x for x in C if x["property"]==pid][0]
    d["note"]=pre+FALSE+refuted+" What is proved instead: "+holds
note("C03","EdgeWithPropertyPresence returns edges that were never created (or, in release builds, were deleted) if properties were bulk-inserted for them.","in every state and build, every edge returned by any query that does not draw on EdgeWithPropertyPresence has both endpoints; in debug builds with properties written only to existing owners, every query.")
note("C06","deleting a vertex leaves its inbound edges: the loop over them deletes the reversed edge.","the exact graph after the call: the intended cascade except for those edges and their properties, from every reachable state, for every query.")
note("C07","values that serde_json writes but cannot read (nested more than 127 levels) are accepted, and every later read fails.","on RocksDB the exact effect for every value that can be read back; C78 covers histories with the others.","Memory: in full. RocksDB: ")
note("C09","edges whose outbound vertex does not exist (after bulk insertion, or after C06) are silently not deleted.","exactly those of the edges whose outbound vertex exists are deleted with their properties, and nothing else.","Memory: in full. RocksDB: ")
note("C10","the index is a HashMap keyed by Json, which breaks the Hash contract; 3 and 3.0 in one index may be confused or missed.","exactness whatever hash map lookups find for histories whose values are coherent, and for all values for lookups that do not change over time (up to how the map compares values).")
note("C11","removal from the index is inside debug_assert!, so in release builds entries are never removed and stale owners are returned.","the complete half: no owner is missed; and, for release builds, exactly what is listed: the owners that had the property (value) at some moment since its name was indexed (in checked histories; in all histories nothing else is listed).")
note("C13","the index stores only a hash, and the hash input has no lengths, so [[],null] and [[null]] collide for every hasher.","value queries return only owners with an equal value if the asked value collides with no different value stored under that name.")
note("C15","a property bulk-inserted for a vertex that does not exist yet is not found by the index after the vertex was created, even if the name is indexed again.","data unchanged, exactly the name is added, idempotent; the index covers all owners along histories that do not bulk-insert properties of missing owners (nor the same property twice).","Memory: in full for hash map lookups that do not change over time (see C10). RocksDB: ")
note("C24","index_property that meets a value it cannot read returns an error, but the name counts as indexed from then on.","in states where all stored values can be read a failing call changes nothing; in every state it changes no stored data, and nothing at all unless it is index_property.","Memory: in full. RocksDB: ")
note("C27","bulk insertion overwrites the type of an existing vertex and writes edges and properties without looking for endpoints or owners.","the exact effect of bulk insertion in every reachable state, and equality with the individual calls if each item is one that the individual call would carry out.")
note("C28","many differences (C06, C09, C11, C13, C27, C35), and the order of edge types of different lengths.","for every history of the common fragment (stated as hypotheses), in both builds, every reply is the same up to the order of the elements in a listing.")
note("C31","a process that dies after creating some but not all column families leaves a directory that cannot be opened.","exactly at which interruption points opening succeeds, and that the data is then kept. Rests on the modelled contract of RocksDB's open and create_cf.")
note("C34","calls read and write RocksDB without a lock: two overlapping calls that create the same vertex both return true.","linearizability whenever overlapping calls are independent: neither changes what the other looks at, or one is a query that reads once, or both are queries; C70 says what overlapping queries report in general.")
note("C35","reading the properties of the vertex with the greatest UUID panics and poisons the lock for good; in debug builds so does overwriting an indexed property that was set before its owner existed, or deleting one that a hash map lookup misses.","no call ever panics if properties are only written to existing owners and nobody creates the vertex with the greatest id (also whatever hash map lookups find, with coherent values).")
note("C40","3 == 3.0 but they hash differently; == is not transitive above 2^53.","reflexive and symmetric for all values; transitive on integers and on floats with integers up to 2^53; equal hashes on integers and on floats other than -0.0; and what a hash map lookup may find.")
note("C41","-1 and u64::MAX, and [[],null] and [[null]], feed the same input.","injective on scalars, flat arrays and objects, and values of the same nesting at any depth, with numbers of one representation.")
note("C51","two overlapping set_properties calls on an indexed property leave an entry for a value the owner does not have.","exact when overlapping calls are independent; C63 and C69 prove without that hypothesis that no owner is ever missed.")
note("C56","transitivity fails for integers above 2^53 mixed with floats.","everything but transitivity for all values; transitivity for values whose numbers are all integers, or all floats and integers up to 2^53, and for < on single numbers of any kind.")
note("C59","an I/O error while counting all vertices or edges is counted as one item; one during index_property leaves the name marked as indexed in memory.","every other call, in any state and whatever errors occur, does and returns exactly what it would have, or returns an error and changes nothing; index_property writes nothing if it fails, so that reopening gives the state before the call.")
note("C61","Deserialize does not validate: identifiers of any length and content; with 256 or more bytes RocksDB reads back something else.","valid for every other way of obtaining one; RocksDB reads back exactly the identifiers of at most 255 bytes.")
note("C67","writes before an error, a panic or a crash stay; a panic poisons the memory datastore; on RocksDB overlapping plugins interleave.","a plugin that only reads changes nothing; one that returns leaves the memory datastore usable; on RocksDB, however plugins overlap and end, every later call works as it should on the graph there is. Isolation on the memory datastore is C68.")
note("C87","a value nested as deep as the limit of the decoder (1024 levels in rmp_serde) is written by sync, which returns Ok, and the file is refused afterwards.","the whole claim for values of at most 1016 levels and images below 4 GiB, whatever fails and wherever the process dies.")
note("C91","9.060756452069219 is stored with these digits and read as 9.06075645206922, the next float, although the digits stand for the first; with an index the vertex is listed for the value that was set and not for the one queries return.","floats whose printed digits are below 2^53 with a power of ten between -22 and 22 (0.1, prices, whole numbers) come back unchanged, alone and inside values, on disk and in messages. The reader's rounding is proved to give the nearest number with 53 bits; the printer (ryu) is a parameter of which only is assumed that the digits stand for the float.")
