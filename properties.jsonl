{"id": "C01", "title": "create_vertex creates exactly when the id is free", "statement": "create_vertex(v) returns true exactly when no vertex with v.id exists. On true, v.id afterwards has type v.t and nothing else changes (no other vertex, edge, property or index). On false nothing changes; in particular the existing vertex keeps its type.", "quantifier": "every database state reachable by any sequence of API calls, every vertex; both datastores", "why_tests_cant": "must hold after every possible history of calls, not only on the handful of states a test builds", "anchors": ["lib/src/database.rs: Database::create_vertex", "lib/src/memory/datastore.rs: create_vertex", "lib/src/rdb/datastore.rs: create_vertex", "lib/src/rdb/managers.rs: VertexManager::{create,exists}"]}
{"id": "C02", "title": "create_edge creates exactly when both endpoints exist", "statement": "create_edge(e) returns true exactly when the outbound and the inbound vertex both exist. On true, e exists afterwards and nothing else changes (re-creating an existing edge, with its properties, is a no-op). On false nothing changes.", "quantifier": "every reachable state, every edge (including self loops and already existing edges); both datastores", "why_tests_cant": "quantifies over all histories and all edges", "anchors": ["lib/src/database.rs: Database::create_edge", "lib/src/memory/datastore.rs: create_edge", "lib/src/rdb/datastore.rs: create_edge", "lib/src/rdb/managers.rs: EdgeManager::set"]}
{"id": "C03", "title": "Memory datastore: no dangling edges, ever", "statement": "After any sequence of API calls (including bulk inserts, deletes by any query, in debug and release builds), every edge a query can return has both of its endpoint vertices in the database.", "quantifier": "every finite sequence of API calls on the in-memory datastore", "why_tests_cant": "an invariant over unbounded histories", "anchors": ["lib/src/memory/datastore.rs: create_edge, delete_vertices, bulk_insert (default in lib/src/database.rs)"]}
{"id": "C04", "title": "Outbound and inbound traversal see the same edges", "statement": "Edge (a,t,b) is returned when traversing outbound from a exactly when it is returned when traversing inbound from b, and exactly when it is returned by a direct edge lookup: the two internal edge tables never disagree.", "quantifier": "every reachable state of both datastores, every edge; for RocksDB also every interleaving of concurrent writers", "why_tests_cant": "a two-table consistency invariant over all histories and schedules", "anchors": ["lib/src/memory/datastore.rs: create_edge, delete_edges, range_reversed_edges", "lib/src/rdb/managers.rs: EdgeManager::{set,delete}, EdgeRangeManager"]}
{"id": "C05", "title": "Memory datastore: deleting vertices cascades, and only cascades", "statement": "After delete(q) with q producing vertices, exactly those vertices, the properties of those vertices, every edge having one of them as an endpoint, and the properties of these edges are gone; every other vertex, edge and property is unchanged.", "quantifier": "every reachable state of the in-memory datastore, every vertex-producing query", "why_tests_cant": "frame condition over all states and queries", "anchors": ["lib/src/database.rs: Database::delete", "lib/src/memory/datastore.rs: delete_vertices, delete_edges"]}
{"id": "C06", "title": "RocksDB datastore: deleting vertices cascades to all incident edges", "statement": "After delete(q) with q producing vertices, no edge having one of the deleted vertices as an endpoint remains, nor its properties; everything else is unchanged.", "quantifier": "every reachable state of the RocksDB datastore, every vertex-producing query", "why_tests_cant": "the repo's own tests look only through a vertex query, so a remaining inbound edge is invisible to them; the claim is over all states", "anchors": ["lib/src/rdb/managers.rs: VertexManager::delete, EdgeManager::delete", "lib/src/rdb/datastore.rs: delete_vertices"]}
{"id": "C07", "title": "set_properties sets exactly the selected properties", "statement": "After set_properties(q,name,value), reading property name of every vertex/edge produced by q gives value; every other property, and all vertices and edges, are unchanged.", "quantifier": "every reachable state, every vertex- or edge-producing query, name and JSON value; both datastores (RocksDB: values serde_json reads back unchanged)", "why_tests_cant": "read-your-write plus frame condition over all states", "anchors": ["lib/src/database.rs: Database::set_properties", "lib/src/memory/datastore.rs: set_vertex_properties, set_edge_properties", "lib/src/rdb/datastore.rs: set_vertex_properties, set_edge_properties", "lib/src/rdb/managers.rs: VertexPropertyManager::set, EdgePropertyManager::set"]}
{"id": "C08", "title": "Deleting properties removes exactly the selected properties", "statement": "After delete(q) with q producing properties, exactly the (owner, name) pairs listed in the query result have no value; all else is unchanged.", "quantifier": "every reachable state and property-producing query; both datastores", "why_tests_cant": "frame condition over all states", "anchors": ["lib/src/database.rs: Database::delete", "lib/src/memory/datastore.rs: delete_vertex_properties, delete_edge_properties", "lib/src/rdb/datastore.rs: delete_vertex_properties, delete_edge_properties"]}
{"id": "C09", "title": "Deleting edges removes exactly those edges and their properties", "statement": "After delete(q) with q producing edges, exactly those edges and their properties are gone, all else is unchanged. On RocksDB an edge whose outbound vertex is missing is skipped.", "quantifier": "every reachable state and edge-producing query; both datastores", "why_tests_cant": "frame condition over all states", "anchors": ["lib/src/database.rs: Database::delete", "lib/src/memory/datastore.rs: delete_edges", "lib/src/rdb/datastore.rs: delete_edges", "lib/src/rdb/managers.rs: EdgeManager::delete"]}
{"id": "C10", "title": "Memory datastore (debug build): property index is exact", "statement": "For an indexed property name, querying vertices/edges by presence of the property returns exactly the vertices/edges that have it, each once; querying by value returns exactly those whose current value equals the asked one - provided properties were only ever set on existing vertices and edges.", "quantifier": "every finite sequence of API calls whose bulk-inserted properties target existing vertices/edges", "why_tests_cant": "index consistency over unbounded histories", "anchors": ["lib/src/memory/datastore.rs: property_values, index_property, set_vertex_properties, delete_vertex_properties, vertex_ids_with_property(_value), edges_with_property(_value)"]}
{"id": "C11", "title": "Memory datastore (release build): property index has no stale entries", "statement": "In an optimised build (debug assertions off) a query by property presence or value returns only vertices/edges that currently have that property/value, and returns all of them.", "quantifier": "every finite sequence of API calls", "why_tests_cant": "the test-suite is compiled with debug assertions on, so the release behaviour is not exercised at all", "anchors": ["lib/src/memory/datastore.rs: delete_vertex_properties, delete_edge_properties (side effect inside debug_assert!)"]}
{"id": "C12", "title": "RocksDB datastore: property index is exact up to the value hash", "statement": "For an indexed name, presence queries return exactly the existing vertices / the edges having the property; value queries return exactly those whose current value has the same 64-bit value hash as the asked value.", "quantifier": "every sequence of API calls in which properties are set on existing owners, no single bulk insert sets the same property twice, and values survive serde_json", "why_tests_cant": "index consistency over unbounded histories and all hash functions", "anchors": ["lib/src/rdb/managers.rs: VertexPropertyValueManager, EdgePropertyValueManager, VertexPropertyManager::{set,delete}", "lib/src/rdb/datastore.rs: index_property, vertex_ids_with_property(_value)"]}
{"id": "C13", "title": "RocksDB datastore: value queries return only equal values", "statement": "A query for property value v returns only vertices/edges whose stored value equals v.", "quantifier": "all JSON values v and stored values, whatever the 64-bit hash function", "why_tests_cant": "collisions are structural (nested arrays/objects, i64 vs u64, numbers vs float bit patterns) and independent of test data", "anchors": ["lib/src/util.rs: Component::Json", "lib/src/models/json.rs: hash", "lib/src/rdb/managers.rs: iterate_for_value"]}
{"id": "C14", "title": "NotIndexed exactly for names never indexed", "statement": "A property presence/value query (direct or piped) fails with NotIndexed exactly when index_property was never called for that name; once indexed, a name stays indexed.", "quantifier": "every history of calls, every name; both datastores", "why_tests_cant": "history quantified", "anchors": ["lib/src/database.rs: query", "lib/src/memory/datastore.rs: vertex_ids_with_property, index_property", "lib/src/rdb/datastore.rs: index_property, vertex_ids_with_property"]}
{"id": "C15", "title": "index_property changes no data and is idempotent", "statement": "index_property(name) leaves every vertex, edge and property unchanged, makes exactly name indexed in addition, covers data that existed before the call, and calling it again changes nothing observable.", "quantifier": "every reachable state, every name; both datastores", "why_tests_cant": "all states", "anchors": ["lib/src/memory/datastore.rs: index_property", "lib/src/rdb/datastore.rs: index_property", "lib/src/rdb/managers.rs: MetadataManager"]}
{"id": "C16", "title": "Vertex range queries are sorted, filtered and limited exactly", "statement": "RangeVertexQuery{start_id,t,limit} returns the first `limit` elements of the list, in increasing id order without repeats, of all vertices with id >= start_id and type t; AllVertex returns all vertices in increasing id order.", "quantifier": "every state, every limit/type/start id; both datastores", "why_tests_cant": "boundary behaviour over all states and parameters", "anchors": ["lib/src/database.rs: query (RangeVertex, AllVertex)", "lib/src/memory/datastore.rs: range_vertices", "lib/src/rdb/managers.rs: VertexManager::iterate_for_range"]}
{"id": "C17", "title": "Vertex-to-edge pipes return exactly the incident edges", "statement": "Piping vertices outbound (inbound) returns, vertex by vertex in order, all edges leaving (entering) that vertex having type t if given, each vertex's edges sorted, cut to the first `limit` edges; edges are reported in their stored orientation.", "quantifier": "every state, every inner query, direction, type filter and limit; both datastores", "why_tests_cant": "range-scan boundaries, prefix handling and limit arithmetic over all states", "anchors": ["lib/src/database.rs: query (Pipe)", "lib/src/memory/datastore.rs: range_edges, range_reversed_edges", "lib/src/rdb/managers.rs: EdgeRangeManager::iterate_for_range"]}
{"id": "C18", "title": "Edge-to-vertex pipes return exactly the endpoints", "statement": "Piping edges outbound (inbound) returns, edge by edge in order, the existing outbound (inbound) vertex, filtered by type, cut to `limit`.", "quantifier": "every state, inner query, direction, type filter, limit; both datastores", "why_tests_cant": "all states and queries", "anchors": ["lib/src/database.rs: query (Pipe)"]}
{"id": "C19", "title": "Property pipes return exactly the owner's properties", "statement": "properties() lists for every piped vertex/edge having at least one property all its properties in name order, properties().name(n) just property n; owners without the property are skipped.", "quantifier": "every state and inner query; both datastores", "why_tests_cant": "range-scan boundaries over all states", "anchors": ["lib/src/database.rs: query (PipeProperty)", "lib/src/memory/datastore.rs: all_vertex_properties_for_vertex, all_edge_properties_for_edge", "lib/src/rdb/managers.rs: iterate_for_owner"]}
{"id": "C20", "title": "with/without filters partition their input", "statement": "For an indexed property, with_property and without_property (with_property_equal_to and with_property_not_equal_to) each return a sub-list of the inner result in the same order, and every inner element is in exactly one of them.", "quantifier": "every state, inner query, name, value; both datastores", "why_tests_cant": "all states and queries", "anchors": ["lib/src/database.rs: query (PipeWithPropertyPresence, PipeWithPropertyValue)"]}
{"id": "C21", "title": "Count equals the length of the counted result", "statement": "count() of a query returns the number of items the query itself returns in the same state, including the specially optimised counts of all vertices and all edges.", "quantifier": "every state, every query; both datastores", "why_tests_cant": "the optimised and generic paths must agree in all states", "anchors": ["lib/src/database.rs: query (Count)", "lib/src/memory/datastore.rs: vertex_count, edge_count", "lib/src/rdb/datastore.rs: vertex_count, edge_count"]}
{"id": "C22", "title": "Include adds exactly the included intermediate results", "statement": "get(q) returns the result of q as its last value, preceded, in order from innermost to outermost, by one value per intermediate include() directly below another stage - each equal to what the included sub-query returns on its own; include() as outermost or directly nested include() adds nothing.", "quantifier": "every query (any nesting depth), every state", "why_tests_cant": "unbounded query depth", "anchors": ["lib/src/database.rs: query (Include), Database::get", "lib/src/models/queries.rs: IncludeQuery, output_len"]}
{"id": "C23", "title": "Queries built through the validating constructors never hit OperationOnQuery", "statement": "If every stage of a query was built with the validating constructors (outbound, inbound, with_property, properties, count, ...), get never fails with OperationOnQuery and never panics on an empty output stack; conversely a query nesting a stage on a count or on properties always fails.", "quantifier": "every query expression of any depth, every state", "why_tests_cant": "unbounded query depth", "anchors": ["lib/src/models/queries.rs: Query::output_type, PipeQuery::new, PipePropertyQuery::new, CountQuery::new", "lib/src/database.rs: query"]}
{"id": "C24", "title": "Failed operations change nothing", "statement": "When an API call returns an error (NotIndexed, OperationOnQuery), the database is exactly as before.", "quantifier": "every state, every failing call; both datastores", "why_tests_cant": "all states and calls", "anchors": ["lib/src/database.rs: Database::{delete,set_properties}"]}
{"id": "C25", "title": "Reads are read-only", "statement": "get(q) never changes what any later call observes.", "quantifier": "every state and query; both datastores", "why_tests_cant": "all states", "anchors": ["lib/src/database.rs: Database::get"]}
{"id": "C26", "title": "Memory datastore: bulk_insert equals the individual calls in order", "statement": "bulk_insert(items) has the same effect as create_vertex / create_edge / setting the property, item by item in order.", "quantifier": "every state, every list of items", "why_tests_cant": "unbounded lists, all states", "anchors": ["lib/src/database.rs: Transaction::bulk_insert"]}
{"id": "C27", "title": "RocksDB datastore: bulk_insert equals the individual calls in order", "statement": "bulk_insert(items) has the same effect as the individual calls in order.", "quantifier": "every state, every list of items", "why_tests_cant": "reads inside a write batch do not see the batch; only visible for particular item combinations", "anchors": ["lib/src/rdb/datastore.rs: bulk_insert", "lib/src/rdb/managers.rs: VertexPropertyManager::set"]}
{"id": "C28", "title": "The two datastores are observationally equivalent", "statement": "Running the same calls against the in-memory and the RocksDB datastore gives the same results (the property the repo's fuzzer compares).", "quantifier": "every sequence of API calls", "why_tests_cant": "unbounded histories; the fuzzer samples", "anchors": ["lib/fuzz/fuzz_targets/compare.rs", "lib/src/memory/datastore.rs", "lib/src/rdb/datastore.rs"]}
{"id": "C29", "title": "RocksDB datastore: operations are crash-atomic", "statement": "If the process dies at any point during any sequence of calls, reopening gives exactly the stored data after some prefix of the calls (all calls that have returned, if the process dies; if power is lost, possibly fewer): a call is never half applied, whatever number of keys it writes. If all values written can be read back, the reopened database is in exactly the state after that prefix, including its set of indexed names.", "quantifier": "every history, every crash point", "why_tests_cant": "crash points cannot be enumerated by tests", "anchors": ["lib/src/rdb/datastore.rs: every method performs a single db.write(batch)"]}
{"id": "C30", "title": "RocksDB datastore: reopening preserves everything", "statement": "Closing and reopening a database gives the same vertices, edges, properties, and the same set of indexed names with working indexes.", "quantifier": "every reachable state", "why_tests_cant": "all states; also requires the set of indexed names to round-trip through its byte format", "anchors": ["lib/src/rdb/datastore.rs: new_db, new_db_with_options", "lib/src/rdb/managers.rs: MetadataManager::{get,set}_indexed_properties"]}
{"id": "C31", "title": "RocksDB datastore: interrupted creation is recoverable", "statement": "If the process dies while a new database is being created, opening the same path again succeeds.", "quantifier": "every crash point of new_db / new_db_with_options", "why_tests_cant": "crash points", "anchors": ["lib/src/rdb/datastore.rs: new_db, CF_NAMES"]}
{"id": "C32", "title": "Memory datastore: sync/read round trip and crash safety", "statement": "After sync() succeeds, read_msgpack_db(path) yields a database with the same contents; if the process dies at any point of sync(), the file is still the previous image or the complete new one; sync() on a database without path does nothing.", "quantifier": "every state, every crash point of sync", "why_tests_cant": "crash points and all states", "anchors": ["lib/src/memory/datastore.rs: sync, read_msgpack_db, create_msgpack_db"]}
{"id": "C33", "title": "Memory datastore: calls are linearizable", "statement": "Any concurrent execution of API calls gives each call the result, and the database the state, of some sequential execution of the same calls that respects the order of non-overlapping calls.", "quantifier": "every number of threads, every program per thread, every interleaving", "why_tests_cant": "schedules cannot be enumerated", "anchors": ["lib/src/memory/datastore.rs: Arc<Mutex<InternalMemory>>, transaction()", "lib/src/database.rs: every Database method takes one transaction"]}
{"id": "C34", "title": "RocksDB datastore: concurrent calls are linearizable", "statement": "Any concurrent execution of API calls on the RocksDB datastore is equivalent to some sequential execution.", "quantifier": "every interleaving of reads and batch writes of concurrent calls", "why_tests_cant": "schedules cannot be enumerated", "anchors": ["lib/src/rdb/datastore.rs: create_vertex, create_edge (check then write without isolation)"]}
{"id": "C35", "title": "Memory datastore: no API call panics or poisons the database", "statement": "No sequence of API calls panics; in particular reading properties never takes the database down.", "quantifier": "every sequence of API calls", "why_tests_cant": "the failing input is a single id out of 2^128 or a particular call order", "anchors": ["lib/src/memory/datastore.rs: all_vertex_properties_for_vertex (next_uuid().unwrap()), delete_vertex_properties (debug_assert!(get_mut().unwrap())), transaction (lock().unwrap())"]}
{"id": "C36", "title": "Key encoding is injective, prefix-safe and self-delimiting", "statement": "Different vertices, edges, properties and index entries are stored under different byte keys; scanning the byte prefix of an owner (vertex id, edge, property name, property name+value hash) yields exactly that owner's entries; decoding a key returns what was encoded.", "quantifier": "all ids, identifiers up to 255 bytes, values", "why_tests_cant": "all byte strings", "anchors": ["lib/src/util.rs: Component::write, build, read_uuid, read_identifier, read_fixed_length_string, read_u64", "lib/src/rdb/managers.rs: key functions, take_with_prefix"]}
{"id": "C37", "title": "next_uuid is the successor", "statement": "next_uuid(u) is the least id greater than u, and fails exactly for the greatest id.", "quantifier": "all 2^128 ids", "why_tests_cant": "2^128 inputs", "anchors": ["lib/src/util.rs: next_uuid"]}
{"id": "C38", "title": "Paging through vertices visits each exactly once", "statement": "Repeatedly issuing RangeVertexQuery with a limit k>=1 and start_id = next_uuid(last id seen), from the smallest id until a page is empty or the last id has no successor, yields exactly the AllVertex result, for every page size.", "quantifier": "every state, every page size; both datastores", "why_tests_cant": "all states and page sizes, ids with trailing 0xff bytes", "anchors": ["lib/src/database.rs: query (RangeVertex)", "lib/src/util.rs: next_uuid"]}
{"id": "C39", "title": "Identifier::new accepts exactly the documented strings", "statement": "Identifier::new(s) succeeds exactly if s has at most 255 bytes and consists of letters, digits, '-' and '_'; too long is reported before bad characters; the accepted identifier reads back as s; equal strings give equal identifiers.", "quantifier": "all strings", "why_tests_cant": "all strings", "anchors": ["lib/src/models/identifiers.rs: Identifier::new, as_str, from_str, try_from"]}
{"id": "C40", "title": "JSON equality is an equivalence consistent with hashing", "statement": "Json == is reflexive, symmetric and transitive, and equal values have equal hashes (the contract of Eq/Hash, on which hash-map lookups of indexed values rely).", "quantifier": "all JSON values", "why_tests_cant": "all values; fails only for numeric corner cases", "anchors": ["lib/src/models/json.rs: partial_cmp, hash, impl Eq for Json"]}
{"id": "C41", "title": "JSON hashing distinguishes different values", "statement": "Values that are not equal feed different input to the hasher.", "quantifier": "all pairs of JSON values", "why_tests_cant": "all pairs", "anchors": ["lib/src/models/json.rs: hash"]}
{"id": "C42", "title": "Protobuf conversion round-trips", "statement": "Converting any query (any depth), output value, vertex, edge, property, bulk item or set-properties request to its protobuf message and back gives the original.", "quantifier": "all values; identifiers valid, JSON values that survive printing and parsing", "why_tests_cant": "unbounded query depth", "anchors": ["proto/src/converters.rs"]}
{"id": "C43", "title": "Protobuf conversion rejects malformed messages", "statement": "A message with a missing required field at any depth, an id that is not 16 bytes, an invalid identifier or invalid JSON is rejected with an error; whatever is accepted contains only valid identifiers.", "quantifier": "all messages of any depth", "why_tests_cant": "unbounded depth", "anchors": ["proto/src/converters.rs: required_field, TryInto impls"]}
{"id": "C44", "title": "Server bulk_insert is all-or-nothing with respect to bad input", "statement": "If any item of a streamed bulk insert is malformed or the stream breaks, the call fails and the database is unchanged; otherwise the effect is that of one bulk_insert of all items in order.", "quantifier": "every stream of items, every position of the bad item", "why_tests_cant": "all streams", "anchors": ["proto/src/server.rs: bulk_insert", "proto/src/client.rs: bulk_insert"]}
{"id": "C45", "title": "Going through client and server equals calling the library", "statement": "Each client call returns what the corresponding library call returns on the server's database, in the same order, and has the same effect; library errors become internal statuses.", "quantifier": "every state, call, query of any depth", "why_tests_cant": "unbounded queries, all states", "anchors": ["proto/src/server.rs", "proto/src/client.rs"]}
{"id": "C46", "title": "Plugin vertex mapping visits each vertex exactly once", "statement": "If map() returns Ok the mapper ran successfully exactly once for every vertex of the database; if any executed mapper call fails, map() returns an error that a mapper call produced.", "quantifier": "every vertex list, mapper, number of threads and schedule of the pool", "why_tests_cant": "schedules", "anchors": ["plugins/host/src/util.rs: map", "plugins/naive_vertex_count/src/lib.rs"]}
{"id": "C47", "title": "Plugins with a different version are rejected", "statement": "new_with_plugins succeeds only if every library's version info equals the server's; then exactly the declared entries are callable, later libraries overriding earlier ones of the same name; unknown names give not_found.", "quantifier": "all lists of plugin libraries", "why_tests_cant": "all lists", "anchors": ["proto/src/server.rs: new_with_plugins, execute_plugin", "plugins/host/src/decl.rs"]}
{"id": "C48", "title": "Generated vertex ids are distinct", "statement": "Within a process, two ids generated by create_vertex_from_type differ unless at least 16384 ids are generated within one 100ns tick; create_vertex_from_type never overwrites an existing vertex but fails with UuidTaken.", "quantifier": "all sequences of clock readings", "why_tests_cant": "timing dependent", "anchors": ["lib/src/util.rs: generate_uuid_v1", "lib/src/database.rs: create_vertex_from_type"]}
{"id": "C49", "title": "Output helpers and direction names", "statement": "extract_vertices/edges/count/..._properties return the last output value iff it has the requested kind; EdgeDirection parses exactly \"outbound\" and \"inbound\" and printing and parsing are inverse.", "quantifier": "all outputs, all strings", "why_tests_cant": "all strings and outputs", "anchors": ["lib/src/util.rs: extract_*", "lib/src/models/queries.rs: EdgeDirection"]}
{"id": "C50", "title": "Larger limits extend smaller ones", "statement": "For range and pipe queries, the result with limit k is the first k elements of the result with any larger limit; limit 0 yields nothing; the limit arithmetic never under- or overflows.", "quantifier": "every state, query, pair of limits", "why_tests_cant": "all limits up to u32::MAX", "anchors": ["lib/src/database.rs: query (RangeVertex, Pipe)"]}
{"id": "C51", "title": "RocksDB datastore: indexes stay exact under concurrent calls", "statement": "After any concurrent execution of calls, when all have returned, an index query for a value lists exactly the owners whose property has that value (up to hash collisions), as it does for sequential use.", "quantifier": "every interleaving of concurrent calls on the RocksDB datastore", "why_tests_cant": "schedules cannot be enumerated by tests", "anchors": ["lib/src/rdb/datastore.rs: set_vertex_properties, set_edge_properties", "lib/src/rdb/managers.rs: VertexPropertyManager::set, EdgePropertyManager::set (read old value, then write batch)"]}
{"id": "C52", "title": "Queries return only identifiers and values that were written", "statement": "Every identifier (vertex or edge type, property name) and every JSON value in the outputs of a query occurs in an earlier call of the history (for RocksDB: is what such a value reads back as).", "quantifier": "every history of calls, every query, both datastores", "why_tests_cant": "all histories and queries", "anchors": ["lib/src/database.rs: get", "lib/src/memory/datastore.rs: Transaction impl", "lib/src/rdb/datastore.rs: Transaction impl", "lib/src/rdb/managers.rs"]}
{"id": "C53", "title": "Plugins that declare another interface version are rejected", "statement": "A library whose register_plugins! declaration names an interface version different from the server's is not loaded; otherwise its plugins are those declared.", "quantifier": "every declared version, every list of plugins", "why_tests_cant": "all versions and declarations", "anchors": ["plugins/host/src/decl.rs: register_plugins!, VersionInfo::default", "proto/src/server.rs: new_with_plugins"]}
{"id": "C54", "title": "Command line client: commands do what they say", "statement": "A command whose arguments are valid has on the server exactly the effect of the API call it stands for, and prints what the call returned: the created vertex or edge, the query result, or a failure if the id is taken, an endpoint is missing or the call failed. A command with an invalid id, identifier or JSON value fails before anything is sent. (Not included: queries against a server whose datastore has panicked.)", "quantifier": "all command lines, every server state reachable by calls, both datastores", "why_tests_cant": "all argument strings and all states", "anchors": ["client/src/main.rs: main, build_vertex_query, build_edge", "proto/src/client.rs"]}
{"id": "C55", "title": "Query constructors accept exactly the queries that can be evaluated", "statement": "A constructor of the query builder (outbound, inbound, include, properties, name, with/without..., count) succeeds iff the query it extends returns vertices or edges where the constructor needs them; for a query so built, the kind of its result (vertices, edges, properties, count) is determined by the query alone, and evaluating it either returns a value of that kind or fails for a reason that does not depend on the shape of the query (property not indexed, datastore panic).", "quantifier": "every query, every reachable state, both datastores", "why_tests_cant": "all queries of any depth", "anchors": ["lib/src/models/queries.rs: QueryExt, PipeQuery::new, PipePropertyQuery::new, output_type", "lib/src/database.rs: query"]}
{"id": "C56", "title": "Comparison of JSON values is a partial order", "statement": "For JSON values, a < b iff b > a, values of different kinds are incomparable, numbers are ordered by value, strings bytewise, arrays and objects lexicographically, and < is transitive and compatible with == (a <= b and b <= c imply a <= c, strictly if one step is strict).", "quantifier": "all triples of JSON values", "why_tests_cant": "all numbers and nested values", "anchors": ["lib/src/models/json.rs: partial_cmp, partial_cmp_by, PartialOrd for Json"]}
{"id": "C57", "title": "The server can be killed and started again at any moment", "statement": "Memory server with a persistence path: however often it is killed (also in the middle of a sync) and started again, it starts, holds exactly what the last successful sync saved (or, if killed during a later sync, possibly what that was saving), and answers as a database on which exactly those calls were made; a file that is not an image makes it refuse to start and is left alone; without a path nothing is saved and every start is empty. RocksDB server: however often the process dies in the middle of concurrent calls and is started again, it starts and holds the effect of whole calls: all that returned if only the process died, a prefix of them if power was lost. (Provided: values can be read back, no write fails in the final flush of the image, and on RocksDB, of calls that overlap and are not both queries, neither changes what the other looks at.)", "quantifier": "every number of sessions, every history of calls in each, every moment of death, both datastores", "why_tests_cant": "all histories and crash points of any number of runs", "anchors": ["server/src/main.rs: main", "lib/src/memory/datastore.rs: create_msgpack_db, read_msgpack_db, sync", "lib/src/rdb/datastore.rs: new_db", "proto/src/server.rs: run"]}
{"id": "C58", "title": "Concurrent calls never block each other forever", "statement": "However calls of any threads on one datastore interleave, there is no deadlock and no livelock: once no new calls are made, the calls under way take finitely many further steps, whatever the schedule, and every one of them returns; for the RocksDB datastore this holds whether or not the lock on the set of indexed names prefers writers.", "quantifier": "all concurrent executions of any number of calls, both datastores, both RwLock policies", "why_tests_cant": "all schedules", "anchors": ["lib/src/memory/datastore.rs: MemoryDatastore, transaction (mutex)", "lib/src/rdb/datastore.rs: indexed_properties (RwLock)", "lib/src/database.rs: Database methods"]}
{"id": "C59", "title": "RocksDB datastore: I/O errors are never hidden", "statement": "A call during which RocksDB reports I/O errors (reading a key, advancing an iterator, writing a batch, flushing) either does and returns exactly what it would have done without them, or returns an error and changes nothing: later calls behave as if it had not been made, and repeating it after the fault is gone has its full effect.", "quantifier": "every state, every call, every placing of I/O errors among its accesses to the database", "why_tests_cant": "faults at every access of every call cannot be enumerated by tests", "anchors": ["lib/src/rdb/datastore.rs: index_property, vertex_count, edge_count, Transaction impl", "lib/src/rdb/managers.rs"]}
{"id": "C60", "title": "RocksDB: no call panics, whatever is called and whatever goes wrong, and the database always opens again", "statement": "Whatever calls are made on a RocksDB datastore -- any queries (also such that the constructors would have refused), any property values (also such that cannot be read back), any overlap of calls, I/O errors of RocksDB at any moment, the process or machine dying at any moment and the database being opened again any number of times -- no call panics, in debug and release builds (so the lock on the set of indexed names is never poisoned), no call fails because of an entry that cannot be decoded, and every opening succeeds.", "quantifier": "all configurations (hash function, JSON codec, build), all lives of a database: all numbers of sessions, all calls, all interleavings, all I/O error patterns, all crash points and numbers of lost writes", "why_tests_cant": "The absence of panics has to hold for every reachable content of the database, including those only reached by races, failures and crashes; debug assertions and unwraps depend on the bytes stored.", "anchors": ["lib/src/rdb/managers.rs", "lib/src/rdb/datastore.rs", "lib/src/database.rs: query", "lib/src/util.rs: read_uuid, read_identifier"]}
{"id": "C61", "title": "Identifiers obtained by safe code are valid", "statement": "Every identifier that safe code can obtain (the constructor, parsing, conversion from a string, the default, deserialization) has at most 255 bytes and contains only letters, digits, dashes and underscores; and a vertex or edge created with an identifier obtained in this way is read back from a RocksDB datastore with the same identifier.", "quantifier": "every way of making an identifier, every string, every state of the datastore", "why_tests_cant": "a test deserializes a few short, well-formed identifiers; a length that overflows the one-byte length field, or a type cut in the middle of a character, is an unusual input", "anchors": ["lib/src/models/identifiers.rs: Identifier::new, FromStr, TryFrom, Default, Deserialize", "lib/src/util.rs: Component::write, read_identifier", "lib/src/models/edges.rs: Edge (derived Deserialize)", "lib/src/rdb/managers.rs: VertexManager, EdgeRangeManager"]}
{"id": "C62", "title": "A client that does not read its reply never holds up the server", "statement": "Whatever message a client sends as a query (if it is within the limits of gRPC and protobuf) and however slowly it reads the reply, or if it stops reading or disconnects: the server's task that sends the reply never waits for the client. A client that keeps reading receives the output values completely and in order; at any time it has received a beginning of the reply.", "quantifier": "every query message, every state of either datastore, every interleaving of sending, receiving and disconnecting", "why_tests_cant": "a test reads its replies at once; that the reply always fits into the channel depends on the nesting limit of messages and on the number of outputs of every query", "anchors": ["proto/src/server.rs: get, send, CHANNEL_CAPACITY", "lib/src/database.rs: query (outputs)", "proto/src/indradb.proto: Query"]}
{"id": "C63", "title": "RocksDB: an index never loses an owner, whatever overlaps, fails or crashes", "statement": "Once a property has been indexed while the index was exact (no values or items that C12 excludes), the query for its owners lists every vertex and edge that has it, and the query for a value lists every vertex and edge that has that value, at every later moment: whatever calls overlap in whatever way (also calls that are still running), whatever I/O errors occur, and however often the process or machine dies and the database is opened again. (Races may leave entries too many, C51, but never too few.)", "quantifier": "all histories up to the indexing, all numbers of sessions, all interleavings of all calls, all I/O errors, all crash points", "why_tests_cant": "a lost index entry needs a particular interleaving of two calls, or a crash between two writes", "anchors": ["lib/src/rdb/managers.rs: VertexPropertyManager, EdgePropertyManager, VertexPropertyValueManager, EdgePropertyValueManager", "lib/src/rdb/datastore.rs: index_property, set_properties, delete, bulk_insert, new_db"]}
{"id": "C64", "title": "RocksDB: a property indexed once stays indexed, and only index_property indexes it, while calls overlap", "statement": "With calls overlapping in any way and I/O errors at any moments: a property that was indexed when the database was opened, or for which an index_property has returned success, counts as indexed from then on: a call made later that looks up only such properties never reports that a property is not indexed. And as long as nobody has called index_property for a property that was not indexed, no call that looks it up succeeds.", "quantifier": "all lives of the database, all interleavings of all calls, all I/O errors, all queries (also those that the constructors refuse)", "why_tests_cant": "a lost update of the set of names needs two index_property calls to overlap in a particular way", "anchors": ["lib/src/rdb/datastore.rs: index_property, indexed_properties, vertex_ids_with_property, edges_with_property", "lib/src/database.rs: query (Error::NotIndexed)"]}
{"id": "C65", "title": "RocksDB: a call fails only for a reason the caller can see, while calls overlap", "statement": "If all values ever put in can be read back and there are no I/O errors, then, however calls overlap, a call fails only because its query looks up a property not known to be indexed when the call was made (Error::NotIndexed), because its query does not fit (Error::OperationOnQuery), or, for create_vertex_from_type, because the generated id is taken (Error::UuidTaken). In particular what other calls delete or change in the meantime never makes a call fail; index_property, create_vertex, create_edge, bulk_insert and sync always succeed. With I/O errors or unreadable values calls may in addition report an error of the datastore, and nothing else.", "quantifier": "all lives of the database, all interleavings of all calls, all queries and arguments", "why_tests_cant": "an error caused by another call's deletion in the middle of a query needs a particular interleaving", "anchors": ["lib/src/rdb/datastore.rs", "lib/src/rdb/managers.rs", "lib/src/database.rs", "lib/src/errors.rs"]}
{"id": "C66", "title": "Plugins leave the database working, and do what their code says", "statement": "A plugin may call every method of a transaction, with any arguments (also ones the API would not pass), as often as it likes and depending on what it has read. Whatever plugins and calls were run before, as long as the database is usable every call and every query afterwards works exactly as specified on the graph there is (creation, deletion, properties, traversals, filters, counts, paging, errors), on both datastores; and running a plugin does to the graph exactly the effects of the methods it called, in order, each method having seen the graph at that moment and returned what it should.", "quantifier": "all histories of calls and plugins, all plugins (arbitrary code over the transaction), all environments (hash orders, key lookups)", "why_tests_cant": "plugins are arbitrary programs calling the internal interface in combinations that the public API never produces", "anchors": ["plugins/host/src/decl.rs: Plugin::call", "proto/src/server.rs: execute_plugin", "lib/src/database.rs: Transaction", "lib/src/memory/datastore.rs", "lib/src/rdb/datastore.rs"]}
{"id": "C67", "title": "A plugin is a transaction: all or nothing, isolated, and its failure harms nobody else", "statement": "A plugin that returns an error has changed nothing; a plugin that panics does not make the database unusable for others; plugins running at the same time behave as if run one after the other; and if the process dies while a plugin runs, the database opened afterwards has all of its changes or none. (All four are false: see the refutations. What is true: on the memory datastore plugins are isolated (C68), and one that returns leaves it usable; a plugin that only reads changes nothing; and however plugins overlap on RocksDB, calls and queries go on working exactly.)", "quantifier": "all plugins, all states, all interleavings of plugins, all crash points", "why_tests_cant": "needs plugins that fail, overlap or are interrupted in the middle", "anchors": ["plugins/host/src/decl.rs: Plugin::call", "proto/src/server.rs: execute_plugin", "lib/src/memory/datastore.rs: transaction", "lib/src/rdb/datastore.rs: transaction"]}
{"id": "C68", "title": "Concurrent clients of a server on the memory datastore see requests one after the other", "statement": "However many clients send requests (library calls, pings, plugin calls) to a server on the memory datastore at the same time, all responses and the contents of the database are those of the same requests handled one after the other, in an order that respects which responses were sent before which requests arrived. A request whose client goes away has happened completely or not at all. Two handlers never work on the data at the same time.", "quantifier": "all numbers of clients and requests, all interleavings of the handlers' steps, all moments at which handlers are dropped, all plugins", "why_tests_cant": "needs interleavings of handlers and cancellations at particular moments", "anchors": ["proto/src/server.rs: IndraDb for Server", "lib/src/database.rs: Database", "lib/src/memory/datastore.rs: transaction", "plugins/host/src/decl.rs"]}
{"id": "C69", "title": "RocksDB: index_property misses no owner, whatever calls overlap with it", "statement": "When index_property(n) returns success, every vertex and every edge that existed before it was called, and still exists, is found by the query for the owners of n if it has the property: whether the property was set before, by a call overlapping with index_property, or afterwards. Likewise for queries by value, for values read back as they were put in. (A vertex or edge being created by an overlapping call is not claimed to be found: its properties are only looked up in the index build if it was there.)", "quantifier": "all databases (any earlier sessions, I/O errors and crashes), all vertices and edges, all interleavings of index_property with other calls", "why_tests_cant": "a missed owner needs a write between the moment the name is made known and the moment the owner is looked at", "anchors": ["lib/src/rdb/datastore.rs: index_property, set_vertex_properties, set_edge_properties", "lib/src/rdb/managers.rs: VertexPropertyManager::set, EdgePropertyManager::set"]}
{"id": "C70", "title": "RocksDB queries that overlap other calls report only what was true at moments during the call", "statement": "While calls overlap, a query on a RocksDB datastore is not a snapshot; but every single thing it reports was so at some moment between the call and its return: each vertex existed with the reported type, each edge existed or was listed by an index, the properties reported for one vertex or one edge were all its properties at one and the same moment, the edges reported at one vertex are those of one moment, a count of all vertices or of all edges was the exact number at one moment. And nothing there all the time is missed: ids given, vertices listed by a full scan, edges at a vertex.", "quantifier": "all databases reached in any lives with crashes and I/O errors, all sets of overlapping calls, all interleavings, all queries", "why_tests_cant": "Tests run a query on a database nobody else is using; what it may mix of different moments depends on the interleaving.", "anchors": ["lib/src/rdb/datastore.rs: impl Transaction for RocksdbTransaction", "lib/src/database.rs: Database::get", "lib/src/rdb/managers.rs: iterate/get functions"]}
{"id": "C71", "title": "The server answers every request whose client stays", "statement": "Whatever requests arrive at a gRPC server on a memory datastore, whatever plugins do (including returning errors and panicking) and whatever clients go away: the server does not deadlock or go round in circles; once the requests that have arrived have taken all the steps they can, each of them whose client did not go away has got its response, and it is the response of a one-at-a-time execution.", "quantifier": "all sets of requests, plugins that end, clients going away at any time, all interleavings", "why_tests_cant": "Needs an argument over all schedules; a lost wakeup or a lock left behind by a panicking plugin or a dropped request shows only in some.", "anchors": ["proto/src/server.rs: impl Indradb for Server", "lib/src/memory/datastore.rs: MemoryDatastore::transaction", "plugins/host/src/decl.rs: Plugin::call"]}
{"id": "C72", "title": "RocksDB: transactions and plugins overlapping with library calls", "statement": "A process (the server, or an application embedding the library) may use a RocksDB datastore through library calls and through transactions (plugins) at the same time, with all accesses to the database interleaving, I/O errors at any moments, and the process dying at any moment. Whatever they do: no call and no item of an iterator panics or fails because of data that cannot be decoded, transaction methods report no errors but I/O errors (and none without I/O errors) if only readable values are written, the database can be opened again after any crash, the state at every moment is one on which all calls work as they should, an index once built loses no owner, every call returns, and a call nobody interferes with does what it does alone.", "quantifier": "all tasks (any code calling library functions and transaction methods), all interleavings of their accesses, all I/O errors and crash points", "why_tests_cant": "Tests run one plugin at a time; half-done work of one transaction seen by another depends on the interleaving.", "anchors": ["lib/src/rdb/datastore.rs: RocksdbTransaction", "lib/src/database.rs: Datastore::transaction", "proto/src/server.rs: execute_plugin"]}
{"id": "C73", "title": "What transactions and overlapping library calls report was true during the call (RocksDB)", "statement": "In a process that uses a RocksDB datastore through library calls, transactions and plugins at the same time, a call that succeeds reports only what was true while it was under way: a scan of a transaction (all_vertices, range_edges, all_vertex_properties_for_vertex, ...) and the lookup of a single property tell the truth about one moment of the call; lookups by id tell, for each id, the truth about some moment of the call; index lookups list what the index listed at one moment of the call; and queries through the library are made up of such observations. No method mixes in anything from before or after the call, whatever the other tasks do and whatever I/O errors they meet.", "quantifier": "all lives of a database (sessions of tasks that mix library calls and transaction methods, ended by crashes), all tasks, interleavings and I/O errors of other tasks, all calls and arguments", "why_tests_cant": "tests cannot enumerate the interleavings of calls, plugins and threads with the accesses of a call", "anchors": ["lib/src/rdb/datastore.rs:53-361 RocksdbTransaction", "lib/src/rdb/managers.rs", "lib/src/database.rs:200-207 Datastore::transaction", "proto/src/server.rs:298-305 execute_plugin"]}
{"id": "C74", "title": "Which properties are indexed, and why calls fail, while transactions and library calls overlap (RocksDB)", "statement": "In a process that uses a RocksDB datastore through library calls, transactions and plugins at the same time: once an index_property, of the library or of a transaction, has returned success, the property stays indexed, and a call made later that looks it up, in a library query or in a transaction, never reports that it is not indexed (transactions report this by None, library calls by an error); as long as nobody calls index_property for a name, every call that looks it up reports that it is not indexed, or fails. If values can be read back and no I/O error occurs, a library call fails only because it looks up a property not known to be indexed, because its query does not fit, or because a generated id is taken, whatever transactions do meanwhile.", "quantifier": "all lives of a database, all tasks mixing library calls and transaction methods, all interleavings, I/O errors (except in the last sentence), names and queries", "why_tests_cant": "tests cannot enumerate the interleavings of an index build in one task with lookups in others", "anchors": ["lib/src/rdb/datastore.rs: index_property, vertex_ids_with_property, vertex_ids_with_property_value, edges_with_property, edges_with_property_value", "lib/src/database.rs: query", "lib/src/errors.rs: Error::NotIndexed"]}
{"id": "C75", "title": "index_property misses no owner while transactions and library calls overlap (RocksDB)", "statement": "In a process that uses a RocksDB datastore through library calls, transactions and plugins at the same time: when index_property(n), of a transaction or of the library, returns success, every vertex and edge that existed before it was called, and still exists, is found by the query for the owners of n if it has the property, whether it was set before, by a transaction or library call overlapping with index_property, or afterwards. Likewise for queries by value, for values read back as they were put in. (Without I/O errors in the present session.)", "quantifier": "all lives of a database, all tasks, all interleavings, vertices, edges, names and values", "why_tests_cant": "a missed owner needs a write of another task between the moment the name is made known and the moment the owner is looked at", "anchors": ["lib/src/rdb/datastore.rs: index_property, set_vertex_properties, set_edge_properties, bulk_insert", "lib/src/rdb/managers.rs: VertexPropertyManager::set, EdgePropertyManager::set", "proto/src/server.rs:298-305 execute_plugin"]}
{"id": "C76", "title": "The gRPC server on a RocksDB datastore serving overlapping requests", "statement": "A server on a RocksDB datastore serves any number of requests at once (pings, library requests, plugins), clients may go away, accesses of the database may fail with I/O errors, and the server may be killed at any moment and started again. Requests that cannot be converted are answered with that error and do not touch the database. No response reports a panic, and no query stream is empty. The response to a query is one error or the encoded outputs of the query as it may have observed the database at moments between its arrival and its response; the response to a plugin request is what the code of the plugin returns if its calls return what was true at such moments. Once an index_property request has been answered with success, no later request is refused because the property is not indexed, and the query for its owners lists every vertex and edge with the property that was created before. A library request fails only for the documented reasons. If nobody else changes the database while a request is served, what it does and answers is what a server handling one request at a time does. At every moment the database works exactly as it should, and after a kill the next server finds the contents of that moment.", "quantifier": "all sets of requests and plugins, all interleavings of their accesses to the database, all clients going away, all I/O errors (except where a statement says there are none in the present run), all kill points", "why_tests_cant": "tests of the server send one request after the other; what overlapping requests see depends on the interleaving of the accesses of their handlers", "anchors": ["proto/src/server.rs: impl Indradb for Server", "lib/src/rdb/datastore.rs: RocksdbDatastore::transaction, RocksdbTransaction", "lib/src/database.rs: Database", "plugins/host/src/decl.rs: Plugin::call"]}
{"id": "C77", "title": "The gRPC server on a RocksDB datastore answers every request whose client stays", "statement": "Whatever requests have arrived at a server on a RocksDB datastore, whatever plugins do (including panics), whatever I/O errors occur, whichever clients go away, and whether or not the lock on the set of indexed names lets readers overtake a waiting writer: if the tasks of the requests are scheduled, then after finitely many steps every request whose client stays has been answered, no task is inside a call, and no lock is held.", "quantifier": "all sets of overlapping requests and plugins, all interleavings, I/O errors and clients going away", "why_tests_cant": "a deadlock or a lost response needs a particular interleaving of locks and panics", "anchors": ["proto/src/server.rs: impl Indradb for Server", "lib/src/rdb/datastore.rs: RocksdbTransaction (indexed_properties lock)", "plugins/host/src/decl.rs: Plugin::call"]}
{"id": "C78", "title": "RocksDB databases containing values that cannot be read back work, and refuse exactly what they must", "statement": "A RocksDB datastore accepts property values that it cannot read back (with serde_json, values nested more than 127 levels deep). Whatever values were written, by calls one after the other or by overlapping library calls, transactions, plugins and requests, with I/O errors and kills: a call that must read such a value (asking for it, replacing it if the name is indexed, deleting its vertex or edge, indexing its name) fails with an error of the datastore and changes nothing, except that a failing index_property makes the name count as indexed until the database is opened again; every other call does exactly what it should; queries that ask for no properties are never refused. Index queries list all owners with the property, readable or not. A value that cannot be read, of an indexed name, can never be replaced or deleted by any calls, nor can its vertex.", "quantifier": "all histories writing arbitrary values, all overlapping executions, crash points and I/O errors, all calls made afterwards", "why_tests_cant": "tests write values that can be read; one unreadable value changes which of all later calls work", "anchors": ["lib/src/rdb/managers.rs: VertexPropertyManager, EdgePropertyManager (serde_json::from_slice)", "lib/src/rdb/datastore.rs: set_vertex_properties, delete_vertices, delete_edges, index_property, bulk_insert", "lib/src/database.rs"]}
{"id": "C79", "title": "RocksDB: what overlapping reads report despite I/O errors and unreadable values", "statement": "On the RocksDB datastore, while other calls, transactions and requests overlap it, after any crashes, whatever values are stored and whatever I/O errors RocksDB reports - also inside the call itself: a library query, and a query served over gRPC, that succeeds reports only what was true at moments of the call (every vertex, edge and property it lists was there; nothing that was there all the time is missing beyond its limit), and a reading method of a transaction returns the truth of such moments, at most cut short by an I/O error as its last item. A stored value that cannot be read back is never reported as something else. The only exception are calls that count all vertices or all edges: they count the error of a failing iterator as an entry.", "quantifier": "all histories of sessions with crashes, all schedules of overlapping tasks and requests, all I/O errors, all property values, all queries and reading methods", "why_tests_cant": "An I/O error can strike any single read of any stage of any query, at any moment relative to all other calls; tests inject a few.", "anchors": ["lib/src/rdb/datastore.rs:RocksdbTransaction", "lib/src/rdb/managers.rs", "lib/src/util.rs", "lib/src/database.rs:query"]}
{"id": "C80", "title": "A bulk insertion through the client inserts all items or none, and reports what happened, under every schedule", "statement": "Client::bulk_insert sends its items one by one from a spawned task through a bounded channel and the gRPC transport, while the server collects them. Under every interleaving of the task, the transport, the server and the caller, wherever the connection breaks and whenever the caller gives up: the server's library is called at most once, and only with all items, in order. The call returns Ok only if that library call was made and returned Ok; an error is always a gRPC status, never a closed channel, and if the connection holds, it is the error of the library or that of the first item that could not be received, and then nothing was inserted. The call always comes to its end: at most 3k+9 steps for k items, and until then something can happen other than a failure of the connection, even if the server stops reading while the channel is full. (Provided the runtime of the client does not drop the sending task.)", "quantifier": "every list of items (any length, against a channel of 100 and any flow control window of at least one message), every schedule, every point where the connection breaks or the caller gives up", "why_tests_cant": "Whether a prefix of the items can be taken for the whole, or the error of the sending task can mask the server's, depends on the order in which four parties move; tests see one schedule, with few items.", "anchors": ["proto/src/client.rs: Client::bulk_insert", "proto/src/server.rs: Server::bulk_insert, map_conversion_result, map_jh_indra_result"]}
{"id": "C81", "title": "Several servers with the same persist path never see or leave a damaged image", "statement": "Any number of processes indradb-server memory --persist-path P with the same P are started, called, killed (also in the middle of a write) and started again at any moments, and their syncs interleave system call by system call. No server is ever refused because of what it finds in the file; each starts with exactly the database one server had at one moment (or an empty one if there was no file when it looked), and answers accordingly; a sync that returns Ok has replaced the file by the database of its server at one moment between its call and its return, and one that returns an error has not touched it. And what a sync that returned Ok has saved is there when a server is started afterwards. (The last sentence is false: another server's sync replaces the file as a whole, without error. It holds as long as only one of the servers uses sync.)", "quantifier": "any number of servers, all interleavings of their system calls, all calls, all points where a process is killed, all I/O errors that sync reports", "why_tests_cant": "The damage would need two processes to write at the same time, or one to start in the middle of another's sync; tests use one process.", "anchors": ["lib/src/memory/datastore.rs: sync, read_msgpack_db, create_msgpack_db", "server/src/main.rs: main"]}
{"id": "C82", "title": "A query through the client returns the whole reply or an error, under every schedule", "statement": "Client::get collects output values that the server sends one by one from a blocking task through a bounded channel and the gRPC transport. Under every interleaving of the task, the channel, the transport and the caller, wherever the connection breaks and whenever the caller gives up: if the server's library call returned outputs and the client call returns Ok, it returns all of them, in order (the same ones, if identifiers are valid and values survive printing and parsing) - a reply cut short is never taken for a whole one. An error is that of the library call, that of an output that cannot be received, or a broken connection. If the connection holds, the outcome is that of the one-step account of client and server. The call always comes to its end: at most 3k+6 steps for k outputs, and until then something can happen other than a failure of the connection, however small channel and window are; a caller that gave up never keeps the server's task waiting. (A library call that panics is excepted: it gives Ok with no outputs, see C45.)", "quantifier": "every reply (any number of outputs, against a channel of 100 and any flow control window of at least one message), every schedule, every point where the connection breaks or the caller gives up", "why_tests_cant": "Whether the end of a broken stream can be taken for the end of the reply, or a full channel blocks for ever, depends on the order in which four parties move; tests see one schedule.", "anchors": ["proto/src/client.rs: Client::get", "proto/src/server.rs: Server::get, send, CHANNEL_CAPACITY"]}
{"id": "C83", "title": "Starting the server: it serves exactly if everything is in order, and a failed start does no harm", "statement": "indradb-server, for both datastores, whatever the operating system, RocksDB and the plugin libraries answer: it serves requests exactly if there is an address to listen on, the database can be had, and every library that matches --plugins loads and has the server's version; it then serves just that database (the saved one, or an empty one if there is none) with just the plugins declared (the last library winning). If it does not start, the error names something that is the case. A start - successful, failed or killed on the way - touches no file; it leaves a complete RocksDB database as it is; without an address (for instance a second server on the same one) it touches nothing at all; while another process has the RocksDB database open it is never served and not changed; after any number of failed starts the next one finds the same data. --repair never ends in serving. And a server with a persist path where a database is saved starts with that database or not at all. (The last sentence is false: if the file cannot be looked at - no permission, an unmounted volume behind a link, an error of the file system - the server starts with an empty database, and its next sync replaces the saved one.)", "quantifier": "all command lines, all states of the disk, all answers of the operating system, RocksDB, glob and the plugin libraries, all points where the start is killed", "why_tests_cant": "A start depends on the answers of half a dozen parties that tests do not vary.", "anchors": ["server/src/main.rs: main, run_server", "proto/src/server.rs: run, run_with_plugins, Server::new_with_plugins", "lib/src/rdb/datastore.rs: new_db_with_options", "lib/src/memory/datastore.rs: read_msgpack_db, create_msgpack_db"]}
{"id": "C84", "title": "Whatever the query, everything in its reply is true", "statement": "Both datastores, every reachable state, every query however nested, every output of the reply (those of the includes, too): each vertex listed exists with the type shown, each edge listed exists, each property shown with an owner is one the owner has, with exactly this value, no name twice, and no owner is shown without a property - all in the sense that asking for the single vertex, edge or property confirms it. (False for edges listed by a property: EdgeWithPropertyPresence in memory, and EdgeWithPropertyPresence and EdgeWithPropertyValue in RocksDB, list edges that do not exist.)", "quantifier": "all queries, all reachable states of both datastores, all hash iteration orders", "why_tests_cant": "Queries nest without bound and run over any contents.", "anchors": ["lib/src/database.rs: query", "lib/src/memory/datastore.rs: edges_with_property, vertices_with_property", "lib/src/rdb/datastore.rs: edges_with_property, edges_with_property_value"]}
{"id": "C85", "title": "== on queries, bulk items and replies: laws, and what it tells", "statement": "== on Vertex, NamedProperty, VertexProperties, EdgeProperties, QueryOutputValue, BulkInsertItem and Query is reflexive and symmetric for all contents; vertices are == exactly if they have the same id, and then hash alike; outputs obtained in one state of a database by whatever queries are identical if they are ==. In general, == is transitive, == replies are identical, == queries have the same reply, and inserting == items has the same effect. (The last sentence is false: numbers above 2^53 break transitivity, the type of a vertex is not compared, and 3 == 3.0 although value queries tell them apart.)", "quantifier": "all values of these types, all pairs of queries, all reachable states of both datastores", "why_tests_cant": "The laws range over all JSON numbers and unboundedly nested queries.", "anchors": ["lib/src/models/vertices.rs: PartialEq for Vertex, Hash for Vertex", "lib/src/models/properties.rs", "lib/src/models/queries.rs: Query, QueryOutputValue", "lib/src/models/bulk_insert.rs: BulkInsertItem", "lib/src/models/json.rs: PartialEq for Json"]}
{"id": "C86", "title": "RocksDB: what a property index lists was true once", "statement": "Under arbitrarily overlapping library calls and transactions, I/O errors at any moments and any number of crashes, a vertex or edge listed by the query for the owners of an indexed property had this property in some earlier (or the present) state of the database. Listed by the query for a value, it had the property with a value of the same hash; the only exception is an owner whose property was set to such a value and then to a different one within a single bulk insertion.", "quantifier": "all sequences of sessions with all interleavings, I/O errors and crash points, all owners, names and values that are read back with the same hash", "why_tests_cant": "Stale index entries appear only under particular interleavings; that none is ever made up quantifies over the whole history, including states that were lost in crashes.", "anchors": ["lib/src/rdb/managers.rs: VertexPropertyManager::set, EdgePropertyManager::set, VertexPropertyValueManager::set", "lib/src/rdb/datastore.rs: bulk_insert, index_property, set_vertex_properties, set_edge_properties"]}
{"id": "C87", "title": "Memory: a damaged or unfinished image is never mistaken for a database", "statement": "Whatever happens during sync() - it completes, an I/O error is reported, an I/O error is swallowed because the last bytes are written by a destructor, or the process is killed anywhere -, read_msgpack_db() on the file afterwards gives what it gave before, or exactly the database that was saved, or an error: never any other database. And after a sync() that returned Ok without I/O errors the file can be read and gives the database that was saved.", "quantifier": "all histories of calls, all iteration orders and lookups of the hash maps, all splittings of the image into writes, all I/O outcomes and kill points, all values", "why_tests_cant": "Whether some cut image happens to parse as a smaller database is a property of the byte format for all databases and all cut points; tests only try a few files.", "anchors": ["lib/src/memory/datastore.rs: sync, read_msgpack_db, InternalMemory", "lib/src/models/identifiers.rs: Deserialize", "lib/src/models/json.rs: Serialize, Deserialize", "lib/src/models/edges.rs: Edge"]}
{"id": "C88", "title": "Memory server: serves what was saved or does not start, whatever happens to the file", "statement": "A server with a persist path that is started and killed any number of times, with I/O errors of every kind including those of the last write of a sync (which the code ignores), answers every call exactly as a database on which the calls of one history were made. That history begins with what some earlier sync saved (the last one that returned Ok, or one during which the server was killed) and continues with the calls since the start. sync returns Ok exactly if no I/O error was reported and no call has panicked. If the last bytes of an image were lost, the next start is refused; the server never serves part of an image.", "quantifier": "all sequences of starts, calls, kills between and during calls, all kill points and splittings of the image into writes, all I/O outcomes; values nested less than 1017 levels (gRPC: less than 128), images below 4 GiB", "why_tests_cant": "Quantifies over unbounded lives of a process, all crash points and all images; a damaged image that parses would be a silent loss of data.", "anchors": ["server/src/main.rs: main", "lib/src/memory/datastore.rs: sync, read_msgpack_db, create_msgpack_db", "proto/src/server.rs"]}
{"id": "C89", "title": "A call fails exactly if a part of its query cannot be evaluated, with the error of that part", "statement": "For every query, however deep: get fails exactly if one of the queries it is made of fails by itself, that is, although what it is applied to can be evaluated: it asks for a property name that is not indexed (NotIndexed), it is applied to a value of the wrong kind (OperationOnQuery), or, in the memory datastore, it lists all properties of the vertex with the greatest id (panic). There is at most one such part, and the error is that part's. delete and set_properties fail exactly then, or if the value of their query is of the wrong kind; create_vertex_from_type exactly if the id is taken; no other call fails. (Memory datastore, debug builds: writes can also panic for the reasons in C35.)", "quantifier": "all reachable states, all calls, all queries, of any depth; RocksDB: values that can be read back (others: C78)", "why_tests_cant": "Quantifies over all query trees and all database states; tests try a few queries.", "anchors": ["lib/src/database.rs: query, delete, set_properties, get", "lib/src/errors.rs"]}
{"id": "C90", "title": "A value kept or sent as JSON text comes back as itself, or is refused", "statement": "For every JSON value: what the RocksDB datastore writes for it on disk, and what the gRPC interface sends for it, is read as the same value (same structure, keys, strings with any characters, and 64 bit integers), except that each float becomes what its printed digits are read as; it is refused exactly if it is nested more than 127 levels deep or one of its floats cannot be read. No value is ever read as a value of another shape, the text is always valid UTF-8, and different values have different texts. Hence on a RocksDB datastore into which only values of at most 127 levels with exactly printed floats are written, queries return what set_properties wrote; and every deeper value is accepted by set_properties and then cannot be read.", "quantifier": "all JSON values, of any size and depth; all ways floats are printed and read; all reachable states and calls", "why_tests_cant": "The set of values is infinite (strings with all bytes, numbers up to 64 bits, any nesting); tests try a few.", "anchors": ["lib/src/rdb/managers.rs: VertexPropertyManager::{get, set, iterate_for_owner}, EdgePropertyManager::{get, set, iterate_for_owner}", "proto/src/converters.rs: From<Json>, TryInto<Json>", "lib/src/models/json.rs: Serialize, Deserialize, FromStr"]}
{"id": "C91", "title": "A floating-point property value comes back bit for bit", "statement": "For every finite float: after set_properties with this float (alone or inside arrays and objects) on a RocksDB datastore, queries return the same float, and likewise when it is sent over gRPC; an indexed property is found by the value that queries return for it. FALSE: serde_json is used without its feature float_roundtrip, and reads for example 9.060756452069219 as the next float. What holds: every float whose printed digits are below 2^53 (so every number of at most 15 digits) with a power of ten between -22 and 22 comes back unchanged.", "quantifier": "all finite floats; all printers of floats whose digits stand for the float; all reachable states and calls", "why_tests_cant": "There are 2^64 floats and about a tenth of them is affected, but none of the round numbers that tests use.", "anchors": ["lib/Cargo.toml: serde_json without float_roundtrip", "proto/Cargo.toml: serde_json", "lib/src/rdb/managers.rs: VertexPropertyManager::{get, set}, EdgePropertyManager::{get, set}", "proto/src/converters.rs: From<Json>, TryInto<Json>"]}
{"id": "C92", "title": "Exactly the JSON texts of RFC 8259 are accepted as values, with their standard meaning", "statement": "A string sent as a value over gRPC or given on the command line, and bytes read back from a RocksDB datastore, are accepted exactly if they are a JSON text by the grammar of RFC 8259 nested at most 127 levels deep, and then they are read as the value that the grammar gives: escapes and surrogate pairs decoded, of equal keys the last one, integers in the range of u64 or i64 as integers and every other number as a float. Every text has at most one meaning. A set_properties request with any other string is refused with INVALID_ARGUMENT and changes nothing; the command line client refuses it before it sends anything.", "quantifier": "all byte strings and strings; all readers of floats; all datastores, states and requests", "why_tests_cant": "There are infinitely many texts: nesting, escapes, white space and numbers combine freely, and tests only try a few.", "anchors": ["proto/src/converters.rs: TryInto<Json> for Json", "lib/src/models/json.rs: FromStr, Deserialize for Json", "lib/src/rdb/managers.rs: VertexPropertyManager::get, EdgePropertyManager::get", "client/src/main.rs: set vertex-property, set edge-property", "proto/src/server.rs: set_properties"]}
{"id": "C93", "title": "Numbers in JSON are read accurately, and a float that is stored or sent comes back within one part in 2^50", "statement": "The text of a number is read as exactly this number if it is an integer in the range of u64 or i64, and otherwise as a float with its sign and its magnitude up to six parts in 2^53 (and four times the smallest float); it is refused only if it is at least 2^1023. Every float below 2^1022 can be written with set_properties on a RocksDB datastore or sent over gRPC, alone or inside arrays and objects, and what queries return is the same value with each float off by at most one part in 2^50 (and five times the smallest float).", "quantifier": "all texts of numbers with fewer than 2^30 digits; all floats; all printers whose digits stand for the float; all values nested at most 127 levels; all reachable states and calls", "why_tests_cant": "There are infinitely many texts and 2^64 floats; digits beyond 64 bits, large and small exponents and subnormal numbers each take another path.", "anchors": ["lib/Cargo.toml: serde_json without float_roundtrip", "lib/src/rdb/managers.rs: VertexPropertyManager::{get, set}, EdgePropertyManager::{get, set}", "proto/src/converters.rs: From<Json>, TryInto<Json>", "lib/src/models/json.rs: FromStr, Deserialize"]}
{"id": "C94", "title": "Messages survive being turned into bytes: every call through the gRPC client and server means the same on both sides, and what does not fit is refused", "statement": "Every message of the protocol is read from its bytes as the message that was written, if it is nested at most 100 levels deep, and refused otherwise; its length is what the limit of 4 MiB counts; different queries have different bytes; fields of later versions of the protocol are ignored, in the message itself and in those inside it. A history of calls through client and server, with every message encoded and decoded, leaves the database as the calls whose messages fit do in the library, and the client reports what the library returned; calls that do not fit are refused without effect.", "quantifier": "all messages of fewer than 2^64 bytes, all histories of calls on either datastore with valid identifiers and values that survive printing and parsing", "why_tests_cant": "There are infinitely many messages, of any depth and length; default values left out, several bytes of a length and the recursion limit only show in some of them.", "anchors": ["proto/indradb.proto: all messages", "proto/src/server.rs: Server", "proto/src/client.rs: Client", "Cargo.lock: prost 0.13.4, tonic 0.12.3"]}
{"id": "C95", "title": "The command line client takes every usual text of an id and no other string, and an id it prints can be given back to it", "statement": "The client accepts 32 hexadecimal digits in either case, plain or with hyphens after 8, 12, 16 and 20 digits, the latter also in braces or after urn:uuid:, and reads the id they spell; every other string is refused before anything is sent. The text of an id that is printed is lower case with hyphens, is its only such text, and is read as that id; different ids are printed differently. So a vertex or an edge reported as created is found under every text of its ids.", "quantifier": "all strings, all ids, all histories of calls with valid identifiers and values that survive printing and parsing, on either datastore", "why_tests_cant": "There are 2^128 ids and infinitely many strings; one wrong position or one digit taken for another only shows for some of them.", "anchors": ["client/src/main.rs: run, build_vertex_query, build_edge", "Cargo.lock: uuid 1.12.0"]}
{"id": "C96", "title": "A session of command line invocations does exactly what the commands say, from the characters typed to the bytes sent and back", "statement": "However often the command line client is run against a server, each run either fails without effect because an argument is not an identifier, an id or a JSON text, or has exactly the effect of the API call the command stands for and prints what that call returned, or its error. A query that crashes prints no result. In particular the value given to 'set vertex-property' or 'set edge-property' is what 'get vertex-property' or 'get edge-property' prints afterwards, however the ids are spelled.", "quantifier": "all sequences of commands with any strings as arguments, over all states they lead to and all iteration orders, on either datastore; values whose floats are read back as written (C91, C93) and whose text is at most 4000000 bytes; fewer than 2^64 runs, or counts below 2^64", "why_tests_cant": "It composes four parsers and printers, two processes and a datastore over sessions of any length; a mistake in one layer may be undone by the test's own use of another.", "anchors": ["client/src/main.rs: run", "proto/src/client.rs: Client", "proto/src/server.rs: Server", "proto/src/converters.rs"]}
{"id": "C97", "title": "Nothing is in a database that was not put in, and there is never more in it than was put in", "statement": "Every vertex and every edge that a database lists was asked for by an earlier create or bulk_insert call, with the same id and type, and there are not more of them than were asked for; so the counts of all vertices and of all edges are at most the numbers of vertices and of edges that all calls so far were given to create.", "quantifier": "all histories of calls, all iteration orders, debug and release builds, both datastores", "why_tests_cant": "A test looks at what it put in itself, after a few calls; a vertex or an edge that comes out of a deletion, of a property write, or twice out of a listing can show up after any history.", "anchors": ["lib/src/memory/datastore.rs: create_vertex, create_edge, bulk_insert, all_vertices, all_edges", "lib/src/rdb/datastore.rs", "lib/src/database.rs: Database::get, Database::delete"]}
{"id": "C98", "title": "What was put into a database stays there until something is deleted or the same property is written again", "statement": "After create_vertex or create_edge returned true, every later listing contains that vertex or edge, and after set_properties succeeded every vertex and every existing edge of the query has the value, whatever calls follow, as long as none of them is a delete and none writes that property. (On RocksDB a bulk_insert of a vertex with the same id and another type is an exception for the type: see C27.)", "quantifier": "all histories of calls before and after, all queries, all iteration orders, debug and release builds, both datastores", "why_tests_cant": "A test writes and reads back at once, or after a few chosen calls; that no call of another kind ever drops or changes something is a claim about all of them in every order.", "anchors": ["lib/src/database.rs: create_vertex, create_edge, set_properties, bulk_insert, index_property", "lib/src/memory/datastore.rs", "lib/src/rdb/datastore.rs", "lib/src/rdb/managers.rs"]}
{"id": "C99", "title": "What was deleted is gone until it is put in again", "statement": "After a successful delete of a query, no listing contains a vertex with the id of one of the deleted vertices, or one of the deleted edges, until a create or bulk_insert call is given it again; and none of the deleted properties is found until a call writes it again. (On RocksDB an edge counts as deleted only if its outbound vertex exists: see C09.)", "quantifier": "all histories of calls before and after, all queries, all iteration orders, debug and release builds, both datastores", "why_tests_cant": "A test looks once, right after the deletion; that nothing brings a deleted thing back (a second copy of an edge, an index, a property left under an id that is used again) is a claim about all later calls.", "anchors": ["lib/src/database.rs: delete", "lib/src/memory/datastore.rs: delete_vertices, delete_edges, delete_vertex_properties, delete_edge_properties", "lib/src/rdb/datastore.rs", "lib/src/rdb/managers.rs"]}
