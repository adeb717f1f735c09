# IndraDB in Lean 4 — design

Source: `/repo` (indradb at the pinned commit, Rust, read as text only). Model and proofs: `/verif/lean/Verif`.

## 1. Layout

| directory | contents |
|---|---|
| `Verif/Base` | total orders and sorted maps (`SMap`), the model of `BTreeMap`/`BTreeSet`/a RocksDB column family |
| `Verif/Model` | the model of the code, one module per Rust module; every definition cites file and lines |
| `Verif/Spec` | the small independent specification: an abstract graph (`Graph`), its functional updates, and the relation `Answers` between a graph, a query and an acceptable result |
| `Verif/Proofs` | helper lemmas: key encoding, invariants, refinement |
| `Verif/Props` | the property theorems `Cnn_…`, each with non-vacuity examples, nothing else |

## 2. What is modelled

* `lib/src/database.rs` (`Model/Database`): the trait `Transaction` is a dictionary of reads (`Reads`) and writes; `query`
  (380–698) is a recursive function with the explicit output stack (push/pop, `unwrap` on an empty stack and the
  `limit - len` subtraction are explicit panics); all `Database` methods; the default `bulk_insert`.
* `lib/src/memory/datastore.rs` (`Model/Memory`, `Model/MemorySync`, `Model/MutexConc`): all functions, debug and release
  build (`debug_assert!` bodies run only in debug; `unwrap` failures are panics; a panic while the lock is held poisons the
  mutex). Hash iteration order is an arbitrary permutation that may be different for every call. `sync` is a list of system
  calls on a small file system, which may fail or be cut short at any point. Concurrent calls are a transition system with
  the mutex.
* `lib/src/rdb/*` (`Model/Prog`, `Model/Rocks`, `Model/RocksCall`, `Model/RocksConc`, `Model/RocksOpen`): all managers and
  transaction functions on the byte level: eight column families (sorted maps bytes → bytes), write batches (lists of puts
  and deletes), reads that do not see the batch, the in-memory set of indexed names, the metadata record, opening,
  reopening, creation of column families. A call is a *program* (`Prog`: get, scan, write, take the lock on the set of
  indexed names, …). `run` executes it without interference (sequential theorems); `Conc.Step` interleaves the accesses of
  any number of calls (C04, C29, C34, C51); crashes keep a prefix of the written batches.
* `lib/src/models/*`, `lib/src/util.rs`, `lib/src/errors.rs` (`Model/Types`, `Json`, `Query`, `Util`, `UuidV1`): identifiers,
  JSON comparison and hash input, queries with validating constructors, key components, `next_uuid`, UUID v1 packing,
  extract helpers.
* `proto/indradb.proto`, `proto/src/converters.rs`, `server.rs`, `client.rs` (`Model/Proto`, `Model/Server`): messages as prost
  generates them, conversions, all handlers and client calls, message sizes and nesting depths.
* `client/src/main.rs` (`Model/Cli`): the commands from the parsed command line on.
* `plugins/host/src/{decl,util}.rs`, plugin loading and `execute_plugin` of the server, the two example plugins
  (`Model/PluginMap`, a transition system with a thread pool; `Model/Plugins`).

Panics, errors and values are kept apart: `Res α = Except Fault α`, `Fault = err Error | panic`.

**How statements are tied to the API.** `Spec/Store.lean` has a structure `Store`: states, calls (`step`), and an abstraction
`graph : State → Graph` (which vertices, edges and properties there are, and which names are indexed). Properties are
predicates on an arbitrary `Store`, written with `step`, `ask`/`value` (replies to `get`) and `graph`. They are instantiated to
`memStore K b` (all hash map behaviours `K`, both builds `b`) and `rocksStore X` (all hashers, codecs, builds). That `graph` is not
an arbitrary choice is itself proved: C16, C18, C19 and C21 say that the replies to queries are exactly what `graph` says, so
`graph` is what a client can observe (`Props/Observe`: it is determined by replies, and the headline properties are restated
with replies only).

## 3. Trusted base

* Lean 4.33.0 kernel. Axioms: at most `propext`, `Classical.choice`, `Quot.sound` for every theorem (`scripts/axioms.sh`
  prints them for all claimed theorems). None added. Concrete witnesses are evaluated with `decide +kernel` / `rfl`, i.e. by the
  kernel. No compiled code.
* The reading of the Rust code (no extraction tool; citations in every definition).
* Contracts of libraries that are not in the sandbox:
  * `BTreeMap`/`BTreeSet`/`HashMap`/`HashSet` behave as finite maps/sets; B-tree iteration is in key order; hash
    iteration is some permutation.
  * `HashMap<Json, _>` (only the in-memory property index): `Json` violates the `Eq`/`Hash` contract (see C40), so what
    a lookup finds is layout dependent for values such as `3` and `3.0`. What a lookup finds is a parameter `F : Finder`: a function
    of the contents of the map and the key that returns an entry whose key is `==` to it, and one whenever there is an entry
    that is `==` and has the same hash input. `memStoreAny b` lets it differ from call to call (maps are rehashed as they
    grow) and makes no further assumption; `memStore K b` fixes it to an equivalence relation `K : HashEq` for ever. Every
    theorem about memory that does not concern the index is proved for both. `Props/MemoryAny` proves the index theorems
    for histories in which equal values hash equally (`Coherent`) and refutes them otherwise. (`C40_lookup`: the relation
    "equal and same hash input" is a `HashEq`.)
  * RocksDB: column families are sorted byte maps, a `WriteBatch` is applied atomically and in order, iterators see the
    state at creation, the batches that survive a crash are a prefix of those written (all of them if only the process dies).
    `open_cf` fails if column families are missing, `open` fails if there are unnamed ones, `create_cf` is durable
    (`Model/RocksOpen`). I/O errors (`Model/RocksFaults`): a `get_cf` or
    `write` that fails has no effect; an iterator that fails yields the entries before, then the error, then nothing.
  * `serde_json`: a pair `enc`/`dec` without any law. What is needed is a hypothesis on the values of a history: `okValue`
    (RocksDB: they can be read back; `Cfg.stored` is what comes back) – some floats come back changed (feature
    `float_roundtrip` is off), and values nested more than 127 levels deep cannot be read. C78 drops the hypothesis. C90 has a
    concrete codec, JSON text byte by byte (`Model/JsonText`; the crate's source is not in the sandbox), and says which values satisfy
    the hypothesis; C91 has the conversion of digits to floats (`Model/JsonFloat`), the printer (`ryu`) stays a parameter. C92 proves
    that the modelled parser accepts RFC 8259 exactly, C93 how accurate its numbers are.
    `rmp_serde`: C32, C57, C81, C83 take any codec of images, with the hypothesis that the image can be read back; C87 has a concrete
    one, MessagePack byte by byte (`Model/Msgpack`; the crate's source is not in the sandbox), and proves the hypothesis.
  * `Intern<String>` compares by string contents; the hasher is an arbitrary function of the input. (Concrete RocksDB
    examples use a real SipHash-1-3 and a toy codec, `Props/RocksWitness`.)
  * `char::is_alphanumeric`: arbitrary predicate. Clock readings: arbitrary sequence. `uuid` 1.12.0: layout of version 1 ids,
    counter `& 0x3fff`.
  * `uuid`: C54 takes `Uuid::parse_str` as a parameter; C95 has the crate's parser and `{:?}` text (`Model/UuidText`; the crate's
    source is not in the sandbox).
  * prost: 100 levels of nesting; tonic: 4 MiB per message (defaults); proto3 encoding sizes – from C94 on, these
    are theorems about a concrete encoder and decoder (`Model/Wire`; the crate's source is not in the sandbox). gRPC delivers
    messages in order or reports a status. `threadpool` 1.8.1: `join` waits for an empty queue and idle workers, a panicking job is swallowed.
    `libloading`: a path is not a library, lacks `register`, or has it.
* Not modelled: memory safety of `unsafe` pointer use, performance, TLS/gRPC transport, tracing, compaction and `repair`,
  benches, the C/Python bindings, text output of the command line client, floating point beyond comparison with integers and reading of decimals,
  stack overflow on very deep query expressions, memory exhaustion. Identifiers longer than 255 bytes (`unsafe
  new_unchecked`, `Deserialize`) are modelled only for making them, `create_vertex`, `create_edge` and reads (C61).

## 4. Properties: model and proof plan

Both stores: "memory" and "RocksDB". "History" = list of API calls from the empty database, arbitrary length. `Conforms`
(`Proofs/Answers`, `Proofs/Store`): a store conforms if every reply to `get` is one that the relational specification `Answers` allows for
`graph`, and every write changes `graph` as `Spec/Step` says; both stores are shown to conform by induction over
histories (invariants: memory `Mem.WF`; RocksDB: every table holds exactly well-formed keys). Generic properties are proved once
from `Conforms`.

* C01, C02 — exact result and effect, for every reachable state, both stores.
* C03 — FALSE as stated for edges obtained by a property *presence* query: refuted, and proved for every query not based on
  `EdgeWithPropertyPresence`, and for all queries in checked debug histories.
* C04 — traversals agree in both directions: memory and RocksDB histories, and for RocksDB all interleavings of concurrent calls.
* C05 — exact effect of `delete` on memory. C06 — FALSE: witness for every hash and codec, plus the exact effect.
* C07, C08, C09 — exact effect, both stores (RocksDB: C07 for readable values, C09 for edges whose outbound vertex exists).
* C10–C13 — index invariants by induction over histories. C10 FALSE when equal values hash differently (C40): witness; proved for
  coherent values and for lookups that do not change (`C10_memory_fixed_partial`). C11 FALSE: witness; completeness proved; release builds characterised exactly (`C11_memory_release_exact_partial`, `Spec/IndexPast.lean`): index queries list the owners that had the property at some moment since the name was indexed. C13 FALSE: witness for every hash
  function; proved for values that do not collide.
* C14, C15 — histories, both stores. C16–C22, C50 — from `Conforms`. C23 — induction over query expressions.
* C24, C25 — any reachable state (RocksDB: C24 for readable states). C26 — memory, any state. C27 — FALSE on RocksDB.
* C28 — FALSE; `C28_partial`: on a common fragment of calls and values all replies agree up to the order of listings.
* C29, C30, C31 — crash model. C31 FALSE: witness; exact characterization of the interruption points that can be recovered.
* C32 — file system model with temp file and rename; failing writes; every crash point. Flush errors are swallowed: refuted;
  also refuted for equal values that hash differently (entries merge when the image is read); graph preserved always.
* C33 — transition system with mutex, arbitrary number of calls and interleavings, arbitrary division into steps;
  linearizability with real-time order, mutual exclusion, absence of deadlock.
* C34, C51 — FALSE: race witnesses; proved when overlapping calls are independent: `Op.touches` (`Spec/RocksConc`) says what a call looks at and changes, `within_call` (`Proofs/RocksApart`) that its program gets and writes only those keys (gets whose result makes no difference excepted), and the invariant `WInv` (`Proofs/RocksSeq`) that a call under way would still do what it would do if made now. Calls write at most once, so they take effect there. Calls that may look at anything (traversals, deletions of vertices and edges, index_property) are independent only of queries that read once.
* C35 — FALSE: max UUID witness, debug assertion witnesses; proved for checked histories (with coherent values), and in release
  builds for all histories without the greatest id.
* C36, C37 — byte-level theorems. C38 — induction on pages, both stores.
* C39, C49 — direct. C40, C41 — FALSE: witnesses; classes of values on which they hold.
* C42, C43 — induction over messages. C44, C45 — server/client model over an arbitrary store. C45 FALSE beyond the limits of prost and
  tonic and for panics.
* C46 — nondeterministic pool scheduler, all schedules, termination. FALSE if the mapper panics. C47, C53 — registry fold; C53 FALSE.
* C54 — `Model/Cli`: argument reading and call of each command; reduced to `clientCall_eq` (C45) by showing that every request fits and every query result has one value of the printed kind.
* C55 — `Spec/Kind` says in one small function which kind of value a query gives (vertices in, edges out for traversals); `Props/Kind` proves constructors and evaluation agree with it, from the answer relation of `Spec/Graph`. Remark: the private `output_type` announces `Vertex` for a traversal that yields edges; harmless, since only the distinction element/non-element is used.
* C56 — `Spec/JsonOrder` defines the lexicographic order of sequences; `Proofs/JsonOrder` proves duality and composition by mutual induction, and monotonicity of the rounding of integers to `f64`. Transitivity is false in general (section 7): refuted with arrays, proved for values whose numbers are integers or exactly representable.
* C57 — `Model/ServerMain` models starting, calls and kills (also inside `sync`) of the memory server; `Spec/ServerMain` specifies them by two histories (saved, running) and no file system; the proof is a simulation. RocksDB: `Spec/RocksLife` strings together concurrent executions, crash points and `new_db`; induction over sessions with the crash theorem of C29 and reopening of C30.
* C58 — `Spec/Progress`: `Inevitably` (no endless sequence of steps; where no step is possible, all calls have returned) over the step relations of `Model/MutexConc` and `Model/RocksConc`. Termination: every step shrinks one call's remaining program (`Proofs/Progress`). Absence of deadlock: no program acquires a lock while holding one (`Proofs/Locks`), so whoever holds a lock can go on.
* C59 — FALSE for `index_property` and counts of all vertices or edges: witnesses. `Model/RocksFaults`: big-step semantics of the same programs in which every access may fail; proved by induction over query expressions for all other calls, for every placing of faults, and for histories.
* C60 — `Model/RocksFaults`: concurrent steps with I/O errors (`FaultyStep`), lives of a database with crashes (`FaultyLife`). `Proofs/RocksCalm`: a program logic (`Prog.Calm`) for "reads only well-formed entries or I/O errors ⇒ neither panics nor reports a damaged entry", proved for every call; well-formedness of everything stored is an invariant of every step and of replaying any part of the write-ahead log. `C58_rocks_faulty` extends C58 to executions with I/O errors.
* C61 — `Model/RawIdentifier`: identifiers as arbitrary strings, the ways of making them, `create_vertex`/`create_edge` of RocksDB with them. What is read back is computed for every string (`C61_rocks_vertex`); calls with at most 255 bytes are those of the main model (`C61_rocks_short_partial`).
* C62 — `Model/ReplyChannel`: bounded channel between the task and the response stream, all schedules. A query makes at most one output per level, a level is two levels of the message, and prost allows 100: at most 50 messages go through a channel of 100.
* C63 — invariant over `FaultyExec` and crashes: every batch any call may write deletes index entries only along with the property, and enters what it writes; reads see the set of indexed names with the name in it.
* C64 — `Prog.Names`: a program logic in which others may add names whenever the program does not hold the write lock; invariant over `FaultyExec`.
* C65 — `Prog.Calm` (Proofs/RocksCalm), parameterized by what a call may meet (`Perms`): errors, sets of indexed names, bytes; each call gets its own permissions. `Spec/Errors` reads the reasons off the call alone.
* C30 with overlapping calls (`C30_rocks_concurrent_partial`) — `Saves`/`Keep` (Proofs/RocksMeta): the set on disk is that in memory unless a call holds the write lock, and such a call cannot fail (C65).
* C66 — plugins as interaction trees over the transaction (`Model/PluginTxn`: return, panic, read, write), every method of `Transaction` with any arguments. `Spec/Plugins` says what each method does to the graph and what must hold of the database afterwards (`Store.Sane` bundles the statements of C01-C25 and others). Proved by induction on the plugin: every method keeps the invariants from which `Sane` follows.
* C67 — false; refuted by plugins that fail halfway, panic, overlap (`Rocks.PluginsStep`: one method call of one plugin), or die. Partial theorems as listed in its statement.
* C68 — `Model/ServerConc`: handlers convert, wait for the mutex, work in small steps, respond, and may be dropped; `Spec/ServerConc`: linearizability of a service. Proof: invariant as for C33, and `handle_eq`, which splits every handler of `Model/Server` into conversion, library call and response.
* C69 — Proofs/RocksFill: three program logics over the calls (`Lacks`: does not put the key of the owner; `Fills`: is going to enter the owner; `Waits`/`Holds`: what is known before, while and after the lock is held) and an invariant over executions: once the name is in the set, either the owner is entered or a call holding the write lock is about to enter it.
* C70 — Spec/Moments: `Moment` (contents and what the index lists), `Moment.Observed M edgeLt q inc v` (what query `q` may report if every lookup it makes sees one of the moments `M`; defined by recursion on queries, with no reference to the code), `Conc.Watch` (an execution together with the list of the database states while call `c` is under way; every execution can be watched: `C70_rocks_watch`). Proofs/Moments: program logic `Prog.Saw` (every answer read from the database is that of a moment), `saw_query` by induction on the query. No I/O errors happen in the session watched (earlier sessions may have had any); edges reported via an index on edges may be only listed (the code does not check that they exist). C21 and C25 under concurrency follow.
* C71 — `Model/ServerConc` again; Props/ServerProgress: `Service.Moves` (a step of the requests that have arrived, dropping none whose client stays), `Inevitably` as in C58. Termination by the remaining code of each request; the owner of the mutex can always go on. Plugins that never end are not in the model (`PluginProg` is an inductive type), and neither is a RocksDB server (there C58 says it for library calls).
* C72 — `Model/RocksApp`: tasks (any code that makes library calls and calls methods of transactions, depending on what they return) whose accesses to the database interleave one by one, with I/O errors and crashes; this drops the simplification of `Rocks.PluginsStep` (C67) that methods do not overlap. The per-program invariants of C60/C63/C58 (`Calm`, `All`, `AllIf`, `LockOnce`) are proved for every transaction method, and one generic invariant lemma (`Rules.exec`, Proofs/RocksApp) lifts them to processes. Progress as in C58. Not modelled: lazy iterators whose items are taken later than the call (see the comment at `accessProg`).
* C73 — `Spec/AppMoments.lean` says, method by method, which answers are explained by moments of a call (`Moment.Answered`) and what it
  means to watch the calls of one task in an execution (`App.Watch`: it collects the states of the database while the task is inside
  its last call). Proof: the programs of reading methods never write and "see" only states of the list (`Saw`, as for C70), by
  induction over the watched execution (`Proofs/AppMoments.lean`). Example: a transaction that looks up two ids while another task
  creates both vertices and reports only the second.
* C74 — `Spec/AppNames.lean` says which calls index and look up what, and what reporting "not indexed" is. `Proofs/AppNames.lean`: the set
  of indexed names under tasks only grows, and contains a name once an `index_property` returned (`NamesInv`). `Proofs/AppTrack.lean`
  follows the calls one task makes from a moment on (`Track`), with the set containing what it contained then.
* C75 — the argument of C69 (phases of a call: holding no lock, the read lock, the write lock; an index build under way) for tasks, in
  `Proofs/AppFill.lean`. The moment `A` in the theorem is any moment before `index_property` is called at which no call that creates the
  vertex or edge is under way.
* C76 — `Model/RocksServer.lean`: requests arrive, are converted (or refused), begin, and their handlers run as tasks of the process of
  `Model/RocksApp.lean` (any number at once); responses are sent, or the client is gone. `Proofs/RocksServer.lean` relates histories of the
  server with those of the process (`Both`, `Follow`, `ReqAt`), so that C72-C75 apply; `Proofs/RocksServerRun.lean` has what a handler
  returns from what its calls returned, and the run of a request nobody disturbs (`AloneAt`). Executions for the examples are run by their
  schedule (`Props/SrvSched.lean`). Not modelled: tonic's and tokio's limits on the number of requests served at once, streams
  that a slow client does not read (C62).
* C77 — `Proofs/RocksServerProgress.lean`: steps of the requests that have arrived make a measure smaller (where the request is, where its
  task is inside the call, guards held; lexicographic, one request at a time); if no step is possible, every request is answered or
  dropped (`stuck`, from the lock invariant of C72).
* C78 — values that cannot be read back: `Spec/Unread.lean`, `Spec/Refused.lean` (a database observed with a reader that extends the
  datastore's own; `RefusedExactly`, `AnyValues`); `Proofs/Cut.lean`: a call of the real datastore is a call of the database that can read
  everything, cut short by an error at the first value it cannot read, so it looks like one that meets an I/O error;
  `Proofs/UnreadConc.lean` the same for executions; `Proofs/Refused.lean` which calls are cut; `Proofs/Stuck.lean` what can never be
  changed; `Props/Unread.lean`.
* C79 — overlapping reads that meet I/O errors or unreadable values: `Mim` relates a reading program given iterators that end early to the
  same program without errors (it makes the same reads; it ends with the error or with the same result up to the error); what C70/C73 say of
  the error-free program carries over (`SawF`), and executions with unreadable values are executions of a database that reads everything
  and meets I/O errors (`.reading`, C78). Counting all vertices or edges is excepted; the exception is proved necessary.
* C80 — a bulk insertion on its way (`Model/BulkStream.lean`): the client's sending task, the bounded channel, the transport with
  its flow control window, the server's handler, the library call, the caller, a connection that may break and a caller that may
  give up, as a transition system. Invariant over all executions (messages read ++ on the wire ++ in the channel ++ to be sent =
  the items, as long as the body exists or its end was sent); a rank that every step lowers; progress by cases. Refinement: if
  the connection holds, the outcome is that of `Store.clientCall`. Assumed of the transport: order, no end of the body that was
  not sent, a break is seen as an error. That the runtime does not drop the task is a hypothesis, shown to be needed.
* C81 — several servers with the same `--persist-path` (`Model/SharedImage.lean`): processes whose system calls interleave, killed at
  any point. Refinement to `Sharers`, a specification with a saved history and one history per server: invariant that every
  temporary file belongs to one process and holds what its remaining writes complete to the image.
* C82 — a query on its way back (`Model/GetStream.lean`): the blocking task, the bounded channel, the transport with its window, the
  caller, a connection that may break and a caller that may give up, as a transition system in the style of C80, with the same
  assumptions on the transport. Invariant: what was read, what is on the wire, in the channel and to be sent make up the stream of
  the outcome; rank and progress as for C80; refinement to `Store.clientCall` if the connection holds.
* C83 — `main` as a function (`Model/ServerStart.lean`) of the command line, the disk and the answers of the operating system, RocksDB,
  `glob` and the plugin libraries, giving the disk after each step (crash points) and how the start ends. Exact conditions for serving
  by cases; soundness of RocksDB directories (nothing, bare, complete) as an invariant of failing starts. Linked to the lives of C57.
* C84 — induction over the query: every stage maps true outputs to true outputs (`Proofs/Truth.lean`), stated about what single
  lookups return (`Spec/Truth.lean`), for any store that conforms; instances for both datastores.
* C85 — the derived and hand-written instances as functions (`Model/Equality.lean`); laws by structural induction from those of JSON
  values (C40); within one state from C84: ids and names determine types and values.
* C86 — all states of the past are recorded by `Lived` (`Spec/RocksPast.lean`); for any explanation that contains them, by induction over
  the life of the database: every index entry in the database, and in what any prefix of the log leaves after a crash, is explained. Batches
  put an entry together with its property, except `index_property`, which has read the value at an earlier moment (`Prog.Informed`).
* C87 — `Model/Msgpack.lean`: writer and reader of the image, byte by byte. By induction over values and lists: the reader takes exactly
  what the writer wrote (`Takes`), and a reader that succeeds does the same on a longer file (`Ext`); hence it refuses every strict prefix.
  `Proofs/MemHolds.lean`: a database built from UTF-8 strings and shallow values is saved as an image of such. With the analysis of the
  system calls of `sync` (C32), now including a failing final flush. False for very deep values (section 7).
* C88 — as C57 (a simulation between the file system with the process and the histories `Kept`), with the codec of C87: an incomplete
  image is refused, a complete one gives the saved database; the invariant that all strings are UTF-8 and all values shallow goes through
  saving and reading (`MemDb.Held.load`).
* C89 — by induction on the query, for every store whose reads are faithful (`Conforms`): a stage fails exactly on the values its
  specification refuses; and if it fails, what it is applied to has a value, so that no inner part fails.
* C90 — `Model/JsonText`: a writer and a reader of JSON text. The reader, given the text of a value and anything that may follow, takes
  exactly this text and returns `Json.back` of the value, or fails if the nesting exceeds its counter (`JsonRead.does`, by mutual induction
  on values, arrays and objects). Injectivity: read with a counter that is large enough and floats that are read by search.
* C91 — `Model/JsonFloat`: the digits are read into 64 bits and multiplied or divided once by a power of ten, with each operation rounded
  (units of `2^-1074`). Rounding is proved to give the nearest number with 53 bits (`roundUnits_near`), hence digits below 2^53 and
  powers of ten up to 22 are exact and the one division or multiplication is the only rounding. Refuted otherwise by a float whose 16 digits are above 2^53.
* C92 — `Spec/JsonGrammar` is the grammar of RFC 8259 as inductive relations between texts and values; the parser of `Model/JsonText` is
  proved sound and complete for it by induction on the nesting (`JsonGrammar.all_iff`), with lemmas that say where a number, a string and a row of
  elements end. For UTF-8 texts the check of strings can be left out (`text_iff`).
* C93 — `Proofs/JsonAccuracy`: a relation `Close p q c a b` (equal up to a factor and an absolute error) that composes; one lemma for the
  error of a rounding, one for the digits that do not fit in 64 bits, and the cases of the exponent (one multiplication, one division, two divisions,
  or so small that the result is zero). Complements C91: not unchanged, but always near.
* C94 — `Model/Wire`: prost's encoder (fields by ascending number, defaults left out) and decoder (split into fields, then merged with a count of levels
  left); `Model/WireCall`: client and server exchanging bytes. Proof: splitting inverts writing (`Proofs/Wire`), merging the fields of an encoded message gives it back
  exactly if its levels are within the count (`Proofs/Wire2`-`Wire4`, induction on the query), so a call as bytes is `clientCall` (`Proofs/WireCall`) and C45 applies.
  Fields of later versions at any depth (`C94_later`): `Later` goes along the table of which message is in which field (`MsgKind.inside`, from the .proto file);
  reading with one level to spare does what reading without the additions does, message by message (`LaterStep`, `Proofs/WireLater`). C94
  discharges what C45 took from prost: `PQuery.size`, `PQuery.depth` and `wireOk` are now theorems about bytes.
* C95 — `Model/UuidText`: `Uuid::parse_str` by positions, as the crate does, and the text printed. `Spec/UuidText` says what a text of an id is, on characters.
  Proof: reading at positions equals reading two digits after the other (`Proofs/UuidText`), texts are ASCII, and C54 with this parser gives the rest.
* C96 — `Model/Session`: the client with the readers of C92 and C95, calls as bytes (C94); `Spec/Session` says what a session is (`Means`, `Outcome`, `Session`) in terms of the grammars and of the API only.
  Proof: what the JSON grammar accepts is a value that can be written (`Value.good`), so messages and RocksDB give it back (C90); a call as bytes is a call (C94), so C54 holds of each run, and induction over the session carries a history along. Reading back is C16, C07 and C19.
* C97 — `Spec/Made`: `Op.newVertices` and `Op.newEdges` are read off the call; `Store.OnlyMade` is about what `get` returns only.
  Proof: an invariant over histories for every store that conforms to `StepWith` (the two meanings of writes, `Sem.Makes`, make up nothing), then C16 and C21: a list without repetitions is at most as long as one that contains its elements.
* C98 — `Spec/Stays`: about replies of calls only; `NoDelete` and `Untouched` say which calls are excluded.
  Proof: what one call that does not delete keeps (`StepKeeps`), for both meanings of writes, induction over the calls that follow (`Conforms.kept`), then C16 and C19.
  C97 to C99 also hold of the memory datastore when JSON values that are equal but hash differently may be confused or not at every call (`C97_memory_any`, `C98_memory_any`, `C99_memory_any`), and of a RocksDB server that is killed and started again any number of times (`Props/LifeAck`: the history C57 gives contains every call that was answered, with its answer, followed only by calls that had not returned before it was made and calls of later sessions; C99 there for deletions of vertices by id).
* C99 — `Spec/Gone`: about replies of calls only.
  Proof: what deletions remove (`Sem.Drops`) for both meanings of writes, that no call makes up anything (C97) or writes a property it is not given (C98), induction over the calls that follow.
* C48 — generator state machine over clock readings, exact characterization of collisions.
* C52 — closure invariant over histories: replies contain only identifiers and values that were put in.

## 5. How the theorems were tested

`seeded/LOG.jsonl`: one line per wrong program (definition, edit, claim, failing theorems). A driver rebuilds the mutated module and everything
downstream, keeping going after errors, and lists the claimed theorems that no longer have a proof. Since most theorems about a
datastore go through one conformance theorem, a failing proof alone says little about the *statement*; therefore for a
selection of wrong programs the negation of the *statement* was proved for the wrong program (`seeded/refutations`).

## 6. Commands

`cd lean && lake build`; `scripts/axioms.sh` (axioms of all claimed theorems); `python3 scripts/gen_properties.py`;
`python3 scripts/gen_manifest.py`.

## 7. Findings: where the code does not do what the property says

Each is proved in Lean about the model (`…_refuted`) with a concrete history.

| property | code | what happens |
|---|---|---|
| C03 | `memory/datastore.rs:136-150` | `EdgeWithPropertyPresence` does not check that the edge exists (the value query does, 155): bulk-inserted properties of missing edges make it return edges that were never created; in release builds also deleted ones |
| C06 | `rdb/managers.rs:117-123` | when a vertex is deleted, the loop over its inbound edges deletes the *reversed* edge; the inbound edges stay |
| C09 | `rdb/datastore.rs:205-217` | an edge whose outbound vertex does not exist is silently not deleted; together with C06 and bulk insertion such edges exist |
| C10 | `json.rs` + `memory/datastore.rs` | the index is a `HashMap<Json, _>` and `Json` breaks the `Hash` contract: after the map grew, a lookup of `3.0` may or may not find the entry of `3`, and the vertex is missing from, or stale in, the index |
| C11 | `memory/datastore.rs:266-269, 281-284` | removal from the index sits inside `debug_assert!`; in release builds index entries are never removed |
| C13, C41 | `models/json.rs:19-57` | the hash input has no lengths: `[[],null]` and `[[null]]`, `-1` and `u64::MAX` collide for every hasher, and the RocksDB index stores only the hash |
| C07, C24, C30 | `rdb/managers.rs:343-363`, `rdb/datastore.rs:309-337` | values that `serde_json` writes but cannot read (nesting above 127) are accepted; reading fails from then on; `index_property` then fails but leaves the name marked as indexed in memory |
| C15 | `rdb/datastore.rs:309-337` | `index_property` only indexes existing owners, and returns early the second time: properties bulk-inserted before their vertex are never indexed |
| C27 | `rdb/datastore.rs:282-307` | bulk insertion overwrites vertex types, inserts edges without endpoints, and reads the state before the batch, so that setting one indexed property twice leaves a stale index entry |
| C28 | both | the datastores differ after deleting a vertex (C06), and in the order of edges (types of different lengths), which is visible through limits |
| C31 | `rdb/datastore.rs:374-398` | if creation is interrupted when some column families exist, the database can never be opened again |
| C32 | `memory/datastore.rs:291-303` | the `BufWriter` is dropped without `flush`: a write error (disk full) is swallowed and the truncated file replaces the good one |
| C34 | `rdb/datastore.rs:258-278` | `create_vertex` reads and writes without a lock: two concurrent calls both return `true` |
| C32 | `memory/datastore.rs` (serde of `HashMap<Json, _>`) | when an image is read, the entry of `3.0` may replace that of `3`: vertices vanish from the index |
| C35 | `memory/datastore.rs:176-184` | `next_uuid(id).unwrap()` panics for the greatest id and poisons the mutex for good; a `debug_assert!` panics when overwriting a property bulk-inserted before indexing |
| C35 | `json.rs` + `memory/datastore.rs` | the debug assertion also fails when a property whose value is `3.0` was indexed under `3` and a later lookup no longer finds it |
| C40 | `models/json.rs:63-98, 179-183` | `==` is not transitive and equal values hash differently (`3`, `3.0`), contrary to `Eq`/`Hash` |
| C45 | `proto/src/server.rs:235-246`, `client.rs` | a panic in `get` gives the client an empty result instead of an error; queries of 50 or more nested stages and results above 4 MiB cannot be transported |
| C46 | `plugins/host/src/util.rs:39-58` | a panicking mapper is swallowed, `map` returns `Ok` |
| C48 | `util.rs:135-137` | ids repeat if the clock steps back by the time of 16384 calls |
| C51 | `rdb/managers.rs:343-363` | concurrent `set_properties` on an indexed property leave stale index entries |
| C53 | `plugins/host/src/decl.rs:64-86` | `register_plugins!` ignores its interface version argument |
| C56 | `models/json.rs:63-98` | `<` is not transitive: `[2^53+1, 0] < [2^53 as f64, 1] < [2^53, 2] < [2^53+1, 0]` |
| C59 | `rdb/datastore.rs:310-336` | `index_property` marks the name as indexed in memory before the write: if an I/O error ends the call, queries for the property succeed with an empty result and repeating the call does nothing |
| C59 | `rdb/datastore.rs:54-57, 99-102` | `vertex_count`, `edge_count` use `iter.count()`: an I/O error counts as one item and is not reported |
| C78 (C07, C24) | `rdb/managers.rs` (`serde_json::from_slice` of the old value in `set` and `delete`) | a value nested more than 127 levels deep is accepted, but then cannot be read; if its name is indexed it can never be replaced or deleted by any call, and its vertex cannot be deleted (`AnyValues.stuck`) |
| C61 | `models/identifiers.rs:93-102` | `Deserialize` uses `new_unchecked`: safe code gets identifiers of any length and characters; with 256 or more bytes RocksDB's one-byte length wraps (`util.rs:53`), so types are cut (possibly inside a character, which breaks the contract of `from_utf8_unchecked`) and edges come back with other ends |
| C80 | `proto/src/client.rs:211-218` | if the sending task is dropped (runtime shut down), the channel closes as if all items had been sent: the server inserts a prefix of the items and the caller may get `Ok` |
| C81 | `lib/src/memory/datastore.rs:291-303`, `server/src/main.rs:64-71` | nothing keeps two servers from using one persist path: each `sync` replaces the whole image, so what another server has saved is lost although its `sync` returned `Ok` |
| C83 | `server/src/main.rs:67` | `Path::exists()` is false also if the file cannot be looked at (no permission, dangling link, I/O error): the server starts with an empty database without an error, and the next `sync` replaces the saved one |
| C84 | `lib/src/rdb/datastore.rs:135-163`, `lib/src/memory/datastore.rs` (edges_with_property) | edges listed by a property need not exist: an edge property bulk-inserted for a missing edge (and, in release builds of memory, a deleted edge) is listed |
| C85 | `lib/src/models/vertices.rs:42-46`, `lib/src/models/json.rs:179-183` | `==` ignores the type of a vertex and equates `3` with `3.0`: `==` replies, queries and items can differ in what they say, find and do |
| C87 | `lib/src/memory/datastore.rs:296, 430` | the encoder has no limit for nested values, the decoder has (1024 levels): `sync` of a deeper value returns `Ok` and replaces the image by one that `read_msgpack_db` refuses. Reachable through the library, not through gRPC, whose JSON parser stops at 128 levels |
| C91 | lib/Cargo.toml:30, lib/src/rdb/managers.rs:338 | `serde_json` is used without `float_roundtrip`: 9.060756452069219 is stored with these digits and read as the next float; about a tenth of all floats. An index on the property then lists the vertex for the value that was set but not for the value that is returned |
| C67 | `proto/src/server.rs:298-305`, `memory/datastore.rs:453-458` | a plugin is not a transaction: what it wrote before an error or a crash stays; a panic poisons the memory datastore for everybody; on RocksDB overlapping plugins interleave |

Seen while reading, not stated as theorems: `NamedTempFile::new()` uses the system's temporary directory, so that `sync` of the
memory datastore fails if the target is on another file system; it does not `fsync`. RocksDB `sync` compacts `edge_range` twice and
the reversed table never, and flushes only the default column family. `Client::bulk_insert`'s `last_err` is never reported. The
server's conversion of queries does not apply the nesting checks of the library's constructors, and an unknown direction number means outbound.
