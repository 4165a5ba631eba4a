# Formal model of Blueprint in Lean 4

## Layout

`lean/Verif/<Component>/`
* `Model.lean` – executable definitions, each citing the `/repo` file and lines it models
  and every simplification.
* `Spec.lean` – the small, model-independent vocabulary used in the theorem statements.
* `Lemmas.lean` (when needed) – helper lemmas.
* `Props.lean` – the property theorems (named `Cnn_…`) and, beside each of them, an `example`
  showing a concrete non-trivial case meeting the hypotheses.

A theorem named `…_partial` proves a restricted form of its property; the comment above it says
what is missing. A theorem named `…_refuted` proves that the code violates the full statement,
with a concrete witness: the code in `/repo` disagrees with the property there.

## Trusted base

* Lean 4.33.0's kernel. No axioms are added; every property theorem depends on at most `propext`,
  `Classical.choice` and `Quot.sound`. There is no `sorry`, `admit`, `native_decide`, `bv_decide`,
  `implemented_by` or `unsafe` in the development.
* The reading of the Go code: the models are written by hand from the source. Nothing is run.
* Go semantics assumed by the models (not proved):
  * a map behaves as a finite partial function; iteration order is arbitrary (modelled by quantifying
    over every list of entries/every permutation when it matters);
  * a buffered channel is a bounded FIFO, `select` takes any ready case, `default` iff none is ready;
  * atomics and mutex-protected sections are single indivisible steps;
  * `reflect` assignability is modelled by equality of a dynamic type tag (see each model);
  * strings are lists of characters; where the code works on bytes the comment says so;
  * the Redis, memcached and RabbitMQ servers and their Go client libraries do what their documentation
    says of the commands used (`Backends/Model.lean`), without network failures, expiry or eviction;
  * `int`/`int64` counters are unbounded unless the property is about overflow (ports are `UInt16`-like
    arithmetic modulo 65536, `$inc` is modelled modulo 2^64).

## Not modelled

File system contents (except the workspaces of container images, `Image/Model.lean`, and the output directory of a compilation, `Output/Model.lean`), `go`/`protoc`/`docker` invocations (a Dockerfile's effect is modelled there, with the compiler and base images as parameters), Go templates (except where the generated
code itself is modelled: retries, load balancer, timeouts, fault injection, client pool wrapper, gRPC
marshalling, HTTP client and server), the text syntax of JSON and UTF-8 (parameters with laws in `Http/Model.lean`),
network servers (a MongoDB server is a parameter with the laws stated in `Mongo/Model.lean`), tracing collectors and libraries, the mysql client, Go's own parser and type checker, logging other than that of processes (C133: fmt and slog are not modelled), wall-clock time and randomness (draws and
clock readings are universally quantified inputs), data races on non-atomic memory beyond the
interleavings stated in the models.  Of the example applications, the SockShop cart, user, order, payment,
shipping, queue master, catalogue and front end services (carts and accounts with failing database calls in `Cart/Fail.lean` and `Users/Fail.lean`, carts, accounts, orders and the catalogue at the same time in `Cart/Together.lean`, `Users/Together.lean`, `Orders/Together.lean` and `Catalogue/Together.lean`, several queue masters that may stop in `Shipping/Many.lean`, the loop of one in `Shipping/Run.lean`), the hotel example's services and front ends (the index of places and SHA-256 are functions), and
the social network's posts, text and link handling, media, gateway, timelines, social graph, accounts, mentions and identifiers are modelled (MongoDB as a list of
documents), and the services of the train ticket system except its news service, which returns a constant (on the typed documents of
`NoSQL/Typed.lean`; with failing database calls in `Trains/Programs.lean`; calls at the same time in `Trains/Concurrent.lean`; nil and empty slices are not told apart), and the counting method of the leaf example (`Leaf/Model.lean`); the
others are not.

## Plan per property

| Id | What is modelled | How it is proved |
|---|---|---|
| C01 | simplecache state as an association map, all calls | refinement: the state after any history equals the fold of a spec "last write" function; outputs stated over the history |
| C02 | Incr as two atomic steps (Get, Put) of many threads | sequential theorem by induction on the history (partial); lost update refuted by a two-thread schedule |
| C03 | queue as transition system: threads, buffer, history | invariant by induction over the schedule: pushed = popped ++ buffered, length ≤ 10 |
| C04 | same system, with per-thread cancellation flags | invariants over the schedule, step characterisation |
| C05 | client pool as transition system with one step per atomic operation/channel operation | inductive invariant (accounting of clients + exclusivity) |
| C06 | same | refuted with a concrete schedule; partial theorem for schedules with no failing build after the waiter parks |
| C07 | registry state machine | invariant and output characterisation over histories |
| C08 | IsValid, init_prop_map | exact interval characterisation for non-negative proportions (partial); refuted for negative ones |
| C09 | engine run as transition system (starters, workers, collector) | invariant by induction over the schedule |
| C10–C13 | runtime namespace: definitions, build cache, parent chain, flags, env; wait groups | induction on fuelled evaluation, invariants on the cache; precedence stated outright |
| C14,C15 | wiring spec state machine | invariants and refinement to a "last call per name" spec |
| C16–C18 | wiring namespaces (handlers, Seen/Added, parent chain, deferred queue) | invariants by induction over evaluation |
| C19 | pointer metadata and alias chain | refinement: walk of the chain = explicit list |
| C20 | RequireUniqueness check | decision logic over histories |
| C21 | AssignPorts over 16-bit ports | loop invariants; zero port and divergence refuted/guarded |
| C22,C23,C24 | string helpers on lists of characters | algebraic laws |
| C25–C27 | IR tree traversal, buildAll, visit tracker | structural induction, invariants |
| C28–C30 | imports table, type expressions, interfaces | invariants, structural induction |
| C31–C34 | filter AST, evaluator and parser on a BSON value type | structural induction, decision logic, refutations for `$exists`, array literals, `$or: []` |
| C35–C43 | collection operations, update AST, evaluator | list lemmas, refinement to filter/map specs, refutations |
| C44–C48, C52 | generated wrappers as functions of the outcome stream | induction over attempts |
| C49,C50 | processArgNodes, env file generation | invariants over the instance list |
| C51 | protobuf message generation with recursion through struct declarations, the generated conversion statements as a small language, the name and type rules of protoc-gen-go and Go that decide whether the result compiles | termination by counting undeclared structs, invariants of the message table, structural induction on values; refuted for maps, pointers, embedded structs and several name clashes |
| C53,C54 | workspace and namespace builders | invariants over histories |
| C55 | CopyResult over tagged values | case analysis |
| C56 | import sets and type names of generated code | structural induction on types |
| C57 | namespace builder's constructor functions | decision logic |
| C58–C61 | NoSQL query paths, operators, updates and counts | induction over documents and queries |
| C62 | Kubernetes pods, services and config map | invariants over pods and containers |
| C63 | generated run.sh as a shell state machine | induction over the call tree |
| C64 | generated client and server methods composed with a network that may lose the request or the reply | decision logic on top of C51 |
| C65 | span contexts with their hex encoding, `GetSpanContext`, `Tracer.Start`, the two wrappers over arbitrary call trees with losses | induction on the code; the collector's arrangement of the spans equals the expected forest |
| C66 | baggage (task, last events), the two wrappers and the logger over the same call trees | induction on the code; causality is the closure of the parents |
| C67 | processes with vector clocks, the two wrappers as operations on calls in progress | invariant over all histories: clock entries count the events that happened before |
| C68 | query escaping byte by byte, JSON encoding of typed values, generated client and server; the text of JSON and UTF-8 replacement are parameters with stated laws | mutual induction over types: round trip holds iff the value is expressible; query lookup by induction |
| C69 | client, net/http retries, router, handler as functions of the list of network attempts | induction over the attempts |
| C70 | files, visit keys and constructors of 24 wrapper plugins; templates are arbitrary functions; writing without truncation | invariant over the generation of interfaces and code, for any order |
| C71 | as C70; the called and the defined constructor are separate tables | invariant: a key is visited only if the file exists |
| C72 | the loops that copy and require modules | induction over the list |
| C73 | interfaces of server and client wrapper stacks; calls through both stacks | induction over the stack |
| C74 | the Redis and memcached clients over documented server commands, compared with the in-memory cache model | simulation relation, induction over the sequence of calls; witnesses for the differences |
| C75 | the RabbitMQ client and a broker that hands messages to its consumers in turn | induction over the calls; witnesses |
| C76 | the cart service function by function on the NoSQL database model, with Go slice capacity where pointers into a slice are kept across append | refinement of a map from customers to item lists, induction over the history; invariant over interleavings; witness for the lost update |
| C77 | as C76, with pointers into the old array after append reallocates | induction over the session's items; two universal counterexamples |
| C78 | the user service and its database layer function by function on typed collections; hex and hash functions abstract | refinement of a book of accounts and owned files, induction over the history |
| C79 | as C78 | consequence of the refinement; universal counterexamples |
| C80 | orders, payment and PostShipping on the cart and user models, with an arbitrary subset of the calls failing | case analysis on the stages of NewOrder, invariants of carts and users for all reachable states |
| C81 | as C80 | induction over the history |
| C82 | transition system with one step per queue or database operation | inductive invariant relating queue, database and processed shipments; termination of the master's loop in a bounded number of rounds; invariant for the stuck master |
| C83 | type expressions, imports and declared names as syntax trees; ResolveType and Equals function by function, nil types and panics explicit | separate semantics of Go types; structural induction; universal counterexamples |
| C84 | files as lists of declarations; loading and parsing function by function; map iteration as arbitrary permutations | invariants of the loading folds, permutation invariance; universal counterexamples |
| C85 | makeServiceFromInterface, makeServiceFromStruct, their searches, ServiceInterface, and AddToWorkspace | decision logic proved as an iff against a declarative notion of implementing; permutation invariance |
| C86 | module sets with parents, the process-wide cache, parsing as a function of the directory | invariant over histories of AddModules calls |
| C87 | both methods loop by loop with the cache and the collections; the calendar abstract | refinement of a list of bookings, with an invariant relating cache and database, induction over the history; universal counterexamples |
| C88 | the cache-aside loops; geo index as given list | invariant: the cache holds what the database holds |
| C89 | hexadecimal digits, truncation and padding, the counter | arithmetic on digits by induction; universal counterexamples |
| C90 | the graph collection and the two cache keys per user; cache losses as operations | refinement of a list of pairs, invariant per user, induction over the history; universal counterexamples |
| C91 | document per user and the cache with both types of values | refinement with an invariant relating cache, database and the posts so far; universal counterexamples |
| C92 | composition of post, timeline and graph services | end-to-end refinement: induction over the history using the result on followers |
| C93 | collection and cache, Mget with zero values | invariant: cached posts are stored posts under their identifiers; induction over the history |
| C94 | user collection and the two cache keys per name, shared by three services | invariant: cached values agree with the accounts; induction over the history |
| C95 | types, declarations found by a traversal with fuel, the statements of the conversion functions and their execution | the traversal settles (a measure on undeclared structs); fields by induction on lists; values by induction on the typing derivation; universal counterexamples |
| C96 | client, server and connection as a state with unread replies | composition of the two conversions; induction over the history; universal counterexamples |
| C97 | each method template as the sequence of its blocks, declarations and uses of names; Go's scoping rules as a function that says what each name refers to | two general theorems by induction on the body (sufficient and necessary names), then one instance per template for all signatures |
| C98 | the three tables as lists of rows, the service's SQL statements as functions on them, and every statement of a writing call may fail | invariant of the tables by induction over calls and failures; the joins and groupings computed in closed form; then what Get shows before and after each call |
| C99 | the front end's functions on top of the models of the catalogue, cart, user and order services; each call of a service may fail | the services' own theorems (C76, C77, C78, C80, C98) composed, with induction over the items added; reachability is shown to be kept by every call |
| C100 | the service's calls on a collection of typed documents in the simple document database | the stored documents show a table (an invariant over all histories, with the theorems about the document database), and every call acts on the table |
| C101 | the service's calls on a collection of typed documents in the simple document database | the stored documents show a table (an invariant over all histories, with the theorems about the document database), and every call acts on the table |
| C102 | the service's calls on a collection of typed documents in the simple document database | the stored documents hold a list of values (an invariant over all histories, with the theorems about the document database), and every call acts on the list |
| C103 | the service's calls on a collection of typed documents in the simple document database; the result map is an association list | the stored documents show a table (an invariant over all histories, with the theorems about the document database), and every call acts on the table |
| C104 | the services' calls on collections of typed documents in the simple document database | the stored documents show a table (an invariant over all histories, with the theorems about the document database), and every call acts on the table |
| C105 | the service's calls on a collection of typed documents in the simple document database, with strings.Split and strconv.ParseInt (64 bits) | the stored documents show a table (an invariant over all histories, with the theorems about the document database), and every call acts on the table; splitting and reading numbers are shown to invert joining and writing |
| C106 | the service's calls on two collections in one or two databases | the stored documents hold a list of values (an invariant over all histories, with the theorems about the document database), and every call acts on the list |
| C107 | the service's calls on a collection of typed documents in the simple document database; arithmetic on floats is abstract | the stored documents hold a list of values (an invariant over all histories, with the theorems about the document database), and every call acts on the list |
| C108 | the service's calls on a collection of typed documents in the simple document database | the stored documents hold a list of values (an invariant over all histories, with the theorems about the document database), and every call acts on the list |
| C109 | the services' calls on collections of typed documents in the simple document database | the stored documents hold a list of values (an invariant over all histories, with the theorems about the document database), and every call acts on the list |
| C110 | the loop of Run, one iteration at a time, with the outcomes of its calls; the queue is an unbounded FIFO | an invariant over all histories |
| C111 | the expressions of variable declarations, the matching of services with registries, the workspace of C57, the generated file, the go command's order of files and the service registry of C07 | induction over the services and registries for the registered clients; the sorted files put the generated one first; the registry's theorem C07 gives the result |
| C112 | declarations as calls on the wiring spec of C14-C20 and its pointers; the build functions of the plugins; namespaces with what they have seen, their nodes and edges; the queue of deferred functions; fuel for the recursion | declarations are simulated by per-service tables; a denotation gives each name its node in each namespace; every run of the recursion keeps an invariant relating state and denotation, which makes it succeed; requested and called services reach exactly the specified items |
| C113 | the nodes and edges that compilation (C112) leaves in a process become calls on the runtime's namespace builder (C10-C13) with generated build functions; objects record the constructor calls that made them; containers become the operations of C49 and processes those of C63 | invariant over the recursion of Get: every object in the namespace is the denotation of its node; the docker-compose file's values from C49, the shell's environment from C63, and the items of compilation from C112 are composed |
| C114 | the client's calls over a server whose treatment of single documents is a parameter and whose commands on collections follow MongoDB's manual; the in-memory database of C31-C43 | per call equality under a stated condition on the call, then induction over the program; each call outside the condition is refuted for all collections |
| C115 | interleaving machines: one step is one access to a shared variable or to a lock; accesses of a map while it is written to are recorded | invariant over schedules relating phases, lock and the order of the map accesses to a one-by-one run; progress measure; explicit schedules for the failures |
| C116 | the loops over the map with the visiting orders as parameters; numbers as an ordered type | invariant of the search loop, permutation invariance, last-document-wins characterisation of the map |
| C117 | the handlers over arbitrary services (state transformers that may fail), and over the modelled services of C87 and C88 | case analysis of the handlers for all services; cache invariant for the composed search |
| C118 | a start appends the program's documents to the collection; the services read the result | induction over starts |
| C119 | the two regular expressions as leftmost-longest scanners over characters, strings.ReplaceAll, the loop over the links; random strings as input | strong induction over the text; a link has one colon, so it can occur only at the beginning of another link |
| C120 | ComposePost over arbitrary services; MediaService; the argument checks of the gateway | case analysis for all services |
| C121 | Replicate as declarations of the wiring spec; compilation as in C112; the generated balancer as in C47 | injectivity of the names; a corollary of C112 and C47 |
| C122 | the program as a function of the parsed flags, the registered specs and passes; specs, passes, BuildIR and GenerateArtifacts are arbitrary | case analysis; induction over the registry and the passes |
| C123 | a workspace as a file tree; the stages of the generated Dockerfile interpreted by COPY, RUN and FROM on file trees; the compiler and base images as parameters | invariant over the processes added; the effect of each stage computed, then of each COPY --from |
| C124 | paths as lists of names, filepath.Rel and Abs; the map of scripts; a shell with cd, cd - and exit status interpreting the generated file | invariant over added scripts; induction over the generated commands |
| C125 | programs whose steps are calls of caches and databases, a machine that runs any of them at each step, and the methods as such programs | programs that work on different parts of the store run as if alone (induction over schedules), applied to the goroutines of each method; invariants over schedules with the posts written so far as ghost state; explicit schedules for lost updates |
| C126 | backends as a declaration of the model of C112, their containers as nodes with a bind address; the images' ports and variables are parameters | corollaries of C112_whole, whose applications include backends, and of C113_connected, whose deployments include their containers; failing compilations evaluated |
| C127 | the update model of C38-C42 | the effect of UpdateOne is computed for each shape of path from the model of Apply |
| C128 | the query parser of C31-C35 | case analysis of the parser, induction over the lists of parts; observed through FindMany |
| C129 | the reservation model of C87 with each call of the cache and the database as one step of a program; programs interleave as in C125 | the calls of different hotels touch different parts of the state, so every schedule has the effect of running them one after another (C125_isolation), which is the sequential model (C129_alone) |
| C130 | the workspace of C53 with the go.mod file of each directory, and the copy of it that a module builder holds in memory; AddReplace of golang.org/x/mod as documented there | an invariant over the calls relates the files to where each module came from; then induction over the loops of Finish, for all orders |
| C131 | the two caches, the module set of C86 and the service search of C85; the go command is an oracle that may fail at any call | an invariant over all histories: the cache agrees with the go command, and the module set with the disk; the search is C85 |
| C132 | database calls with an oracle for failures; the index as a list with one point for each identifier; KNearest as any function that finds the five nearest of an index's points | induction over the inserts and over the starts; documents that are inserted again make no difference to the latest ones |
| C133 | the calls of goproc and of the tracing plugins as operations of the wiring spec; the process's build function in the model of compile time namespaces; log statements by logger; the running process with its two package variables, nodes that are constructed in order with what they depend on, and requests | invariant over the operations of the wiring spec; symbolic execution of the build function and a prefix invariant of the nodes over all later histories; induction over the constructions and requests with the invariant that what was said was written |
| C134 | the definitions of a balancer with modifiers and RPC; Get in the namespace of a process, where nodes are kept by name; the generated code, which refers to instances by name | invariant over all Gets; induction over the way that the definitions describe, against the way in the generated code |
| C135 | files by path; a generator is any function from the files it finds in its directory to those it leaves, or an error; the builders and the nodes' own generators run one after the other, each in the directory that CreateNodeDir makes | a compilation is a sequence of jobs at places without common paths; induction over the jobs; the expected output is stated independently, as an equivalence |
| C136 | each method as a program of database calls, with what it does after each result; every call works, fails, or has its effect and loses the reply | programs whose only write is their last call and that return every error are all or nothing, by induction over programs; with every call working, the programs are the operations of C100 to C109; histories by induction; refutations for all states of the kind |
| C137 | a pool of the programs of C136; at each step any one of them makes its next database call; the serial runs are a separate relation | a method with one access to the data can be moved to the time of that access, by induction over the interleaving; creates of different keys by an invariant over where each method is; refutations build the interleaving in which both methods look the key up before either inserts, for all histories without the key |
| C138 | the existing model of queries and updates; paths are lists of field names, joined with dots | one step into a document as an equation for every operator; whole paths by induction over the path, with a frame lemma for the paths beside; reduction to the theorems on plain fields for each operator |
| C139 | each cart method as a program of single database calls, each of which works, fails, or works and loses its reply | programs equal the methods of C76 when everything works; at most one write per method gives all or nothing; histories by induction; the merge by cases on the call that fails |
| C140 | a pool of the programs of C139; at each step any one of them makes its next database call | an invariant over where each call is in its method, by induction over the interleaving |
| C141 | each method as a program of single database calls, each of which works, fails, or works and loses its reply | programs equal the methods of C78 when everything works; all or nothing for methods with one write; deletions by idempotence of each of their calls; login by an invariant over all single calls; refutations for all databases with a failing second call |
| C142 | the programs of single database calls of C141, interleaved call by call; a database call is one step | invariant over all interleavings that relates files and users to how far each call is, up to permutation; refutation by a schedule of a login and a deletion of the same user |
| C143 | NewOrder as a program of calls of the cart, user, payment and shipping services and of the database, interleaved call by call, the four concurrent calls of each in any order; proved equal to the method of C80 when alone | invariant over all interleavings that relates orders, queue, shipments and carts to how far each call is, up to permutation; refutation by a schedule for every accepted order |
| C144 | the three methods as programs of SQL statements, interleaved statement by statement; proved equal to the methods of C98 when alone | rely and guarantee: each program keeps the socks of the others and adds tags only, and reaches its postcondition whatever the others do within that; induction over the interleaving; refutation by a schedule for every catalogue |
| C145 | transition system of C82 with a list of queue masters, lost replies and stops; with one queue master that never stops it is proved to be the model of C82 | invariant over all schedules: the shipments taken are those done, lost and held, up to permutation; a schedule of the queue masters that ends with nothing waiting; invariance of the record of a lost shipment |
| C146 | HelloInt (`helloIntP`) as a program of calls of the in-memory database of `NoSQL/Model.lean` | induction over the list of calls; invariant over all interleavings: the count of the first object is the number of updates done |
| C147 | Run call by call in `Shipping/Run.lean`, with the results of the calls and the state of the context as inputs | invariant over all steps; case distinction over where the loop is when the context is cancelled; induction for the loop that does not end |

## Disagreements between code and properties

The code is modelled as it is. Each row is a theorem with a concrete witness (or, where the
witness is arbitrary, a universally quantified one) that the code breaks its property; the
restricted statement that does hold is in the other theorems of the same property.

| Id | Theorem | What the code does |
|---|---|---|
| C02 | `C02_lost_update_refuted` | C02 refuted: two Incr calls on a fresh key that interleave both return 1 and leave the counter at 1. |
| C03 | `C03_mismatched_pop_loses_item_refuted` | C03 does not extend to items that do not fit the destination: such a Pop returns true with an error (or panics), leaves its destination unchanged, and the item is gone from the queue. |
| C06 | `C06_stranded_waiter_refuted` | C06 refuted: with capacity 1, a caller that parks while another caller's build is in progress stays parked when that build fails: nobody holds a client, nothing is in progress, the pool has room for a client, and yet no step of the waiting call is possible (short of cancelling it). |
| C07 | `C07_early_set_default_ignored_refuted` | C07 is violated in one way: a SetDefault made before the first Register is silently overridden by that Register, so the Get does not build the client that was asked for. |
| C08 | `C08_negative_proportions_refuted` | C08 refuted in general: the proportions 60, 60, -20 are accepted, and then the second API gets 40 of the 100 draws instead of 60. |
| C10 | `C10_cycle_refuted` | C10 fails on dependency cycles: a build function that asks for its own node (and does not do so for ever) is called again, the first instance is handed out and then replaced, and both are run. |
| C10 | `C10_concurrent_refuted` | C10 fails for concurrent callers: two goroutines that Get the same name can both build it and get different instances. |
| C11 | `C11_shared_variable_refuted` | C11 fails in part: two arguments whose names differ only in punctuation read the same environment variable. |
| C11 | `C11_child_argument_refuted` | C11 fails in part: a child namespace cannot require an argument that its parent declares: registering the flag a second time panics, although BuildWithParent is documented to take required nodes from the parent. |
| C13 | `C13_grandchild_refuted` | C13 fails for deeper descendants: Await on a namespace returns while a Runnable of a grandchild is running, since only the namespace itself and its parent count it. |
| C13 | `C13_parent_not_cancelled_refuted` | C13 fails in part: a failing Runnable of a child does not cancel the context of the parent, although the parent waits for it. |
| C14 | `C14_alias_cycle_refuted` | **C14 refuted** for alias cycles: after `Alias("a","b")` and `Alias("b","a")`, GetDef("a") never returns. |
| C14 | `C14_property_on_alias_refuted` | **C14 refuted** for property calls: setting a property of an alias silently removes the alias, and leaves a definition that nobody defined and that cannot be built. |
| C16 | `C16_failed_alias_refuted` | C16 fails after an error: a failed Get of an alias caches nil, and the second Get of the alias panics. |
| C16 | `C16_cyclic_refuted` | C16 fails for cyclic wiring: `a` is built twice in the same namespace (the build function of `a` Gets `b`, whose build function Gets `a`, which is not cached yet; the inner build stops the recursion because it sees a flag), and the two Gets return different nodes. |
| C16 | `C16_same_name_refuted` | C16: nodes are told apart by their Name(), not by identity: of two different nodes with the same name the handler hears only about the first. |
| C17 | `C17_instantiate_first_refuted` | C17 fails in part: a node that is first Instantiated in a namespace and then Got there never becomes an edge. |
| C18 | `C18_swallowed_error_refuted` | C18, C20: the compilation succeeds although instantiating the server side failed: the server was never built and the address has no destination. |
| C19 | `C19_address_bypassed_refuted` | C19: the order matters: a server-side modifier added after the address replaces the address as the interface, so the client side then bypasses the address. |
| C19 | `C19_added_twice_refuted` | C19: a client-side modifier that is added twice is visited only once, although the pointer lists it twice. |
| C21 | `C21_port_zero_refuted` | C21 refuted at the top of the port range: with one node fixed at 65535 and another preferring 65535, the second one is "assigned" port 0. |
| C23 | `C23_space_refuted` | C23 refuted: spaces are kept, so the clean name of `a b` is not an identifier. |
| C23 | `C23_empty_refuted` | C23 refuted: a name of digits becomes the empty string. |
| C23 | `C23_double_underscore_refuted` | C23 refuted: the identifier `a__b` is changed, so it shares its clean name with `a_b`. |
| C24 | `C24_inner_tab_refuted` | C24 refuted for tabs in the text: `x<tab>y` is changed behind its first character. |
| C24 | `C24_deep_indentation_refuted` | C24 refuted for very deep indentation: a line indented by 10001 keeps one space too many. |
| C31 | `C31_empty_or_refuted` | C31 refuted: an `$or` without parts matches every document. |
| C31 | `C31_empty_nor_refuted` | C31 refuted: a `$nor` without parts matches no document. |
| C32 | `C32_float_field_int_literal_refuted` | C32 refuted: a comparison with an integer never matches a field holding a floating point number, whichever of the comparisons holds between them. |
| C33 | `C33_exists_true_refuted` | C33 refuted: `$exists: true` is rejected. |
| C33 | `C33_exists_false_refuted` | C33 refuted: `$exists: false` on any field matches exactly the documents without a field named `$exists`, hence also documents that have the field asked for. |
| C34 | `C34_array_literal_refuted` | C34 refuted: an array value matches a longer array, and the empty array value matches a field that is not an array. |
| C38 | `C38_set_null_refuted` | C38 refuted: `$set` to null panics. |
| C39 | `C39_truncates_refuted` | C39 refuted: `$set` of any element but the last removes all the elements after it. |
| C39 | `C39_stale_elements_refuted` | C39 refuted: the removed elements are still behind the array: setting a later element brings them back. |
| C40 | `C40_add_to_set_refuted` | C40 refuted: `$addToSet` does not recognise the element it is given if the document was inserted with a plain Go `int`, because it compares Go types. |
| C40 | `C40_pull_missing_refuted` | C40 refuted: `$pull` from a missing field creates the field, with the value null. |
| C42 | `C42_several_entries_refuted` | C42 refuted: an update whose second operator fails keeps the effect of the first. |
| C42 | `C42_update_many_refuted` | C42 refuted: when `UpdateMany` fails on a document, the documents before it stay changed. |
| C42 | `C42_replace_refuted` | C42 refuted: replacing a document by a value that cannot be converted destroys the document. |
| C43 | `C43_upsert_id_refuted` | C43 refuted: with a document that does not carry the identifier, every call inserts a new document. |
| C44 | `C44_zero_tries_refuted` | **C44 refuted** for a maximum of zero (or less): the client never calls the wrapped method and reports success with zero values. |
| C44 | `C44_rate_limited_numbering_refuted` | **C44 refuted** for the rate-limited client: the second attempt is numbered 1 again. |
| C45 | `C45_zero_delay_refuted` | **C45 refuted** for an initial delay of zero (accepted by the wiring): with a positive limit and a method that keeps failing, the client retries forever. |
| C45 | `C45_overflow_refuted` | **C45 refuted** near the end of the range of durations: the doubled delay overflows and the client retries forever without pausing. |
| C45 | `C45_jitter_panics_refuted` | **C45 refuted** for jitter on a one-nanosecond delay: the client panics instead of retrying. |
| C46 | `C46_drained_forever_refuted` | **C46 refuted**: successes that need no retry replenish nothing, and so a drained bucket never recovers. Once a retry is unaffordable, no later call is ever retried, however many calls succeed. |
| C46 | `C46_concurrent_refuted` | **C46 refuted** for overlapping calls: with capacity 2, cost 1 and nothing replenished, any number of goroutines can retry, and the bucket pays for one. |
| C47 | `C47_no_clients_refuted` | **C47 refuted** for a balancer without clients: a call panics instead of returning an error. |
| C48 | `C48_helper_leaks_refuted` | **C48 refuted**, leak: once the client has timed out, its helper goroutine never ends, whatever happens afterwards. |
| C48 | `C48_leak_reached_refuted` | The leak happens: a schedule in which the deadline passes, the client returns the timeout error, and the wrapped call returns afterwards. |
| C48 | `C48_torn_result_refuted` | **C48 refuted**, torn result: both goroutines write the same named results, so a call can report success with a zero value although the wrapped call returned another value. |
| C49 | `C49_clash_refuted` | C49 needs different variable names: of two dial addresses whose names become the same variable name, only the last is set, even if the first one's server is in the deployment. |
| C49 | `C49_two_servers_refuted` | C49 needs every address to be bound once: if two containers bind it, the order in which Go iterates over the containers decides which of them is dialled. |
| C50 | `C50_clash_refuted` | C50 needs different variable names: the addresses of two services whose names differ only in punctuation share their variables, so that the server of one of them is told to listen on the other's port. |
| C50 | `C50_port_zero_refuted` | C50: the ports wrap around: with a first port near the end of the range a service is told to listen on port 0, which means any free port. |
| C51 | `C51_map_refuted` | **C51** is false for maps (marshallgen.go:199-207). A method with an argument of type `map[string]string`: the file compiles, but the statement that should read the map from the message writes it into the message instead. No message leads to the client's map. |
| C51 | `C51_map_of_structs_refuted` | **C51** is false for maps of structs (marshallgen.go:198-205). The elements are unpacked into a copy that is thrown away. |
| C51 | `C51_pointer_refuted` | **C51** is false for pointers (marshallgen.go:186-187). A method with an argument of type `*User`: the file compiles, but the server unpacks into a nil pointer, whatever message arrives. |
| C51 | `C51_nil_refuted` | **C51** is false for pointers that are nil (marshallgen.go:132). The client dereferences the pointer when it packs it. |
| C51 | `C51_embedded_refuted` | **C51** is false for embedded structs (protogen.go:300-304). They are left out of the message: the server receives `Derived{X: "x"}` for `Derived{Base{7}, "x"}`. |
| C51 | `C51_several_names_refuted` | **C51** is false for lines with several fields (goparser/parser.go:571). Of `X, Y int64` only `X` is read: the server receives `Point{X: 1}` for `Point{1, 2}`. |
| C51 | `C51_int_slice_refuted` | **C51** is false for slices of most integer types (marshallgen.go:164, 222). For `[]int` the statement assigns a `[]int` to a `[]int64`. |
| C51 | `C51_int_map_refuted` | **C51** is false for maps whose keys are integers of most types (marshallgen.go:145-151). For `map[int]string` the statement assigns to a `map[int64]string`. |
| C51 | `C51_byte_refuted` | **C51** is false for `byte` and `rune` (protogen.go:329-330): protobuf has no `uint8`. |
| C51 | `C51_pointer_to_basic_refuted` | **C51** is false for pointers to basic types (marshallgen.go:189): `&*int(x)` does not compile. |
| C51 | `C51_name_refuted` | **C51** is false for names with underscores and for names with a lower case letter after a digit (marshallgen.go:122): the generated code uses another name for the field than protoc-gen-go. |
| C51 | `C51_msg_refuted` | **C51** is false for an argument called `msg` (marshallgen.go:23): the receiver has the same name. |
| C51 | `C51_same_name_refuted` | **C51** is false if two structs have the same name (protogen.go:297): their messages have the same name too, although they belong to different packages. |
| C52 | `C52_negative_delay_refuted` | **C52 refuted** outside that range: a negative maximum makes every call panic. |
| C53 | `C53_created_modules_share_directory_refuted` | C53 refuted: two generated modules whose paths end in the same element get the same directory, and the second one overwrites the first. |
| C53 | `C53_retry_after_error_refuted` | C53 refuted: placing a local module in an occupied directory fails, but trying again succeeds, although the directory still contains the other module. |
| C55 | `C55_nil_source_refuted` | C55 as stated is false of the code in one place: a nil source (for example a nil stored in a cache) makes the delivery panic instead of returning an error. |
| C55 | `C55_read_nil_refuted` | C55: reading through a nil pointer is not an error but a panic. |
| C56 | `C56_variadic_type_not_imported_refuted` | The restriction to plain types is needed: a variadic argument of a type from another package is printed with a package name that no declaration imports. |
| C57 | `C57_parameter_called_n_refuted` | C57 refuted: for a constructor parameter called `n` the generated function does not compile. |
| C58 | `C58_negative_position_refuted` | C58 refuted: a negative position makes the query panic on any document with a nonempty array there. |
| C59 | `C59_ne_refuted` | C59 refuted: `$ne` does not match a document without the field, although the field is not equal to the value, and matches an array that contains the value if it contains another one. |
| C61 | `C61_malformed_query_refuted` | C61 refuted: `ReplaceMany` reports success for a query that all other operations reject. |
| C62 | `C62_no_env_refuted` | C62 refuted: a container that has no variable of its own and dials a server of another pod is not given the address: the deployment file lists the variables of the config map only if the container has other variables. |
| C62 | `C62_order_refuted` | C62 refuted: the ports depend on the order in which Go visits the map of containers. |
| C62 | `C62_clash_refuted` | C62 needs different variable names: two pods whose dials have names that differ only in punctuation share an entry of the config map, so that one of them is given the other's server. |
| C62 | `C62_same_file_refuted` | C62 needs different Kubernetes names: the files of the second of two pods whose names differ in `_` and `-` replace those of the first. |
| C63 | `C63_twice_refuted` | C63 refuted: a process is started twice if one with a smaller name depends on it. |
| C63 | `C63_status_refuted` | C63 refuted: the script reports success although no process could be started. |
| C63 | `C63_failed_dependency_refuted` | C63 refuted: if a process fails, a process that depends on it reports success without being started, and a third process that depends on that one is started without it. |
| C63 | `C63_directory_refuted` | C63 refuted: a process is started in the directory of the process that was started for it, where its own directory cannot be found. |
| C63 | `C63_system_variable_refuted` | C63 refuted: a process whose variable is also set by the system, such as `user`, is taken for started, so that a process that depends on it is started before it. |
| C63 | `C63_cycle_refuted` | C63 needs processes that do not depend on themselves: otherwise the generated functions call each other forever. |
| C64 | `C64_maps_refuted` | **C64** is false for maps, for every implementation: if a method has an argument that is a map, then whatever the client passes, the implementation sees a map that is nil or empty. |
| C64 | `C64_pointers_refuted` | **C64** is false for pointers, for every implementation: if a method has an argument that is a pointer to a struct with a field, then no call through the client ever reaches the implementation or returns results; and a call whose request is delivered ends the process of the server. |
| C64 | `C64_happens_refuted` | The two theorems above are about calls that happen. A method `Do(m map[string]string)`, and an implementation that counts its calls: the client passes a map with an entry, the implementation sees none (variables that are not set are left out of the list: they have their zero value, here nil). A method `Do(u *User)`: the client passes a user, and the server crashes. |
| C65 | `C65_server_panics_refuted` | **C65** does not hold for a server: there is a trace context, with valid ids but without flags, for which the server wrapper panics instead of serving the request. |
| C66 | `C66_after_call_refuted` | **C66** does not hold for what follows a call: the generated client wrapper cannot return its context, so what the caller does after a call does not come after what the server did. |
| C66 | `C66_nested_refuted` | **C66** does not hold for calls within a method: for the same reason, the end of a method does not come after the end of the calls that it made. |
| C66 | `C66_error_refuted` | **C66** does not hold for errors: if the method returns an error over the network, the client's end does not come after the server's end, because the baggage that the server returns with the error is dropped. |
| C67 | `C67_same_name_refuted` | **C67** needs loggers with different names (wiring.go:109: "Logger names must be unique across the system"). If two processes have the same name, the clocks say that one event happened before another one although the processes never exchanged anything. |
| C68 | `C68_unexported_refuted` | C68 fails for structs with fields that are not exported: the call succeeds, and the method is executed with an argument whose field is empty. |
| C68 | `C68_invalid_utf8_refuted` | C68 fails for results that are not valid UTF-8: the caller gets another string, and no error. |
| C68 | `C68_nan_refuted` | C68 fails for results that are not numbers: the method succeeds, the caller gets an error. |
| C68 | `C68_pointer_to_nil_refuted` | C68 fails for pointers to nil: the method is executed with a nil pointer, and dereferencing it panics. |
| C69 | `C69_at_most_once_refuted` | At-most-once fails over HTTP: when a reused connection breaks, the request is sent again, the method is executed twice, and the caller sees one successful call. |
| C69 | `C69_deadline_refuted` | The caller's deadline does not reach the method. |
| C69 | `C69_error_text_refuted` | The caller cannot tell errors apart: two services that fail with different messages give the same error. |
| C70 | `C70_second_retrier_refuted` | C70 fails: two retriers around services with the same interface in one process, the first configured with `p` retries and the second with `q`. Both run with `q`: the file is named after the interface and the second overwrites the first. This is so for all interfaces, names and templates, if the texts with `p` and `q` differ and have the same length (as for 3 and 5 in the real one). |
| C70 | `C70_leftover_refuted` | C70 fails: if the second retrier's text is shorter, as with delays "100ms" and "1s", the file is not even the text of one of them: the end of the first text remains after the second. |
| C70 | `C70_second_pool_refuted` | C70 fails the other way round for client pools: two pools of clients with the same interface both get the capacity of the first one generated. |
| C71 | `C71_thrift_client_refuted` | C71 fails: a process with a gRPC client and a Thrift client of services with the same interface. The Thrift plugin marks its work done under gRPC's name, so the file of the Thrift client is never written although its constructor is called. |
| C71 | `C71_one_definition_refuted` | C71 fails: gRPC servers for the plain interface of a service and for the one wrapped by OpenTelemetry in one process are written to two files of the same package that define the same constructor. |
| C72 | `C72_copied_refuted` | C72 fails: a service whose interface and implementation live in two local modules. Only the first is copied to the workspace; the module with the constructor is missing. |
| C73 | `C73_health_after_tracing_refuted` | **C73** fails: tracing a service and then adding a health check to it, which are both meant to work on any service, makes the compiler panic (slice bounds out of range), whichever tracing plugin it is and whatever the service. |
| C73 | `C73_health_twice_refuted` | **C73** fails: if the service has a method `Health` of its own, or a health check is added twice, the generated code declares the method `Health` twice and does not compile. |
| C74 | `C74_partial_mset_refuted` | **C74** fails: an `Mset` of which one value is refused stores nothing with Redis, and the other values with memcached; both return an error. |
| C74 | `C74_no_keys_refuted` | **C74** fails: `Mget` and `Mset` without keys are errors with Redis, and do nothing with the others. |
| C74 | `C74_illegal_key_refuted` | **C74** fails for keys that memcached does not take: every call with one is an error, and none of them with the other back ends on account of the key. |
| C74 | `C74_overflow_refuted` | **C74** fails: at the largest int64 a counter starts again at the smallest one in memory and with memcached, and `Incr` is an error with Redis. |
| C74 | `C74_redis_mget_missing_refuted` | **C74** fails: asking Redis for several keys of which one is missing panics; the in-memory cache and memcached leave the destination alone. |
| C74 | `C74_lengths_refuted` | **C74** fails: the interface promises an error if there are not as many values as keys. Redis and memcached ignore what is too much, and panic if a value is missing. |
| C74 | `C74_delete_missing_refuted` | **C74** fails: deleting a key that is not there is an error with memcached, and not with the others. |
| C74 | `C74_incr_missing_refuted` | **C74** fails: the first `Incr` of a counter is an error with memcached; the others return 1. |
| C74 | `C74_negative_counter_refuted` | **C74** fails: a counter below zero cannot be incremented with memcached. |
| C74 | `C74_key_refuted` | **C74** fails: a key with a space, as in a user's name, cannot be stored in memcached. |
| C74 | `C74_any_refuted` | **C74** fails: what the interface's documentation does, reading into a variable of type `any`, delivers the integer that was stored with the in-memory cache and a float64 with the others. |
| C74 | `C74_duplicate_key_refuted` | **C74** fails: an `Mset` that names a key twice stores the last value in memory and in Redis; with memcached either value may be the one that stays. |
| C75 | `C75_two_processes_refuted` | **C75** fails: with a client that pushes and another one that pops, as in every deployment where they are different processes, the first item pushed never reaches the one that pops: it is handed to the client that pushed it. `Pop` waits although there is an item in the queue. |
| C75 | `C75_integer_refuted` | **C75** fails: an integer that was pushed cannot be popped into an integer variable: `Pop` returns an error, and the item is gone. |
| C76 | `C76_concurrent_refuted` | C76 refuted: of two concurrent calls of `AddItem` for one customer one may be lost although both succeed: for any items with different identifiers, if both read the cart before either writes it, the cart afterwards has only the item of the one that wrote last. |
| C77 | `C77_stale_refuted` | C77 refuted: merging loses items. If in the session's cart an item that the customer also has comes after more items that the customer does not have than the customer's items have room for (which, after decoding, is none), then the merge succeeds, the session's cart is deleted, and the customer still has only as many of that item as before. |
| C77 | `C77_self_refuted` | C77 refuted: merging a cart with itself deletes it, whatever items it has. This happens when a logged-in user, whose session identifier is the user identifier, logs in again (frontend.go lines 228-241). |
| C78 | `C78_unknown_refuted` | C78 refuted: looking up an identifier that does not exist gives no error and no empty list but one blank user (or address, or card). A caller that checks for an empty list, such as `NewOrder`, never notices. |
| C79 | `C79_duplicate_refuted` | C79 refuted: a username can be registered again. `Register` reports success, but unless the new password fits the first account too, nobody can ever log in to the new one. |
| C79 | `C79_short_card_refuted` | C79 refuted: once a card number of less than four digits has been posted for a user, which succeeds, that user's login panics, with the right password. |
| C80 | `C80_other_cart_refuted` | C80 refuted: if the cart that is ordered is not the customer's own (a session's cart, say), it keeps its items, and the items in the customer's own cart, which nobody ordered, are deleted. The same order can then be placed again. |
| C80 | `C80_unknown_refuted` | C80 refuted: whether customer, address and card exist is not checked. An order for which all three are unknown is placed, with a blank address and a blank card. |
| C80 | `C80_shipped_without_order_refuted` | C80 refuted: if the order cannot be stored `NewOrder` returns an error, but the goods are on their way: the shipment has been queued and stored. |
| C80 | `C80_late_item_refuted` | C80 refuted: what the customer puts in the cart while the order is being placed, after the cart has been read, is deleted with the cart without having been ordered. |
| C81 | `C81_status_refuted` | C81 refuted: the shipping status in an order never changes. Whatever happens, also after the queue master has shipped it, which "will update the order status in the orderservice" (queuemaster.go line 29), every order that `GetOrders` returns is still awaiting shipment. |
| C81 | `C81_shipped_refuted` | C81 refuted: an order is placed, with a new identifier and nothing else in the queue, and the queue master takes its shipment off the queue and ships it. The shipment is then recorded as shipped, and all others as they were; but `GetOrder` and `GetOrders` still answer that the order is awaiting shipment. |
| C82 | `C82_stuck_refuted` | C82 refuted: if the insert of a shipment fails after the shipment has been queued, and the queue master takes it, the queue master is stuck with it for ever: whatever happens from then on, the statuses of all other shipments stay as they are, also of those handed over later. |
| C83 | `C83_array_refuted` | C83 refuted: arrays are read as slices, whatever their length. |
| C83 | `C83_generic_refuted` | C83 refuted: the type arguments of a generic type are dropped, and comparing two types with the same generic type panics. |
| C83 | `C83_alias_refuted` | C83 refuted: `byte` and `uint8` are the same type, and so are `any` and `interface{}`, but not for the parser. |
| C83 | `C83_shadow_refuted` | C83 refuted: a type parameter that has the name of a type of the package is read as that type. |
| C83 | `C83_import_name_refuted` | C83 refuted: a package that is imported without a name and whose name is not the last part of its path (`.../v2` say) is not found, if no other import happens to have the name. |
| C83 | `C83_unknown_part_refuted` | C83 refuted: that a name is not found is noticed only if the whole type is that name. A slice of it, for instance, is accepted, and comparing it with another slice panics. |
| C84 | `C84_fields_refuted` | C84 refuted: of fields that share a type, as in `X, Y int`, only the first is found: some declared field is missing from the parsed struct, and with it from all messages generated for the struct. |
| C84 | `C84_embedded_refuted` | C84 refuted: if any interface of a package embeds another one, no function of the package is found at all, and no method of a struct, without an error. |
| C84 | `C84_order_refuted` | C84 refuted: a method on a type that is not a struct ends the search for functions, without an error. Whether the functions of other files have been found by then depends on the order in which Go iterates over a map, which differs from run to run. |
| C84 | `C84_first_field_refuted` | C84 refuted: of fields that share a type, the first is found and the others are not. |
| C84 | `C84_generic_method_refuted` | C84 refuted: a method of a generic type, with a pointer as its receiver, ends the search for functions: those that are declared after it, in its file and in the files that come later, are not found. |
| C85 | `C85_choice_refuted` | C85 refuted: with two constructors the one that is used depends on the order in which Go iterates over maps, which differs from run to run; and the struct need not be the one that the constructor makes. |
| C85 | `C85_panic_refuted` | C85 refuted: a service interface with a method that takes a generic type (or a slice of a type that was not found) makes the compiler panic, as soon as there is a struct that implements it. |
| C85 | `C85_struct_panic_refuted` | C85 refuted: the same happens when a struct is asked for and any interface of the program, related to the service or not, declares a method of the struct that takes such a type, whatever the other interfaces and the functions are. |
| C85 | `C85_workspace_refuted` | C85 refuted: if interface and constructor are in two local modules, only that of the interface is added to the workspace; the code generated for the service imports a package that is not there. |
| C86 | `C86_redeclared_refuted` | C86 refuted: a directory with a module that the set has already from another directory is refused once; when it is added again, there is no error and the set's module is replaced. Added in one call, the two directories are not even refused once. |
| C86 | `C86_add_refuted` | C86 refuted: `Add` of a path that is not clean (`./workflow`, `workflow/`) panics even though the module is there. |
| C86 | `C86_nested_refuted` | C86 refuted: a module in a subdirectory of another one is parsed as part of both (`filepath.Walk` does not stop at another go.mod file), so it depends on the order in which Go iterates over a map which of them a package of that module is found in. |
| C87 | `C87_availability_refuted` | C87 refuted: an availability check for two nights, of which the second was reserved from the start, makes the service forget that reservation: all rooms of the hotel can be reserved again for that night. (The example does this in hotel 4, with Alice's reservation of 2015-04-09.) |
| C87 | `C87_cache_lost_refuted` | C87 refuted: after a reservation of all rooms for two nights, if the cache loses its entries (a restart, an eviction), all rooms can be reserved again for the second night: the database has the reservation under the first day only. |
| C87 | `C87_concurrent_refuted` | C87 refuted: of two calls of `MakeReservation` that both look before either of them reserves, both get all rooms of the hotel. |
| C87 | `C87_negative_refuted` | C87 refuted: negative numbers of rooms can be reserved; after that, the hotel takes reservations for more rooms than it has. |
| C87 | `C87_no_nights_refuted` | C87 refuted: a reservation for no night at all (the dates in the wrong order, say, or neither of them a date) is made, in any hotel and for any number of rooms, though nothing is reserved; `CheckAvailability` says that the hotel is not available. |
| C88 | `C88_dates_refuted` | C88 refuted: `GetRates` and the search return the same for all dates, though they promise rates and available hotels for the dates asked for: hotels whose rate plans are for other dates are returned, and so are fully booked ones. |
| C89 | `C89_window_refuted` | C89 refuted: two identifiers that are asked for in different milliseconds of the same 16 milliseconds are the same: the last digit of the time is cut off, and the counter starts again at 0. |
| C89 | `C89_counter_refuted` | C89 refuted: the 17th identifier of a millisecond is the same as the second one: only the first digit of the counter is used. |
| C90 | `C90_cache_lost_refuted` | C90 refuted: when the cache has lost the followers of a user, GetFollowers returns the identifier 0 instead of the follower: the database has the followers under another name. |
| C90 | `C90_forgotten_refuted` | C90 refuted: and the next Follow makes the earlier followers disappear. |
| C90 | `C90_unknown_refuted` | C90 refuted: GetFollowers of a user that was never inserted succeeds after a Follow. |
| C90 | `C90_twice_refuted` | C90 refuted: a user who follows twice is two followers. |
| C91 | `C91_range_refuted` | C91 refuted: the range makes no difference: if a user has two posts or more, the first one alone cannot be read. |
| C91 | `C91_order_refuted` | C91 refuted: the newest post is the last one, not the first one as promised. |
| C91 | `C91_no_posts_refuted` | C91 refuted: reading the timeline of a user who has not posted is an error. |
| C91 | `C91_broken_refuted` | C91 refuted: when the cache has lost the timeline of a user who has posted, reading the timeline once (of any length) makes every later access to the timeline fail: each read of a range that is not empty returns an error, and so does each post of the user. |
| C91 | `C91_failed_post_refuted` | C91 refuted: a post for which ComposePost returned an error can nevertheless be in the timeline of its author. |
| C92 | `C92_past_end_refuted` | C92 refuted: a range that begins at the end of the timeline or behind it returns the whole timeline. |
| C92 | `C92_own_posts_refuted` | C92 refuted: users do not find their own posts in their home timelines (unless they follow or mention themselves). |
| C92 | `C92_lost_refuted` | C92 refuted: home timelines are kept in a cache only: a timeline that the cache has lost is gone. |
| C93 | `C93_same_id_refuted` | C93 refuted: of two posts with the same identifier (C89) only the older one can be read with ReadPost, although both are in the database. |
| C94 | `C94_same_id_refuted` | C94 refuted: the documentation promises an error if the identifier is taken: two users can have the same identifier. |
| C94 | `C94_mentions_refuted` | C94 refuted: a name that nobody has is left out without an error. |
| C95 | `C95_int_refuted` | **C95** is false for numbers of type `int` (thriftgen.go:291): they are sent as 32 bits. Every method with one argument, of type `int`, and every number that does not fit into 32 bits: packing and unpacking succeed, and the server gets a different number. |
| C95 | `C95_types_refuted` | **C95** is false for types that the generator takes but the compilers do not (thriftgen.go:288-315, marshallgen.go:145-256): if all types are supported, but some field, argument or result has one of the types that do not compile, then generation reports no error, and a statement of the generated code is ill-typed. |
| C95 | `C95_map_refuted` | **C95** is false for maps (marshallgen.go:231-243). A method with an argument of type `map[string]string`: the file compiles, packing succeeds and so does unpacking, but the statement that should read the map from the message writes it into the message instead, so that the server gets a nil map. |
| C95 | `C95_pointer_refuted` | **C95** is false for pointers (marshallgen.go:213-220). A method with an argument of type `*User`: the file compiles, but the server crashes for every message; and the client crashes if the pointer is nil (marshallgen.go:158-161). |
| C96 | `C96_error_refuted` | **C96** is false for errors (clientgen.go:124-133). The text of an error does not reach the caller: if the implementation returns other errors, the client returns the same. (The error of the thrift client is replaced by the error of the context, which is nil, and the response is then found to be nil.) |
| C96 | `C96_late_refuted` | **C96** is false for calls after a late reply (clientgen.go:77-109, 120-133). One call is answered late; all later ones, however many, are answered in time. The implementation is called for each of them, and each of them returns the error "Response object is nil": the client reads the reply to an earlier call, and never connects again. |
| C96 | `C96_broken_refuted` | **C96** is false for calls after a broken connection (clientgen.go:77-109). Once a message has been lost, or the server has crashed, no later call reaches the implementation: the client never connects again. |
| C97 | `C97_any_name_refuted` | C97 for every name: an argument may be called anything. Refuted: for every plugin there is a name (`ctx`) that an argument of a service's method must not have, whatever the method's other arguments, results and types are; in the HTTP server too, whose generated method has no parameter of that name. |
| C97 | `C97_attempt_number_refuted` | C97 for retries: what compiles hands the arguments on. Refuted: an `int` argument called `i` is replaced by the number of the attempt, and the compiler accepts it. |
| C97 | `C97_thrift_service_refuted` | C97 for the thrift plugin: any name will do for a service. Refuted: the package that thrift generates for a service `Client` is called `client`, as the receiver in the client's methods is, and no method compiles, whatever its arguments are; nor does the server's for a service `Handler`. |
| C98 | `C98_no_tags_refuted` | C98 refuted: a sock without tags is added without an error, and is then not in the catalogue: `Get` does not find it, and `List` and `Count` leave it out. |
| C98 | `C98_order_refuted` | C98 refuted: `List` does not sort. Whatever column is named, the result is the same as without one. |
| C98 | `C98_page_panic_refuted` | C98 refuted: a negative page number makes `List` panic, and so does a page number so large that the position of the page overflows. |
| C98 | `C98_images_refuted` | C98 refuted: the images that the caller gives as a list are not stored; `Get` returns two empty ones. |
| C98 | `C98_comma_refuted` | C98 refuted: one tag with a comma comes back as two. |
| C98 | `C98_lost_refuted` | C98 refuted: an update is not all or nothing. If the statement that inserts the new row fails, the call reports an error and the sock that was there is gone. |
| C98 | `C98_half_added_refuted` | C98 refuted: nor is the addition of a new sock. If the statement that records the second of its two tags fails, the call reports an error and the sock is in the catalogue with the first tag only. |
| C98 | `C98_concurrent_refuted` | C98 refuted: two concurrent calls of `AddTags` with the same new tag make it appear twice. |
| C99 | `C99_load_twice_refuted` | C99: calling `LoadCatalogue` again does not leave the catalogue as it is: every sock is then in it twice, under two identifiers. |
| C99 | `C99_load_half_refuted` | C99 refuted: if adding one of the socks fails, `LoadCatalogue` returns an error and leaves those before it in the catalogue; trying again then adds them a second time (`C99_load_twice_refuted`). |
| C99 | `C99_relogin_refuted` | C99 refuted: "Merges the session into the user": the session of a logged-in user is the user identifier, and a user who logs in again with it loses everything that is in the cart, although the call succeeds. |
| C99 | `C99_switch_refuted` | C99 refuted: somebody who is logged in and logs in to another account takes along everything in the cart: the first account's cart is empty afterwards, and the items are in the second one's. (So can anyone who knows the identifier of a user, which is all that the front end asks for.) |
| C99 | `C99_register_refuted` | C99 refuted: `Register` returns an error, but the account has been made. This happens if the carts cannot be merged; who tries again makes a second account with the same name (see C79). |
| C99 | `C99_update_refuted` | C99 refuted: `UpdateItem`: "If there is no user or session, then a session is created and the sessionID is returned": no session is created. The call succeeds and returns the empty session, whose cart is always shown as empty: the item is lost. |
| C99 | `C99_unknown_refuted` | C99 refuted: looking up a user, an address or a card that does not exist gives no error ("invalid userID") but a blank one. |
| C99 | `C99_price_refuted` | C99 refuted: an item that is already in the cart keeps the price it had when it was first added, however the catalogue has changed since: one more of it is added at the old price, also when the call that adds it reads a new price. |
| C99 | `C99_stock_refuted` | C99 refuted: the quantity in stock, which the catalogue shows, has no meaning: whatever is ordered, the catalogue stays as it is, and an item of which there are none in stock is added to the cart like any other (as `C99_purchase` says, to be ordered). |
| C101 | `C101_find_ids_refuted` | A comment in the code says that the entry of a name that no station has is an empty id. There are two such entries for each of these names, so the result is longer than the list of names whenever one of them is unknown, and what follows stands in the wrong place. |
| C101 | `C101_find_by_ids_refuted` | The result has an empty station twice for each id that no station has. |
| C102 | `C102_delete_refuted` | `Create` looks only at the name, so two train types can have an id; `Delete` reports success and one of them stays. |
| C102 | `C102_names_refuted` | `Create` refuses a name that is there, but with `Update` two train types can have one name. |
| C103 | `C103_find_by_routes_and_types_refuted` | An entry without a colon is not ignored and does not give an error: the call panics. |
| C105 | `C105_short_id_refuted` | An id of fewer than 32 characters is ignored: whatever was stored under it, `GetRouteById` does not find it. |
| C106 | `C106_pay_refuted` | `Pay` for an order that has no payment reports that it was not found, and yet stores the payment: `Query` then has it. |
| C106 | `C106_cleanup_refuted` | If they are different, as in the example's wiring (wiring/specs/docker.go lines 80-82), `Cleanup` reports success and removes no payment. |
| C107 | `C107_grows_refuted` | There is to be one configuration, which is replaced. After a replacement the code also inserts it: the collection has as many documents as there were calls. |
| C108 | `C108_delete_by_order_refuted` | `Create` does not look whether the order has an assurance, and `DeleteByOrderId` removes one: of two, the other stays. |
| C109 | `C109_delete_user_refuted` | `SaveUser` does not look whether there is a user with that id, and `DeleteUser` removes one: after saving a user twice, `DeleteUser` reports success and the user is still there. |
| C109 | `C109_delete_contact_refuted` | `CreateContacts` does not look at the id: after creating two contacts with one id and different documents, `Delete` of the first removes one and the id still finds a contact. |
| C109 | `C109_documents_refuted` | `CreateContacts` never stores the same document of an account twice, but `Modify` may. |
| C110 | `C110_lost_refuted` | A delivery whose insertion fails is lost: the error is logged, `Run` goes on, and a delivery that was pushed once is never in the database or the queue again. |
| C110 | `C110_stopped_refuted` | If the collection cannot be had, `Run` does not go on: it panics, and nothing is delivered any more. |
| C111 | `C111_alias_refuted` | C111 refuted: a registry is not found if its package was imported under another name. |
| C111 | `C111_same_subdir_refuted` | C111 refuted: the tests of two modules whose directories have the same last element (such as `a/tests` and `b/tests`) cannot be converted together: the whole compilation fails. |
| C111 | `C111_two_services_refuted` | C111 refuted: if two services fit, it is Go's map order that decides which of them the tests talk to. |
| C111 | `C111_local_name_refuted` | C111 refuted: if the service has the name under which the test registers its own instance (`local` in all the examples), the test's own instance replaces the client, and the tests of the output do not use the compiled application. |
| C111 | `C111_early_file_refuted` | C111 refuted: if the file that registers the test's own instance is not a test file and its name sorts before the generated file's, its registration comes first and stays the default: the tests of the output do not use the compiled application. |
| C112 | `C112_shared_refuted` | A service without RPC that is put into no process can be used by the services of one process, but not by those of two: each compilation that asks for one of the processes succeeds, the compilation that asks for both fails. |
| C112 | `C112_no_rpc_refuted` | A service without RPC in one process can not be called from another: the compilation fails, whichever process is asked for first. |
| C112 | `C112_late_wrapper_refuted` | Wrappers have to be declared before RPC: a wrapper of the clients or of the service that is declared afterwards makes the compilation of the services' processes fail. |
| C112 | `C112_early_process_refuted` | RPC has to be declared before the service is put into a process: otherwise the compilation of the process succeeds, but the process has no RPC server. |
| C112 | `C112_string_refuted` | A string argument of a constructor that happens to be the name of a service is not passed as a string: the service is built and its client is passed. |
| C112 | `C112_mixed_refuted` | A process that is put into no container is built inside the container of the process that calls it, if that is compiled first. |
| C112 | `C112_cycle_refuted` | A service whose constructor is given a client of the service itself, without RPC in between, is accepted by the wiring spec, but its compilation never ends. |
| C113 | `C113_run_twice_refuted` | C113, refuted: Run should be called once on each object. A workflow service that is Runnable and that has neither gRPC nor wrappers is the very object that its client is, and Run is called when the service is built and again when the client is: twice at least. |
| C114 | `C114_upsert_merges_refuted` | C114: Upsert should replace the document. On MongoDB fields of the old document remain: the in-memory database then has the new document, and MongoDB one that has a field more. |
| C114 | `C114_count_refuted` | C114: UpdateOne should return how many documents it updated. An update that leaves the matching document as it was counts in the in-memory database and does not count on MongoDB. |
| C114 | `C114_unimplemented_refuted` | C114: ReplaceMany always fails on MongoDB, One fails on the cursor of FindMany and All on the cursor of FindOne; in the in-memory database they work. |
| C114 | `C114_projection_refuted` | C114: projections. The in-memory database returns whole documents, whatever the projections are; MongoDB returns what the projection leaves, and refuses more than one. |
| C114 | `C114_duplicate_refuted` | C114: a second document with the same `_id` is in the in-memory database, and refused by MongoDB. |
| C114 | `C114_replace_id_refuted` | C114: a replacement without `_id` leaves the document without `_id` in the in-memory database; MongoDB keeps it. |
| C115 | `C115_get_refuted` | C115: Get takes no lock. Whatever the keys are, a Get that comes while a Put or Delete is in progress reads the map while it is written to, and the program is stopped. |
| C115 | `C115_insert_refuted` | C115: two concurrent InsertOne calls on a collection can both return without error, and one of the documents is lost. |
| C115 | `C115_get_collection_refuted` | C115: two concurrent calls of GetCollection for a new collection can return different collections, and only the second is in the database: what is inserted into the first is not found by anyone else. |
| C116 | `C116_negative_refuted` | C116: if all ratings are negative, no hotel is the best rated. |
| C117 | `C117_search_error_refuted` | C117: if the reservation service fails, the search reports no hotels, and no error. |
| C117 | `C117_bad_date_refuted` | C117: dates that are written as dates but are none (or not in this order) give a successful reservation, and nothing is reserved: every such request of a user with confirmed credentials. |
| C118 | `C118_reviews_refuted` | C118: every start of the review service repeats its reviews: after `n` starts, a guest who asks for the reviews of a hotel gets every one of them `n` times. |
| C118 | `C118_reservations_refuted` | C118: every start of the reservation service repeats the reservation in its text (one room for one night): after `n` starts, `n` rooms are taken, and in the end there is none for a guest. |
| C118 | `C118_rates_refuted` | C118: every start of the rate service repeats its rate plans: a search returns a hotel once for every start. |
| C119 | `C119_prefix_refuted` | C119: if one link is the beginning of another, both are replaced by the short form of the first, and the second leads to the wrong place: its own short form is not in the text. |
| C119 | `C119_path_refuted` | C119: of a link with a path only the host is shortened and recorded. |
| C119 | `C119_expand_refuted` | C119: a short link cannot be turned back: whatever is recorded, the service returns nothing. |
| C120 | `C120_dangling_refuted` | C120: if the post cannot be stored, the timelines are written all the same: they have a post that does not exist. |
| C120 | `C120_timestamp_refuted` | C120: the time of a post is not stored with it: whenever it is composed, the same post is stored. |
| C120 | `C120_zero_refuted` | C120: nobody with the identifier 0, which registration accepts, can post. |
| C122 | `C122_port_refuted` | C122: a port that does not exist is not refused: another one is used. |
| C122 | `C122_duplicate_refuted` | C122: two specs of the same name are not refused: the first one cannot be compiled. |
| C123 | `C123_reserved_refuted` | C123, disagreement: a container with a process called `src`, or like a directory in the root of the Go image (`go`, `bin`, `tmp`, `proc`, …), or with a name that begins with `_` or contains a space, cannot be built, whatever its code is. |
| C123 | `C123_same_directory_refuted` | C123, disagreement: of two processes whose names have the same clean name, only the one that was added last is in the image, and `run.sh` starts it in place of the other. |
| C124 | `C124_failure_refuted` | C124, disagreement: when a build script fails, `build.sh` goes on and reports success, so the image is built without what that script was to make. |
| C124 | `C124_outside_refuted` | C124, disagreement: a script outside the workspace is not refused, as documented, but accepted: no path at all is refused by a workspace with an absolute path. |
| C124 | `C124_relative_refuted` | C124, disagreement: and a workspace with a relative path refuses every script, also those inside it. |
| C124 | `C124_missing_directory_refuted` | C124, disagreement: if the directory of one script is not there, the scripts after it are looked for in the wrong directory. Here `b` is missing, and `c/build.sh` is run in `a`, where that name is another script. |
| C125 | `C125_home_lost_refuted` | C125, disagreement: of two posts for the same user that are made at the same time, one is never in the user's home timeline, although both calls return without an error: both read the timeline before either of them writes it. |
| C125 | `C125_follow_lost_refuted` | C125, disagreement: of two users who follow the same user at the same time, one is not among the followers as `GetFollowers` returns them, and will not get the posts, although both calls return without an error and the database has both followers. |
| C125 | `C125_first_posts_refuted` | C125, disagreement: the first two posts of a user, made at the same time, give the user two documents, and `ReadUserTimeline` finds only one of the posts once the cache has lost its entry, although both calls return without an error. |
| C125 | `C125_timeline_cache_refuted` | C125, disagreement: of two posts of one user, made at the same time, one is missing from the user's cached timeline. |
| C126 | `C126_two_deployments_refuted` | A backend that is put into no deployment but used from two is built in one of them, and in which depends on the order in which the deployments are asked for. |
| C126 | `C126_in_container_refuted` | A backend that is put into a container is built outside of it; the compilation succeeds, and the container is empty. |
| C126 | `C126_wrapped_refuted` | The clients of a backend can not be wrapped, for example to retry: the compilation fails. |
| C127 | `C127_truncates_refuted` | C127 refuted: `$unset` of a field of a document inside an array removes all the array elements after that document. |
| C129 | `C129_same_hotel_refuted` | C129 refuted: of two requests for all rooms of a hotel that overlap, both get them. |
| C130 | `C130_outside_refuted` | C130 refuted: a module that is copied keeps directives for modules outside the workspace, and a relative directory in them is then one that does not exist: cmplx_workload of the hotel example goes to `../../../runtime`. |
| C130 | `C130_shared_directory_refuted` | C130 refuted: of two generated modules that share a directory, one is unknown to the rest of the workspace. |
| C131 | `C131_nil_refuted` | C131, refuted: a package that does not exist need not be reported. The path of a module whose root is no package is refused when it is the first that is looked up, but once a service of the module has been looked up, it gives a nil service without an error. |
| C131 | `C131_search_path_refuted` | C131, refuted: whether a service is found depends on what was looked up before. If an interface is in one module and its implementation in another, the search for the interface fails, and succeeds after any package of the other module has been looked up. |
| C131 | `C131_ambiguous_refuted` | C131, refuted: the module of a package is not always the one that the go command tells. If the path of a module without a root package is also the name of a package in another module, the answer is the one or the other, depending on which was seen last. |
| C132 | `C132_nil_refuted` | C132, refuted: a service that was constructed should answer. If the hotels were inserted, but opening the collection or the query afterwards fails, the constructor returns a service without error, and every call of Nearby panics. |
| C132 | `C132_empty_refuted` | C132, refuted: a service that was constructed should find the hotels. If reading the query's result fails at its beginning, the constructor returns a service without error, which finds nothing anywhere. |
| C132 | `C132_moved_refuted` | C132, refuted: a hotel whose place is changed in the database should be found at its new place after the service is started again. A start puts every hotel of the example back to where the program has it: searches from where this is too far away do not find it. |
| C133 | `C133_logf_refuted` | C133 fails for `Logf` on the console: backend's priorities 0 to 3 are taken as slog's levels, where they are Info and what is just above Info. Every statement is written, also those for debugging, and always with a wrong level: errors look like information. |
| C133 | `C133_floating_refuted` | C133 fails for processes that CreateProcess did not make: services that are in no process and are put into the default one (plugins/goproc/defaults.go), and client processes (CreateClientProcess). They have no logger: in any such process nothing that is said is ever written, and the first log statement, of a constructor or of a request, ends the process. |
| C133 | `C133_early_refuted` | C133 fails for loggers that are chosen before the process is created: CreateProcess sets its default logger whatever was chosen before, so after `opentelemetry.Logger(spec, p)` and then `goproc.CreateProcess(spec, p, …)` the process logs to the console. |
| C134 | `C134_local_refuted` | C134 fails for a balancer in its callers' process: handler and client have the same name. The handler is built first, so the client's code is not generated, and calls go to the balancer directly: none of the modifiers that were added to it (retries, timeouts, tracing) is passed, although all of them are in the process. |
| C134 | `C134_loop_refuted` | C134 fails for a process that has both a caller of the balancer and its server, if it got the caller first: the code for the balancer's name is the client's, so the balancer itself is not in the process. The server calls the client, and every request, from outside or inside, goes through all modifiers back to the RPC client, which sends it to this server again. |
| C135 | `C135_same_name_refuted` | **C135** is false for names that are equal after cleaning (ioutil.go lines 50-56): whatever the generators do, the second node's generator is started in the directory with the files of the first, and what it leaves there is all that remains. |
| C135 | `C135_lost_files_refuted` | **C135** is false for the nodes `web.app` and `web_app`: compilation succeeds, but the output is not the expected one: there is one directory, with the `main.go` of the second node. |
| C135 | `C135_docker_refuted` | **C135** is false for a node called `docker`, or with another name that becomes `docker` (dockercompose/defaults.go line 26): it writes into the directory of all containers, whatever the two generate. |
| C135 | `C135_digits_refuted` | **C135** is false for a node whose name has only digits: it has no directory, and its files are in the output directory itself, whatever it generates. |
| C135 | `C135_documented_refuted` | The documentation of workload generators (workload/wiring.go lines 33-37) and of the sock shop (README.md line 178) says that the executable of the generator `wlgen` is `build/wlgen/wlgen_proc`, or `build/wlgen/wlgen`. **C135** is false for both: whatever is compiled, there is never a file of these names; `wlgen_proc` is a directory. |
| C136 | `C136_create_price_refuted` | `CreateNewPriceConfig` takes any error of `FindByID` to mean that there is no such configuration. If the id has one and its lookup fails, the new one is stored beside it: the call returns without an error, and `FindByID` goes on returning the old one. |
| C136 | `C136_set_consign_refuted` | `CreateAndModifyPriceConfig` replaces the configuration and then inserts it too. If the insertion fails the call returns an error, and yet the new prices are the ones that are charged. |
| C136 | `C136_cleanup_refuted` | `Cleanup` with the two databases being one: if the second half fails the payments are gone and the money is not. |
| C136 | `C136_find_ids_refuted` | `FindIDs` during an outage of the database: it returns no error but, as if no station had any of the names, empty identifiers (two for each name). |
| C136 | `C136_find_by_ids_refuted` | `FindByIDs` in the same way. |
| C136 | `C136_retrieve_by_names_refuted` | `RetrieveByNames` during an outage: it returns no error but empty train types. |
| C136 | `C136_get_by_ids_refuted` | `GetRouteByIds` during an outage: it returns no error but empty routes. |
| C136 | `C136_find_by_routes_and_types_refuted` | `FindByRouteIDsAndTrainTypes` during an outage: it returns no error and no prices. |
| C137 | `C137_create_refuted` | Two calls of `Create` with the same new name at the same time may both succeed: there are then two configurations of that name. |
| C137 | `C137_create_refuted` | `CreateStation` with the same new id, twice at the same time. |
| C137 | `C137_create_refuted` | `CreateFoodStore` with the same new id, twice at the same time. |
| C137 | `C137_create_refuted` | `CreateTrainFood` for the same new trip, twice at the same time: the trip has two lists of food from then on, where the second was to replace the first. |
| C137 | `C137_create_refuted` | `CreateNewPriceConfig` with the same new id, twice at the same time. |
| C137 | `C137_create_refuted` | `Create` of train types with the same new name, twice at the same time. |
| C137 | `C137_create_refuted` | `CreateContacts` with the same new document of the same account, twice at the same time. |
| C137 | `C137_lookup_refuted` | C137 refuted: a lookup of several keys is several lookups. `FindByIDs` with an id twice, at the same time as `UpdateStation` for that id, may return the old station and the new one; on its own it never does (`C137_lookup_alone`). |
| C137 | `C137_init_refuted` | C137 refuted: `InitPayment` with the same new id, twice at the same time: both payments are stored. |
| C137 | `C137_set_refuted` | C137 refuted: the first two calls of `CreateAndModifyPriceConfig` at the same time: both succeed and both configurations are stored, although one call after the other would leave one. |
| C137 | `C137_modify_refuted` | C137 refuted: `Modify` and `DeleteById` of the same assurance at the same time: `DeleteById` succeeds and `Modify` returns an error, and afterwards the modified assurance is stored. One call after the other, in either order, leaves none. |
| C137 | `C137_create_refuted` | C137 refuted: `CreateAndModify` of a route with a new id of at least 32 characters, twice at the same time: both calls succeed and the route is stored twice. |
| C138 | `C138_set_null_refuted` | C138 refuted: `$set` to null panics at a path of any length with nothing in the way, and nothing changes. |
| C139 | `C139_merge_refuted` | C139 refuted: if in `MergeCarts` of a session that is not empty only the last call fails, it returns an error, but the session's items are in the customer's cart and still in the session's. A second `MergeCarts`, in which nothing fails, adds them once more. |
| C140 | `C140_merge_refuted` | C140 refuted: an item that is put into a session's cart while that cart is merged into a customer's may be lost: both calls succeed, and the item is in neither cart. This happens whenever `AddItem` runs after `MergeCarts` has read the session's cart, and before it deletes it. |
| C141 | `C141_login_refuted` | C141 refuted: `Login` panics if the user has a card and the database call for the addresses or cards fails: the numbers of the cards, which have not been read, are masked before the error is returned. |
| C141 | `C141_post_refuted` | C141 refuted: if the second database call of `PostCard` for a user fails, an error is returned and the user does not have the card, but the card is on file; who tries again has it on file twice. |
| C141 | `C141_user_refuted` | C141 refuted: `PostUser` returns an error, but the account has been made, without its addresses and cards. This happens if the database writes the account and the reply is lost: the clean-up then removes the addresses and cards of an account that exists. |
| C141 | `C141_leftover_refuted` | C141 refuted: if a card has been written and an address cannot be, `PostUser` returns an error, and the card stays on file. |
| C142 | `C142_login_refuted` | C142 refuted: a login and the deletion of the same user at the same time. The login returns the user without their card, although the password is right, the user never was without that card, and after the deletion the login is refused. |
| C143 | `C143_twice_refuted` | C143 refuted: two calls of `NewOrder` for the same cart at the same time may both place an order for all the items of the cart, although one after the other the second is refused. |
| C144 | `C144_same_refuted` | C144 refuted: two calls of `AddSock` for the same identifier at the same time are not an update of one by the other. In every catalogue one of them can find the other's row after it has deleted the old one, and then reports an error. |
| C144 | `C144_replaced_refuted` | C144 refuted: while a sock is replaced, it is not in the catalogue. `AddSock` with the identifier of any sock goes through a moment in which `Get` does not find one, and after it `Get` does again. |
| C145 | `C145_stop_refuted` | C145 refuted: a shipment that a queue master has taken from the queue when it stops is lost. Unless its status has been updated already, it is never shipped: whatever happens from then on, its record stays as it was handed over. |
| C146 | `C146_uncounted_refuted` | C146 refuted: the error of the update is ignored. After any calls that were counted, a call whose update fails returns without an error and is not counted, and the next call returns the same number. |
| C146 | `C146_wraps_refuted` | C146 refuted: the count is stored with 32 bits, so that call number 2^31 + 1 returns a negative number, although the result and the field have 64. |
| C146 | `C146_twice_refuted` | C146 refuted: the numbers returned are not different ones, and there may be more than one object. Two calls at the same time on an empty collection both return 0, and both insert the object. |
| C147 | `C147_never_refuted` | C147 refuted: the attempts to update the status do not look at the context. If the context is cancelled while a shipment is in hand and the shipping service fails from then on, for instance because the context of its calls is cancelled, `Run` never returns. |

## Axioms

`#print axioms` for every theorem of MANIFEST.json, grouped by what it depends on, is in
`AXIOMS.md`. No theorem depends on anything else than `propext`, `Classical.choice` and
`Quot.sound`.
