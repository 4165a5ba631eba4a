{"id": "C01", "title": "In-memory cache behaves like a map", "statement": "For every sequence of Put, Get, Delete, Mset and Mget calls, a Get (or each slot of an Mget) reports a hit exactly when the key was written (by Put or Mset) after its last Delete, and then delivers the value of the latest such write; a miss leaves the destination untouched; a call with mismatched slice lengths returns an error and changes nothing.", "quantifier": "every finite history of cache calls, every key and every value", "why_tests_cant": "the claim ranges over all interleavings of writes, deletes and duplicate keys in Mset; tests sample a handful of histories", "anchors": ["runtime/plugins/simplecache/cache.go: Put, Get, Mset, Mget, Delete"]}
{"id": "C02", "title": "Cache Incr is an atomic counter", "statement": "n completed Incr calls on a key, from any number of goroutines, raise the stored counter by exactly n and return n distinct values; Incr on a key holding a non-int64 value fails and leaves the value alone.", "quantifier": "every number of concurrent callers and every interleaving of their steps", "why_tests_cant": "a lost update needs one particular interleaving of Get and Put; a test almost never hits it and cannot show its absence", "anchors": ["runtime/plugins/simplecache/cache.go: Incr, Get, Put"]}
{"id": "C03", "title": "Queue is FIFO, loses nothing, duplicates nothing, and holds at most 10 items", "statement": "For any set of concurrent pushers and poppers, in every schedule, the sequence of items delivered by successful Pops followed by the items still buffered equals the sequence of items accepted by successful Pushes, and at most 10 items are buffered at any time.", "quantifier": "every number of goroutines, every schedule, every item sequence", "why_tests_cant": "FIFO/no-loss must hold for all interleavings and unbounded histories", "anchors": ["runtime/plugins/simplequeue/queue.go: NewSimpleQueue, Push, Pop"]}
{"id": "C04", "title": "Queue cancellation is clean", "statement": "A Push that reports false never makes its item visible to any Pop, a Pop that reports false consumes nothing; a Push or Pop that can complete without blocking succeeds even if its context is already cancelled; and an operation only reports false if its context was cancelled and the queue was full (resp. empty) when it was tried.", "quantifier": "every schedule and every time of cancellation", "why_tests_cant": "the cancellation can race with any other push or pop", "anchors": ["runtime/plugins/simplequeue/queue.go: Push, Pop"]}
{"id": "C05", "title": "Client pool never exceeds its capacity and clients are exclusively held", "statement": "In every schedule of Pop and Push (each Push returning a client obtained from Pop), the number of live clients built is never above the capacity, no client is held by two callers at once, and a Push never blocks.", "quantifier": "every number of callers, capacity, schedule, and pattern of build failures and cancellations", "why_tests_cant": "depends on the interleaving of the atomic size counter with channel operations", "anchors": ["runtime/plugins/clientpool/clientpool.go: NewClientPool, Pop, Push"]}
{"id": "C06", "title": "Client pool callers are not stranded", "statement": "A caller waiting in Pop eventually can get a client: whenever nobody holds a client and no build is in progress, a waiting caller's Pop can complete.", "quantifier": "every schedule, including ones where build fails", "why_tests_cant": "needs one specific race between a failing build and a caller that has just seen a full pool", "anchors": ["runtime/plugins/clientpool/clientpool.go: Pop"]}
{"id": "C07", "title": "Service registry builds the client at most once and honours the default", "statement": "For every sequence of Register, SetDefault and Get, the build function is run at most once, every Get after the first returns the same value or the same error, and the first Get builds the function registered under the current default name; if there is no registration, or the default is unknown, Get returns an error.", "quantifier": "every finite history of registry calls and every build outcome", "why_tests_cant": "ranges over all call orders and build failures", "anchors": ["runtime/core/registry/registry.go: ServiceRegistry, SetDefault, Register, Get"]}
{"id": "C08", "title": "Workload mix matches the configured proportions", "statement": "For a workload that IsValid accepts, each of the 100 equally likely random draws is mapped to exactly one API, and each API owns exactly as many draws as its configured proportion.", "quantifier": "every list of APIs with any integer proportions accepted by IsValid", "why_tests_cant": "must hold for every mix; tests use one or two mixes", "anchors": ["runtime/core/workload/workload.go: AddAPI, IsValid", "runtime/core/workload/engine.go: NewEngine, init_prop_map"]}
{"id": "C09", "title": "Workload engine accounts for every request it starts", "statement": "When an open-loop run ends, the statistics contain exactly one record for every request that was started, and the number of requests whose error is reported equals the number of failing requests.", "quantifier": "every schedule of request completions and stats collection", "why_tests_cant": "the stats channel, wait group and collector run concurrently", "anchors": ["runtime/core/workload/engine.go: RunOpenLoop, PrintStats"]}
{"id": "C10", "title": "Runtime namespace builds each node at most once", "statement": "In a namespace, a successful node is constructed at most once however many dependents ask for it, everyone gets the same instance, and a dependency is constructed before the constructor that asked for it returns.", "quantifier": "every set of definitions, dependency graph and request order", "why_tests_cant": "ranges over arbitrary dependency graphs", "anchors": ["runtime/plugins/golang/namespace.go: Get, Instantiate, Build"]}
{"id": "C11", "title": "Runtime configuration precedence", "statement": "For every required or optional argument, an explicit Define/Set wins over a command line flag, which wins over the environment variable; an unset optional argument does not fail the build until it is used; a required one that nobody provides makes Build fail, naming every missing argument.", "quantifier": "every set of definitions, flags, environment and parent namespaces", "why_tests_cant": "combinatorial in sources; tests cover a few", "anchors": ["runtime/plugins/golang/namespace.go: parseFlags, checkRequired, has, Required, Optional, Build, BuildWithParent"]}
{"id": "C12", "title": "Runtime namespace scoping", "statement": "Get in a child namespace uses the child's own definition when there is one and the nearest ancestor's otherwise; a name nobody defines is an error; nodes defined in the parent are shared by all children.", "quantifier": "every namespace tree and request order", "why_tests_cant": "ranges over arbitrary nesting", "anchors": ["runtime/plugins/golang/namespace.go: Get, has, BuildWithParent"]}
{"id": "C13", "title": "Await returns only after all runnables finished", "statement": "After Shutdown or a failing runnable, Await on a namespace returns only when every Runnable started in it and in its descendants has returned, and a failing runnable cancels the namespace's context.", "quantifier": "every tree of namespaces, every set of runnables and every completion order", "why_tests_cant": "concurrency of wait groups over a tree", "anchors": ["runtime/plugins/golang/namespace.go: Get, Shutdown, Await, BuildWithParent"]}
{"id": "C14", "title": "A wiring name is a definition or an alias, never both; last call wins", "statement": "After any sequence of Define, Alias and property calls, each name is at most one of definition and alias, GetDef resolves through aliases to the definition most recently given to the name, and Defs lists exactly the names defined and not later turned into aliases.", "quantifier": "every finite sequence of wiring spec calls", "why_tests_cant": "ranges over all call orders, including redefinition and alias cycles", "anchors": ["blueprint/pkg/wiring/wiring.go: Define, Alias, GetAlias, GetDef, Defs, resolveAlias, getDef"]}
{"id": "C15", "title": "Wiring properties are ordered lists with replace and append", "statement": "SetProperty leaves exactly one value, AddProperty appends in call order, GetProperties delivers the values in order, GetProperty delivers the value only if there is exactly one; properties of one name or key never leak into another.", "quantifier": "every finite sequence of property calls on any names and keys", "why_tests_cant": "ranges over all call sequences", "anchors": ["blueprint/pkg/wiring/wiring.go: SetProperty, AddProperty, GetProperty, GetProperties"]}
{"id": "C16", "title": "IR nodes are instantiated at most once per namespace", "statement": "Within a compilation namespace, Get of the same name returns the same node, its build function runs successfully at most once there, and the namespace handler is told about each node at most once as a child (AddNode) and about each external dependency at most once as an edge (AddEdge).", "quantifier": "every wiring spec, dependency graph and order of Gets", "why_tests_cant": "arbitrary dependency graphs and nested namespaces", "anchors": ["blueprint/pkg/wiring/namespace.go: get, Get, Instantiate"]}
{"id": "C17", "title": "Nodes are built in the innermost accepting namespace", "statement": "A node requested in a namespace is built there if the handler accepts its type, else in the nearest ancestor that does; the ancestor's node becomes an edge of the requesting namespaces in between; the root accepts everything, so a defined name is always placed somewhere.", "quantifier": "every chain of nested namespaces and every definition", "why_tests_cant": "arbitrary nesting depth and acceptance predicates", "anchors": ["blueprint/pkg/wiring/namespace.go: get, DeriveNamespace", "blueprint/pkg/wiring/application.go: BuildApplicationIR"]}
{"id": "C18", "title": "Compilation runs every deferred step or reports the error", "statement": "BuildIR executes all deferred functions, including those deferred while running, in queue order (front insertions first), until none are left or the first error, which is returned.", "quantifier": "every set of deferred functions and defer patterns", "why_tests_cant": "deferral can nest arbitrarily", "anchors": ["blueprint/pkg/wiring/application.go: BuildApplicationIR", "blueprint/pkg/wiring/namespace.go: Defer"]}
{"id": "C19", "title": "Pointer modifiers compose in the order they were added", "statement": "Following a pointer from the client side visits the client-side modifiers, in the order they were added, then the address or interface, then the server-side modifiers, latest added first, and ends at the wrapped destination; every modifier is visited exactly once.", "quantifier": "every sequence of AddSrcModifier, AddDstModifier and AddAddrModifier calls", "why_tests_cant": "arbitrary number of modifiers in any interleaved order", "anchors": ["blueprint/pkg/coreplugins/pointer/pointer.go: CreatePointer, AddSrcModifier, AddDstModifier, AddAddrModifier, InstantiateDst"]}
{"id": "C20", "title": "Uniqueness check rejects over-reached nodes", "statement": "A node declared unique at some granularity can be reached from at most one namespace of that granularity: compilation fails if a second one reaches it.", "quantifier": "every sequence of Gets from any namespaces", "why_tests_cant": "arbitrary namespaces and orders", "anchors": ["blueprint/pkg/coreplugins/pointer/visibility.go: RequireUniqueness"]}
{"id": "C21", "title": "Port assignment yields distinct ports", "statement": "When port assignment succeeds, all bind addresses have pairwise distinct ports, ports fixed by the user are unchanged, previously unassigned ones are reported as assigned, and no port is 0; if two fixed ports conflict it fails and changes nothing. A node without a port gets the first free port counting up from its preferred port (2000 if none), afterwards prefers it, and keeps it when ports are cleared and assigned again.", "quantifier": "every list of bind configs with any preset and preferred ports", "why_tests_cant": "uint16 arithmetic and all port-set shapes", "anchors": ["blueprint/pkg/coreplugins/address/portassignment.go: AssignPorts"]}
{"id": "C22", "title": "Bind and dial configuration names pair up", "statement": "For an address name, the names of its bind and dial configuration are different from each other, and two addresses with different names and the conventional .addr suffix never share a bind or dial name.", "quantifier": "every address name", "why_tests_cant": "all strings", "anchors": ["blueprint/pkg/coreplugins/address/wiring.go: bind, dial, Define", "blueprint/pkg/blueprint/stringutil/name.go: ReplaceSuffix"]}
{"id": "C23", "title": "Clean names are valid identifiers", "statement": "CleanName only yields letters, digits and underscores, is idempotent, and leaves already clean names alone; names that clean up differently stay different, and the environment variable name is the upper-case clean name.", "quantifier": "every string", "why_tests_cant": "all strings", "anchors": ["blueprint/pkg/ir/irutil.go: CleanName", "blueprint/pkg/blueprint/stringutil/name.go: CleanName", "plugins/linux/util.go: EnvVar, FuncName"]}
{"id": "C24", "title": "Indentation helpers only change leading space", "statement": "Indent prefixes every line with exactly n spaces and changes nothing else; Reindent shifts all non-blank lines by a common amount so that the least indented one has exactly n spaces, preserving relative indentation and text.", "quantifier": "every text and every indentation", "why_tests_cant": "all strings", "anchors": ["blueprint/pkg/blueprint/stringutil/indent.go: Indent, Reindent"]}
{"id": "C25", "title": "IR traversal is complete", "statement": "GetAllIRNodes lists every node of the application tree exactly once, parents before their children, in document order; Filter keeps exactly the nodes of the type, in order.", "quantifier": "every IR tree", "why_tests_cant": "arbitrary trees", "anchors": ["blueprint/pkg/ir/ir.go: getNodes, GetAllIRNodes", "blueprint/pkg/ir/irutil.go: Filter, Split, FilterNodes, Remove"]}
{"id": "C26", "title": "Artifact generation covers every node or fails", "statement": "BuildAll hands every application-level node to exactly one generator (its own, or one default namespace builder), or returns an error; nothing is silently dropped.", "quantifier": "every list of nodes and registry of default builders, every map iteration order", "why_tests_cant": "map iteration order is nondeterministic", "anchors": ["blueprint/pkg/ir/builders.go: buildAll, buildCompatibleNodes, buildArtifactGeneratorNodes"]}
{"id": "C27", "title": "Visit tracker fires once", "statement": "Visited returns false exactly on the first call for each name and true on all later calls.", "quantifier": "every sequence of names", "why_tests_cant": "unbounded histories", "anchors": ["blueprint/pkg/ir/buildcontext.go: VisitTrackerImpl.Visited"]}
{"id": "C28", "title": "Import names never clash", "statement": "Every imported package gets a local name, adding it again returns the same name, different packages get different names, and the package being generated is never imported.", "quantifier": "every sequence of AddPackage calls", "why_tests_cant": "clashes depend on arbitrary combinations of package base names", "anchors": ["plugins/golang/gogen/imports.go: NewImports, AddPackage, AddType, NameOf, Qualify"]}
{"id": "C29", "title": "Type equality is an equivalence and printing respects it", "statement": "Go type equality is reflexive, symmetric and transitive over all supported types, and equal types are printed identically.", "quantifier": "every type expression, of any depth", "why_tests_cant": "types nest arbitrarily", "anchors": ["plugins/golang/gocode/typename.go: Equals, String"]}
{"id": "C30", "title": "Interface containment is a preorder", "statement": "Contains is reflexive and transitive, and if A contains B then every method of B is present in A with the same argument and return types.", "quantifier": "every pair or triple of service interfaces", "why_tests_cant": "arbitrary interfaces", "anchors": ["plugins/golang/gocode/service.go: Contains, Func.Equals, sameTypes"]}
{"id": "C31", "title": "Query operators are a boolean algebra", "statement": "On every document, an $and query matches iff all parts match, $or iff some part matches, $nor iff none does, $not iff its argument does not; order and nesting of parts do not matter.", "quantifier": "every query and every document", "why_tests_cant": "unbounded query depth", "anchors": ["runtime/plugins/simplenosqldb/query/filter.go: And, Or, Not, Exists", "runtime/plugins/simplenosqldb/query/parsefilter.go: ParseFilter, parseLogicalOperator"]}
{"id": "C32", "title": "Comparison queries follow the numbers", "statement": "$eq, $gt, $gte, $lt, $lte on a numeric field match exactly when the comparison holds, $lt/$gte (and $gt/$lte) are complementary on numeric fields, and non-numeric or missing fields never match.", "quantifier": "every number and every document", "why_tests_cant": "all numeric values", "anchors": ["runtime/plugins/simplenosqldb/query/filter.go: cmpInt, cmpFloat, Equals", "runtime/plugins/simplenosqldb/query/parsefilter.go: parseNumericOperator"]}
{"id": "C33", "title": "Existence queries test the named field", "statement": "{f: {$exists: true}} matches exactly the documents that have field f, {f: {$exists: false}} exactly those that do not.", "quantifier": "every document and field name", "why_tests_cant": "all documents", "anchors": ["runtime/plugins/simplenosqldb/query/parsefilter.go: parseExistsOperators"]}
{"id": "C34", "title": "Equality to a literal value means equality", "statement": "{f: v} matches a document iff its field f equals v (or, for an array field, contains v); in particular an array literal only matches an equal array and a document literal only matches a document with exactly those fields.", "quantifier": "every literal and document", "why_tests_cant": "unbounded nesting", "anchors": ["runtime/plugins/simplenosqldb/query/parsefilter.go: parseValue, parseValues, parseArrayValues", "runtime/plugins/simplenosqldb/query/filter.go: ExactFieldMatch, Index, Select"]}
{"id": "C35", "title": "Find returns exactly the matching documents in order", "statement": "FindMany returns all and only the matching documents in insertion order, FindOne the first of them, and neither changes the collection.", "quantifier": "every collection content and every filter", "why_tests_cant": "unbounded collections", "anchors": ["runtime/plugins/simplenosqldb/nosqldb.go: FindOne, FindMany"]}
{"id": "C36", "title": "Delete removes exactly what it should", "statement": "DeleteMany removes all matching documents and nothing else, preserving order; DeleteOne removes only the first match; deleting again removes nothing.", "quantifier": "every collection content and every filter", "why_tests_cant": "the in-place compaction loop must be right for every pattern of matches", "anchors": ["runtime/plugins/simplenosqldb/nosqldb.go: DeleteOne, DeleteMany"]}
{"id": "C37", "title": "Inserted documents always have an _id and are appended", "statement": "InsertOne appends exactly one document equal to the given one, with an _id put in front iff it had none; InsertMany is the same as inserting one by one.", "quantifier": "every document and collection", "why_tests_cant": "all documents", "anchors": ["runtime/plugins/simplenosqldb/nosqldb.go: InsertOne, InsertMany"]}
{"id": "C38", "title": "Updates touch only matching documents and only the named field", "statement": "UpdateOne changes at most the first matching document, UpdateMany exactly the matching ones; $set of a top-level field changes that field only and leaves all other fields and their order alone; the count returned is the number of documents updated.", "quantifier": "every collection, filter and update", "why_tests_cant": "unbounded documents", "anchors": ["runtime/plugins/simplenosqldb/nosqldb.go: UpdateOne, UpdateMany", "runtime/plugins/simplenosqldb/query/update.go: set, updatefield, UpdatePath"]}
{"id": "C39", "title": "Setting an array element preserves the rest of the array", "statement": "$set of f.i replaces element i of the array f and leaves all other elements alone.", "quantifier": "every array, index and value", "why_tests_cant": "all arrays and indexes", "anchors": ["runtime/plugins/simplenosqldb/query/update.go: updateindex"]}
{"id": "C40", "title": "Array update operators", "statement": "$push appends one element, $addToSet appends iff no equal element is there (and is idempotent), $pull removes exactly the matching elements preserving order.", "quantifier": "every array and value", "why_tests_cant": "all arrays", "anchors": ["runtime/plugins/simplenosqldb/query/update.go: push, addtoset, pull"]}
{"id": "C41", "title": "$inc adds, $unset removes", "statement": "$inc adds the given amount to an integer field (starting from 0 if absent) and two $incs compose by addition; $unset removes exactly the named field, and unsetting an absent field changes nothing.", "quantifier": "every document, field and amount", "why_tests_cant": "all integers and documents", "anchors": ["runtime/plugins/simplenosqldb/query/update.go: incint, unsetfield", "runtime/plugins/simplenosqldb/query/parseupdate.go: ParseUpdate"]}
{"id": "C42", "title": "An update is all or nothing", "statement": "If an update returns an error, the collection is unchanged.", "quantifier": "every update and collection", "why_tests_cant": "multi-operator updates and errors in the middle", "anchors": ["runtime/plugins/simplenosqldb/query/update.go: updateall", "runtime/plugins/simplenosqldb/nosqldb.go: UpdateOne, UpdateMany"]}
{"id": "C43", "title": "Upsert keeps exactly one document per matched key", "statement": "Upsert replaces the first matching document if there is one and otherwise inserts the document; UpsertID called repeatedly with the same id never creates a second document with that id.", "quantifier": "every history of upserts", "why_tests_cant": "unbounded histories", "anchors": ["runtime/plugins/simplenosqldb/nosqldb.go: Upsert, UpsertID, ReplaceOne, ReplaceMany"]}
{"id": "C44", "title": "Retry wrapper calls at most max times and stops at the first success", "statement": "The retrying client calls the wrapped method between 1 and max tries times, stops right after the first success, returns the result of the last attempt, and numbers the attempts 1,2,3...", "quantifier": "every sequence of call outcomes and every max", "why_tests_cant": "all outcome sequences", "anchors": ["plugins/retries/codegen.go: clientTemplate, clientFixedDelayTemplate"]}
{"id": "C45", "title": "Exponential backoff terminates and never sleeps longer than the limit", "statement": "The exponential backoff client makes finitely many attempts for every outcome sequence, and each sleep is at most the limit and at least the previous one.", "quantifier": "every delay, limit and outcome sequence", "why_tests_cant": "termination for all parameters", "anchors": ["plugins/retries/codegen.go: clientExponentialBackoffTemplate"]}
{"id": "C46", "title": "Retry token bucket stays within bounds and limits retries", "statement": "Bucket level stays between 0 and the capacity, each call makes at most one retry, and over any run the retries are bounded by the initial capacity plus what successes replenish.", "quantifier": "every sequence of calls and outcomes, every cost and replenish amount", "why_tests_cant": "unbounded histories", "anchors": ["plugins/retries/codegen.go: clientTokenBucketTemplate, clientRateLimiterTemplate"]}
{"id": "C47", "title": "Load balancer is fair round robin", "statement": "Over any n*k consecutive calls from any goroutines, each of the n clients is used exactly k times, and call i goes to client i mod n.", "quantifier": "every number of clients and calls", "why_tests_cant": "unbounded histories", "anchors": ["plugins/loadbalancer/codegen.go: lbServerTemplate pickClient"]}
{"id": "C48", "title": "Timeout wrapper returns the result or the timeout error, and leaks nothing", "statement": "The timeout client returns either the wrapped call's result or a timeout error once the deadline has passed; the helper goroutine always terminates once the wrapped call returns.", "quantifier": "every schedule of completion and deadline", "why_tests_cant": "race between deadline and completion", "anchors": ["plugins/timeouts/codegen.go: clientTemplate"]}
{"id": "C49", "title": "Docker compose links every dial to its server", "statement": "In a generated compose file every dial address whose server is bound in the same deployment is set to host:port of that server, ports within a container are distinct, and every other dial or unset config is passed through from the environment.", "quantifier": "every set of container instances and arguments, every map order", "why_tests_cant": "arbitrary deployments", "anchors": ["plugins/dockercompose/deploy.go: processArgNodes", "plugins/dockercompose/dockergen/dockercompose.go: AddEnvVar, PassthroughEnvVar, ExposePort, MapPort, addInstance"]}
{"id": "C50", "title": "Generated env files give each address one port, shared by bind and dial", "statement": "In .env and .local.env each address gets its own port, the bind and dial variables of an address carry the same port, and both files agree on ports.", "quantifier": "every set of addresses and start port", "why_tests_cant": "all address sets, uint16 ports", "anchors": ["plugins/environment/wiring.go: matchDialsToBinds, generateEnv, generateEnvFiles"]}
{"id": "C51", "title": "gRPC marshalling round-trips arguments and results", "statement": "Generation succeeds exactly for interfaces whose types are supported; the generated message definitions and conversion code are accepted by the compilers; and for every method the arguments the server unpacks equal the arguments the client packed, and likewise for results.", "quantifier": "every interface, every struct declaration (recursive ones too), every value of the argument and result types", "why_tests_cant": "types and values nest arbitrarily", "anchors": ["plugins/grpc/grpccodegen/marshallgen.go: Marshall, Unmarshall", "plugins/grpc/grpccodegen/protogen.go: AddService, GetOrAddMessage, getGRPCType, makeFieldList", "plugins/golang/goparser/parser.go: ParsedField"]}
{"id": "C52", "title": "Fault injection rate", "statement": "With probability p in 0..100 exactly p of the 100 equally likely draws fail a call, a non-failing call is passed through unchanged, and p=0 never fails.", "quantifier": "every p and every draw", "why_tests_cant": "all draws", "anchors": ["plugins/faultinjector/probabilistic/codegen.go: serverTemplate", "plugins/faultinjector/delay/codegen.go: serverTemplate"]}
{"id": "C53", "title": "Modules in a workspace never share a directory", "statement": "Distinct modules added to or created in a workspace are placed in distinct directories, and the same module is never placed twice.", "quantifier": "every sequence of CreateModule and AddLocalModule calls", "why_tests_cant": "all orders and name clashes", "anchors": ["plugins/golang/gogen/workspacebuilder.go: CreateModule, AddLocalModule"]}
{"id": "C54", "title": "Generated namespace code declares each node once", "statement": "A generated namespace file contains each declared node exactly once, every instantiated node once, and redeclaring a node is an error.", "quantifier": "every sequence of Declare/Instantiate/RequiredArg calls", "why_tests_cant": "all call sequences", "anchors": ["plugins/golang/gogen/namespacebuilder.go: Declare, Instantiate, RequiredArg, OptionalArg, DeclareConstructor"]}
{"id": "C55", "title": "Typed result delivery is safe", "statement": "Delivering a value into a caller's destination either assigns exactly that value or returns an error and leaves the destination unchanged.", "quantifier": "every source value and destination type", "why_tests_cant": "all type/value pairs including nil and slices", "anchors": ["runtime/core/backend/reflect.go: CopyResult, GetPointerValue", "blueprint/pkg/wiring/reflect.go: copyResult"]}
{"id": "C56", "title": "Printed type names refer to imported packages", "statement": "The name printed for a type in generated code mentions a package only through a local name that the same import table maps to exactly the package the type comes from.", "quantifier": "every type expression and every import table reachable by any sequence of additions", "why_tests_cant": "types nest without bound and import names depend on the whole history of additions", "anchors": ["plugins/golang/gogen/imports.go:Imports.NameOf", "plugins/golang/gogen/imports.go:Imports.AddType"]}
{"id": "C57", "title": "Generated constructors receive their own arguments", "statement": "The build function generated for a constructor passes as i-th argument the literal given for it or the instance of the i-th argument node, and generation fails iff the number of arguments is wrong or an argument is pure metadata.", "quantifier": "every constructor signature and every list of argument nodes", "why_tests_cant": "signatures and argument lists are unbounded and parameter names are arbitrary", "anchors": ["plugins/golang/gogen/namespacebuilder.go:NamespaceBuilderImpl.DeclareConstructor"]}
{"id": "C58", "title": "Dotted selectors reach the values they name", "statement": "A condition on the selector a.b is tried on field b of the document in field a, or of every document in the array in field a; a number in a selector is a position in an array. No selector makes a query crash.", "quantifier": "every selector and every document", "why_tests_cant": "selectors and documents nest without bound", "anchors": ["runtime/plugins/simplenosqldb/query/filter.go: Lookup, Select, Index, Broadcast"]}
{"id": "C59", "title": "Set operators of queries", "statement": "$in matches iff the field equals, or as an array contains, one of the listed values; $ne matches iff the equality query does not; $all matches iff the field is an array with all the listed values; $elemMatch matches iff one document of the array matches the conditions.", "quantifier": "every list of values and every document", "why_tests_cant": "unbounded lists and documents", "anchors": ["runtime/plugins/simplenosqldb/query/parsefilter.go: parseValueOperator, parseArrayOperator", "runtime/plugins/simplenosqldb/query/filter.go: all, not, or"]}
{"id": "C60", "title": "Collections are identified by their names", "statement": "Two calls of GetCollection on a database return the same collection iff they name the same database and the same collection.", "quantifier": "every history of GetCollection calls", "why_tests_cant": "unbounded histories and arbitrary names", "anchors": ["runtime/plugins/simplenosqldb/nosqldb.go: GetCollection"]}
{"id": "C61", "title": "Replace puts documents in place of the matching ones", "statement": "ReplaceOne replaces the first matching document; ReplaceMany replaces the first matching documents, in order, by the given documents and leaves the others alone; both return the number replaced, and a query that other operations reject is rejected.", "quantifier": "every collection, query and list of documents", "why_tests_cant": "unbounded collections and lists", "anchors": ["runtime/plugins/simplenosqldb/nosqldb.go: ReplaceOne, ReplaceMany"]}
{"id": "C62", "title": "Kubernetes pods: servers get ports of their own and dials reach them", "statement": "In a generated Kubernetes application every server has a port that no other server of its pod has, its container is told to listen on it, and the pod's service publishes it. A container that dials a server of its own pod is given localhost and that server's port; a container that dials a server of another pod is given that pod's service name and that server's port. Generation fails if a dialled address has no server or a configuration has no value. The result does not depend on the order in which maps are visited.", "quantifier": "every set of pods, containers and arguments, every map order", "why_tests_cant": "arbitrary deployments and map orders", "anchors": ["plugins/kubernetes/kubepod/deploy.go: processArgNodes, DeclarePrebuiltInstance", "plugins/kubernetes/kubepod/deploygen/deployfile.go: AddEnvVar, AddConfigMapVar, ExposePort, kubernetesTemplate", "plugins/kubernetes/ir.go: GenerateArtifacts", "plugins/kubernetes/kubeconfig/codegen.go: AddData"]}
{"id": "C63", "title": "A container's run script starts every process once, with its dependencies set", "statement": "A generated run script starts nothing and reports failure if a required variable is missing; otherwise every process of the container is started exactly once, after the processes whose variables it needs, and the script reports failure if a process could not be started.", "quantifier": "every set of processes and dependencies, every environment, every behaviour of the start commands", "why_tests_cant": "arbitrary dependency graphs and failures", "anchors": ["plugins/linuxcontainer/linuxgen/run.sh.go", "plugins/linuxcontainer/linuxgen/runfunc.go", "plugins/linuxcontainer/linuxgen/template.go"]}
{"id": "C64", "title": "A gRPC call behaves as the local call", "statement": "A call through the generated gRPC client runs the service method at most once, with the client's arguments. If the network delivers request and reply, the client returns what the method returned, results and error message; otherwise it returns an error.", "quantifier": "every interface with supported types, every argument, every behaviour of the service and of the network", "why_tests_cant": "arbitrary types, values and network failures", "anchors": ["plugins/grpc/grpccodegen/clientgen.go: clientTemplate", "plugins/grpc/grpccodegen/servergen.go: serverTemplate"]}
{"id": "C65", "title": "OpenTelemetry traces show the calls", "statement": "If all services are instrumented, the spans that reach the collector, arranged by the ids of their parents, are exactly the tree of the calls that were made: one server span per call that arrived, below the span of its caller (with a client span between them if configured) and in the same trace, with the messages logged and the errors returned. A caller without span starts a new trace; a caller whose span is not sampled produces no spans. Results and errors of the calls do not change, and no trace context sent by a client keeps the server from serving the request.", "quantifier": "every application code with nested and concurrent calls, every loss of requests and responses, every caller context, all generated ids without repetition, every trace context text", "why_tests_cant": "unbounded nesting of calls, concurrency, network failures and attacker-chosen trace contexts", "anchors": ["plugins/opentelemetry/ir_ot_client.go: clientSideTemplate", "plugins/opentelemetry/ir_ot_server.go: serverTemplate", "runtime/core/backend/trace.go: GetSpanContext", "runtime/plugins/opentelemetry/log.go"]}
{"id": "C66", "title": "X-Trace events are causally ordered", "statement": "Within a task, the events of instrumented calls are exactly those expected, all belong to the caller's task and come causally after the caller's last events. For every call the client's start comes before the server's start, this before the server's end, and this before the client's end; and what the caller does after a call comes after the events of the call. Results of calls do not change.", "quantifier": "every application code with nested and concurrent calls, every loss of requests and responses, every baggage", "why_tests_cant": "unbounded nesting of calls, concurrency and network failures", "anchors": ["plugins/xtrace/ir_xtrace_client_wrapper.go: clientSideTemplate", "plugins/xtrace/ir_xtrace_server_wrapper.go: serverTemplate", "runtime/plugins/xtrace/trace.go", "runtime/plugins/xtrace/log.go"]}
{"id": "C67", "title": "GoVector clocks tell causality", "statement": "If the loggers of all processes have different names, an event of the log happened before another one (in the same process, or through requests and responses) if and only if its vector clock is smaller. In particular, for a call that returned, sending the request, its arrival, sending the response and its arrival have increasing clocks.", "quantifier": "every number of processes, every interleaving of log events, calls, arrivals, responses, repeated deliveries, losses and failures", "why_tests_cant": "unbounded histories and all schedules", "anchors": ["runtime/plugins/govector/log.go: GoVecLogger", "plugins/govector/ir_clientwrapper.go: clientTemplate", "plugins/govector/ir_serverwrapper.go: serverTemplate"]}
{"id": "C68", "title": "Values survive a call over HTTP", "statement": "When a client calls a service method over the generated HTTP transport and the network delivers, the method is executed once with exactly the caller's arguments if and only if every argument is a string or a value that JSON can express (valid UTF-8, finite numbers, exported fields, no pointers to nil, nothing dropped by omitempty); likewise the caller gets exactly the method's results if and only if these can be expressed in JSON.", "quantifier": "every interface, all argument and result types (integers, floats, strings, slices, maps, pointers, structs with tags, nested without bound), all values of them, every service", "why_tests_cant": "unbounded nesting of types and values; escaping of arbitrary bytes", "anchors": ["plugins/http/httpcodegen/clientgen.go: clientTemplate", "plugins/http/httpcodegen/servergen.go: serverTemplate"]}
{"id": "C69", "title": "What the result of a call over HTTP means", "statement": "If a call over the generated HTTP transport succeeds, the method was executed and its last execution succeeded with the results that the caller gets. If the method fails or panics, the caller gets an error. Only the called method is executed, with the caller's arguments, and never more often than the request is sent; at most once unless a reused connection breaks.", "quantifier": "every interface, service and call, every sequence of network failures and retransmissions", "why_tests_cant": "all failure schedules of the network", "anchors": ["plugins/http/httpcodegen/clientgen.go: clientTemplate", "plugins/http/httpcodegen/servergen.go: serverTemplate"]}
{"id": "C70", "title": "Wrappers run with the parameters they were given", "statement": "A wrapper added to a service in the wiring spec (retries, circuit breaker, timeout, latency, fault injection, client pool, tracing) runs, in the generated process, with the parameters given for that service and with code generated for that service's interface, whatever other wrappers the process contains and in whatever order they are generated.", "quantifier": "every set and order of wrapper nodes in a process, every parameter and interface", "why_tests_cant": "interference shows only for particular combinations of services, interfaces and parameters; all combinations must be covered", "anchors": ["plugins/retries/ir.go: GenerateFuncs", "plugins/circuitbreaker/codegen.go: generateClient", "plugins/clientpool/ir.go: GenerateFuncs", "plugins/timeouts/ir.go: AddInstantiation", "plugins/golang/gogen/template.go: ExecuteTemplateToFile"]}
{"id": "C71", "title": "Generated code defines every constructor it calls", "statement": "After a process has been generated, the constructor called to instantiate a wrapper node is defined in the generated module, in exactly one file.", "quantifier": "every set and order of wrapper nodes in a process", "why_tests_cant": "all combinations of plugins and interfaces", "anchors": ["plugins/thrift/ir_thrift_client.go: GenerateFuncs", "plugins/grpc/ir_grpc_client.go: GenerateFuncs", "plugins/grpc/grpccodegen/servergen.go: GenerateServerHandler", "plugins/goproc/deploy.go: GenerateArtifacts"]}
{"id": "C72", "title": "A process has the modules it depends on", "statement": "When a node adds the Go modules it needs, every local one is copied to the workspace and every other one is required in go.mod, each once, and no others.", "quantifier": "every list of modules, every state of the workspace", "why_tests_cant": "all lists and histories", "anchors": ["plugins/golang/helpers.go: AddToWorkspace, AddToModule", "plugins/workflow/workflowspec/service.go: AddToWorkspace, AddToModule"]}
{"id": "C73", "title": "A stack of plugins is transparent to the caller", "statement": "Whatever tracing, health check and interface-preserving plugins are applied to a service, in any order and number, its callers are offered the service's own methods with their own signatures (plus the health check), the generated wrappers fit together, and a call reaches the service once with the caller's arguments and returns the service's results.", "quantifier": "every sequence of plugins, every service interface, every call", "why_tests_cant": "unbounded stacks and interfaces; tests apply a few fixed stacks", "anchors": ["plugins/xtrace/ir_xtrace_server_wrapper.go: genInterface", "plugins/xtrace/ir_xtrace_client_wrapper.go: genInterface", "plugins/govector/ir_serverwrapper.go: genInterface", "plugins/govector/ir_clientwrapper.go: genInterface", "plugins/opentelemetry/ir_ot_server.go: genInterface", "plugins/opentelemetry/ir_ot_client.go: genInterface", "plugins/healthchecker/ir.go: genInterface"]}
{"id": "C74", "title": "Cache back ends are interchangeable", "statement": "A program that uses a cache sees the same results for every sequence of calls whether the cache is the in-memory one, Redis or memcached.", "quantifier": "every sequence of cache calls, every key and value, every order of the goroutines of an Mset", "why_tests_cant": "all histories and all values; tests need a running server and try a few values", "anchors": ["runtime/core/backend/cache.go: Cache", "runtime/plugins/redis/cache.go: RedisCache", "runtime/plugins/memcached/cache.go: Memcached", "runtime/plugins/simplecache/cache.go: SimpleCache"]}
{"id": "C75", "title": "Queue back ends are interchangeable", "statement": "A program that uses a queue sees items pushed in any process come out of Pop in another process, in order, each exactly once and unchanged, also when the queue is RabbitMQ.", "quantifier": "every sequence of pushes and pops, every number of clients, every value", "why_tests_cant": "all histories and numbers of clients; the tests use one client", "anchors": ["runtime/core/backend/queue.go: Queue", "runtime/plugins/rabbitmq/queue.go: NewRabbitMQ, Push, Pop"]}
{"id": "C76", "title": "A cart holds what its customer put in it", "statement": "Every call of the cart service gets the reply its documentation promises: a customer's cart holds exactly the items added to it and not removed or deleted since, with the summed or updated quantities; calls for one customer do not touch the carts of others, also when they run concurrently.", "quantifier": "every history of calls, every customer, item and quantity, every interleaving of the database operations of concurrent AddItem calls", "why_tests_cant": "all histories and interleavings; the tests make one fixed series of calls", "anchors": ["examples/sockshop/workflow/cart/cartservice.go: AddItem, GetCart, GetItem, MergeCarts, RemoveItem, UpdateItem, DeleteCart", "runtime/plugins/simplenosqldb"]}
{"id": "C77", "title": "Merging carts loses nothing", "statement": "After MergeCarts the customer's cart holds every item of both carts with the sum of the quantities, and the session's cart is empty.", "quantifier": "every reachable database, every pair of carts", "why_tests_cant": "ranges over all pairs of carts; the loss depends on the capacity of a Go slice", "anchors": ["examples/sockshop/workflow/cart/cartservice.go: MergeCarts", "examples/sockshop/workflow/frontend/frontend.go: Login, Register"]}
{"id": "C78", "title": "User accounts, addresses and cards", "statement": "Every call of the SockShop user service gets the reply its documentation promises: users log in with the password they registered with, see their own addresses and cards (posted for them and not deleted since) with masked card numbers, and deleting a user deletes the addresses and cards.", "quantifier": "every history of calls, every account, address, card and password", "why_tests_cant": "all histories; the tests make one fixed series of calls", "anchors": ["examples/sockshop/workflow/user/userservice.go", "examples/sockshop/workflow/user/userdb.go", "examples/sockshop/workflow/user/addressesdb.go", "examples/sockshop/workflow/user/cardsdb.go"]}
{"id": "C79", "title": "Who registers can log in", "statement": "A user who registers successfully can log in with that password, until the account is deleted, and gets the identifier that Register returned.", "quantifier": "every history before and after the registration", "why_tests_cant": "ranges over all histories", "anchors": ["examples/sockshop/workflow/user/userservice.go: Register, Login"]}
{"id": "C80", "title": "An order is placed completely or not at all", "statement": "NewOrder places an order for the items of the cart with the address and card asked for if the price is acceptable; the order is stored, its shipment queued and stored, and the ordered cart emptied. If it fails nothing has changed.", "quantifier": "every reachable state, request, payment limit and failure", "why_tests_cant": "ranges over all states and failure points", "anchors": ["examples/sockshop/workflow/order/orderservice.go: NewOrder", "examples/sockshop/workflow/payment/paymentservice.go", "examples/sockshop/workflow/shipping/shippingservice.go: PostShipping"]}
{"id": "C81", "title": "Placed orders can be looked up", "statement": "GetOrders returns exactly the orders the customer has placed, GetOrder the order with the identifier, as they were placed and with the current shipping status.", "quantifier": "every history of calls, every customer and identifier", "why_tests_cant": "ranges over all histories", "anchors": ["examples/sockshop/workflow/order/orderservice.go: GetOrders, GetOrder", "examples/sockshop/workflow/queuemaster/queuemaster.go"]}
{"id": "C82", "title": "Every shipment is shipped", "statement": "The queue master marks each shipment handed over as shipped, in order and once, and a shipment's status says shipped exactly if the queue master is through with it.", "quantifier": "every interleaving of PostShipping calls and the queue master, with any failures", "why_tests_cant": "ranges over all schedules and failures", "anchors": ["examples/sockshop/workflow/shipping/shippingservice.go", "examples/sockshop/workflow/queuemaster/queuemaster.go: Run"]}
{"id": "C83", "title": "Types in source code are understood as in Go", "statement": "The type that the compiler reads from a type expression in the source of a workflow spec is the type that the Go language gives to it, and two types are the same for the compiler exactly if they are the same in Go.", "quantifier": "every source file (imports, declarations, type parameters) and every type expression", "why_tests_cant": "all programs; tests parse a few files", "anchors": ["plugins/golang/goparser/parser.go: ResolveType", "plugins/golang/goparser/parser.go: LoadImports", "plugins/golang/gocode/type.go"]}
{"id": "C84", "title": "All declarations of a package are found", "statement": "The compiler finds exactly the types, interfaces with methods, structs with fields and methods, and functions with parameters and results that the files of a package declare, in any order of the files.", "quantifier": "every package, every number, contents and order of files", "why_tests_cant": "all packages and map iteration orders", "anchors": ["plugins/golang/goparser/parser.go: Load, LoadStructsAndInterfaces, LoadFuncs, Parse"]}
{"id": "C85", "title": "Services are found", "statement": "An interface or struct is accepted as a workflow service exactly if it qualifies (methods with context and error, a constructor, a matching struct or interface); what is found matches it, independently of the order of parsing, and its modules end up in the generated workspace.", "quantifier": "every interface, struct, set of functions, structs and interfaces, in any order", "why_tests_cant": "all workflow specs and map iteration orders", "anchors": ["plugins/workflow/workflowspec/service.go", "plugins/workflow/workflowspec/spec.go", "plugins/golang/goparser/parser.go: ServiceInterface"]}
{"id": "C86", "title": "Module sets hold what is on disk", "statement": "After modules have been added to module sets without error, the sets hold exactly the modules on disk in those directories, each parsed once per process; a failed call changes nothing; two directories with the same module are refused; packages are found in the nearest set that has them.", "quantifier": "every history of additions to any family of sets with parents", "why_tests_cant": "ranges over all histories", "anchors": ["plugins/golang/goparser/moduleset.go"]}
{"id": "C87", "title": "Hotels are not overbooked", "statement": "MakeReservation books rooms exactly if they are free in every night of the stay, CheckAvailability returns exactly the hotels where they are, and no hotel ever has more rooms taken than it has.", "quantifier": "every history of calls, every stay, number of rooms and initial reservations", "why_tests_cant": "all histories and schedules; tests make a few calls", "anchors": ["examples/dsb_hotel/workflow/hotelreservation/ReservationService.go: MakeReservation, CheckAvailability"]}
{"id": "C88", "title": "Rates and profiles are those in the database", "statement": "Whatever was asked before, GetRates returns the rate plans of the hotels for the dates, the search the hotels that have them, and GetProfiles the profiles of the hotels.", "quantifier": "every database, history of queries, list of hotels", "why_tests_cant": "ranges over all histories", "anchors": ["examples/dsb_hotel/workflow/hotelreservation/RateService.go: GetRates", "examples/dsb_hotel/workflow/hotelreservation/ProfileService.go: GetProfiles", "examples/dsb_hotel/workflow/hotelreservation/SearchService.go: Nearby"]}
{"id": "C89", "title": "Identifiers of posts are unique", "statement": "ComposeUniqueId never returns the same identifier twice on a machine.", "quantifier": "every machine, every time and every number of calls", "why_tests_cant": "a collision needs particular times; tests make a few calls", "anchors": ["examples/dsb_sn/workflow/socialnetwork/UniqueIdService.go: getCounter, ComposeUniqueId", "examples/dsb_sn/workflow/socialnetwork/UserService.go: RegisterUser"]}
{"id": "C90", "title": "Followers and followees", "statement": "GetFollowers and GetFollowees return the users that follow and are followed, after any sequence of Follow and Unfollow; an error for users that do not exist.", "quantifier": "every history of calls and cache losses", "why_tests_cant": "ranges over all histories", "anchors": ["examples/dsb_sn/workflow/socialnetwork/SocialGraphService.go: GetFollowers, GetFollowees, Follow, Unfollow, InsertUser"]}
{"id": "C91", "title": "User timelines", "statement": "ReadUserTimeline returns the posts of the user in the range, the newest first.", "quantifier": "every history of calls, every range", "why_tests_cant": "ranges over all histories", "anchors": ["examples/dsb_sn/workflow/socialnetwork/UserTimelineService.go: ReadUserTimeline, WriteUserTimeline", "examples/dsb_sn/workflow/socialnetwork/ComposePostService.go: ComposePost"]}
{"id": "C92", "title": "Home timelines", "statement": "ReadHomeTimeline returns the range of the posts of the user, of the authors the user follows when they post, and those that mention the user, in order.", "quantifier": "every history of calls, every range", "why_tests_cant": "ranges over all histories of several services together", "anchors": ["examples/dsb_sn/workflow/socialnetwork/HomeTimelineService.go: WriteHomeTimeline, ReadHomeTimeline", "examples/dsb_sn/workflow/socialnetwork/ComposePostService.go: ComposePost", "examples/dsb_sn/workflow/socialnetwork/SocialGraphService.go: GetFollowers"]}
{"id": "C93", "title": "Posts can be read", "statement": "ReadPost and ReadPosts return the stored posts with the given identifiers, whatever the cache holds, and every post in a timeline can be read.", "quantifier": "every history of calls and cache losses, every list of identifiers", "why_tests_cant": "ranges over all histories", "anchors": ["examples/dsb_sn/workflow/socialnetwork/PostStorageService.go: StorePost, ReadPost, ReadPosts"]}
{"id": "C94", "title": "Accounts, logins and mentions", "statement": "Login succeeds exactly with the password that was registered first for the name; names and identifiers are registered once; names are resolved to the identifiers of their accounts.", "quantifier": "every history of calls and cache losses, every hash without collisions", "why_tests_cant": "ranges over all histories", "anchors": ["examples/dsb_sn/workflow/socialnetwork/UserService.go: Login, RegisterUserWithId, ComposeCreatorWithUsername", "examples/dsb_sn/workflow/socialnetwork/UserIdService.go: GetUserId", "examples/dsb_sn/workflow/socialnetwork/UserMentionService.go: ComposeUserMentions"]}
{"id": "C95", "title": "Thrift messages carry the arguments and results", "statement": "For every service interface the thrift generator ends; if it reports no error, the generated code compiles, and the arguments and results of methods arrive as they were sent.", "quantifier": "every set of structs and methods, also structs that contain themselves, and all values of their types", "why_tests_cant": "interfaces and values range over infinitely many types; tests use a few", "anchors": ["plugins/thrift/thriftcodegen/thriftgen.go: AddService, GetOrAddMessage, getThriftType, basicToThirft", "plugins/thrift/thriftcodegen/marshallgen.go: Marshall, Unmarshall, capitalizeFieldName"]}
{"id": "C96", "title": "Calls through the thrift client", "statement": "A call through the generated thrift client does what a direct call of the service does: it runs the implementation once with the same arguments and returns its results or its error; a failed call affects no later ones.", "quantifier": "every interface, implementation, history of calls and pattern of late and lost messages", "why_tests_cant": "ranges over all implementations and histories, and over all delays", "anchors": ["plugins/thrift/thriftcodegen/clientgen.go: clientTemplate", "plugins/thrift/thriftcodegen/servergen.go: serverTemplate"]}
{"id": "C97", "title": "Generated methods compile and pass the arguments, whatever their names", "statement": "For every method of a service interface and every plugin that generates a wrapper, client or server for it, the generated method compiles and hands each argument on to the wrapped method, whatever the arguments are called.", "quantifier": "all methods (any number of arguments and results, any names and types) and all 25 method templates of the plugins", "why_tests_cant": "names and signatures are unbounded; tests use the few names of the example services", "anchors": ["plugins/golang/gogen/template.go: ArgVars, ArgVarsAndTypes, RetVars, RetVarsAndTypes", "plugins/retries/codegen.go", "plugins/timeouts/codegen.go", "plugins/circuitbreaker/codegen.go", "plugins/latency/codegen.go", "plugins/faultinjector/delay/codegen.go", "plugins/faultinjector/probabilistic/codegen.go", "plugins/loadbalancer/codegen.go", "plugins/clientpool/ir.go", "plugins/healthchecker/codegen.go", "plugins/opentelemetry/ir_ot_server.go", "plugins/opentelemetry/ir_ot_client.go", "plugins/xtrace/ir_xtrace_server_wrapper.go", "plugins/xtrace/ir_xtrace_client_wrapper.go", "plugins/govector/ir_serverwrapper.go", "plugins/govector/ir_clientwrapper.go", "plugins/grpc/grpccodegen/clientgen.go", "plugins/grpc/grpccodegen/servergen.go", "plugins/thrift/thriftcodegen/clientgen.go", "plugins/thrift/thriftcodegen/servergen.go", "plugins/http/httpcodegen/clientgen.go", "plugins/http/httpcodegen/servergen.go"]}
{"id": "C98", "title": "The catalogue lists what is on sale", "statement": "A sock that was added to the SockShop catalogue can be looked up with everything that was given, until it is replaced or deleted; List gives exactly the socks that match any of the tags, sorted by the column named, in pages that leave nothing out; Count is their number; Tags lists each tag once; a call that reports an error changes nothing.", "quantifier": "all histories of catalogue calls, including calls some of whose SQL statements fail, all socks, tags, orders, pages and page sizes", "why_tests_cant": "catalogues, tags and failure points are unbounded", "anchors": ["examples/sockshop/workflow/catalogue/catalogueservice.go: List, Count, Get, Tags, AddTags, AddSock, DeleteSock, cut, addTags", "runtime/plugins/sqlitereldb/reldb.go"]}
{"id": "C99", "title": "Shopping through the front end", "statement": "Through the SockShop's front end, a visitor can put items of the catalogue in a cart, log in or register and keep them, and order them: the order has exactly the items added, as often as they were added, at the catalogue's prices, with the address and card given; no call touches another session's cart, and a call that reports an error changes nothing.", "quantifier": "all histories of front-end calls and of calls of the services behind it, including calls of which parts fail, all items, sessions, users and orders", "why_tests_cant": "histories, carts and failure points are unbounded, and the properties span five services", "anchors": ["examples/sockshop/workflow/frontend/frontend.go: AddItem, RemoveItem, GetCart, DeleteCart, GetUser, GetAddress, GetCard, GetOrder, GetOrders, Login, NewOrder, PostAddress, PostCard, Register, UpdateItem, LoadCatalogue"]}
{"id": "C100", "title": "Configurations", "statement": "The train ticket system's configuration service is a table from names to configurations: Create adds one unless the name is taken, Update sets it and tells whether there was one, Delete removes it, Find returns the last one set, and FindAll returns every one once.", "quantifier": "all histories of calls, all values in them", "why_tests_cant": "histories and stored values are unbounded", "anchors": ["examples/train_ticket/workflow/config/configService.go: Create, Update, Delete, Find, FindAll"]}
{"id": "C101", "title": "Stations", "statement": "The station service is a table from ids to stations; Exists, FindID and FindIDs answer by name, FindByID and FindByIDs by id; the lists of results have one entry for each entry asked for, in the same order.", "quantifier": "all histories of calls, all values in them, all lists asked for", "why_tests_cant": "histories and stored values are unbounded", "anchors": ["examples/train_ticket/workflow/station/stationService.go: CreateStation, Exists, UpdateStation, DeleteStation, FindByID, FindByIDs, FindID, FindIDs"]}
{"id": "C102", "title": "Train types", "statement": "The train service keeps train types with different names: Create refuses a taken name, Update sets the one with that id, Delete removes it, and the retrieve calls return what is stored.", "quantifier": "all histories of calls, all values in them", "why_tests_cant": "histories and stored values are unbounded", "anchors": ["examples/train_ticket/workflow/train/trainService.go: Create, Retrieve, RetrieveByName, RetrieveByNames, Update, Delete, AllTrains"]}
{"id": "C103", "title": "Prices", "statement": "The price service is a table from ids to price configurations; FindByRouteIDAndTrainType and FindByRouteIDsAndTrainTypes return those of a route and a train type.", "quantifier": "all histories of calls, all values in them, all lists of routes and types", "why_tests_cant": "histories and stored values are unbounded", "anchors": ["examples/train_ticket/workflow/price/priceService.go: CreateNewPriceConfig, FindByID, FindByRouteIDAndTrainType, FindByRouteIDsAndTrainTypes, GetAllPriceConfig, DeletePriceConfig, UpdatePriceConfig"]}
{"id": "C104", "title": "Food on trains and in stations", "statement": "The train food service is a table from trips to what is served, and the station food service a table from ids to stores; creating the former replaces, creating the latter keeps what is there; the lists have all entries once.", "quantifier": "all histories of calls, all values in them", "why_tests_cant": "histories and stored values are unbounded", "anchors": ["examples/train_ticket/workflow/trainfood/trainFoodService.go: CreateTrainFood, ListTrainFood, ListTrainFoodByTripID, Cleanup", "examples/train_ticket/workflow/stationfood/stationFoodService.go: CreateFoodStore, ListFoodStores, ListFoodStoresByStationName, GetFoodStoresByStationNames, GetFoodStoreByID, Cleanup"]}
{"id": "C105", "title": "Routes", "statement": "CreateAndModify stores the route described (with a new id if the one given is shorter than 32 characters), refuses descriptions whose lists do not fit, and the other calls of the route service return exactly the routes last stored.", "quantifier": "all histories of calls, all values in them with fresh generated ids, all descriptions", "why_tests_cant": "histories and stored values are unbounded", "anchors": ["examples/train_ticket/workflow/route/routeService.go: CreateAndModify, DeleteRoute, GetRouteById, GetRouteByIds, GetRouteByStartAndEnd, GetAllRoutes"]}
{"id": "C106", "title": "Payments", "statement": "Pay records the payment of an order whose payment was initialised and reports an error without effect for any other; Query returns the payments; Cleanup removes everything.", "quantifier": "all histories of calls, all values in them, all databases", "why_tests_cant": "histories and stored values are unbounded", "anchors": ["examples/train_ticket/workflow/payment/paymentService.go: Pay, AddMoney, Query, InitPayment, Cleanup"]}
{"id": "C107", "title": "Consignment prices", "statement": "The price of a consignment follows the configuration last set: the initial price up to the initial weight, and the price for each further unit within or beyond the region.", "quantifier": "all histories of calls, all values in them, all weights", "why_tests_cant": "histories and stored values are unbounded", "anchors": ["examples/train_ticket/workflow/consignprice/consignPriceService.go: GetPriceByWeightAndRegion, GetPriceConfig, CreateAndModifyPriceConfig"]}
{"id": "C108", "title": "Assurances", "statement": "The assurance service stores an assurance for an order, changes and removes it by id or order, and returns what is stored.", "quantifier": "all histories of calls, all values in them", "why_tests_cant": "histories and stored values are unbounded", "anchors": ["examples/train_ticket/workflow/assurance/assuranceService.go: GetAllAssurances, FindAssuranceById, FindAssuranceByOrderId, Create, DeleteById, DeleteByOrderId, Modify"]}
{"id": "C109", "title": "Train ticket users and contacts", "statement": "The user and contacts services store users and contacts, change and remove them by id, and return what is stored; two contacts of an account do not share a document.", "quantifier": "all histories of calls, all values in them", "why_tests_cant": "histories and stored values are unbounded", "anchors": ["examples/train_ticket/workflow/user/userService.go: FindByUsername, FindByUserID, DeleteUser, GetAllUsers, UpdateUser, SaveUser", "examples/train_ticket/workflow/contacts/contactsService.go: CreateContacts, FindContactsById, FindContactsByAccountId, GetAllContacts, Delete, Modify"]}
{"id": "C110", "title": "Deliveries", "statement": "Every delivery that is pushed into the queue is stored in the delivery database, once and in order, whatever fails.", "quantifier": "all histories of pushed deliveries and of iterations of the delivery service, with every failure", "why_tests_cant": "histories and failure points are unbounded", "anchors": ["examples/train_ticket/workflow/delivery/deliveryService.go: Run"]}
{"id": "C111", "title": "Converted tests use the compiled application", "statement": "A test that gets its service from a service registry (a variable initialised with registry.NewServiceRegistry) runs, after compilation with the gotests plugin, against a client of the compiled service: a client of every service to test that fits the registry is registered under the service's name, and the first one is what the registry returns; registries no service fits, and the tests that use them, are unchanged.", "quantifier": "all test packages, with all their files and registrations, all sets of services to test, all orders in which they are visited", "why_tests_cant": "file orders, package contents and map orders are unbounded; whether a converted test uses the client depends on the order in which the go command runs init functions", "anchors": ["plugins/gotests/findtests.go: findWorkflowServiceRegistries, isTestRegistryCall, serviceRegistries.Get", "plugins/gotests/ir.go: GenerateArtifacts", "plugins/gotests/codegen/blueprint_clients.go.go: AddClient, Build, initTestClientsTemplate", "runtime/core/registry/registry.go: Register, SetDefault, Get"]}
{"id": "C112", "title": "Compilation builds the declared application", "statement": "Compiling a wiring spec of services with client and server wrappers, gRPC, HTTP or Thrift, processes, containers and prebuilt backends succeeds and builds exactly what was declared: each service that is asked for or called, directly or indirectly, once, in its process, constructed from clients of the services its arguments name, with its wrappers in order of declaration and its server; each backend that is called as one container in its deployment; in each process that calls a service one client with its wrappers; each process in its container; each namespace gets from outside exactly the addresses its servers bind and its clients dial, and each address leads to its service's server. The result does not depend on how the declarations of different services are interleaved nor on the order of the requests. Exceptions: services without RPC used from two processes, wrappers declared after RPC, RPC declared after the process, string arguments that name a service, processes at different depths, local dependency cycles.", "quantifier": "all applications (numbers of services, wrappers, dependencies between services that may be cyclic through RPC, depths of nesting), all interleavings of declarations, all lists of requested nodes", "why_tests_cant": "the result depends on pointers, aliases, deferred functions and nested namespaces of every definition in the wiring spec; the set of applications and orders is unbounded", "anchors": ["blueprint/pkg/wiring/application.go: BuildApplicationIR", "blueprint/pkg/wiring/namespace.go: get, Instantiate, Defer, DeriveNamespace", "blueprint/pkg/coreplugins/pointer/pointer.go: CreatePointer, AddSrcModifier, AddDstModifier, AddAddrModifier, InstantiateDst", "blueprint/pkg/coreplugins/pointer/visibility.go: RequireUniqueness", "blueprint/pkg/coreplugins/address/wiring.go: Define, Bind, Dial", "blueprint/pkg/coreplugins/namespaceutil/namespace.go: AddNodeTo, InstantiateNamespace", "plugins/workflow/wiring.go: Service", "plugins/grpc/wiring.go: Deploy", "plugins/goproc/wiring.go: AddToProcess, CreateProcess", "plugins/linuxcontainer/wiring.go: AddToContainer, CreateContainer", "plugins/redis/wiring.go: Container", "plugins/http/wiring.go: Deploy", "plugins/thrift/wiring.go: Deploy"]}
{"id": "C113", "title": "Deployed processes start and reach each other", "statement": "When an application of services with wrappers, gRPC, HTTP or Thrift, processes, containers, prebuilt backends and a docker-compose deployment is compiled, and its containers are run with the generated docker-compose file, each process is started exactly once by its container's run.sh and does not stop with an error; each of its services and wrappers is constructed exactly once, from what the wiring spec names; each server listens on a port that is exposed and that no other server in its container has; and each client of such a service or of a backend dials the container and port where it listens. A process that lacks an address stops before it constructs anything, and names exactly what is missing. Run is called once on a service that implements it, except that it is called once more for each client of the service in its own process.", "quantifier": "all applications, all orders of declarations and of Go's map iteration, all start commands that work, all environments of image and host, all requested nodes", "why_tests_cant": "it depends on compilation, port assignment, three generated artifacts and the runtime namespace together, for an unbounded set of applications; tests start single examples", "anchors": ["plugins/golang/gogen/namespacebuilder.go: Instantiate, Declare, DeclareConstructor, RequiredArg", "plugins/goproc/deploy.go: GenerateArtifacts", "plugins/goproc/goprocgen/main.go.go: main template", "runtime/plugins/golang/namespace.go: Get, Build, Required", "plugins/goproc/linuxgen/goproc_runfunc.go: GenerateBinaryRunFunc", "plugins/goproc/deploy_linux_.go: AddProcessInstance", "plugins/linuxcontainer/deploy_docker.go: AddContainerInstance", "plugins/linux/linuxgen/run.sh.go", "plugins/dockercompose/deploy.go: generateArtifacts", "plugins/dockercompose/dockergen/dockercompose.go", "plugins/redis/ir_redis_container.go: AddContainerInstance"]}
{"id": "C114", "title": "Programs do the same on MongoDB as on the in-memory database", "statement": "A program gets the same replies from a collection on a MongoDB server as from a collection of the in-memory NoSQL database, and leaves the same documents there, wherever the two agree on single documents: inserts, deletes, finds, updates, upserts and replacements.", "quantifier": "all programs (histories of calls of the collection interface), all initial collections, all servers that treat single documents as the in-memory database does", "why_tests_cant": "services are unit-tested on the in-memory database and deployed on MongoDB; no test compares all histories", "anchors": ["runtime/plugins/mongodb/nosqldb.go: InsertOne, InsertMany, DeleteOne, DeleteMany, FindOne, FindMany, UpdateOne, UpdateMany, Upsert, UpsertID, ReplaceOne, ReplaceMany, One, All", "runtime/plugins/simplenosqldb/nosqldb.go", "runtime/core/backend/nosqldb.go: NoSQLCollection, NoSQLCursor"]}
{"id": "C115", "title": "In-memory backends under concurrent requests", "statement": "When requests are served concurrently, calls of the in-memory cache and of the in-memory NoSQL database never crash the process, every call returns what it would return if the calls came one after the other in some order that respects which calls were over before others began, and what the backend holds afterwards is what that order leaves there; an acknowledged insert is never lost.", "quantifier": "all numbers of concurrent calls, all their arguments, all contents, all schedules", "why_tests_cant": "schedules: the outcome depends on where goroutines are switched; tests see a few", "anchors": ["runtime/plugins/simplecache/cache.go: Put, Get, Delete", "runtime/plugins/simplenosqldb/nosqldb.go: GetCollection, InsertOne"]}
{"id": "C116", "title": "Hotel recommendations are the best hotels, all of them", "statement": "GetRecommendations returns exactly the hotels that are nearest to the given place, or have the highest rate, or the lowest price, all of them and each once, as the hotels are described by the latest documents in the database; every other criterion is refused.", "quantifier": "all contents of the database, all places, all orders in which Go iterates over the map of hotels", "why_tests_cant": "map iteration order is arbitrary, and ties, repeated documents and extreme values are inputs", "anchors": ["examples/dsb_hotel/workflow/hotelreservation/RecommendationService.go: GetRecommendations, LoadRecommendations", "examples/dsb_hotel/workflow/hotelreservation/FrontEndService.go: RecommendHandler"]}
{"id": "C117", "title": "Hotel front ends: who may do what, and what success means", "statement": "Without credentials that the user service confirms, a request makes no reservation and reveals no reviews or attractions; a reservation is reported as successful exactly if the request is complete, the credentials are confirmed and the rooms have been reserved for the given dates; a search returns the profiles of nearby hotels with a rate plan and a free room, and reports failures.", "quantifier": "all requests, all states, all behaviours of the services behind the front ends (errors included)", "why_tests_cant": "all combinations of inputs and service failures", "anchors": ["examples/dsb_hotel/workflow/hotelreservation/FrontEndService.go: SearchHandler, UserHandler, ReservationHandler, checkDataFormat", "examples/dsb_hotel/workflow/hotelreservation/FrontEndV2Service.go: ReviewHandler, RestaurantHandler, MuseumHandler, CinemaHandler", "examples/dsb_hotel/workflow/hotelreservation/UserService.go: CheckUser"]}
{"id": "C118", "title": "Restarting the hotel services changes nothing for guests", "statement": "However often the hotel services are started on databases that keep their contents, users can log in with the same passwords, recommendations, reviews and search results are the same, and the same rooms are free.", "quantifier": "all numbers of restarts, all requests", "why_tests_cant": "histories of restarts over persistent databases; tests start from an empty in-memory database", "anchors": ["examples/dsb_hotel/workflow/hotelreservation/UserService.go: initUserDB, LoadUsers", "examples/dsb_hotel/workflow/hotelreservation/ReviewService.go: initReviewDB, GetReviews", "examples/dsb_hotel/workflow/hotelreservation/ReservationService.go: initReservationDB", "examples/dsb_hotel/workflow/hotelreservation/RateService.go: initRateDB", "examples/dsb_hotel/workflow/hotelreservation/RecommendationService.go: initRecommendationDB"]}
{"id": "C119", "title": "Mentions and links of a post are found and replaced", "statement": "The users looked up for a post are exactly those named after an @ sign in its text; every link in the text is replaced by a short link that is recorded for it, nothing else in the text changes, and the recorded short links lead back to the original.", "quantifier": "all texts, all random strings", "why_tests_cant": "texts are unbounded and repeated replacement can hit other parts of the text", "anchors": ["examples/dsb_sn/workflow/socialnetwork/TextService.go: ComposeText", "examples/dsb_sn/workflow/socialnetwork/UrlShortenService.go: ComposeUrls, GetExtendedUrls"]}
{"id": "C120", "title": "Composing a post stores all of it or nothing", "statement": "If any part of a post cannot be made, ComposePost changes nothing and returns an error; otherwise the post is stored with its text, mentions, links, media and creator, its identifier is put on the author's and the readers' timelines, and the reply has an error exactly if one of the writes failed. Media lists of different lengths are refused. The gateway identifies users by identifiers if both are given and by names otherwise.", "quantifier": "all requests, all behaviours of the services behind it (errors included)", "why_tests_cant": "all combinations of failures of seven services", "anchors": ["examples/dsb_sn/workflow/socialnetwork/ComposePostService.go: ComposePost", "examples/dsb_sn/workflow/socialnetwork/MediaService.go: ComposeMedia", "examples/dsb_sn/workflow/socialnetwork/Wrk2APIService.go: Follow, Unfollow, ComposePost, Register"]}
{"id": "C121", "title": "A replicated service is n services behind one balancer", "statement": "Replicating a service n times declares n services with different names and a balancer; wherever the balancer is used it is built once, from clients of exactly these n replicas, each of which is built once from its own clients of the services its arguments name; and calls on the balancer go to the replicas in turns.", "quantifier": "all numbers of replicas, group names, arguments, applications, orders of declarations, and schedules of callers", "why_tests_cant": "number of replicas, application and schedule are unbounded", "anchors": ["plugins/replication/wiring.go: Replicate", "plugins/loadbalancer/wiring.go: CreateLoadBalancer", "plugins/loadbalancer/codegen.go: lbServerTemplate"]}
{"id": "C122", "title": "The command line compiles the selected wiring spec, or says that it did not", "statement": "A program made with the command builder ends with status 1 and does nothing if the output directory or the spec is missing or unknown; otherwise it compiles the selected spec, runs all analysis passes in order, generates the artifacts of the resulting application in the output directory, and ends with status 0 exactly if all of that succeeded; it generates nothing if the spec does not compile or a pass fails; ports are assigned from the given one on.", "quantifier": "all flags, all lists of specs and passes, all behaviours of specs, passes and generators", "why_tests_cant": "all combinations of flags and failures", "anchors": ["plugins/cmdbuilder/cmdbuilder.go: MakeAndExecute, MakeAndExecuteWithPasses, Add, ValidateArgs, Build, ParseArgs"]}
{"id": "C123", "title": "A container's image holds each process's binary where it is started", "statement": "Building the image of a Docker container succeeds exactly when every process in it can be built; the image then has, at the path from which the container starts a process, the binary compiled from that process's own files, and otherwise only the base image, the shell and the two scripts.", "quantifier": "all lists of processes, contents of their directories, base images and compilers, and effects of build.sh (for success)", "why_tests_cant": "number of processes, file contents and base images are unbounded", "anchors": ["plugins/linuxcontainer/dockergen/dockerfile_.go: Dockerfile", "plugins/linuxcontainer/deploy_docker.go: NewDockerWorkspace, Finish", "plugins/goproc/deploy_linux_.go: AddProcessArtifacts"]}
{"id": "C124", "title": "build.sh runs each build script once, in its directory", "statement": "The build.sh of a workspace runs every build script that was added, exactly once, each in its own directory, and ends where it started; scripts outside the workspace are refused; and a failing script makes build.sh fail.", "quantifier": "all workspaces, working directories, lists of scripts, and results of the scripts", "why_tests_cant": "number, places and results of scripts are unbounded", "anchors": ["plugins/linuxcontainer/linuxgen/build.sh.go: BuildScript, Add, GenerateBuildScript, buildScriptTemplate"]}
{"id": "C125", "title": "Calls of the social network that overlap", "statement": "Whatever the order in which the goroutines of one ComposePost, Follow or Unfollow run, the effect is that of running them one after another, and the method fails exactly then; posts that are made at the same time all reach the home timelines of the followers and the author's user timeline, once each; and users who follow somebody at the same time are all among the followers.", "quantifier": "all schedules of the calls of caches and databases, numbers of overlapping methods, posts, users and states", "why_tests_cant": "schedules and numbers of goroutines are unbounded", "anchors": ["examples/dsb_sn/workflow/socialnetwork/ComposePostService.go: ComposePost", "examples/dsb_sn/workflow/socialnetwork/HomeTimelineService.go: WriteHomeTimeline", "examples/dsb_sn/workflow/socialnetwork/UserTimelineService.go: WriteUserTimeline", "examples/dsb_sn/workflow/socialnetwork/SocialGraphService.go: Follow, Unfollow, GetFollowers"]}
{"id": "C126", "title": "Prebuilt backends are deployed and dialled", "statement": "Compiling an application with prebuilt databases, caches and queues builds the container of each of them that is used once, in its deployment and nowhere else, with the address that it binds; each service whose constructor is given such a backend gets a client of it that dials this very container; in the docker-compose file the container has the port of its image, and the client of a running process dials the container's name and this port. A backend that is not put into a deployment goes to the deployment that is compiled when it is first used.", "quantifier": "all applications with any number of services and backends, orders of declarations, requests, images, and orders of Go's map iteration", "why_tests_cant": "application, orders and deployments are unbounded; a test deploys single examples", "anchors": ["plugins/redis/wiring.go: Container", "plugins/mongodb/wiring.go: Container", "plugins/memcached/wiring.go: Container", "plugins/rabbitmq/wiring.go: Container", "plugins/mysql/wiring.go: Container", "plugins/redis/ir_redis_container.go: AddContainerInstance", "plugins/mysql/ir_mysql_container.go: AddContainerInstance", "plugins/dockercompose/wiring.go: AddContainerToDeployment", "plugins/dockercompose/deploy.go: DeclarePrebuiltInstance, processArgNodes", "plugins/grpc/wiring.go: Deploy"]}
{"id": "C127", "title": "Unsetting inside documents and arrays", "statement": "$unset of a.b removes field b of the embedded document a and nothing else; $unset of a.i makes element i of the array a null and keeps the others; $unset of a.i.b removes field b of element i and keeps all other elements; a path that does not exist changes nothing.", "quantifier": "all documents, field names, positions and values", "why_tests_cant": "documents and paths are unbounded; the repository tests unset single literal paths", "anchors": ["runtime/plugins/simplenosqldb/query/update.go: UnsetPath, updatefield.Apply, updateindex.Apply, unsetfield.Apply, unsetelement.Apply", "runtime/plugins/simplenosqldb/query/parseupdate.go"]}
{"id": "C128", "title": "A malformed part rejects the whole query", "statement": "A query is rejected iff one of its conditions is: $and, $or and $nor are rejected iff one of their parts is, $not and $elemMatch iff their operand is, $all iff its operand is not an array or lists a value that queries do not support. No malformed part is silently ignored.", "quantifier": "all queries, nested to any depth, and all collections", "why_tests_cant": "queries are unbounded trees", "anchors": ["runtime/plugins/simplenosqldb/query/parsefilter.go: ParseFilter, parseQueries, parseQuery, parseLogicalOperator, parseArrayOperators, parseArrayOperator"]}
{"id": "C129", "title": "Reservations that overlap", "statement": "MakeReservation and CheckAvailability calls that overlap each get the right reply, and no hotel ever has more rooms taken in a night than it has, whatever the order in which the calls reach the cache and the database; and every call ends.", "quantifier": "any number of calls at the same time, all schedules of their calls of the cache and the database, all histories of such rounds, all dates, hotels and numbers of rooms", "why_tests_cant": "the number of interleavings is unbounded; a test sees one of them", "anchors": ["examples/dsb_hotel/workflow/hotelreservation/ReservationService.go: MakeReservation, CheckAvailability"]}
{"id": "C130", "title": "A generated workspace finds its own modules", "statement": "After a workspace has been filled with generated and copied modules and finished, go.work lists exactly the directories of its modules; the go.mod of each of them redirects every other module of the workspace to its directory there, with one directive, and is otherwise as it was: it keeps its own requirements, those added by plugins, and other directives; nothing refers to a directory that is not there.", "quantifier": "every sequence of NewModuleBuilder, AddLocalModule and Require calls, every go.mod of a copied module, every order of map iteration", "why_tests_cant": "module graphs, go.mod files and map iteration orders are unbounded", "anchors": ["plugins/golang/gogen/workspacebuilder.go: Finish, updateModfile, readModfile, CreateModule, AddLocalModule", "plugins/golang/gogen/modulebuilder.go: NewModuleBuilder, Require"]}
{"id": "C131", "title": "Services are found by package and name", "statement": "A service that a wiring spec names by type, or by package and name, is looked up in the module that the Go tool chain gives for its package, whatever has been looked up before; if its interface, implementation and constructor are in that package it is found; what is found has the given name; an unknown package or name is reported as an error; downloaded modules are not mistaken for local ones.", "quantifier": "every history of lookups, every set of modules and packages, every order of map iteration, every failure of the go command", "why_tests_cant": "results are cached in global maps, so that answers could depend on all earlier lookups", "anchors": ["plugins/golang/goparser/module.go: GetModuleInfo, FindPackageModule, findModules, isLocal", "plugins/workflow/workflowspec/cache.go: GetService, GetServiceByName", "plugins/workflow/workflowspec/spec.go: get"]}
{"id": "C132", "title": "Searches find the nearest places", "statement": "A search for hotels, restaurants, museums or cinemas returns the at most five nearest places within 10 km, the nearest first, each once, of the places in the database when the service was started, however often it was started before and wherever earlier starts failed. A constructor returns an error exactly if one of its database calls fails; a service that was constructed answers.", "quantifier": "all documents in the database, all sequences of starts with all failures of database calls, all coordinates", "why_tests_cant": "a start makes up to 84 database calls, each of which may fail, on a database that earlier starts left half filled", "anchors": ["examples/dsb_hotel/workflow/hotelreservation/GeoService.go: initGeoDB, NewGeoServiceImpl, newGeoIndex, Nearby", "examples/dsb_hotel/workflow/hotelreservation/AttractionsService.go: initAttractionsDB, NewAttractionsServiceImpl, newGeoIndex, NearbyRest, NearbyMus, NearbyCinema"]}
{"id": "C133", "title": "What a process logs is written by its logger", "statement": "A process made with CreateProcess has the metric collector and the logger that the wiring spec chose last, built before any other of its nodes. In the running process every log statement, of constructors and of requests, is then written by this logger, once, in order, with its priority and message, no log statement ends the process, and meters are available.", "quantifier": "all wiring specs, all other definitions and all that is built in the process before and after, all constructors and requests, all five ways to log, all contexts", "why_tests_cant": "it depends on the order in which nodes are built at compile time and constructed at run time, in every application and process", "anchors": ["plugins/goproc/wiring.go: CreateProcess, SetLogger, SetMetricCollector, setDefaultLogger, defineDefaultMetricCollector", "plugins/opentelemetry/wiring.go: Logger", "plugins/govector/wiring.go: Logger", "plugins/xtrace/wiring.go: Logger", "runtime/core/backend/log.go", "runtime/core/backend/metric.go", "runtime/plugins/slogger/log.go", "runtime/plugins/opentelemetry/log.go", "runtime/plugins/xtrace/log.go", "runtime/plugins/govector/log.go"]}
{"id": "C134", "title": "Calls of a load balancer", "statement": "A call of a load balanced service passes the client side modifiers that were added to the balancer, in their order, then the server side ones, the last one first, and is handed to the replicas of the wiring spec in turn, wherever callers and balancer are placed.", "quantifier": "all lists of replicas and modifiers, all other definitions, all orders in which processes get their nodes", "why_tests_cant": "it depends on which nodes a process got first, and modifiers that are bypassed change nothing that a test of the service sees", "anchors": ["plugins/loadbalancer/wiring.go: CreateLoadBalancer", "plugins/loadbalancer/ir_balancer.go: initDynamicLBNode, AddInstantiation", "blueprint/pkg/wiring/namespace.go: get", "plugins/goproc/deploy.go"]}
{"id": "C135", "title": "The output directory", "statement": "Compilation writes into a new directory only. In the output each part of the application (tests, workload generators, deployments, the containers, processes and golang instances without one) has its own directory, with what it would generate if it were compiled alone, and there is nothing else. The output does not depend on the order in which builders run. The executable of a workload generator is where the documentation says.", "quantifier": "all applications, all behaviours of the generators, all orders in which Go iterates over the registered builders", "why_tests_cant": "names and generators are arbitrary, and a lost file is noticed only when the part is run", "anchors": ["blueprint/pkg/ir/builders.go: buildAll, buildCompatibleNodes, buildArtifactGeneratorNodes", "blueprint/pkg/blueprint/ioutil/ioutil.go: CheckDir, CreateNodeDir", "plugins/workload/ir.go: GenerateArtifacts", "plugins/goproc/defaults.go, plugins/linuxcontainer/defaults.go, plugins/dockercompose/defaults.go", "plugins/environment/wiring.go: AssignPorts"]}
{"id": "C136", "title": "Train tickets when database calls fail", "statement": "When calls of the database fail, a method of a train ticket service makes its whole change or none and returns an error; it never returns a result that hides the failure. After any history with failing calls the services are as after a history without failures that leaves out only calls that had returned an error.", "quantifier": "all services of the example but delivery, all arguments, all contents of the databases, all combinations of failing calls (without effect, or with their effect but with the reply lost), all histories", "why_tests_cant": "each combination of a failing call and a state is a separate case", "anchors": ["examples/train_ticket/workflow/config/configService.go", "examples/train_ticket/workflow/station/stationService.go: FindIDs, FindByIDs", "examples/train_ticket/workflow/train/trainService.go: RetrieveByNames", "examples/train_ticket/workflow/price/priceService.go: CreateNewPriceConfig, FindByRouteIDsAndTrainTypes", "examples/train_ticket/workflow/route/routeService.go: GetRouteByIds", "examples/train_ticket/workflow/payment/paymentService.go: Cleanup", "examples/train_ticket/workflow/consignprice/consignPriceService.go: CreateAndModifyPriceConfig", "examples/train_ticket/workflow/{assurance,user,contacts,trainfood,stationfood}"]}
{"id": "C137", "title": "Train tickets: calls at the same time", "statement": "Calls of the methods of a train ticket service at the same time leave the database, and return the results, of the same calls one after the other in some order. In particular two calls that create the same key never both succeed, and calls that create different new keys all succeed.", "quantifier": "all services of the example but delivery, all numbers of concurrent calls, all arguments, all contents of the database, all interleavings of their database calls", "why_tests_cant": "the number of interleavings grows exponentially with the calls, and a test does not choose the schedule", "anchors": ["examples/train_ticket/workflow/config/configService.go: Create, Update, Delete, Find, FindAll", "examples/train_ticket/workflow/station/stationService.go: CreateStation", "examples/train_ticket/workflow/train/trainService.go: Create", "examples/train_ticket/workflow/price/priceService.go: CreateNewPriceConfig", "examples/train_ticket/workflow/trainfood/trainFoodService.go: CreateTrainFood", "examples/train_ticket/workflow/stationfood/stationFoodService.go: CreateFoodStore", "examples/train_ticket/workflow/contacts/contactsService.go: CreateContacts", "examples/train_ticket/workflow/payment/paymentService.go: Query, Pay, AddMoney"]}
{"id": "C138", "title": "Updates and queries inside embedded documents, at any depth", "statement": "An update with a dotted path of field names of any length changes the value at that path as the same operator changes a field of a plain document, and keeps the values at all paths beside it. Missing documents on the way are created, except by $unset, which changes nothing then. A value on the way that is not a document is an error and nothing changes. After $set, a query for that value at that path finds the document.", "quantifier": "all documents of any depth, all paths of field names of any length, all operators, all values", "why_tests_cant": "documents, paths and values are unbounded; the repository's tests use single literal paths of two or three parts", "anchors": ["runtime/plugins/simplenosqldb/query/update.go: UpdatePath, UnsetPath, updatefield.Apply, unsetfield.Apply", "runtime/plugins/simplenosqldb/query/parseupdate.go: ParseUpdate", "runtime/plugins/simplenosqldb/query/filter.go"]}
{"id": "C139", "title": "Carts when database calls fail", "statement": "When calls of the database fail, before or after having their effect, a cart method makes its whole change or none, and returns an error whenever a call failed. After any history with failing calls the carts are as after a history without failures that leaves out only calls that had returned an error. Repeating a failed MergeCarts merges the session into the customer's cart once.", "quantifier": "all databases and histories of cart calls, all choices of which database calls fail and how", "why_tests_cant": "any database call of any history may fail; tests run against a database that does not", "anchors": ["examples/sockshop/workflow/cart/cartservice.go: AddItem, MergeCarts, RemoveItem, UpdateItem, DeleteCart, GetCart, GetItem, getCart"]}
{"id": "C140", "title": "Calls for different customers' carts at the same time", "statement": "When calls of the cart service for different customers overlap, in any order of their database calls, each returns what it returns alone, each cart is as after its own call alone, and the carts of other customers have not changed.", "quantifier": "all reachable databases, any number of overlapping calls of any methods, all interleavings of their database calls", "why_tests_cant": "the interleavings of any number of calls are unbounded and not under a test's control", "anchors": ["examples/sockshop/workflow/cart/cartservice.go: AddItem, MergeCarts, RemoveItem, UpdateItem, DeleteCart, GetCart, GetItem, getCart"]}
{"id": "C141", "title": "Accounts, addresses and cards when database calls fail", "statement": "When calls of the database fail, before or after having their effect, a call of the user service returns an error, and has had its whole effect or none; a deletion can be repeated until it works, with the effect of one deletion; a failed PostUser leaves no addresses and cards behind; and a login still gives access only to accounts that were registered with that name and password.", "quantifier": "all databases and histories of calls, all choices of which database calls fail and how, any number of repetitions", "why_tests_cant": "any database call of any history may fail; tests run against a database that does not", "anchors": ["examples/sockshop/workflow/user/userservice.go: Login, Register, PostUser, PostAddress, PostCard, Delete, maskCCs", "examples/sockshop/workflow/user/userdb.go: createUser, createCard, createAddress, deleteUser, deleteAddress, deleteCard, getUserAttributes"]}
{"id": "C142", "title": "Cards and addresses posted at the same time", "statement": "When any number of cards and addresses are posted at the same time, for the same user, for different users or for nobody, each call returns its identifier, everything posted is on file exactly once, and each user has gained exactly what was posted for them. A login at the same time as other calls returns what a login before or after them returns.", "quantifier": "all histories, any number of overlapping calls, all orders of their database calls", "why_tests_cant": "a lost update needs a particular order of the database calls of several requests", "anchors": ["examples/sockshop/workflow/user/userservice.go: PostCard, PostAddress, Login, Delete", "examples/sockshop/workflow/user/userdb.go: createCard, createAddress, getUserAttributes, deleteUser"]}
{"id": "C143", "title": "Orders placed at the same time", "statement": "When any number of customers place orders at the same time, each call returns what it returns alone, exactly the orders placed are stored, each with one shipment stored and queued, and exactly the carts that were ordered are emptied. The items of a cart are ordered once.", "quantifier": "all reachable states, any number of overlapping NewOrder calls, all orders of their calls of other services and of the database", "why_tests_cant": "lost or doubled orders need a particular order of the calls of several requests", "anchors": ["examples/sockshop/workflow/order/orderservice.go: NewOrder", "examples/sockshop/workflow/shipping/shippingservice.go: PostShipping", "examples/sockshop/workflow/payment/paymentservice.go: Authorise"]}
{"id": "C144", "title": "Catalogue changes at the same time", "statement": "When any number of calls that add, replace or delete socks or add tags run at the same time, every call succeeds, the socks that were added can be read with everything that was given, deleted ones are gone, the tags are listed, and all other socks are unchanged. Socks that no call is about can be read unchanged at every moment. While a sock is replaced, readers find the old or the new one. Two additions for the same identifier are an addition and an update.", "quantifier": "all reachable catalogues, any number of overlapping AddSock, DeleteSock and AddTags calls, all orders of their SQL statements", "why_tests_cant": "mixed-up tags or lost rows need a particular order of the statements of several calls", "anchors": ["examples/sockshop/workflow/catalogue/catalogueservice.go: AddSock, DeleteSock, AddTags, addTags, Get, Tags"]}
{"id": "C145", "title": "Shipments with several queue masters that may stop", "statement": "With any number of queue masters, each shipment handed over is taken by one of them and ends up shipped, also if a queue master stops and starts again. A stored shipment is one that was handed over, and is marked as shipped only after it has left the queue.", "quantifier": "any number of queue masters, every interleaving of PostShipping calls and queue masters, with any failures, lost replies and stops", "why_tests_cant": "ranges over all schedules, failures and crash points", "anchors": ["examples/sockshop/workflow/queuemaster/queuemaster.go: Run", "examples/sockshop/workflow/shipping/shippingservice.go: PostShipping, UpdateStatus, GetShipment"]}
{"id": "C146", "title": "Counting calls in the leaf example", "statement": "Each call of HelloInt returns the number of calls before it, no two calls return the same number, and one object counts the calls: none is missed, however they overlap.", "quantifier": "any number of calls, one after the other or at the same time in every interleaving of their database calls", "why_tests_cant": "ranges over all numbers of calls and all schedules", "anchors": ["examples/leaf/workflow/leaf/leafservice.go: HelloInt, LeafObject", "runtime/plugins/simplenosqldb/query/update.go: $inc"]}
{"id": "C147", "title": "The loop of a queue master", "statement": "A queue master marks the shipments that it takes from the queue as shipped, each once and in the order in which it takes them. Errors do not end it. It returns when the context is cancelled.", "quantifier": "any results of the queue and of the shipping service at every step, and any moment at which the context is cancelled; any number of steps", "why_tests_cant": "ranges over all infinite sequences of results, errors and cancellations", "anchors": ["examples/sockshop/workflow/queuemaster/queuemaster.go: NewQueueMaster, Run"]}
