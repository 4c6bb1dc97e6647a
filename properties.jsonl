{"id": "C01", "title": "Data keys share a generator exactly within their scope", "statement": "When clients are allocated, two occurrences of the same data key @d (of any scope but global) are served by the same generator instance if and only if they occur in the same instance of the configured scope: same statement for statement/row, same transaction of the same client for trx, same client for iter/client, same client group, exec group, workload or stage for those scopes; value-scoped keys never share. The scope of a key is the one its configuration names, and a stage file is accepted only with the eleven names.", "quantifier": "every sequence of allocation positions visited in the order in which stages, exec groups, client groups, clients, transactions and statements are allocated; every scope except global", "why_tests_cant": "The tests visit a dozen fixed run levels; whether the copy decision is right depends on every pair of positions in an arbitrary workload shape.", "anchors": ["data/scope.go:Scope.Copy", "finch.go:RunLevel.GreaterThan", "workload/workload.go:Allocator.Clients"]}
{"id": "C02", "title": "Every data key in a statement has a value source", "statement": "For every data key other than @PREV that occurs in a statement of an allocated client, allocation attaches a value function, whatever valid scope the key has (including global).", "quantifier": "every data key, every valid scope name, every run level a client can be allocated at", "why_tests_cant": "Tests exercise a few scopes; a scope for which no generator copy is ever made only shows up when it is the one configured.", "anchors": ["data/scope.go:Scope.Copy", "finch.go:RunLevel.GreaterThan", "workload/workload.go:Allocator.Clients"]}
{"id": "C03", "title": "One value per scope iteration for single-client scopes", "statement": "For row, statement, trx, iter and client scope, implicit uses of @d by one client return the same values for as long as the client stays in the same scope iteration, and the generator is called exactly once for each scope iteration in which @d is used.", "quantifier": "every sequence of uses by one client with non-decreasing run counters, every generator", "why_tests_cant": "The guarantee is about arbitrarily long histories of statements, transactions and iterations interleaved with uses.", "anchors": ["data/scope.go:ScopedGenerator.Values", "data/scope.go:ScopedGenerator.Call"]}
{"id": "C04", "title": "Explicit calls always generate and become current", "statement": "An explicit call @d() always calls the generator exactly once and returns its values; for every scope from row to workload, later implicit uses by the same client in the same scope iteration return the values of the most recent call; a value-scoped key calls the generator at every use.", "quantifier": "every history of implicit and explicit uses of one generator", "why_tests_cant": "Interleavings of explicit and implicit uses are unbounded.", "anchors": ["data/scope.go:ScopedGenerator.Call", "data/scope.go:ScopedGenerator.Values", "trx/trx.go:Calls"]}
{"id": "C05", "title": "Client-group scope: one call per client and iteration, whatever the interleaving", "statement": "With client-group scope, for every interleaving of the clients of one client group, each client sees one fixed set of values per own iteration, the shared generator is called exactly once per (client, iteration) that uses the key, and values handed to one client are not changed by calls made for another.", "quantifier": "every finite interleaving of uses by any number of clients with distinct client numbers", "why_tests_cant": "Depends on every schedule of concurrent clients.", "anchors": ["data/scope.go:ScopedGenerator.Values", "data/scope.go:ScopedGenerator.Call"]}
{"id": "C06", "title": "Exec-group and workload scope treat different clients independently", "statement": "With exec-group and workload scope every client gets a fresh value in each of its own iterations, also when the clients belong to different client groups of the same exec group.", "quantifier": "every interleaving of uses by clients of any client groups in one exec group or workload", "why_tests_cant": "Needs two client groups with equally numbered clients at the same iteration number; a test with one client group never sees it.", "anchors": ["data/scope.go:ScopedGenerator.Values", "workload/workload.go:Allocator.Clients", "client/client.go:Client.Run"]}
{"id": "C07", "title": "Stage and global scope generate exactly one value", "statement": "With stage (or global) scope, every implicit use of @d returns the values of one single generator call made at first use.", "quantifier": "every history of implicit uses by any number of clients", "why_tests_cant": "The tests cover statement/trx/iter/client scopes only, and the property is about every use in every history.", "anchors": ["data/scope.go:ScopedGenerator.Values", "data/scope.go:NewScopedGenerator"]}
{"id": "C08", "title": "Only stage- and global-scoped data survives between stages", "statement": "Resetting the data scope between stages removes every key, generator copy and copy position of narrower scope, keeps all stage and global ones unchanged, and is idempotent.", "quantifier": "every data scope content", "why_tests_cant": "Quantifies over arbitrary key sets.", "anchors": ["data/scope.go:Scope.Reset", "compute/server.go:Server.Run"]}
{"id": "C09", "title": "Uniform int values stay within [min, max]", "statement": "For every valid configuration the uniform int generator returns one value v with min <= v <= max, and never panics.", "quantifier": "every min, max and every random source", "why_tests_cant": "Random values: tests sample a few draws from a few ranges.", "anchors": ["data/integer.go:NewInt", "data/integer.go:Int.Values"]}
{"id": "C10", "title": "Normal int values stay within [min, max]", "statement": "For every valid configuration the normally distributed int generator returns one value v with min <= v <= max, whatever the random draws.", "quantifier": "every min, max, mean, stddev and every sequence of random draws", "why_tests_cant": "The fallback branch is reached only for unlucky draws.", "anchors": ["data/integer.go:Int.Values", "data/integer.go:NewInt"]}
{"id": "C11", "title": "int-gaps values are in range and hit exactly p percent of the range", "statement": "int-gaps returns values in [min, max]; the set of values it can return has exactly floor(size*p/100) members (size = max-min+1), is strictly increasing in the drawn index and includes both min and max.", "quantifier": "every min < max, every percentage p giving at least two values, every draw", "why_tests_cant": "Quantifies over all ranges, percentages and draws.", "anchors": ["data/integer.go:NewIntGaps", "data/integer.go:IntGaps.Values"]}
{"id": "C12", "title": "int-range returns a well-formed range inside [min, max]", "statement": "int-range returns two values lower <= upper, both in [min, max], with upper-lower+1 <= size, and exactly size values unless cut at max.", "quantifier": "every min <= max, size >= 1 and every draw", "why_tests_cant": "Depends on draws near the upper boundary.", "anchors": ["data/integer.go:NewIntRange", "data/integer.go:IntRange.Values"]}
{"id": "C13", "title": "int-range-seq enumerates the range exactly once per cycle", "statement": "Successive calls of int-range-seq (from any clients in any order) return consecutive chunks that cover [begin, end] without gap or overlap, then start over at begin; each chunk has size values except possibly the last.", "quantifier": "every begin <= end, size >= 1, every number of calls, every interleaving of callers", "why_tests_cant": "Unbounded number of calls and wrap-arounds.", "anchors": ["data/integer.go:IntRangeSeq.Values", "data/integer.go:NewIntRangeSeq"]}
{"id": "C14", "title": "auto-inc values are sequential and unique across clients", "statement": "The k-th call of auto-inc (in the order of the atomic increments) returns start + k*step mod 2^64; hence no two calls return the same value before 2^64/gcd(step) values were drawn, for any interleaving of clients.", "quantifier": "every start, step, number of calls and interleaving", "why_tests_cant": "Uniqueness is over all pairs of calls in all schedules.", "anchors": ["data/integer.go:NewAutoInc", "data/integer.go:AutoInc.Values"]}
{"id": "C15", "title": "str-fill-az returns exactly len letters", "statement": "Whenever str-fill-az returns, the string has exactly the configured length and only characters a-z and A-Z, whatever the random source; every letter string is possible for some random source.", "quantifier": "every length and every random word stream", "why_tests_cant": "Quantifies over all random streams.", "anchors": ["data/string.go:NewStrFillAz", "data/string.go:StrFillAz.Values"]}
{"id": "C16", "title": "client-id returns the configured run counters in order", "statement": "client-id returns one value per configured id, in configuration order, equal to the counters of the calling client; without params it returns the client number; unknown ids are rejected.", "quantifier": "every id list and every run count", "why_tests_cant": "All lists of ids and all counter values.", "anchors": ["data/id.go:NewClientId", "data/id.go:ClientId.Values", "data/id.go:ClientId.Format"]}
{"id": "C17", "title": "A saved column yields the most recently scanned value", "statement": "A column generator returns exactly the value of the most recent scan (bytes copied, so later reuse of the driver's buffer does not change it), nil before the first scan; under trx scope every use after the save in the same transaction returns the saved value.", "quantifier": "every sequence of scans, buffer mutations and uses", "why_tests_cant": "History property with buffer aliasing.", "anchors": ["data/column.go:Column.Scan", "data/column.go:Column.Values", "client/client.go:Client.Run"]}
{"id": "C18", "title": "Row limit stops all clients with bounded overshoot", "statement": "With a row limit shared by clients each of whose statements affects at most b rows, for every interleaving: no client starts a statement once the count reached max, the limit never lets a client continue after that, and the final count is less than max + (number of clients)*b.", "quantifier": "every interleaving of More/Affected calls of any number of clients, every affected row count", "why_tests_cant": "Depends on the schedule of concurrent clients.", "anchors": ["limit/data.go:Rows.More", "limit/data.go:Rows.Affected", "client/client.go:Client.Run"]}
{"id": "C19", "title": "Size limit is checked at a fixed cadence and stops every client", "statement": "Once the table reached the size limit, out of every m consecutive checks (m fixed by the limit) at least one says stop; so clients sharing the limit start at most (number of clients)*(m-1) further statements. While the table is smaller the limit stops nobody.", "quantifier": "every number of calls, every limit size, every interleaving", "why_tests_cant": "Counts over unbounded histories and schedules.", "anchors": ["limit/data.go:Size.More", "limit/data.go:NewSize"]}
{"id": "C20", "title": "Database size limit measures the database", "statement": "With database-size, writing continues until the measured database size reaches the limit.", "quantifier": "every table list and size history of the database", "why_tests_cant": "Tests need a live MySQL and would have to fill it; the claim is about every size history.", "anchors": ["limit/data.go:Size.More", "limit/data.go:NewSize"]}
{"id": "C21", "title": "Combined rate limits respect both limits", "statement": "Where two rate limits are combined, the number of permits handed out never exceeds the number of ticks of either limit, for every interleaving of ticks, consumers and the combining goroutine; a nil limit is neutral.", "quantifier": "every interleaving of tick, combine and consume steps", "why_tests_cant": "Concurrency of three goroutines over unbounded time.", "anchors": ["limit/rate.go:And", "limit/rate.go:and.run", "limit/rate.go:NewRate"]}
{"id": "C22", "title": "Stage, exec group and client rate limits hold simultaneously", "statement": "For every client the permits it consumes are bounded by its own, its exec group's and its stage's limiter; the sum over the clients of an exec group (stage) is bounded by the group's (stage's) limiter ticks.", "quantifier": "every tree of limiters built for a workload and every schedule", "why_tests_cant": "A tree of concurrent goroutines sharing channels.", "anchors": ["workload/workload.go:Allocator.Clients", "limit/rate.go:And", "limit/rate.go:and.run"]}
{"id": "C23", "title": "Combining data limits stops at the first limit reached", "statement": "With several data limits on one statement execution continues only while all of them allow it; each affected-rows report reaches every limit; nil is neutral; a zero value disables the limit.", "quantifier": "every combination of limits and every history", "why_tests_cant": "Quantifies over combination trees and histories.", "anchors": ["limit/data.go:Or", "limit/data.go:or.More", "limit/data.go:NewRows", "limit/data.go:NewSize", "trx/trx.go:File.statements"]}
{"id": "C24", "title": "Statistics count every event exactly once", "statement": "After recording any sequence of query events, the count of each event type is the number of events of that type, the total counts all events, the histogram of each type sums to its count, and min and max are the exact extreme latencies of each type; the result does not depend on the order.", "quantifier": "every sequence of (event type, latency >= 0)", "why_tests_cant": "All event sequences.", "anchors": ["stats/stats.go:Stats.Record", "stats/stats.go:NewStats"]}
{"id": "C25", "title": "Combining statistics equals recording everything in one place", "statement": "Combining the statistics of several clients gives the same counts, histograms, max, min and error counts as if all their events had been recorded in a single set of statistics.", "quantifier": "every two (hence any number of) event sequences and error maps", "why_tests_cant": "Algebraic law over all event histories, including empty ones.", "anchors": ["stats/stats.go:Stats.Combine", "stats/collector.go:Instance.Combine", "stats/collector.go:Collector.Collect"]}
{"id": "C26", "title": "A copied statistic equals its source", "statement": "Copy makes all values (counts, min, max, histograms, errors) equal to those of the source, whatever the destination held before.", "quantifier": "every destination and source", "why_tests_cant": "Needs a destination with leftovers from a previous interval.", "anchors": ["stats/stats.go:Stats.Copy", "stats/collector.go:Instance.Combine"]}
{"id": "C27", "title": "A reported percentile is the histogram percentile", "statement": "For one percentile p the reported value identifies the first histogram bucket at which at least p percent of the events have latency at or below that bucket; a list of percentiles reports for each element what it would report alone.", "quantifier": "every histogram and every ascending list of percentiles", "why_tests_cant": "All histograms; several percentiles falling into one bucket.", "anchors": ["stats/stats.go:Stats.Percentiles"]}
{"id": "C28", "title": "Interval statistics neither lose nor duplicate events", "statement": "If each record is not interrupted by a swap, every recorded event appears in exactly one collected interval (or is still pending); under arbitrary interleaving of records and swaps at most one event per client and swap can be lost and none is counted twice.", "quantifier": "every interleaving of client records and collector swaps", "why_tests_cant": "Race between client and collector goroutines.", "anchors": ["stats/stats.go:Trx.Record", "stats/stats.go:Trx.Swap", "stats/collector.go:Collector.Collect"]}
{"id": "C29", "title": "Collector never indexes out of range and interval numbers only grow", "statement": "For every sequence of local collections and received remote statistics, fewer than nInstances statistics are pending between operations, so nothing is written out of range, and the interval number grows by one per report.", "quantifier": "every sequence of Collect/Recv/Report operations with any interval numbers", "why_tests_cant": "All arrival orders of remote statistics.", "anchors": ["stats/collector.go:Collector.Collect", "stats/collector.go:Collector.Recv", "stats/collector.go:Collector.Report"]}
{"id": "C30", "title": "A report holds each compute instance's statistics for that interval", "statement": "Every completed report contains exactly one statistic from each compute instance, all for the interval being reported; statistics for past intervals are dropped.", "quantifier": "every arrival order of local and remote statistics", "why_tests_cant": "All arrival orders and delays.", "anchors": ["stats/collector.go:Collector.Collect", "stats/collector.go:Collector.Recv", "stats/collector.go:Collector.Report"]}
{"id": "C31", "title": "Stop tells whether the final statistics were complete", "statement": "Stopping the collector returns true exactly if all compute instances reported the final interval before the timeout.", "quantifier": "every schedule of remote statistics, timer and cancellation events during Stop", "why_tests_cant": "Depends on event order and timeout.", "anchors": ["stats/collector.go:Collector.Stop"]}
{"id": "C32", "title": "Trx file lines become statements with their own modifiers", "statement": "Splitting a trx file yields one statement per blank-line separated block, its text being the block's trimmed non-modifier lines joined by single spaces, with exactly the modifiers written above it since the previous statement; lines after -- EOF are ignored.", "quantifier": "every list of lines", "why_tests_cant": "All file contents.", "anchors": ["trx/trx.go:File.Load", "trx/trx.go:File.line"]}
{"id": "C33", "title": "copies: N yields N copies", "statement": "A statement with copies N yields exactly N statements (0 removes it), numbered 1..N in place of the copy-number marker and otherwise equal to the statement without the modifier; negative N is rejected.", "quantifier": "every N, every query and modifier list", "why_tests_cant": "All N.", "anchors": ["trx/trx.go:File.statements"]}
{"id": "C34", "title": "csv N expands to N rows", "statement": "The csv marker with N and template (t) is replaced by N comma-separated copies of the template and the rest of the statement is unchanged. A number that does not fit 31 bits is refused.", "quantifier": "every N >= 1, prefix, template and suffix", "why_tests_cant": "All N and templates.", "anchors": ["trx/trx.go:File.statements"]}
{"id": "C35", "title": "Row scope regenerates each row key once per row", "statement": "For row-scoped keys the csv template gets exactly one explicit call, on the first occurrence of each row-scoped key, and other keys are untouched.", "quantifier": "every template and every set of row-scoped keys", "why_tests_cant": "Key names that are prefixes of each other.", "anchors": ["trx/trx.go:RowScope"]}
{"id": "C36", "title": "Placeholders are replaced by the format of their own generator", "statement": "Each data key in a query is replaced by the placeholder of its own generator, text between keys is unchanged and the result does not depend on map iteration order.", "quantifier": "every query, every key set, every order of the replacement list", "why_tests_cant": "Go map order is random; a test sees one order per run.", "anchors": ["trx/trx.go:File.statements"]}
{"id": "C37", "title": "Generated values line up with query placeholders", "statement": "When every key yielding k values is followed by exactly k-1 @PREV before the next key, the i-th value passed to MySQL is the value generated for the i-th placeholder: first values for @d, later ones for the @PREV after it.", "quantifier": "every statement shape and all generated values", "why_tests_cant": "All sequences of keys and multi-value generators.", "anchors": ["client/client.go:Client.Run", "trx/trx.go:File.statements", "data/scope.go:Scope.Copy"]}
{"id": "C38", "title": "Statement kinds are recognised from the first word", "statement": "A statement is classified by its first word, case-insensitively: select as result set read, begin/start/commit/ddl/write accordingly, and every statement belongs to the documented class.", "quantifier": "every query text", "why_tests_cant": "All query texts.", "anchors": ["trx/trx.go:File.statements", "client/client.go:Client.Run"]}
{"id": "C39", "title": "Exec groups partition the workload in order", "statement": "Grouping yields non-empty lists of client group indexes whose concatenation is 0,1,...,n-1; neighbours are in the same exec group exactly if they have the same group name.", "quantifier": "every workload", "why_tests_cant": "All workload shapes.", "anchors": ["workload/workload.go:Allocator.Groups"]}
{"id": "C40", "title": "DDL runs once and alone", "statement": "A client group with DDL and no explicit iteration limit gets a limit of one iteration, and with automatic naming it forms an exec group of its own.", "quantifier": "every workload and assignment of DDL", "why_tests_cant": "All mixes of DDL/DML, named and unnamed groups.", "anchors": ["workload/workload.go:Allocator.Groups", "workload/workload.go:Allocator.AutoAssign"]}
{"id": "C41", "title": "Automatic assignment runs every trx once in file order", "statement": "Without a workload section, the generated client groups contain every trx exactly once in file order, DDL trx alone with one client and one iteration, and neighbouring non-DDL trx together.", "quantifier": "every list of trx files", "why_tests_cant": "All lists.", "anchors": ["workload/workload.go:Allocator.AutoAssign", "workload/workload.go:Allocator.hasDDL"]}
{"id": "C42", "title": "A client executes its trx in order with correct boundaries", "statement": "An allocated client's statement list is the concatenation of its trx's statements in order; the begin mark is on exactly the first and the end mark on exactly the last statement of each trx; client ids are unique per stage and numbered from 1.", "quantifier": "every workload and trx set", "why_tests_cant": "All workloads.", "anchors": ["workload/workload.go:Allocator.Clients"]}
{"id": "C43", "title": "Iteration and rate limits are attached as configured", "statement": "iter applies per client, iter-clients is one budget shared by the clients of the client group, iter-exec-group one budget shared by all clients of the exec group; unset limits are unlimited.", "quantifier": "every workload", "why_tests_cant": "All workload shapes.", "anchors": ["workload/workload.go:Allocator.Clients"]}
{"id": "C44", "title": "Iteration limits are never exceeded under concurrency", "statement": "For every interleaving of clients the number of iterations executed by one client is at most iter, by a client group at most iter-clients, by an exec group at most iter-exec-group; with a single limit type the limit is reached exactly when all clients ran until stopped.", "quantifier": "every interleaving of any number of clients", "why_tests_cant": "Atomic counters shared by concurrent clients.", "anchors": ["client/client.go:Client.Run"]}
{"id": "C45", "title": "MySQL errors are handled as documented", "statement": "For each MySQL error the client aborts, continues, rolls back or reconnects as the error table says: errors listed as abort stop the client, unknown errors reconnect and start the next iteration.", "quantifier": "every error code and flag combination", "why_tests_cant": "All error codes at all statement positions.", "anchors": ["client/client.go:Client.Connect", "finch.go:MySQLErrorHandling"]}
{"id": "C46", "title": "Rollback-class errors inside a transaction roll it back", "statement": "If a statement inside a multi-statement transaction fails with an error whose handling includes rollback, the client executes ROLLBACK before the next iteration.", "quantifier": "every transaction length and failing position", "why_tests_cant": "All failing positions.", "anchors": ["client/client.go:Client.Run", "client/client.go:Client.Connect"]}
{"id": "C47", "title": "Prepared statements belong to the current connection", "statement": "Whenever the client executes a prepared statement it was prepared on the client's current connection from the same query text.", "quantifier": "every history of connects, errors and reconnects", "why_tests_cant": "Reconnect histories.", "anchors": ["client/client.go:Client.Connect", "client/client.go:Client.Run"]}
{"id": "C48", "title": "Each executed query is recorded once, under its own transaction and class", "statement": "Every successfully executed query adds exactly one event, in the statistics of the transaction it belongs to, with read, write, commit or other class according to the statement kind; failed queries add one error.", "quantifier": "every statement list and every history of results", "why_tests_cant": "All statement lists and histories.", "anchors": ["client/client.go:Client.Run", "stats/stats.go:Trx.Record"]}
{"id": "C49", "title": "Clients stop when told to", "statement": "After the context is cancelled or the data limit reached, a client executes no further statement beyond the one in flight and signals done exactly once.", "quantifier": "every history and cancellation point", "why_tests_cant": "All cancellation points.", "anchors": ["client/client.go:Client.Run", "client/client.go:Client.Connect"]}
{"id": "C50", "title": "Exec groups run one after another", "statement": "No client of an exec group starts before every client of the previous exec group signalled done, unless the run was cancelled.", "quantifier": "every stage and every interleaving of client completions", "why_tests_cant": "Schedules.", "anchors": ["stage/stage.go:Stage.Run"]}
{"id": "C51", "title": "Remote clients advance only through the protocol states in order", "statement": "For every sequence of requests a client moves ready, booting, runnable, running, done; a request in the wrong state changes nothing and is refused; statistics are accepted only while running.", "quantifier": "every sequence of requests of any number of clients", "why_tests_cant": "All request sequences.", "anchors": ["compute/api.go:API.boot", "compute/api.go:API.run", "compute/api.go:API.stats", "compute/api.go:API.client"]}
{"id": "C52", "title": "At most the configured number of remote instances join a stage", "statement": "At any time at most instances-1 (instances if local is disabled) remote clients are assigned to a stage, and none joins after the stage was fully booted.", "quantifier": "every sequence of requests", "why_tests_cant": "All request interleavings.", "anchors": ["compute/api.go:API.boot", "compute/server.go:Server.run"]}
{"id": "C53", "title": "A stage starts only when all instances booted", "statement": "The server releases the run signal only after as many successful boot acknowledgements as instances, each from a different instance.", "quantifier": "every sequence of boot acknowledgements, successful or not", "why_tests_cant": "All event orders.", "anchors": ["compute/server.go:Server.run", "compute/api.go:API.boot"]}
{"id": "C54", "title": "An instance that failed to boot can boot again", "statement": "After a remote instance reports a boot error it can ask for the stage again and eventually be booted.", "quantifier": "every request sequence after a failed boot", "why_tests_cant": "Requires exploring all continuations.", "anchors": ["compute/api.go:API.boot", "compute/api.go:API.client"]}
{"id": "C55", "title": "A retried request carries the same body", "statement": "Every attempt of a retried request to the server carries the same body; the number of attempts is bounded by the configured number of tries and success is reported only for a 200 or 205 response.", "quantifier": "every sequence of transport results", "why_tests_cant": "All failure patterns.", "anchors": ["proto/proto.go:Client.request"]}
{"id": "C56", "title": "Every trx file fetched by a remote instance keeps its own content", "statement": "After fetching the trx files each trx of the stage refers to a local file with exactly the content the server has for it.", "quantifier": "every list of trx file paths and contents", "why_tests_cant": "Requires equal base names in different directories.", "anchors": ["compute/client.go:Client.getTrxFiles", "compute/api.go:API.file"]}
{"id": "C57", "title": "Switching stages takes bounded time", "statement": "When the server switches to another stage it waits a bounded time for the clients of the previous stage.", "quantifier": "every behaviour of the remote clients", "why_tests_cant": "Clients that never answer.", "anchors": ["compute/api.go:API.Stage"]}
{"id": "C58", "title": "Stage settings override base settings", "statement": "For every setting, the value in a stage file wins over the one in the base file, which is used only if the stage file does not set it.", "quantifier": "every base and stage file", "why_tests_cant": "All combinations of set and unset fields.", "anchors": ["config/file.go:Stage.With", "config/file.go:MySQL.With", "config/file.go:TLS.With"]}
{"id": "C59", "title": "Command line parameters override file parameters", "statement": "A parameter given on the command line is the value seen by the stage, whatever the files say.", "quantifier": "every parameter maps of command line, base and stage file", "why_tests_cant": "All combinations of maps.", "anchors": ["config/config.go:Load", "config/file.go:Stage.With"]}
{"id": "C60", "title": "Parameter references are replaced by exactly their values", "statement": "Every $params.NAME or ${params.NAME} in a setting is replaced by the value of exactly that parameter and nothing else changes; unknown names are rejected.", "quantifier": "every string and parameter map", "why_tests_cant": "All strings; names that are prefixes of each other.", "anchors": ["config/config.go:Vars"]}
{"id": "C61", "title": "A validated stage is well formed", "statement": "A stage accepted by validation refers only to defined trx, has valid and consistent data scopes, contiguous group names and either all or no client groups with explicit trx.", "quantifier": "every stage configuration", "why_tests_cant": "All configurations.", "anchors": ["config/file.go:Stage.Validate", "config/file.go:ClientGroup.Validate"]}
{"id": "C62", "title": "A disabled stage is not run", "statement": "A stage with disable set is not booted or run.", "quantifier": "every list of stages", "why_tests_cant": "All stage lists.", "anchors": ["config/file.go:Stage.Validate", "compute/server.go:Server.Run"]}
{"id": "C63", "title": "The MySQL connection uses the configured credentials by precedence", "statement": "An explicit DSN wins, otherwise every connection setting comes from the stage file, else from the my.cnf file, else from the default; socket is used only if no hostname is set.", "quantifier": "every combination of set and unset settings", "why_tests_cant": "All combinations.", "anchors": ["dbconn/factory.go:factory.setDSN", "config/file.go:MySQL.With", "dbconn/mycnf.go:ParseMyCnf"]}
{"id": "C64", "title": "TLS settings of my.cnf are honoured", "statement": "If my.cnf has TLS settings and the stage has none, the connection uses those TLS settings.", "quantifier": "every my.cnf content and stage TLS configuration", "why_tests_cant": "All combinations.", "anchors": ["dbconn/mycnf.go:ParseMyCnf", "dbconn/mycnf.go:mysqlTLS", "dbconn/factory.go:factory.setDSN"]}
{"id": "C65", "title": "Adding a default port is idempotent and never changes an explicit port", "statement": "Appending the default port leaves an address with a port unchanged, adds exactly :port otherwise, and doing it twice is the same as once.", "quantifier": "every address string", "why_tests_cant": "All strings.", "anchors": ["finch.go:WithPort"]}
{"id": "C66", "title": "Uniform int can return every value of [min, max]", "statement": "For every valid configuration each value from min to max, both included, is returned for some random draw.", "quantifier": "every min <= max and every value in between", "why_tests_cant": "Every value of every range; the largest one has tiny probability.", "anchors": ["data/integer.go:Int.Values", "docs/content/data/generators.md"]}
{"id": "C67", "title": "Saved columns are quoted by default", "statement": "Without the quote-value param the placeholder of a saved column is quoted (documented default yes); with it quoting follows the param, also in the copies made for clients.", "quantifier": "every quote-value param", "why_tests_cant": "All parameter values and copies.", "anchors": ["data/column.go:NewColumn", "data/column.go:Column.Format", "data/column.go:Column.Copy"]}
{"id": "C68", "title": "Unused rate permits stay available to the clients that need them", "statement": "A client that waits for a permit gets one when every limiter it depends on has allowed one, whatever other clients and groups do not use.", "quantifier": "every tree of limiters and every schedule", "why_tests_cant": "Depends on which goroutine receives a shared permit first; no test can enumerate the schedules.", "anchors": ["limit/rate.go:and.run", "limit/rate.go:And", "workload/workload.go:Allocator.Clients"]}
{"id": "C69", "title": "Reporters always get statistics of at least one instance", "statement": "Every report given to the reporters contains the statistics of at least one compute instance.", "quantifier": "every execution of collections, received statistics and Stop, with any number of instances", "why_tests_cant": "Only fails when remote statistics arrive while Stop waits; the CSV reporter then crashes.", "anchors": ["stats/collector.go:Collector.Stop", "stats/collector.go:Collector.Report", "stats/csv.go:CSV.Report"]}
{"id": "C70", "title": "Per-trx statistics add up to the total", "statement": "After each collection the statistics of each trx are those of all its clients for that interval, the total is that of all trx, and the counts, histograms and error counts of the trx add up to the total, whatever the previous interval left behind.", "quantifier": "every number of clients, trx and statistics", "why_tests_cant": "Over all client statistics and leftovers of earlier intervals.", "anchors": ["stats/collector.go:Collector.Collect", "stats/stats.go:Stats.Reset", "stats/stats.go:Stats.Combine"]}
{"id": "C71", "title": "The combined line of a report depends on that report only", "statement": "The combined statistics printed for an interval are the combination of the instances' statistics of that interval.", "quantifier": "every sequence of reports with any number of instances", "why_tests_cant": "Needs different error codes in consecutive intervals.", "anchors": ["stats/collector.go:Instance.Combine", "stats/stdout.go:Stdout.Report", "stats/csv.go:CSV.Report"]}
{"id": "C72", "title": "Histogram buckets have the documented limits", "statement": "Bucket 0 holds latencies below 10 us, bucket i those from 10*F^(i-1) to 10*F^i us, the last one all longer ones, where F = 1.0471285480508996; the value a percentile reports for bucket i is 10*F^i us rounded down, the bucket's upper limit. This holds for the float64 computation.", "quantifier": "every latency and every bucket", "why_tests_cant": "All latencies.", "anchors": ["stats/stats.go:Stats.Record", "stats/stats.go:Stats.Percentiles"]}
{"id": "C73", "title": "Every data key of a loaded statement has a generator", "statement": "After all trx files are loaded without error, every trx in the order has at least one statement, every data key that a statement uses or saves (other than @PREV) has an entry among the data keys, a statement's insert ID key is one of its saved keys, and every input has exactly one call mark.", "quantifier": "every list of trx files and every text in them", "why_tests_cant": "The workload allocator dereferences these entries without a check; the tests load a handful of files.", "anchors": ["trx/trx.go:Load", "trx/trx.go:File.statements", "workload/workload.go:Allocator.Clients"]}
{"id": "C74", "title": "Saved columns are used", "statement": "If a trx file loads without error, every column saved by one of its statements (other than the ignored column _) is an input of some statement of the same file. Conversely, a file that is otherwise fine is not refused on this account if every column its modifiers save is an input of one of its statements.", "quantifier": "every trx file", "why_tests_cant": "The tests check one file with an unused column.", "anchors": ["trx/trx.go:Load", "trx/trx.go:File.statements"]}
{"id": "C75", "title": "Files keep their order and do not disturb each other", "statement": "The order of trx in a loaded set is the configured order, and the statements of one trx are not changed by loading other files with other names.", "quantifier": "every list of trx files", "why_tests_cant": "All lists of files, not two examples.", "anchors": ["trx/trx.go:Load"]}
{"id": "C76", "title": "DDL marks of loaded trx", "statement": "Whenever a loaded trx has a statement that is DDL, the trx is marked as DDL; a trx is marked as DDL only if one of the statements written in its file is DDL.", "quantifier": "every trx file and every modifier list", "why_tests_cant": "The mark decides whether a trx gets its own client and no statistics; a test checks a few files.", "anchors": ["trx/trx.go:166", "trx/trx.go:233-249", "trx/trx.go:313-321", "workload/workload.go:293"]}
{"id": "C77", "title": "Saved columns keep their order", "statement": "The columns named by save-columns are the outputs of the statement in the order written, with the table prefix removed and _ for columns that are ignored.", "quantifier": "every save-columns line", "why_tests_cant": "Every number and order of columns, not one sample.", "anchors": ["trx/trx.go:519-571"]}
{"id": "C78", "title": "Cancellation is not an error", "statement": "A client that stops because the context was cancelled (runtime elapsed or CTRL-C) reports no error.", "quantifier": "every client and every point of a run at which the context is cancelled", "why_tests_cant": "Cancellation can come at every call; tests cancel at one.", "anchors": ["client/client.go:191-194", "client/client.go:101-106", "client/client.go:157-161"]}
{"id": "C79", "title": "Run counts given to generators", "statement": "Each time a client generates values for a statement, the run count it passes has the number of statements, trx, iterations and connections of this client so far, and its position; so counters start at 1 and never go back, and single-client scopes give the values of C03.", "quantifier": "every client, every run with errors and reconnects", "why_tests_cant": "All interleavings of errors, iterations and trx.", "anchors": ["client/client.go:202-209", "client/client.go:236-275", "client/client.go:355"]}
{"id": "C80", "title": "The TLS files of an accepted stage are used", "statement": "If a stage is accepted and connections are made from its TLS settings, every file the settings name (CA, certificate, key) is used for the connections.", "quantifier": "Over all TLS settings and file systems.", "why_tests_cant": "Needs all combinations of files that exist or not, and certificates; the check that would refuse incomplete combinations is a method of its own that tests call directly.", "anchors": ["config/file.go:TLS.Validate", "config/file.go:MySQL.Validate", "config/file.go:TLS.LoadTLS", "dbconn/factory.go:factory.setDSN"]}
{"id": "C81", "title": "All connections of a stage use one DSN, that of its own configuration", "statement": "After the configuration of a stage was set, every connection pool is made with the same DSN, even if files change meanwhile, and this DSN depends only on that configuration and the files, not on stages that ran before.", "quantifier": "Over all sequences of configurations, all factories and all file systems.", "why_tests_cant": "The factory is a global variable with state that survives from stage to stage; tests make one pool from a fresh process.", "anchors": ["dbconn/factory.go:Make", "dbconn/factory.go:SetConfig", "dbconn/factory.go:factory.setDSN"]}
{"id": "C82", "title": "A connection that cannot be configured is reported as an error", "statement": "If the DSN or the settings for a connection are not usable, making the connection returns an error; it does not panic.", "quantifier": "Over all DSN and settings.", "why_tests_cant": "Needs invalid DSN, while tests use valid ones; depends on what the driver returns for them.", "anchors": ["dbconn/factory.go:Make", "dbconn/factory.go:RedactedDSN"]}
{"id": "C83", "title": "Variables are replaced in every setting", "statement": "In an accepted stage file, every text setting in which a variable ($sys, $params or environment variable) is written has the value of the variable in its place when the stage is used, and a variable that is not defined is refused.", "quantifier": "Over all stages, all settings, all environments and params.", "why_tests_cant": "There is one statement per field in a dozen of methods; a test interpolates a few fields, a field that was forgotten is not tested.", "anchors": ["config/file.go:Stage.Vars", "config/file.go:ClientGroup.Vars", "config/file.go:MySQL.Vars", "config/file.go:Trx.Vars", "config/file.go:Stats.Vars"]}
{"id": "C84", "title": "The result of interpolation does not depend on the order of params", "statement": "The settings of a stage after interpolation are a function of the file and the environment: they do not depend on the order in which the params, a map, are visited.", "quantifier": "Over all stages and all orders of their params.", "why_tests_cant": "The order of a Go map is random; a test sees one order per run.", "anchors": ["config/file.go:Stage.Vars"]}
{"id": "C85", "title": "Percentiles are used as configured", "statement": "A list of percentiles as documented (Pn, 0 to 100) is accepted and the reporters use exactly these, in order and each under its own name; everything else is refused.", "quantifier": "Over all texts of the option percentiles.", "why_tests_cant": "All lists, spellings and values; a test has a few.", "anchors": ["stats/reporter.go:ParsePercentiles"]}
{"id": "C86", "title": "Each reported value is under its column", "statement": "A line of a CSV or stdout report has exactly the columns of its header, and under each name the value with this name: rate, minimum, each percentile, maximum of all, read, write and commit events, errors, and the instance.", "quantifier": "Over all statistics, numbers of percentiles and instances.", "why_tests_cant": "Values are put into a text by position and placeholders are replaced one after the other; a test compares one line.", "anchors": ["stats/csv.go:CSV.Report", "stats/stdout.go:Stdout.print", "stats/reporter.go:Header", "stats/reporter.go:Fmt"]}
{"id": "C87", "title": "Stdout prints the lines that are configured", "statement": "Stdout prints one line for each instance if and only if each-instance is set (default no), and a combined line if and only if combined is set (default yes) and there is more than one instance.", "quantifier": "Over all options and numbers of instances.", "why_tests_cant": "Combinations of options, defaults and numbers of instances.", "anchors": ["stats/stdout.go:NewStdout", "stats/stdout.go:Stdout.Report", "config/file.go:Stats.Validate"]}
{"id": "C88", "title": "Rate limits are applied to every execution", "statement": "A client executes a statement only right after waiting exactly once for each limiter that applies: queries per second for every statement, trx per second for statements that begin a trx; it waits for nothing else.", "quantifier": "Over all clients, answers of the database, errors, reconnects and cancellations.", "why_tests_cant": "Errors and reconnects can come anywhere; a test has one order.", "anchors": ["client/client.go:Client.Run", "workload/workload.go:Allocator.Clients"]}
{"id": "C89", "title": "Statements are executed in the default database", "statement": "If a stage has a default database, every statement is executed on a connection on which this database was selected since it was opened, also after a reconnect; without one, no USE is sent.", "quantifier": "Over all clients, answers of the database, errors, reconnects and cancellations.", "why_tests_cant": "Reconnects can happen at every statement.", "anchors": ["client/client.go:Client.Connect"]}
{"id": "C90", "title": "Every execution is recorded and its results saved", "statement": "After each execution the event is recorded once (if statistics are kept), an error stops the trx, and otherwise exactly the values that other statements use (columns, insert ID, rows affected) are saved; values are saved only after a successful execution.", "quantifier": "Over all clients, answers of the database, errors, reconnects and cancellations.", "why_tests_cant": "All points at which an execution can fail.", "anchors": ["client/client.go:Client.Run", "trx/trx.go:Statement"]}
{"id": "C91", "title": "A boot test boots every stage and runs none", "statement": "With --test, every stage is booted on all instances and none is run, then finch ends.", "quantifier": "Over all stages, numbers of remote instances and executions.", "why_tests_cant": "Needs remote instances; interleavings of their requests.", "anchors": ["compute/server.go:Server.run", "compute/api.go:API.run", "compute/api.go:API.Stage"]}
{"id": "C92", "title": "Passwords are not shown", "statement": "What finch prints about a connection does not depend on the password: the printed DSN is the same for all passwords.", "quantifier": "Over all users, passwords, hosts and databases.", "why_tests_cant": "All passwords, also with special characters.", "anchors": ["dbconn/factory.go:RedactedDSN", "dbconn/factory.go:Make", "dbconn/factory.go:factory.setDSN"]}
{"id": "C93", "title": "A remote instance runs a stage only when told", "statement": "A remote instance follows the documented protocol: it fetches the stage, then the missing trx files in order, prepares the stage, acknowledges, waits for the run signal, runs the stage and reports the end. It runs the stage at most once, and only when the request for the run signal was answered with 200.", "quantifier": "Over all responses, failures, interleavings with the goroutine that asks the server, and CTRL-C.", "why_tests_cant": "All points at which a request can fail and all interleavings.", "anchors": ["compute/client.go:Client.run"]}
{"id": "C94", "title": "Errors of a remote instance reach the server", "statement": "If a remote instance cannot boot or its run fails, the server is told; and finch returns a nonzero exit status.", "quantifier": "Over all failures and executions.", "why_tests_cant": "All points at which the instance can fail.", "anchors": ["compute/client.go:Client.run", "compute/client.go:Client.Run", "boot/boot.go:Up"]}
{"id": "C95", "title": "A remote instance stops when the stage is stopped or the server is lost", "statement": "An instance that runs a stage and asks the server is told to stop if and only if the stage is done; then, or if the server cannot be reached, its run is cancelled, and for no other reason except CTRL-C.", "quantifier": "Over all reachable states of the server with any requests in flight, and all executions of the instance.", "why_tests_cant": "Interleavings of the instance, its second goroutine, the server and other instances.", "anchors": ["compute/client.go:Client.run", "compute/api.go:API.ping"]}
{"id": "C96", "title": "Statistics of a remote instance reach the server once and in order", "statement": "Each interval collected by a remote instance is sent to the server exactly once, in order and with the values of that interval, unless five intervals are already waiting, in which case it is dropped; when reporting stops, everything waiting is sent.", "quantifier": "Over all interleavings of collecting, sending and stopping, and all outcomes of the requests.", "why_tests_cant": "All timings of the collector relative to a slow or failing server.", "anchors": ["stats/remote.go:Server.Report", "stats/remote.go:Server.Stop", "stats/remote.go:Server.report", "stats/collector.go:Collector.Collect"]}
{"id": "C97", "title": "A valid stage can be prepared", "statement": "If MySQL can be reached and the trx files and workload are accepted, preparing a stage succeeds, one stage after the other; otherwise it returns an error. It never crashes.", "quantifier": "Over all trx files, workloads, data scopes left by earlier stages and failures of MySQL.", "why_tests_cant": "All combinations of statements, data scopes and client groups.", "anchors": ["stage/stage.go:Stage.Prepare", "workload/workload.go:Allocator.Clients", "data/scope.go:Scope.Copy", "trx/trx.go:Load"]}
{"id": "C98", "title": "The collector watches every trx of every client once", "statement": "After a stage is prepared, the statistics of each trx of each client are collected exactly once, unless its client group disables statistics; collecting never crashes, and the number of clients reported is the number of clients watched.", "quantifier": "Over all stages that can be prepared and all statistics.", "why_tests_cant": "All workloads.", "anchors": ["stats/collector.go:Collector.Watch", "stats/collector.go:Collector.Collect", "stage/stage.go:Stage.Prepare"]}
{"id": "C99", "title": "Each stage file is loaded as if it were alone", "statement": "Loading several stage files returns one stage per file, in the order given and numbered from one. Each is what its own file, the base file of its directory and the command line say; loading the other stages does not change it, nor the base config, nor where relative paths are looked up. A bad file makes the load fail with an error; loading never crashes.", "quantifier": "Over all lists of stage files, base files, command line params, directories and map iteration orders.", "why_tests_cant": "Aliasing between the maps of the base config and of the stages shows only for certain files in a certain order.", "anchors": ["config/config.go:Load", "config/file.go:Stage.With", "config/file.go:Stage.Vars", "config/file.go:Stats.Validate"]}
{"id": "C100", "title": "From the command line to the stages that are run", "statement": "Help and version do nothing else. A client loads and runs no stages of its own, a server connects to no server. All stages are loaded before the first is run; they are run in the order of the command line, each in its own directory, until one returns an error or CTRL-C is pressed. The exit status is 0 if and only if nothing returned an error; exit status 0 without CTRL-C means that every file on the command line was run as written.", "quantifier": "Over all command lines, stage files and results of stages.", "why_tests_cant": "Combinations of options, files and failures.", "anchors": ["bin/finch/main.go:main", "boot/boot.go:Up", "boot/cmdline.go:ParseCommandLine", "compute/server.go:Server.Run"]}
{"id": "C101", "title": "A distributed stage is run by all its instances together, and after the stages before it", "statement": "When an instance begins to run a stage, as many instances as the stage requires, all different and counting the local one, have prepared it without error. When the server goes on to another stage, all of them have run it to the end and none is registered any more. So when an instance begins a stage, nothing of an earlier stage is still running.", "quantifier": "Over all numbers of instances and stages, all interleavings of the server, its request handlers and the instances, and all failures of instances.", "why_tests_cant": "Depends on the interleaving of the steps of several processes; needs a cluster of instances.", "anchors": ["compute/server.go:Server.run", "compute/api.go:API.boot", "compute/api.go:API.run", "compute/api.go:API.Stage", "compute/client.go:Client.run"]}
{"id": "C102", "title": "A distributed stage can be completed unless one of its instances fails", "statement": "In every state in which a stage is in progress and no instance that joined it has failed, and there are instances waiting for the free places, it can go on to the end of the stage, which all of these instances have then run: there is no deadlock. The next stage can then be begun and completed. An instance that fails after it joined the stage blocks it: nobody begins to run it and the server does not leave it.", "quantifier": "Over all reachable states of server, handlers and instances, and all stages.", "why_tests_cant": "Absence of deadlock in all interleavings cannot be sampled.", "anchors": ["compute/server.go:Server.run", "compute/api.go:API.boot", "compute/api.go:API.run", "compute/api.go:API.Stage", "compute/client.go:Client.run"]}
{"id": "C103", "title": "The number of instances of a stage", "statement": "A stage with instances: 0 and without the local instance is over at once. With the local instance the server waits for ever, though 0 is documented as a valid value. A server that no instance connects to, such as one without an API, never runs a stage that requires more than the local instance.", "quantifier": "Over all states of the server and all sequences of events.", "why_tests_cant": "Waiting for ever cannot be observed by a test.", "anchors": ["compute/server.go:Server.run"]}
{"id": "C104", "title": "A CSV report file holds the report of one stage and nothing else", "statement": "The file of a CSV reporter is new. At the end of the benchmark it holds one header and then one line for each interval of its stage, in order, and nothing of another stage. No file that existed before the benchmark is changed, even if the benchmark fails.", "quantifier": "Over all benchmarks, reporter options, reports, and contents of the disk.", "why_tests_cant": "All sequences of stages and reports; a test looks at one file.", "anchors": ["stats/csv.go:NewCSV", "stats/csv.go:CSV.Report", "compute/server.go:Server.Run"]}
{"id": "C105", "title": "Every stage with valid reporter options gets its reporters", "statement": "A stage whose reporter options are valid can make its reporters and run, whatever stages and attempts came before, and the CSV file has the configured name, or the documented one (finch-benchmark-TIMESTAMP.csv) by default.", "quantifier": "Over all benchmarks, reporter options and contents of the disk.", "why_tests_cant": "Depends on the stages before and on earlier failed attempts.", "anchors": ["stats/csv.go:NewCSV", "stats/reporter.go:MakeReporters", "compute/server.go:Server.run"]}
{"id": "C106", "title": "The reporters of a stage are those configured", "statement": "If reporters can be made there is exactly one for each entry of stats.report, of the kind the entry names and with its options. A name that is not registered is refused. A name can be registered only once, and the built-in ones cannot be replaced. A remote instance reports to its stdout as configured and to the server, with its name and the id of the stage, and writes no file.", "quantifier": "Over all configurations, orders of map iteration and registered factories.", "why_tests_cant": "The order of a map is random; all configurations.", "anchors": ["stats/reporter.go:MakeReporters", "stats/reporter.go:Register", "compute/client.go:Client.run"]}
{"id": "C107", "title": "A trx file is loaded from all its lines or not at all", "statement": "If a trx file is loaded, it is loaded from all its lines up to an EOF mark, whatever their lengths. With a line of 64 KiB or more before the mark it is not loaded; if all before it is valid the process ends. If reading the file fails before the mark, it is not loaded; if it fails after the mark, it is loaded as if reading had not failed.", "quantifier": "Over all files and all places at which reading can fail.", "why_tests_cant": "The scanner stops silently at a line that is too long; tests use small files.", "anchors": ["trx/trx.go:File.Load"]}
{"id": "C108", "title": "Disabled statistics are not reported", "statement": "With stats.disable set for a stage, no instance has a reporter: no statistics are printed, written or sent.", "quantifier": "Over all configurations and instances.", "why_tests_cant": "Local and remote instances take different paths.", "anchors": ["compute/server.go:Server.run", "compute/client.go:Client.run"]}
{"id": "C109", "title": "MySQL gets the statement of the trx file with data keys replaced by values", "statement": "The text sent for a statement that is not prepared is the statement in the trx file with every data key replaced by its value (numbers in decimal, strings in quotes), each @PREV by the next value of the key before it, and all other text unchanged.", "quantifier": "Over all statements, data keys, generators in any state, values, and executions of the statement.", "why_tests_cant": "All texts and values: characters that mean something to fmt.Sprintf or SQL are not in the tests.", "anchors": ["client/client.go:Client.Run", "trx/trx.go:File.statements", "data/generator.go:Generator"]}
{"id": "C110", "title": "Data generators keep to their format", "statement": "A data generator that was made returns at every call as many values as its format says, at least one, each of the kind that its placeholder takes. This holds for its copies and does not depend on calls or scanned values before. A copy is the generator as it was made (auto-inc goes on from the number reached). A built-in name always makes the built-in generator; another name is made by the factory registered first for it.", "quantifier": "Over all generators, params, random numbers, and sequences of calls, copies and scans.", "why_tests_cant": "All sequences of calls and copies and all random values.", "anchors": ["data/generator.go:Make", "data/generator.go:Register", "data/integer.go:IntRangeSeq.Copy", "data/id.go:NewClientId", "data/column.go:Column.Format"]}
{"id": "C111", "title": "Rate limits hold in any window of time", "statement": "In any window of T seconds, the clients of a stage, an execution group, a client group, or one client, receive together at most their configured limit times T permits, plus a constant that does not depend on T or the schedule.", "quantifier": "Over all stages with limits at any levels, all windows, all schedules of clients and goroutines, and all delays of the token bucket's caller.", "why_tests_cant": "All interleavings of many goroutines with arbitrary delays; bursts depend on permits saved before the window.", "anchors": ["limit/rate.go:NewRate", "limit/rate.go:And", "workload/workload.go:Allocator.Clients"]}
{"id": "C112", "title": "Times and rates of reports are those of the interval", "statement": "The duration and runtime in a report are the time since the last collection and since the start, so that the durations of all intervals add up to the runtime, printed to within 0.05 seconds. QPS, r_QPS, w_QPS and TPS are the number of queries, reads, writes and commits of all instances in the report per second of the interval, rounded down, whatever the order in which statistics came.", "quantifier": "Over all sequences of collections at any times, counts and instances, in float64 arithmetic.", "why_tests_cant": "All durations and counts; rounding errors accumulate over intervals, and the order of instances differs from run to run.", "anchors": ["stats/collector.go:Collector.Collect", "stats/collector.go:Instance.Combine", "stats/csv.go:CSV.Report", "stats/stdout.go:Stdout.print"]}
{"id": "C113", "title": "Response times are those of the executed statements", "statement": "Each recorded response time is that of one statement executed by MySQL, from before it is sent until it is answered, under its trx and class. Waiting for rate limits, data generation, idle times, reading rows and reconnecting are not included, so that the response times of a client never add up to more than the time it ran, and every maximum, and every minimum times its count, is at most that time.", "quantifier": "Over all clients, statements, errors, cancellations, and readings of the clock.", "why_tests_cant": "All runs with arbitrary delays at every point, errors and reconnects included.", "anchors": ["client/client.go:Client.Run", "stats/stats.go:Stats.Record"]}
{"id": "C114", "title": "Clients send what their data keys generate, whatever the others do", "statement": "While all clients of a stage run, every execution of a statement sends the query of this statement with the values that its data keys generated for it just before, each at its place. A data key with a single-client scope gives a client the same values whatever the other clients do, the same value for all uses in one statement execution, trx execution, iteration or connection (whichever the scope says), and a new one in the next; a key of value scope gives a new value at each use.", "quantifier": "Over all trx files, workloads, data generators, interleavings of clients, errors of MySQL, rows and insert ids it returns.", "why_tests_cant": "Any number of clients in any order with any answers of MySQL; tests run a few statements against a database.", "anchors": ["client/client.go:Client.Run", "data/scope.go:Scope.Copy", "data/scope.go:ScopedGenerator.Values", "workload/workload.go:Allocator.Clients", "stage/stage.go:Stage.Prepare"]}
{"id": "C115", "title": "Clients send what they saved", "statement": "While all clients of a stage run, the value a client sends for a saved column (save-columns, save-insert-id) is one that this client saved itself, in the same instance of the scope of the column (by default the trx), or nil if it saved none; never a value of another client. At the first use in each execution of the scope, and at each explicit call, it is the value saved last; the other uses in the execution of the scope get the same value. A client saves only what the statement it sent last returned.", "quantifier": "Over all trx files, workloads, interleavings of clients, errors of MySQL, rows and insert ids it returns.", "why_tests_cant": "Any number of clients in any order with any rows; tests run one client with one row.", "anchors": ["client/client.go:Client.Run", "data/column.go:Column.Scan", "data/column.go:Column.Values", "data/scope.go:Scope.Copy", "workload/workload.go:Allocator.Clients"]}
{"id": "C116", "title": "A stage that was accepted is prepared as it is configured", "statement": "A stage that passed validation is prepared, unless MySQL or a trx file fails, so that every client group has the configured number of clients (1 by default), runtime, default database, iteration limits (1 iteration if it has DDL and no limit) and rate limits of stage, execution group, client group and client; its clients execute the statements of the files of its trx in the configured order, or of all trx in the order of the stage; without a workload every trx is executed once, in order. Stages that were accepted make a benchmark in the sense of C114 and C115.", "quantifier": "Over all stage configurations that pass validation, contents of the trx files and data scopes left by earlier stages.", "why_tests_cant": "The settings of a stage pass through validation, parsing, grouping and allocation; tests check each step on a few configurations, not what a client ends up with.", "anchors": ["config/file.go:Stage.Validate", "stage/stage.go:Stage.Prepare", "trx/trx.go:Load", "workload/workload.go:Allocator.Groups", "workload/workload.go:Allocator.Clients"]}
{"id": "C117", "title": "A remote instance executes what the server would", "statement": "After a remote instance has fetched the trx files of a stage, it prepares the same statements, client groups, limits and rates as the server does from its own files, in every stage of a benchmark. Fetching succeeds if the server has the files.", "quantifier": "Over all stage configurations, contents of files, files that the instance has already, and data scopes left by earlier stages.", "why_tests_cant": "Tests fetch one file and do not compare what is executed on both sides.", "anchors": ["compute/client.go:Client.getTrxFiles", "compute/client.go:Client.run", "compute/api.go:API.file", "stage/stage.go:Stage.Prepare", "trx/trx.go:File.line"]}
{"id": "C118", "title": "A stage ends on time", "statement": "Once the runtime of a stage has elapsed or the run is cancelled, the stage waits at most ten milliseconds for each execution group that is not over and then ends, whatever its clients do. Before that it does not give up on a client. When it has ended, the number of clients it warned about is the number of clients that it started and that did not signal that they stopped; without a warning all have.", "quantifier": "Over all workloads and all interleavings of the stage, its clients, the end of the runtime and CTRL-C.", "why_tests_cant": "Tests have clients that stop at once; here clients may never stop.", "anchors": ["stage/stage.go:Stage.Run"]}
{"id": "C119", "title": "A client executes its statements in order, iteration after iteration", "statement": "What a client does is a sequence of iterations numbered from 1, each of which goes through the statements from the first on, in order and without leaving one out, and ends after the last statement or with one that failed; it sleeps exactly at idle entries. A client with an iter limit whose statements succeed stops by itself and has then executed all statements exactly iter times. Allocated clients never panic.", "quantifier": "Over all clients, all answers of MySQL, and all points at which the context is cancelled or a limit reached.", "why_tests_cant": "Tests run short scripts and look at a few statements.", "anchors": ["client/client.go:Client.Run", "client/client.go:Client.Connect", "workload/workload.go:Allocator.Clients"]}
{"id": "C120", "title": "Every modifier has its effect and no other", "statement": "A statement is loaded with exactly what its modifiers ask for: it is prepared iff prepare is given, idles for the duration of idle, is limited by exactly the row, table and database limits written (with the offset of rows), saves the insert id and the columns named, in order, each known under its number; everything else is as without modifiers. A modifier with an unknown name, or that is not well-formed, is refused.", "quantifier": "Over all statements and all lists of modifiers.", "why_tests_cant": "Tests use a few modifiers with well-formed values.", "anchors": ["trx/trx.go:File.statements", "trx/trx.go:File.column"]}
{"id": "C121", "title": "A benchmark with iteration limits executes and records exactly what is configured", "statement": "All clients of a stage run together, in any interleaving, sharing their iteration counters. A client group limited by iter-clients only, or an execution group limited by iter-exec-group only, begins together exactly that many iterations when its clients have all stopped, whatever fails, provided at least one was not stopped by an error or from outside. A client limited by iter only records exactly iter times each of its statements, in order, under the name of its trx and its class; the clients of a group together record for each trx and class the number of their iterations times the number of such statements; and the counts in the statistics are those. When everything goes well, the clients of a group limited by iter-clients stop by themselves after a number of steps known beforehand, whatever other clients do, so that an accepted stage file determines what is recorded.", "quantifier": "Over all workloads, all schedules of the clients, all answers and all limits (below 2^32 less the number of clients).", "why_tests_cant": "Tests run one client or check an upper bound; an exact count depends on how the clients interleave at the counters.", "anchors": ["client/client.go:Client.Run", "workload/workload.go:Allocator.Clients", "stats/stats.go:Trx.Record"]}
{"id": "C122", "title": "The server sees what an instance sends in the URL of a request", "statement": "Whatever bytes are in the name of a remote instance and in the values of the parameters of a request (spaces, ampersands, equal signs, percent signs, semicolons, bytes that are not ASCII), the server parses from the URL exactly the parameters that were sent, in order. It takes as the name of the instance that name without its line breaks, and the id of the stage as it is. So two instances are one for the server only if their names differ in line breaks alone. A request for the i-th trx file of a stage is a request for the i-th file at the server, refused if there is none.", "quantifier": "Over all names, values, stage ids made of the characters of an xid, file numbers and numbers of files.", "why_tests_cant": "Tests use names like \"local\" or an IP address.", "anchors": ["proto/proto.go:Client.URL", "compute/api.go:API.client", "compute/api.go:API.file", "compute/api.go:clean", "compute/client.go:Client.getTrxFiles"]}
{"id": "C123", "title": "A response is delivered whatever its size", "statement": "A request that the server answers with 200 returns the body of the answer. In particular a remote instance gets every trx file of its stage, however long.", "quantifier": "Over all requests, tries, responses, and all ways a body can arrive.", "why_tests_cant": "A test server on the same host sends a short body together with the headers, so that it is there before the context is cancelled.", "anchors": ["proto/proto.go:Client.request", "compute/client.go:Client.getTrxFiles"]}
{"id": "C124", "title": "Statistics that are collected far enough apart are all sent, in time", "statement": "A request with a limited number of tries takes at most that many times its timeout and wait, however its attempts end; so sending the statistics of an interval takes at most 930 ms. If collections are at least that far apart (plus the time the sending goroutine needs to go on), then whatever the server answers and whenever, no interval is dropped, each is sent once and in order, what is sent for an interval is what was collected for it, and everything has been sent five seconds after Stop is called, so that Stop never gives up. An instance that has booted waits 180.3 seconds for the run signal and then gives up.", "quantifier": "Over all timings, answers of the server, collections and delays of the goroutine up to two seconds.", "why_tests_cant": "It depends on the order of a collection and a send that only a slow server brings about, and on the sum of timeouts.", "anchors": ["proto/proto.go:Client.request", "stats/remote.go:Server.Report", "stats/remote.go:Server.Stop", "stats/remote.go:Server.report", "compute/client.go:Client.run"]}
{"id": "C125", "title": "Everything recorded during a stage is in its reports", "statement": "On one compute instance, when the collector has been stopped the reports together contain exactly the events that were recorded during the stage, each once and in order.", "quantifier": "Over all times of events, ticks and the end of the stage, and all frequencies.", "why_tests_cant": "Depends on how long after the last tick the stage ends.", "anchors": ["stats/collector.go:Collector.Start", "stats/collector.go:Collector.Stop", "stats/collector.go:Collector.Collect"]}
{"id": "C126", "title": "CTRL-C on the server ends a distributed stage", "statement": "When the server is interrupted while a stage runs, every instance of the stage is told so at its next request, those that are running report the end of the stage, which is accepted, and the server leaves the stage.", "quantifier": "Over all reachable states of the server and its instances at the time of the interrupt, and all executions after it.", "why_tests_cant": "Depends on the order of the interrupt and the requests of each instance; a test interrupts when everything is running.", "anchors": ["compute/server.go:Server.run", "compute/api.go:API.Stage", "compute/api.go:API.run", "compute/api.go:API.ping", "compute/client.go:Client.run"]}
{"id": "C127", "title": "What is sent as JSON arrives as it is", "statement": "The configuration of a stage that a remote instance decodes is the one the server encoded, and the statistics that the server decodes are those the instance encoded: every field, map entry, list element and number, whatever the texts contain; a text that is not valid UTF-8 arrives with each invalid byte replaced, and changes nothing else.", "quantifier": "Over all stage configurations and statistics, with any texts, any keys of maps, nil or not, and any numbers of the types.", "why_tests_cant": "Names, parameters and passwords are any text: quotes, backslashes, control characters, line separators, text that looks like another field.", "anchors": ["compute/api.go:API.boot", "compute/client.go:Client.run", "proto/proto.go:Client.request", "compute/api.go:API.stats", "stats/collector.go:Instance", "config/file.go:Stage"]}
{"id": "C128", "title": "After CTRL-C the process ends by itself in time, else by force", "statement": "After CTRL-C the process ends at the latest after 7.5 seconds, whatever hangs, and further CTRL-C change nothing. What a stage and its collector wait for after CTRL-C is bounded, so that the final statistics of an instance are reported, and the server is told, before the forced exit.", "quantifier": "Over all workloads and states of a stage at the time of CTRL-C, all behaviours of clients, of other instances and of the server, and all delays of timers within the stated limits.", "why_tests_cant": "The waits are in four packages with limits of their own; a test has clients and a server that answer at once.", "anchors": ["boot/boot.go:Up", "stage/stage.go:Stage.Run", "stats/collector.go:Collector.Stop", "stats/remote.go:Server.Stop", "compute/client.go:Client.run"]}
{"id": "C129", "title": "A remote instance ends soon after the server is lost", "statement": "When the server cannot be reached any more, or has stopped the stage, a remote instance stops to run the stage at most four seconds later, and has ended the stage at most eleven seconds later, whatever it is doing at that time. As long as each ping is answered within its five attempts, the stage goes on.", "quantifier": "Over all times of the loss, all sequences of pings with all results and durations of their attempts before it, all workloads and states of the stage, and all delays of timers within the stated limits.", "why_tests_cant": "The bound is for the worst point of the loop at which the server can be lost, with every attempt at its timeout.", "anchors": ["compute/client.go:Client.run", "proto/client.go:Client.request", "stage/stage.go:Stage.Run", "stats/remote.go:Server.Stop"]}
{"id": "C130", "title": "A stage with iteration limits ends by itself, complete", "statement": "A stage in which every client group has an iteration limit (iter, iter-clients or iter-exec-group, alone or together), with or without data limits, ends by itself, whatever queries fail, if clients can connect again and again; with a client that can never connect it does not. When no query failed and no trx begins with an idle entry, all clients of all execution groups have then stopped regularly and without a failed statement. Where a limit is alone and there is no data limit, the iterations are exactly those of the limit, and each client group without a data limit has recorded exactly the statements of its iterations. Until all clients of an execution group have stopped, no client of a later one does anything.", "quantifier": "Over all workloads, trx files, numbers of clients and groups, and all interleavings of the stage, the done channel and the clients in which everybody gets a turn again and again.", "why_tests_cant": "The end depends on clients that share counters and stop at different times, while the stage counts their signals; a lost or doubled signal shows in rare interleavings only.", "anchors": ["stage/stage.go:Stage.Run", "client/client.go:Client.Run", "workload/workload.go:Allocator.Clients"]}
{"id": "C131", "title": "A stage that loads data ends by itself, with the data", "statement": "A stage in which every client group has a statement that writes data up to a limit of rows ends by itself, without any other limit, when no query fails and each execution affects at least one row. When it has ended, every client has stopped regularly, because a row limit of one of its statements is reached: the rows that were there at the start and those that were written are at least the maximum. At any moment, whatever fails, the rows written are fewer than were missing plus, for each client, as many as one execution affects. As long as executions affect no rows the stage does not end.", "quantifier": "Over all workloads, trx files, row limits (also combined with others), numbers of clients and rows for each execution, and all interleavings of the stage, the done channel and the clients; for the end, those in which everybody gets a turn again and again.", "why_tests_cant": "Clients ask a shared limit before they execute and tell it afterwards, so the overshoot and the end depend on the interleaving of all clients; a test loads once with few clients.", "anchors": ["client/client.go:Client.Run", "limit/data.go:Rows.More", "limit/data.go:Rows.Affected", "stage/stage.go:Stage.Run", "trx/trx.go:Statement"]}
{"id": "C132", "title": "Data keys are what is configured for them", "statement": "After the trx files of an accepted stage are loaded, every data key that was not there before belongs to one of the configured trx, and the configuration of this trx has the key. The key is made by the configured generator of the configured params and has the configured scope, or statement or row scope if none is configured. Saved columns are made with the configured params and scope, or with trx scope if they are not configured. The scope is the one that every trx configures which configures the key, and so are the generator and its params. In every stage of a benchmark, a data key is what a trx of this stage configures.", "quantifier": "Over all accepted stage configurations, trx files, data keys that earlier stages left, sequences of stages, and generators.", "why_tests_cant": "A test loads a few trx files with one key each; which configuration counts when several trx, csv templates, copies and saved columns use the same key depends on the order and on defaults written back into the configuration.", "anchors": ["trx/trx.go:File.statements", "trx/trx.go:File.column", "config/file.go:Data", "config/file.go:Stage.Validate"]}
{"id": "C133", "title": "The report on stdout is a table", "statement": "A report on stdout is a line of titles, a line for each instance if configured, a line for all instances combined if configured and there is more than one, and an empty line. The combined line has the number of instances, the sum of their clients and of their queries. All lines have the same columns: cells are written to the right in columns as wide as the widest cell and one space, with a bar between them, so the bars are below each other. Reading what is between the bars gives back the titles and below each of them the value of the line.", "quantifier": "Over all instances and their statistics, percentiles and options of the reporter.", "why_tests_cant": "A test prints one report to stdout and looks at it; whether the columns line up depends on the widths of all numbers, the percentiles configured and the names of instances.", "anchors": ["stats/stdout.go:Stdout.Report", "stats/stdout.go:NewStdout", "stats/collector.go:Instance.Combine"]}
{"id": "C134", "title": "Data limits report their progress", "statement": "A row limit logs its progress every 5 percent of its maximum, a size limit every 10, 5 or 2 percent. Each line is more than that further than the line before, and what was written after the last line is not more than that. A line tells how much is written and how many percent that is, what was written since the line before and in what time; this adds up to all that was written. The time that a line says is left is what is left at the rate of this line, to the second. Reporting does not change the limit.", "quantifier": "Over all maximums and offsets, numbers of rows or sizes found, and times.", "why_tests_cant": "A test would have to read the log of a stage that loads data for a while; the time that is left depends on the rate, and is wrong only when the maximum is exceeded.", "anchors": ["limit/data.go:Rows.Affected", "limit/data.go:Size.More", "limit/data.go:NewRows", "limit/data.go:NewSize"]}
{"id": "C135", "title": "Reported percentiles are those of the recorded latencies", "statement": "The value reported for percentile p is about the latency below which there are p percent of the recorded events: at least p percent of the events took no longer than it, and, if it is more than 10 microseconds, less than p percent took less than it, to a factor of 1.0472 and one microsecond, which is the width of a bucket.", "quantifier": "Over all recorded events with latencies up to 2.3 hours, all event types, and all percentiles up to 100.", "why_tests_cant": "Percentiles go through logarithms, buckets and float percentages; tests compare a few values, and the rounding of a percentage matters only at some percentiles and counts.", "anchors": ["stats/stats.go:Stats.Percentiles", "stats/stats.go:Stats.Record"]}
{"id": "C136", "title": "Durations mean what is written", "statement": "A runtime or a reporting interval is a sum of numbers with units (h, m, s, ms, us, ns): it stands for the sum of these times, exactly for numbers without a point and to a nanosecond for numbers with one. It is accepted exactly if this is positive and less than 292 years; the same is true of idle times. Anything else, such as a number without a unit, is refused.", "quantifier": "Over all texts, numbers of parts, digits and units.", "why_tests_cant": "The texts are unlimited; the overflow checks and the rounding of fractions matter only for a few of them.", "anchors": ["config/config.go:ValidFreq", "stage/stage.go:Stage.Run", "stats/collector.go:NewCollector", "workload/workload.go:Allocator.Clients"]}
{"id": "C137", "title": "Sizes mean what is written", "statement": "The size of a table-size or database-size modifier is a number and a unit (k, m, g, t, p, e, with i for powers of 1024, with or without b, in small or capital letters): the limit is the number times the unit, exactly for whole numbers up to 2^53 bytes and to one byte and the precision of float64 otherwise. Commas separate thousands. What does not fit in 64 bits, and anything else, is refused.", "quantifier": "Over all texts, numbers, units and statements.", "why_tests_cant": "The texts are unlimited; a size that is understood wrongly makes a benchmark load another amount of data, which is noticed only after hours.", "anchors": ["trx/trx.go:File.statements", "limit/data.go:NewSize"]}
