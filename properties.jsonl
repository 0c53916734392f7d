{"id": "C01", "title": "Ordering respects every declared dependency", "statement": "If ordering the generated SQL succeeds, then for every declared dependency 'source must run before target' every statement contributed for the source comes before every statement contributed for the target in the returned list.", "quantifier": "for every list of vertices (with repeated ids), every list of dependencies, every priority assignment and every map iteration order", "why_tests_cant": "the number of graphs and tie-break orders is unbounded; a test fixes one graph and one map iteration order", "anchors": ["internal/graph/graph.go:TopologicallySortWithPriority", "pkg/diff/sql_vertex_generator.go:graphFromPartials", "pkg/diff/sql_graph.go:toOrderedStatements"]}
{"id": "C02", "title": "Ordering neither loses nor duplicates statements", "statement": "If ordering succeeds the returned list of statements is a permutation of all statements that were handed in, and statements handed in for the same vertex keep their relative order.", "quantifier": "for every list of partial graphs", "why_tests_cant": "a lost or duplicated statement only shows for particular merges and graph shapes", "anchors": ["pkg/diff/sql_vertex_generator.go:graphFromPartials", "pkg/diff/sql_vertex_generator.go:mergeVertices", "pkg/diff/sql_graph.go:toOrderedStatements"]}
{"id": "C03", "title": "Ordering fails exactly on cyclic dependencies", "statement": "Ordering returns an error if and only if the declared dependencies contain a cycle; it never loops and never returns a partial order.", "quantifier": "for every finite graph", "why_tests_cant": "absence of false cycle errors and of missed cycles cannot be sampled", "anchors": ["internal/graph/graph.go:TopologicallySortWithPriority"]}
{"id": "C04", "title": "Plan order is deterministic", "statement": "The order of the output of the topological sort, of list diffing and of Set.Values depends only on the contents of the graph/maps, not on Go's randomised map iteration order.", "quantifier": "for every graph and any two iteration orders of each map", "why_tests_cant": "Go randomises map iteration; a test observes a handful of orders", "anchors": ["internal/graph/graph.go:TopologicallySortWithPriority", "pkg/diff/diff.go:diffLists", "internal/set/set.go:Values"]}
{"id": "C05", "title": "Greedy priority with id tie-break", "statement": "At every position of the sorted output the chosen vertex is available (all its predecessors were emitted), no available vertex has strictly higher priority, and among the available vertices of the same priority it has the smallest id.", "quantifier": "for every acyclic graph, every priority function and every position of the output", "why_tests_cant": "a property of every prefix of every output", "anchors": ["internal/graph/graph.go:TopologicallySortWithPriority", "internal/graph/graph.go:IsLowerPriorityFromGetPriority"]}
{"id": "C06", "title": "Graph operations implement a finite digraph", "statement": "After any sequence of AddVertex/AddEdge/Union/Reverse/Copy operations a vertex is present iff it was added, the stored value is the last one added (or merged), an edge is present iff it was added between existing vertices and not inverted since, adding an edge to a missing vertex is refused without changing the graph, and a copy never changes when the original is changed.", "quantifier": "for every sequence of operations", "why_tests_cant": "histories of operations are unbounded", "anchors": ["internal/graph/graph.go:AddVertex", "internal/graph/graph.go:AddEdge", "internal/graph/graph.go:Union", "internal/graph/graph.go:Reverse", "internal/graph/graph.go:Copy"]}
{"id": "C07", "title": "Distinct schema objects never share an ordering vertex", "statement": "Two vertex ids built for schema objects are equal only when object kind, object name and add/delete direction agree; qualified names of different objects never render to the same text.", "quantifier": "for every pair of kinds, identifiers (any characters) and diff types", "why_tests_cant": "collisions need adversarial identifiers containing quotes, dots and colons", "anchors": ["pkg/diff/sql_graph.go:schemaObjSqlVertexId.String", "internal/schema/schema.go:GetFQEscapedName", "internal/schema/schema.go:EscapeIdentifier"]}
{"id": "C08", "title": "List diff classifies every object exactly once", "statement": "Diffing two lists puts each new object with no old namesake in adds, each old object with no new namesake in deletes, and each common name either in alters or (when recreation is required) in both adds and deletes; deletes are sorted by name, adds and alters keep the new order; the recorded positions are the true positions; a repeated name among the old objects is reported as an error.", "quantifier": "for every pair of object lists and every diff function", "why_tests_cant": "input lists are unbounded", "anchors": ["pkg/diff/diff.go:diffLists"]}
{"id": "C09", "title": "Set operations implement finite sets", "statement": "Membership in a set built from any values holds iff the key was added; Values returns each key once, in increasing key order, with the last value added for that key; Difference returns exactly the values of a whose key is not in b.", "quantifier": "for every sequence of added values", "why_tests_cant": "unbounded inputs", "anchors": ["internal/set/set.go"]}
{"id": "C10", "title": "Identifier quoting is exact", "statement": "A quoted identifier is read back by the SQL lexer as exactly the original identifier (NUL bytes aside), the lexer stops exactly at the end of the quoted text whatever follows that is not a quote, and two identifiers quote to the same text only if they are equal.", "quantifier": "for every identifier and every following text", "why_tests_cant": "adversarial identifiers are unbounded", "anchors": ["internal/schema/schema.go:EscapeIdentifier", "pkg/tempdb/factory.go:Create"]}
{"id": "C11", "title": "String literal quoting is exact", "statement": "A quoted literal is read back by the SQL lexer (standard_conforming_strings on) as exactly the original string and cannot end early.", "quantifier": "for every string", "why_tests_cant": "adversarial labels are unbounded", "anchors": ["internal/schema/schema.go:EscapeLiteral", "pkg/diff/enum_sql_generator.go"]}
{"id": "C12", "title": "Enum migration reaches the target labels", "statement": "Executing the statements generated for an enum whose old labels all survive in the same relative order turns the type into exactly the new label list; when a label was removed the type is dropped and recreated with the new labels; otherwise the result has exactly the new set of labels.", "quantifier": "for every old and new label list without duplicates", "why_tests_cant": "all interleavings of inserted labels at every position", "anchors": ["pkg/diff/enum_sql_generator.go:Alter", "pkg/diff/enum_sql_generator.go:Add"]}
{"id": "C13", "title": "Enum label order is migrated", "statement": "After migration the enum has the labels of the target in the order of the target.", "quantifier": "for every pair of label lists", "why_tests_cant": "needs a reordering input; the code emits nothing for a pure reordering", "anchors": ["pkg/diff/enum_sql_generator.go:Alter"]}
{"id": "C14", "title": "Every destructive statement is flagged DELETES_DATA", "statement": "Every statement of a generated plan that drops a table, a column or a sequence carries the hazard DELETES_DATA (partitions, owned sequences included).", "quantifier": "for every pair of schemas, every option and every statement of the plan", "why_tests_cant": "quantifies over all schemas and statements", "anchors": ["pkg/diff/sql_generator.go:tableSQLVertexGenerator.Delete", "pkg/diff/sql_generator.go:columnSQLVertexGenerator.Delete", "pkg/diff/sql_generator.go:sequenceSQLVertexGenerator.Delete"]}
{"id": "C15", "title": "Every statement has sane timeouts", "statement": "Every generated statement has a statement timeout of at least 3 seconds, at most 20 minutes, and a lock timeout of exactly 3 seconds; nothing runs unbounded.", "quantifier": "for every pair of schemas, every option and every statement", "why_tests_cant": "quantifies over all plans", "anchors": ["pkg/diff/sql_generator.go:statementTimeoutDefault", "pkg/diff/sql_generator.go:lockTimeoutDefault"]}
{"id": "C16", "title": "Only privilege statements skip validation", "statement": "A generated statement is excluded from plan validation iff it is a GRANT or a REVOKE.", "quantifier": "for every plan", "why_tests_cant": "quantifies over all plans", "anchors": ["pkg/diff/privilege_sql_generator.go", "pkg/diff/plan_generator.go:executeStatementsIgnoreTimeouts"]}
{"id": "C17", "title": "Creating a new table raises no hazards", "statement": "Statements that create a new table with its columns, checks, policies, replica identity, row level security and privileges carry no hazards, since nothing can be using the table.", "quantifier": "for every new table that generates without error", "why_tests_cant": "quantifies over all tables", "anchors": ["pkg/diff/sql_generator.go:tableSQLVertexGenerator.Add", "pkg/diff/sql_generator.go:stripMigrationHazards"]}
{"id": "C18", "title": "NoConcurrentIndexOps removes CONCURRENTLY", "statement": "With WithNoConcurrentIndexOps no generated CREATE INDEX or DROP INDEX uses CONCURRENTLY; without it every index built on or dropped from an existing non-partitioned relation does, and a concurrent build never carries the blocking ACQUIRES_SHARE_LOCK hazard.", "quantifier": "for every pair of schemas", "why_tests_cant": "quantifies over all index statements", "anchors": ["pkg/diff/sql_generator.go:indexSQLVertexGenerator", "internal/schema/schema.go:ToCreateIndexConcurrently"]}
{"id": "C19", "title": "Column alteration reaches the target column", "statement": "Executing the statements generated for an altered column in order, under Postgres' rules for each statement, succeeds and yields exactly the new type, collation, nullability, default and identity.", "quantifier": "for every pair of old and new column definitions that the generator accepts", "why_tests_cant": "cross product of type, default, identity and nullability changes", "anchors": ["pkg/diff/sql_generator.go:columnSQLVertexGenerator.Alter"]}
{"id": "C20", "title": "Backfilling column type changes are flagged", "statement": "Every change of a column's type or collation produces a statement that carries ACQUIRES_ACCESS_EXCLUSIVE_LOCK and IMPACTS_DATABASE_PERFORMANCE hazards unless it is one of the known metadata-only changes.", "quantifier": "for every pair of types", "why_tests_cant": "all pairs of types", "anchors": ["pkg/diff/sql_generator.go:generateTypeTransformationStatement", "pkg/diff/sql_generator.go:generateTypeTransformationStatements"]}
{"id": "C21", "title": "SET NOT NULL never scans under an exclusive lock", "statement": "Whenever the plan makes an existing column NOT NULL, a validated check constraint that implies the column is not null exists at the moment SET NOT NULL runs, and any temporary constraint created for it is dropped afterwards.", "quantifier": "for every altered table and every column made NOT NULL", "why_tests_cant": "quantifies over all constraint/column combinations and over the order of the final plan", "anchors": ["pkg/diff/sql_generator.go:alterBaseTable", "pkg/diff/sql_generator.go:getDangerousNotNullAlters", "pkg/diff/sql_generator.go:isValidNotNullCC"]}
{"id": "C22", "title": "A constraint recognised as NOT NULL check implies not null", "statement": "Whenever a check constraint is recognised as a valid not-null check for a column, no row with NULL in this column satisfies it.", "quantifier": "for every check expression over the column", "why_tests_cant": "expressions are unbounded; the regular expression accepts more than intended", "anchors": ["pkg/diff/sql_generator.go:isNotNullCCRegex", "pkg/diff/sql_generator.go:isValidNotNullCC"]}
{"id": "C23", "title": "Row level security is never on without its policies", "statement": "In every plan RLS is disabled before any policy of the table is dropped and is enabled only after all policies were created or altered.", "quantifier": "for every table diff and every ordering produced", "why_tests_cant": "quantifies over all table diffs and over the topological order", "anchors": ["pkg/diff/sql_generator.go:alterBaseTable", "pkg/diff/policy_sql_generator.go"]}
{"id": "C24", "title": "Policy alteration reaches the target policy", "statement": "If two versions of a policy are resolved by ALTER POLICY, executing the statement yields exactly the new roles, USING and CHECK expressions; otherwise the policy is dropped and recreated, the drop first.", "quantifier": "for every pair of policies", "why_tests_cant": "cross product of changes", "anchors": ["pkg/diff/policy_sql_generator.go:Alter", "pkg/diff/policy_sql_generator.go:buildPolicyDiffs"]}
{"id": "C25", "title": "Privileges converge", "statement": "Executing the GRANT and REVOKE statements generated for a table, in plan order, yields exactly the target set of privileges including grant options.", "quantifier": "for every pair of privilege lists with distinct (grantee, privilege)", "why_tests_cant": "all subsets of grantees and privileges, all orders", "anchors": ["pkg/diff/privilege_sql_generator.go", "pkg/diff/sql_generator.go:buildTableDiff"]}
{"id": "C26", "title": "Sequences converge", "statement": "Executing the statements generated for a sequence yields exactly the target definition, and statements are generated only when definitions differ.", "quantifier": "for every pair of sequences", "why_tests_cant": "cross product of changes", "anchors": ["pkg/diff/sql_generator.go:sequenceSQLVertexGenerator", "pkg/diff/sql_generator.go:sequenceOwnershipSQLVertexGenerator"]}
{"id": "C27", "title": "Plan phases", "statement": "In every plan new schemas come before everything that lives in them, then extensions, then enum creations and alterations, then the dependency-ordered statements, and only then are removed enums, extensions and schemas dropped.", "quantifier": "for every pair of schemas", "why_tests_cant": "quantifies over plans", "anchors": ["pkg/diff/sql_generator.go:schemaSQLGenerator.Alter"]}
{"id": "C28", "title": "Index replacement leaves no gap", "statement": "When an index that backs no constraint is redefined under the same name, the old index is renamed first, the new one is built, and the old one is dropped only after the new one exists, in every plan order.", "quantifier": "for every schema pair and every order", "why_tests_cant": "depends on the full dependency graph", "anchors": ["pkg/diff/sql_generator.go:renameConflictingIndexSQLVertexGenerator", "pkg/diff/sql_generator.go:indexSQLVertexGenerator"]}
{"id": "C29", "title": "Generated names fit Postgres", "statement": "Names generated for renamed indexes and temporary constraints fit into Postgres' 63-byte limit, are distinct for distinct random values, and a name accepted as the renaming of an index keeps a prefix of the old one.", "quantifier": "for every index name and every random value", "why_tests_cant": "all names and random values", "anchors": ["pkg/diff/sql_generator.go:generateNonConflictingName", "pkg/diff/sql_generator.go:buildTempNotNullConstraint", "internal/pgidentifier/identifier.go:RandomUUID"]}
{"id": "C30", "title": "InsertStatement inserts", "statement": "InsertStatement(i, s) fails iff i is out of 0..n; otherwise the result has s at i and the original statements otherwise, in order.", "quantifier": "for every plan, index and statement, whatever the capacity of the underlying array", "why_tests_cant": "capacity dependent", "anchors": ["pkg/diff/plan.go:InsertStatement"]}
{"id": "C31", "title": "InsertStatement leaves its receiver untouched", "statement": "A plan value is not changed by calling InsertStatement on it.", "quantifier": "for every plan including plans whose statement slice has spare capacity", "why_tests_cant": "only visible when the slice has spare capacity", "anchors": ["pkg/diff/plan.go:InsertStatement"]}
{"id": "C32", "title": "Timeout modifiers: last match wins", "statement": "After applying a list of timeout modifiers each statement has the timeout of the last modifier whose pattern matches its DDL, or its original timeout when none matches; nothing else changes.", "quantifier": "for every plan and list of modifiers", "why_tests_cant": "unbounded lists", "anchors": ["pkg/diff/plan.go:applyStatementModifier", "cmd/pg-schema-diff/plan_cmd.go:applyPlanModifiers"]}
{"id": "C33", "title": "Apply executes a prefix in order", "statement": "Running a plan executes the statements in plan order on one connection, each preceded by the settings of its timeouts, and stops at the first failure: the database has executed exactly a prefix.", "quantifier": "for every plan and every pattern of database failures", "why_tests_cant": "every failure point", "anchors": ["cmd/pg-schema-diff/apply_cmd.go:runPlan"]}
{"id": "C34", "title": "Apply sets the lock timeout of the statement", "statement": "When a statement is executed, the session lock_timeout equals the statement's LockTimeout and the session statement_timeout equals its Timeout.", "quantifier": "for every plan", "why_tests_cant": "no unit test observes session settings", "anchors": ["cmd/pg-schema-diff/apply_cmd.go:runPlan"]}
{"id": "C35", "title": "Hazard gate", "statement": "Apply refuses to run iff some statement carries a hazard whose type is not among the allowed ones (compared case-insensitively on the allowed side), and the message lists exactly the offending statements.", "quantifier": "for every plan and every allow list", "why_tests_cant": "all combinations", "anchors": ["cmd/pg-schema-diff/apply_cmd.go:failIfHazardsNotAllowed", "cmd/pg-schema-diff/apply_cmd.go:getHazardTypes"]}
{"id": "C36", "title": "SQL script output sets the right timeouts", "statement": "The SQL script printed for a plan contains, in order, for every statement the settings of its own statement timeout and lock timeout in milliseconds immediately before its DDL.", "quantifier": "for every plan", "why_tests_cant": "unbounded plans", "anchors": ["cmd/pg-schema-diff/plan_cmd.go:planToSql"]}
{"id": "C37", "title": "Plan option parsing is strict", "statement": "A timeout modifier or an insert statement option parses iff it has exactly the required keys, once each, with valid values; any unknown, missing or repeated key is an error.", "quantifier": "for every list of key/value pairs", "why_tests_cant": "all inputs", "anchors": ["cmd/pg-schema-diff/plan_cmd.go:parseTimeoutModifier", "cmd/pg-schema-diff/plan_cmd.go:parseInsertStatementStr", "cmd/pg-schema-diff/flags.go:logFmtToMap"]}
{"id": "C38", "title": "Exactly one schema source", "statement": "A schema source is accepted iff exactly one of directories and connection is given.", "quantifier": "for every flag combination", "why_tests_cant": "all combinations of flags with contents", "anchors": ["cmd/pg-schema-diff/plan_cmd.go:parseSchemaSource", "cmd/pg-schema-diff/flags.go:parseConnectionFlags"]}
{"id": "C39", "title": "Temporary databases are cleaned up", "statement": "Whatever step of temporary database creation fails or panics, the connection pool is closed and a drop of the created database is attempted; after success the caller's Close does both, and every caller in plan generation calls it on every path.", "quantifier": "for every failure or panic point", "why_tests_cant": "every crash point", "anchors": ["pkg/tempdb/factory.go:Create", "pkg/diff/plan_generator.go:assertValidPlan", "pkg/diff/schema_source.go:GetSchema", "internal/util/closer.go:DoOnErrOrPanic"]}
{"id": "C40", "title": "Only temporary databases are dropped", "statement": "The factory never issues DROP DATABASE for a name that does not start with the configured prefix, every name it creates starts with it, and the name needs no quoting.", "quantifier": "for every configuration and every name", "why_tests_cant": "all names", "anchors": ["pkg/tempdb/factory.go:dropTempDatabase", "pkg/tempdb/factory.go:NewOnInstanceFactory", "internal/pgidentifier/identifier.go"]}
{"id": "C41", "title": "Validated plans migrate to the target", "statement": "If plan generation with validation succeeds, then executing the plan's validated statements on a database holding the current schema succeeded and the resulting schema has an empty diff to the target (privileges aside).", "quantifier": "for every database behaviour and every pair of schemas", "why_tests_cant": "the database is an arbitrary environment", "anchors": ["pkg/diff/plan_generator.go:Generate", "pkg/diff/plan_generator.go:assertValidPlan", "pkg/diff/plan_generator.go:assertMigratedSchemaMatchesTarget"]}
{"id": "C42", "title": "The plan's hash is the hash of the current schema", "statement": "CurrentSchemaHash of a generated plan equals the hash a user computes with GetSchemaHash on the same database, so the freshness check before applying is meaningful.", "quantifier": "for every pair of schemas", "why_tests_cant": "needs a schema pair for which plan generation modifies its input", "anchors": ["pkg/diff/plan_generator.go:Generate", "pkg/diff/sql_generator.go:buildIndexDiff", "internal/schema/schema.go:Hash"]}
{"id": "C43", "title": "Schema hash ignores fetch order", "statement": "The hash of a schema does not depend on the order in which the database returned objects, check constraints, policies, privileges or dependency lists, and normalisation is idempotent and keeps all objects.", "quantifier": "for every permutation of every list (distinct names)", "why_tests_cant": "all permutations", "anchors": ["internal/schema/schema.go:Normalize", "internal/schema/schema.go:Hash"]}
{"id": "C44", "title": "Schema hash detects every change", "statement": "Two schemas that differ in any normalised field have different hashes (assuming the structural hash function does not collide).", "quantifier": "for every pair of schemas", "why_tests_cant": "all pairs", "anchors": ["internal/schema/schema.go:Hash", "internal/schema/schema.go:Normalize"]}
{"id": "C45", "title": "Include/exclude filters", "statement": "An object is part of the fetched schema iff its schema name is in the include list (when one is given) and not in the exclude list; overlapping lists are rejected.", "quantifier": "for every pair of lists and every schema name", "why_tests_cant": "all lists", "anchors": ["internal/schema/schema.go:buildNameFilter", "internal/schema/filters.go"]}
{"id": "C46", "title": "Futures are single-assignment and never deadlock", "statement": "For every interleaving of a running function and any number of concurrent Get calls, every Get that completes without cancellation returns the one computed result, and no re-send ever blocks.", "quantifier": "for every number of getters and every schedule", "why_tests_cant": "all schedules", "anchors": ["internal/concurrent/future.go:SubmitFuture", "internal/concurrent/future.go:Get", "internal/concurrent/future.go:GetAll"]}
{"id": "C47", "title": "Goroutine limiter", "statement": "At no point of any schedule do more than `limit` submitted functions run at once; every released slot is available again; a cancelled submission never runs.", "quantifier": "for every limit, schedule and number of submissions", "why_tests_cant": "all schedules", "anchors": ["internal/concurrent/goroutine_limiter.go:Go"]}
{"id": "C48", "title": "Cleanup runs on error and panic only", "statement": "The deferred cleanup runs iff the function failed or panicked, sees the final error value, and a panic continues to propagate with the same value.", "quantifier": "for every outcome", "why_tests_cant": "every failure point", "anchors": ["internal/util/closer.go:DoOnErrOrPanic"]}
{"id": "C49", "title": "relOptions parse exactly", "statement": "Every reloption `key=value` is parsed to that key and value (values may contain '='), and an option without '=' is an error.", "quantifier": "for every list of options", "why_tests_cant": "all strings", "anchors": ["internal/schema/schema.go:relOptionsToMap"]}
{"id": "C50", "title": "Definition rewrites only insert the keyword", "statement": "Turning an index definition into a concurrent one inserts CONCURRENTLY exactly after CREATE [UNIQUE] INDEX and keeps the rest of the text; turning a trigger definition into CREATE OR REPLACE inserts OR REPLACE exactly after CREATE; definitions of other shapes are errors.", "quantifier": "for every definition text", "why_tests_cant": "all strings including newlines", "anchors": ["internal/schema/schema.go:ToCreateIndexConcurrently", "internal/schema/schema.go:ToCreateOrReplace"]}
{"id": "C51", "title": "Data packing only permutes columns", "statement": "Data packing new tables permutes the columns of new tables into non-increasing size order, changes nothing else, and leaves the input schema unchanged.", "quantifier": "for every diff", "why_tests_cant": "all column lists", "anchors": ["pkg/diff/transform_diff.go:dataPackNewTables"]}
{"id": "C52", "title": "Ignoring column order makes reordering invisible", "statement": "With column order ignored (the default), tables that differ only in column order yield no statements and no error; when order is respected a reordered column is an error.", "quantifier": "for every table and every permutation of its columns", "why_tests_cant": "all permutations", "anchors": ["pkg/diff/transform_diff.go:removeChangesToColumnOrdering", "pkg/diff/sql_generator.go:columnSQLVertexGenerator.Alter"]}
{"id": "C53", "title": "Self diff is empty", "statement": "Generating a plan from a schema to itself yields an empty plan.", "quantifier": "for every schema", "why_tests_cant": "all schemas; depends on every generator", "anchors": ["pkg/diff/sql_generator.go:buildSchemaDiff", "pkg/diff/sql_generator.go:schemaSQLGenerator.Alter"]}
{"id": "C54", "title": "An empty plan means equal schemas", "statement": "If the generated plan is empty the two schemas are equal up to ordering.", "quantifier": "for every pair of schemas", "why_tests_cant": "all pairs; the code ignores changes of generated expressions, enum order and others", "anchors": ["pkg/diff/sql_generator.go:columnSQLVertexGenerator.Alter", "pkg/diff/enum_sql_generator.go:Alter"]}
{"id": "C55", "title": "Indexes survive recreation of their relation", "statement": "An index unchanged between the schemas exists after the plan was executed, even when the relation that owns it was dropped and recreated by the plan.", "quantifier": "for every schema pair", "why_tests_cant": "requires combining object kinds", "anchors": ["pkg/diff/sql_generator.go:buildIndexDiff", "pkg/diff/materialized_view_sql_generator.go"]}
{"id": "C56", "title": "Views are dropped before and created after what they use", "statement": "In every plan a dropped (or recreated) view or materialized view is dropped before any table it depended on is dropped or altered, and a created one is created after every table it depends on was created or altered.", "quantifier": "for every schema pair and plan order", "why_tests_cant": "depends on the dependency graph and its sort", "anchors": ["pkg/diff/view_sql_generator.go", "pkg/diff/materialized_view_sql_generator.go"]}
{"id": "C57", "title": "Foreign keys are added after and dropped before what they reference", "statement": "In every plan a foreign key is added after both tables and the backing indexes exist and dropped before the referenced table is dropped; a foreign key added to an existing table is added NOT VALID and validated afterwards when the target is valid.", "quantifier": "for every schema pair and plan order", "why_tests_cant": "depends on the dependency graph and its sort", "anchors": ["pkg/diff/sql_generator.go:foreignKeyConstraintSQLVertexGenerator"]}
{"id": "C58", "title": "Partitions are attached after they are complete", "statement": "In every plan a new partition is attached after it and its parent are created and after its own indexes are built and before the index attachments.", "quantifier": "for every schema pair and plan order", "why_tests_cant": "depends on the dependency graph and its sort", "anchors": ["pkg/diff/sql_generator.go:attachPartitionSQLVertexGenerator", "pkg/diff/sql_generator.go:indexSQLVertexGenerator"]}
{"id": "C59", "title": "Random identifiers are injective and legal", "statement": "The textual form of a random id is 22 characters from the identifier alphabet and two different ids never have the same text.", "quantifier": "for every pair of 16-byte values", "why_tests_cant": "2^256 pairs", "anchors": ["internal/pgidentifier/identifier.go:RandomUUID"]}
{"id": "C60", "title": "Schema files are read completely and in order", "statement": "Reading a directory tree yields the contents of exactly the files whose extension is .sql in any case, in lexical walk order, directories given on the command line in the given order.", "quantifier": "for every directory tree", "why_tests_cant": "all trees", "anchors": ["pkg/diff/schema_source.go:getDDLFromPath", "pkg/diff/schema_source.go:DirSchemaSource"]}
{"id": "C61", "title": "Schema fetching does not depend on scheduling", "statement": "The schema assembled from concurrent fetches is the same for every schedule, and if any fetch fails an error is returned rather than a partial schema.", "quantifier": "for every schedule and pattern of failures", "why_tests_cant": "all schedules", "anchors": ["internal/schema/schema.go:schemaFetcher.getSchema", "internal/concurrent/future.go"]}
{"id": "C62", "title": "Generated index names are valid text", "statement": "The temporary name a plan gives to a replaced index is valid UTF-8 text, whatever valid UTF-8 name the index had, so that the RENAME statement can be sent to a UTF-8 database.", "quantifier": "for every index name and every stream of random bytes", "why_tests_cant": "the name is cut by bytes at a fixed length, so the cut falls at every possible offset inside every possible multi-byte character", "anchors": ["pkg/diff/sql_generator.go:generateNonConflictingName"]}
{"id": "C63", "title": "A sequence can be handed to another column of its table", "statement": "If two schemas differ only in the column that owns a sequence, and both columns belong to the same table, a plan is generated.", "quantifier": "for every table, every sequence and every pair of columns", "why_tests_cant": "the tests change owners between tables only, and each further pair is one more schema", "anchors": ["pkg/diff/sql_generator.go:sequenceOwnershipSQLVertexGenerator.GetAddAlterDependencies", "pkg/diff/sql_generator.go:tableSQLVertexGenerator.GetAddAlterDependencies"]}
{"id": "C64", "title": "A sequence is dropped only when no default uses it", "statement": "When a plan drops a sequence that the default of a column uses in the old schema, the statement that removes the default or the column comes before DROP SEQUENCE.", "quantifier": "for every pair of schemas for which a plan is generated", "why_tests_cant": "whether the order is right depends on every other object of the plan through the order of the graph", "anchors": ["pkg/diff/sql_generator.go:sequenceSQLVertexGenerator.GetDeleteDependencies"]}
{"id": "C65", "title": "Check constraints converge", "statement": "Executed in order on a database that has the check constraints of the old schema, the statements of a plan leave every table with exactly the check constraints of the target schema, with the same expression, inheritance and validity, and none of the statements fails because a constraint exists, is missing or mentions a column that was dropped.", "quantifier": "for every pair of schemas for which a plan is generated, every table and every constraint name", "why_tests_cant": "the order of the statements about one constraint depends on the columns, the temporary constraints and the other constraints of the table through the order of a graph", "anchors": ["pkg/diff/sql_generator.go:checkConstraintSQLVertexGenerator", "pkg/diff/sql_generator.go:buildTableDiff", "pkg/diff/sql_generator.go:tableSQLVertexGenerator.alterBaseTable"]}
{"id": "C66", "title": "A NOT NULL check can be changed", "statement": "If two schemas differ only in the inheritance or the wording of a valid check constraint that excludes NULL from an existing column, a plan is generated.", "quantifier": "for every table, every column and every such constraint", "why_tests_cant": "the tests add and drop such constraints; a cycle in the graph shows only when the same constraint is dropped and added in one plan", "anchors": ["pkg/diff/sql_generator.go:checkConstraintSQLVertexGenerator.GetAddAlterDependencies", "pkg/diff/sql_generator.go:checkConstraintSQLVertexGenerator.GetDeleteDependencies"]}
{"id": "C67", "title": "Indexes converge", "statement": "Executed in order on a database that has the indexes of the old schema, the statements of a plan leave under every name the index of the target schema, on the same relation, with the same definition and backing the same kind of constraint, or none if the target has none. None of the statements fails because an index is missing, its name is taken, it backs a constraint, or it went with its table, view or column.", "quantifier": "for every pair of schemas for which a plan is generated and every index name", "why_tests_cant": "an index can be replaced by renaming and recreating, dropped with its constraint, table, view or column, or turned into a constraint; the order of these statements depends on every other change of the plan", "anchors": ["pkg/diff/sql_generator.go:indexSQLVertexGenerator", "pkg/diff/sql_generator.go:renameConflictingIndexSQLVertexGenerator", "pkg/diff/sql_generator.go:buildIndexDiff"]}
{"id": "C68", "title": "No index is left behind", "statement": "Followed through its renames, every index of the old schema is gone after the plan was executed or is the index that the target schema has under its name: nothing stays under a temporary name, and no statement about it fails.", "quantifier": "for every pair of schemas for which a plan is generated and every index of the old schema", "why_tests_cant": "the temporary names are random and pass from one generator to another through a map", "anchors": ["pkg/diff/sql_generator.go:renameConflictingIndexSQLVertexGenerator", "pkg/diff/sql_generator.go:indexSQLVertexGenerator.Delete"]}
{"id": "C69", "title": "Foreign keys of tables that are not partitions converge", "statement": "Let a plan be generated from an old to a new schema whose foreign keys are between tables that are not partitions. For every table and constraint name, executing the plan on a database with the foreign key of the old schema under that name leaves exactly the foreign key of the new schema there: same definition, validated or not as in the new schema, or none. No ADD, VALIDATE or DROP CONSTRAINT of the plan fails because the constraint is missing or the name is taken, and no table or column to which the foreign key refers is dropped while it exists.", "quantifier": "for all pairs of schemas, all plan options, all tables and constraint names", "why_tests_cant": "Foreign keys are dropped, made, validated or recreated because of changes elsewhere (a recreated table, a partitioned owner, a dropped column), and each case orders the statements differently among those of tables, columns and indexes.", "anchors": ["pkg/diff/sql_generator.go:foreignKeyConstraintSQLVertexGenerator", "pkg/diff/sql_generator.go:buildForeignKeyConstraintDiff"]}
{"id": "C70", "title": "No index goes while a foreign key relies on it", "statement": "When a plan takes away an index of the old schema on which a foreign key of the old schema can rely (a unique index on the referenced columns), by DROP INDEX or DROP CONSTRAINT under any name it has at that moment or with its table or column, it has dropped the foreign key before. Otherwise Postgres refuses the statement, because the foreign key depends on the index.", "quantifier": "for all pairs of schemas, all foreign keys and all indexes of the referenced tables, all plan options, at every statement of the plan", "why_tests_cant": "It depends on the order of statements of three generators, on renames of indexes, and on foreign keys that are the same in both schemas while the index under them changes.", "anchors": ["pkg/diff/sql_generator.go:foreignKeyConstraintSQLVertexGenerator.GetDeleteDependencies", "pkg/diff/sql_generator.go:indexSQLVertexGenerator.Delete"]}
{"id": "C71", "title": "Tables and columns converge", "statement": "Run statement by statement, a plan never creates a table that exists, never drops a table or touches a column of a table that does not, never adds a column twice or drops one that is gone, and every statement about columns is one Postgres accepts. Afterwards every table of the target exists with exactly the columns of the target, each with its type, collation, NOT NULL, default, generated mark and identity, and every other table is gone.", "quantifier": "for all pairs of schemas, all table and column names (also those in neither schema), all plan options", "why_tests_cant": "Tests compare end results for chosen schemas; here the state after each statement counts, for columns added, dropped and altered in any combination and for tables that are recreated because they become or cease to be partitioned.", "anchors": ["pkg/diff/sql_generator.go:tableSQLVertexGenerator.Add", "pkg/diff/sql_generator.go:tableSQLVertexGenerator.Alter", "pkg/diff/sql_generator.go:columnSQLVertexGenerator", "pkg/diff/diff.go:diffLists"]}
{"id": "C72", "title": "Columns end up in the order of the target", "statement": "After a plan has run, the columns of a table that is no partition are those of the target. Columns that stay keep their old order and come first; a created table has its columns in the order of the target unless they are packed. If the order of columns is not to be ignored, the order is that of the target.", "quantifier": "for all pairs of schemas, all tables, all plan options", "why_tests_cant": "The order in which columns are added comes out of a topological sort with ties broken by vertex names, so it only shows when several columns are added whose names are not in the order of the target.", "anchors": ["pkg/diff/sql_generator.go:columnSQLVertexGenerator.GetAddAlterDependencies", "pkg/diff/sql_graph.go:toOrderedStatements", "pkg/diff/transform_diff.go"]}
{"id": "C73", "title": "Functions and procedures converge", "statement": "For every name (with argument types), running a plan on a database that has the old schema leaves the function or procedure the target has under that name, with its definition, or none if the target has none; Postgres accepts every statement on the way.", "quantifier": "for all pairs of schemas, all names of routines, all plan options", "why_tests_cant": "Functions and procedures are handled by two generators that know nothing of each other, though Postgres keeps both in one name space; and replacing a function only works if its signature stays. No sample of definitions shows that for all changes.", "anchors": ["pkg/diff/function_sql_vertex_generator.go", "pkg/diff/procedure_sql_vertex_generator.go", "pkg/diff/sql_generator.go:buildFunctionDiff"]}
{"id": "C74", "title": "Triggers converge", "statement": "For every relation and every name of a trigger, running a plan on a database that has the old schema leaves the trigger the target has there, with its definition, or none if the target has none, and Postgres accepts every statement on the way: DROP TRIGGER finds its trigger, CREATE TRIGGER finds its relation and no trigger of that name, and CREATE OR REPLACE TRIGGER is never used on constraint triggers.", "quantifier": "for all pairs of schemas, all relations and names of triggers, all plan options", "why_tests_cant": "Triggers go with their relations, so what a plan has to do about a trigger depends on what another generator does with the table or view. No sample of schemas covers all combinations of dropped, made, recreated and altered relations and triggers.", "anchors": ["pkg/diff/trigger_sql_vertex_generator.go", "pkg/diff/sql_generator.go:buildTriggerDiff", "internal/schema/schema.go:GetTriggerDefStatement"]}
{"id": "C75", "title": "Functions are there while they are used", "statement": "While a plan runs on a database that has the old schema, no statement makes an object use a function that is not there, and no DROP FUNCTION runs while something in the database still uses the function.", "quantifier": "for all pairs of schemas, all functions, all points of the plan, all plan options", "why_tests_cant": "The order of the statements follows from a graph and from priorities between vertices, so whether a function goes before or after what uses it depends on everything else in the plan. Tests look at the few combinations they name.", "anchors": ["pkg/diff/function_sql_vertex_generator.go:GetAddAlterDependencies", "pkg/diff/function_sql_vertex_generator.go:GetDeleteDependencies", "pkg/diff/trigger_sql_vertex_generator.go:GetAddAlterDependencies", "pkg/diff/sql_graph.go"]}
{"id": "C76", "title": "Views converge", "statement": "Running the plan on a database that has the old schema leaves, under every name of a view or materialized view, exactly what the new schema has there (definition, options, tablespace), and every CREATE or DROP of that name finds the name free or finds a relation of its kind. Relations of all kinds share their names.", "quantifier": "for all pairs of schemas, all names, all plan options", "why_tests_cant": "Whether the DROP of a name is before the CREATE of it depends on declared edges, priorities and shared vertex ids of several generators. Tests run the few combinations of kinds they name.", "anchors": ["pkg/diff/view_sql_generator.go", "pkg/diff/materialized_view_sql_generator.go", "pkg/diff/diff.go:buildSchemaDiff"]}
{"id": "C77", "title": "The statements of a plan can always be put in order", "statement": "Plan generation never fails because the dependencies among the statements form a cycle: neither among the objects of the schema nor among the columns, checks, policies and privileges of one altered table.", "quantifier": "for all pairs of schemas, all plan options, all random ids", "why_tests_cant": "The dependencies of fourteen generators are put into one graph; a cycle can go through objects of any number of kinds. Tests run the pairs of changes they name, and cycles need several changes at once.", "anchors": ["pkg/diff/sql_generator.go", "pkg/diff/sql_graph.go", "internal/graph/graph.go:TopologicallySortWithPriority"]}
{"id": "C78", "title": "Selecting schemas never makes planning fail", "statement": "If a database can be planned for as a whole, it can be planned for with any include and exclude options of GetSchema: in particular comparing what was fetched with itself gives the empty plan.", "quantifier": "for all databases, all include and exclude options, all plan options, all schedules of the fetching goroutines", "why_tests_cant": "The filter is applied to each kind of object by itself; whether the rest can be planned depends on references between objects of different kinds and schemas. Tests select schemas that do not refer to each other.", "anchors": ["internal/schema/schema.go:buildNameFilter", "pkg/diff/view_sql_generator.go:buildViewDiff", "pkg/diff/materialized_view_sql_generator.go", "pkg/diff/sql_generator.go:buildIndexDiff"]}
{"id": "C79", "title": "Schemas and extensions converge", "statement": "A plan makes every new schema before anything is made in it, drops every old schema only after everything it held has been dropped, and leaves exactly the schemas of the target; and it leaves every extension of the target in its schema and at its version, Postgres rejecting no statement about schemas or extensions on the way.", "quantifier": "for all pairs of schemas, all plan options, all sources of randomness, every schema name, every extension name", "why_tests_cant": "Whether DROP SCHEMA meets an empty schema depends on the statements of eight other generators; the acceptance tests move single objects between schemas and never an extension.", "anchors": ["pkg/diff/named_schema_sql_generator.go", "pkg/diff/sql_generator.go:extensionSQLGenerator", "pkg/diff/sql_generator.go:schemaSQLGenerator.Alter"]}
{"id": "C80", "title": "Tables are there while they are used", "statement": "Every statement of a plan that needs a table - ALTER TABLE, ANALYZE, CREATE INDEX, CREATE or DROP TRIGGER, policies, GRANT and REVOKE, ALTER SEQUENCE OWNED BY, ATTACH PARTITION (of either table), a foreign key that references it, a view that selects from it - runs while that table exists; a table is created only while it is missing, dropped only while it exists, and exists at the end exactly if the target has it.", "quantifier": "for all pairs of schemas, all plan options, all sources of randomness, every table name", "why_tests_cant": "The claim joins eight generators with the table generator over every mixture of dropped, added, recreated and altered tables; the acceptance tests combine a handful of pairs.", "anchors": ["pkg/diff/sql_generator.go:tableSQLVertexGenerator", "pkg/diff/sql_generator.go:indexSQLVertexGenerator.GetAddAlterDependencies", "pkg/diff/sql_generator.go:foreignKeyConstraintSQLVertexGenerator.GetAddAlterDependencies", "pkg/diff/sql_generator.go:sequenceOwnershipSQLVertexGenerator", "pkg/diff/trigger_sql_vertex_generator.go", "pkg/diff/view_sql_generator.go"]}
{"id": "C81", "title": "Policies and the columns they mention", "statement": "At every moment of a plan, a policy of a table only mentions columns that exist: CREATE POLICY and ALTER POLICY come after the columns their expressions mention are there, no column is dropped or retyped while a policy mentions it (Postgres rejects both), and at the end columns and policies are those of the target.", "quantifier": "for all pairs of schemas, all plan options, all sources of randomness, every table, policy name and column name, whatever columns the expressions mention", "why_tests_cant": "The order of policy and column statements results from a graph of columns, checks, policies and privileges per table; tests cover a few fixed combinations of changed columns and policies.", "anchors": ["pkg/diff/policy_sql_generator.go:policySQLVertexGenerator", "pkg/diff/sql_generator.go:columnSQLVertexGenerator", "pkg/diff/sql_generator.go:tableSQLVertexGenerator.Alter", "internal/queries/queries.sql:GetPolicies"]}
{"id": "C82", "title": "Replica identities become those of the target", "statement": "After a plan, every table of the target has the replica identity of the target - DEFAULT, FULL, NOTHING, or by an index, and then by the same index - whether the table is new, recreated or altered; Postgres knows every form of ALTER TABLE ... REPLICA IDENTITY that the plan uses.", "quantifier": "for all pairs of schemas, all plan options, all sources of randomness, every table of the target", "why_tests_cant": "The tests set a few replica identities on a few tables; the claim is about all of them in combination with everything else that can change, such as the index that serves as the identity.", "anchors": ["pkg/diff/sql_generator.go:alterReplicaIdentityStatement", "pkg/diff/sql_generator.go:replicaIdentityAlterType", "pkg/diff/sql_generator.go:tableSQLVertexGenerator.Add", "pkg/diff/sql_generator.go:tableSQLVertexGenerator.Alter", "internal/schema/schema.go:ReplicaIdentity"]}
{"id": "C83", "title": "The JSON output of a plan can be read back", "statement": "For every plan, `plan --output-format json` prints a valid JSON document that contains every statement in order with exactly its text, its statement and lock timeout and its hazards (types and messages), and the schema hash, whatever characters occur in identifiers, definitions and messages; plans that differ in one of these print different documents.", "quantifier": "for all plans (all texts, timeouts and hazards)", "why_tests_cant": "Texts in a plan come from the database: quotes, backslashes, control characters, operators like ->> and non-ASCII text in any combination. A test compares a few documents.", "anchors": ["cmd/pg-schema-diff/plan_cmd.go:planToJsonS", "pkg/diff/plan.go:Statement.MarshalJSON", "pkg/diff/plan.go:Plan", "pkg/diff/plan.go:MigrationHazard"]}
{"id": "C84", "title": "Statements are shown completely and under one number", "statement": "The pretty output of a plan shows every statement in order with its number, its statement timeout, its lock timeout if set and shorter, and all hazards, with all numbers of the same width; an empty plan, and only an empty plan, is reported as matching schema. A statement has the same number in every output.", "quantifier": "for all plans, any number of statements", "why_tests_cant": "Padding depends on the number of statements; the claim ranges over all lengths of plans.", "anchors": ["cmd/pg-schema-diff/plan_cmd.go:planToPrettyS", "cmd/pg-schema-diff/plan_cmd.go:statementToPrettyS", "cmd/pg-schema-diff/plan_cmd.go:planToSql", "cmd/pg-schema-diff/cli.go:header", "cmd/pg-schema-diff/apply_cmd.go:getDisplayableStmtIdx"]}
{"id": "C85", "title": "A dump is a plan from nothing and leaves the database alone", "statement": "The dump command executes neither DDL nor plan statements anywhere, changes nothing outside of temporary databases and creates and drops only those; what it prints is exactly the statements, in order, of the plan from the schema of a fresh temporary database to the schema of the dumped one, and no index in it is built or dropped concurrently.", "quantifier": "for all databases, all outcomes (errors, panics) of all calls", "why_tests_cant": "Tests run the command against a working server; they do not see what is executed when calls fail, and compare a few dumps.", "anchors": ["cmd/pg-schema-diff/dump_cmd.go:generateDump", "cmd/pg-schema-diff/dump_cmd.go:dumpToSql", "pkg/diff/plan_generator.go:Generate", "pkg/tempdb/factory.go:Create"]}
{"id": "C86", "title": "Planning writes to temporary databases only", "statement": "While a plan is generated and validated, user DDL, plan statements and metadata are sent only to connections of pools that were opened on a database whose name starts with the prefix of temporary databases, after the server confirmed on that very pool that this is the current database. In particular the databases that schemas are read from, and the root database of the factory, are never written to, whatever fails.", "quantifier": "for all schema sources, all options, all outcomes (errors, panics) of all calls and all answers of the server", "why_tests_cant": "The dangerous executions are those in which a connection leads to another database than expected or a call fails at some point; there are too many points and no way to provoke most of them.", "anchors": ["pkg/diff/plan_generator.go:Generate", "pkg/diff/plan_generator.go:assertValidPlan", "pkg/diff/plan_generator.go:setSchemaForEmptyDatabase", "pkg/diff/plan_generator.go:executeStatementsIgnoreTimeouts", "pkg/diff/schema_source.go:ddlSchemaSource.GetSchema", "pkg/tempdb/factory.go:Create", "pkg/tempdb/factory.go:assertConnPoolIsOnExpectedDatabase", "cmd/pg-schema-diff/plan_cmd.go:generatePlan"]}
{"id": "C87", "title": "Enum types are there while columns use them", "statement": "While a plan runs, an enum type exists whenever a column has it: a type is created before the columns that need it, and it is dropped only when no column has it any more.", "quantifier": "for all pairs of schemas, all plan options, all sources of randomness, every enum type, every column of every table, every moment during the plan", "why_tests_cant": "Whether a type exists when it is needed depends on the order of statements from different generators; tests try a few changes of types together with a few changes of tables.", "anchors": ["pkg/diff/enum_sql_generator.go:enumSQLGenerator.Alter", "pkg/diff/enum_sql_generator.go:enumSQLGenerator.Delete", "pkg/diff/sql_generator.go:schemaSQLGenerator.Alter", "pkg/diff/sql_generator.go:columnSQLVertexGenerator.Alter"]}
{"id": "C88", "title": "Statements that block writers while going over a table are flagged", "statement": "A statement of a plan that reads or rewrites all rows of a table under a lock that keeps writers out carries a lock hazard, if the table has been there before the plan and stays.", "quantifier": "for all pairs of schemas, all plan options, all sources of randomness, every statement of the plan and every table it goes over", "why_tests_cant": "Hazards are listed by hand at the places statements are written; tests compare the hazards of sample plans with lists that were written by hand as well.", "anchors": ["pkg/diff/sql_generator.go:columnSQLVertexGenerator.Add", "pkg/diff/sql_generator.go:newColumnRequiresFullTableRewrite", "pkg/diff/sql_generator.go:foreignKeyConstraintSQLVertexGenerator.Add", "pkg/diff/sql_generator.go:indexSQLVertexGenerator.Add", "pkg/diff/sql_generator.go:attachPartitionSQLVertexGenerator.Add", "README.md:Hazards"]}
{"id": "C89", "title": "Columns of partitions follow those of their table", "statement": "Take a table and one of its partitions that both schemas have. Running the plan, where statements on the table reach the partition, accepts every statement about the columns of either and ends with every column of the table and of the partition as the target has it.", "quantifier": "for all pairs of schemas, all plan options, all sources of randomness, every partitioned table with one of its partitions, and every column name", "why_tests_cant": "A partition can be NOT NULL where its table is not, before and after; tests try a few of these combinations and compare dumps of the tables that were thought of.", "anchors": ["pkg/diff/sql_generator.go:tableSQLVertexGenerator.alterPartition", "pkg/diff/sql_generator.go:tableSQLVertexGenerator.alterBaseTable", "pkg/diff/sql_generator.go:tableSQLVertexGenerator.GetAddAlterDependencies"]}
{"id": "C90", "title": "Partitions fit the tables they are attached to", "statement": "Wherever a plan attaches a table as a partition, it attaches it to the table the target says, for the values the target says, and only once. At this moment both tables are there, with the same columns of the same types, collations and generation, NOT NULL in the partition wherever it is in the table, and the partition has every check constraint of the table, validated if that of the table is.", "quantifier": "for all pairs of schemas, all plan options, all sources of randomness, every partition of the target that the plan attaches, every column and every check constraint", "why_tests_cant": "ATTACH PARTITION is rejected if the table has been altered too late or the partition too early; whether it is depends on the order the whole plan is sorted into, and tests see the order of a few plans.", "anchors": ["pkg/diff/sql_generator.go:tableSQLVertexGenerator.Add", "pkg/diff/sql_generator.go:tableSQLVertexGenerator.GetAddAlterDependencies", "pkg/diff/sql_generator.go:attachPartitionSQLVertexGenerator.Add", "pkg/diff/sql_generator.go:attachPartitionSQLVertexGenerator.GetAddAlterDependencies"]}
{"id": "C91", "title": "Tables and their partitions converge", "statement": "Run on all the tables of the current schema, a plan never creates a table that is there, never drops one that is missing, and never attaches a partition to a table that is missing or not partitioned, nor one that is attached already. At the end there are just the tables of the target, each with the partition key of the target, attached to the table and for the values of the target; dropping a table takes its partitions, and theirs, with it.", "quantifier": "for all pairs of schemas with any number of tables and partitions, of any depth, all plan options, all sources of randomness", "why_tests_cant": "What a DROP TABLE takes depends on the whole tree below it; a table may change places, or give way to one of the same name, in combination with any other change, and tests try a few trees of depth one.", "anchors": ["pkg/diff/sql_generator.go:buildTableDiff", "pkg/diff/sql_generator.go:tableSQLVertexGenerator.Delete", "pkg/diff/sql_generator.go:tableSQLVertexGenerator.GetDeleteDependencies", "pkg/diff/sql_generator.go:attachPartitionSQLVertexGenerator.Add"]}
{"id": "C92", "title": "Indexes of partitions belong to those of their table", "statement": "An index of a partition that the target has as a part of another index is one after the plan. If the plan creates it, it later attaches it to that index, or attaches the partition with its indexes. If the plan leaves it alone, the plan attaches it, or it was attached before and the plan leaves the other index alone too. It is attached at most once and to no other index, and it is created and attached only after everything that builds the other index.", "quantifier": "for all pairs of schemas with any number of tables, partitions and indexes, of any depth, all plan options, all sources of randomness", "why_tests_cant": "Whether an index is recreated depends on the whole chain of indexes above it, and how it is attached on whether its table and the table above are new; tests try few of the combinations, and none with partitions in two levels and constraints.", "anchors": ["pkg/diff/sql_generator.go:buildIndexDiff", "pkg/diff/sql_generator.go:indexSQLVertexGenerator.addIdxStmtsWithHazards", "pkg/diff/sql_generator.go:indexSQLVertexGenerator.Alter", "pkg/diff/sql_generator.go:indexSQLVertexGenerator.GetAddAlterDependencies", "pkg/diff/sql_generator.go:attachPartitionSQLVertexGenerator.GetAddAlterDependencies"]}
{"id": "C93", "title": "Statements suit the kind of the table", "statement": "On a table that is partitioned in the target a plan has no statement that Postgres refuses on partitioned tables: no CREATE INDEX CONCURRENTLY, no ADD CONSTRAINT ... USING INDEX, no foreign key that is NOT VALID, no check that is NO INHERIT. If the plan has such a statement for a table that was partitioned before, the target has that table as one that is not partitioned, and the plan has dropped the partitioned one, or a table above it, before that statement.", "quantifier": "for all pairs of schemas with any number of tables, indexes, foreign keys and checks, all plan options, all sources of randomness", "why_tests_cant": "Whether a statement is allowed depends on the kind of the table it names, which is decided elsewhere, in the comparison of indexes, in the options, and in the order of the plan; tests try one index or key on one partitioned table at a time.", "anchors": ["pkg/diff/sql_generator.go:buildIndexDiff", "pkg/diff/sql_generator.go:isIndexOnPartitionedTable", "pkg/diff/sql_generator.go:indexSQLVertexGenerator.addIdxStmtsWithHazards", "pkg/diff/sql_generator.go:foreignKeyConstraintSQLVertexGenerator.Add", "pkg/diff/sql_generator.go:checkConstraintSQLVertexGenerator.Add"]}
{"id": "C94", "title": "Indexes and the columns they are on", "statement": "When a plan builds an index of a table, or makes an index a constraint, it is done with the table and with all the tables above it: it neither makes nor drops them afterwards nor touches their columns, so the columns of the index are those of the target (there, of their type, NOT NULL if they should be). Before a plan drops a column of a table, it has dropped every index on that column, of the table or of a table below it; before it takes NOT NULL from a column, every primary key the column is in.", "quantifier": "for all pairs of schemas with any number of tables, partitions at any depth and indexes, all plan options, all sources of randomness", "why_tests_cant": "The order follows from dependencies between an index and its table, and from those between tables and their partitions; tests have one table with one index, or one level of partitions.", "anchors": ["pkg/diff/sql_generator.go:indexSQLVertexGenerator.GetAddAlterDependencies", "pkg/diff/sql_generator.go:indexSQLVertexGenerator.GetDeleteDependencies", "pkg/diff/sql_generator.go:indexSQLVertexGenerator.addDepsOnRelationAddAlterIfNecessary", "pkg/diff/sql_generator.go:tableSQLVertexGenerator.GetAddAlterDependencies"]}
{"id": "C95", "title": "The database becomes the target", "statement": "Take a database that has one schema and the plan to another. Run the statements one after the other against a catalog of tables and partitions, columns, check constraints, indexes, foreign keys, sequences, routines, triggers, views, enum types, extensions, policies, row level security, privileges and replica identities, all at once. No statement is rejected by any part of the catalog, and at the end the whole catalog is that of the target.", "quantifier": "for all pairs of schemas with any number of objects of every kind, all plan options, all sources of randomness", "why_tests_cant": "Acceptance tests migrate a hundred or so pairs of small schemas, most of them with one kind of object; that changes to different kinds do not get in each other's way for any pair is out of their reach.", "anchors": ["pkg/diff/plan_generator.go:Generate", "pkg/diff/diff.go:buildSchemaDiff", "pkg/diff/sql_generator.go:schemaSQLGenerator.Alter"]}
{"id": "C96", "title": "The report of a cycle shows the graph", "statement": "When statements cannot be put in order, the error contains a drawing of the dependency graph in the DOT language. A reader of DOT gets the graph back from it: the labels are the ids of the vertices, each once, whatever characters they contain (quotes, backslashes, line breaks), nodes have numbers of their own, and two nodes are joined exactly if the graph has that edge. So the drawing has a cycle, and it does not depend on the iteration order of Go's maps.", "quantifier": "for all graphs made with the operations of the package, all vertex ids, all priorities, all choices of printable characters, all orders of vertices", "why_tests_cant": "The test has a handful of graphs with ids of one letter; ids in plans contain quoted names, so escaping decides whether the drawing can be read.", "anchors": ["internal/graph/encode_dot.go:EncodeDOT", "internal/graph/graph.go:Graph.TopologicallySortWithPriority"]}
{"id": "C97", "title": "Check constraints of partitions follow those of their table", "statement": "Take a partitioned table and one of its partitions that both stay. Run the plan on a database whose partition has the check constraints of the table (inherited) and those of its own, with Postgres' rules: constraints are added, validated and dropped on the partition along with the table, an equal own constraint is taken over, inherited ones cannot be dropped on the partition. No statement is rejected, and in the end table and partition have the check constraints of the target. Whenever a column of the table is made NOT NULL, the partition has a validated constraint that excludes NULL in it.", "quantifier": "for all pairs of schemas, tables, partitions, constraint names, options, random sources and ways in which expressions mention columns", "why_tests_cant": "Acceptance tests have few partitioned tables with constraints; what an ALTER TABLE does to partitions depends on all other statements of the plan.", "anchors": ["pkg/diff/sql_generator.go:tableSQLVertexGenerator.alterPartition", "pkg/diff/sql_generator.go:tableSQLVertexGenerator.alterBaseTable", "pkg/diff/sql_generator.go:checkConstraintSQLVertexGenerator"]}
{"id": "C98", "title": "Views and the columns they read", "statement": "At every moment of a plan, views and materialized views only read columns that are there: a view is made after the columns it reads, no column and no table is dropped and no type changed while a view reads it (Postgres rejects all three), and at the end columns and views are those of the target.", "quantifier": "for all pairs of schemas, all plan options, all sources of randomness, every name of a view, every table and column", "why_tests_cant": "Whether a view is dropped and made again is decided from the old dependencies, the deleted tables and the deleted columns; its place in the plan depends on every other statement. Tests cover a few combinations.", "anchors": ["pkg/diff/view_sql_generator.go:buildViewDiff", "pkg/diff/view_sql_generator.go:viewSQLGenerator.Add", "pkg/diff/view_sql_generator.go:viewSQLGenerator.Delete", "pkg/diff/materialized_view_sql_generator.go:buildMaterializedViewDiff"]}
{"id": "C99", "title": "Triggers and the columns they name", "statement": "At every moment of a plan, triggers only name columns that are there (in UPDATE OF and in WHEN): a trigger is made after the columns it names, no column is dropped and no type changed while a trigger names it (Postgres rejects all three), and at the end columns and triggers are those of the target.", "quantifier": "for all pairs of schemas, all plan options, all sources of randomness, every table, every name of a trigger and every column, whatever columns the definitions of triggers name", "why_tests_cant": "Which columns a trigger names is not part of the schema the planner sees; whether the plan works depends on where triggers are dropped and made relative to every statement about their table. Tests cover a few combinations.", "anchors": ["pkg/diff/trigger_sql_vertex_generator.go:triggerSQLVertexGenerator.Alter", "pkg/diff/trigger_sql_vertex_generator.go:triggerSQLVertexGenerator.GetAddAlterDependencies", "pkg/diff/trigger_sql_vertex_generator.go:triggerSQLVertexGenerator.GetDeleteDependencies", "pkg/diff/sql_generator.go:buildSchemaDiff"]}
{"id": "C100", "title": "Generated columns and the columns they are computed from", "statement": "At every moment of a plan, generated columns are computed from columns that are there: a generated column comes after the columns its expression mentions, no column is dropped and no type changed while a generated column is computed from it (Postgres rejects all three), and at the end both are as in the target.", "quantifier": "for all pairs of schemas, all plan options, all sources of randomness, every table and every pair of its columns, whatever columns the generation expressions mention", "why_tests_cant": "Which columns an expression mentions is not part of the schema the planner sees; within a table the statements are ordered by priorities and names of columns, so whether a plan works depends on the names. Tests try a few names.", "anchors": ["pkg/diff/sql_generator.go:columnSQLVertexGenerator.Add", "pkg/diff/sql_generator.go:columnSQLVertexGenerator.Delete", "pkg/diff/sql_generator.go:columnSQLVertexGenerator.Alter", "pkg/diff/sql_generator.go:columnSQLVertexGenerator.GetAddAlterDependencies", "pkg/diff/sql_generator.go:columnSQLVertexGenerator.GetDeleteDependencies", "pkg/diff/sql_generator.go:buildColumnDefinition"]}
{"id": "C101", "title": "Views are made again only when they have to be", "statement": "A view or materialized view that is in both schemas is dropped and made again exactly if what it is changes (definition, options, tablespace, the tables and columns it reads, in whatever order they are listed) or if a table it reads goes or has to be made again, or a column it reads goes. Then the plan has exactly one DROP and after it one CREATE of it; otherwise no statement makes or drops it, so that no materialized view is computed anew needlessly.", "quantifier": "for all pairs of schemas, all plan options, all sources of randomness, every view and materialized view in both schemas", "why_tests_cant": "The decision loops over dependencies and compares maps and lists that may come in any order; tests cover a few views. Only a proof covers every combination of changes to the view and to what it reads.", "anchors": ["pkg/diff/view_sql_generator.go:buildViewDiff", "pkg/diff/view_sql_generator.go:viewSQLGenerator.Alter", "pkg/diff/materialized_view_sql_generator.go:buildMaterializedViewDiff", "pkg/diff/materialized_view_sql_generator.go:materializedViewSQLGenerator.Alter", "internal/schema/schema.go:normalizeView"]}
{"id": "C102", "title": "Data is lost only where the target has no place for it", "statement": "The data of a column of a table is lost by DROP TABLE of the table or of a table that it is a partition of, and by DROP COLUMN of the column there. A plan has such a statement only if the target schema has no place for the data: the column is not in the target, or the table is not, or the table has to be made again because it becomes or stops being partitioned or a partition, or this is so for a table that it is a partition of. In particular changes of type, default, nullability, indexes, constraints, policies, triggers or views never lose data.", "quantifier": "for all pairs of schemas, all plan options, all sources of randomness, every table and every column of it", "why_tests_cant": "A statement that loses data may come from any of some twenty generators and for any combination of changes; tests compare data in a few scenarios. Only a proof over all generators shows that no combination of changes drops a table or a column that the target keeps.", "anchors": ["pkg/diff/sql_generator.go:buildTableDiff", "pkg/diff/sql_generator.go:tableSQLVertexGenerator.Delete", "pkg/diff/sql_generator.go:tableSQLVertexGenerator.Alter", "pkg/diff/sql_generator.go:columnSQLVertexGenerator.Delete"]}
{"id": "C103", "title": "Indexes are built again only when they have to be", "statement": "An index that is in both schemas is built again exactly if it has to be: it changes in more than what can be changed in place (it may get a constraint, its constraint may become inherited, it may be attached to an index of a partitioned table, and the index of a partitioned table may become valid), or the table it is on is made again, or the index it is a partition of is built again. Otherwise no statement builds it, drops it, renames it, or drops the constraint on it.", "quantifier": "for all pairs of schemas, all plan options, all sources of randomness, every index in both schemas, including indexes of partitions to any depth", "why_tests_cant": "The comparison updates a copy of the old index field by field, recurses over parent indexes and writes through a pointer shared with the caller. Tests look at a few pairs of indexes; a needless rebuild of one index on a large table is an outage.", "anchors": ["pkg/diff/sql_generator.go:buildIndexDiff", "pkg/diff/sql_generator.go:indexSQLVertexGenerator.Add", "pkg/diff/sql_generator.go:indexSQLVertexGenerator.Delete", "pkg/diff/sql_generator.go:renameConflictingIndexSQLVertexGenerator.Add"]}
{"id": "C104", "title": "Foreign keys are made again only when they have to be", "statement": "A foreign key that is in both schemas is made again exactly if it has to be: it changes in more than that it becomes valid, or the table it is on or the table it refers to is made again. Otherwise no statement drops it or adds it, and its rows are checked (VALIDATE CONSTRAINT) only if it becomes valid.", "quantifier": "for all pairs of schemas, all plan options, all sources of randomness, every foreign key in both schemas", "why_tests_cant": "Whether a foreign key is altered or made again is found out by trying to generate the ALTER and looking at the kind of error; tests try a few pairs. Making a foreign key again needlessly locks two tables and scans one; not making it again when a table is replaced loses it.", "anchors": ["pkg/diff/sql_generator.go:buildForeignKeyConstraintDiff", "pkg/diff/sql_generator.go:foreignKeyConstraintSQLVertexGenerator.Add", "pkg/diff/sql_generator.go:foreignKeyConstraintSQLVertexGenerator.Alter", "pkg/diff/sql_generator.go:foreignKeyConstraintSQLVertexGenerator.Delete"]}
{"id": "C105", "title": "A table that does not change is left alone", "statement": "If a table is the same in both schemas (up to the order of its check constraints, policies and privileges, and of its columns where column order is ignored), no statement of the plan makes, drops, attaches or alters it, its columns, its check constraints, its policies or its privileges, whatever else changes. Constraints dropped on it are those of foreign keys and indexes of the current schema, and constraints validated on it are foreign keys of the target.", "quantifier": "for all pairs of schemas, all plan options, all sources of randomness, every table that is the same in both schemas", "why_tests_cant": "Tests compare plans of a few schema pairs. That nothing leaks onto an unrelated table (for example helper constraints, statements of a partition or of its parent) is a statement about all other changes at once.", "anchors": ["pkg/diff/sql_generator.go:buildTableDiff", "pkg/diff/sql_generator.go:tableSQLVertexGenerator.Alter", "pkg/diff/sql_generator.go:tableSQLVertexGenerator.Add", "pkg/diff/sql_generator.go:tableSQLVertexGenerator.Delete", "internal/schema/schema.go:normalizeTable"]}
{"id": "C106", "title": "Functions, procedures, triggers and sequences are touched exactly when they have to be", "statement": "A function or procedure that is in both schemas is replaced exactly if it changes (the order in which the functions it depends on are listed does not count) and is never dropped. A trigger in both schemas is made or replaced exactly if it changes or its table is made again. A sequence in both schemas is made, altered, dropped or given another owner exactly if it changes or the table of its owning column is made again.", "quantifier": "for all pairs of schemas, all plan options, all sources of randomness, every function, procedure, trigger and sequence in both schemas", "why_tests_cant": "Tests check some changes of single objects. That an object is not touched by changes to anything else, and is touched by every change to itself, are statements about all pairs of schemas.", "anchors": ["pkg/diff/function_sql_vertex_generator.go:Alter", "pkg/diff/procedure_sql_vertex_generator.go:Alter", "pkg/diff/trigger_sql_vertex_generator.go:Alter", "pkg/diff/sql_generator.go:sequenceSQLVertexGenerator.Alter", "pkg/diff/sql_generator.go:sequenceOwnershipSQLVertexGenerator.Alter", "pkg/diff/sql_generator.go:buildSchemaDiff"]}
{"id": "C107", "title": "Columns are altered only in what changes", "statement": "For a column that is in a table of both schemas, every statement of a plan that alters it is needed: NOT NULL is set or dropped only if the nullability changes, the default only if the default differs, the type (and the statistics gathered by ANALYZE) only if the type or the collation differs, the identity only if it is added, removed or differs. The column is never added or dropped.", "quantifier": "for all pairs of schemas, all plan options, all sources of randomness, every table and every column in both schemas", "why_tests_cant": "A type change rewrites the table and an ANALYZE reads it; a needless one is invisible in the resulting schema, so tests that compare schemas cannot see it, and tests of plans check a few columns.", "anchors": ["pkg/diff/sql_generator.go:columnSQLVertexGenerator.Alter", "pkg/diff/sql_generator.go:columnSQLVertexGenerator.generateTypeTransformationStatement", "pkg/diff/sql_generator.go:columnSQLVertexGenerator.buildUpdateIdentityStatements", "pkg/diff/sql_generator.go:tableSQLVertexGenerator.alterPartition"]}
{"id": "C108", "title": "Policies, privileges and check constraints are touched only in what changes", "statement": "For a table that stays (in both schemas, neither recreated nor moved to another parent): a policy in both schemas is dropped or created only if its kind or command differs or an expression is taken away, and otherwise is altered only in the roles and expressions that differ, to what they are to be; a privilege in both schemas is granted or revoked only if its grant option differs; a check constraint in both schemas is created again only if its expression or inheritance differs or it is no longer to be valid.", "quantifier": "for all pairs of schemas, all plan options, all sources of randomness, every table and every policy, privilege and check constraint in both schemas", "why_tests_cant": "Between dropping and creating a policy or a privilege, access is denied; a needless one leaves the same schema, so it is invisible to tests that compare schemas. That none is made has to hold for every combination of the other changes of a table.", "anchors": ["pkg/diff/policy_sql_generator.go:buildPolicyDiffs", "pkg/diff/policy_sql_generator.go:policySQLVertexGenerator.Alter", "pkg/diff/privilege_sql_generator.go:privilegeSQLVertexGenerator", "pkg/diff/sql_generator.go:buildTableDiff", "pkg/diff/sql_generator.go:checkConstraintSQLVertexGenerator.Add"]}
{"id": "C109", "title": "Schemas, extensions and enums are touched exactly when they have to be", "statement": "A plan makes a schema exactly if it is only in the target, and drops it exactly if it is only in the source. An extension in both (same name and schema) is updated exactly if its version differs, to that of the target, and never made or dropped. An enum in both is dropped and made again exactly if one of its labels is to be gone; otherwise exactly the labels that are new are added.", "quantifier": "for all pairs of schemas, all plan options, all sources of randomness, every schema, extension, enum and label", "why_tests_cant": "Dropping a type that need not be dropped fails as soon as a column uses it; that it happens exactly if a label goes, whatever else changes, is a claim about all lists of labels and all other changes of the plan.", "anchors": ["pkg/diff/named_schema_sql_generator.go", "pkg/diff/enum_sql_generator.go:enumSQLGenerator.Alter", "pkg/diff/sql_generator.go:extensionSQLGenerator.Alter", "pkg/diff/sql_generator.go:buildSchemaDiff"]}
{"id": "C110", "title": "Row level security and replica identities are switched exactly when they differ", "statement": "For a table in both schemas that is not made again, a plan has exactly one ENABLE, DISABLE, FORCE or NO FORCE ROW LEVEL SECURITY statement if the source and the target differ in that way, and else none; and exactly one REPLICA IDENTITY statement, with the identity of the target, if the replica identities differ, and else none.", "quantifier": "for all pairs of schemas, all plan options, all sources of randomness, every table in both that stays (partitions included), every switch", "why_tests_cant": "A switch too many disables or enforces security on a table nobody asked to change, whatever else the plan does to that table; that none slips in is a claim about all changes a table can have at once.", "anchors": ["pkg/diff/sql_generator.go:tableSQLVertexGenerator.Alter", "pkg/diff/sql_generator.go:alterReplicaIdentityStatement", "pkg/diff/policy_sql_generator.go:enableRLSForTable"]}
{"id": "C111", "title": "Tables and columns are made and dropped exactly when they have to be", "statement": "A plan has exactly one CREATE TABLE for a table that is only in the target, or is in both but starts or stops being partitioned or changes its parent, and none for any other. It has exactly one DROP TABLE for a table that is no partition and is only in the source or has to be made again, and none for any other; a partition goes only if the table it is a partition of goes. On a table that stays and is no partition, exactly the columns only in the target are added and exactly those only in the source dropped.", "quantifier": "for all pairs of schemas, all plan options, all sources of randomness, every table and column name", "why_tests_cant": "A DROP TABLE too many loses all rows, one CREATE TABLE too many makes the plan fail; that each occurs just when needed holds for all schemas and all combinations of changes, not for the ones in a test suite.", "anchors": ["pkg/diff/sql_generator.go:tableSQLVertexGenerator.Add", "pkg/diff/sql_generator.go:tableSQLVertexGenerator.Delete", "pkg/diff/sql_generator.go:buildTableDiff", "pkg/diff/sql_generator.go:columnSQLVertexGenerator"]}
{"id": "C112", "title": "Partitions are attached exactly when they are made", "statement": "A plan attaches a table with ATTACH PARTITION exactly if the plan makes that table and it is a partition in the target, and then to the parent and with the bounds of the target. There is no plan that keeps a table while its bounds as a partition or its own partition key differ between source and target: such a change is refused, not passed over.", "quantifier": "for all pairs of schemas, all plan options, all sources of randomness, every table of the target", "why_tests_cant": "Attaching twice, to another table or with other bounds routes rows to the wrong place; that it happens for no combination of new, kept and remade tables is a claim about all schemas.", "anchors": ["pkg/diff/sql_generator.go:attachPartitionSQLVertexGenerator", "pkg/diff/sql_generator.go:tableSQLVertexGenerator.alterPartition", "pkg/diff/sql_generator.go:buildTableDiff"]}
{"id": "C113", "title": "Privileges are granted and revoked exactly when they have to be", "statement": "On a table that stays, including a partition, a plan grants a privilege to a grantee with a given grant option exactly if the target has that privilege and the source does not, and revokes a privilege from a grantee exactly if the source has it, with some grant option, and the target does not have it with the same option. This supposes that the names of privileges have no colon and that no grantee is a role whose name is PUBLIC in quotes.", "quantifier": "for all pairs of schemas, all plan options, all sources of randomness, every table in both schemas, every grantee, privilege and grant option", "why_tests_cant": "A needless revoke takes access away while the plan runs and a needless grant gives access nobody asked for; that neither happens for any two lists of privileges is a claim about all lists.", "anchors": ["pkg/diff/sql_generator.go:buildTableDiff", "pkg/diff/privilege_sql_generator.go", "internal/schema/schema.go:TablePrivilege.GetName"]}
{"id": "C114", "title": "Policies are made and dropped exactly when they have to be", "statement": "On a table that stays, including a partition, a plan has a CREATE POLICY for a name exactly if the target has a policy of this name and the source either has none or has one that cannot be altered into it: one of another kind or for another command, or with a USING or WITH CHECK expression that the target's lacks. It has a DROP POLICY for a name exactly if the source has a policy of this name and the target either has none or has one into which it cannot be altered.", "quantifier": "for all pairs of schemas, all plan options, all sources of randomness, every table in both schemas, every name of a policy", "why_tests_cant": "While a policy is dropped rows are hidden or exposed, so it must be dropped only when there is no other way; the conditions combine kinds, commands and expressions of any policies in any lists.", "anchors": ["pkg/diff/policy_sql_generator.go:buildPolicyDiffs", "pkg/diff/policy_sql_generator.go:policySQLVertexGenerator.Alter"]}
