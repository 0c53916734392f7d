# Formal model of pg-schema-diff

Source: `/repo` (stripe/pg-schema-diff at the pinned commit). Everything is in
Lean 4 under `lean/Verif`:

* `Verif/Model/*`  – the code, function by function. Every definition cites file and lines.
* `Verif/Spec/*`   – small independent specifications: what Postgres does with a
  statement, what an SQL lexer reads, what "runs before" means.
* `Verif/Lemmas/*` – helper lemmas.
* `Verif/Props/*`  – one theorem group per property of `properties.jsonl`, each with
  an `example` showing its hypotheses are met by a concrete non-trivial case.

## Trusted base

* Lean's kernel. Theorems use at most `propext`, `Classical.choice`, `Quot.sound`.
* The reading of the Go code (nothing is executed here).
* The effect of SQL statements on a Postgres catalog, as given in `Verif/Spec`.

## Modelling conventions

* Go `string` is Lean `String` (valid UTF-8). `<` on strings is code point order,
  which for valid UTF-8 is Go's byte order.
* Go `map` is an association list with unique keys; the list order stands for Go's
  arbitrary iteration order. Determinism theorems say that the result does not
  change when the list is permuted.
* `sort.Slice` (unstable) is insertion sort where the keys are distinct; where keys
  may tie (data packing) the result is any sorted permutation.
* Errors are values (`Except`). Error texts are kept only where observable behaviour
  depends on them.
* `Statement.DDL` is a syntax tree (`Ddl`), one constructor per format string of the code,
  with `Ddl.render` giving the text. Execution semantics are defined on the tree.
* Regular expressions of the code become explicit decision procedures; user supplied ones and the
  clock, random numbers, database are parameters.

### Simplifications in the generator model

* `nil` and empty slices or maps are not distinguished (`cmp.Equal` does distinguish them; the fetch code never mixes them).
* `strings.EqualFold` folds ASCII letters only.
* Cutting a string to a number of bytes keeps whole characters (Go may cut inside one).
* `cmp.Equal(old, T{})` is `old = zero`. `sort.Strings` inside the check constraint generator mutates its argument;
  nothing reads it afterwards.
* `buildIndexDiff` writes to `old.Constraint.IsLocal` through a shared pointer (sql_generator.go:529). The model does the
  same write in a pass before (`effectiveOldIndex`): it only depends on the new index of the same name and is idempotent.
* The recursion of `buildIndexDiff` over parent indexes and of the partition roots carries fuel, the number of indexes
  plus one or two.
* View options are compared as maps.
* Hazard messages are not kept; hazard types are.

### What is modelled, by file of /repo

| Source | Model | Left out |
|---|---|---|
| internal/graph/graph.go | `Model/Graph` | text of errors |
| internal/graph/encode_dot.go | `Model/Dot` | errors of the writer |
| internal/set/set.go | `Model/GoSet` | |
| internal/pgidentifier/identifier.go | `Model/Identifier` | Unicode classes of the regular expression beyond ASCII |
| internal/concurrent/*.go | `Model/Future`, `Model/Process` | semaphore and wait group of the libraries (assumed) |
| internal/util/closer.go | `Model/Effect` | |
| internal/schema/filters.go | `Model/Filters` | |
| internal/schema/schema.go | `Model/Schema`, `Normalize`, `Fetch`, `Escape` | the SQL of the queries |
| internal/queries/*.go | rows in `Model/Fetch` | SQL text, scanning |
| pkg/schema, pkg/sqldb, pkg/log | through the functions they wrap | logging |
| pkg/diff/*.go | `Model/Plan`, `Generate`, `DiffLists`, `SqlGraph`, `Statement`, `Ddl`, `DataPack`, `RandomId`, `SchemaFiles`, `Gen/*` | texts of hazard messages and errors |
| pkg/tempdb/factory.go | `Model/TempDb`, `Model/Effect` | driver |
| cmd/pg-schema-diff/{plan,apply,dump}_cmd.go, flags.go, sql.go, datastructs.go | `Model/Cli`, `Output`, `Json`, `Effect` | cobra, flag registration, colours, reading of files |
| cmd/pg-schema-diff/{main,version_cmd}.go | – | not modelled |
| internal/pgdump, internal/pgengine, scripts, acceptance tests | – | used by tests only; not modelled |

Libraries (encoding/json, encoding/base64, strconv, uuid, go-cmp) are modelled as far as their results are used; the hash of
`hashstructure` is a parameter.

### Fetching and concurrency

* A database is the answers its queries give (`Db`): the SQL of internal/queries and the JSON decoder are not modelled, and
  an answer does not change during the fetch. Rows keep the columns the code reads.
* `Fetch` is a small program syntax (query, sequence, fork of futures on a runner). `Fetch.process` is its interleaving
  semantics: submission under the limit, one goroutine per future, a channel of capacity 1, cancellation at any point. The
  semaphore of golang.org/x/sync is assumed to hand out at most its size. `Fetch.eval` is the sequential result.
* NUL characters do not occur in schema names (C45), as in Postgres.

### Effects

* A panic while the root connection is being closed after `Create` succeeded leaks the database; C39 excludes it
  (`NoClosePanic`).
* C43 is stated for schemas whose lists have distinct keys; `C43_distinct_names_needed` shows why. Table privileges granted
  by several grantors can tie in practice.

### What the Postgres specs leave out

* Rejections that depend on the rows of a table (`SET NOT NULL` over NULLs, casts of values, the last value of a
  sequence).
* Effects on an object of statements that do not name it (`ADD PRIMARY KEY USING INDEX` makes columns NOT NULL).

### Where statements stand in a plan

* `DiffRun`, `PlanRun`, `TableRun`, `BaseRun` (Lemmas) unfold a successful run of the generator: the diff, the partial graphs of each
  family of objects, the graph of one table's columns, checks, policies and privileges, and the statements in order.
* `GraphShape`, `BaseShape` list every form a statement of a vertex can take. `AllBefore P Q l` says that no statement with `Q` precedes
  one with `P`; it follows from a path of declared dependencies between the vertices that can emit them.
* A dependency on a vertex that does not exist adds a vertex without statements, so paths through missing objects count.

### Machines

Convergence is stated with small machines in `Verif/Spec` that follow one object through a list of statements: a step returns the next
state, or nothing when Postgres would refuse the statement. `runWith` folds them. Each machine sees the whole plan, so a statement about
another object that would destroy the one in view (a dropped table, column or owner) counts. Machines exist for sequences
(`Spec/Sequence`), check constraints (`Spec/Check`), columns, columns of partitions, the tree of tables, indexes, foreign keys,
routines, triggers, views, enums, extensions, policies, privileges and replica identities. Two more look at a
column together with the views that read it and with the policies of its table (`Spec/ViewColumn`, `Spec/PolicyColumn`).
`Spec/Database` puts them together (C95): a statement is accepted if every machine accepts it.

Random names: C21, C65, C90, C95 and C97 ask only that the values drawn for one plan differ (`DrawsDiffer`).

* The machine for check constraints keeps expression, inheritance and validity, drops the constraint with its table or with a column it
  mentions, and refuses to add over an existing one or to drop or validate a missing one. What an expression mentions is a parameter.
* The machine for indexes exists in two forms: one looks at a name (`runName`), the other follows an index through its renames
  (`runObject`). An index goes with its table, materialized view, constraint or any column it uses; `DROP INDEX` refuses one that backs
  a constraint. The columns a definition uses, and the index that `ADD CONSTRAINT` without `USING INDEX` builds, are parameters.
* C21 reads constraint texts with a parser that is a parameter, related to the small language of `Spec/Expr`.

## Plan per property

| Property | Model | Proof |
|---|---|---|
| C01 C02 C03 C05 | `Model/Graph` (graph.go), `Model/SqlGraph` (partials, merge, filler vertices) | loop invariant of the Kahn loop: remaining in-degree counts = edges from remaining vertices |
| C04 | same, plus `diffLists`, `Set.Values` | result of each selection depends on the set of sources only |
| C06 | `Model/Graph` ops, copy as value / heap of graphs | refinement to (finite set of ids, edge relation) |
| C07 C10 C11 | `Model/Escape`, `Spec/Lexer` (quoted identifier / literal lexer) | lexer after quoting is identity, hence injectivity |
| C08 C09 | `Model/DiffLists`, `Model/GoSet` | induction over the lists |
| C12 C13 | `Model/Enum`, `Spec` execution of ADD VALUE | induction from the last label; counterexample for C13 |
| C14 C15 C16 C17 C18 C27 | full generator model `Model/Gen*` | "every statement satisfies" closure lemmas through generators, graph and sort |
| C19 C20 C26 | column / sequence generators, `Spec` column machine | case analysis on the generated list |
| C21 C23 C25 | table alteration with local graph | C01/C02 instantiated with generated dependencies |
| C22 | recogniser of `isNotNullCCRegex`, three valued evaluation of check expressions | counterexample, partial for the intended shape |
| C24 | policy generator, `Spec` policy machine | case analysis |
| C28 C56 C57 C58 | dependencies of the generators + C01 | dependency membership then C01 |
| C29 C59 | name generation, base64 encoder | arithmetic, injectivity of base64 |
| C30 C31 | plan on a slice heap (array, len, cap) | direct; counterexample for C31 |
| C32 C35 C36 C37 C38 | CLI functions | induction |
| C33 C34 | `runPlan` against an arbitrary environment, trace of executed commands | induction; counterexample for C34 |
| C39 C40 C48 | defer/panic semantics, step oracle | case analysis over failure points |
| C41 | `Generate` with abstract database environment | unfolding of success path |
| C42 | heap of index constraints (pointers) | counterexample, partial when no partitioned index constraint changes locality |
| C43 C44 | `Normalize`, structural hash as an injective parameter | uniqueness of sorted permutations |
| C45 | filters, the whole fetch | the filtered fetch is the restriction of the unfiltered fetch |
| C61 | `Model/Process`, `Model/Fetch` | compositional invariant, progress and measure of every `Fetch` program |
| C46 C47 | step relations of future/limiter | invariants over all traces |
| C49 C50 | string functions | direct |
| C51 C52 | transforms | permutation lemmas |
| C53 C54 | full generator model | self-diff under stated conditions; counterexamples for C54; what is refused for being there (pieces of partitions, checks that call functions) is refused in every pair of schemas |
| C62 | names as bytes (`Model/Identifier`) | counterexample: a name cut inside a character |
| C63 C66 | dependencies of the generators | a cycle of declared dependencies, for every schema with the stated difference |
| C64 | sequence generator | counterexample |
| C65 | graph of one table, `Spec/Check` | the statements about one constraint in order, then the machine |
| C55 C67 C68 | index and rename generators, `Spec/Index` | the statements about one name in order, then the machine; counterexamples |
| C69 C70 | foreign key generator, `Spec/ForeignKey`, `Spec/Index` | fate of one foreign key, its statements ordered against drops of tables, columns and indexes; counterexample for C70 |
| C71 | table and column generators, `Spec/Columns` | fate of one table, then the statements about one column in order, then the machine |
| C72 | column generator, `Spec/ColumnOrder` | the machine on additions and removals in any order; counterexample |
| C73 | function and procedure generators, `Spec/Routine` | what a plan does about one name (`Lemmas/PlanFate`); the order of drops and creations; counterexamples |
| C74 | trigger generator, `Spec/Trigger` | what a plan does about the table (`Lemmas/TableOps`) and the trigger, and in which order; counterexamples |
| C75 | function and trigger generators, graph order, `Spec/FunctionUse` | declared edges put users between CREATE and DROP of a function, and induction over the prefixes of the plan; the greedy order puts source vertices before tables; counterexamples |
| C76 | view and materialized view generators, graph order, `Spec/View` | one fate per kind from the list diff, DROP before CREATE from declared edges (through the vertex of a common table when the kind changes), statements on other names skipped; counterexamples for each two kinds |
| C77 | all generators' dependencies, graph order, `Spec/Acyclic` | every declared edge (`PlanEdge`) goes up in a lexicographic rank of vertices; a second rank for the graph within a table; every other step fails with other errors only (`Lemmas/Plain`); circles of owners and of calls are circles of declared edges |
| C78 | `GetSchema` with options, all diffs, `Spec/FilterPlan` | a plan from a schema to itself needs the table of every view dependency and the parent of every index (`self_plan_needs`); conversely the restriction is plannable; through C45 to the options |
| C79 | `NamedSchemaGen`, `ExtensionGen`, `assemble`, the drops of all generators, `Spec/Namespace` | two machines (a schema with what it holds; an extension with schema and version); creations come first and removals last in `assemble`; everything held is deleted by its diff, so its drop is in the plan |
| C80 | all vertex generators, `Spec/TableUse` | a machine (the table is there or not); every statement that needs the table is in the vertex of the table, behind it, before its removal, or about a table that is only altered |
| C81 | `policy_sql_generator.go`, `columnSQLVertexGenerator`, `Spec/PolicyColumn` | a machine (is the column there, what is the policy); the guards hold at every split of the plan by the edges column → policy, DROP POLICY → column, ALTER POLICY → DROP COLUMN |
| C82 | `replicaIdentityAlterType`, `tableSQLVertexGenerator`, `Spec/Replica` | a machine (the kind of identity); the only statements about it are CREATE TABLE and the one of the alteration; the index is followed with the machine of C68 |
| C83 | `Json.write` (what encoding/json prints), `Json.statement`, `planToJson`, `Spec/Json` (a reader) | the reader is run on the written text, by induction on its fuel; injectivity follows |
| C84 | `planToPretty`, `statementToPretty`, `header`, `planToSql` | direct, with the lemmas of the core library about decimal digits; `Duration.String` is a parameter |
| C85 | `generateDump`, `dumpToSql`, `generate`, `Factory.create` | calls and their histories as in C39; the script is read with the reader of C36; no concurrent index operation by C18 |
| C86 | `generate`, `assertValidPlan`, `getSchemaFromDdl`, `Factory.create`, `generatePlan`, `Spec/Written` | pre- and postconditions over histories of calls (`Lemmas/Guard`) |
| C87 | `enumSQLGenerator`, `schemaSQLGenerator.Alter`, `Spec/TypeUse` | the machines of C12 and C71 side by side: the type of a column is always that of one of the schemas; types come before the graph of statements and go after it |
| C88 | `columnSQLVertexGenerator.Add`, `foreignKeyConstraintSQLVertexGenerator.Add`, `indexSQLVertexGenerator.Add`, `Spec/Stall` | which statements go over which tables under which locks is taken from the manual of Postgres; tables that the diff adds or recreates do not survive, by induction over their parents; case analysis over the shapes of statements |
| C89 | `alterPartition`, `alterBaseTable`, `GetAddAlterDependencies`, `Spec/PartColumns` | the column of the partition is kept beside that of the table: an alteration Postgres accepts on the table is accepted on the partition; the statements on the table come first since the partition depends on it; case analysis over NOT NULL before and after |
| C90 | `tableSQLVertexGenerator.Add`, `attachPartitionSQLVertexGenerator`, `Spec/Attach` | all statements on the columns and check constraints of the table and of the partition are before ATTACH PARTITION, since it depends on both; so both are as at the end of the plan, where C71 and C65 apply; new partitions get the check constraints of the table |
| C91 | `buildTableDiff`, `tableSQLVertexGenerator`, `attachPartitionSQLVertexGenerator`, `Spec/Forest` | a machine on all tables at once, where DROP TABLE takes what is below; the state after each prefix of a plan is given in closed form by what the prefix creates, attaches and drops, from the order of the statements; every plan that leaves a partition under a table made anew loses it |
| C92 | `buildIndexDiff`, `indexSQLVertexGenerator`, `attachPartitionSQLVertexGenerator`, `Spec/IndexLink` | the statements of a plan that create or attach one index are given in closed form; the comparison of indexes does not depend on where its recursion comes from nor on what it wrote through the pointer (`Lemmas/IndexDet`), so that an index that stays has a parent that stays; every plan that adds a constraint to an existing partition that is partitioned leaves it unattached |
| C93 | `buildIndexDiff`, `indexSQLVertexGenerator`, `foreignKeyConstraintSQLVertexGenerator`, `checkConstraintSQLVertexGenerator`, `Spec/Kind` | each refused statement comes from an index, key or check of a table of the target whose kind the generator has looked up; for a table that changed its kind the diff deletes the old one, and its deletion is declared before the table is made, hence before its indexes and keys |
| C94 | `indexSQLVertexGenerator.GetAddAlterDependencies`, `GetDeleteDependencies`, `addDepsOnRelationAddAlterIfNecessary`, `tableSQLVertexGenerator.GetAddAlterDependencies`, `Spec/IndexColumns` | tables depend on those above, indexes on their tables, so every statement about columns is declared before the index; an index whose column goes cannot be kept by the diff, and its deletion is declared before the change of its table and of the table above; witnesses with three levels for the rest |
| C95 | all of `Generate`; `Spec/Database` | a catalog is a function from parts to their states, a statement is accepted if all parts accept it; running the catalog is running each part, and each part is one of the convergence theorems, whose hypotheses are derived from one description of a sound schema and one of harmless changes; sample plan of 55 statements that changes something of every kind |
| C96 | `EncodeDOT`, `dotBuilder`, `Spec/Dot` | a reader of DOT with the escapes of Go inverts the writer line by line; numbers of nodes are places in the list of ids, hence distinct; sorted lists with the same elements are equal |
| C97 | `Spec/PartCheck` | every statement that the machine of C65 accepts on the table is accepted by the machine of the pair, which keeps the partition's copy equal to the table's; statements about the partition itself are of `alterPartition`, which has none about constraints |
| C98 | `Spec/ViewColumn` | the column runs as in C71 and the name as in C76; views are made after all statements about the tables they read, and dropped before them if they are dropped at all; a plan that drops what a view reads drops the view |
| C99 | `Spec/TriggerColumn` | the column runs as in C71 and the trigger as in C74; triggers are made after all statements about the columns of their table; triggers that go are dropped before any column is struck; triggers that stay are not touched before |
| C100 | `Spec/GeneratedColumn` | the base column runs as in C71; a generated column is added to a table that stays only if the base column is there and is not dropped; statements that strike the base column are excluded by the hypotheses; at the end the generated column is as the statements that made it say, which is as the target says |
| C101 | `Spec/ViewRebuild` | the loop over the dependencies finds something exactly if a table or a column that the view reads goes (C08 for tables and for columns); the comparison of the normalized views is equality up to order (C43); what is then in the plan is the fate of the view (C76) |
| C102 | `Spec/Data` | every statement of the plan belongs to a vertex (shape); a DROP TABLE comes from a deleted table and a DROP COLUMN from a deleted column of an altered table; deleted means gone or to be made again (C08) |
| C103 | `Spec/IndexRebuild` | the comparison of two indexes is equality up to what can be changed in place; the recursion over the parents finds a change exactly if there is one up the chain, whatever it wrote before (`Lemmas/IndexDet`); an index is built, dropped or renamed only by its own vertex (C67) |
| C104 | `Spec/FkRebuild` | the attempt to alter succeeds exactly if the two are equal or one is validated; a table is new exactly if it comes (`comes_iff`, C103); what is then in the plan is the fate of the foreign key (C69) |
| C105 | `Spec/TableQuiet` | a table that is the same is neither added, deleted nor recreated, and altering it gives no statements (`tableAlter_nil`, C52); a statement about the table belongs to its vertex |
| C106 | `Spec/Touched` | namesakes are altered and never deleted (`pairDiff_adds`, `pairDiff_deletes`, `pairDiff_alters`), triggers and owned sequences are recreated exactly with their tables (`comes_iff`, C103); altering gives statements exactly if the two differ |
| C107 | `Spec/ColumnQuiet` | columns are never recreated (`never_adds`, `never_deletes`); the shapes of statements for columns (`ColumnShape`) carry what differs |
| C108 | `Spec/PieceQuiet` | what is in both lists is added or deleted only if it is recreated (`remade_of_listed`); a policy is recreated only if `Alter` is not implemented for the difference (`PolicyGen.remade`) |
| C109 | `Spec/OuterTouched` | the statements of the three generators without vertices, both ways (`mem_concatMapM`, `mem_concatMapM_of`); nothing from the graph is about them (`GraphShape.inner`) |
| C110 | `Spec/TableSwitch` | the statements of the table that are in the plan are those of its alteration, in order (`plan_table`); of these, one for each switch (`TableRun.switch`) |
| C111 | `Spec/TableTouched` | at most one statement makes or drops a table (`creates_once`, `drops_once`), of a table that is listed (`created_vertex`, `dropped_vertex`, `comes_iff`, `goes_iff`); the columns are those of `diffLists` without recreation (`never_adds`, `never_deletes`) |
| C112 | `Spec/Attach`, `Spec/TableTouched` | the tables attached are those added (`attached_vertex`, `PlanRun.attaches_added`), which are those that come (`comes_iff`); a kept table went through `alterPartition` and `buildTableDiff` |
| C113 | `Spec/Privilege` | the privileges added and deleted by the diff are the two set differences (`privileges_diff_mem`), and the statements on privileges are those of the diff (`alter_privileges`) |
| C114 | `Spec/PolicyTouched` | what the diff decides about one name (`diffLists_decision`), and that a policy is altered exactly if it can be (`PolicyGen.remade`, `PolicyGen.not_remade`) |
| C60 | walk over a directory tree | induction over the tree |

Properties which the code violates (C13, C21, C22, C25, C26, C28, C31, C34, C42, C52-C58, C62-C64, C66, C67, C70, C72, C73, C74, C75, C76, C77, C78, C79, C80, C81, C82, C83, C84, C87, C88, C89, C91, C92, C94, C97, C98, C99, C100) get a proved
negation with a concrete witness and a `_partial` theorem with the weakest condition found.
