{
 "claims": [
  {
   "property": "C01",
   "status": "proved",
   "theorems": [
    "Verif.Graph.C01_sort_topological",
    "Verif.C01_order_respects_dependencies",
    "Verif.C01_order_respects_chains"
   ],
   "note": "sorting and the whole build-graph-then-order pipeline"
  },
  {
   "property": "C02",
   "status": "proved",
   "theorems": [
    "Verif.C02_order_is_permutation",
    "Verif.C02_vertex_statements_stay_together"
   ],
   "note": ""
  },
  {
   "property": "C03",
   "status": "proved",
   "theorems": [
    "Verif.Graph.C03_sort_fails_iff_cyclic",
    "Verif.C03_order_fails_iff_cyclic"
   ],
   "note": ""
  },
  {
   "property": "C04",
   "status": "proved",
   "theorems": [
    "Verif.C04_diffLists_deterministic",
    "Verif.Graph.C04_sort_deterministic",
    "Verif.C04_order_deterministic"
   ],
   "note": "graph sort, statement ordering, diffLists and Set.Values"
  },
  {
   "property": "C05",
   "status": "proved",
   "theorems": [
    "Verif.Graph.C05_sort_greedy",
    "Verif.C05_plan_greedy"
   ],
   "note": ""
  },
  {
   "property": "C06",
   "status": "proved",
   "theorems": [
    "Verif.Graph.C06_history_refines",
    "Verif.Graph.C06_refusals"
   ],
   "note": "any history of operations refines the finite digraph; copy is modelled by value"
  },
  {
   "property": "C07",
   "status": "proved",
   "theorems": [
    "Verif.C07_qualified_name_injective",
    "Verif.C07_unescaped_name_injective",
    "Verif.C07_vertex_id_injective"
   ],
   "note": "ids are injective for the vertex kinds used by the code and names that went through the quoting functions"
  },
  {
   "property": "C08",
   "status": "proved",
   "theorems": [
    "Verif.C08_succeeds_iff",
    "Verif.C08_duplicate_old",
    "Verif.C08_classification",
    "Verif.C08_every_object_once"
   ],
   "note": ""
  },
  {
   "property": "C09",
   "status": "proved",
   "theorems": [
    "Verif.GoSet.C09_add",
    "Verif.GoSet.C09_new",
    "Verif.GoSet.C09_has",
    "Verif.GoSet.C09_values",
    "Verif.GoSet.C09_values_deterministic",
    "Verif.GoSet.C09_difference"
   ],
   "note": ""
  },
  {
   "property": "C10",
   "status": "proved",
   "theorems": [
    "Verif.C10_identifier_read_back",
    "Verif.C10_identifier_exact",
    "Verif.C10_identifier_injective"
   ],
   "note": ""
  },
  {
   "property": "C11",
   "status": "proved",
   "theorems": [
    "Verif.C11_literal_read_back",
    "Verif.C11_literal_exact",
    "Verif.C11_literal_injective"
   ],
   "note": ""
  },
  {
   "property": "C12",
   "status": "proved",
   "theorems": [
    "Verif.C12_enum_migration"
   ],
   "note": ""
  },
  {
   "property": "C13",
   "status": "partial",
   "theorems": [
    "Verif.C13_label_order_partial",
    "Verif.C13_label_order_violated"
   ],
   "note": "Proved as an equivalence: the labels end in the target's order if and only if a label is removed (the type is recreated) or the old labels keep their relative order. Refuted in general: labels that change places give an empty plan."
  },
  {
   "property": "C14",
   "status": "proved",
   "theorems": [
    "Verif.C14_destructive_statements_flagged"
   ],
   "note": ""
  },
  {
   "property": "C15",
   "status": "proved",
   "theorems": [
    "Verif.C15_timeouts_bounded"
   ],
   "note": ""
  },
  {
   "property": "C16",
   "status": "proved",
   "theorems": [
    "Verif.C16_only_privileges_skip_validation"
   ],
   "note": ""
  },
  {
   "property": "C17",
   "status": "proved",
   "theorems": [
    "Verif.C17_new_table_raises_no_hazards"
   ],
   "note": ""
  },
  {
   "property": "C18",
   "status": "proved",
   "theorems": [
    "Verif.C18_no_concurrent_index_ops",
    "Verif.C18_index_builds_concurrent",
    "Verif.C18_index_drops_concurrent"
   ],
   "note": ""
  },
  {
   "property": "C19",
   "status": "partial",
   "theorems": [
    "Verif.C19_column_alteration_partial",
    "Verif.C19_case_violated",
    "Verif.C19_generated_violated",
    "Verif.C19_identity_violated",
    "Verif.C19_default_violated"
   ],
   "note": "Proved for every altered column of a table that is no partition, except: types or collations that differ in case only, generated columns that become ordinary ones, identities whose bounds do not fit the old type, old defaults that cannot be cast to the new type. A witness refutes the property for each of these. Missing: columns of partitions, which change through the parent."
  },
  {
   "property": "C20",
   "status": "partial",
   "theorems": [
    "Verif.C20_type_statements_flagged",
    "Verif.C20_type_change_flagged_partial",
    "Verif.C20_case_violated"
   ],
   "note": "Every statement that changes a type is flagged, in every plan; every changed type gives such a statement, except for changes in case only (refuted: no statement at all) and columns of partitions."
  },
  {
   "property": "C21",
   "status": "partial",
   "theorems": [
    "Verif.C21_not_null_is_covered_partial",
    "Verif.C21_temporary_is_dropped_partial",
    "Verif.C21_partition_violated",
    "Verif.C21_newline_violated",
    "Verif.C21_recognised_violated"
   ],
   "note": "Covered for tables that are not partitions and constraints whose text is free of quotes and of functions that accept NULL: whenever SET NOT NULL runs, a valid constraint that excludes NULL is in force, and temporaries are gone at the end. Violated for partitions, for column names with a newline and for constraints that are recognised but admit NULL."
  },
  {
   "property": "C22",
   "status": "partial",
   "theorems": [
    "Verif.C22_recognised_check_partial",
    "Verif.C22_quoted_violated",
    "Verif.C22_not_strict_violated"
   ],
   "note": "Recognised checks are sound for column names that need no quotes and conditions built from strict functions, in a small expression language with three-valued logic (Spec/Expr). Two witnesses show the general claim false: a quoted name that contains ` OR `, and a call of a function that is not strict, `num_nulls(foo) IS NOT NULL`."
  },
  {
   "property": "C23",
   "status": "proved",
   "theorems": [
    "Verif.C23_row_level_security_around_policies",
    "Verif.C23_row_level_security_becomes_that_of_the_target"
   ],
   "note": ""
  },
  {
   "property": "C24",
   "status": "proved",
   "theorems": [
    "Verif.C24_policies_become_those_of_the_target"
   ],
   "note": ""
  },
  {
   "property": "C25",
   "status": "partial",
   "theorems": [
    "Verif.C25_privileges_become_those_of_the_target_partial",
    "Verif.C25_role_named_public_violated"
   ],
   "note": "Proved for every table of the new schema if no role is called PUBLIC and no privilege contains a colon. Refuted for a role called PUBLIC."
  },
  {
   "property": "C26",
   "status": "partial",
   "theorems": [
    "Verif.C26_sequences_converge_partial",
    "Verif.C26_unchanged_sequence",
    "Verif.C26_partition_owner_violated"
   ],
   "note": "C26_sequences_converge_partial runs the whole plan on the state of one sequence (Spec/Sequence: created, altered, owned, gone with its table, its column or a dropped parent) and ends in exactly the target, for every plan. Hypotheses: names of the new schema are unique, owners exist, no owner is a partition; C26_partition_owner_violated shows the last one is needed. C26_unchanged_sequence: an unchanged sequence is not mentioned unless the table that owns it is recreated."
  },
  {
   "property": "C27",
   "status": "proved",
   "theorems": [
    "Verif.C27_plan_phases"
   ],
   "note": ""
  },
  {
   "property": "C28",
   "status": "partial",
   "theorems": [
    "Verif.C28_built_before_dropped_partial",
    "Verif.C28_renamed_before_built",
    "Verif.C28_dropped_after_rename",
    "Verif.C28_no_gap_partial",
    "Verif.C28_no_gap_violated"
   ],
   "note": "The rename before the build and the rename before the drop are proved for every plan (C28_renamed_before_built, C28_dropped_after_rename). That the new index is built before any index is dropped is proved when the plan drops nothing but indexes, the old indexes keep their columns and none is on a materialized view. It is false in general: C28_no_gap_violated gives a plan that drops the old index, then a column, then builds the new index."
  },
  {
   "property": "C29",
   "status": "proved",
   "theorems": [
    "Verif.C29_renamed_index_fits",
    "Verif.C29_renamed_index_keeps_prefix",
    "Verif.C29_renamed_indexes_differ",
    "Verif.C29_temporary_constraint_fits",
    "Verif.C29_temporary_constraints_differ",
    "Verif.C29_constraint_is_no_index",
    "Verif.C29_renamed_index_bytes_fit",
    "Verif.C29_plan_renames_fit",
    "Verif.C29_plan_renames_differ"
   ],
   "note": "Generated names have at most 63 bytes, differ from each other when the random identifiers differ, and never equal a constraint name; proved for the functions and for whole plans."
  },
  {
   "property": "C30",
   "status": "proved",
   "theorems": [
    "Verif.C30_insert_statement",
    "Verif.C30_insert_statement_list",
    "Verif.C30_insert_statement_nth"
   ],
   "note": ""
  },
  {
   "property": "C31",
   "status": "partial",
   "theorems": [
    "Verif.C31_insert_statement_partial",
    "Verif.C31_insert_statement_violated"
   ],
   "note": "Proved for insertions at the end and for arrays without spare capacity. Refuted otherwise: with spare capacity an insertion shifts the receiver's statements in place."
  },
  {
   "property": "C32",
   "status": "proved",
   "theorems": [
    "Verif.C32_statement_timeout",
    "Verif.C32_lock_timeout",
    "Verif.C32_last_match"
   ],
   "note": ""
  },
  {
   "property": "C33",
   "status": "proved",
   "theorems": [
    "Verif.C33_apply_prefix",
    "Verif.C33_executed_prefix",
    "Verif.C33_stops_at_failure"
   ],
   "note": ""
  },
  {
   "property": "C34",
   "status": "partial",
   "theorems": [
    "Verif.C34_timeouts_partial",
    "Verif.C34_lock_timeout_violated"
   ],
   "note": "Proved: the statement timeout is the right one, and the lock timeout is set to the statement timeout. Refuted in general: LockTimeout is never used (apply_cmd.go:149)."
  },
  {
   "property": "C35",
   "status": "proved",
   "theorems": [
    "Verif.C35_refuses_iff",
    "Verif.C35_lists_offending",
    "Verif.C35_suggested_types",
    "Verif.C35_refused_runs_nothing",
    "Verif.C35_allowed_runs"
   ],
   "note": ""
  },
  {
   "property": "C36",
   "status": "proved",
   "theorems": [
    "Verif.C36_script",
    "Verif.C36_text"
   ],
   "note": ""
  },
  {
   "property": "C37",
   "status": "proved",
   "theorems": [
    "Verif.C37_timeout_modifier",
    "Verif.C37_insert_statement"
   ],
   "note": ""
  },
  {
   "property": "C38",
   "status": "proved",
   "theorems": [
    "Verif.C38_exactly_one_source"
   ],
   "note": ""
  },
  {
   "property": "C39",
   "status": "proved",
   "theorems": [
    "Verif.C39_create_cleans_up",
    "Verif.C39_close_drops",
    "Verif.C39_generate_cleans_up",
    "Verif.C39_get_schema_cleans_up",
    "Verif.C39_generatePlan_cleans_up"
   ],
   "note": ""
  },
  {
   "property": "C40",
   "status": "proved",
   "theorems": [
    "Verif.C40_generate_only_temporary",
    "Verif.C40_factory_only_temporary",
    "Verif.C40_names_need_no_quoting"
   ],
   "note": ""
  },
  {
   "property": "C41",
   "status": "proved",
   "theorems": [
    "Verif.C41_validated_plan_migrates",
    "Verif.C41_no_factory"
   ],
   "note": ""
  },
  {
   "property": "C42",
   "status": "partial",
   "theorems": [
    "Verif.C42_hash_of_current_partial",
    "Verif.C42_hash_of_current_violated"
   ],
   "note": "Proved unless a constraint backed by an index changes from local to inherited. Refuted then: buildIndexDiff writes to the fetched schema before it is hashed."
  },
  {
   "property": "C43",
   "status": "proved",
   "theorems": [
    "Verif.C43_hash_ignores_order",
    "Verif.C43_normalize_keeps",
    "Verif.C43_normalize_idempotent",
    "Verif.C43_distinct_names_needed"
   ],
   "note": ""
  },
  {
   "property": "C44",
   "status": "proved",
   "theorems": [
    "Verif.C44_hash_detects_changes"
   ],
   "note": ""
  },
  {
   "property": "C45",
   "status": "proved",
   "theorems": [
    "Verif.C45_overlap_rejected",
    "Verif.C45_fetched_iff_wanted",
    "Verif.C45_table_fetched_iff"
   ],
   "note": ""
  },
  {
   "property": "C46",
   "status": "proved",
   "theorems": [
    "Verif.C46_get_returns_the_result",
    "Verif.C46_all_gets_agree",
    "Verif.C46_sends_never_block",
    "Verif.C46_no_deadlock",
    "Verif.C46_steps_bounded",
    "Verif.C46_result_stays"
   ],
   "note": ""
  },
  {
   "property": "C47",
   "status": "proved",
   "theorems": [
    "Verif.C47_at_most_limit_run",
    "Verif.C47_slots_are_reused",
    "Verif.C47_holders_move_on",
    "Verif.C47_refused_never_runs"
   ],
   "note": ""
  },
  {
   "property": "C48",
   "status": "proved",
   "theorems": [
    "Verif.C48_cleanup_on_failure_only",
    "Verif.C48_nested"
   ],
   "note": ""
  },
  {
   "property": "C49",
   "status": "proved",
   "theorems": [
    "Verif.C49_parses_exactly",
    "Verif.C49_last_value_counts",
    "Verif.C49_error_iff"
   ],
   "note": ""
  },
  {
   "property": "C50",
   "status": "proved",
   "theorems": [
    "Verif.C50_concurrent_index",
    "Verif.C50_replace_trigger",
    "Verif.C50_other_shapes"
   ],
   "note": ""
  },
  {
   "property": "C51",
   "status": "proved",
   "theorems": [
    "Verif.C51_data_packing",
    "Verif.C51_new_table_columns"
   ],
   "note": "On a heap of arrays (C51_data_packing): no array the caller holds is written, for any sort and any spare capacity. In plans (C51_new_table_columns): the only CREATE TABLE of a new table lists exactly its columns, with the option from the largest to the smallest, without it in their order."
  },
  {
   "property": "C52",
   "status": "partial",
   "theorems": [
    "Verif.C52_order_ignored",
    "Verif.C52_order_respected_partial",
    "Verif.C52_order_respected_violated",
    "Verif.C52_order_ignored_succeeds"
   ],
   "note": "Order ignored: a plan between schemas that differ in column order only is empty (all schemas, all options with the order ignored). Order respected: a kept column of a table altered in place that moved makes planning fail; violated for partitions, whose column positions are never compared (sql_generator.go:1063-1127)."
  },
  {
   "property": "C53",
   "status": "partial",
   "theorems": [
    "Verif.C53_partition_pieces_violated",
    "Verif.C53_check_functions_violated",
    "Verif.C53_no_statements",
    "Verif.C53_self_diff_partial",
    "Verif.C53_self_diff_violated"
   ],
   "note": "A plan from a schema to itself, or to the same schema listed in another order, never has statements, whatever the schema and options. Planning succeeds for every schema without the features the library rejects (checks, policies or privileges of partitions; checks that call functions); with such a feature the self diff is an error, proved with a witness. C53_partition_pieces_violated: a partition that stays and has a check constraint, policy or privilege of its own makes planning fail in every pair of schemas. C53_check_functions_violated: so does every check constraint that calls a function on a table that stays."
  },
  {
   "property": "C54",
   "status": "partial",
   "theorems": [
    "Verif.C54_empty_plan_partial",
    "Verif.C54_generated_column_violated",
    "Verif.C54_enum_order_violated"
   ],
   "note": "The full statement is false: C54_generated_column_violated (another generation expression) and C54_enum_order_violated (labels in another order) give an empty plan for schemas that are not equal up to ordering. C54_empty_plan_partial: an empty plan implies Indistinct old new, which lists for every kind of object what the planner compares. Hypotheses: names of the new schema are unique, the partition parents of the old schema have no cycle, sequences of the old schema are not owned by partitions."
  },
  {
   "property": "C55",
   "status": "partial",
   "theorems": [
    "Verif.C55_indexes_of_tables_survive_partial",
    "Verif.C55_materialized_view_violated"
   ],
   "note": "Proved for indexes of tables that are not partitions, also when the table is dropped and created. Violated for materialized views: whenever the plan drops a view of which both schemas have the same index, the index is lost (for every such plan). Missing: indexes of partitions."
  },
  {
   "property": "C56",
   "status": "partial",
   "theorems": [
    "Verif.C56_views_dropped_first_partial",
    "Verif.C56_views_created_last",
    "Verif.C56_materialized_views_dropped_first_partial",
    "Verif.C56_materialized_views_created_last",
    "Verif.C56_views_dropped_before_what_they_use",
    "Verif.C56_materialized_views_dropped_before_what_they_use",
    "Verif.C56_view_of_partition_violated"
   ],
   "note": "Proved for all views and materialized views and the tables the statements name. Refuted for a view on a partition, which goes with its partitioned table while the view is still there."
  },
  {
   "property": "C57",
   "status": "partial",
   "theorems": [
    "Verif.C57_foreign_keys_added_after_tables",
    "Verif.C57_foreign_keys_added_after_indexes",
    "Verif.C57_foreign_keys_dropped_before_tables",
    "Verif.C57_foreign_keys_validated_partial",
    "Verif.C57_partitioned_foreign_key_violated"
   ],
   "note": "Every foreign key is added after both tables and, through its index hierarchy, after the indexes of the referenced table and of its partitions are built; dropped before either table is dropped; validated in a separate statement when not partitioned. Partitioned owning tables break the validation clause (C57_partitioned_foreign_key_violated)."
  },
  {
   "property": "C58",
   "status": "partial",
   "theorems": [
    "Verif.C58_partitions_attached_after_tables",
    "Verif.C58_created_partitions_are_attached",
    "Verif.C58_partitions_attached_after_indexes_partial",
    "Verif.C58_indexes_attached_after_partition",
    "Verif.C58_partition_of_new_table_violated"
   ],
   "note": "Attachment after both tables; after the partition's own indexes when the parent table already exists; before the index attachments. Partitions of a table created in the same plan are attached before their indexes are built (C58_partition_of_new_table_violated)."
  },
  {
   "property": "C59",
   "status": "proved",
   "theorems": [
    "Verif.C59_text_is_legal",
    "Verif.C59_no_quotes",
    "Verif.C59_text_injective",
    "Verif.C59_draws_differ",
    "Verif.C59_reads_16_bytes",
    "Verif.C59_simple_identifier_append"
   ],
   "note": ""
  },
  {
   "property": "C60",
   "status": "proved",
   "theorems": [
    "Verif.C60_reads_exactly",
    "Verif.C60_lexical_order",
    "Verif.C60_error_iff",
    "Verif.C60_directories_in_order"
   ],
   "note": ""
  },
  {
   "property": "C61",
   "status": "proved",
   "theorems": [
    "Verif.C61_schedule_independent",
    "Verif.C61_cancellation_is_an_error",
    "Verif.C61_no_deadlock",
    "Verif.C61_terminates",
    "Verif.C61_result_is_final",
    "Verif.C61_every_run_completes",
    "Verif.C61_pool_or_connection",
    "Verif.C61_no_incomplete_schema"
   ],
   "note": ""
  },
  {
   "property": "C62",
   "status": "partial",
   "theorems": [
    "Verif.C62_renamed_index_is_text_partial",
    "Verif.C62_renamed_index_is_text_violated"
   ],
   "note": "Holds when the name is cut at a character boundary (partial); violated when the cut falls inside a multi-byte character."
  },
  {
   "property": "C63",
   "status": "partial",
   "theorems": [
    "Verif.C63_same_table_owner_violated"
   ],
   "note": "Violated for every such pair of schemas, not only for a witness: the ownership change must run before the old owner's table is deleted, which must run before that table is altered, which must run before the ownership change."
  },
  {
   "property": "C64",
   "status": "partial",
   "theorems": [
    "Verif.C64_sequence_in_use_violated"
   ],
   "note": "Violated, with a witness: dropping a sequence is not ordered after altering the table whose default uses it."
  },
  {
   "property": "C65",
   "status": "partial",
   "theorems": [
    "Verif.C65_check_constraints_converge_partial"
   ],
   "note": "Proved for tables that are not partitions, with the machine of Spec/Check (one constraint of one table; columns that are dropped take constraints with them), constraint names free of NUL and apart from those of indexes and foreign keys, and names made up at random that differ from each other. Missing: partitions, whose constraints follow the parent's, and a database that refuses statements for reasons other than names."
  },
  {
   "property": "C66",
   "status": "partial",
   "theorems": [
    "Verif.C66_recreated_not_null_check_violated"
   ],
   "note": "Violated in every case it could apply to: the constraint must be dropped after the column is altered, made before it, and dropped before it is made, so the graph has a cycle and no plan is generated."
  },
  {
   "property": "C67",
   "status": "partial",
   "theorems": [
    "Verif.C67_indexes_converge_partial",
    "Verif.C67_moved_primary_key_violated",
    "Verif.C67_expression_index_violated"
   ],
   "note": "Proved for indexes of tables that are not partitions and of materialized views that are not recreated, with the machine of Spec/Index (one name; drops of tables, views, columns and constraints take indexes with them). What columns a definition uses and what index a constraint builds are parameters. Violated for a primary key whose name moves to another table (created before the old one is dropped) and for indexes on expressions when their column is dropped. Missing: partitions."
  },
  {
   "property": "C68",
   "status": "partial",
   "theorems": [
    "Verif.C68_nothing_is_left_behind_partial"
   ],
   "note": "Proved under the conditions of C67, for a random source whose values differ and schemas without names that begin like the made up ones. Missing: as for C67."
  },
  {
   "property": "C69",
   "status": "proved",
   "theorems": [
    "Verif.C69_foreign_keys_converge"
   ],
   "note": "The catalog entry of one foreign key is a state machine in Spec/ForeignKey (add, add NOT VALID, validate, drop, drops of the tables and columns, names taken by checks and index constraints). What Postgres reads out of a definition (columns, referenced table) is a parameter. Names are quoted, no name begins like a temporary one."
  },
  {
   "property": "C70",
   "status": "partial",
   "theorems": [
    "Verif.C70_index_outlives_foreign_key_partial",
    "Verif.C70_kept_foreign_key_violated"
   ],
   "note": "Proved for every foreign key that the plan drops, following the index through renames. Refuted for foreign keys that stay: replacing the unique constraint under a foreign key fails."
  },
  {
   "property": "C71",
   "status": "partial",
   "theorems": [
    "Verif.C71_tables_and_columns_converge_partial"
   ],
   "note": "Proved for tables that are no partitions before, for all names, and including partitions that are added; kept columns change in ways C19 allows (C19 refutes the others). Partitions that are there before are C89."
  },
  {
   "property": "C72",
   "status": "partial",
   "theorems": [
    "Verif.C72_column_order_partial",
    "Verif.C72_order_respected_partial",
    "Verif.C72_added_columns_violated"
   ],
   "note": "Proved: accepted, the right set of columns, kept ones first in their old order, new tables exactly; exactly the target's order if at most one column is added at the end. Refuted for two added columns."
  },
  {
   "property": "C73",
   "status": "partial",
   "theorems": [
    "Verif.C73_routines_converge_partial",
    "Verif.C73_changed_signature_violated",
    "Verif.C73_procedure_to_function_violated",
    "Verif.C73_function_to_procedure_violated"
   ],
   "note": "Proved if the name stays with its kind of routine and the signature stays. Refuted for every plan with a changed signature (CREATE OR REPLACE is rejected), for every procedure that becomes a function, and by a witness for a function that becomes a procedure."
  },
  {
   "property": "C74",
   "status": "partial",
   "theorems": [
    "Verif.C74_triggers_converge_partial",
    "Verif.C74_trigger_on_recreated_view_violated",
    "Verif.C74_trigger_on_dropped_partition_violated"
   ],
   "note": "Proved for relations that are tables and no partitions, and for views that the plan leaves alone. Refuted: every plan that recreates a view loses its triggers; a trigger of a partition that goes with its partitioned table is dropped too late (witness)."
  },
  {
   "property": "C75",
   "status": "partial",
   "theorems": [
    "Verif.C75_functions_there_while_used_partial",
    "Verif.C75_function_reading_new_table_violated",
    "Verif.C75_other_users_violated"
   ],
   "note": "Proved for triggers and functions that use functions, at every point of every plan. Refuted for the rest: a plan always creates a function without function dependencies before every table, so a function in SQL that reads a table of the same plan fails; indexes, defaults and views that call a dropped function are dropped after it (witnesses)."
  },
  {
   "property": "C76",
   "status": "partial",
   "theorems": [
    "Verif.C76_views_converge_partial",
    "Verif.C76_changed_kind_violated",
    "Verif.C76_view_on_view_violated"
   ],
   "note": "Proved for names that are views or materialized views in both schemas, also when a view becomes a materialized view (or back) and the two read a common table. Refuted for every other change of kind (12 pairs, a witness each: the new relation is created first) and for views that read views (dropped and created in the wrong order)."
  },
  {
   "property": "C77",
   "status": "partial",
   "theorems": [
    "Verif.C77_no_cycle_partial",
    "Verif.C77_circle_of_owners_violated",
    "Verif.C77_circle_of_functions_violated"
   ],
   "note": "Proved, by a rank that every declared dependency raises, for all schemas in which partitions and function calls do not go in circles, sequences that change their owner are handed over in one direction, and no valid check that ends in IS NOT NULL is replaced by another one of its name. Refuted in general: sequences handed around in a circle of tables (also within one table) and functions that call each other never get a plan, the latter even when nothing changes."
  },
  {
   "property": "C78",
   "status": "partial",
   "theorems": [
    "Verif.C78_selection_plannable_partial",
    "Verif.C78_fetched_selection_partial",
    "Verif.C78_selection_violated"
   ],
   "note": "Proved as an equivalence for what has not changed: the selection has a plan (the empty one) iff its views and materialized views only read selected tables and the parents of its indexes are selected, from the model of the schema fetch on, for every interleaving. Refuted in general by a view, a materialized view and an index of a partition, each of which makes planning fail when the other schema is not selected. Missing: plans between different schemas."
  },
  {
   "property": "C79",
   "status": "partial",
   "theorems": [
    "Verif.C79_schemas_converge",
    "Verif.C79_extensions_converge_partial",
    "Verif.C79_moved_extension_rejected",
    "Verif.C79_extensions_converge_violated"
   ],
   "note": "Schemas: proved for target schemas whose objects lie in schemas of the target. Extensions: proved where no extension moves to another schema; refuted, for every plan with such a move (C79_moved_extension_rejected): extensions are matched by qualified name, so the plan makes the extension again while the old one is still there and drops it at the end."
  },
  {
   "property": "C80",
   "status": "partial",
   "theorems": [
    "Verif.C80_tables_there_while_used_partial",
    "Verif.C80_tables_there_while_used_violated"
   ],
   "note": "Proved for every table that is no partition in the old schema, provided that what names the table in a schema names a table of that schema and that trigger names are quoted identifiers. The table that a foreign key references is read from its definition by a parameter. Refuted for partitions: the parent is dropped, taking the partition along, before DROP TRIGGER on the partition."
  },
  {
   "property": "C81",
   "status": "partial",
   "theorems": [
    "Verif.C81_policies_and_columns_partial",
    "Verif.C81_type_change_violated",
    "Verif.C81_subquery_violated"
   ],
   "note": "Proved for tables that are no partitions, provided that the recorded columns of a policy cover those its expressions mention, except for columns that change their type while a policy that mentions them stays. Refuted for those, always: if the policy is unchanged the plan is rejected. Refuted for other tables: a policy that reads another new table can be created before that table."
  },
  {
   "property": "C82",
   "status": "partial",
   "theorems": [
    "Verif.C82_replica_identities_converge_partial",
    "Verif.C82_index_identity_violated",
    "Verif.C82_lost_index_violated"
   ],
   "note": "Proved for the kind of replica identity of every table, partitions included. Refuted for identities by an index: no plan exists that gives a table one, and an index that serves as the identity is replaced by an index that does not, without a statement that restores it."
  },
  {
   "property": "C83",
   "status": "partial",
   "theorems": [
    "Verif.C83_json_reads_back_partial",
    "Verif.C83_json_injective_partial",
    "Verif.C83_short_timeout_violated"
   ],
   "note": "Proved with a JSON reader written after RFC 8259: the document reads back to the texts, hazards, hash and the timeouts in milliseconds. Refuted for timeouts below a millisecond: they are printed as 0, which means no timeout; the script and apply do the same."
  },
  {
   "property": "C84",
   "status": "partial",
   "theorems": [
    "Verif.C84_pretty_partial",
    "Verif.C84_pretty_empty",
    "Verif.C84_script_numbers_violated"
   ],
   "note": "Proved for the pretty output. Refuted for the numbers: the script counts from 0, the pretty output, the hazard message and apply from 1."
  },
  {
   "property": "C85",
   "status": "proved",
   "theorems": [
    "Verif.C85_dump_leaves_database",
    "Verif.C85_dump_is_plan",
    "Verif.C85_dump_script"
   ],
   "note": ""
  },
  {
   "property": "C86",
   "status": "proved",
   "theorems": [
    "Verif.C86_generate_writes_temporary",
    "Verif.C86_plan_writes_temporary"
   ],
   "note": ""
  },
  {
   "property": "C87",
   "status": "partial",
   "theorems": [
    "Verif.C87_types_there_partial",
    "Verif.C87_recreated_type_violated"
   ],
   "note": "Proved for every table C71 covers and every type that keeps its labels. Refuted for every type that loses a label while a column has it: it is dropped and created again before anything happens to tables, also if the column changes its type or goes."
  },
  {
   "property": "C88",
   "status": "partial",
   "theorems": [
    "Verif.C88_stalls_are_flagged_partial",
    "Verif.C88_identity_column_violated",
    "Verif.C88_volatile_default_violated",
    "Verif.C88_default_partition_violated"
   ],
   "note": "Proved for added generated columns, changed types, check constraints, foreign keys, indexes and attached partitions; SET NOT NULL is the subject of C21. Refuted for added identity columns, added columns with volatile defaults, and default partitions of tables that get another partition: Postgres goes over the rows, and no hazard is listed."
  },
  {
   "property": "C89",
   "status": "partial",
   "theorems": [
    "Verif.C89_partition_columns_converge_partial",
    "Verif.C89_own_not_null_violated",
    "Verif.C89_own_default_violated"
   ],
   "note": "Proved for partitions of tables that are no partitions themselves, both kept, with the defaults of the table; identities of the table do not show in its partitions. Refuted for columns that are NOT NULL in the partition alone if the table did not have them or had them as NOT NULL (for all such schemas), and for defaults of the partition alone that change (with a witness)."
  },
  {
   "property": "C90",
   "status": "partial",
   "theorems": [
    "Verif.C90_partitions_fit_partial",
    "Verif.C90_partitions_are_checked_partial"
   ],
   "note": "Proved for tables that are no partitions before; a table of the same name that becomes a partition is included. The columns of the target have to fit, as they do in every database; changes of kept columns that C19 refutes are left out."
  },
  {
   "property": "C91",
   "status": "partial",
   "theorems": [
    "Verif.C91_tables_and_partitions_converge_partial",
    "Verif.C91_partitions_lost_violated"
   ],
   "note": "Refuted for partitions that remain while the table they are a partition of moves to another place in the tree: that table is made anew, its partitions go with the old one, and nothing makes them again. Proved for all other plans. The trees of both schemas have to be sound (partitions of partitioned tables, no circles), as they are in every database."
  },
  {
   "property": "C92",
   "status": "partial",
   "theorems": [
    "Verif.C92_created_indexes_are_attached_partial",
    "Verif.C92_attached_once_to_the_right_index",
    "Verif.C92_indexes_after_those_of_the_table",
    "Verif.C92_kept_indexes_are_attached",
    "Verif.C92_constraints_of_partitioned_partitions_violated",
    "Verif.C92_index_in_the_middle_violated"
   ],
   "note": "Refuted for indexes which back constraints of existing partitions that are partitioned themselves: the plan builds them by ALTER TABLE ONLY ADD CONSTRAINT and never attaches them, so that the index above stays invalid. Proved for all indexes that CREATE INDEX builds and for those the plan leaves alone."
  },
  {
   "property": "C93",
   "status": "proved",
   "theorems": [
    "Verif.C93_partitioned_tables",
    "Verif.C93_formerly_partitioned"
   ],
   "note": ""
  },
  {
   "property": "C94",
   "status": "partial",
   "theorems": [
    "Verif.C94_built_on_finished_tables",
    "Verif.C94_built_on_final_columns",
    "Verif.C94_dropped_first_partial",
    "Verif.C94_deep_column_violated",
    "Verif.C94_deep_primary_key_violated"
   ],
   "note": "Building is proved in full; dropping for indexes of the table altered and of its direct partitions. Violated for partitions of partitions: an index or primary key of such a partition alone is dropped only after the column change of the root, so that DROP INDEX finds no index, or DROP NOT NULL is rejected (C94_deep_column_violated, C94_deep_primary_key_violated)."
  },
  {
   "property": "C95",
   "status": "partial",
   "theorems": [
    "Verif.C95_database_becomes_target_partial"
   ],
   "note": "Joint theorem of C12, C23-C26, C65, C67, C69, C71, C73, C74, C76, C79, C81, C82, C89, C91, C97, C98, C99 and C100 over one catalog whose every part must accept every statement. Hypotheses are about the two schemas (objects as a database can have them; none of the changes that other properties refute) and that drawn random values differ. Missing: constraints, indexes, foreign keys and triggers of partitions; columns of partitions of partitions; names made up by the tool; conditions of Postgres across parts other than those the parts state."
  },
  {
   "property": "C96",
   "status": "proved",
   "theorems": [
    "Verif.C96_drawing_shows_graph",
    "Verif.C96_cycle_is_drawn",
    "Verif.C96_drawing_deterministic"
   ],
   "note": "strconv.Quote is modelled with an arbitrary table of printable characters; errors of the writer are not (a strings.Builder has none)."
  },
  {
   "property": "C97",
   "status": "partial",
   "theorems": [
    "Verif.C97_partition_checks_converge_partial",
    "Verif.C97_not_null_is_covered_partial",
    "Verif.C97_own_checks_violated"
   ],
   "note": "Partitions of partitions are missing. Violated: a partition that stays and has a check constraint, policy or privilege of its own in either schema lets every plan fail, even if nothing changes (C97_own_checks_violated, for all such schemas)."
  },
  {
   "property": "C98",
   "status": "partial",
   "theorems": [
    "Verif.C98_views_and_columns_partial",
    "Verif.C98_type_change_violated",
    "Verif.C98_kept_view_violated"
   ],
   "note": "Proved for every column of a table that is no partition before, and every name of views (C76). Violated: a column changes its type under a view or materialized view that keeps its definition; the view is left in place and Postgres rejects ALTER COLUMN SET DATA TYPE. For views this is proved of every such plan (C98_kept_view_violated, from C101), for materialized views with a witness (C98_type_change_violated). For columns of partitions see C56_view_of_partition_violated."
  },
  {
   "property": "C99",
   "status": "partial",
   "theorems": [
    "Verif.C99_triggers_and_columns_partial",
    "Verif.C99_kept_trigger_violated"
   ],
   "note": "Proved for every column of a table that is no partition before, and every name of triggers (C71, C74). Violated, for all such plans: a column goes or changes its type while a trigger that names it has a namesake in the target; the trigger is left in place, or replaced after the columns are done, and Postgres rejects the ALTER TABLE (C99_kept_trigger_violated)."
  },
  {
   "property": "C100",
   "status": "partial",
   "theorems": [
    "Verif.C100_generated_columns_partial",
    "Verif.C100_kept_generated_violated",
    "Verif.C100_added_together_violated",
    "Verif.C100_dropped_together_violated"
   ],
   "note": "Proved for every pair of columns of a table that is no partition before, unless both come to or leave a table that stays, or the type of the base column changes (C71). Violated: a base column that goes or changes its type while the generated column stays, for all such plans (C100_kept_generated_violated); both columns added, the generated one first in the alphabet (C100_added_together_violated); both dropped, the generated one last (C100_dropped_together_violated)."
  },
  {
   "property": "C101",
   "status": "proved",
   "theorems": [
    "Verif.C101_views_made_again",
    "Verif.C101_materialized_views_made_again"
   ],
   "note": "Proved in full, as an equivalence, for views and for materialized views. The names of the tables a view reads are distinct and its options are a map, as in every fetched schema."
  },
  {
   "property": "C102",
   "status": "proved",
   "theorems": [
    "Verif.C102_data_survives"
   ],
   "note": "Proved in full. That the tables which are lost include partitions which the target keeps, if the table they belong to is made again, is C91_partitions_lost_violated. Values that a type conversion changes are not covered."
  },
  {
   "property": "C103",
   "status": "proved",
   "theorems": [
    "Verif.C103_indexes_built_again",
    "Verif.C103_indexes_left_alone"
   ],
   "note": "Proved in full, as an equivalence. The name of the index is none that the tool makes up and no other constraint has it; a constraint has the name of its index, as in every fetched schema. That indexes of a materialized view which is made again are not built again is C55_materialized_view_violated."
  },
  {
   "property": "C104",
   "status": "proved",
   "theorems": [
    "Verif.C104_foreign_keys_made_again",
    "Verif.C104_foreign_keys_left_alone"
   ],
   "note": "Proved in full. When it is made again: an equivalence for all foreign keys, also of partitions. That it is not dropped and not checked needs that no other constraint has its name, and is proved for tables that are no partitions (as C69)."
  },
  {
   "property": "C105",
   "status": "proved",
   "theorems": [
    "Verif.C105_tables_left_alone",
    "Verif.C105_constraints_left_alone"
   ],
   "note": "Proved in full, also for partitions and partitioned tables. Indexes, foreign keys and triggers on the table are objects of their own (C103, C104)."
  },
  {
   "property": "C106",
   "status": "proved",
   "theorems": [
    "Verif.C106_functions_touched",
    "Verif.C106_procedures_touched",
    "Verif.C106_triggers_touched",
    "Verif.C106_sequences_touched"
   ],
   "note": "Proved in full, as equivalences. Dropping a trigger is not part of the statement about triggers (C74, C99)."
  },
  {
   "property": "C107",
   "status": "proved",
   "theorems": [
    "Verif.C107_columns_altered_in_what_changes"
   ],
   "note": "Proved in full, also for partitions. Types are compared as strings; that the plan does compare them up to case only makes fewer statements."
  },
  {
   "property": "C108",
   "status": "proved",
   "theorems": [
    "Verif.C108_policies_altered_in_what_changes",
    "Verif.C108_privileges_granted_when_changed",
    "Verif.C108_checks_made_again_when_changed"
   ],
   "note": "Proved in full for policies, privileges and the creation of check constraints, also for partitions. Roles are compared up to order. The name of the check constraint must not begin with pgschemadiff_tmpnn_, which the plan uses for temporary constraints. Whether a constraint is dropped or validated is not told here, as the name may also be that of a foreign key or index."
  },
  {
   "property": "C109",
   "status": "proved",
   "theorems": [
    "Verif.C109_schemas_touched",
    "Verif.C109_extensions_touched",
    "Verif.C109_enums_touched"
   ],
   "note": "Proved in full. Labels are compared as sets: that a change of their order alone makes no statement is the violation of C13. Extensions are told apart by name, with schema names without NUL (ExtensionsNamed), as in PostgreSQL."
  },
  {
   "property": "C110",
   "status": "proved",
   "theorems": [
    "Verif.C110_table_switched_when_it_differs"
   ],
   "note": "Proved in full. A table is not made again if it is of the same kind and has the same parent in both schemas, as in C106-C108."
  },
  {
   "property": "C111",
   "status": "proved",
   "theorems": [
    "Verif.C111_tables_made",
    "Verif.C111_tables_dropped",
    "Verif.C111_columns_made_and_dropped"
   ],
   "note": "Proved in full. This is the converse of C102 as well: what is to go does go."
  },
  {
   "property": "C112",
   "status": "proved",
   "theorems": [
    "Verif.C112_partitions_attached_when_made",
    "Verif.C112_bounds_and_keys_kept"
   ],
   "note": "Proved in full. Partitions that are kept while their parent is made again are lost, which is the violation of C91."
  },
  {
   "property": "C113",
   "status": "proved",
   "theorems": [
    "Verif.C113_privileges_granted_and_revoked"
   ],
   "note": "Proved in full under the condition in the statement. Without it the violation of C25 applies."
  },
  {
   "property": "C114",
   "status": "proved",
   "theorems": [
    "Verif.C114_policies_made_and_dropped"
   ],
   "note": "Proved in full. It is the converse of the part of C108 on policies, and covers policies in one of the schemas only."
  }
 ]
}