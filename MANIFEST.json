{
 "claims": [
  {
   "property": "C01",
   "status": "proved",
   "theorems": [
    "Octo.C01_type_is_canonical",
    "Octo.C01_alias",
    "Octo.C01_other",
    "Octo.C01_case_insensitive",
    "Octo.C01_supported_fixed",
    "Octo.C01_alias_supported",
    "Octo.C01_idempotent"
   ],
   "note": "ToLower is modelled on ASCII."
  },
  {
   "property": "C02",
   "status": "proved",
   "theorems": [
    "Octo.C02_normalize_frame",
    "Octo.C02_column_frame"
   ],
   "note": ""
  },
  {
   "property": "C03",
   "status": "proved",
   "theorems": [
    "Octo.C03_sorted",
    "Octo.C03_schedule_independent",
    "Octo.C03_idempotent",
    "Octo.C03_stable",
    "Octo.C03_stable_idempotent"
   ],
   "note": ""
  },
  {
   "property": "C04",
   "status": "proved",
   "theorems": [
    "Octo.C04_accepts_iff",
    "Octo.C04_first_error",
    "Octo.C04_autoinc_never_error"
   ],
   "note": "Validity is an independent predicate (Spec.ValidColumn); the reported table is the first invalid one in (group, name) order."
  },
  {
   "property": "C05",
   "status": "partial",
   "theorems": [
    "Octo.C05_exact",
    "Octo.C05_violated",
    "Octo.C05_never_reports",
    "Octo.C05_load_partial"
   ],
   "note": "The code violates the claim: LoadSchema drops the error of Normalize (C05_violated). C05_load_partial covers files whose columns are all acceptable. C05_exact: what is loaded is validated if and only if every column of the file was acceptable."
  },
  {
   "property": "C06",
   "status": "proved",
   "theorems": [
    "Octo.C06_default_fn",
    "Octo.C06_onupdate_fn",
    "Octo.C06_plain",
    "Octo.C06_independent",
    "Octo.C06_plain_with_marker_misread"
   ],
   "note": "A plain value that itself starts with fn:: is misread; exactly characterised."
  },
  {
   "property": "C07",
   "status": "proved",
   "theorems": [
    "Octo.C07_round_trip",
    "Octo.C07_saves",
    "Octo.C07_load",
    "Octo.C07_stable"
   ],
   "note": "At the level of the text: what ToJson writes is read back by an independent RFC 8259 reader (Spec/Json) and decoded into the normalised schema. encoding/json is modelled, not part of /repo; invalid UTF-8 is outside the model."
  },
  {
   "property": "C08",
   "status": "proved",
   "theorems": [
    "Octo.C08_tableByName",
    "Octo.C08_tablesByName",
    "Octo.C08_columns",
    "Octo.C08_indexByName",
    "Octo.C08_agree",
    "Octo.C08_agree_columns",
    "Octo.C08_duplicates_disagree",
    "Octo.C08_findReference"
   ],
   "note": ""
  },
  {
   "property": "C09",
   "status": "proved",
   "theorems": [
    "Octo.C09_groups",
    "Octo.C09_schedule_independent"
   ],
   "note": ""
  },
  {
   "property": "C10",
   "status": "proved",
   "theorems": [
    "Octo.C10_empty",
    "Octo.C10_selects",
    "Octo.C10_all_options",
    "Octo.C10_no_trimming"
   ],
   "note": ""
  },
  {
   "property": "C11",
   "status": "proved",
   "theorems": [
    "Octo.C11_history",
    "Octo.C11_observations",
    "Octo.C11_slice",
    "Octo.C11_slice_schedule_independent",
    "Octo.C11_equals"
   ],
   "note": ""
  },
  {
   "property": "C12",
   "status": "partial",
   "theorems": [
    "Octo.C12_removal_exact",
    "Octo.C12_exact",
    "Octo.C12_keys",
    "Octo.C12_insertion_order",
    "Octo.C12_history_partial",
    "Octo.C12_violated",
    "Octo.C12_double_put_survives"
   ],
   "note": "The code violates the removal half when the value occurs more than once (C12_violated). C12_exact, C12_removal_exact: correct iff values are only removed while they occur at most once under their key."
  },
  {
   "property": "C13",
   "status": "proved",
   "theorems": [
    "Octo.C13_history",
    "Octo.C13_once",
    "Octo.C13_pure"
   ],
   "note": ""
  },
  {
   "property": "C14",
   "status": "partial",
   "theorems": [
    "Octo.C14_exact",
    "Octo.C14_parse_format",
    "Octo.C14_round_trip_partial",
    "Octo.C14_violated"
   ],
   "note": "The code violates the round trip for names not ending in a letter (C14_violated); C14_parse_format describes the result for every name without '('. C14_exact: for every column, exactly when a written type is read back."
  },
  {
   "property": "C15",
   "status": "partial",
   "theorems": [
    "Octo.C15_uniform",
    "Octo.C15_mapped",
    "Octo.C15_mapped_annotations",
    "Octo.C15_panic_iff",
    "Octo.C15_violated",
    "Octo.C15_no_panic_partial"
   ],
   "note": "The code panics on options mixing entries with and without ':' (C15_panic_iff, C15_violated)."
  },
  {
   "property": "C16",
   "status": "proved",
   "theorems": [
    "Octo.C16_by_extension",
    "Octo.C16_no_extension",
    "Octo.C16_explicit"
   ],
   "note": ""
  },
  {
   "property": "C17",
   "status": "proved",
   "theorems": [
    "Octo.C17_read_back",
    "Octo.C17_injective"
   ],
   "note": "For schemas whose texts need no escaping (Spec.PlainTable); C66 shows what happens otherwise."
  },
  {
   "property": "C18",
   "status": "proved",
   "theorems": [
    "Octo.C18_type",
    "Octo.C18_complete",
    "Octo.C18_distinct",
    "Octo.C18_sizes"
   ],
   "note": ""
  },
  {
   "property": "C19",
   "status": "partial",
   "theorems": [
    "Octo.C19_exact",
    "Octo.C19_size_partial",
    "Octo.C19_violated"
   ],
   "note": "The code violates the claim for binary and varbinary, whose size is never written (C19_violated). C19_exact: the size is written iff the type is neither of these."
  },
  {
   "property": "C20",
   "status": "proved",
   "theorems": [
    "Octo.C20_tokens",
    "Octo.C20_reads"
   ],
   "note": ""
  },
  {
   "property": "C21",
   "status": "partial",
   "theorems": [
    "Octo.C21_type_exact",
    "Octo.C21_exact",
    "Octo.C21_roundtrip_partial",
    "Octo.C21_type_partial",
    "Octo.C21_violated",
    "Octo.C21_canonical"
   ],
   "note": "The code violates the claim at bit(0/1), int8(1), sized binary, varbinary, geometry, point and varchar without size (C21_violated). C21_roundtrip_partial is the round trip of whole schemas over everything DDL can express; it relies on Spec.fieldOf, an account of the third-party SQL parser. C21_type_exact: type, size, scale and members of a column with unescaped values come back exactly when the type is portable. C21_exact: a whole schema with unescaped texts and literals of the modelled grammar comes back exactly when every selected table is expressible (Spec/Expressible.lean)."
  },
  {
   "property": "C22",
   "status": "proved",
   "theorems": [
    "Octo.C22_tables",
    "Octo.C22_panic_iff",
    "Octo.C22_excludes"
   ],
   "note": "On parsed statements; the SQL parser is third party. An index over an expression makes the importer panic (C22_panic_iff)."
  },
  {
   "property": "C23",
   "status": "partial",
   "theorems": [
    "Octo.C23_exact",
    "Octo.C23_columns_partial",
    "Octo.C23_indices",
    "Octo.C23_violated",
    "Octo.C23_unique_ignored",
    "Octo.C23_nullable_key"
   ],
   "note": "The code violates the claim: a column-level UNIQUE is ignored (C23_violated, C23_unique_ignored), and a table-level primary key does not make the column not null (C23_nullable_key). C23_columns_partial gives the exact result for every statement. C23_exact: uniqueness is imported iff every column-level UNIQUE is repeated by a table constraint."
  },
  {
   "property": "C24",
   "status": "proved",
   "theorems": [
    "Octo.C24_self_diff_empty"
   ],
   "note": ""
  },
  {
   "property": "C25",
   "status": "proved",
   "theorems": [
    "Octo.C25_ids_unique",
    "Octo.C25_author_and_content"
   ],
   "note": ""
  },
  {
   "property": "C26",
   "status": "proved",
   "theorems": [
    "Octo.C26_tables_accounted",
    "Octo.C26_no_table_twice",
    "Octo.C26_inside_changes"
   ],
   "note": ""
  },
  {
   "property": "C27",
   "status": "proved",
   "theorems": [
    "Octo.C27_table_renames",
    "Octo.C27_column_renames",
    "Octo.C27_columns_accounted"
   ],
   "note": ""
  },
  {
   "property": "C28",
   "status": "proved",
   "theorems": [
    "Octo.C28_same_changes",
    "Octo.C28_up_to_renames",
    "Octo.C28_identical",
    "Octo.C28_order_visible"
   ],
   "note": ""
  },
  {
   "property": "C29",
   "status": "partial",
   "theorems": [
    "Octo.C29_violated",
    "Octo.C29_unselected_dropped_or_renamed",
    "Octo.C29_groups_partial",
    "Octo.C29_exact"
   ],
   "note": "The code violates the claim: tables of unselected groups are reported as dropped or renamed (C29_violated). C29_exact: every change concerns a selected table iff no old table outside the selected groups lacks a selected counterpart."
  },
  {
   "property": "C30",
   "status": "partial",
   "theorems": [
    "Octo.C30_apply_partial",
    "Octo.C30_violated",
    "Octo.C30_unseen",
    "Octo.C30_exact"
   ],
   "note": "The code violates the claim: columns added to an existing table are never reported (C30_violated); C30_apply_partial covers every pair of schemas in which each new column of a kept table is matched by a vanished column of the same shape. C30_exact: the changes reproduce the new structure iff in no kept table a shape appears more often than it vanishes."
  },
  {
   "property": "C31",
   "status": "partial",
   "theorems": [
    "Octo.C31_never_reported",
    "Octo.C31_violated",
    "Octo.C31_added_partial",
    "Octo.C31_exact"
   ],
   "note": "The code violates the claim: an added column is never reported unless it is a rename (C31_never_reported). C31_exact: every new column is reported iff for every shape at least as many columns vanish as appear."
  },
  {
   "property": "C32",
   "status": "proved",
   "theorems": [
    "Octo.C32_dropped_first",
    "Octo.C32_created_last",
    "Octo.C32_only_when_changed",
    "Octo.C32_renamed_table"
   ],
   "note": ""
  },
  {
   "property": "C33",
   "status": "proved",
   "theorems": [
    "Octo.C33_whole_diff",
    "Octo.C33_attributes_exact",
    "Octo.C33_reported_once"
   ],
   "note": ""
  },
  {
   "property": "C34",
   "status": "proved",
   "theorems": [
    "Octo.C34_report",
    "Octo.C34_schedule",
    "Octo.C34_kind"
   ],
   "note": "Read back by an independent reader; items are identified by kind and subject."
  },
  {
   "property": "C35",
   "status": "partial",
   "theorems": [
    "Octo.C35_violated",
    "Octo.C35_silent_iff",
    "Octo.C35_script_partial",
    "Octo.C35_empty_script",
    "Octo.C35_exact"
   ],
   "note": "The code violates the claim: eight kinds of change produce no SQL (C35_violated, C35_silent_iff). C35_script_partial reads the whole script back for the changes whose SQL is right. C35_exact: SQL is written and says what is meant iff the change is one of SqlOk."
  },
  {
   "property": "C36",
   "status": "partial",
   "theorems": [
    "Octo.C36_violated",
    "Octo.C36_on_partial",
    "Octo.C36_exact"
   ],
   "note": "The code violates the claim for every column (C36_violated); C36_on_partial covers switching it on. C36_exact: right iff auto-increment is switched on."
  },
  {
   "property": "C37",
   "status": "proved",
   "theorems": [
    "Octo.C37_complete",
    "Octo.C37_listed",
    "Octo.C37_succeeds",
    "Octo.C37_minimal"
   ],
   "note": "C37_complete: the changes are, per selected table and in order, a createTable with the columns and separate key and unique declarations where needed; C37_minimal: no constraint is declared twice within a column; C37_listed: the listed column names; C37_succeeds: when generation cannot fail."
  },
  {
   "property": "C38",
   "status": "proved",
   "theorems": [
    "Octo.C38_generated",
    "Octo.C38_diff"
   ],
   "note": "Proved for generated and diff changelogs, every map iteration order."
  },
  {
   "property": "C39",
   "status": "partial",
   "theorems": [
    "Octo.C39_builds_partial",
    "Octo.C39_exact",
    "Octo.C39_violated",
    "Octo.C39_violated_function"
   ],
   "note": "The code violates the claim (C39_violated: no changelog at all; C39_violated_function: a function default becomes a text). C39_exact says exactly when the changelog builds the selected tables, for every database product: different table and column names, default values written as they are, names that survive being listed wherever they are listed, and a free constraint name. C39_builds_partial is a simpler sufficient condition."
  },
  {
   "property": "C40",
   "status": "partial",
   "theorems": [
    "Octo.C40_exact",
    "Octo.C40_exact_plain",
    "Octo.C40_violated_retype",
    "Octo.C40_migrates_partial",
    "Octo.C40_violated",
    "Octo.C40_violated_autoincrement",
    "Octo.C40_violated_key"
   ],
   "note": "The code violates the claim (C40_violated: first unique column; C40_violated_autoincrement; C40_violated_key; C40_violated_retype: products where changing a type drops not-null). C40_exact gives, for every database product, the exact condition on the two versions of each table (LqTableMoves), independent of map iteration order; C40_exact_plain the simpler condition for products that keep what a statement does not mention. Databases may hold further constraints that the product has named; where the unique columns of such a table change, the exact condition also has UniqueMoves."
  },
  {
   "property": "C41",
   "status": "partial",
   "theorems": [
    "Octo.C41_exact",
    "Octo.C41_drop_unique_partial",
    "Octo.C41_violated"
   ],
   "note": "The code violates the claim (C41_violated). C41_drop_unique_partial: the only other case is a table that gets its first unique column. C41_exact: iff no selected kept table gets its first unique column."
  },
  {
   "property": "C42",
   "status": "partial",
   "theorems": [
    "Octo.C42_exact",
    "Octo.C42_not_empty_partial",
    "Octo.C42_generated",
    "Octo.C42_violated"
   ],
   "note": "The code violates the claim for diffs (C42_violated). C42_not_empty_partial: only when a table loses its last unique column. C42_generated: never for generated changelogs. C42_exact: iff no selected kept table loses its last unique column."
  },
  {
   "property": "C43",
   "status": "partial",
   "theorems": [
    "Octo.C43_exact",
    "Octo.C43_generated_partial",
    "Octo.C43_diff_partial",
    "Octo.C43_violated",
    "Octo.C43_violated_function"
   ],
   "note": "The code violates the claim (C43_violated: integer defaults are text; C43_violated_function: functions). C43_generated_partial and C43_diff_partial state the field for every type. C43_exact: the default is in the field of its type iff the column is no integer or has no default."
  },
  {
   "property": "C44",
   "status": "partial",
   "theorems": [
    "Octo.C44_exact",
    "Octo.C44_placement",
    "Octo.C44_order_partial",
    "Octo.C44_violated"
   ],
   "note": "C44_placement: the placement of every added column. C44_order_partial: the order is reproduced unless the first column is new (C44_violated). C44_exact: iff the first column is not added, or all columns are."
  },
  {
   "property": "C45",
   "status": "partial",
   "theorems": [
    "Octo.C45_column_exact",
    "Octo.C45_sheet_exact",
    "Octo.C45_exact",
    "Octo.C45_round_trip_partial",
    "Octo.C45_normalized_partial",
    "Octo.C45_violated",
    "Octo.C45_violated_types"
   ],
   "note": "Round trip proved for the schemas a spreadsheet can represent (SheetTable, SheetGroup), for both null column options and all sheet orders; C45_violated*: value lists, key+unique columns, untrimmed descriptions and sized types ending in a digit never survive. The spreadsheet library is modelled as a faithful store of cells. C45_exact (C45_sheet_exact, C45_column_exact): the round trip succeeds iff every table satisfies SheetTable and every group SheetGroup."
  },
  {
   "property": "C46",
   "status": "partial",
   "theorems": [
    "Octo.C46_exact",
    "Octo.C46_what_survives_partial",
    "Octo.C46_violated"
   ],
   "note": "Violated: line 267 writes the default value. C46_what_survives_partial: what the imported on-update value is. C46_exact: survives iff there is none or it equals the default value."
  },
  {
   "property": "C47",
   "status": "partial",
   "theorems": [
    "Octo.C47_sheets_partial",
    "Octo.C47_succeeds_iff",
    "Octo.C47_violated"
   ],
   "note": "C47_succeeds_iff: exactly when an export succeeds; C47_sheets_partial: what it then contains; C47_violated: groups Meta, and empty with Common."
  },
  {
   "property": "C48",
   "status": "partial",
   "theorems": [
    "Octo.C48_stable",
    "Octo.C48_violated",
    "Octo.C48_groups",
    "Octo.C48_normalized_partial"
   ],
   "note": "C48_groups: failure, meta data and the tables of each group never depend on the order. C48_normalized_partial: equal after normalisation, for distinct tables. C48_stable: for all workbooks if sorting is stable. C48_violated: fails for a sort that meets the guarantees of sort.Sort but is not stable."
  },
  {
   "property": "C49",
   "status": "partial",
   "theorems": [
    "Octo.C49_import_partial",
    "Octo.C49_panics_iff",
    "Octo.C49_violated_default",
    "Octo.C49_violated_className"
   ],
   "note": "C49_import_partial: everything but default value and class name, whenever the import does not panic; C49_panics_iff: exactly when it panics; C49_violated_default, C49_violated_className: the description is stored as default value, the class name is lost."
  },
  {
   "property": "C50",
   "status": "partial",
   "theorems": [
    "Octo.C50_import_partial",
    "Octo.C50_reference",
    "Octo.C50_error_iff",
    "Octo.C50_panic_iff",
    "Octo.C50_violated_length",
    "Octo.C50_violated_negative",
    "Octo.C50_violated_reference"
   ],
   "note": "C50_import_partial: tables, columns, keys, nullability, references; C50_error_iff and C50_panic_iff: exactly when the import fails or crashes; C50_violated*: number lengths are ignored, negative lengths wrap, dangling references crash. Decoding of the JSON text into elements is not modelled."
  },
  {
   "property": "C51",
   "status": "partial",
   "theorems": [
    "Octo.C51_relations_partial",
    "Octo.C51_violated"
   ],
   "note": "For schemas whose names are identifiers (PlainDbmlTable), read back from the text by an independent DBML reader; C51_violated: a description can declare a relation."
  },
  {
   "property": "C52",
   "status": "partial",
   "theorems": [
    "Octo.C52_violated",
    "Octo.C52_selected_partial",
    "Octo.C52_exact"
   ],
   "note": "Violated: the filter is ignored. C52_selected_partial: which tables are written. C52_exact: the selected tables are written iff all are selected."
  },
  {
   "property": "C53",
   "status": "partial",
   "theorems": [
    "Octo.C53_exact",
    "Octo.C53_diagram_partial",
    "Octo.C53_violated"
   ],
   "note": "C53_diagram_partial: entities, columns, edges and the separator, read back from the text, for identifiers as names; C53_violated: exactly the tables with a key column after another column have a key below the separator. The generator has no filter. C53_exact: all keys are above the separator iff they come before all other columns."
  },
  {
   "property": "C54",
   "status": "partial",
   "theorems": [
    "Octo.C54_blocks_partial",
    "Octo.C54_violated"
   ],
   "note": "C54_blocks_partial: blocks and lines read back from the text, for texts without special characters; C54_violated: unquoted default values can inject flags. The exporter has no filter."
  },
  {
   "property": "C55",
   "status": "proved",
   "theorems": [
    "Octo.C55_numbers",
    "Octo.C55_message"
   ],
   "note": "C55_numbers reads the numbers from the generated text, for names of letters and digits; C55_message is about the message, without conditions. Overflow of int is not modelled."
  },
  {
   "property": "C56",
   "status": "partial",
   "theorems": [
    "Octo.C56_exact",
    "Octo.C56_violated_option",
    "Octo.C56_violated_columns",
    "Octo.C56_legal_partial"
   ],
   "note": "Violated: C56_violated_option for every start in the reserved range, C56_violated_columns for every table of 19000 columns. C56_legal_partial: smaller tables and starts. C56_exact: exactly when all numbers of a message are legal, when relation tags count up."
  },
  {
   "property": "C57",
   "status": "proved",
   "theorems": [
    "Octo.C57_types"
   ],
   "note": "Messages, fields, types, package, option and imports read back from the text, for every case conversion that yields letters and digits. Unknown column types are taken over; see C79."
  },
  {
   "property": "C58",
   "status": "partial",
   "theorems": [
    "Octo.C58_exact",
    "Octo.C58_violated",
    "Octo.C58_names_partial"
   ],
   "note": "Violated: C58_violated for every table with two references to the same table. C58_names_partial: names that are different in camel case. C58_exact: exactly when the fields of a message have different names."
  },
  {
   "property": "C59",
   "status": "proved",
   "theorems": [
    "Octo.C59_columns",
    "Octo.C59_once",
    "Octo.C59_option",
    "Octo.C59_registered"
   ],
   "note": "For every schedule of the two maps, and every earlier sequence of calls (C59_registered)."
  },
  {
   "property": "C60",
   "status": "proved",
   "theorems": [
    "Octo.C60_tags"
   ],
   "note": "Exact settings, read back from the text by a reader of Go files."
  },
  {
   "property": "C61",
   "status": "partial",
   "theorems": [
    "Octo.C61_columns",
    "Octo.C61_once",
    "Octo.C61_unique_partial",
    "Octo.C61_unique_violated"
   ],
   "note": "Proved for every schema and option whose texts can be written as they are: the file of every selected table is read by an independent Kotlin reader and gives one property per column in order with type, nullability, default value, annotations and key class. Violated for the unique constraint: it lists property names; proved to list the columns exactly when both names agree."
  },
  {
   "property": "C62",
   "status": "partial",
   "theorems": [
    "Octo.C62_repositories_partial",
    "Octo.C62_panic_violated"
   ],
   "note": "Violated: proved that the process panics exactly when repositories are written and a selected table has no primary key. Otherwise every selected table has a repository with its entity and key type."
  },
  {
   "property": "C63",
   "status": "partial",
   "theorems": [
    "Octo.C63_exact",
    "Octo.C63_imports_single",
    "Octo.C63_imports_partial",
    "Octo.C63_first_partial",
    "Octo.C63_imports_violated",
    "Octo.C63_converted_violated"
   ],
   "note": "Proved for a single file: every name used in the text is imported or defined before. Violated for a file per table: proved that Column is unbound in every file but the first one, and that the class for times is unbound wherever it is used; these are proved to be the only unbound names. C63_exact: a file of several binds every name iff it is the first and no column is converted."
  },
  {
   "property": "C64",
   "status": "partial",
   "theorems": [
    "Octo.C64_names",
    "Octo.C64_explicit",
    "Octo.C64_legal_partial",
    "Octo.C64_legal_violated"
   ],
   "note": "Proved that each attribute stands for its column, and that the explicit name is there exactly when needed. Violated: async, await and digit-leading names give no Python name; proved to be the only cases."
  },
  {
   "property": "C65",
   "status": "proved",
   "theorems": [
    "Octo.C65_types",
    "Octo.C65_file"
   ],
   "note": "Proved for every document that can be read; C104 says which ones can. strcase and pluralize are third-party parameters with the assumption that they yield letters and digits."
  },
  {
   "property": "C66",
   "status": "partial",
   "theorems": [
    "Octo.C66_exact",
    "Octo.C66_violated",
    "Octo.C66_statements_partial"
   ],
   "note": "The code violates the claim: nothing is escaped (C66_violated). C66_statements_partial covers texts that need no escaping. C66_exact: every member, default value and description is written between quotes, and a reader of MySQL string literals (Spec/SqlString.lean) takes it as that text exactly when the text stands for itself."
  },
  {
   "property": "C67",
   "status": "partial",
   "theorems": [
    "Octo.C67_exact",
    "Octo.C67_violated",
    "Octo.C67_quoted_partial"
   ],
   "note": "The code violates the claim: only char and varchar defaults are quoted (C67_violated); C67_quoted_partial gives the exact text for every type. C67_exact: read back as a quoted literal iff the type is char or varchar."
  },
  {
   "property": "C68",
   "status": "partial",
   "theorems": [
    "Octo.C68_violated",
    "Octo.C68_text_partial"
   ],
   "note": "The code violates the claim for every column (C68_violated): the statement cannot be read. C68_text_partial states the text."
  },
  {
   "property": "C69",
   "status": "partial",
   "theorems": [
    "Octo.C69_violated",
    "Octo.C69_exact_partial"
   ],
   "note": "The code violates the claim for every column with a default, on-update value, comment or auto-increment (C69_violated, C69_exact_partial is the exact condition)."
  },
  {
   "property": "C70",
   "status": "partial",
   "theorems": [
    "Octo.C70_violated",
    "Octo.C70_exact_partial"
   ],
   "note": "The code violates the claim exactly when the old table has no primary key (C70_violated, C70_exact_partial)."
  },
  {
   "property": "C71",
   "status": "partial",
   "theorems": [
    "Octo.C71_exact",
    "Octo.C71_generate_then_diff_partial",
    "Octo.C71_violated"
   ],
   "note": "The code violates the claim (C71_violated). C71_exact gives, for every database product, the exact condition on the two schemas: LqTableMoves for each table in both, and UniqueMoves where the unique columns change and the old version has exactly one. C71_generate_then_diff_partial covers pairs where a changed unique set had at least two columns."
  },
  {
   "property": "C72",
   "status": "proved",
   "theorems": [
    "Octo.C72_self_diff_empty"
   ],
   "note": "Proved for every map iteration order; distinct names, no group filter."
  },
  {
   "property": "C73",
   "status": "partial",
   "theorems": [
    "Octo.C73_violated",
    "Octo.C73_unmarked_partial"
   ],
   "note": "Violated for every marker; the unmarked form is read correctly."
  },
  {
   "property": "C74",
   "status": "partial",
   "theorems": [
    "Octo.C74_violated",
    "Octo.C74_autoInc_partial"
   ],
   "note": "Violated: only the spelling autoInc is recognised."
  },
  {
   "property": "C75",
   "status": "proved",
   "theorems": [
    "Octo.C75_sheet"
   ],
   "note": ""
  },
  {
   "property": "C76",
   "status": "partial",
   "theorems": [
    "Octo.C76_violated_unquoted",
    "Octo.C76_violated",
    "Octo.C76_values_partial",
    "Octo.C76_exact"
   ],
   "note": "Violated: C76_violated_unquoted for every unquoted value that is no DBML value, C76_violated for embedded quotes. C76_values_partial: for plain values. C76_exact: exactly which descriptions and default values a reader of DBML strings (Spec/DbmlString.lean) and values takes as they are."
  },
  {
   "property": "C77",
   "status": "partial",
   "theorems": [
    "Octo.C77_violated_plantuml",
    "Octo.C77_violated_quickdbd"
   ],
   "note": "Violated: neither document depends on the declared sizes."
  },
  {
   "property": "C78",
   "status": "partial",
   "theorems": [
    "Octo.C78_violated_decr",
    "Octo.C78_violated_cli",
    "Octo.C78_exact"
   ],
   "note": "C78_exact: the numbers of relations go up from max(start, fields + 1), or max(start, fields + relations) with decreasing tags, and so agree with the documented ones if and only if the direction is up or the table has at most one reference. Violated: C78_violated_decr (numbers increase), C78_violated_cli (flags ignored)."
  },
  {
   "property": "C79",
   "status": "partial",
   "theorems": [
    "Octo.C79_exact",
    "Octo.C79_defined_partial",
    "Octo.C79_violated_type",
    "Octo.C79_violated_filter"
   ],
   "note": "Violated: C79_violated_type, C79_violated_filter. C79_defined_partial: no filter, known types. C79_exact: exactly when every type in the file is defined."
  },
  {
   "property": "C80",
   "status": "partial",
   "theorems": [
    "Octo.C80_panics_iff",
    "Octo.C80_violated"
   ],
   "note": "Violated; C80_panics_iff says exactly when."
  },
  {
   "property": "C81",
   "status": "partial",
   "theorems": [
    "Octo.C81_violated"
   ],
   "note": "Violated for every schema."
  },
  {
   "property": "C82",
   "status": "partial",
   "theorems": [
    "Octo.C82_exact",
    "Octo.C82_violated",
    "Octo.C82_identifiers_partial"
   ],
   "note": "Violated for names whose first letter or digit is a digit; C82_identifiers_partial for all others. About version 0.2.0 of strcase, modelled in Model/Strcase.lean. C82_exact: exactly when all names are identifiers."
  },
  {
   "property": "C83",
   "status": "partial",
   "theorems": [
    "Octo.C83_exact",
    "Octo.C83_state_exact",
    "Octo.C83_violated_order",
    "Octo.C83_violated_state",
    "Octo.C83_order_partial",
    "Octo.C83_state_partial"
   ],
   "note": "Violated: C83_violated_order (two embedded structs that share a column), C83_violated_state (the registry is global). C83_order_partial and C83_state_partial otherwise. C83_exact: the text is the same in all executions if and only if no selected table has the columns of two known structs; C83_state_exact: a call leaves the known structs as they are if and only if its option defines none or one that is known with these columns."
  },
  {
   "property": "C84",
   "status": "partial",
   "theorems": [
    "Octo.C84_exact",
    "Octo.C84_violated_unused",
    "Octo.C84_violated_embedded",
    "Octo.C84_imports_partial"
   ],
   "note": "Violated: C84_violated_unused (null.v4 imported and not used), C84_violated_embedded (package of a custom struct not imported). C84_imports_partial otherwise. C84_exact: the exact condition under which the imports are the packages used."
  },
  {
   "property": "C85",
   "status": "partial",
   "theorems": [
    "Octo.C85_exact",
    "Octo.C85_violated_embedded",
    "Octo.C85_violated",
    "Octo.C85_distinct_partial"
   ],
   "note": "Violated by two references to the same table (C85_violated) and by a column `model` beside an embedded gorm.Model (C85_violated_embedded). C85_exact: exactly when the members of a struct have different names; C85_distinct_partial is a simpler sufficient condition."
  },
  {
   "property": "C86",
   "status": "partial",
   "theorems": [
    "Octo.C86_exact",
    "Octo.C86_violated",
    "Octo.C86_exported_partial",
    "Octo.C86_tables_partial"
   ],
   "note": "Violated for names whose first letter or digit is a digit; C86_exported_partial, C86_tables_partial otherwise. About version 0.2.0 of strcase. C86_exact: exactly when the struct of a table and its fields are exported."
  },
  {
   "property": "C87",
   "status": "partial",
   "theorems": [
    "Octo.C87_exact",
    "Octo.C87_violated",
    "Octo.C87_sizes_partial"
   ],
   "note": "Violated for decimals without scale; C87_sizes_partial otherwise. C87_exact: iff the column is a text or bits with a size, or a number with size and decimals."
  },
  {
   "property": "C88",
   "status": "partial",
   "theorems": [
    "Octo.C88_ignored",
    "Octo.C88_violated",
    "Octo.C88_types_partial"
   ],
   "note": "Violated: only names are compared. C88_types_partial for columns that no known struct has. C88_ignored: for every schema, the text does not depend on the types of the columns that an embedded struct covers."
  },
  {
   "property": "C89",
   "status": "partial",
   "theorems": [
    "Octo.C89_kotlin_partial",
    "Octo.C89_kotlin_violated"
   ],
   "note": "Violated for not-null blobs, nullable columns of composite keys, digit-leading names and keywords; proved that the file can be read exactly when none of these occurs."
  },
  {
   "property": "C90",
   "status": "partial",
   "theorems": [
    "Octo.C90_files_partial",
    "Octo.C90_files_violated"
   ],
   "note": "Violated when class names collide, or an entity has the name of a repository in the same directory; proved that no file is written twice exactly otherwise."
  },
  {
   "property": "C91",
   "status": "partial",
   "theorems": [
    "Octo.C91_id_partial",
    "Octo.C91_id_violated"
   ],
   "note": "Violated for a nullable id; proved that the property overrides exactly when the column is not null."
  },
  {
   "property": "C92",
   "status": "partial",
   "theorems": [
    "Octo.C92_key_partial",
    "Octo.C92_key_violated"
   ],
   "note": "Violated for a nullable key column; proved to be nullable exactly then."
  },
  {
   "property": "C93",
   "status": "partial",
   "theorems": [
    "Octo.C93_references_partial",
    "Octo.C93_references_violated"
   ],
   "note": "Violated: a reference to a table that is filtered out ends the process; the exact condition is proved."
  },
  {
   "property": "C94",
   "status": "partial",
   "theorems": [
    "Octo.C94_exact",
    "Octo.C94_directory_partial",
    "Octo.C94_directory_violated"
   ],
   "note": "Violated without a package; proved with package names. Path elements . and .. are not treated. C94_exact: every file goes under the output directory iff there is a package or nothing is written."
  },
  {
   "property": "C95",
   "status": "partial",
   "theorems": [
    "Octo.C95_properties_partial",
    "Octo.C95_properties_violated"
   ],
   "note": "Violated when two column names agree in camel case; the exact condition is proved."
  },
  {
   "property": "C96",
   "status": "proved",
   "theorems": [
    "Octo.C96_imports"
   ],
   "note": "Proved. The classes of @VRelation and of the id interface are never imported; whether they need to be depends on their package, which the options do not say."
  },
  {
   "property": "C97",
   "status": "partial",
   "theorems": [
    "Octo.C97_single_partial",
    "Octo.C97_described_partial",
    "Octo.C97_unknown_violated",
    "Octo.C97_untyped_violated"
   ],
   "note": "Proved that the single file can be read exactly when names fit and no column of an unknown type has an attribute, and that it then describes the selected tables. Violated otherwise."
  },
  {
   "property": "C98",
   "status": "partial",
   "theorems": [
    "Octo.C98_exact",
    "Octo.C98_origins_partial",
    "Octo.C98_origins_violated"
   ],
   "note": "Violated by names of classes and attributes; proved when none of them is a name that the texts use. C98_exact: for a single file, the exact condition, with the order of the classes and attributes."
  },
  {
   "property": "C99",
   "status": "proved",
   "theorems": [
    "Octo.C99_files",
    "Octo.C99_distinct"
   ],
   "note": "Proved. Path elements . and .. are not treated."
  },
  {
   "property": "C100",
   "status": "partial",
   "theorems": [
    "Octo.C100_attributes_partial",
    "Octo.C100_attributes_violated"
   ],
   "note": "Violated; proved that the attributes differ exactly when the renamed column names do."
  },
  {
   "property": "C101",
   "status": "partial",
   "theorems": [
    "Octo.C101_unique_partial",
    "Octo.C101_unique_violated"
   ],
   "note": "Violated: proved that no class declares a constraint. Proved that each unique column is unique by itself."
  },
  {
   "property": "C102",
   "status": "partial",
   "theorems": [
    "Octo.C102_arguments_partial",
    "Octo.C102_arguments_violated"
   ],
   "note": "Violated; proved that float and double with a scale are the only cases. The arguments that SQLAlchemy accepts are part of the specification."
  },
  {
   "property": "C103",
   "status": "partial",
   "theorems": [
    "Octo.C103_nullable_partial",
    "Octo.C103_nullable_violated"
   ],
   "note": "Violated; proved that a column is not nullable exactly when it is part of the key, or not null and not counted up."
  },
  {
   "property": "C104",
   "status": "partial",
   "theorems": [
    "Octo.C104_readable_partial",
    "Octo.C104_empty_violated",
    "Octo.C104_digit_violated"
   ],
   "note": "Violated; proved that the document can be read exactly when a table is selected, every selected table has columns and no name starts with a digit."
  },
  {
   "property": "C105",
   "status": "partial",
   "theorems": [
    "Octo.C105_valid_partial",
    "Octo.C105_valid_violated"
   ],
   "note": "Violated; proved that a document is valid exactly when the names differ."
  },
  {
   "property": "C106",
   "status": "proved",
   "theorems": [
    "Octo.C106_queries"
   ],
   "note": "Proved for every document that can be read."
  },
  {
   "property": "C107",
   "status": "partial",
   "theorems": [
    "Octo.C107_range_partial",
    "Octo.C107_range_violated"
   ],
   "note": "Violated for int64; proved for the other integer types."
  },
  {
   "property": "C108",
   "status": "partial",
   "theorems": [
    "Octo.Cli.C108_effect_partial",
    "Octo.Cli.C108_violated"
   ],
   "note": "Exact: an option has an effect iff it is not in the list of nine; C108_violated: the full statement fails."
  },
  {
   "property": "C109",
   "status": "partial",
   "theorems": [
    "Octo.Cli.C109_frame_partial",
    "Octo.Cli.C109_single_partial",
    "Octo.Cli.C109_violated_kt",
    "Octo.Cli.C109_violated"
   ],
   "note": "Holds for names without separators and Kotlin with package; violations proved in general for Kotlin and by witnesses for GraphQL and SQLAlchemy."
  },
  {
   "property": "C110",
   "status": "partial",
   "theorems": [
    "Octo.Cli.C110_failure_partial",
    "Octo.Cli.C110_sqlalchemy_partial",
    "Octo.Cli.C110_violated"
   ],
   "note": "Holds for all commands but kt, and for sqlalchemy when files can be written; violated by witnesses. C137 says what is left behind otherwise."
  },
  {
   "property": "C111",
   "status": "partial",
   "theorems": [
    "Octo.Cli.C111_init_partial",
    "Octo.Cli.C111_violated"
   ],
   "note": "Everything but the default for --output, which the code does not apply."
  },
  {
   "property": "C112",
   "status": "partial",
   "theorems": [
    "Octo.Cli.C112_status",
    "Octo.Cli.C112_loads_partial",
    "Octo.Cli.C112_failed",
    "Octo.Cli.C112_violated",
    "Octo.C112_stable"
   ],
   "note": "Loading assumes that no two tables share group and name, whose order sort.Sort leaves open; C112_stable has no such assumption but needs a stable sort. C112_violated shows why."
  },
  {
   "property": "C113",
   "status": "partial",
   "theorems": [
    "Octo.Cli.C113_fields_partial",
    "Octo.Cli.C113_violated"
   ],
   "note": "Everything but the descriptions of columns, which are lost in general."
  },
  {
   "property": "C114",
   "status": "proved",
   "theorems": [
    "Octo.Cli.C114_values",
    "Octo.Cli.C114_forms",
    "Octo.Cli.C114_help"
   ],
   "note": ""
  },
  {
   "property": "C115",
   "status": "partial",
   "theorems": [
    "Octo.Cli.C115_documented_partial",
    "Octo.Cli.C115_switch_partial",
    "Octo.Cli.C115_violated"
   ],
   "note": "All options but one."
  },
  {
   "property": "C116",
   "status": "proved",
   "theorems": [
    "Octo.Cli.C116_inputs",
    "Octo.Cli.C116_again",
    "Octo.Cli.C116_apart"
   ],
   "note": ""
  },
  {
   "property": "C117",
   "status": "proved",
   "theorems": [
    "Octo.Cli.C117_required",
    "Octo.Cli.C117_names"
   ],
   "note": ""
  },
  {
   "property": "C118",
   "status": "proved",
   "theorems": [
    "Octo.Cli.C118_command",
    "Octo.Cli.C118_other"
   ],
   "note": ""
  },
  {
   "property": "C119",
   "status": "partial",
   "theorems": [
    "Octo.Cli.C119_there_and_back_partial",
    "Octo.Cli.C119_lost",
    "Octo.Cli.C119_violated_enum",
    "Octo.Cli.C119_violated",
    "Octo.Cli.C119_exact"
   ],
   "note": "C119_exact: holds if and only if the spreadsheet can represent every table and every group has a sheet of its own (as for C45). C119_lost, C119_violated: what is lost otherwise."
  },
  {
   "property": "C120",
   "status": "partial",
   "theorems": [
    "Octo.Cli.C120_there_and_back_partial",
    "Octo.Cli.C120_violated",
    "Octo.Cli.C120_exact"
   ],
   "note": "For tables that DDL can express (C21); the SQL parser is the specification parseSql. C120_violated: bit becomes boolean and groups are lost. C120_exact: with unescaped texts and known literals, both commands together leave exactly the selected tables exactly when those not excluded are expressible and the excluded ones are accepted."
  },
  {
   "property": "C121",
   "status": "proved",
   "theorems": [
    "Octo.C121_round_trip",
    "Octo.C121_injective"
   ],
   "note": "C121_round_trip: the reader of Spec/LqYaml finds exactly the change sets; C121_injective. How yaml.v2 writes the tree as text is not modelled."
  },
  {
   "property": "C122",
   "status": "partial",
   "theorems": [
    "Octo.C122_diff_exact",
    "Octo.C122_exact",
    "Octo.C122_generated_partial",
    "Octo.C122_diff_partial",
    "Octo.C122_violated_author",
    "Octo.C122_violated_remarks"
   ],
   "note": "C122_exact: valid iff every change set has an author and no comment is set to the empty text; C122_generated_partial (iff) and C122_diff_partial on schemas; C122_violated_author: every schema without author; C122_violated_remarks: witness. C122_diff_exact: the document of a non-empty diff is valid iff there is an author and, if comments are compared, no comment disappears."
  },
  {
   "property": "C123",
   "status": "proved",
   "theorems": [
    "Octo.C123_author",
    "Octo.C123_diff_author",
    "Octo.C123_guarded",
    "Octo.C123_diff_guarded"
   ],
   "note": ""
  },
  {
   "property": "C124",
   "status": "proved",
   "theorems": [
    "Octo.C124_import",
    "Octo.C124_unique",
    "Octo.C124_described",
    "Octo.C124_wrong",
    "Octo.C124_null",
    "Octo.C124_empty",
    "Octo.C124_docOf",
    "Octo.C124_docsOf",
    "Octo.C124_text"
   ],
   "note": "Documents are JSON values with natural numbers; keys are compared ignoring the case of ASCII letters. Objects with a key twice are left out."
  },
  {
   "property": "C125",
   "status": "proved",
   "theorems": [
    "Octo.C125_builds",
    "Octo.C125_idempotent",
    "Octo.C125_keeps_existing"
   ],
   "note": "Databases are the relational semantics of Verif/Spec (tables, columns, keys); the SQL text is read by the independent reader of C17."
  },
  {
   "property": "C126",
   "status": "partial",
   "theorems": [
    "Octo.C126_agree_partial",
    "Octo.C126_violated_lost",
    "Octo.C126_exact"
   ],
   "note": "Partial: structure, keys, nullability, auto-increment, defaults and comments agree; indices and on-update values are lost in the changelog (C126_violated_lost). Column types are compared by C39 and C18 separately. C126_exact: under the same conditions on texts and names, both build the same and the script nothing besides if and only if no selected table has an index or an on-update value."
  },
  {
   "property": "C127",
   "status": "proved",
   "theorems": [
    "Octo.Cli.C127_order",
    "Octo.Cli.C127_sorting"
   ],
   "note": "All commands but init and the imports, including the three diff commands."
  },
  {
   "property": "C128",
   "status": "partial",
   "theorems": [
    "Octo.C128_gorm_exact",
    "Octo.C128_pb_exact",
    "Octo.C128_dbml_exact",
    "Octo.C128_groups_partial",
    "Octo.C128_closed_partial",
    "Octo.C128_violated"
   ],
   "note": "Proved for export mysql, kt, liquibase and sqlalchemy without condition and for gorm and pb when references stay within the groups; violated otherwise and for dbml. Exactly, for schemas with distinct table names and runs that succeed: C128_gorm_exact (no reference of the tables leads to a column of another group), C128_pb_exact (none leads to a table of another group), C128_dbml_exact (all tables are in the groups; for names and texts that need no quotes)."
  },
  {
   "property": "C129",
   "status": "proved",
   "theorems": [
    "Octo.Cli.C129_same_file",
    "Octo.Cli.C129_spelling"
   ],
   "note": "Links are not modelled. `C129_same_file` shows that the model of path.Clean identifies exactly the texts that lead to the same place from every working directory."
  },
  {
   "property": "C130",
   "status": "proved",
   "theorems": [
    "Octo.Cli.C130_crash",
    "Octo.Cli.C130_kt",
    "Octo.Cli.C130_mysql",
    "Octo.Cli.C130_never",
    "Octo.Cli.C130_fatal"
   ],
   "note": "Null elements in the arrays of an octopus JSON file are outside of the model (treated as errors; see DESIGN.md). Crashes of import ojson and import staruml are C49, C50 and C124."
  },
  {
   "property": "C131",
   "status": "proved",
   "theorems": [
    "Octo.Cli.C131_files"
   ],
   "note": "Links and directories are not modelled. `generate kt` without a package writes to the working directory (see C94, C109), which the specification states as it is; for `generate kt` the output must not be empty."
  },
  {
   "property": "C132",
   "status": "proved",
   "theorems": [
    "Octo.Cli.C132_dbml",
    "Octo.Cli.C132_quickdbd",
    "Octo.Cli.C132_plantuml",
    "Octo.Cli.C132_pb",
    "Octo.Cli.C132_gorm",
    "Octo.Cli.C132_graphql",
    "Octo.Cli.C132_liquibase",
    "Octo.Cli.C132_md",
    "Octo.Cli.C132_flyway",
    "Octo.Cli.C132_liquibase_db",
    "Octo.Cli.C132_diff_liquibase",
    "Octo.Cli.C132_sqlalchemy_single",
    "Octo.Cli.C132_sqlalchemy_files",
    "Octo.Cli.C132_kt"
   ],
   "note": "The plainness conditions are those of C51-C67, C90-C107, C37-C40 and C34-C35. sqlalchemy and kt assume distinct file names."
  },
  {
   "property": "C133",
   "status": "partial",
   "theorems": [
    "Octo.C133_gorm_partial",
    "Octo.C133_gorm_violated",
    "Octo.C133_kotlin",
    "Octo.C133_protobuf_partial",
    "Octo.C133_protobuf_violated"
   ],
   "note": "Exact conditions for GORM and protocol buffers; holds without condition for Kotlin. Values of times, floating point and binary types are only named, not modelled. Violated: GORM maps bit(n>8) to byte and nullable enumerations to string; protobuf has no null, no exact decimals, no bits."
  },
  {
   "property": "C134",
   "status": "partial",
   "theorems": [
    "Octo.C134_generate_partial",
    "Octo.C134_diff_partial",
    "Octo.C134_violated_rename",
    "Octo.C134_violated",
    "Octo.C134_violated_rename_sql"
   ],
   "note": "Holds for the descriptions of columns, for changelogs and for differences in which no comparison of a new with an old table is decided by descriptions; the descriptions of tables reach exactly the remarks of createTable. Violated: table descriptions are written without --comments, and rewording a column of a renamed table turns the renaming into dropping and creating it (liquibase, flyway and md)."
  },
  {
   "property": "C135",
   "status": "partial",
   "theorems": [
    "Octo.C135_decode",
    "Octo.C135_no_crash_partial",
    "Octo.C135_exact",
    "Octo.C135_violated"
   ],
   "note": "The decoder accepts null as a table, column or index and stores a nil pointer; Normalize then dereferences it. C135_exact says exactly when loading crashes, C135_violated names two families of such documents, C135_no_crash_partial shows that documents without null elements never crash and load as in the rest of the model, C135_decode that both models decode the same documents otherwise."
  },
  {
   "property": "C136",
   "status": "proved",
   "theorems": [
    "Octo.Cli.C136_one",
    "Octo.Cli.C136_two",
    "Octo.Cli.C136_init",
    "Octo.Cli.C136_import"
   ],
   "note": "For generate kt the output directory must be named and the classes must have names. For diff liquibase the condition on default values is sufficient, not necessary: only the default values that the changelog mentions matter."
  },
  {
   "property": "C137",
   "status": "proved",
   "theorems": [
    "Octo.Cli.C137_targets",
    "Octo.Cli.C137_complete"
   ],
   "note": "A write is all or nothing in the model; a disk that fills up in the middle of a file is not modelled. Two tables with the same file are C90."
  },
  {
   "property": "C138",
   "status": "partial",
   "theorems": [
    "Octo.C138_refines",
    "Octo.C138_snapshot_partial",
    "Octo.C138_removal_exact",
    "Octo.C138_violated"
   ],
   "note": "C138_refines: for every history and every growth of arrays the multimap with shared arrays shows what the table of lists of C12 has. C138_snapshot_partial: a handed-out slice does not change as long as no value is removed from its key. Violated by removals (C138_violated); C138_removal_exact gives the exact condition for one removal."
  },
  {
   "property": "C139",
   "status": "proved",
   "theorems": [
    "Octo.Cli.C139_first_steps"
   ],
   "note": "C139_first_steps, from C111 and the exact conditions for success of C136."
  },
  {
   "property": "C140",
   "status": "proved",
   "theorems": [
    "Octo.C140_document",
    "Octo.C140_version1",
    "Octo.C140_members",
    "Octo.Cli.C140_commands",
    "Octo.Cli.C140_import"
   ],
   "note": "C140_document and C140_version1 on documents, C140_commands and C140_import for the commands, C140_members shows that the list of members is exact. Within the model of encoding/json: of several members with the same key the last one counts."
  },
  {
   "property": "C141",
   "status": "partial",
   "theorems": [
    "Octo.C141_moves_partial",
    "Octo.C141_moves_ways_partial",
    "Octo.C141_history_partial",
    "Octo.C141_from_scratch_partial",
    "Octo.C141_ways_partial",
    "Octo.C141_back_partial",
    "Octo.C141_violated"
   ],
   "note": "Partial: histories without the corner cases of C40. C141_moves_partial: every database product, each step meeting the exact conditions of C40 (unique columns may be renamed or replaced by like ones). By induction on the history from C40. C141_violated: auto-increment stays on the way back."
  },
  {
   "property": "C142",
   "status": "partial",
   "theorems": [
    "Octo.Cli.C142_ignored",
    "Octo.Cli.C142_files_partial",
    "Octo.Cli.C142_shown",
    "Octo.Cli.C142_exact",
    "Octo.Cli.C142_violated"
   ],
   "note": "C142_exact: for the schema that is loaded, the matrix shownBy is exact in both directions. C142_files_partial: for documents, missing the values of set and enum columns, without which Normalize stops silently and later columns keep their unnormalised types (C142_violated)."
  },
  {
   "property": "C143",
   "status": "partial",
   "theorems": [
    "Octo.C143_exact",
    "Octo.C143_built",
    "Octo.C143_command",
    "Octo.C143_violated"
   ],
   "note": "Violated by the code. C143_exact gives the exact condition on the two versions (no column comes or goes; columns only gain auto-increment, or change nullability having nothing else to say; a changing key exists before; no renamed table has unique columns; ...) under which the script migrates the database; C143_violated has ten changes that it misses. Indices, the order of columns and rows are not part of the database."
  },
  {
   "property": "C144",
   "status": "partial",
   "theorems": [
    "Octo.C144_column_exact",
    "Octo.C144_exact",
    "Octo.C144_violated"
   ],
   "note": "Violated by the code: texts and blobs of limited length, enumerations, sets, and the sizes of binary and time types differ (C144_violated). C144_column_exact and C144_exact: exactly when the types agree, for columns and for the databases built by both. What Liquibase makes of a type on MySQL is part of the specification (Spec/LqMysqlTypes)."
  },
  {
   "property": "C145",
   "status": "proved",
   "theorems": [
    "Octo.C145_new_schema",
    "Octo.C145_changelog",
    "Octo.C145_exact",
    "Octo.C145_commands"
   ],
   "note": "C145_new_schema, C145_changelog and C145_commands: the restriction to the new schema, for change sets, the changelog and the three commands. C145_exact: when both schemas are restricted in effect."
  },
  {
   "property": "C146",
   "status": "partial",
   "theorems": [
    "Octo.C146_tables",
    "Octo.C146_renames_partial",
    "Octo.C146_values_partial",
    "Octo.C146_violated"
   ],
   "note": "C146_tables: what is created, dropped and renamed, for all schemas. C146_renames_partial, C146_values_partial: renames are inverse and every surviving value comes back if neither version has two tables (or two columns of a table) of the same shape that the other version lacks. C146_violated: otherwise the values of two tables, or of two columns, change places on the way there and back."
  },
  {
   "property": "C147",
   "status": "proved",
   "theorems": [
    "Octo.C147_place",
    "Octo.C147_apart",
    "Octo.C147_lost_exact",
    "Octo.C147_orders"
   ],
   "note": "C147_place, C147_apart, C147_lost_exact, C147_orders. Without a filter; by C145 a diff with groups is the diff to the schema that holds only these groups."
  },
  {
   "property": "C148",
   "status": "proved",
   "theorems": [
    "Octo.C148_events",
    "Octo.C148_values"
   ],
   "note": "C148_events: the two lists of events are equal. C148_values: so are the places of all cells. Not compared: nullability, auto-increment, keys and unique constraints, where the two differ (C40, C41), and added columns, which the report omits (C30)."
  },
  {
   "property": "C149",
   "status": "partial",
   "theorems": [
    "Octo.C149_gorm",
    "Octo.C149_jpa_exact",
    "Octo.C149_sqlalchemy",
    "Octo.C149_same_partial",
    "Octo.C149_violated",
    "Octo.C149_gorm_exact",
    "Octo.C149_gorm_text"
   ],
   "note": "C149_same_partial: holds for all naming strategies that lead from the written name to the column where the column is left out. C149_jpa_exact: for entities this is exactly the condition; C149_gorm_exact and C149_gorm_text: the same for structs; C149_sqlalchemy: no condition. C149_violated: the field of u_id is UID without a column, and snake case leads to uid. The primary key of an embedded struct is left to that struct."
  },
  {
   "property": "C150",
   "status": "proved",
   "theorems": [
    "Octo.C150_place",
    "Octo.C150_apart",
    "Octo.C150_stays",
    "Octo.C150_lost_exact",
    "Octo.C150_orders",
    "Octo.C150_between"
   ],
   "note": "C150_place, C150_apart, C150_stays, C150_lost_exact, C150_orders; C150_between: the changelog straight from the first version to the last loses a value that the history keeps. Versions have distinct names of tables, and of columns within a table; no filter."
  },
  {
   "property": "C151",
   "status": "partial",
   "theorems": [
    "Octo.C151_same_partial",
    "Octo.C151_violated"
   ],
   "note": "C151_same_partial for schemas whose texts each of the formats can show (the plain texts of C51, C53 and C54). C151_violated: with a function call as default value PlantUML and QuickDBD show the schema and the DBML document cannot be read."
  },
  {
   "property": "C152",
   "status": "partial",
   "theorems": [
    "Octo.C152_types",
    "Octo.C152_gorm_sqlalchemy",
    "Octo.C152_jpa_sqlalchemy_exact",
    "Octo.C152_jpa_graphql_exact",
    "Octo.C152_same_partial",
    "Octo.C152_violated"
   ],
   "note": "C152_gorm_sqlalchemy: these two always agree. C152_jpa_sqlalchemy_exact: entity and class agree exactly when each column of the key is not null and no other column is both not null and counted up; C152_jpa_graphql_exact: entity and GraphQL type agree exactly when a column that is the whole key is not null. C152_types: types of Kotlin. C152_same_partial: all four, under these conditions. C152_violated: a key not declared as not null, and a column counted up outside of the key. Embedded structs of GORM are left out."
  },
  {
   "property": "C153",
   "status": "proved",
   "theorems": [
    "Octo.C153_settled",
    "Octo.Cli.C153_commands"
   ],
   "note": "C153_settled: export, import, for all schemas (not only the expressible ones of C21); C153_commands: the four commands, for selected tables of distinct names. Relies on parseSql as the account of the third-party parser, as C21 does."
  },
  {
   "property": "C154",
   "status": "partial",
   "theorems": [
    "Octo.Cli.C154_file_exact",
    "Octo.C154_exact",
    "Octo.C154_settled_partial",
    "Octo.C154_violated",
    "Octo.Cli.C154_commands_partial"
   ],
   "note": "C154_exact: an imported workbook survives if and only if no column has decimals, or the type table, with size zero, no on-update value differs from the default value, and the library accepts the names. C154_settled_partial: a schema that was exported and imported once, when no type has a parenthesis and no default value a comma; C154_commands_partial: the four commands, where types never have a parenthesis. C154_violated: a default value with a comma can become an on-update value that changes once more. Cli.C154_file_exact: for a file imported from any workbook, on the command line, where also a size with a type whose canonical name has a digit, such as int(11), is lost."
  },
  {
   "property": "C155",
   "status": "partial",
   "theorems": [
    "Octo.C155_type_exact",
    "Octo.C155_exact",
    "Octo.C155_violated",
    "Octo.Cli.C155_commands_exact"
   ],
   "note": "C155_exact says in terms of the statements alone when the schema comes back; C155_type_exact does so for every declared type and every length. C155_violated: BINARY(16) comes back as BINARY, since the exporter writes no size for binary columns. Types that the importer copies as text and literals that need escapes are left out. C155_commands_exact: the same for import mysql, export mysql and import mysql, when only integer columns count up (normalisation drops auto-increment elsewhere) and table names are distinct."
  },
  {
   "property": "C156",
   "status": "partial",
   "theorems": [
    "Octo.C156_exact",
    "Octo.C156_from_scratch_partial",
    "Octo.C156_ways_partial",
    "Octo.C156_back_partial",
    "Octo.C156_violated"
   ],
   "note": "C156_exact: all scripts run and the database is that of the version after each of them if and only if every step changes only what scripts cover (C143). C156_from_scratch_partial, C156_ways_partial and C156_back_partial follow for such histories. C156_violated: the direct script can fail where a detour works, and auto-increment is not taken away again."
  },
  {
   "property": "C157",
   "status": "partial",
   "theorems": [
    "Octo.C157_exact",
    "Octo.C157_script_partial",
    "Octo.C157_violated",
    "Octo.C157_violated_script",
    "Octo.Cli.C157_commands_exact"
   ],
   "note": "C157_exact says when exactly this holds. C157_script_partial: scripts and changelogs, for imported scripts whose tables a spreadsheet can represent. C157_violated and C157_violated_script: bigint(20) does not come back, and the script exported then has the type int64(20). Cli.C157_commands_exact: the same as an equivalence for export xlsx followed by import xlsx, on files."
  },
  {
   "property": "C158",
   "status": "partial",
   "theorems": [
    "Octo.C158_exact",
    "Octo.C158_exact_plain",
    "Octo.C158_violated"
   ],
   "note": "C158_exact says when exactly both lead there. C158_exact_plain: on products that keep what a statement does not mention, the changelog does so wherever the flyway script does, if and only if the columns of the old key stay not null or in the key. C158_violated: a key column that is no longer declared not null (script works, changelog does not) and a new column (changelog works, script does not)."
  },
  {
   "property": "C159",
   "status": "partial",
   "theorems": [
    "Octo.C159_report_exact",
    "Octo.C159_changelog_exact",
    "Octo.C159_database_exact",
    "Octo.C159_holds_exact",
    "Octo.C159_violated"
   ],
   "note": "C159_report_exact and C159_changelog_exact say when exactly report and changelog are empty; C159_database_exact and C159_holds_exact what this means for the databases. C159_violated: an added column is not in the report, auto-increment that is switched off is not in the changelog, and a changed on-update value is in neither."
  },
  {
   "property": "C160",
   "status": "partial",
   "theorems": [
    "Octo.C160_report_exact",
    "Octo.C160_changelog_exact",
    "Octo.C160_violated",
    "Octo.Cli.C160_commands_exact"
   ],
   "note": "C160_report_exact and C160_changelog_exact (C160_commands_exact for the commands and files) say when exactly there is no difference: all types and defaults survive in MySQL, columns with auto-increment are not null, and with useComments no table has a description. C160_violated: a column with auto-increment that is not said to be not null is reported, in both directions."
  },
  {
   "property": "C161",
   "status": "partial",
   "theorems": [
    "Octo.C161_script_exact",
    "Octo.C161_violated",
    "Octo.Cli.C161_commands_exact"
   ],
   "note": "C161_script_exact says when exactly the statements are the same: no tinyint(1), no default NULL or with a sign outside of character types, columns with auto-increment are not null, and columns of one name are in the same keys. C161_violated: each of the first three alone changes the script. C161_commands_exact: the same for the commands, up to the order of the statements (the imported file is sorted). Scripts are compared as what the parser makes of them, not as text."
  },
  {
   "property": "C162",
   "status": "partial",
   "theorems": [
    "Octo.C162_injective_partial",
    "Octo.C162_violated"
   ],
   "note": "C162_injective_partial: holds when the tables of both schemas satisfy the condition of C161 (SaidAgainTable). C162_violated: a default with a sign and none, tinyint(1) and bit(1), and a nullable and a not-null column with auto-increment are imported as the same. Scripts are compared as what the parser makes of them, not as text."
  },
  {
   "property": "C163",
   "status": "partial",
   "theorems": [
    "Octo.C163_exact",
    "Octo.C163_import_exact",
    "Octo.C163_violated",
    "Octo.C163_violated_unique",
    "Octo.Cli.C163_commands",
    "Octo.Cli.C163_violated_stored"
   ],
   "note": "C163_exact (Cli.C163_commands for files): accepted if and only if each selected table has at most one such column, without a default, as first column of the primary key, first unique column or first column of an index. C163_import_exact: the condition on an accepted script for the one that is exported after an import. C163_violated: a primary key (id, shop) becomes (shop, id); C163_violated_unique: UNIQUE at a column is lost; Cli.C163_violated_stored: the check of a schema does not look at it. What MySQL accepts is stated in Spec/AutoIncrement.lean after the manual."
  },
  {
   "property": "C164",
   "status": "partial",
   "theorems": [
    "Octo.C164_exact",
    "Octo.Cli.C164_commands",
    "Octo.Cli.C164_violated"
   ],
   "note": "C164_exact (Cli.C164_commands for files): accepted if and only if no column of a selected table with one of these types has a default value or the name of a column of a key or an index. Cli.C164_violated: a stored schema with a text as primary key and a text with a default value, which the check of a schema lets through. What MySQL accepts is stated in Spec/LongTypes.lean after the manual; expression defaults and prefix lengths are left out, as the tool writes neither."
  },
  {
   "property": "C165",
   "status": "partial",
   "theorems": [
    "Octo.C165_exact",
    "Octo.Cli.C165_commands",
    "Octo.Cli.C165_violated",
    "Octo.C165_import_exact",
    "Octo.C165_violated_import"
   ],
   "note": "C165_exact (Cli.C165_commands for files): accepted if and only if no column of a selected table is a varbinary, an enum or set without members, a varchar without size, a double with a size only, or a bit, integer, char or varchar with a scale. Cli.C165_violated: a stored schema with varbinary of size 16. C165_import_exact: after an import, if and only if every declared double has decimals or no length, no length of a varchar is lost and enumerations have members; C165_violated_import: double(10,0), which MySQL accepts, becomes double(10). The accepted numbers of arguments are stated in Spec/TypeArgs.lean after the manual; the ranges of the numbers are left out."
  },
  {
   "property": "C166",
   "status": "partial",
   "theorems": [
    "Octo.C166_exact",
    "Octo.Cli.C166_commands",
    "Octo.Cli.C166_violated"
   ],
   "note": "C166_exact (Cli.C166_commands for files): accepted if and only if each column of a selected table with a function as default value, or with an update, is a datetime, and the function or update is the current time. Cli.C166_violated: a stored schema with the default fn::uuid, written as DEFAULT uuid(). What MySQL accepts is stated in Spec/TimeFunctions.lean after the manual; fractional seconds are left out, as the tool writes none."
  }
 ]
}