{
 "C01": "ToLower is modelled on ASCII.",
 "C04": "Validity is an independent predicate (Spec.ValidColumn); the reported table is the first invalid one in (group, name) order.",
 "C05": "The code violates the claim: LoadSchema drops the error of Normalize (C05_violated). C05_load_partial covers files whose columns are all acceptable. C05_exact: what is loaded is validated if and only if every column of the file was acceptable.",
 "C06": "A plain value that itself starts with fn:: is misread; exactly characterised.",
 "C12": "The code violates the removal half when the value occurs more than once (C12_violated). C12_exact, C12_removal_exact: correct iff values are only removed while they occur at most once under their key.",
 "C14": "The code violates the round trip for names not ending in a letter (C14_violated); C14_parse_format describes the result for every name without '('. C14_exact: for every column, exactly when a written type is read back.",
 "C15": "The code panics on options mixing entries with and without ':' (C15_panic_iff, C15_violated).",
 "C29": "The code violates the claim: tables of unselected groups are reported as dropped or renamed (C29_violated). C29_exact: every change concerns a selected table iff no old table outside the selected groups lacks a selected counterpart.",
 "C30": "The code violates the claim: columns added to an existing table are never reported (C30_violated); C30_apply_partial covers every pair of schemas in which each new column of a kept table is matched by a vanished column of the same shape. C30_exact: the changes reproduce the new structure iff in no kept table a shape appears more often than it vanishes.",
 "C31": "The code violates the claim: an added column is never reported unless it is a rename (C31_never_reported). C31_exact: every new column is reported iff for every shape at least as many columns vanish as appear.",
 "C17": "For schemas whose texts need no escaping (Spec.PlainTable); C66 shows what happens otherwise.",
 "C19": "The code violates the claim for binary and varbinary, whose size is never written (C19_violated). C19_exact: the size is written iff the type is neither of these.",
 "C66": "The code violates the claim: nothing is escaped (C66_violated). C66_statements_partial covers texts that need no escaping. C66_exact: every member, default value and description is written between quotes, and a reader of MySQL string literals (Spec/SqlString.lean) takes it as that text exactly when the text stands for itself.",
 "C67": "The code violates the claim: only char and varchar defaults are quoted (C67_violated); C67_quoted_partial gives the exact text for every type. C67_exact: read back as a quoted literal iff the type is char or varchar.",
 "C21": "The code violates the claim at bit(0/1), int8(1), sized binary, varbinary, geometry, point and varchar without size (C21_violated). C21_roundtrip_partial is the round trip of whole schemas over everything DDL can express; it relies on Spec.fieldOf, an account of the third-party SQL parser. C21_type_exact: type, size, scale and members of a column with unescaped values come back exactly when the type is portable. C21_exact: a whole schema with unescaped texts and literals of the modelled grammar comes back exactly when every selected table is expressible (Spec/Expressible.lean).",
 "C22": "On parsed statements; the SQL parser is third party. An index over an expression makes the importer panic (C22_panic_iff).",
 "C23": "The code violates the claim: a column-level UNIQUE is ignored (C23_violated, C23_unique_ignored), and a table-level primary key does not make the column not null (C23_nullable_key). C23_columns_partial gives the exact result for every statement. C23_exact: uniqueness is imported iff every column-level UNIQUE is repeated by a table constraint.",
 "C34": "Read back by an independent reader; items are identified by kind and subject.",
 "C35": "The code violates the claim: eight kinds of change produce no SQL (C35_violated, C35_silent_iff). C35_script_partial reads the whole script back for the changes whose SQL is right. C35_exact: SQL is written and says what is meant iff the change is one of SqlOk.",
 "C36": "The code violates the claim for every column (C36_violated); C36_on_partial covers switching it on. C36_exact: right iff auto-increment is switched on.",
 "C68": "The code violates the claim for every column (C68_violated): the statement cannot be read. C68_text_partial states the text.",
 "C69": "The code violates the claim for every column with a default, on-update value, comment or auto-increment (C69_violated, C69_exact_partial is the exact condition).",
 "C70": "The code violates the claim exactly when the old table has no primary key (C70_violated, C70_exact_partial).",
 "C37": "C37_complete: the changes are, per selected table and in order, a createTable with the columns and separate key and unique declarations where needed; C37_minimal: no constraint is declared twice within a column; C37_listed: the listed column names; C37_succeeds: when generation cannot fail.",
 "C38": "Proved for generated and diff changelogs, every map iteration order.",
 "C39": "The code violates the claim (C39_violated: no changelog at all; C39_violated_function: a function default becomes a text). C39_exact says exactly when the changelog builds the selected tables, for every database product: different table and column names, default values written as they are, names that survive being listed wherever they are listed, and a free constraint name. C39_builds_partial is a simpler sufficient condition.",
 "C40": "The code violates the claim (C40_violated: first unique column; C40_violated_autoincrement; C40_violated_key; C40_violated_retype: products where changing a type drops not-null). C40_exact gives, for every database product, the exact condition on the two versions of each table (LqTableMoves), independent of map iteration order; C40_exact_plain the simpler condition for products that keep what a statement does not mention. Databases may hold further constraints that the product has named; where the unique columns of such a table change, the exact condition also has UniqueMoves.",
 "C41": "The code violates the claim (C41_violated). C41_drop_unique_partial: the only other case is a table that gets its first unique column. C41_exact: iff no selected kept table gets its first unique column.",
 "C42": "The code violates the claim for diffs (C42_violated). C42_not_empty_partial: only when a table loses its last unique column. C42_generated: never for generated changelogs. C42_exact: iff no selected kept table loses its last unique column.",
 "C43": "The code violates the claim (C43_violated: integer defaults are text; C43_violated_function: functions). C43_generated_partial and C43_diff_partial state the field for every type. C43_exact: the default is in the field of its type iff the column is no integer or has no default.",
 "C44": "C44_placement: the placement of every added column. C44_order_partial: the order is reproduced unless the first column is new (C44_violated). C44_exact: iff the first column is not added, or all columns are.",
 "C71": "The code violates the claim (C71_violated). C71_exact gives, for every database product, the exact condition on the two schemas: LqTableMoves for each table in both, and UniqueMoves where the unique columns change and the old version has exactly one. C71_generate_then_diff_partial covers pairs where a changed unique set had at least two columns.",
 "C72": "Proved for every map iteration order; distinct names, no group filter.",
 "C07": "At the level of the text: what ToJson writes is read back by an independent RFC 8259 reader (Spec/Json) and decoded into the normalised schema. encoding/json is modelled, not part of /repo; invalid UTF-8 is outside the model.",
 "C45": "Round trip proved for the schemas a spreadsheet can represent (SheetTable, SheetGroup), for both null column options and all sheet orders; C45_violated*: value lists, key+unique columns, untrimmed descriptions and sized types ending in a digit never survive. The spreadsheet library is modelled as a faithful store of cells. C45_exact (C45_sheet_exact, C45_column_exact): the round trip succeeds iff every table satisfies SheetTable and every group SheetGroup.",
 "C46": "Violated: line 267 writes the default value. C46_what_survives_partial: what the imported on-update value is. C46_exact: survives iff there is none or it equals the default value.",
 "C47": "C47_succeeds_iff: exactly when an export succeeds; C47_sheets_partial: what it then contains; C47_violated: groups Meta, and empty with Common.",
 "C48": "C48_groups: failure, meta data and the tables of each group never depend on the order. C48_normalized_partial: equal after normalisation, for distinct tables. C48_stable: for all workbooks if sorting is stable. C48_violated: fails for a sort that meets the guarantees of sort.Sort but is not stable.",
 "C73": "Violated for every marker; the unmarked form is read correctly.",
 "C74": "Violated: only the spelling autoInc is recognised.",
 "C49": "C49_import_partial: everything but default value and class name, whenever the import does not panic; C49_panics_iff: exactly when it panics; C49_violated_default, C49_violated_className: the description is stored as default value, the class name is lost.",
 "C50": "C50_import_partial: tables, columns, keys, nullability, references; C50_error_iff and C50_panic_iff: exactly when the import fails or crashes; C50_violated*: number lengths are ignored, negative lengths wrap, dangling references crash. Decoding of the JSON text into elements is not modelled.",
 "C51": "For schemas whose names are identifiers (PlainDbmlTable), read back from the text by an independent DBML reader; C51_violated: a description can declare a relation.",
 "C52": "Violated: the filter is ignored. C52_selected_partial: which tables are written. C52_exact: the selected tables are written iff all are selected.",
 "C76": "Violated: C76_violated_unquoted for every unquoted value that is no DBML value, C76_violated for embedded quotes. C76_values_partial: for plain values. C76_exact: exactly which descriptions and default values a reader of DBML strings (Spec/DbmlString.lean) and values takes as they are.",
 "C53": "C53_diagram_partial: entities, columns, edges and the separator, read back from the text, for identifiers as names; C53_violated: exactly the tables with a key column after another column have a key below the separator. The generator has no filter. C53_exact: all keys are above the separator iff they come before all other columns.",
 "C54": "C54_blocks_partial: blocks and lines read back from the text, for texts without special characters; C54_violated: unquoted default values can inject flags. The exporter has no filter.",
 "C77": "Violated: neither document depends on the declared sizes.",
 "C55": "C55_numbers reads the numbers from the generated text, for names of letters and digits; C55_message is about the message, without conditions. Overflow of int is not modelled.",
 "C56": "Violated: C56_violated_option for every start in the reserved range, C56_violated_columns for every table of 19000 columns. C56_legal_partial: smaller tables and starts. C56_exact: exactly when all numbers of a message are legal, when relation tags count up.",
 "C57": "Messages, fields, types, package, option and imports read back from the text, for every case conversion that yields letters and digits. Unknown column types are taken over; see C79.",
 "C58": "Violated: C58_violated for every table with two references to the same table. C58_names_partial: names that are different in camel case. C58_exact: exactly when the fields of a message have different names.",
 "C78": "C78_exact: the numbers of relations go up from max(start, fields + 1), or max(start, fields + relations) with decreasing tags, and so agree with the documented ones if and only if the direction is up or the table has at most one reference. Violated: C78_violated_decr (numbers increase), C78_violated_cli (flags ignored).",
 "C79": "Violated: C79_violated_type, C79_violated_filter. C79_defined_partial: no filter, known types. C79_exact: exactly when every type in the file is defined.",
 "C80": "Violated; C80_panics_iff says exactly when.",
 "C81": "Violated for every schema.",
 "C82": "Violated for names whose first letter or digit is a digit; C82_identifiers_partial for all others. About version 0.2.0 of strcase, modelled in Model/Strcase.lean. C82_exact: exactly when all names are identifiers.",
 "C59": "For every schedule of the two maps, and every earlier sequence of calls (C59_registered).",
 "C60": "Exact settings, read back from the text by a reader of Go files.",
 "C83": "Violated: C83_violated_order (two embedded structs that share a column), C83_violated_state (the registry is global). C83_order_partial and C83_state_partial otherwise. C83_exact: the text is the same in all executions if and only if no selected table has the columns of two known structs; C83_state_exact: a call leaves the known structs as they are if and only if its option defines none or one that is known with these columns.",
 "C84": "Violated: C84_violated_unused (null.v4 imported and not used), C84_violated_embedded (package of a custom struct not imported). C84_imports_partial otherwise. C84_exact: the exact condition under which the imports are the packages used.",
 "C85": "Violated by two references to the same table (C85_violated) and by a column `model` beside an embedded gorm.Model (C85_violated_embedded). C85_exact: exactly when the members of a struct have different names; C85_distinct_partial is a simpler sufficient condition.",
 "C86": "Violated for names whose first letter or digit is a digit; C86_exported_partial, C86_tables_partial otherwise. About version 0.2.0 of strcase. C86_exact: exactly when the struct of a table and its fields are exported.",
 "C87": "Violated for decimals without scale; C87_sizes_partial otherwise. C87_exact: iff the column is a text or bits with a size, or a number with size and decimals.",
 "C88": "Violated: only names are compared. C88_types_partial for columns that no known struct has. C88_ignored: for every schema, the text does not depend on the types of the columns that an embedded struct covers.",
 "C61": "Proved for every schema and option whose texts can be written as they are: the file of every selected table is read by an independent Kotlin reader and gives one property per column in order with type, nullability, default value, annotations and key class. Violated for the unique constraint: it lists property names; proved to list the columns exactly when both names agree.",
 "C62": "Violated: proved that the process panics exactly when repositories are written and a selected table has no primary key. Otherwise every selected table has a repository with its entity and key type.",
 "C89": "Violated for not-null blobs, nullable columns of composite keys, digit-leading names and keywords; proved that the file can be read exactly when none of these occurs.",
 "C90": "Violated when class names collide, or an entity has the name of a repository in the same directory; proved that no file is written twice exactly otherwise.",
 "C91": "Violated for a nullable id; proved that the property overrides exactly when the column is not null.",
 "C92": "Violated for a nullable key column; proved to be nullable exactly then.",
 "C93": "Violated: a reference to a table that is filtered out ends the process; the exact condition is proved.",
 "C94": "Violated without a package; proved with package names. Path elements . and .. are not treated. C94_exact: every file goes under the output directory iff there is a package or nothing is written.",
 "C95": "Violated when two column names agree in camel case; the exact condition is proved.",
 "C96": "Proved. The classes of @VRelation and of the id interface are never imported; whether they need to be depends on their package, which the options do not say.",
 "C63": "Proved for a single file: every name used in the text is imported or defined before. Violated for a file per table: proved that Column is unbound in every file but the first one, and that the class for times is unbound wherever it is used; these are proved to be the only unbound names. C63_exact: a file of several binds every name iff it is the first and no column is converted.",
 "C64": "Proved that each attribute stands for its column, and that the explicit name is there exactly when needed. Violated: async, await and digit-leading names give no Python name; proved to be the only cases.",
 "C97": "Proved that the single file can be read exactly when names fit and no column of an unknown type has an attribute, and that it then describes the selected tables. Violated otherwise.",
 "C98": "Violated by names of classes and attributes; proved when none of them is a name that the texts use. C98_exact: for a single file, the exact condition, with the order of the classes and attributes.",
 "C99": "Proved. Path elements . and .. are not treated.",
 "C100": "Violated; proved that the attributes differ exactly when the renamed column names do.",
 "C101": "Violated: proved that no class declares a constraint. Proved that each unique column is unique by itself.",
 "C102": "Violated; proved that float and double with a scale are the only cases. The arguments that SQLAlchemy accepts are part of the specification.",
 "C103": "Violated; proved that a column is not nullable exactly when it is part of the key, or not null and not counted up.",
 "C65": "Proved for every document that can be read; C104 says which ones can. strcase and pluralize are third-party parameters with the assumption that they yield letters and digits.",
 "C104": "Violated; proved that the document can be read exactly when a table is selected, every selected table has columns and no name starts with a digit.",
 "C105": "Violated; proved that a document is valid exactly when the names differ.",
 "C106": "Proved for every document that can be read.",
 "C107": "Violated for int64; proved for the other integer types.",
 "C108": "Exact: an option has an effect iff it is not in the list of nine; C108_violated: the full statement fails.",
 "C109": "Holds for names without separators and Kotlin with package; violations proved in general for Kotlin and by witnesses for GraphQL and SQLAlchemy.",
 "C110": "Holds for all commands but kt, and for sqlalchemy when files can be written; violated by witnesses. C137 says what is left behind otherwise.",
 "C111": "Everything but the default for --output, which the code does not apply.",
 "C112": "Loading assumes that no two tables share group and name, whose order sort.Sort leaves open; C112_stable has no such assumption but needs a stable sort. C112_violated shows why.",
 "C113": "Everything but the descriptions of columns, which are lost in general.",
 "C115": "All options but one.",
 "C119": "C119_exact: holds if and only if the spreadsheet can represent every table and every group has a sheet of its own (as for C45). C119_lost, C119_violated: what is lost otherwise.",
 "C120": "For tables that DDL can express (C21); the SQL parser is the specification parseSql. C120_violated: bit becomes boolean and groups are lost. C120_exact: with unescaped texts and known literals, both commands together leave exactly the selected tables exactly when those not excluded are expressible and the excluded ones are accepted.",
 "C121": "C121_round_trip: the reader of Spec/LqYaml finds exactly the change sets; C121_injective. How yaml.v2 writes the tree as text is not modelled.",
 "C122": "C122_exact: valid iff every change set has an author and no comment is set to the empty text; C122_generated_partial (iff) and C122_diff_partial on schemas; C122_violated_author: every schema without author; C122_violated_remarks: witness. C122_diff_exact: the document of a non-empty diff is valid iff there is an author and, if comments are compared, no comment disappears.",
 "C124": "Documents are JSON values with natural numbers; keys are compared ignoring the case of ASCII letters. Objects with a key twice are left out.",
 "C125": "Databases are the relational semantics of Verif/Spec (tables, columns, keys); the SQL text is read by the independent reader of C17.",
 "C126": "Partial: structure, keys, nullability, auto-increment, defaults and comments agree; indices and on-update values are lost in the changelog (C126_violated_lost). Column types are compared by C39 and C18 separately. C126_exact: under the same conditions on texts and names, both build the same and the script nothing besides if and only if no selected table has an index or an on-update value.",
 "C127": "All commands but init and the imports, including the three diff commands.",
 "C128": "Proved for export mysql, kt, liquibase and sqlalchemy without condition and for gorm and pb when references stay within the groups; violated otherwise and for dbml. Exactly, for schemas with distinct table names and runs that succeed: C128_gorm_exact (no reference of the tables leads to a column of another group), C128_pb_exact (none leads to a table of another group), C128_dbml_exact (all tables are in the groups; for names and texts that need no quotes).",
 "C129": "Links are not modelled. `C129_same_file` shows that the model of path.Clean identifies exactly the texts that lead to the same place from every working directory.",
 "C130": "Null elements in the arrays of an octopus JSON file are outside of the model (treated as errors; see DESIGN.md). Crashes of import ojson and import staruml are C49, C50 and C124.",
 "C131": "Links and directories are not modelled. `generate kt` without a package writes to the working directory (see C94, C109), which the specification states as it is; for `generate kt` the output must not be empty.",
 "C132": "The plainness conditions are those of C51-C67, C90-C107, C37-C40 and C34-C35. sqlalchemy and kt assume distinct file names.",
 "C133": "Exact conditions for GORM and protocol buffers; holds without condition for Kotlin. Values of times, floating point and binary types are only named, not modelled. Violated: GORM maps bit(n>8) to byte and nullable enumerations to string; protobuf has no null, no exact decimals, no bits.",
 "C134": "Holds for the descriptions of columns, for changelogs and for differences in which no comparison of a new with an old table is decided by descriptions; the descriptions of tables reach exactly the remarks of createTable. Violated: table descriptions are written without --comments, and rewording a column of a renamed table turns the renaming into dropping and creating it (liquibase, flyway and md).",
 "C135": "The decoder accepts null as a table, column or index and stores a nil pointer; Normalize then dereferences it. C135_exact says exactly when loading crashes, C135_violated names two families of such documents, C135_no_crash_partial shows that documents without null elements never crash and load as in the rest of the model, C135_decode that both models decode the same documents otherwise.",
 "C136": "For generate kt the output directory must be named and the classes must have names. For diff liquibase the condition on default values is sufficient, not necessary: only the default values that the changelog mentions matter.",
 "C137": "A write is all or nothing in the model; a disk that fills up in the middle of a file is not modelled. Two tables with the same file are C90.",
 "C138": "C138_refines: for every history and every growth of arrays the multimap with shared arrays shows what the table of lists of C12 has. C138_snapshot_partial: a handed-out slice does not change as long as no value is removed from its key. Violated by removals (C138_violated); C138_removal_exact gives the exact condition for one removal.",
 "C139": "C139_first_steps, from C111 and the exact conditions for success of C136.",
 "C140": "C140_document and C140_version1 on documents, C140_commands and C140_import for the commands, C140_members shows that the list of members is exact. Within the model of encoding/json: of several members with the same key the last one counts.",
 "C141": "Partial: histories without the corner cases of C40. C141_moves_partial: every database product, each step meeting the exact conditions of C40 (unique columns may be renamed or replaced by like ones). By induction on the history from C40. C141_violated: auto-increment stays on the way back.",
 "C142": "C142_exact: for the schema that is loaded, the matrix shownBy is exact in both directions. C142_files_partial: for documents, missing the values of set and enum columns, without which Normalize stops silently and later columns keep their unnormalised types (C142_violated).",
 "C143": "Violated by the code. C143_exact gives the exact condition on the two versions (no column comes or goes; columns only gain auto-increment, or change nullability having nothing else to say; a changing key exists before; no renamed table has unique columns; ...) under which the script migrates the database; C143_violated has ten changes that it misses. Indices, the order of columns and rows are not part of the database.",
 "C144": "Violated by the code: texts and blobs of limited length, enumerations, sets, and the sizes of binary and time types differ (C144_violated). C144_column_exact and C144_exact: exactly when the types agree, for columns and for the databases built by both. What Liquibase makes of a type on MySQL is part of the specification (Spec/LqMysqlTypes).",
 "C145": "C145_new_schema, C145_changelog and C145_commands: the restriction to the new schema, for change sets, the changelog and the three commands. C145_exact: when both schemas are restricted in effect.",
 "C146": "C146_tables: what is created, dropped and renamed, for all schemas. C146_renames_partial, C146_values_partial: renames are inverse and every surviving value comes back if neither version has two tables (or two columns of a table) of the same shape that the other version lacks. C146_violated: otherwise the values of two tables, or of two columns, change places on the way there and back.",
 "C147": "C147_place, C147_apart, C147_lost_exact, C147_orders. Without a filter; by C145 a diff with groups is the diff to the schema that holds only these groups.",
 "C148": "C148_events: the two lists of events are equal. C148_values: so are the places of all cells. Not compared: nullability, auto-increment, keys and unique constraints, where the two differ (C40, C41), and added columns, which the report omits (C30).",
 "C149": "C149_same_partial: holds for all naming strategies that lead from the written name to the column where the column is left out. C149_jpa_exact: for entities this is exactly the condition; C149_gorm_exact and C149_gorm_text: the same for structs; C149_sqlalchemy: no condition. C149_violated: the field of u_id is UID without a column, and snake case leads to uid. The primary key of an embedded struct is left to that struct.",
 "C150": "C150_place, C150_apart, C150_stays, C150_lost_exact, C150_orders; C150_between: the changelog straight from the first version to the last loses a value that the history keeps. Versions have distinct names of tables, and of columns within a table; no filter.",
 "C151": "C151_same_partial for schemas whose texts each of the formats can show (the plain texts of C51, C53 and C54). C151_violated: with a function call as default value PlantUML and QuickDBD show the schema and the DBML document cannot be read.",
 "C152": "C152_gorm_sqlalchemy: these two always agree. C152_jpa_sqlalchemy_exact: entity and class agree exactly when each column of the key is not null and no other column is both not null and counted up; C152_jpa_graphql_exact: entity and GraphQL type agree exactly when a column that is the whole key is not null. C152_types: types of Kotlin. C152_same_partial: all four, under these conditions. C152_violated: a key not declared as not null, and a column counted up outside of the key. Embedded structs of GORM are left out.",
 "C153": "C153_settled: export, import, for all schemas (not only the expressible ones of C21); C153_commands: the four commands, for selected tables of distinct names. Relies on parseSql as the account of the third-party parser, as C21 does.",
 "C154": "C154_exact: an imported workbook survives if and only if no column has decimals, or the type table, with size zero, no on-update value differs from the default value, and the library accepts the names. C154_settled_partial: a schema that was exported and imported once, when no type has a parenthesis and no default value a comma; C154_commands_partial: the four commands, where types never have a parenthesis. C154_violated: a default value with a comma can become an on-update value that changes once more. Cli.C154_file_exact: for a file imported from any workbook, on the command line, where also a size with a type whose canonical name has a digit, such as int(11), is lost.",
 "C155": "C155_exact says in terms of the statements alone when the schema comes back; C155_type_exact does so for every declared type and every length. C155_violated: BINARY(16) comes back as BINARY, since the exporter writes no size for binary columns. Types that the importer copies as text and literals that need escapes are left out. C155_commands_exact: the same for import mysql, export mysql and import mysql, when only integer columns count up (normalisation drops auto-increment elsewhere) and table names are distinct.",
 "C156": "C156_exact: all scripts run and the database is that of the version after each of them if and only if every step changes only what scripts cover (C143). C156_from_scratch_partial, C156_ways_partial and C156_back_partial follow for such histories. C156_violated: the direct script can fail where a detour works, and auto-increment is not taken away again.",
 "C157": "C157_exact says when exactly this holds. C157_script_partial: scripts and changelogs, for imported scripts whose tables a spreadsheet can represent. C157_violated and C157_violated_script: bigint(20) does not come back, and the script exported then has the type int64(20). Cli.C157_commands_exact: the same as an equivalence for export xlsx followed by import xlsx, on files.",
 "C158": "C158_exact says when exactly both lead there. C158_exact_plain: on products that keep what a statement does not mention, the changelog does so wherever the flyway script does, if and only if the columns of the old key stay not null or in the key. C158_violated: a key column that is no longer declared not null (script works, changelog does not) and a new column (changelog works, script does not).",
 "C159": "C159_report_exact and C159_changelog_exact say when exactly report and changelog are empty; C159_database_exact and C159_holds_exact what this means for the databases. C159_violated: an added column is not in the report, auto-increment that is switched off is not in the changelog, and a changed on-update value is in neither.",
 "C160": "C160_report_exact and C160_changelog_exact (C160_commands_exact for the commands and files) say when exactly there is no difference: all types and defaults survive in MySQL, columns with auto-increment are not null, and with useComments no table has a description. C160_violated: a column with auto-increment that is not said to be not null is reported, in both directions.",
 "C161": "C161_script_exact says when exactly the statements are the same: no tinyint(1), no default NULL or with a sign outside of character types, columns with auto-increment are not null, and columns of one name are in the same keys. C161_violated: each of the first three alone changes the script. C161_commands_exact: the same for the commands, up to the order of the statements (the imported file is sorted). Scripts are compared as what the parser makes of them, not as text.",
 "C162": "C162_injective_partial: holds when the tables of both schemas satisfy the condition of C161 (SaidAgainTable). C162_violated: a default with a sign and none, tinyint(1) and bit(1), and a nullable and a not-null column with auto-increment are imported as the same. Scripts are compared as what the parser makes of them, not as text.",
 "C163": "C163_exact (Cli.C163_commands for files): accepted if and only if each selected table has at most one such column, without a default, as first column of the primary key, first unique column or first column of an index. C163_import_exact: the condition on an accepted script for the one that is exported after an import. C163_violated: a primary key (id, shop) becomes (shop, id); C163_violated_unique: UNIQUE at a column is lost; Cli.C163_violated_stored: the check of a schema does not look at it. What MySQL accepts is stated in Spec/AutoIncrement.lean after the manual.",
 "C164": "C164_exact (Cli.C164_commands for files): accepted if and only if no column of a selected table with one of these types has a default value or the name of a column of a key or an index. Cli.C164_violated: a stored schema with a text as primary key and a text with a default value, which the check of a schema lets through. What MySQL accepts is stated in Spec/LongTypes.lean after the manual; expression defaults and prefix lengths are left out, as the tool writes neither.",
 "C165": "C165_exact (Cli.C165_commands for files): accepted if and only if no column of a selected table is a varbinary, an enum or set without members, a varchar without size, a double with a size only, or a bit, integer, char or varchar with a scale. Cli.C165_violated: a stored schema with varbinary of size 16. C165_import_exact: after an import, if and only if every declared double has decimals or no length, no length of a varchar is lost and enumerations have members; C165_violated_import: double(10,0), which MySQL accepts, becomes double(10). The accepted numbers of arguments are stated in Spec/TypeArgs.lean after the manual; the ranges of the numbers are left out.",
 "C166": "C166_exact (Cli.C166_commands for files): accepted if and only if each column of a selected table with a function as default value, or with an update, is a datetime, and the function or update is the current time. Cli.C166_violated: a stored schema with the default fn::uuid, written as DEFAULT uuid(). What MySQL accepts is stated in Spec/TimeFunctions.lean after the manual; fractional seconds are left out, as the tool writes none."
}