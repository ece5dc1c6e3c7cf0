{"id": "C01", "title": "Column types are canonicalised, case-insensitively and idempotently", "statement": "After normalising a column its type depends only on the lower-cased spelling of the type; every documented alias (string, tinyint, smallint, mediumint, int, integer, bigint, long, numeric, real, timestamp, the *blob and *text names) becomes the documented canonical type; a type that is already canonical is left alone, so normalising twice equals normalising once.", "quantifier": "every column and every type string", "why_tests_cant": "There are infinitely many spellings; a test samples a few and cannot show that no alias maps to another alias.", "anchors": ["format/octopus/column.go:NormalizeType", "format/octopus/column.go:toNormalizedType", "format/octopus/types.go:colTypeSet"]}
{"id": "C02", "title": "Schema normalisation keeps every table and changes only type and auto-increment", "statement": "If Normalize succeeds, the schema holds exactly the same tables (as a multiset, with the same columns in the same order) and each column differs from the original only in its canonicalised type and in auto-increment being switched off when the type cannot auto-increment.", "quantifier": "every schema", "why_tests_cant": "A frame condition over arbitrary schemas; a test sees only the fields it asserts on.", "anchors": ["format/octopus/table.go:Normalize", "format/octopus/column.go:Validate"]}
{"id": "C03", "title": "Normalised schemas are sorted by group and name, independent of the sorting schedule", "statement": "After Normalize tables are ordered by (group, name); when no two tables share group and name, the resulting order does not depend on the original order of the tables in the file nor on how the unstable sort breaks ties, and normalising again changes nothing.", "quantifier": "every schema and every behaviour of an unstable sort", "why_tests_cant": "sort.Sort is unstable and unspecified on ties; tests observe one implementation on one input.", "anchors": ["format/octopus/table.go:TableSlice", "format/octopus/table.go:Normalize"]}
{"id": "C04", "title": "Normalize accepts exactly the valid schemas", "statement": "Normalize returns an error exactly when some column has an empty name, a type that is not one of the supported types after canonicalisation, a set column without 1..64 values or an enum column without values; an auto-increment flag on an unsuitable type is never an error (it is corrected). The reported table is the first one in (group, name) order that has such a column.", "quantifier": "every schema", "why_tests_cant": "Both directions of an iff over all schemas.", "anchors": ["format/octopus/table.go:Normalize", "format/octopus/column.go:Validate", "format/octopus/types.go:IsValidColType"]}
{"id": "C05", "title": "A loaded schema is a validated schema", "statement": "If LoadSchema returns without error, then every column of the returned schema has a canonical valid type, i.e. an invalid file is reported to the user instead of being silently handed on half-normalised.", "quantifier": "every file content", "why_tests_cant": "Failure position inside the file is arbitrary; a test with a valid file never sees it. (The code violates this: the error of Normalize is dropped.)", "anchors": ["format/octopus/io.go:LoadSchema", "format/octopus/table.go:Normalize"]}
{"id": "C06", "title": "Function defaults survive storing", "statement": "A default (or on-update) value stored as a function is read back as the same function; a stored plain value is read back as the same plain value provided it does not itself start with `fn::`.", "quantifier": "every function name and every plain value", "why_tests_cant": "All strings; the ambiguity shows only on values with the marker prefix.", "anchors": ["format/octopus/column.go:SetDefaultValueFn", "format/octopus/column.go:GetDefaultValue", "format/octopus/column.go:SetOnUpdateFn", "format/octopus/column.go:GetOnUpdate"]}
{"id": "C07", "title": "Saving and loading a schema loses nothing", "statement": "Writing a schema as JSON and reading the document back yields exactly the normalised schema: every table, column, flag, size, value list, reference and index.", "quantifier": "every schema that can be saved", "why_tests_cant": "Omit-empty encodings must be lossless for every combination of present/absent fields.", "anchors": ["format/octopus/table.go:ToJson", "format/octopus/table.go:FromJson", "format/octopus/column.go:Column", "format/octopus/table.go:Table"]}
{"id": "C08", "title": "Lookups agree with the table list", "statement": "Looking a table up by name succeeds exactly when the schema has a table of that name and returns a table with that name; the same for columns and indices; resolving a reference succeeds exactly when both the table and the column exist. When names are distinct all lookup styles return the same element.", "quantifier": "every schema, table and name", "why_tests_cant": "Quantifies over all schemas, including ones with duplicate names, where the two lookup styles disagree.", "anchors": ["format/octopus/table.go:TableByName", "format/octopus/table.go:TablesByName", "format/octopus/table.go:ColumnByName", "format/octopus/table.go:ColumnNameMap", "format/octopus/table.go:FindReference", "format/octopus/table.go:IndexByName"]}
{"id": "C09", "title": "The list of groups is complete, sorted and duplicate free", "statement": "Groups returns every group used by some table exactly once, in ascending order, whatever order the hash map is traversed in.", "quantifier": "every schema and every map iteration order", "why_tests_cant": "Map iteration order is random per run.", "anchors": ["format/octopus/table.go:Groups", "util/set.go:Slice"]}
{"id": "C10", "title": "The --groups option selects exactly the listed groups", "statement": "With an empty option every table is selected; otherwise a table is selected exactly when its group is one of the comma separated entries (compared literally, without trimming).", "quantifier": "every option string without restriction and every table", "why_tests_cant": "All option strings and groups.", "anchors": ["format/octopus/filter.go:GetTableFilterFn"]}
{"id": "C11", "title": "StringSet is a mathematical set", "statement": "After any sequence of add/remove/clear operations, membership, size, equality and the sorted slice of a StringSet are those of the finite set obtained by performing the same operations on a mathematical set; in particular the slice is strictly ascending and independent of map iteration order.", "quantifier": "every history of operations and every map iteration order", "why_tests_cant": "Histories are unbounded and iteration order is random.", "anchors": ["util/set.go:StringSet"]}
{"id": "C12", "title": "MultiMap keeps insertion order per key; removal removes", "statement": "Values put under a key are returned in insertion order and puts under other keys do not interfere; removing a value leaves the other values of that key, in order, and nothing else (including when the value had been put more than once).", "quantifier": "every history of puts and removals", "why_tests_cant": "The defect needs a duplicate value; (the code violates the removal half for duplicates because it compacts the slice while ranging over it).", "anchors": ["util/multimap.go:Put", "util/multimap.go:Get", "util/multimap.go:RemoveValue", "util/multimap.go:Keys"]}
{"id": "C13", "title": "Memoized functions agree with the function and call it once per key", "statement": "For any sequence of calls, a memoized function returns for each key the value computed at the first call with that key, the underlying function runs exactly once per distinct key, and for a pure function every result equals the direct result.", "quantifier": "every call history", "why_tests_cant": "Unbounded call histories.", "anchors": ["util/memoization.go:NewStringMemoizer"]}
{"id": "C14", "title": "Type text parsing inverts type formatting", "statement": "Parsing the text produced by formatting a column returns the same type name, size and scale; and parsing is total. (The code only achieves this for type names made of letters; `int64(20)` comes back as the type `int64(20)` with size 0.)", "quantifier": "every type name, size and scale", "why_tests_cant": "All names and all 2^32 size/scale pairs.", "anchors": ["util/types.go:ParseType", "format/octopus/column.go:Format"]}
{"id": "C15", "title": "Prefix and annotation options map each group to its own value", "statement": "An option without ':' gives the same prefix/annotation to every group; an option of the form g1:v1,g2:v2 gives each listed group its value (the last one wins for repeated groups) and nothing to unlisted groups; malformed entries are reported rather than crashing.", "quantifier": "every option string and group", "why_tests_cant": "All option strings; the crash needs an entry without ':' next to one with ':'. (The code panics there.)", "anchors": ["format/common/prefix.go:NewPrefixMapper", "format/common/prefix.go:GetPrefix", "format/common/annotation.go:NewAnnotationMapper", "format/common/annotation.go:GetAnnotations"]}
{"id": "C16", "title": "File format detection depends only on the lower-cased extension", "statement": "The detected format is a function of the text after the last dot of the last path element, ignoring case; an explicit format always wins.", "quantifier": "every file name", "why_tests_cant": "All file names.", "anchors": ["format/common/formats.go:GetFileFormat", "format/common/formats.go:GetFileFormatIfNotSet"]}
{"id": "C17", "title": "Exported MySQL DDL can be read back to the same table structure", "statement": "Reading the exported DDL text with an independent reader recovers, in order, each selected table's name, and for each table its column names in order, its primary key columns in order, its unique columns and its indices with their columns; no definition is lost or duplicated and every definition but the last ends with a comma.", "quantifier": "every schema whose identifiers contain no line break, back-quote, space or comma, every filter, every suffix", "why_tests_cant": "Universally quantified structural round trip over unbounded tables and columns.", "anchors": ["format/mysql/exporter.go:Export", "format/mysql/exporter.go:exportTable", "format/mysql/exporter.go:quote"]}
{"id": "C18", "title": "Exported MySQL column types name the right MySQL type", "statement": "For every canonical octopus type the exported MySQL type name is the documented counterpart, distinct canonical types give distinct MySQL type texts (except boolean and bit(1)), and size and scale are included exactly for the sized types.", "quantifier": "every column with a canonical type, every size and scale", "why_tests_cant": "All sizes/scales and pairwise distinctness.", "anchors": ["format/mysql/exporter.go:ToMysqlColumnType", "format/mysql/exporter.go:formatColumnType"]}
{"id": "C19", "title": "Exported MySQL column types keep the declared size", "statement": "If a column with a sized character, binary, bit, numeric type has a non-zero size then the size appears in the exported type. (Violated for binary and varbinary, whose size is dropped.)", "quantifier": "every column", "why_tests_cant": "Needs all sizes and types; only two types break it.", "anchors": ["format/mysql/exporter.go:ToMysqlColumnType"]}
{"id": "C20", "title": "Exported MySQL column constraints state exactly the column's attributes", "statement": "NOT NULL, AUTO_INCREMENT, DEFAULT, ON UPDATE and COMMENT appear exactly when the column has the attribute, in that order; function defaults are written as a call, textual defaults are quoted exactly for character types.", "quantifier": "every column", "why_tests_cant": "All attribute combinations and values.", "anchors": ["format/mysql/exporter.go:ColumnConstraints", "util/types.go:IsStringType"]}
{"id": "C21", "title": "Exporting to MySQL and importing again preserves the column's type", "statement": "For every canonical type, size and scale for which the exporter writes the size, the importer maps the exported MySQL type back to the same octopus type, size and scale.", "quantifier": "every canonical type, size and scale", "why_tests_cant": "Composition of two tables over all sizes, with carve-outs (boolean/bit(1), tinyint(1), binary) found only by proof.", "anchors": ["format/mysql/exporter.go:ToMysqlColumnType", "format/mysql/importer.go:toOctopusColumn"]}
{"id": "C22", "title": "MySQL import takes over every CREATE TABLE that is not excluded", "statement": "The imported schema contains exactly one table for each CREATE TABLE statement whose name is not in the exclude list, in statement order, with one column per column definition in order.", "quantifier": "every list of parsed statements and every exclude list", "why_tests_cant": "Unbounded statement lists.", "anchors": ["format/mysql/importer.go"]}
{"id": "C23", "title": "MySQL import reflects keys and options declared on columns or on the table", "statement": "A column is imported as primary key / unique / not null / auto-increment exactly when an option on the column or a table-level constraint says so; indices are imported with name and columns in order.", "quantifier": "every parsed CREATE TABLE", "why_tests_cant": "All combinations and orders of options and constraints.", "anchors": ["format/mysql/importer.go"]}
{"id": "C24", "title": "Comparing a schema with itself yields no changes", "statement": "The diff of a schema (with distinct table and column names) against itself is empty when no group filter is given, whatever the options and map iteration order.", "quantifier": "every schema with distinct names, every option, every map iteration order", "why_tests_cant": "All schemas.", "anchors": ["format/diff/diff.go:getDiff", "format/diff/diff.go:diffTable", "format/diff/diff.go:diffColumn"]}
{"id": "C25", "title": "Change-set ids are unique", "statement": "No two change sets of one diff result carry the same id, so that migration tools do not reject or skip one of them.", "quantifier": "every pair of schemas, every filter/options and every map iteration order", "why_tests_cant": "Id bookkeeping (bump/revert) over unbounded histories.", "anchors": ["format/diff/changeset.go:ChangeSetID", "format/diff/diff.go:getDiff", "format/diff/diff.go:diffTable"]}
{"id": "C26", "title": "Every table is accounted for exactly once", "statement": "With no filter and distinct table names: each old table that is neither kept nor a rename source is dropped exactly once; each new table is compared (if a table of that name existed), or created exactly once, or is the target of exactly one rename; no old table is the source of two renames; no table is both dropped and renamed.", "quantifier": "every pair of schemas and every map iteration order", "why_tests_cant": "A partition property over arbitrary schemas with greedy rename matching.", "anchors": ["format/diff/diff.go:getDiff", "format/liquibase/diff.go:Generate"]}
{"id": "C27", "title": "Renames are only inferred between identical shapes", "statement": "A table rename is reported only between a vanished and a new table whose column lists are identical; a column rename only between a vanished and a new column that agree on type, size, scale, nullability, key flags, auto-increment, default and on-update (and comment when comments are compared).", "quantifier": "every pair of schemas and every map iteration order", "why_tests_cant": "Greedy matching over arbitrary inputs.", "anchors": ["format/diff/diff.go:getDiff", "format/diff/diff.go:diffTable", "format/octopus/column.go:IsRenamed"]}
{"id": "C28", "title": "The diff result does not depend on map iteration order beyond the order of renames", "statement": "For any two runs on the same input the two results contain the same changes, up to reordering whole rename blocks; with at most one rename the results are identical.", "quantifier": "every pair of schemas and every two map iteration orders", "why_tests_cant": "Schedules are random; a test run sees one.", "anchors": ["format/diff/diff.go:getDiff", "format/diff/diff.go:diffTable"]}
{"id": "C29", "title": "A group-restricted diff does not touch other groups", "statement": "With --groups set, the diff only contains changes to tables of the selected groups. (Violated: tables outside the groups are reported as dropped.)", "quantifier": "every pair of schemas and every group filter", "why_tests_cant": "Needs tables outside the filter; the statement ranges over all filters.", "anchors": ["format/diff/diff.go:getDiff", "format/liquibase/diff.go:Generate"]}
{"id": "C30", "title": "Applying the diff turns the old schema into the new one", "statement": "Executing all reported changes in order on a database with the old structure gives a database with the new structure (tables, columns with type/size/scale/null/auto-increment/default, primary keys and the unique constraint). (Violated: added columns of existing tables are never reported.)", "quantifier": "every pair of well-formed schemas and every map iteration order", "why_tests_cant": "A refinement statement over all schema pairs.", "anchors": ["format/diff/diff.go:getDiff", "format/diff/diff.go:diffTable", "format/diff/diff.go:diffColumn"]}
{"id": "C31", "title": "Added columns are reported", "statement": "If the new version of a table has a column that the old version lacks and that is not a rename, the diff contains an add-column change for it. (Violated for every input by the markdown/flyway diff; satisfied by the liquibase diff.)", "quantifier": "every pair of table versions", "why_tests_cant": "Universal failure is a statement about all inputs.", "anchors": ["format/diff/diff.go:diffTable", "format/liquibase/diff.go:diffTable"]}
{"id": "C32", "title": "Unique constraints are dropped before and re-created after the column changes", "statement": "When the set of unique columns of a table changes, the old constraint (if there was one) is dropped before any column of the table is dropped, renamed or added, and the new constraint (if any) is created after all of them, under the documented name (table name plus suffix).", "quantifier": "every pair of table versions", "why_tests_cant": "Ordering of unbounded change lists.", "anchors": ["format/diff/diff.go:diffTable", "format/liquibase/diff.go:diffTable"]}
{"id": "C33", "title": "Column attribute changes are reported exactly once each and only when present", "statement": "For a column present in both versions the diff reports type, comment, nullability, auto-increment and default changes, each exactly when the attribute differs.", "quantifier": "every pair of columns", "why_tests_cant": "All combinations.", "anchors": ["format/diff/diff.go:diffColumn", "format/liquibase/diff.go:diffColumn"]}
{"id": "C34", "title": "The markdown report lists every change exactly once under its table", "statement": "The report has one heading per changed table, in ascending order without duplicates, and under each heading exactly the changes of that table in the order of the diff; no change is lost, whatever the map iteration order.", "quantifier": "every diff result and every map iteration order", "why_tests_cant": "Grouping through a hash multimap.", "anchors": ["format/diff/markdown.go:Write", "format/diff/markdown.go:toMarkdownLine"]}
{"id": "C35", "title": "The flyway script contains a statement for every change", "statement": "Every change in the diff result produces at least one SQL statement in the migration script. (Violated: eight kinds of change produce no SQL.)", "quantifier": "every change", "why_tests_cant": "The claim is about all change kinds.", "anchors": ["format/diff/mysql.go:ToSQL", "format/diff/flyway.go"]}
{"id": "C36", "title": "Switching auto-increment off switches it off", "statement": "The SQL produced for removing auto-increment from a column does not ask the database for auto-increment. (Violated for every column.)", "quantifier": "every column", "why_tests_cant": "Universal negative.", "anchors": ["format/diff/mysql.go:toSetAutoIncrementSQL"]}
{"id": "C37", "title": "The generated liquibase changelog creates every selected table completely", "statement": "The changelog has exactly one createTable per selected table, in order, with exactly its columns in order, name, type, auto-increment, and nullability; the primary key is declared either inline or by one addPrimaryKey listing exactly the key columns; a unique constraint over exactly the unique columns is declared when there are any.", "quantifier": "every schema, filter and option", "why_tests_cant": "Unbounded tables.", "anchors": ["format/liquibase/generator.go:Generate", "format/liquibase/generator.go:newCreateTableChangeSet", "format/liquibase/generator.go:newLqColumn"]}
{"id": "C38", "title": "Liquibase change-set ids are unique", "statement": "No two change sets of a generated or diff changelog have the same id.", "quantifier": "every schema (pair), filter, option and map iteration order", "why_tests_cant": "Id bookkeeping with minor/major counters.", "anchors": ["format/liquibase/generator.go", "format/liquibase/diff.go"]}
{"id": "C39", "title": "Running the generated changelog on an empty database builds the schema", "statement": "Executing the generated changelog against an empty database succeeds and leaves exactly the selected tables with their columns, types, nullability, primary key and unique constraint.", "quantifier": "every schema with distinct table names and distinct column names", "why_tests_cant": "Refinement against a database semantics.", "anchors": ["format/liquibase/generator.go"]}
{"id": "C40", "title": "Running the liquibase diff migrates the old database to the new schema", "statement": "Executing the diff changelog on a database built from the old schema succeeds and leaves the database of the new schema. (Violated in several corners: dropping a unique constraint that does not exist, removing auto-increment, changing on-update/enum values/indices.)", "quantifier": "every pair of well-formed schemas, every map iteration order", "why_tests_cant": "Refinement; corners arise only from combinations.", "anchors": ["format/liquibase/diff.go"]}
{"id": "C41", "title": "The liquibase diff never drops a constraint that does not exist", "statement": "A dropUniqueConstraint change is emitted only for a table that had a unique constraint. (Violated when a table gains its first unique column.)", "quantifier": "every pair of table versions", "why_tests_cant": "Universal.", "anchors": ["format/liquibase/diff.go"]}
{"id": "C42", "title": "No empty change set is emitted", "statement": "Every change set in the changelog contains at least one change. (Violated when a table loses its last unique column.)", "quantifier": "every pair of schemas", "why_tests_cant": "Universal.", "anchors": ["format/liquibase/diff.go"]}
{"id": "C43", "title": "Liquibase default values are emitted in the right kind", "statement": "A column's default value is emitted as numeric for numeric columns, boolean for boolean columns, computed for functions and as text otherwise, and generation succeeds. (Violated: integer types are not recognised; a function default on a decimal column aborts generation.)", "quantifier": "every column and default value", "why_tests_cant": "All strings.", "anchors": ["format/liquibase/generator.go:newLqDefaultValue", "util/types.go:IsNumericType"]}
{"id": "C44", "title": "Added columns are placed after their predecessor", "statement": "When a column is added, the changelog places it after the column that precedes it in the new table, and successive additions reproduce the new column order relative to existing columns. (Violated for a column added in front of all others.)", "quantifier": "every pair of table versions", "why_tests_cant": "Order over arbitrary insertions.", "anchors": ["format/liquibase/generator.go", "format/liquibase/diff.go"]}
{"id": "C45", "title": "Exporting to a spreadsheet and importing it again preserves the schema", "statement": "The rows written for a group, read back by the importer, give the same tables with the same columns (name, type, size, scale, key flags, nullability, auto-increment, default, description, reference target) and indices. (Holds only for restricted schemas: letters-only sized types, no comma in values, no on-update, no value lists, key column not also unique, trimmed descriptions.)", "quantifier": "every schema", "why_tests_cant": "Round trip over unbounded schemas.", "anchors": ["format/xlsx/exporter.go", "format/xlsx/importer.go"]}
{"id": "C46", "title": "The on-update attribute survives the spreadsheet", "statement": "A column's on-update value is written to the attributes cell. (Violated: the default value is written instead.)", "quantifier": "every column with an on-update value", "why_tests_cant": "All values.", "anchors": ["format/xlsx/exporter.go"]}
{"id": "C47", "title": "Each group has its own sheet", "statement": "Tables of different groups are written to different sheets and each table is written to exactly one sheet. (Violated for the pairs empty/`Common` and for the group `Meta`.)", "quantifier": "every schema", "why_tests_cant": "Collisions need particular names.", "anchors": ["format/xlsx/exporter.go", "format/octopus/table.go:Groups"]}
{"id": "C48", "title": "Importing a spreadsheet does not depend on sheet iteration order", "statement": "The imported schema after normalisation does not depend on the order in which the sheets are visited.", "quantifier": "every workbook and every map iteration order", "why_tests_cant": "Random order per run.", "anchors": ["format/xlsx/importer.go"]}
{"id": "C49", "title": "The version-1 importer keeps every table and column attribute", "statement": "Importing a version-1 document yields one table per table and one column per column with the same name, keys, size, scale, nullability, default and description. (Violated: the description is stored as default value and the class name is lost.)", "quantifier": "every version-1 document", "why_tests_cant": "All documents.", "anchors": ["format/ojson/importer.go", "format/ojson/table.go", "format/ojson/column.go"]}
{"id": "C50", "title": "The StarUML importer keeps every entity of the first data model", "statement": "Importing a StarUML document yields one table per entity with one column per attribute; column references resolve to the referenced entity and column; numeric column lengths are honoured. (Violated: a JSON number length is ignored and a dangling reference crashes.)", "quantifier": "every StarUML document", "why_tests_cant": "All documents.", "anchors": ["format/staruml/staruml.go", "format/staruml/importer.go"]}
{"id": "C51", "title": "DBML output declares every relation exactly once", "statement": "For every column reference in the schema exactly one ref appears in the DBML output, inline or at the end, and inline only if the target table has been written before.", "quantifier": "every schema", "why_tests_cant": "Order dependence over arbitrary reference graphs including cycles.", "anchors": ["format/dbml"]}
{"id": "C52", "title": "DBML output respects the group filter", "statement": "Only tables of the selected groups are written. (Violated: the filter is ignored.)", "quantifier": "every schema and filter", "why_tests_cant": "All filters.", "anchors": ["format/dbml"]}
{"id": "C53", "title": "PlantUML output lists all columns and one edge per reference", "statement": "Every selected table becomes one entity with all its columns, key columns above and other columns below the separator, and each column reference becomes one edge.", "quantifier": "every schema and filter", "why_tests_cant": "Unbounded.", "anchors": ["format/plantuml"]}
{"id": "C54", "title": "QuickDBD output lists all tables and columns in order", "statement": "Each selected table becomes one block with one line per column in order carrying its key flags, type and reference.", "quantifier": "every schema and filter", "why_tests_cant": "Unbounded.", "anchors": ["format/quickdbd"]}
{"id": "C55", "title": "Protobuf field numbers are unique, positive and column order", "statement": "In every generated message fields are numbered 1..n in column order, relation fields get numbers that collide neither with each other nor with column fields, for every relation-tag option.", "quantifier": "every table and every relation tag option", "why_tests_cant": "Arithmetic over all options.", "anchors": ["format/protobuf/generator.go:newPbMessage"]}
{"id": "C56", "title": "Protobuf field numbers are legal", "statement": "No generated field number falls into the range 19000-19999 reserved by protobuf. (Violated for suitable options or large tables.)", "quantifier": "every table and option", "why_tests_cant": "Needs very large tables or particular options.", "anchors": ["format/protobuf/generator.go:newPbMessage"]}
{"id": "C57", "title": "Protobuf field types match column types and imports are complete", "statement": "Each column gets the documented scalar type; the timestamp import is present exactly when some selected table has a date/time column.", "quantifier": "every schema and filter", "why_tests_cant": "All schemas.", "anchors": ["format/protobuf/generator.go"]}
{"id": "C58", "title": "Protobuf field names are unique within a message", "statement": "No two fields in a message share a name. (Violated when two columns reference the same table.)", "quantifier": "every table", "why_tests_cant": "All tables.", "anchors": ["format/protobuf/generator.go"]}
{"id": "C59", "title": "GORM structs represent every column exactly once", "statement": "Every column of a table is either covered by an embedded struct whose columns all exist in the table, or appears as exactly one field, in column order.", "quantifier": "every table, embed option and map iteration order", "why_tests_cant": "Depends on map iteration order when several embedded structs overlap.", "anchors": ["format/gorm"]}
{"id": "C60", "title": "GORM tags carry name, type, key, unique, index and nullability", "statement": "The tag list of a field contains the column override exactly when the field name does not convert back to the column name, primary_key/auto_increment/not null/unique exactly according to the column, and one index tag per index containing the column.", "quantifier": "every table and column", "why_tests_cant": "All combinations.", "anchors": ["format/gorm"]}
{"id": "C61", "title": "Kotlin JPA entities represent every column exactly once with matching nullability", "statement": "Each column becomes one constructor property in order; the property type is nullable exactly when the column is; the unique constraint lists the unique columns of the table. (Violated: the constraint lists property names, not column names.)", "quantifier": "every table", "why_tests_cant": "All tables.", "anchors": ["format/jpa"]}
{"id": "C62", "title": "Generating repositories never crashes", "statement": "A repository is generated for each entity or the entity is skipped. (Violated: a table without primary key panics.)", "quantifier": "every table", "why_tests_cant": "All tables.", "anchors": ["format/jpa"]}
{"id": "C63", "title": "SQLAlchemy models import every name they use", "statement": "In each generated file every SQLAlchemy class used by a column is imported. (Violated in multi-file mode, where the import set is cleared after the first file.)", "quantifier": "every schema, filter and output mode", "why_tests_cant": "History of files.", "anchors": ["format/sqlalchemy"]}
{"id": "C64", "title": "SQLAlchemy attribute names are legal Python and map back to the column", "statement": "An attribute whose name would be a Python reserved word is renamed and the column keeps its database name through an explicit name argument; otherwise the name override is present exactly when needed.", "quantifier": "every column name", "why_tests_cant": "All strings.", "anchors": ["format/sqlalchemy", "util/python.go:IsPythonReservedWord"]}
{"id": "C65", "title": "GraphQL types represent every column with the right nullability", "statement": "Each selected table becomes one type with one field per column in order; a single primary key is ID!, and a field is marked non-null exactly when the column is.", "quantifier": "every schema and filter", "why_tests_cant": "Unbounded.", "anchors": ["format/graphql"]}
{"id": "C66", "title": "Free text in a schema cannot break out of its SQL literal", "statement": "Whatever the descriptions, enum members, names and default values of a schema contain, the exported MySQL script consists of exactly one CREATE TABLE statement per selected table.", "quantifier": "every schema, filter and suffix", "why_tests_cant": "An adversarial text is needed to break the output; tests use harmless descriptions.", "anchors": ["format/mysql/exporter.go:ColumnConstraints", "format/mysql/exporter.go:ToMysqlColumnType", "format/mysql/exporter.go:exportTable"]}
{"id": "C67", "title": "Default literals that need quotes are quoted in MySQL DDL", "statement": "A literal default value of a column whose SQL literals are written between quotes (char, varchar, text*, enum, set, date, datetime, time) is written between single quotes; a function default is written as a call without quotes.", "quantifier": "every column", "why_tests_cant": "Ranges over all types and all default values.", "anchors": ["format/mysql/exporter.go:ColumnConstraints", "util/types.go:IsStringType"]}
{"id": "C68", "title": "The SQL for an added column adds the column", "statement": "The statement produced for a column added to a table asks the database to add that column with its type, nullability, default, on-update value and comment. (Violated: the text is ALTER TABLE t MODIFY ADD c ..., which is not a statement.)", "quantifier": "every table and column", "why_tests_cant": "Universal over columns; the current diff never produces the change, so no example exercises it.", "anchors": ["format/diff/mysql.go:toAddColumnSQL"]}
{"id": "C69", "title": "Changing nullability keeps the rest of the column", "statement": "The statement produced for a nullability change restates the column's default, on-update value, comment and auto-increment, because MODIFY replaces the whole definition. (Violated: they are omitted.)", "quantifier": "every table and column", "why_tests_cant": "Quantifies over all attribute combinations.", "anchors": ["format/diff/mysql.go:toSetNotNullConstraintSQL"]}
{"id": "C70", "title": "A primary key is dropped only if there is one", "statement": "The SQL for a primary key change drops the old primary key exactly when the old table has one. (Violated: DROP PRIMARY KEY is always emitted.)", "quantifier": "every pair of tables", "why_tests_cant": "Needs tables without key, which examples omit.", "anchors": ["format/diff/mysql.go:toUpdatePrimaryKeySQL"]}
{"id": "C71", "title": "Generated changelog followed by a diff changelog builds the new schema", "statement": "Running the changelog generated for the old schema on an empty database and then the diff changelog to the new schema leaves exactly the database of the new schema. (Violated: a single unique column gets a second, database-named constraint that no diff ever drops.)", "quantifier": "every pair of well-formed schemas, every map iteration order, every listed database product", "why_tests_cant": "The two generators are tested separately on text; the composition needs a database semantics.", "anchors": ["format/liquibase/generator.go", "format/liquibase/diff.go"]}
{"id": "C72", "title": "The liquibase diff of a schema with itself is empty", "statement": "Comparing a schema with itself produces a changelog without change sets.", "quantifier": "every schema with distinct names, every option and map iteration order", "why_tests_cant": "Only one fixture is compared; renames, keys and comments interact for arbitrary schemas.", "anchors": ["format/liquibase/diff.go"]}
{"id": "C73", "title": "Reference cells of a spreadsheet name the referenced table", "statement": "A cell `{relationship}{table}.{column}` (docs/xlsx.md) is imported as a reference to that table and column with that relationship. (Violated: the relationship marker stays part of the table name.)", "quantifier": "every marker, table name and column name", "why_tests_cant": "The only test uses no marker.", "anchors": ["format/xlsx/importer.go:parseReference"]}
{"id": "C74", "title": "The documented auto-increment attribute is recognised", "statement": "A column whose attributes contain `autoinc`, the spelling of docs/xlsx.md, is imported as auto-incremental. (Violated: only `autoInc` is recognised.)", "quantifier": "every row and every list of attributes", "why_tests_cant": "All attribute lists.", "anchors": ["format/xlsx/importer.go:readGroupSheet", "format/xlsx/importer.go:parseAttributes"]}
{"id": "C75", "title": "Importing a sheet yields one table per table row with the columns and indices below it", "statement": "Every row of type `table` starts a table named after it; the rows up to the next table row give its columns in order, and the rows with key `I` give its indices: one per index name, with the columns of all rows of that name in order. The import fails exactly if a table row has no name.", "quantifier": "every sheet", "why_tests_cant": "Sheets of any length with rows of any shape.", "anchors": ["format/xlsx/importer.go:readGroupSheet", "format/octopus/table.go:IndexByName", "format/octopus/table.go:AddIndex"]}
{"id": "C76", "title": "DBML default values and notes are valid DBML", "statement": "Every default value and note in the DBML output is a DBML value (a quoted string, number, expression or keyword) denoting the value in the schema. (Violated: values of non-character types are written unquoted, and quotes are not escaped.)", "quantifier": "every schema", "why_tests_cant": "All texts as default values and notes.", "anchors": ["format/dbml"]}
{"id": "C77", "title": "Diagram exports carry the declared sizes", "statement": "Schemas that differ in the declared size or scale of a column give different QuickDBD and PlantUML documents, as they give different DBML documents. (Violated: neither writes sizes.)", "quantifier": "every schema", "why_tests_cant": "Relates the outputs of all pairs of schemas.", "anchors": ["format/quickdbd/exporter.go:getColumnDef", "format/plantuml/generator.go:getColumnDef"]}
{"id": "C78", "title": "Protobuf relation tag options have their documented effect", "statement": "With relationTagDecr the relation fields are numbered downwards from relationTagStart, and the command line passes both flags on to the generator. (Violated twice: the numbers always increase, and the command line ignores both flags.)", "quantifier": "every schema and option", "why_tests_cant": "All option values and all tables.", "anchors": ["format/protobuf/generator.go:newPbMessage", "format/protobuf/cli.go:Action"]}
{"id": "C79", "title": "Every type used in a generated proto file is defined", "statement": "The type of every field is a protobuf scalar, an imported type, or a message of the same file. (Violated by column types the generator does not know, and by references to tables that the group filter drops.)", "quantifier": "every schema and filter", "why_tests_cant": "All schemas, types and filters.", "anchors": ["format/protobuf/generator.go:newPbField", "format/protobuf/generator.go:newPbMessage"]}
{"id": "C80", "title": "Protobuf generation does not crash", "statement": "Generating from a schema never crashes. (Violated exactly by references to tables that do not exist.)", "quantifier": "every schema and option", "why_tests_cant": "All schemas.", "anchors": ["format/protobuf/generator.go:newPbMessage"]}
{"id": "C81", "title": "One-to-many references become repeated fields", "statement": "A reference with relationship 1:n gives a repeated field. (Violated: the relationship has no effect on the output.)", "quantifier": "every schema", "why_tests_cant": "Relates outputs for all pairs of schemas.", "anchors": ["format/protobuf/generator.go:generateProto"]}
{"id": "C82", "title": "Protobuf names are identifiers", "statement": "Message and field names are protobuf identifiers. (Violated by names whose first letter or digit is a digit, as in the tests of the repository.)", "quantifier": "every schema", "why_tests_cant": "All names.", "anchors": ["format/protobuf/generator.go:newPbField", "format/protobuf/generator.go:getMessageName"]}
{"id": "C83", "title": "GORM output depends only on the schema and the options", "statement": "Two calls of Generate with the same schema and options write the same file, whatever the map iteration order and whatever was generated before in the same process.", "quantifier": "every schema, option, map iteration order and sequence of earlier calls", "why_tests_cant": "A test sees one iteration order and starts from the initial registry.", "anchors": ["format/gorm/gorm_model.go:77-93", "format/gorm/generator.go:60-67"]}
{"id": "C84", "title": "GORM files import exactly the packages they use", "statement": "The packages imported by the file are exactly those that qualify a type or an embedded struct in it.", "quantifier": "every schema and option", "why_tests_cant": "Depends on the combination of all types, nullability and embedded structs.", "anchors": ["format/gorm/gorm.go:96-202", "format/gorm/generator.go:83-97"]}
{"id": "C85", "title": "GORM struct fields have different names", "statement": "No two fields of a generated struct have the same name.", "quantifier": "every schema and option", "why_tests_cant": "Depends on all pairs of columns and references.", "anchors": ["format/gorm/gorm.go:33-86"]}
{"id": "C86", "title": "GORM struct fields are exported", "statement": "Every generated field starts with a capital letter, so that GORM maps it.", "quantifier": "every column name", "why_tests_cant": "Any column name.", "anchors": ["format/gorm/gorm.go:204-216"]}
{"id": "C87", "title": "GORM tags give the declared sizes", "statement": "The tag of a column with a declared size gives the type with its size.", "quantifier": "every column", "why_tests_cant": "All combinations of type, size and scale.", "anchors": ["format/gorm/generator.go:322-345"]}
{"id": "C88", "title": "GORM embedding keeps the types of the columns", "statement": "A struct is only embedded instead of columns whose types are those of its fields.", "quantifier": "every table and embedded struct", "why_tests_cant": "Any types of the covered columns.", "anchors": ["format/gorm/gorm_model.go:77-93"]}
{"id": "C89", "title": "JPA entity files are well-formed Kotlin", "statement": "For every table whose texts can be written as they are, the generated entity file is a Kotlin file: names are names in Kotlin and default values are not empty. (Violated: a blob column that is not null, a nullable column of a composite key, and names that begin with a digit or are keywords.)", "quantifier": "every schema, option and table", "why_tests_cant": "Any combination of column types, nullability, key columns and names.", "anchors": ["format/jpa/kotlin-gen.go:135-281", "format/jpa/kotlin.go:70-175"]}
{"id": "C90", "title": "JPA generation writes each entity and repository to its own file", "statement": "No file of a run is written twice. (Violated: tables with the same class name, and an entity that has the name of a repository in the same directory.)", "quantifier": "every schema and option", "why_tests_cant": "Collisions depend on all pairs of tables and on both packages.", "anchors": ["format/jpa/kotlin-gen.go:292-355", "util/io.go:12-21"]}
{"id": "C91", "title": "JPA entities that implement the id interface override its property", "statement": "An entity implements the interface of the option exactly when it has one key column whose property is id, and then this property overrides the one of the interface. (Violated when the key column is nullable.)", "quantifier": "every table and option", "why_tests_cant": "All tables and combinations of key and nullability.", "anchors": ["format/jpa/kotlin-gen.go:171-190", "format/jpa/kotlin-gen.go:214-228"]}
{"id": "C92", "title": "JPA repositories have a key type that is not nullable", "statement": "The key type of a repository is the type of the key of its entity and is not nullable. (Violated when the only key column is nullable.)", "quantifier": "every table", "why_tests_cant": "All tables.", "anchors": ["format/jpa/kotlin-gen.go:357-411"]}
{"id": "C93", "title": "JPA generation only fails for references to tables that do not exist", "statement": "The process ends with an error only when a column refers to a table that does not exist. (Violated: a reference to a table that the filter leaves out ends the process.)", "quantifier": "every schema, filter and option", "why_tests_cant": "All schemas and filters.", "anchors": ["format/jpa/kotlin-gen.go:71-84", "format/jpa/kotlin-gen.go:283-290"]}
{"id": "C94", "title": "JPA files are written under the output directory", "statement": "Every file of a run lies under the output directory. (Violated without a package: the files go to the working directory.)", "quantifier": "every schema and option", "why_tests_cant": "All options.", "anchors": ["util/io.go:12-21", "format/jpa/kotlin-gen.go:306-355"]}
{"id": "C95", "title": "JPA entities have distinct property names", "statement": "The properties of an entity have different names. (Violated: different column names can have the same name in camel case.)", "quantifier": "every table", "why_tests_cant": "All pairs of columns.", "anchors": ["format/jpa/kotlin.go:70-175"]}
{"id": "C96", "title": "JPA entity files import exactly the classes of their types", "statement": "A file imports the classes that its types, time stamps and key need, each one once, and nothing else.", "quantifier": "every table", "why_tests_cant": "All combinations of column types and keys.", "anchors": ["format/jpa/kotlin-gen.go:236-262"]}
{"id": "C97", "title": "SQLAlchemy files are Python and describe the selected tables", "statement": "Each file can be read as Python, and each selected table has a class with its table name and one attribute per column in order, with type, size, scale, key, uniqueness and default of the column. (Violated for unknown types: with another attribute the file is no Python, without one the type is lost.)", "quantifier": "every schema, option and output mode", "why_tests_cant": "All combinations of types and attributes.", "anchors": ["format/sqlalchemy"]}
{"id": "C98", "title": "SQLAlchemy names stand for what the generator means", "statement": "Each name used in the single file stands for the imported object or the class that the generator means. (Violated: a table can have the class name Date, an attribute can be called datetime.)", "quantifier": "every schema", "why_tests_cant": "All table and column names.", "anchors": ["format/sqlalchemy"]}
{"id": "C99", "title": "SQLAlchemy output files", "statement": "A path that ends with .py gets one file; otherwise each selected table gets the file <table>.py, in order, and the files differ exactly when the table names do.", "quantifier": "every schema, filter and path", "why_tests_cant": "All paths.", "anchors": ["format/sqlalchemy"]}
{"id": "C100", "title": "SQLAlchemy attributes of a class are distinct", "statement": "The attributes of a class have different names. (Violated: class and class_.)", "quantifier": "every table", "why_tests_cant": "All pairs of columns.", "anchors": ["format/sqlalchemy"]}
{"id": "C101", "title": "SQLAlchemy classes declare the unique constraint over all unique columns", "statement": "A class with several unique columns declares one unique constraint in its table arguments. (Violated: the constraint is an expression of its own without effect, and each column is unique by itself.)", "quantifier": "every table", "why_tests_cant": "All sets of unique columns.", "anchors": ["format/sqlalchemy"]}
{"id": "C102", "title": "SQLAlchemy types get arguments that they accept", "statement": "The constructor of each column type accepts the arguments that it gets. (Violated for float and double with a scale.)", "quantifier": "every column", "why_tests_cant": "All types and sizes.", "anchors": ["format/sqlalchemy"]}
{"id": "C103", "title": "SQLAlchemy columns keep their nullability", "statement": "An attribute is nullable exactly when the column is. (Violated for columns that are counted up and not part of the key.)", "quantifier": "every column", "why_tests_cant": "All combinations of attributes.", "anchors": ["format/sqlalchemy"]}
{"id": "C104", "title": "GraphQL documents are well formed", "statement": "The generated document can be read as GraphQL. (Violated without selected tables, for tables without columns and for names that start with a digit.)", "quantifier": "every schema and filter", "why_tests_cant": "All names and tables.", "anchors": ["format/graphql/generator.go:40-190"]}
{"id": "C105", "title": "GraphQL documents are valid", "statement": "The types of a document have different names that are no scalars, the fields of a type have different names, and every type that is used is defined. (Violated: a table can have the type name Query or String, two tables the same type, two columns the same field.)", "quantifier": "every schema", "why_tests_cant": "All pairs of names.", "anchors": ["format/graphql/generator.go:40-190"]}
{"id": "C106", "title": "GraphQL queries cover the selected tables", "statement": "There is one query per selected table, in order, that yields a list of the type of that table, and the type is defined.", "quantifier": "every schema and filter", "why_tests_cant": "Unbounded.", "anchors": ["format/graphql/generator.go:40-190"]}
{"id": "C107", "title": "GraphQL fields can represent the numbers of their columns", "statement": "Every number that a column can have is representable in the scalar of its field. (Violated for int64, because Int has 32 bits.)", "quantifier": "every column and number", "why_tests_cant": "All numbers.", "anchors": ["format/graphql/generator.go:40-190"]}
{"id": "C108", "title": "Every declared option has an effect", "statement": "For every command and every option it declares there are inputs on which changing the option changes the files or the outcome. (Violated for nine options: exportDbml groups, graphql graphqlPackage, kt useUTC, protobuf relationTagStart and relationTagDecr, diff flyway author, diff markdown author and uniqueNameSuffix, diff liquibase uniqueNameSuffix.)", "quantifier": "every command, option, value, file system", "why_tests_cant": "That an option never matters is a statement about all inputs.", "anchors": ["main.go:1-189", "format/dbml/cli.go:16-58", "format/graphql/cli.go:1-57", "format/protobuf/cli.go:1-107", "format/diff/cli.go:1-156"]}
{"id": "C109", "title": "A command changes only the output file or files below the output directory", "statement": "Whatever the arguments and the file system, a file that a command creates or changes is the file named by --output or lies below that directory. (Violated: table and schema names containing path separators; generate kt without package writes into the working directory.)", "quantifier": "every command, arguments, environment, file system", "why_tests_cant": "All schemas, including hostile names.", "anchors": ["main.go:1-189", "format/jpa/kotlin-gen.go:290-355", "format/sqlalchemy/generator.go:1-140", "format/graphql/generator.go:1-60"]}
{"id": "C110", "title": "A command that fails changes nothing", "statement": "When a command ends with an error, a panic or log.Fatal, no file has been created or changed. (Violated by generate kt and by generate sqlalchemy with several files.)", "quantifier": "every command, arguments, environment, file system", "why_tests_cant": "All failures at all points.", "anchors": ["main.go:1-189", "format/jpa/kotlin-gen.go:60-80", "format/sqlalchemy/generator.go:1-140"]}
{"id": "C111", "title": "oct init writes the documented sample", "statement": "oct init writes the schema of docs/init.md to the output, db.json by default; the file loads as that schema. (The default is not applied: without the option the path is empty.)", "quantifier": "every output path, way of giving the option, environment, file system", "why_tests_cant": "All paths and environments.", "anchors": ["format/octopus/cli.go:9-76", "docs/init.md"]}
{"id": "C112", "title": "What an import writes is what the other commands read", "statement": "After a successful import the output file loads as the normalised schema of the importer; an import succeeds exactly when the importer yields a schema whose columns are all valid, and writes nothing otherwise.", "quantifier": "every import command, options, file contents, sorting algorithm", "why_tests_cant": "All input files.", "anchors": ["format/mysql/cli.go:21-36", "format/ojson/cli.go:12-23", "format/staruml/cli.go:1-40", "format/xlsx/cli.go:14-27", "format/octopus/io.go:8-23"]}
{"id": "C113", "title": "A version 1 document given as input loads with all of its information", "statement": "An .ojson file is accepted as input of every command; it should load as the schema that oct import ojson yields. (Violated: the descriptions of all columns are lost.)", "quantifier": "every version 1 schema and file name", "why_tests_cant": "All documents.", "anchors": ["format/octopus/io.go:8-23", "format/ojson/table.go:1-60"]}
{"id": "C114", "title": "Options can be given in every form", "statement": "Whether an option is given by its name or an alias, with one dash or two, as next argument or behind '=', in any order, or by its environment variable, the command runs with the same values.", "quantifier": "every command, options, values, forms, orders, environments", "why_tests_cant": "Combinatorially many command lines.", "anchors": ["main.go:1-189"]}
{"id": "C115", "title": "Options are declared as documented", "statement": "The options in the tables of docs/*.md and the declared flags agree in name, short name, environment variable and kind; a documented switch needs no value. (Violated by useUTC of generate sqlalchemy.)", "quantifier": "every command and option", "why_tests_cant": "Relates documentation and behaviour on all command lines.", "anchors": ["main.go:1-189", "docs/sqlalchemy.md", "format/sqlalchemy/cli.go:1-84"]}
{"id": "C116", "title": "A command depends only on its inputs and can be repeated", "statement": "Files other than the named inputs have no influence on what is written; running the same command again changes nothing unless it overwrote an input.", "quantifier": "every command, options and pair of file systems", "why_tests_cant": "Two arbitrary file systems.", "anchors": ["main.go:1-189"]}
{"id": "C117", "title": "Missing required options prevent the run", "statement": "When a required option is neither mentioned nor set in the environment, the command does not run and no file is touched; all files that are read or written are named by required options, except for the output of init.", "quantifier": "every command, argument list, environment", "why_tests_cant": "All argument lists.", "anchors": ["main.go:1-189"]}
{"id": "C118", "title": "The words of a command select it", "statement": "For every command, its words followed by arguments run that command with these arguments; other arguments touch no file.", "quantifier": "every command and argument list", "why_tests_cant": "All argument lists.", "anchors": ["main.go:1-189"]}
{"id": "C119", "title": "Exporting to a spreadsheet and importing again keeps the schema", "statement": "oct export xlsx followed by oct import xlsx of the result yields a file that every command reads as the original schema.", "quantifier": "every stored schema that a spreadsheet can represent, options, file system", "why_tests_cant": "All schemas, through file system, library and both commands.", "anchors": ["format/xlsx/cli.go:14-60", "format/octopus/io.go:8-23"]}
{"id": "C120", "title": "Exporting to MySQL and importing again keeps the selected tables", "statement": "oct export mysql followed by oct import mysql yields a file that every command reads as the tables of the selected groups without the excluded ones, with author and version of the command line.", "quantifier": "every stored schema that DDL can express, options, file system", "why_tests_cant": "All schemas and options.", "anchors": ["format/mysql/cli.go:21-95", "format/octopus/io.go:8-23"]}
{"id": "C121", "title": "The changelog document carries every change completely", "statement": "Reading the YAML document of a generated or diff changelog as Liquibase documents it yields the quoting strategy and exactly the change sets: ids, authors, preconditions, changes and all their attributes, including default values of zero and false; two changelogs with the same document are equal.", "quantifier": "every list of change sets", "why_tests_cant": "All attribute values, including empty and zero ones that omitempty could drop.", "anchors": ["format/liquibase/generator.go:14-48", "format/liquibase/generator.go:138-449", "format/liquibase/generator.go:495-499"]}
{"id": "C122", "title": "The changelog document is valid for Liquibase", "statement": "The document contains only changes and attributes that Liquibase knows, of the documented kind, and all attributes that Liquibase requires. (Violated: a schema without author yields change sets without author; removing a comment yields setColumnRemarks/setTableRemarks without remarks.)", "quantifier": "every list of change sets, schema and pair of schemas", "why_tests_cant": "All changes and attribute values.", "anchors": ["format/liquibase/generator.go:34-39", "format/liquibase/generator.go:161-164", "format/liquibase/generator.go:222-226"]}
{"id": "C123", "title": "Change sets are signed and guarded as documented", "statement": "Every change set has the author asked for (diff: the option, otherwise the new schema; generate: the schema); preconditions are attached to exactly the change sets that add the unique constraint of a created table with a single unique column.", "quantifier": "every schema, pair of schemas, options and iteration order", "why_tests_cant": "All schemas and all combinations of unique columns.", "anchors": ["format/liquibase/generator.go:107-129", "format/liquibase/diff.go:50-51"]}
{"id": "C124", "title": "StarUML documents are read as they are meant", "statement": "Importing a JSON document that describes a StarUML project (its elements by _type, _id, _parent, name, length, type, flags, references, ownedElements and columns) has the same effect as importing that project, whatever the order of the members, the case of the keys, and whatever members there are beside. Every project has such a document; a document describes at most one project. A document whose elements have members of the expected kinds, and none null, describes a project; a member of an unexpected kind in any element, however deep, makes the import fail with an error; an element that is null crashes it.", "quantifier": "for all JSON documents of any depth and size, in which no object has a key twice", "why_tests_cant": "The decoder walks nested objects of any depth; tests use a few project files.", "anchors": ["format/staruml/staruml.go:3-26", "format/staruml/importer.go:31-47", "format/staruml/importer.go:120-134"]}
{"id": "C125", "title": "The exported MySQL script builds the selected tables and can be run again", "statement": "Running the script of `export mysql` on a database without tables of these names creates exactly the selected tables, each with exactly its columns (nullability, auto-increment, default, on-update, comment), primary key and unique constraint, and leaves other tables alone; running it again changes nothing; tables that already exist are never changed.", "quantifier": "every schema with readable identifiers and values, every filter, suffix and database state", "why_tests_cant": "Databases and schemas are unbounded; idempotence and non-interference quantify over all states.", "anchors": ["format/mysql/exporter.go:Export", "format/mysql/exporter.go:exportTable"]}
{"id": "C126", "title": "The MySQL script and the liquibase changelog of a schema build the same database", "statement": "Executing the script of `export mysql` and the changelog of `generate liquibase` on an empty database gives the same tables, columns, nullability, defaults, keys and unique constraints, indices and on-update values. (Violated for indices and on-update values, which the changelog lacks.)", "quantifier": "every schema, filter, suffix and comment setting", "why_tests_cant": "Relates two generators over unbounded schemas through the meaning of their outputs.", "anchors": ["format/mysql/exporter.go:Export", "format/liquibase/generator.go:Generate", "format/liquibase/generator.go:newCreateTableChangeSet"]}
{"id": "C127", "title": "The layout of the input file does not matter", "statement": "For every command that reads a schema: two input files that hold the same tables (no two with the same group and name) in any order, with any layout of the JSON text, give the same files, whatever unstable sorting algorithm runs.", "quantifier": "every command, option values, file system, pair of input files with the same tables, pair of sorting algorithms", "why_tests_cant": "Quantifies over permutations, texts and algorithms.", "anchors": ["format/octopus/io.go:LoadSchema", "format/octopus/table.go:Normalize", "main.go:main"]}
{"id": "C128", "title": "Restricting a command to groups equals running it on the schema of these groups", "statement": "A command with --groups does to the file system what it does without the option for a file that holds only the tables of these groups. (Violated by generate pb and gorm for references into other groups, and by export dbml, which ignores the option.)", "quantifier": "every schema, list of groups, other option values and file system", "why_tests_cant": "Two runs are compared for all schemas and options.", "anchors": ["format/octopus/filter.go:GetTableFilterFn", "format/gorm/gorm.go:NewGoStruct", "format/protobuf/generator.go:newPbMessage"]}
{"id": "C129", "title": "The spelling of paths does not matter", "statement": "For every command, naming an input or output by another text that leads to the same file from every working directory (redundant slashes, `.` and `..` elements), with the same extension, gives the same outcome and the same files.", "quantifier": "all commands, option values, file systems, pairs of spellings", "why_tests_cant": "Tests use a few literal paths; the property quantifies over all pairs of texts that lead to the same place.", "anchors": ["main.go:main", "util/io.go:Mkdir", "util/io.go:MkdirPackage", "format/octopus/io.go:LoadSchema", "format/sqlalchemy/generator.go:Generate"]}
{"id": "C130", "title": "A command crashes exactly under known conditions", "statement": "A command that reads a schema panics exactly when a prefix or annotation option has entries with and without a colon, when `generate pb` meets a reference to a missing table, or when `generate kt` with a repository package meets a selected table without primary key; it exits by log.Fatal exactly when `generate kt` with VRelation meets a reference that leaves the selected tables; `import mysql` panics exactly for keys over expressions; all other commands never do.", "quantifier": "all commands, option values, file systems and runtime behaviours (for generate kt: everything can be written and class names are not empty)", "why_tests_cant": "Absence of crashes for all inputs cannot be shown by running inputs.", "anchors": ["format/common/prefix.go:NewPrefixMapper", "format/common/annotation.go:NewAnnotationMapper", "format/protobuf/generator.go:Generate", "format/jpa/kotlin-gen.go:Generate", "format/gorm/cli.go:Action", "format/graphql/cli.go:Action", "format/sqlalchemy/cli.go:Action", "format/mysql/importer.go:Import"]}
{"id": "C131", "title": "A successful command writes exactly the documented files", "statement": "When a command succeeds, the files that differ from before are those that its documentation names, and each of them has been written: the output itself; for `generate gorm` and `generate plantuml` a default file name inside of an output that has none of the documented extensions; for `generate graphql` the file named after the schema and its version; for `generate sqlalchemy` one file per selected table unless the output ends in .py; for `generate kt` one file per selected table in the directory of the package and one repository each when a repository package is given.", "quantifier": "all commands, option values, file systems and runtime behaviours", "why_tests_cant": "The names depend on options, schema and groups; tests look at a few outputs and do not look for other files.", "anchors": ["format/gorm/cli.go:Action", "format/plantuml/cli.go:Action", "format/graphql/generator.go:Generate", "format/sqlalchemy/generator.go:Generate", "format/jpa/kotlin-gen.go:Generate", "util/io.go:MkdirPackage"]}
{"id": "C132", "title": "The written file says what the options and the stored schema say", "statement": "When an export, generate or diff command succeeds, the input holds a schema, the documented place holds the written file, and a reader of the format finds in it every table of the selected groups with its columns (and relations, constraints, repositories, or changes between the two schemas) as the given options - packages, prefixes, base classes, embedded models, relation tags, suffixes, comments, useUTC - ask for. For changelogs the same is said of the database that runs them.", "quantifier": "all option values, file systems and runtime behaviours; schemas are restricted only by the plainness conditions of the single formats", "why_tests_cant": "A swapped or dropped option between the command line and a generator only shows up with the right combination of option and schema; tests call the generators directly.", "anchors": ["format/dbml/cli.go:ExportAction", "format/quickdbd/cli.go:ExportAction", "format/plantuml/cli.go:Action", "format/protobuf/cli.go:Action", "format/gorm/cli.go:Action", "format/graphql/cli.go:Action", "format/sqlalchemy/cli.go:Action", "format/jpa/cli.go:KotlinAction", "format/liquibase/cli.go:Action"]}
{"id": "C133", "title": "Generated fields can hold the values of their columns", "statement": "Every value that a column can have according to its type, size and nullability (integers of 8 to 64 bits, bit fields, decimals, truth values, texts, members of enumerations, null, times and binary data) can be a value of the type that the generated Go struct, Kotlin class or proto3 message gives to the field of that column.", "quantifier": "all columns, values, options and schemas that the generators can write", "why_tests_cant": "Ranges are infinite; tests compare generated text for a handful of columns.", "anchors": ["format/gorm/gorm.go:96-200", "format/jpa/kotlin.go:70-175", "format/protobuf/generator.go:232-287"]}
{"id": "C134", "title": "Without --comments descriptions do not reach changelogs", "statement": "Without the option `--comments`, the changelog that is generated for a schema, or for the difference of two schemas, depends on nothing in the descriptions of tables and columns: two runs on inputs that differ only in descriptions write the same changelog.", "quantifier": "all pairs of schemas that differ only in descriptions, options and iteration orders", "why_tests_cant": "It compares two runs; tests fix the text for single schemas.", "anchors": ["format/liquibase/generator.go:70-132", "format/liquibase/generator.go:181-207", "format/liquibase/diff.go:43-163", "format/diff/diff.go:72-83"]}
{"id": "C135", "title": "Loading a schema file never crashes", "statement": "Reading an octopus JSON file ends with a schema or with an error message, whatever JSON document the file contains; in particular null may stand wherever the format has a table, a column or an index.", "quantifier": "all JSON documents and all sorting algorithms that meet the contract of sort.Sort", "why_tests_cant": "Tests load a few well-formed files; the property covers every document that the decoder accepts, null elements included.", "anchors": ["format/octopus/io.go:8-23", "format/octopus/table.go:20-27", "format/octopus/table.go:87-95", "format/octopus/table.go:102-107", "format/octopus/table.go:181-194"]}
{"id": "C136", "title": "When a command succeeds", "statement": "A command that reads one schema succeeds exactly when the schema file can be read, the schema is fit for the command (sheet names for xlsx, default values that are numbers for liquibase, prefix options of one form, no dangling reference for pb, no reference that leaves the groups and no keyless table for kt), the directories it has to make can be made, and the files it has to write can be written. Commands that compare need both schemas and the output file; diff liquibase succeeds in addition whenever the default values of the new schema are numbers. Imports succeed exactly when the input can be read, all columns are valid and the output can be written; init when the output can be written.", "quantifier": "all commands, options, file contents, file systems and third-party libraries", "why_tests_cant": "Tests run commands on good inputs and a file system that accepts everything; the property is an equivalence over all inputs and all patterns of unwritable files.", "anchors": ["main.go:30-158", "util/io.go:12-52", "format/octopus/io.go:8-23", "format/gorm/cli.go:25-63", "format/plantuml/cli.go:17-48", "format/graphql/cli.go:19-34", "format/jpa/cli.go:25-43", "format/sqlalchemy/cli.go:20-37", "format/liquibase/generator.go:408-436"]}
{"id": "C137", "title": "What a command that fails leaves behind", "statement": "A command, whether it succeeds or fails, changes no other files than the documented ones. When different tables have different files, every file is after the run either as it was before or as it would be if all files could be written and all directories be made: an error in the middle of a run leaves complete files only.", "quantifier": "all commands, options with an output, file contents, patterns of files that cannot be written and directories that cannot be made", "why_tests_cant": "Errors of the file system in the middle of a run cannot be produced systematically in tests; the property is about all of them.", "anchors": ["util/io.go:12-52", "format/jpa/kotlin-gen.go:292-355", "format/sqlalchemy/generator.go:37-214", "format/jpa/cli.go:25-43", "main.go:30-158"]}
{"id": "C138", "title": "Slices handed out by a multimap", "statement": "A slice returned by MultiMap.Get shows the values that the key had at the time of the call, whatever is done to the multimap afterwards; and the multimap holds the same values whether or not its slices share arrays.", "quantifier": "all histories of Put, RemoveKey, RemoveValue and Clear before and after the call of Get, all keys and values, all ways in which Go reserves room when it grows an array", "why_tests_cant": "Sharing shows only when a slice is kept across a later call, and depends on the spare room of the array; tests use the result of Get at once.", "anchors": ["util/multimap.go:SMultiMap.Get", "util/multimap.go:SMultiMap.Put", "util/multimap.go:SMultiMap.RemoveValue"]}
{"id": "C139", "title": "First steps", "statement": "After `oct init --output f`, every command that reads a schema succeeds on f (both files of a diff may be f), whatever its options, provided that an output is given, prefix and annotation options are well-formed, class names are not emptied by removePrefix, and files and directories can be written.", "quantifier": "all commands, all values of all their options within the proviso, all ways of giving --output to init, all contents of the file system, all iteration orders of maps and sorts", "why_tests_cant": "The number of combinations of commands and options is unbounded; tests run a few commands on their own fixtures and none on the sample of init.", "anchors": ["format/octopus/cli.go:InitAction", "main.go:main", "format/*/cli.go"]}
{"id": "C140", "title": "Hand-edited documents mean the same schema", "statement": "Reordering the members of any object of a schema document, adding members that the format does not know, leaving out members that are null or simple members that are given again later, or changing the case of keys does not change the schema that is read; every command that reads the document ends in the same way and writes the same files. The same holds for documents of version 1 and import ojson. Each member of the format can make a difference.", "quantifier": "every document and every sequence of such changes at any depth; every command, option values and file system", "why_tests_cant": "Quantifies over all documents and all sequences of edits.", "anchors": ["format/octopus/table.go:FromJson", "format/octopus/column.go:17-37", "format/octopus/table.go:11-27", "format/octopus/table.go:102-107", "format/ojson/table.go:FromJson"]}
{"id": "C141", "title": "A history of changelogs builds the last version", "statement": "Running the diff changelogs of successive versions of a schema one after the other takes a database of the first version to one of the last version; the way there does not matter: two histories with the same ends give the same database, a direct diff gives the same as a detour, and going to another version and back restores the database. (Violated: the corner cases of C40 add up, for instance auto-increment that is given and taken away again stays.)", "quantifier": "all histories of any length, all databases of the first version, all iteration orders of maps", "why_tests_cant": "Quantifies over sequences of versions of any length; tests compare the text of one diff.", "anchors": ["format/liquibase/diff.go:Generate", "format/liquibase/generator.go:Generate", "format/diff/cli.go:LiquibaseAction"]}
{"id": "C142", "title": "What each output keeps of a schema", "statement": "Each of the eleven commands that turn a schema into a document of another sort (export dbml, quickdbd, mysql and xlsx; generate gorm, graphql, kt, liquibase, plantuml, pb and sqlalchemy) shows a fixed part of the data of the schema: removing any other sort of data (author, name, version, description or class of tables, indices, and of columns description, size, scale, not-null, keys, auto-increment, default, on-update, values, reference, type of reference) from the document changes neither how the command ends nor any file that it writes.", "quantifier": "all faithful environments, all values of all flags, all schema documents (any tables and columns), each of the 11 commands and each of the 18 sorts of data", "why_tests_cant": "A test compares one output with one expected text; that the output is independent of an attribute is a statement about pairs of runs on all schemas and all option values, across eleven generators.", "anchors": ["format/dbml/exporter.go", "format/quickdbd/exporter.go", "format/mysql/exporter.go", "format/xlsx/exporter.go", "format/gorm/generator.go", "format/graphql/generator.go", "format/jpa/kotlin-gen.go", "format/liquibase/generator.go", "format/plantuml/generator.go", "format/protobuf/generator.go", "format/sqlalchemy/generator.go", "format/octopus/io.go:8-23"]}
{"id": "C143", "title": "Running the flyway script migrates the MySQL database", "statement": "Take the MySQL database that the script of `export mysql` builds from the old version of a schema. Executing the script of `diff flyway` on it is accepted statement by statement and leaves exactly the database that `export mysql` builds from the new version: same tables, columns with type, nullability, auto-increment, default, on-update value and comment, primary keys and named unique constraints.", "quantifier": "all pairs of schemas with distinct table and column names and texts that need no escaping, all suffixes, all orders in which Go may iterate over its maps, all values of the other options", "why_tests_cant": "The effect is on a database, through the texts of two programs (export and diff) that must agree; the tests compare texts of single changes. Whether a sequence of statements is accepted depends on every intermediate state, e.g. on auto-increment columns whose key is dropped for a moment.", "anchors": ["format/diff/flyway.go:42-56", "format/diff/mysql.go", "format/diff/diff.go", "format/diff/changeset.go", "format/mysql/exporter.go"]}
{"id": "C144", "title": "Script and changelog give the columns the same types on MySQL", "statement": "Of the two ways to build a MySQL database from a schema, the script of `export mysql` and the changelog of `generate liquibase`, both give every column the same MySQL type, with the same size, scale and members.", "quantifier": "all schemas with supported types, all sizes and scales, all options", "why_tests_cant": "Two exporters with separate switch statements have to agree on 31 types with all sizes; the tests of each compare a handful of columns with literal texts, and none compares the two.", "anchors": ["format/mysql/exporter.go:123-205", "format/liquibase/generator.go:560-619"]}
{"id": "C145", "title": "The groups of a diff restrict the new schema only", "statement": "A diff command with --groups does what it does without the option when the file of the new schema holds only the tables of these groups; the old schema is compared as a whole. Hence the restricted diff is the diff of the tables of these groups of both schemas exactly when all old tables are in these groups.", "quantifier": "every pair of schemas, list of groups, other option values, iteration order of maps and file system", "why_tests_cant": "Two runs are compared for all pairs of schemas; the difference only shows with old tables outside the groups, moved tables and renames.", "anchors": ["format/diff/diff.go:26-143", "format/liquibase/diff.go:43-163", "format/diff/cli.go:33-108", "format/octopus/filter.go:GetTableFilterFn"]}
{"id": "C146", "title": "A diff and the diff in the other direction undo each other", "statement": "What the diff from an old to a new schema creates, the diff from the new to the old one drops, and vice versa (tables of the same column lists), and both report the same number of renames of tables with the same column lists. A value stored in a cell of the old schema that survives the changes of the first diff is, after the changes of the second, back in its table and column.", "quantifier": "every pair of schemas with distinct names, every iteration order of maps in both runs, every cell", "why_tests_cant": "Two runs of the diff in opposite directions are composed for all pairs of schemas; a wrong pairing only shows with several tables or columns of the same shape in certain orders of their names.", "anchors": ["format/diff/diff.go:26-143", "format/diff/diff.go:146-324", "format/octopus/column.go:IsRenamed"]}
{"id": "C147", "title": "A diff keeps stored values apart and in place", "statement": "Follow the values stored in the cells of the old schema through the reported changes. A value whose table and column the new schema still has stays where it is; a value is lost exactly if its table, or its column of its table, is reported as dropped; every other value arrives in a cell of the new schema, in the same column of a table with identical columns or in a column of the same shape; no two values arrive in the same cell. Where a value arrives does not depend on the iteration order of maps.", "quantifier": "every pair of schemas with distinct names, every cell, every iteration order of maps", "why_tests_cant": "All cells, schemas and map orders are covered; collisions of renames would only show in certain combinations of names and shapes.", "anchors": ["format/diff/diff.go:26-143", "format/diff/diff.go:146-324"]}
{"id": "C148", "title": "Report and changelog of a diff agree", "statement": "The changelog that the Liquibase diff writes creates, drops and renames exactly the tables, drops and renames exactly the columns, and changes exactly the types, remarks and default values that the diff of the same two schemas reports, in the same order; so every stored value ends up in the same place by both.", "quantifier": "every pair of schemas, options, groups and iteration order of maps for which a changelog is written", "why_tests_cant": "Two separate implementations of the comparison are compared on all pairs of schemas.", "anchors": ["format/liquibase/diff.go:43-163", "format/liquibase/diff.go:165-369", "format/diff/diff.go:26-324"]}
{"id": "C149", "title": "The object mappers of a schema stand for the same database", "statement": "Generate GORM structs, Kotlin entities and SQLAlchemy classes from the same schema. For each table, the struct, the entity and the class name the same database table, and their fields, properties and attributes stand for the same database columns with the same primary key: by the column they name, or else by the snake case name that the generators assume.", "quantifier": "every schema whose names fit the three languages, every option, table filter, registered struct and map order, every naming strategy of the mappers", "why_tests_cant": "The three files are written by separate code that decides separately when the column may be left out; agreement is needed for all names.", "anchors": ["format/gorm/gorm.go:190-225", "format/gorm/generator.go:205-290", "format/jpa/kotlin.go:145-180", "format/jpa/kotlin-gen.go:70-140", "format/sqlalchemy/sqlalchemy.go:115-150", "format/sqlalchemy/generator.go:95-150", "util/string.go:85-110"]}
{"id": "C150", "title": "The changelogs of a history keep stored values apart and in place", "statement": "Follow the values stored in the cells of the first version through the changelogs from each version to the next. A value whose table and column all versions have stays where it is; a value is lost exactly if a changelog drops the table or the column where the changelogs before it have left the value; every other value ends up in a cell of the last version, and no two values in the same one. Authors and iteration orders of maps do not matter. The versions between do: a changelog from the first version straight to the last one can lose a value that the history keeps.", "quantifier": "every schema and every list of later versions with distinct names, every cell, all authors and iteration orders of maps for which changelogs are written", "why_tests_cant": "Histories of any length are covered, by induction over the versions; loss or collision may need several renames in a certain order.", "anchors": ["format/liquibase/diff.go:43-163", "format/liquibase/diff.go:165-369"]}
{"id": "C151", "title": "The three diagrams of a schema show the same", "statement": "The DBML, PlantUML and QuickDBD outputs of one schema show the same tables in the same order, with the same columns in the same order, of the same types, with the same marks for primary keys, unique columns and mandatory columns, and the same lines between tables, each of the same kind (n:1, 1:n or 1:1). DBML and QuickDBD also connect the same columns.", "quantifier": "every schema whose names and texts each of the three formats can show as they are", "why_tests_cant": "The three exporters are written separately; tests compare each to one expected text and never to each other. DBML writes some lines inside of columns and others at the end, so that agreement is up to order only.", "anchors": ["format/dbml/exporter.go:20-114", "format/plantuml/generator.go:18-90", "format/quickdbd/exporter.go:18-83"]}
{"id": "C152", "title": "The generated classes of a schema agree which columns cannot be null", "statement": "For a table of the schema, the GORM struct, the Kotlin entity, the SQLAlchemy class and the GraphQL type agree which columns cannot be null, and the Kotlin type of a property allows null exactly when its column does.", "quantifier": "every schema and all options whose texts can be written as they are, every table that is selected for all of them, all naming strategies that lead to the columns", "why_tests_cant": "The four generators treat keys and columns that are counted up in four places; no test compares their outputs, and disagreement needs a certain combination of attributes.", "anchors": ["format/gorm/generator.go:240-260", "format/jpa/kotlin-gen.go:80-110", "format/jpa/kotlin.go:70-130", "format/sqlalchemy/generator.go:150-180", "format/graphql/generator.go:75-110"]}
{"id": "C153", "title": "What went to MySQL and back once stays as it is", "statement": "Exporting a schema to MySQL and importing the script may lose something; doing both again with the imported schema changes nothing, for any suffix of unique keys, and on the command line the second pair of commands succeeds and leaves the same tables.", "quantifier": "every schema and selection whose texts need no escaping and whose default values are literals MySQL knows, all suffixes, all command lines that exclude no further table", "why_tests_cant": "The round trip maps types, sizes, default values and keys in two places; that its image is fixed depends on every type and size at once, and the tests compare single exports and imports with literals.", "anchors": ["format/mysql/exporter.go:39-247", "format/mysql/importer.go:43-318"]}
{"id": "C154", "title": "What went to a spreadsheet and back once stays as it is", "statement": "What was imported from a workbook is the same after it has been exported and imported again; in particular whatever is lost when a schema is exported to a spreadsheet and imported is lost the first time, and a second round trip changes nothing.", "quantifier": "all workbooks, also ones written by hand, all schemas, both null column options of either export, all orders in which sheets are visited, all libraries that accept or refuse names of sheets; on the command line all files, options and runtimes", "why_tests_cant": "Which cells are fixed points depends on trimming, splitting at commas, parsing of types and merging of index rows at once; tests compare single imports with literals and never export the result.", "anchors": ["format/xlsx/exporter.go:20-278", "format/xlsx/importer.go:20-250", "util/types.go:1-60"]}
{"id": "C155", "title": "A MySQL script from elsewhere survives import, export and import", "statement": "A MySQL script that was written by anybody gives the same schema after it has been imported, exported and imported again: the types with their lengths, the defaults, the counters and the keys stay as they were.", "quantifier": "all lists of statements, all tables left out, all columns, options and constraints, all suffixes of unique keys; types that the importer knows, texts without escapes", "why_tests_cant": "The types of MySQL with all lengths are infinitely many and which of them return depends on the importer and exporter together; tests check each direction on a few literals and never go back.", "anchors": ["format/mysql/exporter.go:39-247", "format/mysql/importer.go:43-318"]}
{"id": "C156", "title": "A history of flyway scripts keeps a MySQL database up to date", "statement": "The script of the MySQL export of the first version of a schema, followed by the flyway scripts of all later versions, leads to the database of the last version, whatever the way; going to a version and back restores the database.", "quantifier": "all numbers of versions, all schemas, options and orders of maps, all intermediate databases", "why_tests_cant": "Histories are unbounded sequences of schemas and each script runs on the database that the earlier ones left; tests look at the text of a single script.", "anchors": ["format/diff/flyway.go:42-56", "format/diff/mysql.go", "format/diff/diff.go", "format/diff/changeset.go", "format/mysql/exporter.go"]}
{"id": "C157", "title": "Schemas without groups survive a spreadsheet", "statement": "A schema whose tables have no group, such as one imported from a MySQL script, can be exported to a spreadsheet and imported again: the tables are the same, in the same order, in the group Common, and the MySQL script and the changelog generated from them are the same as before.", "quantifier": "all schemas without groups, in particular all imported MySQL scripts; both null column options, all orders of sheets, all libraries that accept or refuse names of sheets, all suffixes and changelog options", "why_tests_cant": "The condition on types, lengths, defaults and index names is a conjunction over all columns of all tables, and the comparison of the scripts goes through two text formats; tests do not combine formats.", "anchors": ["format/xlsx/exporter.go:20-278", "format/xlsx/importer.go:20-250", "format/mysql/importer.go:43-318", "format/mysql/exporter.go:39-247"]}
{"id": "C158", "title": "Flyway script and liquibase changelog of a diff lead to the same database", "statement": "For two versions of a schema, the MySQL script of the old version followed by the flyway script of the differences and the changelog of the old version followed by the changelog of the differences both lead to the new version, and the two databases have the same tables, columns, nullability, auto-increment, primary keys and unique constraints.", "quantifier": "all pairs of schemas with distinct names, texts that need no escaping and defaults that are written as they are; all orders in which Go may iterate over its maps, all suffixes and values of the other options, all database products for the changelog", "why_tests_cant": "Two programs that share only the comparison of the schemas have to agree on the effect of their output on a database; tests look at the texts of each of them on its own.", "anchors": ["format/diff/flyway.go:42-56", "format/diff/mysql.go", "format/diff/diff.go", "format/liquibase/generator.go", "format/liquibase/diff.go", "format/mysql/exporter.go"]}
{"id": "C159", "title": "An empty diff means that nothing has changed", "statement": "If the report of a diff (and with it the flyway script) is empty, the MySQL scripts of both versions build the same database; if the changelog of a diff is empty, a database that holds the old version holds the new version.", "quantifier": "all pairs of schemas with distinct names, all orders in which Go may iterate over its maps, all options; for the databases: texts that need no escaping, all listed products", "why_tests_cant": "Tests can only show that certain changes are reported. That nothing else can change without being reported is a statement about all pairs of schemas.", "anchors": ["format/diff/diff.go:29-274", "format/liquibase/diff.go", "format/mysql/exporter.go:39-247"]}
{"id": "C160", "title": "A schema does not differ from the database that was made from it", "statement": "Comparing a schema with the schema that is imported from its own MySQL script reports no change and yields an empty changelog, whichever of the two is taken as the old version.", "quantifier": "all schemas with distinct names, texts that need no escaping and known literals whose script MySQL accepts, all orders in which Go may iterate over its maps, all options without a table filter, both directions", "why_tests_cant": "The type and default of every column pass through the tables of the exporter, the parser and the importer before they are compared. A test covers the types and defaults it uses.", "anchors": ["format/mysql/exporter.go:39-247", "format/mysql/importer.go", "format/diff/diff.go:29-274", "format/liquibase/diff.go"]}
{"id": "C161", "title": "A MySQL script says the same after import and export", "statement": "When the script that export mysql writes for a schema is imported and exported again with the same suffix of unique keys, the new script has the same statements as the first: the same tables, column definitions, keys and indices in the same order.", "quantifier": "all schemas with texts that need no escaping and known literals whose script MySQL accepts, all table filters, all suffixes of unique keys", "why_tests_cant": "What the script says passes through the type tables of the exporter, the parser and the importer twice. A test compares the scripts of the columns it uses.", "anchors": ["format/mysql/exporter.go:39-247", "format/mysql/importer.go:43-212"]}
{"id": "C162", "title": "Different MySQL scripts are imported as different schemas", "statement": "When two scripts that export mysql has written are imported as the same schema, the two scripts have the same statements: the import loses nothing that the script says.", "quantifier": "all pairs of schemas with texts that need no escaping and known literals, all table filters, all suffixes of unique keys", "why_tests_cant": "A test that imports a script shows what it yields, not that no other script yields the same.", "anchors": ["format/mysql/exporter.go:39-247", "format/mysql/importer.go:43-212"]}
{"id": "C163", "title": "MySQL accepts exported columns that are counted up", "statement": "In the script that export mysql writes, each table has at most one AUTO_INCREMENT column, without a default value, as first column of a key. In particular a script that MySQL accepts is still accepted after it has been imported and exported.", "quantifier": "all schemas and all parsed scripts whose texts need no escaping, all table filters, all suffixes of unique keys", "why_tests_cant": "Which schemas give a script that the server rejects depends on the interplay of the order of columns, keys, unique columns and indices; tests without a server see none of it.", "anchors": ["format/mysql/exporter.go:39-247", "format/mysql/importer.go:77-212", "format/octopus/table.go:102-159"]}
{"id": "C164", "title": "MySQL accepts exported columns of long types", "statement": "In the script that export mysql writes, no column of a text, blob, json or geometry type has a default value or belongs to a primary key, a unique key or an index, as MySQL rejects such scripts.", "quantifier": "all schemas whose texts need no escaping, all table filters, all suffixes of unique keys", "why_tests_cant": "Which schemas give a script that the server rejects depends on types, default values, keys and indices together; tests without a server see none of it.", "anchors": ["format/mysql/exporter.go:39-247", "format/octopus/table.go:102-159"]}
{"id": "C165", "title": "MySQL accepts the types of exported columns", "statement": "Every column type in the script that export mysql writes has a number of arguments that MySQL accepts: varchar and varbinary have a length, double none or two arguments, enum and set at least one member, and no other type has more arguments than it takes. In particular a script whose types MySQL accepts is still accepted after it has been imported and exported.", "quantifier": "all schemas whose texts need no escaping, all table filters, all suffixes of unique keys", "why_tests_cant": "Every type of the tool combines with every size, scale and member list; a test checks the text of a few, and none asks whether the server takes it.", "anchors": ["format/mysql/exporter.go:125-205", "format/octopus/table.go:102-159"]}
{"id": "C166", "title": "MySQL accepts the functions of exported columns", "statement": "In the script that export mysql writes, a default value that is a function call, and every ON UPDATE clause, belongs to a datetime column and is the current time, as MySQL rejects anything else there.", "quantifier": "all schemas whose texts need no escaping, all table filters, all suffixes of unique keys", "why_tests_cant": "Function names, types and the two clauses combine freely in a schema; tests look at CURRENT_TIMESTAMP only, and ask no server.", "anchors": ["format/mysql/exporter.go:207-247", "format/octopus/column.go:150-190", "format/octopus/table.go:102-159"]}
