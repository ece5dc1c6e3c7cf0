# Formal model of octopus-db-tool

Lean 4 model of the Go sources in `/repo` (commit pinned there) with machine-checked
properties.  The properties are listed in `properties.jsonl` (C01 ...); the status of each
is in `MANIFEST.json`; this file says what is modelled and how each property is proved.

## Layout

* `lean/Verif/Basic/*`  – strings (`Str := List Char`) and the Go library functions used
  (`strings.Split`, `Join`, `ToLower`, `TrimSpace`, `HasPrefix`, `strconv.Itoa`, ...).
* `lean/Verif/Model/*`  – the model, one file per Go package, one definition per Go function;
  every definition cites file and lines.
* `lean/Verif/Spec/*`   – small specifications that do not use the model's helpers
  (tables of documented types, readers for the generated text, a database semantics, ...).
* `lean/Verif/Lemmas/*` – helper lemmas.
* `lean/Verif/Props/*`  – the property theorems `Cnn_...`, each followed by a concrete
  `example` that satisfies its hypotheses.
* `seeded/LOG.jsonl`    – mutation log: how the theorems react to wrong programs.

## Modelling decisions

* Strings are lists of Unicode scalar values.  Go strings are byte strings; the model covers
  valid UTF-8.  Go's `<` on strings (bytewise) is the code point order on valid UTF-8.
* `strings.ToLower` is modelled on ASCII letters only (other characters unchanged).  This is exact for ASCII
  input; the type-name switch statements only contain ASCII.
* `uint16` is Lean's `UInt16`; conversions from `int` truncate as in Go.  `int` is `Int`/`Nat` (no overflow).
* A Go `map` is an association list with distinct keys.  Iteration order is a *schedule*: every
  function that ranges over a map takes a permutation oracle, and theorems quantify over
  all oracles (the oracle may be any function returning a permutation of its input).
* `sort.Sort` (unstable) is any sorted permutation; `sort.Strings` on distinct strings is the
  unique one.
* Pointers used as map keys (`map[*Table]*Table`) are identified by position in the list they
  come from.
* `cmp.Diff(a,b) == ""` is structural equality (nil and empty slices are not distinguished).
* Errors are values, panics and `log.Fatal` are an explicit outcome (`none`, or a constructor).
* `text/template` output is modelled by the text it renders, written by hand from the template.
* Package-level state (GORM's registry of embedded structs) is an explicit argument and result.
* Options are what the command line passes on (the parser of urfave/cli is modelled in Model/Cli).

## What is modelled

| Go source | Lean model | left out |
|---|---|---|
| util/set.go, multimap.go, memoization.go, types.go, regexp.go, string.go, python.go | Model/Util, Model/UtilHeap (multimap with shared arrays), Basic/Str | util/io.go is in Model/Cli |
| format/octopus/*.go | Model/Octopus, Model/Json, Model/JsonNull | null as element of an array (a nil pointer) beyond loading (Model/JsonNull), objects with a member twice, numbers other than natural numbers |
| format/common/*.go | Model/Common | |
| format/mysql/exporter.go | Model/Mysql | |
| format/mysql/importer.go | Model/MysqlImport | the SQL parser (github.com/pingcap/parser): the model starts at its syntax tree |
| format/diff/diff.go, changeset.go | Model/Diff | |
| format/diff/mysql.go, flyway.go, markdown.go | Model/DiffOut | |
| format/liquibase/generator.go, diff.go | Model/Liquibase, Model/LqYaml (the tree given to `yaml.Marshal`) | the YAML text (gopkg.in/yaml.v2) |
| format/xlsx/exporter.go, importer.go | Model/Xlsx | the library (github.com/tealeg/xlsx): cells are stored faithfully; styles, widths, panes |
| format/ojson/*.go | Model/Ojson | |
| format/staruml/*.go | Model/Staruml, Model/StarumlJson | objects with a member twice (the library merges), numbers other than natural numbers |
| format/dbml, quickdbd, plantuml | Model/Dbml, Quickdbd, Plantuml | |
| format/protobuf/generator.go | Model/Protobuf | fields the template does not use; overflow of tags |
| format/gorm/*.go | Model/Gorm | |
| format/jpa/*.go | Model/Jpa | errors of the file system; `path.Join` on `.` and `..` |
| format/sqlalchemy/*.go | Model/Sqlalchemy | as for JPA |
| format/graphql/generator.go | Model/Graphql | errors of the file system |
| github.com/iancoleman/strcase v0.2.0 | Model/Strcase | characters beyond ASCII are dropped as the library's byte loop does |
| main.go, format/*/cli.go, format/octopus/io.go, util/io.go | Model/Cli | help and version texts, logging |
| github.com/urfave/cli v2 and the `flag` package | Model/Cli `parse` | shell completion, slices and other kinds of flags |

Not modelled: logging, the texts that help and errors print.

## Third-party behaviour the theorems rely on

* `encoding/json`: Model/Json (field order, `omitempty`, case-insensitive field names, range errors).  The text is read
  back by a reader written after RFC 8259 (Spec/Json).
* String literals: Spec/SqlString `sqlString` is MySQL's reader in the default SQL mode (without NO_BACKSLASH_ESCAPES), Spec/DbmlString `dbmlString` that of DBML; C66_exact and C76_exact use them.
* pingcap parser: Spec/MysqlAst `fieldOf`, for the types the exporter writes; C21 and C120 use it. Literals other than NULL, TRUE, FALSE, plain natural numbers and signed ones are not known to it (`KnownLiteral`); the exact conditions exclude them.
* tealeg/xlsx: a workbook is a list of named sheets of rows; `AddSheet` refuses existing names and may refuse others
  (parameter `accepts`).
* strcase: the generators take an arbitrary `sc : Strcase`; theorems that need it assume `CleanCase sc` (results consist of letters
  and digits, or underscores in snake case), which `strcase_clean` proves for the model of version 0.2.0.
* gertd/go-pluralize: a parameter `plural` with `CleanPlural`.
* The languages of the outputs.  Each generated text is read by an independent reader in `Spec/*` (MySQL DDL, DBML, QuickDBD, PlantUML,
  proto3, Go, Kotlin, Python, GraphQL, markdown, JSON).  The readers accept the sublanguage that occurs plus wrong forms they must
  reject; that they agree with the official grammars is an assumption.
* Databases: `Spec/Database` says what a schema change does (a change that a database would reject is related to nothing), in the
  manner of MySQL: dropping a column takes it out of the primary key; `Spec/Liquibase` does so for Liquibase changes, after its
  documentation.  Properties C30, C39-C41, C44 and C71 are about these.

* File system (Model/Cli): a map from cleaned paths to contents; a write replaces the content of one file, or fails and leaves it
  unchanged; whether it fails is an arbitrary predicate.  Links, permissions and concurrent changes are not modelled.  Binary formats
  (spreadsheets) and changelogs are their decoded values.

## Properties and plan

| Id | Model | Proof idea |
|---|---|---|
| C01 | `normalizeType` on all strings | case split over alias table; canonical set closed; spec = documented table |
| C02 | `Schema.normalize` with sort oracle | permutation + pointwise frame lemma |
| C03 | sort oracle constrained to sorted permutations | uniqueness of sorted permutations for strict total keys |
| C04 | `validate`, `normalize` | iff with an independent validity predicate; first failing table in order |
| C05 | `loadSchema` | violated: witness; partial: holds when normalisation succeeds |
| C06 | `setDefaultValueFn`, `getValue` | prefix lemmas; negative witness for plain values with the marker |
| C07 | JSON value tree, encoder/decoder | induction over schema; omit-empty lossless |
| C08 | lookups | list induction; agreement under distinct names, witness otherwise |
| C09 | `groups` with map schedule | sorted + nodup + membership |
| C10 | `tableFilterFn` | split/join characterisation |
| C11 | `StringSet` operations | refinement to `Finset`, induction over histories |
| C12 | `MultiMap` with slice aliasing | per-key list semantics; witness for duplicates |
| C13 | memoizer state machine | induction over call history |
| C14 | regex matcher for the type pattern, `format` | leftmost match computed; digits round trip |
| C15 | prefix/annotation mapper with panic outcome | split lemmas; witness of panic |
| C16 | `filepath.Ext` | last-dot characterisation |
| C17 | exported text | independent line/clause reader inverts the text |
| C18-C20 | type and constraint text | finite case split, digit-injectivity |
| C21 | exporter type text + importer type table | case split; C21_exact: whole schemas, table by table (`thereAndBack`), every part of a table is compared with what the script says |
| C22-C23 | importer over parsed statements | folds over statement/option lists |
| C24-C33 | diff result as a list of change sets, map schedules | invariants of the fold; ids: counters increase; refinement to a database semantics |
| C34-C36 | markdown and SQL writers | multimap grouping; case split |
| C37-C44 | liquibase generator and diff | as for diff, against the database semantics |
| C45-C48 | spreadsheet rows | row-level round trip; witnesses |
| C49-C50 | version-1 and StarUML importers | folds; witnesses |
| C51-C54 | dbml / plantuml / quickdbd text | folds; readers |
| C55-C58 | protobuf messages | arithmetic on tags; witnesses |
| C59-C65 | gorm, jpa, sqlalchemy, graphql | read the generated text back; the declarations found are those the schema asks for |
| C66-C67 | MySQL exporter | the SQL reader on texts with quotes: exact text, witness; C66_exact: position of every text in the script, and a reader of MySQL string literals at that position |
| C68-C70 | SQL of the diff | exact text per change, general failure |
| C71-C72 | liquibase generator and diff | composition of C39 and C40; empty diff |
| C73-C75 | spreadsheet importer | row machine; exact reading of reference and attribute cells |
| C76-C77 | dbml, plantuml, quickdbd | readers; independence of sizes; C76_exact: position of every text in the document, and a reader of DBML strings at that position |
| C78-C82 | protobuf | arithmetic on tags; scoping of type names; strcase |
| C83-C88 | gorm | schedules and registry as arguments; reader of Go files |
| C89-C96 | jpa | reader of Kotlin files accepts exactly the well-formed cases; file paths |
| C97-C103 | sqlalchemy | reader of Python files; scoping; arguments of column types |
| C104-C107 | graphql | automaton reader of GraphQL documents; validity rules |
| C108-C118 | command line: arguments, environment and files to files and status | every action is a list of writes that depends only on the inputs (`action_effect`); exact list of options without effect |
| C119-C120 | two commands in a row | composition of C45 / C21 with saving and loading (C07); C119_exact: what normalisation could repair (letter case, auto-increment) never makes up for what a sheet changed, and names that only lose white space are the same ones altogether only if none does; C120_exact: likewise, normalisation cannot repair what a script changed, because imported types are canonical already; all imported tables have no group, so that names tell them apart |
| C124 | StarUML documents | relation between JSON values and elements, independent of the order of members |
| C125-C126 | MySQL script and changelog on a database | transition relation for scripts; the two end states are compared |
| C127 | all commands that read a schema | two runs: equal loaded schemas (C03) give equal writes |
| C128 | all commands with `--groups` | two runs: filter against restricted schema; exact conditions: gorm writes fewer associations and hence a shorter text, pb panics, the DBML documents read back with different tables |
| C129 | paths | where a text leads from every working directory; cleaned paths are canonical |
| C130 | crashes of all commands | exact conditions, from C15, C22, C80 and the end of the Kotlin generator |
| C131 | files written by a successful command | independent list of documented places (`Spec/Targets`); every other file is unchanged |
| C132 | commands from options to readable contents | meaning of the options (`Spec/Outputs`) composed with the theorems of the single formats |
| C133 | field types of gorm, kt, pb | values of columns against values of types (`Spec/Values`); exact conditions |
| C134 | changelogs without comments | two runs on schemas equal up to descriptions (`Spec/Descriptions`), simulation of the loops |
| C135 | null elements in schema files | second model of loading with nil pointers (`Model/JsonNull`), agreement with the first on documents without null, exact crash condition |
| C136 | success of commands | equivalence over schema, directories and files; lemmas for `writeAll`, parent directories, numbers of Liquibase defaults; `generate kt` by comparison with a world in which everything can be written |
| C137 | commands that fail | comparison with a run in which everything can be written: nothing or the same for commands with one file, a prefix of the same list of files for `kt` and `sqlalchemy` |
| C138 | multimap with a heap of arrays | simulation of the list model, for arbitrary spare room; frame lemma for slices; the loop of `RemoveValue` lowers the count of the value in a prefix |
| C139 | `init` followed by any other command | C111 and C136: the sample meets the condition of every command |
| C140 | schema documents as JSON values | edits as a relation (`Spec/JsonEdit`), closed under composition; every edit keeps what the reader reads |
| C141 | chains of liquibase diffs | induction on the history from C40; databases of one schema are equal up to constraints the database names |
| C142 | what each of eleven commands keeps of eighteen sorts of data of a schema | erasure `without` commutes with loading and filtering; per generator, the output of the erased schema is the same; witnesses for all other entries of the matrix |
| C143 | the script of `diff flyway` run on the MySQL database of the old version gives that of the new one, with the exact condition | the script is read back as statements; each table and each column evolves on its own (frame lemmas), the rule for auto-increment columns is monotone, statements are deterministic; `TableMoves` is equivalent to the run of the statements for a table |
| C144 | types of script and changelog on MySQL | table of the types of both exporters, proved equal to the models; Liquibase's translation of types for MySQL as a specification; exact condition per column and for the databases of C126 |
| C145 | diff commands with `--groups` | the loop over the new tables skips the others; positions are renumbered, the schedule of map orders with them; exact condition from C26 |
| C146 | diff there and back | rename search is a maximal matching on column lists (tables) or shapes (columns): counts per key; with unique keys the matching is the set of all pairs with equal keys; cells are followed through the changes |
| C147 | diff, stored values | each cell is touched by at most one kind of change, targets of renames are fresh names; injectivity from the accounting of C26 and C27 |
| C148 | `diff liquibase` against `diff` | both are normalised to the same blocks over kept, dropped, renamed and created tables; events compared block by block |
| C149 | the three object mappers | what the files declare is read off as tables, columns and keys; the lists are compared through the descriptions of C59, C61 and C97, whose lists of tags, annotations and arguments are closed |
| C150 | changelogs of a history, stored values | induction over the versions; each step by C147 through C148; a lost value is traced to the changelog that drops it |
| C151 | DBML, PlantUML and QuickDBD of one schema | each document is read by its own reader (C51, C53, C54) into tables and lines of one common form; the three are compared there, lines of DBML up to order |
| C152 | GORM, JPA, SQLAlchemy and GraphQL, null | from the descriptions of C59, C61, C97 and C65; lists of columns with a mark, read from each output, are compared |
| C153 | MySQL export and import, twice | every table that comes back is expressible in the sense of C21_exact (`table_settles`); then C21_exact and C120_exact apply |
| C154 | xlsx import and export, twice | every table that was read can be represented (C45_exact) but for two attributes (`sheetTable_read`); exported rows say neither |
| C155 | MySQL import, export, import | what a script says (C22-C24) put into C21_exact, so the condition is about the statements alone; on the command line by C120_exact |
| C156 | flyway scripts along a history | C143_exact for each step; the database of a version is unique (`built_unique`) and scripts are deterministic |
| C157 | xlsx export and import without groups | the workbook is that of the schema in the group Common (`export_commoned`), then C45_exact; on the command line C119_exact for the file with the schema in the group Common |
| C158 | flyway script against liquibase changelog | C143_exact and C71_exact, then `built_holds_same`: what the script built and what holds the schema have the same structure |
| C159 | empty report, empty changelog | all blocks are empty (`tableBlock_quiet`, `tableSets_quiet`), then C143_exact and C40_exact for an empty script |
| C160 | diff of a schema and what comes back from MySQL | C159 for empty diffs, C153 for what an imported column looks like, and C21 for the column without what is not compared (`writtenColumn`) |
| C161 | script of what comes back from MySQL | the tree of each column definition before and after (`column_again`, using the `again` part of `TypeBack` of C153), keys by `names_again`; on the command line: normalisation drops auto-increment only where the type has changed (`column_norm`), and statements with distinct table names are a permutation only if they are equal (`perm_keys`) |
| C162 | import of MySQL scripts is injective | the second export of C161 is a left inverse of the import |
| C163 | AUTO_INCREMENT in exported scripts | the script is read back (C17), keys are compared by their first columns; imports by C22, C23 |
| C164 | long types in exported scripts | the script is read back (C17), type words by C18 |
| C165 | type arguments in exported scripts | the script is read back (C17), types by C18; the shapes of all types are compared with the numbers of arguments that MySQL takes |
| C166 | functions in exported scripts | the script is read back (C17), types by C18 |
| C121-C123 | YAML tree of changelogs | reader and attribute tables after Liquibase's documentation; exact condition for validity |

## Where the code violates a property

The witness theorems are named `_violated`; most say that *every* input of a described kind fails, and an `example` gives a concrete one.
Where possible the boundary is given as an equivalence (`Cnn_exact`, in `Props/Exact*.lean`): the claim holds for an input if and only
if a stated condition holds; the condition fails for the witnesses and holds for the inputs of the `_partial` theorem.

| Property | Finding (file and lines in /repo) |
|---|---|
| C05 | `LoadSchema` ignores the error of `Normalize` (format/octopus/io.go); a schema with unknown types loads |
| C12 | `MultiMap.Remove` removes one occurrence only |
| C14 | type text of a name that does not end in a letter is not parsed back (util/types.go) |
| C15 | prefix/annotation option mixing entries with and without `:` panics (format/common) |
| C19 | size of binary/varbinary is never written (format/mysql/exporter.go 138-205) |
| C21 | bit(0/1), int8(1), binary, varbinary, geometry, point, varchar without size change on the way through MySQL DDL |
| C23 | column-level UNIQUE is ignored; a table-level primary key leaves the column nullable (format/mysql/importer.go) |
| C29 | tables of unselected groups are reported as dropped (format/diff/diff.go 37-50) |
| C30, C31 | the change set of added columns is built and never appended (format/diff/diff.go 242-252) |
| C35 | eight kinds of change produce no SQL (format/diff/mysql.go) |
| C36 | switching auto-increment off writes nothing that switches it off |
| C39 | a function or malformed default makes the changelog unusable (`C39_violated_function`: the text of the function becomes the default) or the generation fail; `C39_exact` gives the exact condition |
| C40, C41 | liquibase diff drops a unique constraint that does not exist; not-null and key changes in an order that databases reject; auto-increment is not taken away; on products where changing a type drops other attributes (MySQL) they are not set again. C40_exact: a change is carried over exactly when each table meets `LqTableMoves`, and `UniqueMoves` where unique columns with database-named constraints change |
| C141 | the same in histories: auto-increment that is given and taken away again stays |
| C42 | empty change set when a table loses its last unique column |
| C43 | integer defaults are emitted as text; function defaults as literals |
| C44 | a new first column is appended at the end |
| C45, C46, C47 | spreadsheet: value lists, key+unique, untrimmed descriptions, sized types ending in a digit are lost; exporter.go 267 writes the default value as onUpdate; groups `Meta` and empty/`Common` collide |
| C48 | the order of tables depends on the order of sheets until normalised; after that only if `sort.Sort`, which need not be stable, reorders tables of the same group and name (`C48_stable`) |
| C49 | version 1: the description is stored as default value, the class name is lost; an empty name panics |
| C50 | StarUML: number lengths ignored, negative lengths wrap, dangling references crash |
| C52 | DBML ignores the group filter |
| C53, C54 | PlantUML: a key column below the separator; QuickDBD: unquoted defaults inject flags |
| C56, C58, C78-C82 | protobuf: reserved field numbers, duplicate names, "decr" counts up, CLI flags without effect, undefined types, panic on unknown reference, relationship ignored, names starting with a digit |
| C61, C62, C89-C95 | JPA: unique constraint lists properties, repository of a table without key panics, not-null blob / keyword / digit names are no Kotlin, colliding files, nullable id and key types, fatal filtered references, no package writes to the working directory |
| C63, C64, C97, C98, C100-C103 | SQLAlchemy: one file per table misses imports, async/await/digit names, `Column(, ...)`, shadowed names, colliding attributes, no unique constraint, Float(scale=), auto-increment columns nullable |
| C66, C67 | texts and defaults are not escaped or quoted in DDL |
| C68, C69, C70 | `MODIFY ADD`; nullability changes lose the other attributes; primary key dropped although there is none |
| C71 | a single unique column has a second constraint, named by the database, that no diff drops. C71_exact: the two changelogs fit together exactly when each table meets `LqTableMoves`, and `UniqueMoves` where its unique columns change and the old version has exactly one |
| C73, C74 | spreadsheet: reference markers stay in the table name; `autoinc` is not recognised |
| C76, C77 | DBML defaults unquoted and unescaped; diagrams carry no sizes |
| C83-C88 | GORM: embedding depends on map order and earlier calls, unused and missing imports, duplicate fields (two references to one table; a column `model` beside an embedded gorm.Model), unexported fields, lost sizes, embedding compares names only |
| C108 | nine declared options change nothing (see properties.jsonl); graphql reads three options it does not declare |
| C109 | names with separators write outside of the output directory; kt without package ignores it |
| C110 | kt and sqlalchemy leave files behind when they fail |
| C111 | `oct init` without -o uses the empty path; the default `db.json` is only shown in the help |
| C113 | .ojson as input is decoded as version 2: descriptions of columns are lost |
| C115 | useUTC of generate sqlalchemy is documented as a switch and declared as a string |
| C122 | change sets lack the required author when the schema has none; a removed comment is written without the required `remarks` (format/liquibase/generator.go 36, 163, 225) |
| C126 | the changelog of `generate liquibase` has no indices and no on-update values |
| C128 | with `--groups`, pb and gorm write fields for references into other groups whose types are not generated |
| C51 | DBML: a quotation mark in a description can declare a relation that does not exist |
| C112 | with a sort that is not stable, tables of the same name are read in another order than they were normalised |
| C119, C120 | export and import of a spreadsheet fails for enumerations and changes primary+unique keys; through MySQL, groups and `bit` are lost |
| C133 | GORM: bit(n>8) is a byte, nullable enumerations are `string`; protobuf: null, fractions and long decimals, bits |
| C134 | table descriptions are written without `--comments`; rewording a column of a renamed table turns the renaming into a drop (format/liquibase/diff.go 94, format/diff/diff.go 76) |
| C135 | null as a table or column of a schema file is a nil pointer and crashes `Normalize` (format/octopus/table.go 87-95, 186) |
| C138 | `MultiMap.RemoveValue` overwrites slices that `Get` has handed out (util/multimap.go 61-65) |
| C142 | outputs that show no values of columns still depend on those of set and enum columns: without them `Normalize` stops with an error that `LoadSchema` drops (format/octopus/io.go 20), and later columns keep the types of the file |
| C143 | `diff flyway` has no statements for columns that are added, dropped or renamed, for types, default values, comments and unique constraints; `MODIFY COLUMN` for nullability loses default, on-update value and comment; switching auto-increment off switches it on; a key is dropped even if there is none; columns that leave the key stay NOT NULL; tables with unique columns are renamed without renaming the constraint (format/diff/mysql.go) |
| C144 | `generate liquibase` writes `clob` and `blob` for texts and blobs of every length, and neither members of enumerations and sets; `export mysql` drops the sizes of binary and time types |
| C146 | Diff there and back: renames pair tables of equal columns (columns of equal shape) in the order of the new file with the old names in alphabetical order. Two alike tables `x`, `y` renamed to `z`, `w` (in this order in the file): there `x` becomes `z`, back `w` becomes `x`, so the rows of `x` and `y` have changed places. The same for columns of a table. |
| C149 | The field of a column like `u_id` is `UID`, without a column tag: `format/gorm/gorm.go` compares the column with the snake case of `UId`, before the final `Id` is put in capitals. Snake case of `UID` is `uid`. |
| C151 | Diagrams: a function call as default value makes the DBML document unreadable (C76) where the other two show the schema. |
| C152 | Null: for a key that is not declared as not null, and for a column that is not null and counted up outside of the key, the Kotlin entity says the opposite of the GORM struct and the SQLAlchemy class. |
| C154 | Spreadsheet: an on-update value that differs from the default value, and decimals with a size of zero, change each time a workbook is imported and exported; a default value with a comma can become an on-update value. |
| C155 | MySQL: the lengths of BINARY, and of types given with a length of zero bits, counters that are declared NULL, defaults other than numbers, texts and the current time, and geometry columns do not survive import, export and import. |
| C156 | Flyway: the changes of C143 that scripts do not cover accumulate along a history; the direct script from the first to the last version can fail where the scripts of a detour do not. |
| C157 | Spreadsheet: integer types with a length, such as bigint(20), and enumerations of an imported MySQL script do not come back, and the MySQL script exported afterwards has types that MySQL does not know. |
| C158 | Diff: when a column of the primary key is no longer declared not null, the flyway script is right and the changelog drops the constraint of a key column; when a column is added, the changelog is right and the flyway script misses it. |
| C159 | Diff: nothing is reported when a column is added, nothing is in the changelog when auto-increment is switched off, and neither notices a changed on-update value. |
| C160 | Diff against an imported schema: a column with auto-increment that is not said to be not null is reported as changed, and so are types and defaults that MySQL does not keep. |
| C161 | MySQL script exported, imported and exported: `tinyint(1)` becomes `bit(1)`, a default `NULL` or `-1` disappears, and a column with auto-increment becomes `NOT NULL`. |
| C162 | MySQL scripts with `DEFAULT -1` and without default, with `tinyint(1)` and `bit(1)`, with a nullable and a `NOT NULL` auto-increment are imported as the same schema. |
| C163 | MySQL export: AUTO_INCREMENT columns without a key, or not in front of it, are written, and MySQL rejects the script; an accepted script with `PRIMARY KEY (id, shop)` and the columns in the other order, or with `AUTO_INCREMENT UNIQUE` at a column, becomes such a script by import and export. |
| C164 | MySQL export: text, blob, json and geometry columns with a default value or in a key are written as they are, and MySQL rejects the script. |
| C165 | MySQL export: `varbinary` without length (always), `varchar` without length, `double(n)`, `enum()`, `int(n,m)` are written, and MySQL rejects the script; `double(10,0)`, which it accepts, becomes `double(10)` by import and export. |
| C166 | MySQL export: functions other than the current time as default value (`DEFAULT uuid()` without parentheses around it), and updates of columns that are no datetime, are written, and MySQL rejects the script. |
| C104, C105, C107 | GraphQL: empty types, names starting with a digit, duplicate and built-in names, int64 as Int |

## Trusted base

* Lean's kernel (Lean 4.33.0) and the axioms `propext`, `Classical.choice`, `Quot.sound`; every theorem `Cnn_*` depends on a
  subset of these three (`tools/axioms.sh` prints them; vcheck audits them).  No axioms of our own, no `sorry`, no `native_decide`, no `bv_decide`.
* The transcription of the Go code into `Verif/Model` (nothing was executed; every definition cites the lines it was read from).
* The specifications in `Verif/Spec` (small, and independent of the helpers of the model; they share its data types).
* The third-party behaviour listed above.

## Testing the theorems

`tools/seeded.py` edits one definition of the model in a scratch copy, rebuilds, and records which theorems fail
(`seeded/LOG.jsonl`; inputs in `seeded/batch*.json`).  `tools/mutate.py` makes random small edits, at least one per definition.
