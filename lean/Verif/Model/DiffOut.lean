import Verif.Model.Diff
import Verif.Model.Mysql

/-! Model of the writers of package `format/diff` of /repo: mysql.go, flyway.go and markdown.go. -/

namespace Octo

/-- `ToSQL`, format/diff/mysql.go 26-184.  No case returns an error. -/
def toSQL (suffix : Str) : Change → List Str
  | .createTable t => [Mysql.exportTable suffix t]
  | .dropTable t => ["DROP TABLE "ₛ ++ t.name ++ ";"ₛ]
  | .renameTable o n => ["RENAME TABLE "ₛ ++ o.name ++ " TO "ₛ ++ n.name ++ ";"ₛ]
  | .updatePrimaryKey _ n =>
    let pkColumnNames := n.primaryKeyNameSet.slice
    ["ALTER TABLE "ₛ ++ n.name ++ " DROP PRIMARY KEY;"ₛ] ++
    (if pkColumnNames.length > 0 then
      ["ALTER TABLE "ₛ ++ n.name ++ " ADD PRIMARY KEY ("ₛ ++ join ","ₛ pkColumnNames ++ ");"ₛ] else [])
  | .createUnique _ _ => []
  | .dropUnique _ _ => []
  | .setTableComment _ => []
  | .addColumn t c =>
    ["ALTER TABLE "ₛ ++ t.name ++ " MODIFY ADD "ₛ ++ c.name ++ " "ₛ ++ Mysql.toMysqlColumnType c ++
      (if Mysql.columnConstraints c ≠ [] then " "ₛ ++ Mysql.columnConstraints c else []) ++ ";"ₛ]
  | .dropColumn _ _ => []
  | .setColumnComment _ _ => []
  | .changeColumnType _ _ _ => []
  | .renameColumn _ _ _ => []
  | .setNotNull t c =>
    if c.notNull then ["ALTER TABLE "ₛ ++ t.name ++ " MODIFY "ₛ ++ c.name ++ " "ₛ ++ Mysql.toMysqlColumnType c ++ " NOT NULL;"ₛ]
    else ["ALTER TABLE "ₛ ++ t.name ++ " MODIFY "ₛ ++ c.name ++ " "ₛ ++ Mysql.toMysqlColumnType c ++ ";"ₛ]
  | .setAutoIncrement t c =>
    if c.autoIncremental then
      [join " "ₛ ["ALTER TABLE "ₛ ++ t.name ++ " MODIFY COLUMN "ₛ ++ c.name ++ " "ₛ ++ Mysql.toMysqlColumnType c,
        Mysql.columnConstraints c] ++ ";"ₛ]
    else
      ["ALTER TABLE "ₛ ++ t.name ++ " MODIFY COLUMN "ₛ ++ c.name ++ " "ₛ ++ Mysql.toMysqlColumnType c ++
        " AUTO_INCREMENT PRIMARY KEY;"ₛ]
  | .setDefaultValue _ _ => []

/-- `FlywayChangeSetWriter.Write`, format/diff/flyway.go 42-56. -/
def flyway (suffix : Str) (changeSets : List ChangeSet) : Str :=
  changeSets.flatMap fun cs => (cs.changes.flatMap fun c => (toSQL suffix c).flatMap (· ++ "\n"ₛ)) ++ "\n"ₛ

/-- `toMarkdownLine`, format/diff/markdown.go 121-234.  No case returns an error. -/
def toMarkdownLine : Change → Str
  | .createTable _ => "create table"ₛ
  | .dropTable _ => "drop table"ₛ
  | .renameTable o n => "rename table `"ₛ ++ o.name ++ "` → `"ₛ ++ n.name ++ "`"ₛ
  | .updatePrimaryKey o n =>
    "update PK: ["ₛ ++ join ", "ₛ o.primaryKeyNameSet.slice ++ "] → ["ₛ ++ join ", "ₛ n.primaryKeyNameSet.slice ++ "]"ₛ
  | .createUnique _ t => "create unique constraint: ["ₛ ++ join ", "ₛ t.uniqueKeyNameSet.slice ++ "]"ₛ
  | .dropUnique _ t => "drop unique constraint: ["ₛ ++ join ", "ₛ t.uniqueKeyNameSet.slice ++ "]"ₛ
  | .setTableComment t => "update table comment: `"ₛ ++ t.description ++ "`"ₛ
  | .addColumn _ c => "add column: `"ₛ ++ c.name ++ "`"ₛ
  | .dropColumn _ n => "drop column: `"ₛ ++ n ++ "`"ₛ
  | .setColumnComment _ c => "update column comment: `"ₛ ++ c.name ++ "` :`"ₛ ++ c.description ++ "`"ₛ
  | .changeColumnType _ o n => "change column type: `"ₛ ++ n.name ++ "` :`"ₛ ++ o.format ++ "` → `"ₛ ++ n.format ++ "`"ₛ
  | .renameColumn _ o n => "rename column: `"ₛ ++ o.name ++ "` → `"ₛ ++ n.name ++ "`"ₛ
  | .setNotNull _ c => if c.notNull then "set not null: `"ₛ ++ c.name ++ "`"ₛ else "set nullable: `"ₛ ++ c.name ++ "`"ₛ
  | .setAutoIncrement _ c =>
    if c.autoIncremental then "set auto incremental: `"ₛ ++ c.name ++ "`"ₛ
    else "remove auto incremental: `"ₛ ++ c.name ++ "`"ₛ
  | .setDefaultValue _ c =>
    if c.defaultValue = [] then "remove default value: `"ₛ ++ c.name ++ "`"ₛ
    else "update default value: `"ₛ ++ c.name ++ "` : `"ₛ ++ c.defaultValue ++ "`"ₛ

/-- `MarkdownChangeSetWriter.Write`, format/diff/markdown.go 81-119.  `ord` is the iteration order of
the map inside the multimap. -/
def markdown (ord : List Str → List Str) (fromVersion toVersion : Str) (changeSets : List ChangeSet) : Str :=
  let changesByTable := changeSets.foldl (fun m cs => cs.changes.foldl (fun (m : MultiMap Str Change) c =>
    m.put c.depTable.name c) m) MultiMap.empty
  let keys := sortStrings (changesByTable.keys ord)
  "# DB Schema changes\n"ₛ ++ "\n"ₛ ++ "* from: `"ₛ ++ fromVersion ++ "`\n"ₛ ++ "* to: `"ₛ ++ toVersion ++ "`\n"ₛ ++
  keys.flatMap fun tableName =>
    "\n"ₛ ++ "## "ₛ ++ tableName ++ "\n"ₛ ++
    ((changesByTable.get tableName).getD []).flatMap fun c => "* "ₛ ++ toMarkdownLine c ++ "\n"ₛ

end Octo
