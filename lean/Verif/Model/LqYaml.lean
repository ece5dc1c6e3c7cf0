import Verif.Model.Liquibase

/-! Model of the YAML document of package `format/liquibase` of /repo: the struct tags of generator.go
14-48, 134-449 and 495-499, as `yaml.Marshal` (generator.go 557, diff.go 162) turns them into a tree.

`gopkg.in/yaml.v2` is not part of /repo.  Of it the following is modelled: a struct becomes a mapping
with one entry per field under its tag name, `omitempty` fields only when they are not empty (a string
of length zero, a nil pointer or interface, a map or slice of length zero); a pointer becomes what it
points to; maps and slices become mappings and sequences.  How the tree is written as text is not
modelled.  Entries of Go maps are written in the order of their keys, those of structs in the order
of their fields. -/

namespace Octo.Lq

/-- YAML trees.  (Keys are `String`, all of them being literals of the program.) -/
inductive Yaml
  | str (s : Str)
  | bool (b : Bool)
  | int (n : Int)
  | float (text : Str)
  | seq (items : List Yaml)
  | map (entries : List (String × Yaml))
  deriving Repr

/-- A field of type string. -/
def field (key : String) (s : Str) : List (String × Yaml) := [(key, .str s)]

/-- A field of type string with `omitempty`. -/
def fieldOpt (key : String) (s : Str) : List (String × Yaml) := if s = [] then [] else [(key, .str s)]

/-- A field of type `*bool` with `omitempty`. -/
def fieldBool (key : String) : Option Bool → List (String × Yaml)
  | none => []
  | some b => [(key, .bool b)]

/-- A field of type `interface{}` with `omitempty`, holding a number. -/
def fieldNum (key : String) : Option Num → List (String × Yaml)
  | none => []
  | some (.int n) => [(key, .int n)]
  | some (.float x) => [(key, .float x)]

/-- The four fields of a default value, generator.go 402-405 (and 313-316, 444-447): the numeric one is
an interface holding a pointer, which is written even if it points to zero. -/
def defaultFields (d : DefaultValue) : List (String × Yaml) :=
  fieldOpt "defaultValue" d.text ++
  (fieldBool "defaultValueBoolean" d.boolean ++
  (fieldNum "defaultValueNumeric" d.numeric ++ fieldOpt "defaultValueDate" d.date))

/-- `LqConstraints`, generator.go 495-499. -/
def constraintsDoc (c : Constraints) : Yaml :=
  .map (fieldBool "primaryKey" c.primaryKey ++ (fieldBool "nullable" c.nullable ++ fieldBool "unique" c.unique))

/-- The field `Constraints`, generator.go 442: a pointer with `omitempty`. -/
def fieldConstraints : Option Constraints → List (String × Yaml)
  | none => []
  | some k => [("constraints", constraintsDoc k)]

/-- `LqColumn`, generator.go 438-449. -/
def columnDoc (c : LqColumn) : Yaml :=
  .map (field "name" c.name ++ (field "type" c.type ++ (fieldBool "autoIncrement" c.autoIncrement ++
    (fieldConstraints c.constraints ++ (fieldOpt "remarks" c.remarks ++ (defaultFields c.default ++ fieldOpt "afterColumn" c.afterColumn))))))

/-- The lists of columns, generator.go 144-146 and 200: each one in a map under the key `column`. -/
def columnsDoc (cs : List LqColumn) : Yaml := .seq (cs.map fun c => .map [("column", columnDoc c)])

/-- The keys under which the changes are appended: generator.go 54-68; diff.go 109, 120, 127, 138, 178,
232, 239, 246, 252, 271, 282, 286, 297, 318, 324, 330, 337, 339, 349, 357, 362. -/
def changeKey : LqChange → String
  | .createTable .. => "createTable"
  | .dropTable .. => "dropTable"
  | .renameTable .. => "renameTable"
  | .setTableRemarks .. => "setTableRemarks"
  | .addColumn .. => "addColumn"
  | .dropColumn .. => "dropColumn"
  | .setColumnRemarks .. => "setColumnRemarks"
  | .modifyDataType .. => "modifyDataType"
  | .renameColumn .. => "renameColumn"
  | .addNotNullConstraint .. => "addNotNullConstraint"
  | .dropNotNullConstraint .. => "dropNotNullConstraint"
  | .addAutoIncrement .. => "addAutoIncrement"
  | .addDefaultValue .. => "addDefaultValue"
  | .dropDefaultValue .. => "dropDefaultValue"
  | .addPrimaryKey .. => "addPrimaryKey"
  | .dropPrimaryKey .. => "dropPrimaryKey"
  | .addUniqueConstraint .. => "addUniqueConstraint"
  | .dropUniqueConstraint .. => "dropUniqueConstraint"

/-- The fields of the changes: `LqCreateTable` ... `LqDropUniqueConstraint`, generator.go 138-395. -/
def changeFields : LqChange → List (String × Yaml)
  | .createTable t r cs => field "tableName" t ++ (fieldOpt "remarks" r ++ [("columns", columnsDoc cs)])
  | .dropTable t => field "tableName" t
  | .renameTable new old => field "newTableName" new ++ field "oldTableName" old
  | .setTableRemarks t r => field "tableName" t ++ fieldOpt "remarks" r
  | .addColumn t cs => field "tableName" t ++ [("columns", columnsDoc cs)]
  | .dropColumn t c => field "tableName" t ++ field "columnName" c
  | .setColumnRemarks t c r => field "tableName" t ++ (field "columnName" c ++ fieldOpt "remarks" r)
  | .modifyDataType t c ty => field "tableName" t ++ (field "columnName" c ++ field "newDataType" ty)
  | .renameColumn t new old ty =>
    field "tableName" t ++ (field "newColumnName" new ++ (field "oldColumnName" old ++ field "columnDataType" ty))
  | .addNotNullConstraint t c ty v =>
    field "tableName" t ++ (field "columnName" c ++ (field "columnDataType" ty ++ fieldOpt "defaultNullValue" v))
  | .dropNotNullConstraint t c ty => field "tableName" t ++ (field "columnName" c ++ field "columnDataType" ty)
  | .addAutoIncrement t c ty => field "tableName" t ++ (field "columnName" c ++ field "columnDataType" ty)
  | .addDefaultValue t c ty v =>
    field "tableName" t ++ (field "columnName" c ++ (fieldOpt "columnDataType" ty ++ defaultFields v))
  | .dropDefaultValue t c ty => field "tableName" t ++ (field "columnName" c ++ field "columnDataType" ty)
  | .addPrimaryKey t cs => field "tableName" t ++ field "columnNames" cs
  | .dropPrimaryKey t => field "tableName" t
  | .addUniqueConstraint t cs k => field "tableName" t ++ (field "columnNames" cs ++ field "constraintName" k)
  | .dropUniqueConstraint t k => field "tableName" t ++ field "constraintName" k

/-- `Append`, generator.go 50-52. -/
def changeDoc (c : LqChange) : Yaml := .map [(changeKey c, .map (changeFields c))]

/-- The preconditions of generator.go 119-126. -/
def preConditionsDoc : Yaml :=
  .map [("dbms", .map [("type", .str "derby, h2, mssql, mariadb, mysql, postgresql, sqlite"ₛ)]),
        ("onError", .str "CONTINUE"ₛ), ("onFail", .str "CONTINUE"ₛ)]

/-- `LqChangeSet`, generator.go 34-39. -/
def changeSetDoc (s : LqChangeSet) : Yaml :=
  .map (field "id" s.id ++ (fieldOpt "author" s.author ++
    ((if s.preConditions then [("preConditions", preConditionsDoc)] else []) ++
    (if s.changes = [] then [] else [("changes", .seq (s.changes.map changeDoc))]))))

/-- `LqYaml` with `newLqYaml` and `AddChangeSet`, generator.go 14-32: the document of a changelog, as
given to `yaml.Marshal` by `generateAll` (line 557) and by `generate` (diff.go 162). -/
def changelogDoc (sets : List LqChangeSet) : Yaml :=
  .map [("databaseChangeLog", .seq (.map [("objectQuotingStrategy", .str "QUOTE_ALL_OBJECTS"ₛ)] ::
    sets.map fun s => .map [("changeSet", changeSetDoc s)]))]

end Octo.Lq
