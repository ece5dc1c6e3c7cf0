import Verif.Model.Octopus

/-! Model of the exporter of package `format/mysql` of /repo (exporter.go). -/

namespace Octo.Mysql

/-- `(*Exporter).quote`, format/mysql/exporter.go 123-125. -/
def backQuote (name : Str) : Str := "`"ₛ ++ name ++ "`"ₛ

/-- `formatColumnType`, format/mysql/exporter.go 127-136. -/
def formatColumnType (colType : Str) (c : Column) : Str :=
  if c.size > 0 then
    if c.scale > 0 then
      colType ++ "("ₛ ++ itoa c.size.toNat ++ ","ₛ ++ itoa c.scale.toNat ++ ")"ₛ
    else colType ++ "("ₛ ++ itoa c.size.toNat ++ ")"ₛ
  else colType

/-- `ToMysqlColumnType`, format/mysql/exporter.go 138-205. -/
def toMysqlColumnType (c : Column) : Str :=
  if c.type = "binary"ₛ then "binary"ₛ
  else if c.type = "bit"ₛ then formatColumnType "bit"ₛ c
  else if c.type = "blob8"ₛ then "tinyblob"ₛ
  else if c.type = "blob16"ₛ then "blob"ₛ
  else if c.type = "blob24"ₛ then "mediumblob"ₛ
  else if c.type = "blob32"ₛ then "longblob"ₛ
  else if c.type = "boolean"ₛ then "bit(1)"ₛ
  else if c.type = "char"ₛ then formatColumnType "char"ₛ c
  else if c.type = "date"ₛ then "date"ₛ
  else if c.type = "datetime"ₛ then "datetime"ₛ
  else if c.type = "decimal"ₛ then formatColumnType "decimal"ₛ c
  else if c.type = "double"ₛ then formatColumnType "double"ₛ c
  else if c.type = "enum"ₛ then "enum("ₛ ++ quoteAndJoin c.values "'"ₛ ", "ₛ ++ ")"ₛ
  else if c.type = "float"ₛ then formatColumnType "float"ₛ c
  else if c.type = "geometry"ₛ then "geometry"ₛ
  else if c.type = "int8"ₛ then formatColumnType "tinyint"ₛ c
  else if c.type = "int16"ₛ then formatColumnType "smallint"ₛ c
  else if c.type = "int24"ₛ then formatColumnType "mediumint"ₛ c
  else if c.type = "int32"ₛ then formatColumnType "int"ₛ c
  else if c.type = "int64"ₛ then formatColumnType "bigint"ₛ c
  else if c.type = "json"ₛ then "json"ₛ
  else if c.type = "point"ₛ then "point"ₛ
  else if c.type = "set"ₛ then "set("ₛ ++ quoteAndJoin c.values "'"ₛ ", "ₛ ++ ")"ₛ
  else if c.type = "text8"ₛ then "tinytext"ₛ
  else if c.type = "text16"ₛ then "text"ₛ
  else if c.type = "text24"ₛ then "mediumtext"ₛ
  else if c.type = "text32"ₛ then "longtext"ₛ
  else if c.type = "time"ₛ then "time"ₛ
  else if c.type = "varbinary"ₛ then "varbinary"ₛ
  else if c.type = "varchar"ₛ then formatColumnType "varchar"ₛ c
  else if c.type = "year"ₛ then "year"ₛ
  else c.type

/-- The text of a default or on-update value, format/mysql/exporter.go 219-226 and 231-238. -/
def valueText (type : Str) (v : Str × Bool) : Str :=
  if v.2 then v.1 ++ "()"ₛ
  else if isStringType type then "'"ₛ ++ v.1 ++ "'"ₛ
  else v.1

/-- `ColumnConstraints`, format/mysql/exporter.go 207-247. -/
def columnConstraints (c : Column) : Str :=
  join " "ₛ (
    (if c.notNull then ["NOT NULL"ₛ] else []) ++
    (if c.autoIncremental then ["AUTO_INCREMENT"ₛ] else []) ++
    (if c.defaultValue ≠ [] then ["DEFAULT "ₛ ++ valueText c.type c.getDefaultValue] else []) ++
    (if c.onUpdate ≠ [] then ["ON UPDATE "ₛ ++ valueText c.type c.getOnUpdate] else []) ++
    (if c.description ≠ [] then ["COMMENT '"ₛ ++ c.description ++ "'"ₛ] else []))

/-- The text of a column definition, format/mysql/exporter.go 78-85. -/
def columnDefinition (c : Column) : Str :=
  join " "ₛ ([c.name, toMysqlColumnType c] ++
    if columnConstraints c ≠ [] then [columnConstraints c] else [])

/-- The loop appending `,` to every definition but the last, format/mysql/exporter.go 108-113. -/
def withCommas : List Str → List Str
  | [] => []
  | [d] => [d]
  | d :: e :: r => (d ++ ","ₛ) :: withCommas (e :: r)

/-- The definitions of a table before the commas are added, format/mysql/exporter.go 74-106. -/
def definitions (suffix : Str) (t : Table) : List Str :=
  let pkColumns := (t.columns.filter (·.primaryKey)).map fun c => backQuote c.name
  let uniqueColumns := (t.columns.filter (·.uniqueKey)).map fun c => backQuote c.name
  t.columns.map columnDefinition ++
  (if pkColumns.length > 0 then ["PRIMARY KEY ("ₛ ++ join ", "ₛ pkColumns ++ ")"ₛ] else []) ++
  (if uniqueColumns.length > 0 then
    ["UNIQUE KEY "ₛ ++ backQuote (t.name ++ suffix) ++ " ("ₛ ++ join ", "ₛ uniqueColumns ++ ")"ₛ] else []) ++
  t.indices.map fun i =>
    "INDEX "ₛ ++ backQuote i.name ++ " ("ₛ ++ quoteAndJoin i.columns "`"ₛ ", "ₛ ++ ")"ₛ

/-- `exportTable`, format/mysql/exporter.go 69-121, with the template of lines 12-18. -/
def exportTable (suffix : Str) (t : Table) : Str :=
  "CREATE TABLE IF NOT EXISTS "ₛ ++ t.name ++ " (\n"ₛ ++
  (withCommas (definitions suffix t)).flatMap (fun d => "  "ₛ ++ d ++ "\n"ₛ) ++
  ");\n"ₛ

/-- `Export`, format/mysql/exporter.go 39-56. -/
def exportSchema (filter : Option (Table → Bool)) (suffix : Str) (s : Schema) : Str :=
  (s.tables.filter (passes filter)).flatMap (exportTable suffix)

end Octo.Mysql
