import Verif.Basic.GoMap
import Verif.Basic.Str
import Verif.Lemmas.CliAction
import Verif.Lemmas.CliDemo
import Verif.Lemmas.CliDiff
import Verif.Lemmas.CliFiles
import Verif.Lemmas.CliNames
import Verif.Lemmas.CliOutput
import Verif.Lemmas.CliParse
import Verif.Lemmas.Common
import Verif.Lemmas.Database
import Verif.Lemmas.Dbml
import Verif.Lemmas.Diff
import Verif.Lemmas.DiffOut
import Verif.Lemmas.DiffProps
import Verif.Lemmas.DiffTables
import Verif.Lemmas.FlywayDb
import Verif.Lemmas.FlywayRead
import Verif.Lemmas.FlywayTable
import Verif.Lemmas.Gorm
import Verif.Lemmas.GormFile
import Verif.Lemmas.GormStruct
import Verif.Lemmas.GormText
import Verif.Lemmas.Graphql
import Verif.Lemmas.JpaClass
import Verif.Lemmas.JpaField
import Verif.Lemmas.JpaFile
import Verif.Lemmas.JpaRepository
import Verif.Lemmas.JpaRun
import Verif.Lemmas.JpaText
import Verif.Lemmas.Json
import Verif.Lemmas.Kept
import Verif.Lemmas.Liquibase
import Verif.Lemmas.LiquibaseDb
import Verif.Lemmas.LiquibaseDiff
import Verif.Lemmas.LiquibaseExact
import Verif.Lemmas.LqCarry
import Verif.Lemmas.LqMoves
import Verif.Lemmas.LqMovesDb
import Verif.Lemmas.LqUniqueMoves
import Verif.Lemmas.LqYaml
import Verif.Lemmas.Migrate
import Verif.Lemmas.MigrateDb
import Verif.Lemmas.Mysql
import Verif.Lemmas.MysqlDb
import Verif.Lemmas.MysqlImport
import Verif.Lemmas.Octopus
import Verif.Lemmas.Ojson
import Verif.Lemmas.Paths
import Verif.Lemmas.Plantuml
import Verif.Lemmas.Protobuf
import Verif.Lemmas.ProtobufMessages
import Verif.Lemmas.Quickdbd
import Verif.Lemmas.Renames
import Verif.Lemmas.SaClass
import Verif.Lemmas.SaColumn
import Verif.Lemmas.SaDescribe
import Verif.Lemmas.SaFile
import Verif.Lemmas.SaGenerate
import Verif.Lemmas.SaScope
import Verif.Lemmas.SaText
import Verif.Lemmas.Sql
import Verif.Lemmas.Stable
import Verif.Lemmas.Staruml
import Verif.Lemmas.StarumlJson
import Verif.Lemmas.Str
import Verif.Lemmas.Strcase
import Verif.Lemmas.TypeText
import Verif.Lemmas.Util
import Verif.Lemmas.Xlsx
import Verif.Model.Cli
import Verif.Model.Common
import Verif.Model.Dbml
import Verif.Model.Diff
import Verif.Model.DiffOut
import Verif.Model.Gorm
import Verif.Model.Graphql
import Verif.Model.Jpa
import Verif.Model.Json
import Verif.Model.JsonNull
import Verif.Model.Liquibase
import Verif.Model.LqYaml
import Verif.Model.Mysql
import Verif.Model.MysqlImport
import Verif.Model.Octopus
import Verif.Model.Ojson
import Verif.Model.Plantuml
import Verif.Model.Protobuf
import Verif.Model.Quickdbd
import Verif.Model.Sqlalchemy
import Verif.Model.Staruml
import Verif.Model.StarumlJson
import Verif.Model.Strcase
import Verif.Model.Util
import Verif.Model.UtilHeap
import Verif.Model.Xlsx
import Verif.Props.AutoIncrement
import Verif.Props.Cli
import Verif.Props.CliConvert
import Verif.Props.CliLost
import Verif.Props.CliOptions
import Verif.Props.CliOrder
import Verif.Props.Common
import Verif.Props.Crash
import Verif.Props.Dbml
import Verif.Props.Descriptions
import Verif.Props.Diff
import Verif.Props.DiffBack
import Verif.Props.DiffDb
import Verif.Props.DiffGroups
import Verif.Props.DiffImported
import Verif.Props.DiffOut
import Verif.Props.DiffTables
import Verif.Props.DiffValues
import Verif.Props.Drawn
import Verif.Props.Exact
import Verif.Props.ExactDbmlText
import Verif.Props.ExactDiff
import Verif.Props.ExactGorm
import Verif.Props.ExactGroups
import Verif.Props.ExactLiquibase
import Verif.Props.ExactLiteral
import Verif.Props.ExactLqDiff
import Verif.Props.ExactMore
import Verif.Props.ExactMysql
import Verif.Props.ExactMysqlCli
import Verif.Props.ExactMysqlSchema
import Verif.Props.ExactSheetCli
import Verif.Props.ExactSqlalchemy
import Verif.Props.ExactUtil
import Verif.Props.ExactXlsx
import Verif.Props.Failure
import Verif.Props.FirstSteps
import Verif.Props.Flyway
import Verif.Props.FlywayHistory
import Verif.Props.Gorm
import Verif.Props.Graphql
import Verif.Props.Groups
import Verif.Props.ImportKeeps
import Verif.Props.Jpa
import Verif.Props.Json
import Verif.Props.JsonEdit
import Verif.Props.JsonNull
import Verif.Props.Kept
import Verif.Props.Liquibase
import Verif.Props.LiquibaseDb
import Verif.Props.LongTypes
import Verif.Props.LqHistory
import Verif.Props.LqMysqlTypes
import Verif.Props.LqReport
import Verif.Props.LqValues
import Verif.Props.LqYaml
import Verif.Props.Mapped
import Verif.Props.MappedExact
import Verif.Props.Mysql
import Verif.Props.MysqlDb
import Verif.Props.MysqlImport
import Verif.Props.NoChanges
import Verif.Props.Nulls
import Verif.Props.Octopus
import Verif.Props.Ojson
import Verif.Props.Outputs
import Verif.Props.Paths
import Verif.Props.Plantuml
import Verif.Props.Protobuf
import Verif.Props.Quickdbd
import Verif.Props.Reimport
import Verif.Props.ReimportCli
import Verif.Props.RelationTags
import Verif.Props.SameScript
import Verif.Props.SameScriptCli
import Verif.Props.ScriptRest
import Verif.Props.Settled
import Verif.Props.SettledFile
import Verif.Props.SettledSheet
import Verif.Props.Sqlalchemy
import Verif.Props.Stable
import Verif.Props.Staruml
import Verif.Props.StarumlJson
import Verif.Props.Success
import Verif.Props.Targets
import Verif.Props.TimeFunctions
import Verif.Props.TwoMigrations
import Verif.Props.TypeArgs
import Verif.Props.TypeArgsImport
import Verif.Props.Ungrouped
import Verif.Props.UngroupedCli
import Verif.Props.Util
import Verif.Props.UtilHeap
import Verif.Props.Values
import Verif.Props.Xlsx
import Verif.Spec.AutoIncrement
import Verif.Spec.Cli
import Verif.Spec.CliOrder
import Verif.Spec.Common
import Verif.Spec.Crash
import Verif.Spec.Database
import Verif.Spec.Dbml
import Verif.Spec.DbmlString
import Verif.Spec.Descriptions
import Verif.Spec.Diff
import Verif.Spec.DiffMeaning
import Verif.Spec.DiffOut
import Verif.Spec.Expressible
import Verif.Spec.Failure
import Verif.Spec.Flyway
import Verif.Spec.Gorm
import Verif.Spec.Graphql
import Verif.Spec.Groups
import Verif.Spec.Ident
import Verif.Spec.Jpa
import Verif.Spec.Json
import Verif.Spec.JsonEdit
import Verif.Spec.JsonNull
import Verif.Spec.Kept
import Verif.Spec.Liquibase
import Verif.Spec.LongTypes
import Verif.Spec.LqHistory
import Verif.Spec.LqMoves
import Verif.Spec.LqMysqlTypes
import Verif.Spec.LqYaml
import Verif.Spec.MysqlAst
import Verif.Spec.MysqlDb
import Verif.Spec.MysqlDdl
import Verif.Spec.Octopus
import Verif.Spec.Ojson
import Verif.Spec.Outputs
import Verif.Spec.Paths
import Verif.Spec.Plantuml
import Verif.Spec.Protobuf
import Verif.Spec.Quickdbd
import Verif.Spec.RelationTags
import Verif.Spec.Sql
import Verif.Spec.SqlString
import Verif.Spec.Sqlalchemy
import Verif.Spec.Staruml
import Verif.Spec.StarumlJson
import Verif.Spec.Success
import Verif.Spec.Targets
import Verif.Spec.TimeFunctions
import Verif.Spec.TypeArgs
import Verif.Spec.TypeText
import Verif.Spec.Util
import Verif.Spec.UtilHeap
import Verif.Spec.Values
import Verif.Spec.Xlsx
