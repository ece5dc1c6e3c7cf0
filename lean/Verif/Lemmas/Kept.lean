import Verif.Spec.Kept

/-! What the generators do with a schema without some of its data. -/

namespace Octo
open Spec Cli

section
variable (i : Info)

@[simp] theorem Spec.Info.column_name (c : Column) : (i.column c).name = c.name := by cases i <;> rfl
@[simp] theorem Spec.Info.column_type (c : Column) : (i.column c).type = c.type := by cases i <;> rfl
@[simp] theorem Spec.Info.table_name (t : Table) : (i.table t).name = t.name := by cases i <;> rfl
@[simp] theorem Spec.Info.table_group (t : Table) : (i.table t).group = t.group := by cases i <;> rfl
@[simp] theorem Spec.Info.table_columns (t : Table) : (i.table t).columns = t.columns.map i.column := by cases i <;> rfl
@[simp] theorem without_tables (s : Schema) : (without i s).tables = s.tables.map i.table := by cases i <;> rfl

theorem passes_without (g : Str) (t : Table) : passes (getTableFilterFn g) (i.table t) = passes (getTableFilterFn g) t := by
  unfold passes getTableFilterFn
  by_cases h : g = []
  · rw [if_pos h]
  · rw [if_neg h]
    simp only [Spec.Info.table_group]

theorem filter_without (g : Str) (s : Schema) :
    (without i s).tables.filter (passes (getTableFilterFn g)) = (s.tables.filter (passes (getTableFilterFn g))).map i.table := by
  rw [without_tables, List.filter_map]
  congr 1
  exact List.filter_congr fun t _ => passes_without i g t

theorem filter_col {p : Column → Bool} (h : ∀ c, p (i.column c) = p c) (l : List Column) :
    (l.map i.column).filter p = (l.filter p).map i.column := by
  rw [List.filter_map]
  congr 1
  exact List.filter_congr fun c _ => h c

theorem map_col {α : Type} {f : Column → α} (h : ∀ c, f (i.column c) = f c) (l : List Column) : (l.map i.column).map f = l.map f := by
  rw [List.map_map]
  exact List.map_congr_left fun c _ => h c

theorem flatMap_col {α : Type} {f : Column → List α} (h : ∀ c, f (i.column c) = f c) (l : List Column) :
    (l.map i.column).flatMap f = l.flatMap f := by
  rw [List.flatMap_map]
  exact List.flatMap_congr fun c _ => h c

theorem filterMap_col {α : Type} {f : Column → Option α} (h : ∀ c, f (i.column c) = f c) (l : List Column) :
    (l.map i.column).filterMap f = l.filterMap f := by
  rw [List.filterMap_map]
  exact List.filterMap_congr fun c _ => h c

theorem flatMap_tab {α : Type} {f : Table → List α} (h : ∀ c, f (i.table c) = f c) (l : List Table) :
    (l.map i.table).flatMap f = l.flatMap f := by
  rw [List.flatMap_map]
  exact List.flatMap_congr fun c _ => h c

theorem column_pk (h : i ≠ .primaryKey) (c : Column) : (i.column c).primaryKey = c.primaryKey := by
  cases i <;> first | rfl | exact absurd rfl h

theorem column_unique (h : i ≠ .uniqueKey) (c : Column) : (i.column c).uniqueKey = c.uniqueKey := by
  cases i <;> first | rfl | exact absurd rfl h

end

theorem kept_ne {i j : Info} {c : Cmd} (h : i ∉ shownBy c) (hj : j ∈ shownBy c) : i ≠ j := fun e => h (e ▸ hj)

/-! ### Exports -/

theorem dbml_without {i : Info} (h : i ∉ shownBy .exportDbml) (f : Option (Table → Bool)) (s : Schema) :
    Dbml.exportText f (without i s) = Dbml.exportText f s := by
  have h1 : ∀ d c, Dbml.columnLine d (i.column c) = Dbml.columnLine d c := by
    intro d c
    cases i <;> first | exact absurd (by decide) h | rfl
  have h2 : ∀ d n c, Dbml.deferredRef d n (i.column c) = Dbml.deferredRef d n c := by
    intro d n c
    cases i <;> first | exact absurd (by decide) h | rfl
  have key : ∀ ts d, Dbml.tablesLoop d (ts.map i.table) = Dbml.tablesLoop d ts := by
    intro ts
    induction ts with
    | nil => exact fun _ => rfl
    | cons t ts ih =>
      intro d
      rw [List.map_cons]
      unfold Dbml.tablesLoop
      dsimp only
      rw [ih, Spec.Info.table_name, Spec.Info.table_columns, map_col i (h1 d), flatMap_col i (h2 d _)]
  unfold Dbml.exportText
  rw [without_tables, key]

theorem quickdbd_without {i : Info} (h : i ∉ shownBy .exportQuickdbd) (s : Schema) :
    Quickdbd.exportText (without i s) = Quickdbd.exportText s := by
  unfold Quickdbd.exportText
  rw [without_tables, flatMap_tab i fun t => ?_]
  have h1 : ∀ c, Quickdbd.columnDef (i.column c) = Quickdbd.columnDef c := by
    intro c
    cases i <;> first | exact absurd (by decide) h | rfl
  have h2 : Quickdbd.tableDef (i.table t) = Quickdbd.tableDef t := by
    cases i <;> first | exact absurd (by decide) h | rfl
  unfold Quickdbd.tableLines
  rw [h2, Spec.Info.table_name, Spec.Info.table_columns, map_col i h1]

theorem plantuml_without {i : Info} (h : i ∉ shownBy .plantuml) (s : Schema) : Plantuml.generate (without i s) = Plantuml.generate s := by
  have h1 : ∀ c, Plantuml.columnDef (i.column c) = Plantuml.columnDef c := by
    intro c
    cases i <;> first | exact absurd (by decide) h | rfl
  have h2 : ∀ n c, Plantuml.edge n (i.column c) = Plantuml.edge n c := by
    intro n c
    cases i <;> first | exact absurd (by decide) h | rfl
  have h3 : ∀ cs b, Plantuml.columnLines b (cs.map i.column) = Plantuml.columnLines b cs := by
    intro cs
    induction cs with
    | nil => exact fun _ => rfl
    | cons c cs ih =>
      intro b
      rw [List.map_cons]
      unfold Plantuml.columnLines
      rw [column_pk i (kept_ne h (by decide)), h1, ih, ih]
  unfold Plantuml.generate
  rw [without_tables, flatMap_tab i fun t => ?_, flatMap_tab i fun t => ?_]
  · rw [Spec.Info.table_name, Spec.Info.table_columns, filterMap_col i (h2 _)]
  · unfold Plantuml.tableLines
    rw [Spec.Info.table_name, Spec.Info.table_columns, h3]

theorem mysql_without {i : Info} (h : i ∉ shownBy .exportMysql) (g suffix : Str) (s : Schema) :
    Mysql.exportSchema (getTableFilterFn g) suffix (without i s) = Mysql.exportSchema (getTableFilterFn g) suffix s := by
  unfold Mysql.exportSchema
  rw [filter_without, flatMap_tab i fun t => ?_]
  have h1 : ∀ c, Mysql.columnDefinition (i.column c) = Mysql.columnDefinition c := by
    intro c
    cases i <;> first | exact absurd (by decide) h | rfl
  have h2 : (i.table t).indices = t.indices := by cases i <;> first | exact absurd (by decide) h | rfl
  unfold Mysql.exportTable Mysql.definitions
  rw [h2, Spec.Info.table_name, Spec.Info.table_columns, map_col i h1, filter_col i (column_pk i (kept_ne h (by decide))),
    filter_col i (column_unique i (kept_ne h (by decide))), map_col i (fun c => by rw [Spec.Info.column_name]),
    map_col i (fun c => by rw [Spec.Info.column_name])]

theorem xlsx_without {i : Info} (h : i ∉ shownBy .exportXlsx) (accepts : Str → Bool) (useNull : Bool) (s : Schema) :
    Xlsx.exportSchema accepts useNull (without i s) = Xlsx.exportSchema accepts useNull s := by
  have h1 : ∀ c, Xlsx.columnRow useNull (i.column c) = Xlsx.columnRow useNull c := by
    intro c
    cases i with
    | relationship =>
      unfold Xlsx.columnRow
      have : Xlsx.columnReference (Info.relationship.column c) = Xlsx.columnReference c := by
        unfold Xlsx.columnReference Info.column
        dsimp only
        cases c.ref <;> rfl
      rw [this]
      rfl
    | _ => first | exact absurd (by decide) h | rfl
  have h2 : ∀ t, Xlsx.tableRows useNull (i.table t) = Xlsx.tableRows useNull t := by
    intro t
    have a : Xlsx.tableRow (i.table t) = Xlsx.tableRow t := by cases i <;> first | exact absurd (by decide) h | rfl
    have b : (i.table t).indices = t.indices := by cases i <;> first | exact absurd (by decide) h | rfl
    unfold Xlsx.tableRows
    rw [a, b, Spec.Info.table_columns, map_col i h1]
  have h3 : ∀ g n ts k, Xlsx.bodyRows useNull g n k (ts.map i.table) = Xlsx.bodyRows useNull g n k ts := by
    intro g n ts
    induction ts with
    | nil => exact fun _ => rfl
    | cons t ts ih =>
      intro k
      rw [List.map_cons]
      unfold Xlsx.bodyRows
      rw [ih, h2, Spec.Info.table_group]
  have h4 : ∀ g, Xlsx.groupRows useNull (without i s) g = Xlsx.groupRows useNull s g := by
    intro g
    unfold Xlsx.groupRows
    rw [without_tables, h3, List.length_map]
  have h5 : (without i s).groups = s.groups := by
    unfold Schema.groups Schema.groupsOrd
    rw [without_tables, List.foldl_map]
    simp only [Spec.Info.table_group]
  have h6 : Xlsx.metaRows (without i s) = Xlsx.metaRows s := by cases i <;> first | exact absurd (by decide) h | rfl
  have h7 : ∀ gs wb, Xlsx.addGroups accepts useNull (without i s) wb gs = Xlsx.addGroups accepts useNull s wb gs := by
    intro gs
    induction gs with
    | nil => exact fun _ => rfl
    | cons g gs ih =>
      intro wb
      unfold Xlsx.addGroups
      rw [h4]
      split
      · rfl
      · exact ih _
  unfold Xlsx.exportSchema
  rw [h6, h5]
  split
  · rfl
  · exact h7 _ _

/-! ### Generators -/

theorem graphql_without {i : Info} (h : i ∉ shownBy .graphql) (sc : Strcase) (plural : Str → Str) (m : PrefixMapper) (g : Str) (ps : List Str)
    (s : Schema) (out : Str) :
    Graphql.generate sc plural ⟨m, getTableFilterFn g, ps⟩ (without i s) out =
      Graphql.generate sc plural ⟨m, getTableFilterFn g, ps⟩ s out := by
  have hn : ∀ t, Graphql.className sc ⟨m, getTableFilterFn g, ps⟩ (i.table t) = Graphql.className sc ⟨m, getTableFilterFn g, ps⟩ t := by
    intro t
    cases i <;> first | exact absurd (by decide) h | rfl
  have hf : ∀ c, (Graphql.newField sc (i.column c)).name = (Graphql.newField sc c).name ∧
      (Graphql.newField sc (i.column c)).type = (Graphql.newField sc c).type ∧ (Graphql.newField sc (i.column c)).column = i.column c := by
    intro c
    cases i <;> first | exact absurd (by decide) h | exact ⟨rfl, rfl, rfl⟩
  have hpk := column_pk i (kept_ne h (by decide))
  have hl : ∀ t, Graphql.classLines (Graphql.newClass sc ⟨m, getTableFilterFn g, ps⟩ (i.table t)) =
      Graphql.classLines (Graphql.newClass sc ⟨m, getTableFilterFn g, ps⟩ t) := by
    intro t
    have e1 : ((((i.table t).columns.map (Graphql.newField sc)).filter (·.column.primaryKey))).length =
        ((t.columns.map (Graphql.newField sc)).filter (·.column.primaryKey)).length := by
      rw [Spec.Info.table_columns, List.filter_map, List.length_map, List.filter_map, List.length_map, List.filter_map, List.length_map]
      refine congrArg List.length (List.filter_congr fun c _ => ?_)
      exact hpk c
    unfold Graphql.classLines Graphql.newClass
    dsimp only
    rw [hn, e1]
    split
    · simp only [List.map_map, Spec.Info.table_columns]
      congr 2
      refine List.map_congr_left fun c _ => ?_
      simp only [Function.comp_apply]
      have : (Graphql.newField sc (i.column c)).column.primaryKey = (Graphql.newField sc c).column.primaryKey := hpk c
      rw [this]
      split
      · rw [(hf c).1]
      · rw [(hf c).1, (hf c).2.1]
    · simp only [List.map_map, Spec.Info.table_columns]
      congr 2
      refine List.map_congr_left fun c _ => ?_
      simp only [Function.comp_apply]
      rw [(hf c).1, (hf c).2.1]
  have e2 : (without i s).name = s.name := by cases i <;> first | exact absurd (by decide) h | rfl
  have e3 : (without i s).version = s.version := by cases i <;> first | exact absurd (by decide) h | rfl
  have a : ∀ l : List Table, ((l.map i.table).map (Graphql.newClass sc ⟨m, getTableFilterFn g, ps⟩)).map (fun k : Graphql.GqlClass =>
      Graphql.indented 1 (plural (sc.toLowerCamel k.name) ++ ": ["ₛ ++ k.name ++ "]"ₛ)) =
      (l.map (Graphql.newClass sc ⟨m, getTableFilterFn g, ps⟩)).map fun k =>
        Graphql.indented 1 (plural (sc.toLowerCamel k.name) ++ ": ["ₛ ++ k.name ++ "]"ₛ) := by
    intro l
    rw [List.map_map, List.map_map, List.map_map]
    refine List.map_congr_left fun t _ => ?_
    simp only [Function.comp_apply]
    unfold Graphql.newClass
    dsimp only
    rw [hn]
  have b : ∀ l : List Table, ((l.map i.table).map (Graphql.newClass sc ⟨m, getTableFilterFn g, ps⟩)).flatMap Graphql.classLines =
      (l.map (Graphql.newClass sc ⟨m, getTableFilterFn g, ps⟩)).flatMap Graphql.classLines := by
    intro l
    rw [List.flatMap_map, List.flatMap_map, List.flatMap_map]
    exact List.flatMap_congr fun t _ => hl t
  unfold Graphql.generate Graphql.contents
  dsimp only
  rw [e2, e3, filter_without, a, b]

theorem mapM_map_map {α β γ : Type} (f : α → Option β) (g : β → γ) (l : List α) :
    (l.mapM f).map (List.map g) = l.mapM fun a => (f a).map g := by
  induction l with
  | nil => rfl
  | cons a l ih =>
    rw [List.mapM_cons, List.mapM_cons, ← ih]
    cases f a with
    | none => rfl
    | some b => cases l.mapM f <;> rfl

theorem mapM_map_left {α β γ : Type} (f : α → β) (g : β → Option γ) (l : List α) : (l.map f).mapM g = l.mapM fun a => g (f a) := by
  induction l with
  | nil => rfl
  | cons a l ih => rw [List.map_cons, List.mapM_cons, List.mapM_cons, ih]

theorem tableByName_without (i : Info) (s : Schema) (n : Str) : (without i s).tableByName n = (s.tableByName n).map i.table := by
  unfold Schema.tableByName
  rw [without_tables, List.find?_map]
  congr 2
  funext t
  simp only [Function.comp_apply, Spec.Info.table_name]

/-- A relation without the mark that is not written. -/
def pbRelation (r : Protobuf.PbRelation) : Protobuf.PbRelation := { r with repeated := false }

@[inherit_doc pbRelation] def pbMessage (m : Protobuf.PbMessage) : Protobuf.PbMessage := { m with relations := m.relations.map pbRelation }

theorem protoText_pb (o : Protobuf.PbOption) (ms : List Protobuf.PbMessage) : Protobuf.protoText o ms = Protobuf.protoText o (ms.map pbMessage) := by
  unfold Protobuf.protoText
  rw [List.foldl_map, List.flatMap_map]
  congr 2
  funext m
  unfold Protobuf.messageText pbMessage
  dsimp only
  rw [List.flatMap_map]
  rfl

/-- A reference without some of its data. -/
def pbRef (i : Info) (r : Reference) : Reference := if i = .relationship then { r with relationship := [] } else r

theorem pb_without {i : Info} (h : i ∉ shownBy .pb) (sc : Strcase) (m : Option PrefixMapper) (g : Str) (ps : List Str) (pk gp : Str) (ts : Int)
    (td : Bool) (s : Schema) :
    Protobuf.generate sc ⟨m, getTableFilterFn g, ps, pk, gp, ts, td⟩ (without i s) =
      Protobuf.generate sc ⟨m, getTableFilterFn g, ps, pk, gp, ts, td⟩ s := by
  generalize ho : (⟨m, getTableFilterFn g, ps, pk, gp, ts, td⟩ : Protobuf.PbOption) = o
  have hfilter : o.tableFilter = getTableFilterFn g := by rw [← ho]
  have hn : ∀ t, Protobuf.messageName sc o (i.table t) = Protobuf.messageName sc o t := by
    intro t
    unfold Protobuf.messageName
    rw [Spec.Info.table_name, Spec.Info.table_group]
  have href : ∀ c, (i.column c).ref = c.ref.map (pbRef i) := by
    intro c
    cases i <;> first | exact absurd (by decide) h | rfl | (exact (Option.map_id'' _ (fun _ => rfl)).symm) | (show c.ref = _; cases c.ref <;> rfl)
  have hrel : ∀ r, (Protobuf.newRelation sc (without i s) o (pbRef i r)).map pbRelation = (Protobuf.newRelation sc s o r).map pbRelation := by
    intro r
    have e : (pbRef i r).table = r.table := by unfold pbRef; split <;> rfl
    unfold Protobuf.newRelation
    rw [e, tableByName_without]
    cases s.tableByName r.table with
    | none => rfl
    | some t =>
      simp only [Option.map_some, hn]
      rfl
  have hrefs : ∀ t : Table, (((i.table t).columns.filterMap (·.ref)).mapM (Protobuf.newRelation sc (without i s) o)).map (List.map pbRelation) =
      ((t.columns.filterMap (·.ref)).mapM (Protobuf.newRelation sc s o)).map (List.map pbRelation) := by
    intro t
    have e : (i.table t).columns.filterMap (·.ref) = (t.columns.filterMap (·.ref)).map (pbRef i) := by
      rw [Spec.Info.table_columns, List.filterMap_map, List.map_filterMap]
      exact List.filterMap_congr fun c _ => href c
    rw [e, mapM_map_map, mapM_map_map, mapM_map_left]
    simp only [hrel]
  have hmsg : ∀ s' t', (Protobuf.newPbMessage sc s' o t').map pbMessage =
      (((t'.columns.filterMap (·.ref)).mapM (Protobuf.newRelation sc s' o)).map (List.map pbRelation)).map fun rs =>
        { name := Protobuf.messageName sc o t'
          fields := t'.columns.zipIdx.map fun p => Protobuf.newPbField sc (p.2 + 1) p.1
          relations := rs.zipIdx.map fun p => { p.1 with tag := Protobuf.relTagStart o t'.columns.length rs.length + p.2 }
          imports := (((t'.columns.zipIdx.map fun p => Protobuf.newPbField sc (p.2 + 1) p.1).map (·.imp)).filter (· ≠ [])).foldl
            StringSet.add StringSet.empty |>.slice } := by
    intro s' t'
    unfold Protobuf.newPbMessage
    cases (t'.columns.filterMap (·.ref)).mapM (Protobuf.newRelation sc s' o) with
    | none => rfl
    | some rs =>
      simp only [Option.map_some, pbMessage]
      rw [List.length_map, List.zipIdx_map, List.map_map, List.map_map, List.map_map]
      rfl
  have ht : ∀ t, (Protobuf.newPbMessage sc (without i s) o (i.table t)).map pbMessage = (Protobuf.newPbMessage sc s o t).map pbMessage := by
    intro t
    rw [hmsg, hmsg, hrefs, hn, Spec.Info.table_columns, List.length_map, List.zipIdx_map, List.map_map]
    have e : ((fun p : Column × Nat => Protobuf.newPbField sc (p.2 + 1) p.1) ∘ Prod.map i.column id) = fun p => Protobuf.newPbField sc (p.2 + 1) p.1 := by
      funext p
      simp only [Function.comp_apply]
      unfold Protobuf.newPbField
      simp only [Prod.map, Spec.Info.column_name, Spec.Info.column_type, id]
    rw [e]
  have hgen : ∀ s', Protobuf.generate sc o s' =
      ((Protobuf.selected o s').mapM fun t => (Protobuf.newPbMessage sc s' o t).map pbMessage).map (Protobuf.protoText o) := by
    intro s'
    unfold Protobuf.generate
    rw [← mapM_map_map, Option.map_map]
    congr 1
    funext ms
    exact protoText_pb o ms
  rw [hgen, hgen]
  unfold Protobuf.selected
  rw [hfilter, filter_without, mapM_map_left]
  simp only [ht]

/-- A class for a column without some of its data. -/
def saField (i : Info) (f : Sqlalchemy.SaField) : Sqlalchemy.SaField := { f with column := i.column f.column }

@[inherit_doc saField] def saClass (i : Info) (k : Sqlalchemy.SaClass) : Sqlalchemy.SaClass :=
  { table := i.table k.table, name := k.name, fields := k.fields.map (saField i), uniqueFields := k.uniqueFields.map (saField i) }

theorem sqlalchemy_without {i : Info} (h : i ∉ shownBy .sqlalchemy) (sc : Strcase) (m : PrefixMapper) (g : Str) (ps : List Str) (suffix : Str)
    (utc : Bool) (s : Schema) (out : Str) :
    Sqlalchemy.generate sc ⟨m, getTableFilterFn g, ps, suffix, utc⟩ (without i s) out =
      Sqlalchemy.generate sc ⟨m, getTableFilterFn g, ps, suffix, utc⟩ s out := by
  generalize ho : (⟨m, getTableFilterFn g, ps, suffix, utc⟩ : Sqlalchemy.SaOption) = o
  have hfilter : o.tableFilter = getTableFilterFn g := by rw [← ho]
  have hf : ∀ c, Sqlalchemy.newField sc (i.column c) = saField i (Sqlalchemy.newField sc c) := by
    intro c
    have e : Sqlalchemy.fieldType (i.column c) = Sqlalchemy.fieldType c := by
      cases i <;> first | exact absurd (by decide) h | rfl
    unfold Sqlalchemy.newField saField
    dsimp only
    rw [e, Spec.Info.column_name]
  have hn : ∀ t, Sqlalchemy.className sc o (i.table t) = Sqlalchemy.className sc o t := by
    intro t
    cases i <;> first | exact absurd (by decide) h | rfl
  have hk : ∀ t, Sqlalchemy.newClass sc o (i.table t) = saClass i (Sqlalchemy.newClass sc o t) := by
    intro t
    have e : (i.table t).columns.map (Sqlalchemy.newField sc) = (t.columns.map (Sqlalchemy.newField sc)).map (saField i) := by
      rw [Spec.Info.table_columns, List.map_map, List.map_map]
      exact List.map_congr_left fun c _ => hf c
    unfold Sqlalchemy.newClass saClass
    dsimp only
    rw [hn, e, List.filter_map]
    congr 2
    exact List.filter_congr fun f _ => column_unique i (kept_ne h (by decide)) f.column
  have hline : ∀ f, Sqlalchemy.columnLine o.useUTC (saField i f) = Sqlalchemy.columnLine o.useUTC f := by
    intro f
    cases i <;> first | exact absurd (by decide) h | rfl
  have hadd : ∀ st f, Sqlalchemy.addField o.useUTC st (saField i f) = Sqlalchemy.addField o.useUTC st f := by
    intro st f
    cases i <;> first | exact absurd (by decide) h | rfl
  have hlines : ∀ k, Sqlalchemy.classLines o (saClass i k) = Sqlalchemy.classLines o k := by
    intro k
    unfold Sqlalchemy.classLines saClass
    dsimp only
    have e : ∀ l : List Sqlalchemy.SaField, l.map (Sqlalchemy.columnLine o.useUTC ∘ saField i) = l.map (Sqlalchemy.columnLine o.useUTC) :=
      fun l => List.map_congr_left fun f _ => hline f
    rw [Spec.Info.table_name, List.length_map, List.map_map, List.map_map, e]
    rfl
  have hclass : ∀ st k, Sqlalchemy.addClass o.useUTC st (saClass i k) = Sqlalchemy.addClass o.useUTC st k := by
    intro st k
    unfold Sqlalchemy.addClass saClass
    dsimp only
    rw [List.length_map, List.foldl_map]
    simp only [hadd]
  have hfiles : ∀ dir ks st, Sqlalchemy.classFiles o dir st (ks.map (saClass i)) = Sqlalchemy.classFiles o dir st ks := by
    intro dir ks
    induction ks with
    | nil => exact fun _ => rfl
    | cons k ks ih =>
      intro st
      rw [List.map_cons]
      unfold Sqlalchemy.classFiles Sqlalchemy.classText
      dsimp only
      rw [hclass, hlines, ih]
      unfold saClass
      dsimp only
      rw [Spec.Info.table_name]
  have hs : Sqlalchemy.newClasses sc o (without i s) = (Sqlalchemy.newClasses sc o s).map (saClass i) := by
    unfold Sqlalchemy.newClasses
    rw [hfilter, filter_without, List.map_map, List.map_map]
    exact List.map_congr_left fun t _ => hk t
  unfold Sqlalchemy.generate
  dsimp only
  rw [hs, hfiles]
  unfold Sqlalchemy.singleText
  dsimp only
  rw [List.foldl_map, List.flatMap_map]
  simp only [hclass, hlines]

/-- A class for a table without some of its data. -/
def ktField (i : Info) (f : Jpa.KotlinField) : Jpa.KotlinField := { f with column := i.column f.column }

@[inherit_doc ktField] def ktClass (i : Info) (k : Jpa.KotlinClass) : Jpa.KotlinClass :=
  { table := i.table k.table, name := k.name, fields := k.fields.map (ktField i), pkFields := k.pkFields.map (ktField i)
    uniqueFields := k.uniqueFields.map (ktField i) }

theorem withNext_map {α β : Type} (f : α → β) (l : List α) : Jpa.withNext (l.map f) = (Jpa.withNext l).map fun p => (f p.1, p.2) := by
  induction l with
  | nil => rfl
  | cons a l ih =>
    cases l with
    | nil => rfl
    | cons b r =>
      rw [List.map_cons, List.map_cons]
      unfold Jpa.withNext
      rw [← List.map_cons, ih]
      rfl

theorem ktWriteAll_map (stop : Jpa.Ending) (dir : List Str) (name : Jpa.KotlinClass → Str) (text text' : Jpa.KotlinClass → Option Str)
    (f : Jpa.KotlinClass → Jpa.KotlinClass) (h1 : ∀ k, name (f k) = name k) (h2 : ∀ k, text' (f k) = text k) (l : List Jpa.KotlinClass) :
    Jpa.writeAll stop dir name text' (l.map f) = Jpa.writeAll stop dir name text l := by
  induction l with
  | nil => rfl
  | cons k l ih =>
    rw [List.map_cons]
    unfold Jpa.writeAll
    rw [h2, ih, h1]

theorem kt_without {i : Info} (h : i ∉ shownBy .kt) (sc : Strcase) (a : AnnotationMapper) (m : PrefixMapper) (g ide pkg rel : Str) (ps : List Str)
    (repos suffix : Str) (s : Schema) (out : Str) :
    let o : Jpa.KtOption := ⟨a, m, getTableFilterFn g, ide, pkg, rel, ps, repos, suffix⟩
    Jpa.generateEntities sc o (Jpa.newClasses sc o (without i s)) out = Jpa.generateEntities sc o (Jpa.newClasses sc o s) out ∧
    Jpa.generateRepositories o (Jpa.newClasses sc o (without i s)) out = Jpa.generateRepositories o (Jpa.newClasses sc o s) out := by
  intro o
  have hfilter : o.tableFilter = getTableFilterFn g := rfl
  clear_value o
  have hf : ∀ c, Jpa.newField sc (i.column c) = ktField i (Jpa.newField sc c) := by
    intro c
    have e : (i.column c).notNull = c.notNull := by cases i <;> first | exact absurd (by decide) h | rfl
    unfold Jpa.newField ktField
    dsimp only
    rw [e, Spec.Info.column_name, Spec.Info.column_type]
  have hn : ∀ t, Jpa.className sc o (i.table t) = Jpa.className sc o t := by
    intro t
    cases i <;> first | exact absurd (by decide) h | rfl
  have hk : ∀ t, Jpa.newClass sc o (i.table t) = ktClass i (Jpa.newClass sc o t) := by
    intro t
    have e : (i.table t).columns.map (Jpa.newField sc) = (t.columns.map (Jpa.newField sc)).map (ktField i) := by
      rw [Spec.Info.table_columns, List.map_map, List.map_map]
      exact List.map_congr_left fun c _ => hf c
    have e1 : ∀ l : List Jpa.KotlinField, (l.map (ktField i)).filter (·.column.primaryKey) = (l.filter (·.column.primaryKey)).map (ktField i) := by
      intro l
      rw [List.filter_map]
      congr 1
      exact List.filter_congr fun f _ => column_pk i (kept_ne h (by decide)) f.column
    have e2 : ∀ l : List Jpa.KotlinField, (l.map (ktField i)).filter (·.column.uniqueKey) = (l.filter (·.column.uniqueKey)).map (ktField i) := by
      intro l
      rw [List.filter_map]
      congr 1
      exact List.filter_congr fun f _ => column_unique i (kept_ne h (by decide)) f.column
    unfold Jpa.newClass ktClass
    dsimp only
    rw [hn, e, e1, e2]
  have hs : Jpa.newClasses sc o (without i s) = (Jpa.newClasses sc o s).map (ktClass i) := by
    unfold Jpa.newClasses
    rw [hfilter, filter_without, List.map_map, List.map_map]
    exact List.map_congr_left fun t _ => hk t
  rw [hs]
  generalize Jpa.newClasses sc o s = ks
  have hc : ∀ n, Jpa.classNameByTableName (ks.map (ktClass i)) n = Jpa.classNameByTableName ks n := by
    intro n
    unfold Jpa.classNameByTableName
    rw [List.find?_map, Option.map_map]
    have e : ((fun k : Jpa.KotlinClass => k.table.name == n) ∘ ktClass i) = fun k => k.table.name == n := by
      funext k
      simp only [Function.comp_apply, ktClass, Spec.Info.table_name]
    rw [e]
    rfl
  have hann : ∀ f, Jpa.fieldAnnotations sc o (ks.map (ktClass i)) (ktField i f) = Jpa.fieldAnnotations sc o ks f := by
    intro f
    have e : Jpa.relationAnnotation sc o (ks.map (ktClass i)) (ktField i f) = Jpa.relationAnnotation sc o ks f := by
      have e' : Jpa.relationAnnotation sc o ks (ktField i f) = Jpa.relationAnnotation sc o ks f := by
        unfold Jpa.relationAnnotation ktField
        dsimp only
        cases i with
        | relationship =>
          unfold Info.column
          dsimp only
          cases f.column.ref <;> rfl
        | _ => first | exact absurd (by decide) h | rfl
      rw [← e']
      unfold Jpa.relationAnnotation
      simp only [hc]
    unfold Jpa.fieldAnnotations
    rw [e]
    cases i <;> first | exact absurd (by decide) h | rfl
  have hid : ∀ k, Jpa.hasIdEntity o (ktClass i k) = Jpa.hasIdEntity o k := by
    intro k
    unfold Jpa.hasIdEntity ktClass
    dsimp only
    rw [List.length_map, List.head?_map, Option.map_map]
    rfl
  have hidn : ∀ k, Jpa.idClassName (ktClass i k) = Jpa.idClassName k := by
    intro k
    unfold Jpa.idClassName ktClass
    dsimp only
    rw [List.length_map]
  have hidt : ∀ k, Jpa.idClassText (ktClass i k) = Jpa.idClassText k := by
    intro k
    unfold Jpa.idClassText
    rw [hidn]
    unfold ktClass
    dsimp only
    rw [withNext_map, List.flatMap_map]
    rfl
  have hend : ∀ k, Jpa.endText o (ktClass i k) = Jpa.endText o k := by
    intro k
    unfold Jpa.endText
    rw [hid]
    unfold ktClass
    dsimp only
    rw [List.head?_map, Option.map_map]
    rfl
  have htab : ∀ k, Jpa.tableText o (ktClass i k) = Jpa.tableText o k := by
    intro k
    unfold Jpa.tableText ktClass
    dsimp only
    rw [Spec.Info.table_name, List.map_map]
    simp only [List.map_eq_nil_iff]
    rfl
  have himp : ∀ k, Jpa.imports (ktClass i k) = Jpa.imports k := by
    intro k
    unfold Jpa.imports ktClass
    dsimp only
    rw [List.foldl_map]
    simp only [ktField, Spec.Info.column_type]
  have hjimp : ∀ k, Jpa.javaImports (ktClass i k) = Jpa.javaImports k := by
    intro k
    unfold Jpa.javaImports ktClass
    dsimp only
    rw [List.foldl_map, List.length_map]
    rfl
  have hft : ∀ b as f n, Jpa.fieldText b as (ktField i f) n = Jpa.fieldText b as f n := by
    intro b as f n
    cases i <;> first | exact absurd (by decide) h | rfl
  have hent : ∀ k, Jpa.entityText sc o (ks.map (ktClass i)) (ktClass i k) = Jpa.entityText sc o ks k := by
    intro k
    unfold Jpa.entityText
    have e : ((ktClass i k).fields.mapM fun f => (Jpa.fieldAnnotations sc o (ks.map (ktClass i)) f).map fun as => (f, as)) =
        (k.fields.mapM fun f => (Jpa.fieldAnnotations sc o ks f).map fun as => (f, as)).map (List.map fun p => (ktField i p.1, p.2)) := by
      show ((k.fields.map (ktField i)).mapM _) = _
      rw [mapM_map_left, mapM_map_map]
      simp only [hann, Option.map_map]
      rfl
    rw [e, Option.map_map]
    refine congrArg (fun F => Option.map F _) (funext fun fields => ?_)
    rw [Function.comp_apply]
    rw [withNext_map, List.flatMap_map, himp, hjimp, htab, hidn, hid, hend, hidt]
    simp only [hft]
    unfold ktClass
    dsimp only
    rw [Spec.Info.table_group]
  constructor
  · unfold Jpa.generateEntities
    exact ktWriteAll_map .fatal (Jpa.packageDir out o.package) (fun k => k.name ++ ".kt"ₛ) (Jpa.entityText sc o ks)
      (Jpa.entityText sc o (ks.map (ktClass i))) (ktClass i) (fun _ => rfl) hent ks
  · unfold Jpa.generateRepositories
    refine ktWriteAll_map .panic (Jpa.packageDir out o.reposPackage) (fun k => k.name ++ "Repository.kt"ₛ) (Jpa.repositoryText o)
      (Jpa.repositoryText o) (ktClass i) (fun _ => rfl) (fun k => ?_) ks
    unfold Jpa.repositoryText Jpa.repositoryId ktClass
    dsimp only
    rw [List.length_map, List.head?_map, Option.map_map]
    rfl

/-- A struct for a table without some of its data. -/
def goField (i : Info) (f : Gorm.GoField) : Gorm.GoField := { f with column := i.column f.column }

@[inherit_doc goField] def goStruct (i : Info) (g : Gorm.GoStruct) : Gorm.GoStruct :=
  { g with table := i.table g.table, fields := g.fields.map (goField i), uniqueFields := g.uniqueFields.map (goField i) }

theorem findReference_without (i : Info) (s : Schema) (r : Reference) :
    (without i s).findReference r = (s.findReference r).map fun p => (i.table p.1, i.column p.2) := by
  unfold Schema.findReference
  rw [tableByName_without]
  cases s.tableByName r.table with
  | none => rfl
  | some t =>
    have e : (i.table t).columnByName r.column = (t.columnByName r.column).map i.column := by
      unfold Table.columnByName
      rw [Spec.Info.table_columns, List.find?_map]
      congr 2
      funext c
      simp only [Function.comp_apply, Spec.Info.column_name]
    simp only [Option.map_some, e]
    cases t.columnByName r.column <;> rfl

theorem gorm_without {i : Info} (h : i ∉ shownBy .gorm) (sc : Strcase) (ords : Nat → (Gorm.Models → Gorm.Models) × (Gorm.Models → Gorm.Models))
    (models : Gorm.Models) (m : PrefixMapper) (g embed pkg : Str) (pa : Bool) (ps : List Str) (suffix : Str) (s : Schema) :
    Gorm.generate sc ords models ⟨m, getTableFilterFn g, embed, pkg, pa, ps, suffix⟩ (without i s) =
      Gorm.generate sc ords models ⟨m, getTableFilterFn g, embed, pkg, pa, ps, suffix⟩ s := by
  generalize ho : (⟨m, getTableFilterFn g, embed, pkg, pa, ps, suffix⟩ : Gorm.GormOption) = o
  have hfilter : o.tableFilter = getTableFilterFn g := by rw [← ho]
  have hf : ∀ c, Gorm.newGoField sc (i.column c) = goField i (Gorm.newGoField sc c) := by
    intro c
    have e : (i.column c).notNull = c.notNull := by cases i <;> first | exact absurd (by decide) h | rfl
    unfold Gorm.newGoField goField
    dsimp only
    rw [e, Spec.Info.column_name, Spec.Info.column_type]
  have hn : ∀ t, Gorm.structName sc o (i.table t) = Gorm.structName sc o t := by
    intro t
    cases i <;> first | exact absurd (by decide) h | rfl
  have ha : ∀ c, Gorm.association sc (without i s) o (i.column c) = Gorm.association sc s o c := by
    intro c
    have e : (i.column c).ref = c.ref := by cases i <;> first | exact absurd (by decide) h | rfl
    unfold Gorm.association
    rw [e]
    cases c.ref with
    | none => rfl
    | some r =>
      rw [Option.bind_some, Option.bind_some, findReference_without, Option.map_map]
      refine congrArg (fun F => Option.map F _) (funext fun p => ?_)
      simp only [Function.comp_apply, hn, Spec.Info.column_name]
  have hg : ∀ ord ord' t, Gorm.newGoStruct sc (without i s) o (Gorm.register models o.embed) ord ord' (i.table t) =
      goStruct i (Gorm.newGoStruct sc s o (Gorm.register models o.embed) ord ord' t) := by
    intro ord ord' t
    have e : (i.table t).columns.map (Gorm.newGoField sc) = (t.columns.map (Gorm.newGoField sc)).map (goField i) := by
      rw [Spec.Info.table_columns, List.map_map, List.map_map]
      exact List.map_congr_left fun c _ => hf c
    have e1 : ∀ l : List Gorm.GoField, (l.map (goField i)).filter (·.column.uniqueKey) = (l.filter (·.column.uniqueKey)).map (goField i) := by
      intro l
      rw [List.filter_map]
      congr 1
      exact List.filter_congr fun f _ => column_unique i (kept_ne h (by decide)) f.column
    have e2 : ∀ (ms : Gorm.Models) (l : List Gorm.GoField), (l.map (goField i)).filter (fun f => !Gorm.containsColumn ms f.column.name) =
        (l.filter (fun f => !Gorm.containsColumn ms f.column.name)).map (goField i) := by
      intro ms l
      rw [List.filter_map]
      congr 1
      refine List.filter_congr fun f _ => ?_
      simp only [Function.comp_apply, goField, Spec.Info.column_name]
    have e3 : Gorm.extractModels ord (Gorm.register models o.embed) (i.table t).columns = Gorm.extractModels ord (Gorm.register models o.embed) t.columns := by
      unfold Gorm.extractModels
      rw [Spec.Info.table_columns, map_col i (Spec.Info.column_name i)]
    have e4 : (i.table t).columns.filterMap (Gorm.association sc (without i s) o) = t.columns.filterMap (Gorm.association sc s o) := by
      rw [Spec.Info.table_columns, List.filterMap_map]
      exact List.filterMap_congr fun c _ => ha c
    unfold Gorm.newGoStruct goStruct
    dsimp only
    rw [hn, e3, e, e1, e2, e4]
  have hs : Gorm.structs sc ords models o (without i s) = (Gorm.structs sc ords models o s).map (goStruct i) := by
    unfold Gorm.structs Gorm.selected
    rw [hfilter, filter_without, List.zipIdx_map, List.map_map, List.map_map]
    exact List.map_congr_left fun p _ => hg _ _ _
  have htags : ∀ t cst f, Gorm.fieldTags (i.table t) cst (goField i f) = Gorm.fieldTags t cst f := by
    intro t cst f
    cases i <;> first | exact absurd (by decide) h | rfl
  have htext : ∀ k, Gorm.structText o (goStruct i k) = Gorm.structText o k := by
    intro k
    have e1 : Gorm.uniqueCstName o (goStruct i k) = Gorm.uniqueCstName o k := by
      unfold Gorm.uniqueCstName goStruct
      dsimp only
      rw [List.length_map, Spec.Info.table_name]
    have e2 : Gorm.structFields o (goStruct i k) = Gorm.structFields o k := by
      unfold Gorm.structFields
      rw [e1]
      unfold goStruct
      dsimp only
      rw [List.map_map]
      refine congrArg (· ++ _) (List.map_congr_left fun f _ => ?_)
      rw [Function.comp_apply, htags]
      rfl
    unfold Gorm.structText
    rw [e2]
    unfold goStruct
    dsimp only
    rw [Spec.Info.table_name]
  have himp : ∀ ks : List Gorm.GoStruct, Gorm.imports (ks.map (goStruct i)) = Gorm.imports ks := by
    intro ks
    unfold Gorm.imports
    rw [List.foldl_map]
    simp only [goStruct, List.flatMap_map]
    rfl
  unfold Gorm.generate
  dsimp only
  rw [hs, himp, List.flatMap_map]
  simp only [htext]

theorem liquibase_without {i : Info} (h : i ∉ shownBy .liquibase) (pf : Str → Option Str) (g suffix : Str) (uc : Bool) (s : Schema) :
    Lq.generateAll pf ⟨getTableFilterFn g, suffix, uc⟩ (without i s) = Lq.generateAll pf ⟨getTableFilterFn g, suffix, uc⟩ s := by
  have hauthor : (without i s).author = s.author := by cases i <;> first | exact absurd (by decide) h | rfl
  have hpk : ∀ t, (i.table t).primaryKeyNameSet = t.primaryKeyNameSet := by
    intro t
    unfold Table.primaryKeyNameSet
    rw [Spec.Info.table_columns, List.foldl_map]
    simp only [Spec.Info.column_name, column_pk i (kept_ne h (by decide))]
  have huq : ∀ t, (i.table t).uniqueKeyNameSet = t.uniqueKeyNameSet := by
    intro t
    unfold Table.uniqueKeyNameSet
    rw [Spec.Info.table_columns, List.foldl_map]
    simp only [Spec.Info.column_name, column_unique i (kept_ne h (by decide))]
  have hc : ∀ c a b, Lq.newLqColumn pf (i.column c) a b = Lq.newLqColumn pf c a b := by
    intro c a b
    cases i <;> first | exact absurd (by decide) h | rfl
  have hd : ∀ t, (i.table t).description = t.description := by
    intro t
    cases i <;> first | exact absurd (by decide) h | rfl
  have hset : ∀ a t st, Lq.createTableSets pf a (i.table t) suffix uc st = Lq.createTableSets pf a t suffix uc st := by
    intro a t st
    unfold Lq.createTableSets
    dsimp only
    rw [hpk, huq, hd, Spec.Info.table_name, Spec.Info.table_columns, mapM_map_left]
    simp only [hc]
  have hstep : ∀ a st t, Lq.genStep pf ⟨getTableFilterFn g, suffix, uc⟩ a st (i.table t) = Lq.genStep pf ⟨getTableFilterFn g, suffix, uc⟩ a st t := by
    intro a st t
    unfold Lq.genStep
    dsimp only
    rw [passes_without, hset]
  unfold Lq.generateAll
  rw [hauthor, without_tables, List.foldlM_map]
  simp only [hstep]

end Octo
