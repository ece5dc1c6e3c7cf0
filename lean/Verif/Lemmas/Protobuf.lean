import Verif.Lemmas.Dbml
import Verif.Lemmas.Strcase
import Verif.Lemmas.Ojson

/-! Lemmas about the protobuf generator: what it writes is read by the proto3 reader. -/

namespace Octo

/-! ### Lines -/

/-- Lines with their line ends. -/
def unlines (l : List Str) : Str := l.flatMap (· ++ "\n"ₛ)

theorem unlines_append (a b : List Str) : unlines (a ++ b) = unlines a ++ unlines b := List.flatMap_append

theorem unlines_cons (a : Str) (l : List Str) : unlines (a :: l) = a ++ "\n"ₛ ++ unlines l := rfl

theorem split_unlines {l : List Str} (h : ∀ x ∈ l, '\n' ∉ x) : split '\n' (unlines l) = l ++ [[]] := by
  induction l with
  | nil => rfl
  | cons x l ih =>
    rw [unlines_cons, List.append_assoc, show "\n"ₛ ++ unlines l = '\n' :: unlines l from rfl,
      split_append_sep (h x (by simp)), ih fun y hy => h y (by simp [hy])]
    rfl

/-- Text with a line end before every line. -/
theorem unlines_before (a : Str) (l : List Str) : a ++ l.flatMap ("\n"ₛ ++ ·) ++ "\n"ₛ = unlines (a :: l) := by
  induction l generalizing a with
  | nil => simp [unlines]
  | cons x l ih =>
    rw [List.flatMap_cons, unlines_cons, ← ih x]
    simp only [List.append_assoc]

theorem alnum_ident {s : Str} (h : Spec.Alnum s) : Spec.Ident s := by
  refine ⟨h.1, ?_⟩
  rw [List.all_eq_true]
  intro c hc
  have := List.all_eq_true.1 h.2 c hc
  unfold Spec.isAlnum at this
  unfold Spec.isIdent
  rw [this, Bool.true_or]

namespace Protobuf
open Spec

/-- A word that can stand in a line. -/
structure LineWord (s : Str) : Prop where
  good : Good sqlSep s
  ne : s ≠ []
  newline : '\n' ∉ s

theorem lineWord_ident {s : Str} (h : Ident s) : LineWord s := ⟨good_ident h, h.1, newline_ident h⟩

theorem lineWord_literal (s : Str) (h : s.all (fun c => !sqlSep c && !isQuote c && c != '(' && c != ')') = true) (hne : s ≠ []) :
    LineWord s := by
  refine ⟨good_literal s h, hne, ?_⟩
  intro hm
  exact absurd (List.all_eq_true.1 h _ hm) (by decide)

def fieldLine (f : ProtoField) : Str := "  "ₛ ++ f.type ++ " "ₛ ++ f.name ++ " = "ₛ ++ itoa f.tag ++ ";"ₛ

theorem good_semi {s : Str} (h : Good isBlank s) : Good isBlank (s ++ ";"ₛ) :=
  .append _ _ h (good_chars (by decide))

theorem unsemi_append (s : Str) : unsemi (s ++ ";"ₛ) = some s := by
  unfold unsemi
  rw [show ";"ₛ = [';'] from rfl, if_pos List.getLast?_concat, List.dropLast_concat]

theorem isDigits_itoa (n : Nat) : isDigits (itoa n) = true := by
  unfold isDigits
  rw [Bool.and_eq_true]
  refine ⟨?_, List.all_eq_true.2 (itoa_digits n)⟩
  have := itoa_ne_nil n
  cases h : itoa n with
  | nil => exact absurd h this
  | cons a b => rfl

/-- The line of a field is read as the field. -/
theorem field_read {f : ProtoField} (ht : LineWord f.type) (hn : LineWord f.name) :
    '\n' ∉ fieldLine f ∧ tokens (fieldLine f) ≠ ["}"ₛ] ∧ readProtoField (tokens (fieldLine f)) = some f := by
  have e : fieldLine f = ' ' :: ' ' :: (f.type ++ ' ' :: (f.name ++ ' ' :: ("="ₛ ++ ' ' :: (itoa f.tag ++ ";"ₛ)))) := by
    simp [fieldLine]
  have ht' : tokens (fieldLine f) = [f.type, f.name, "="ₛ, itoa f.tag ++ ";"ₛ] := by
    rw [e, tokens_blank rfl, tokens_blank rfl, tokens_cons (Good.blank ht.good) ht.ne rfl,
      tokens_cons (Good.blank hn.good) hn.ne rfl, tokens_cons (Good.blank (good_literal _ (by decide))) (by decide) rfl,
      tokens_single (good_semi (Good.blank (good_itoa _))) (by simp)]
  refine ⟨?_, ?_, ?_⟩
  · unfold fieldLine
    exact newline_append (newline_append (newline_append (newline_append (newline_append (newline_append (by decide)
      ht.newline) (by decide)) hn.newline) (by decide)) (not_mem_itoa (by decide) _)) (by decide)
  · rw [ht']; intro h; exact absurd (congrArg List.length h) (by simp)
  · rw [ht']
    unfold readProtoField
    dsimp only
    rw [if_pos rfl, unsemi_append, Option.bind_some, if_pos (isDigits_itoa _), digitsVal_itoa]

theorem read_fields (n : Str) (rest : List Str) : ∀ (fs acc : List ProtoField),
    (∀ f ∈ fs, LineWord f.type ∧ LineWord f.name) →
    readProtoLines (some (n, acc)) (fs.map fieldLine ++ "}"ₛ :: rest) =
      (readProtoLines none rest).map fun f => { f with messages := ⟨n, acc ++ fs⟩ :: f.messages } := by
  intro fs
  induction fs with
  | nil =>
    intro acc _
    show readProtoLines (some (n, acc)) ("}"ₛ :: rest) = _
    rw [readProtoLines, if_pos (by decide), List.append_nil]
  | cons f fs ih =>
    intro acc h
    obtain ⟨_, h1, h2⟩ := field_read (h f (by simp)).1 (h f (by simp)).2
    rw [List.map_cons, List.cons_append, readProtoLines, if_neg h1, h2]
    dsimp only
    rw [ih _ fun f hf => h f (by simp [hf])]
    simp only [List.append_assoc, List.singleton_append]

/-- The lines of a message. -/
def messageLines (m : ProtoMessage) : List Str :=
  [] :: ("message "ₛ ++ m.name ++ " {"ₛ) :: (m.fields.map fieldLine ++ ["}"ₛ])

def PlainMessage (m : ProtoMessage) : Prop := LineWord m.name ∧ ∀ f ∈ m.fields, LineWord f.type ∧ LineWord f.name

theorem read_blank (rest : List Str) : readProtoLines none ([] :: rest) = readProtoLines none rest := by
  rw [readProtoLines]
  show (readProtoLines none rest).map (fun f => f) = _
  cases readProtoLines none rest <;> rfl

theorem read_message {m : ProtoMessage} (h : PlainMessage m) (rest : List Str) :
    readProtoLines none (messageLines m ++ rest) =
      (readProtoLines none rest).map fun f => { f with messages := m :: f.messages } := by
  have ht : tokens ("message "ₛ ++ m.name ++ " {"ₛ) = ["message"ₛ, m.name, "{"ₛ] := by
    rw [show "message "ₛ ++ m.name ++ " {"ₛ = "message"ₛ ++ ' ' :: (m.name ++ ' ' :: "{"ₛ) by simp,
      tokens_cons (Good.blank (good_literal _ (by decide))) (by decide) rfl,
      tokens_cons (Good.blank h.1.good) h.1.ne rfl,
      tokens_single (Good.blank (good_literal _ (by decide))) (by decide)]
  unfold messageLines
  rw [List.cons_append, List.cons_append, read_blank, readProtoLines, ht]
  have : readProtoTop ["message"ₛ, m.name, "{"ₛ] = some (.message m.name) := by
    unfold readProtoTop
    dsimp only
    rw [if_pos ⟨rfl, rfl⟩]
  rw [this]
  dsimp only
  rw [List.append_assoc, List.singleton_append, read_fields _ _ _ _ h.2, List.nil_append]

theorem read_messages (rest : List Str) : ∀ ms : List ProtoMessage, (∀ m ∈ ms, PlainMessage m) →
    readProtoLines none (ms.flatMap messageLines ++ rest) =
      (readProtoLines none rest).map fun f => { f with messages := ms ++ f.messages } := by
  intro ms
  induction ms with
  | nil =>
    intro _
    show readProtoLines none rest = _
    cases readProtoLines none rest <;> rfl
  | cons m ms ih =>
    intro h
    rw [List.flatMap_cons, List.append_assoc, read_message (h m (by simp)), ih fun m hm => h m (by simp [hm]),
      Option.map_map]
    rfl

/-! ### Other lines -/

def importLines (i : Str) : List Str := [[], "import \""ₛ ++ i ++ "\";"ₛ]

theorem quoted_semi {s : Str} (h : PlainQuoted '"' s) : Good isBlank ("\""ₛ ++ s ++ "\""ₛ ++ ";"ₛ) :=
  good_semi (.quoted '"' s rfl rfl h.1 (Or.inr h.2.1))

theorem unquote_quoted {s : Str} (h : PlainQuoted '"' s) : unquote '"' ("\""ₛ ++ s ++ "\""ₛ) = some s :=
  unquote_wrap h.1 h.2.1

theorem read_import {i : Str} (h : PlainQuoted '"' i) (rest : List Str) :
    readProtoLines none (importLines i ++ rest) =
      (readProtoLines none rest).map fun f => { f with imports := i :: f.imports } := by
  have ht : tokens ("import \""ₛ ++ i ++ "\";"ₛ) = ["import"ₛ, "\""ₛ ++ i ++ "\""ₛ ++ ";"ₛ] := by
    rw [show "import \""ₛ ++ i ++ "\";"ₛ = "import"ₛ ++ ' ' :: ("\""ₛ ++ i ++ "\""ₛ ++ ";"ₛ) by simp,
      tokens_cons (Good.blank (good_literal _ (by decide))) (by decide) rfl, tokens_single (quoted_semi h) (by simp)]
  unfold importLines
  show readProtoLines none ([] :: ("import \""ₛ ++ i ++ "\";"ₛ) :: rest) = _
  rw [read_blank, readProtoLines, ht]
  have : readProtoTop ["import"ₛ, "\""ₛ ++ i ++ "\""ₛ ++ ";"ₛ] = some (.imp i) := by
    unfold readProtoTop
    dsimp only
    rw [if_neg (by decide), if_pos rfl, unsemi_append, Option.bind_some, unquote_quoted h]
    rfl
  rw [this]
  rfl

theorem read_imports (rest : List Str) : ∀ is : List Str, (∀ i ∈ is, PlainQuoted '"' i) →
    readProtoLines none (is.flatMap importLines ++ rest) =
      (readProtoLines none rest).map fun f => { f with imports := is ++ f.imports } := by
  intro is
  induction is with
  | nil =>
    intro _
    show readProtoLines none rest = _
    cases readProtoLines none rest <;> rfl
  | cons m ms ih =>
    intro h
    rw [List.flatMap_cons, List.append_assoc, read_import (h m (by simp)), ih fun m hm => h m (by simp [hm]),
      Option.map_map]
    rfl

def optionLines (g : Str) : List Str := if g = [] then [] else [[], "option go_package = \""ₛ ++ g ++ "\";"ₛ]

theorem read_option {g : Str} (h : PlainQuoted '"' g) (rest : List Str) :
    readProtoLines none (optionLines g ++ rest) = (readProtoLines none rest).map fun f =>
      { f with options := (if g = [] then [] else [("go_package"ₛ, g)]) ++ f.options } := by
  unfold optionLines
  split
  · show readProtoLines none rest = _
    cases readProtoLines none rest <;> rfl
  · have ht : tokens ("option go_package = \""ₛ ++ g ++ "\";"ₛ) =
        ["option"ₛ, "go_package"ₛ, "="ₛ, "\""ₛ ++ g ++ "\""ₛ ++ ";"ₛ] := by
      rw [show "option go_package = \""ₛ ++ g ++ "\";"ₛ =
          "option"ₛ ++ ' ' :: ("go_package"ₛ ++ ' ' :: ("="ₛ ++ ' ' :: ("\""ₛ ++ g ++ "\""ₛ ++ ";"ₛ))) by simp,
        tokens_cons (Good.blank (good_literal _ (by decide))) (by decide) rfl,
        tokens_cons (Good.blank (good_literal _ (by decide))) (by decide) rfl,
        tokens_cons (Good.blank (good_literal _ (by decide))) (by decide) rfl, tokens_single (quoted_semi h) (by simp)]
    show readProtoLines none ([] :: ("option go_package = \""ₛ ++ g ++ "\";"ₛ) :: rest) = _
    rw [read_blank, readProtoLines, ht]
    have : readProtoTop ["option"ₛ, "go_package"ₛ, "="ₛ, "\""ₛ ++ g ++ "\""ₛ ++ ";"ₛ] = some (.option "go_package"ₛ g) := by
      unfold readProtoTop
      dsimp only
      rw [if_pos ⟨rfl, rfl⟩, unsemi_append, Option.bind_some, unquote_quoted h]
      rfl
    rw [this]
    rfl

def packageLine (p : Str) : Str := if p = [] then [] else "package "ₛ ++ p ++ ";"ₛ

theorem read_package {p : Str} (h : p = [] ∨ Word p) (rest : List Str) :
    readProtoLines none (packageLine p :: rest) = (readProtoLines none rest).map fun f =>
      { f with packages := (if p = [] then [] else [p]) ++ f.packages } := by
  unfold packageLine
  split
  · rw [read_blank]
    cases readProtoLines none rest <;> rfl
  · rename_i h0
    have hw := h.resolve_left h0
    have ht : tokens ("package "ₛ ++ p ++ ";"ₛ) = ["package"ₛ, p ++ ";"ₛ] := by
      rw [show "package "ₛ ++ p ++ ";"ₛ = "package"ₛ ++ ' ' :: (p ++ ";"ₛ) by simp,
        tokens_cons (Good.blank (good_literal _ (by decide))) (by decide) rfl,
        tokens_single (good_semi (Good.blank (good_word hw))) (by simp)]
    rw [readProtoLines, ht]
    have : readProtoTop ["package"ₛ, p ++ ";"ₛ] = some (.package p) := by
      unfold readProtoTop
      dsimp only
      rw [if_pos rfl, unsemi_append]
      rfl
    rw [this]
    rfl

/-! ### The file -/

/-- A message as read. -/
def readMessage (m : PbMessage) : ProtoMessage :=
  ⟨m.name, m.fields.map (fun f => ⟨f.type, f.name, f.tag.toNat⟩) ++ m.relations.map (fun r => ⟨r.type, r.name, r.tag.toNat⟩)⟩

/-- All numbers are natural. -/
def NatTags (m : PbMessage) : Prop := (∀ f ∈ m.fields, 0 ≤ f.tag) ∧ ∀ r ∈ m.relations, 0 ≤ r.tag

theorem fieldText_eq (type name : Str) {tag : Int} (h : 0 ≤ tag) :
    fieldText type name tag = "\n"ₛ ++ fieldLine ⟨type, name, tag.toNat⟩ := by
  unfold fieldText fieldLine showInt
  rw [if_neg (by omega), show tag.natAbs = tag.toNat by omega]
  simp only [List.append_assoc]
  rfl

theorem messageText_eq {m : PbMessage} (h : NatTags m) : messageText m = unlines (messageLines (readMessage m)) := by
  unfold messageText messageLines readMessage
  have h1 : m.fields.flatMap (fun f => fieldText f.type f.name f.tag) =
      (m.fields.map fun f => fieldLine ⟨f.type, f.name, f.tag.toNat⟩).flatMap ("\n"ₛ ++ ·) := by
    rw [List.flatMap_map]
    exact List.flatMap_congr fun f hf => fieldText_eq _ _ (h.1 f hf)
  have h2 : m.relations.flatMap (fun f => fieldText f.type f.name f.tag) =
      (m.relations.map fun f => fieldLine ⟨f.type, f.name, f.tag.toNat⟩).flatMap ("\n"ₛ ++ ·) := by
    rw [List.flatMap_map]
    exact List.flatMap_congr fun f hf => fieldText_eq _ _ (h.2 f hf)
  dsimp only
  rw [h1, h2, unlines_cons, ← unlines_before]
  simp only [List.map_append, List.map_map, List.flatMap_append, List.append_assoc, List.flatMap_cons, List.flatMap_nil]
  rfl

def fileLines (o : PbOption) (imports : List Str) (ms : List ProtoMessage) : List Str :=
  "syntax = \"proto3\";"ₛ :: [] :: packageLine o.package :: (optionLines o.goPackage ++ (imports.flatMap importLines ++
    ms.flatMap messageLines))

/-- The imports of all messages. -/
def allImports (ms : List PbMessage) : List Str := (ms.foldl (fun s m => s.addAll m.imports) StringSet.empty).slice

theorem protoText_eq {o : PbOption} {ms : List PbMessage} (h : ∀ m ∈ ms, NatTags m) :
    protoText o ms = unlines (fileLines o (allImports ms) (ms.map readMessage)) := by
  unfold protoText fileLines
  have h1 : ms.flatMap messageText = unlines ((ms.map readMessage).flatMap messageLines) := by
    unfold unlines
    rw [List.flatMap_map, List.flatMap_assoc]
    exact List.flatMap_congr fun m hm => messageText_eq (h m hm)
  have h2 : (allImports ms).flatMap (fun i => "\nimport \""ₛ ++ i ++ "\";\n"ₛ) =
      unlines ((allImports ms).flatMap importLines) := by
    unfold unlines
    rw [List.flatMap_assoc]
    refine List.flatMap_congr fun i _ => ?_
    simp only [importLines, List.flatMap_cons, List.flatMap_nil, List.append_assoc, List.append_nil]
    rfl
  have h3 : (if o.goPackage = [] then [] else "\noption go_package = \""ₛ ++ o.goPackage ++ "\";\n"ₛ) =
      unlines (optionLines o.goPackage) := by
    unfold optionLines
    split
    · rfl
    · simp only [unlines, List.flatMap_cons, List.flatMap_nil, List.append_assoc, List.append_nil]
      rfl
  unfold allImports at h2
  rw [h1, h2, h3]
  rw [unlines_cons, unlines_cons, unlines_cons, unlines_append, unlines_append]
  unfold packageLine allImports
  simp only [List.append_assoc]
  rfl

/-- The file as read. -/
def readFile (o : PbOption) (ms : List PbMessage) : ProtoFile :=
  ⟨if o.package = [] then [] else [o.package], if o.goPackage = [] then [] else [("go_package"ₛ, o.goPackage)],
    allImports ms, ms.map readMessage⟩

theorem newline_quoted {a b s : Str} (ha : '\n' ∉ a) (hb : '\n' ∉ b) (h : PlainQuoted '"' s) : '\n' ∉ a ++ s ++ b :=
  newline_append (newline_append ha h.2.2) hb

/-- The text of a file is read as the file. -/
theorem read_protoText {o : PbOption} {ms : List PbMessage} (hp : o.package = [] ∨ Word o.package)
    (hg : PlainQuoted '"' o.goPackage) (hi : ∀ i ∈ allImports ms, PlainQuoted '"' i) (ht : ∀ m ∈ ms, NatTags m)
    (hm : ∀ m ∈ ms, PlainMessage (readMessage m)) : readProto (protoText o ms) = some (readFile o ms) := by
  have hm' : ∀ m ∈ ms.map readMessage, PlainMessage m := by
    intro m h
    obtain ⟨x, hx, rfl⟩ := List.mem_map.1 h
    exact hm x hx
  rw [protoText_eq ht]
  unfold readProto
  rw [split_unlines]
  · unfold fileLines
    rw [List.cons_append]
    dsimp only
    rw [if_pos (by decide), List.cons_append, List.cons_append, read_blank, read_package hp, List.append_assoc, read_option hg,
      List.append_assoc, read_imports _ _ hi, read_messages _ _ hm', read_blank]
    simp only [readProtoLines, Option.map_some, List.append_nil]
    rfl
  · intro x hx
    unfold fileLines at hx
    simp only [List.mem_cons, List.mem_append, List.mem_flatMap] at hx
    rcases hx with rfl | rfl | rfl | hx | ⟨i, h1, h2⟩ | ⟨m, h1, h2⟩
    · decide
    · exact List.not_mem_nil
    · unfold packageLine
      split
      · exact List.not_mem_nil
      · rename_i h0
        refine newline_append (newline_append (by decide) ?_) (by decide)
        intro hmem
        exact absurd ((hp.resolve_left h0).2 _ hmem).1 (by decide)
    · unfold optionLines at hx
      split at hx
      · cases hx
      · simp only [List.mem_cons, List.not_mem_nil, or_false] at hx
        rcases hx with rfl | rfl
        · exact List.not_mem_nil
        · exact newline_quoted (by decide) (by decide) hg
    · unfold importLines at h2
      simp only [List.mem_cons, List.not_mem_nil, or_false] at h2
      rcases h2 with rfl | rfl
      · exact List.not_mem_nil
      · exact newline_quoted (by decide) (by decide) (hi i h1)
    · unfold messageLines at h2
      simp only [List.mem_cons, List.mem_append, List.mem_map, List.not_mem_nil, or_false] at h2
      rcases h2 with rfl | rfl | ⟨f, hf, rfl⟩ | rfl
      · exact List.not_mem_nil
      · exact newline_append (newline_append (by decide) (hm' m h1).1.newline) (by decide)
      · exact (field_read ((hm' m h1).2 f hf).1 ((hm' m h1).2 f hf).2).1
      · decide

end Protobuf
end Octo
