import Verif.Spec.Json
import Verif.Lemmas.Str
import Mathlib.Data.List.TakeWhile

/-! JSON text and values. -/

namespace Octo.Json
open Spec

/-! ### Strings -/

theorem hexVal_hexDigit : ∀ n, n < 16 → hexVal (hexDigit n) = some n := by decide

theorem hex4_digits {c : Char} (h : c.toNat < 65536) :
    hex4 (hexDigit (c.toNat / 4096 % 16)) (hexDigit (c.toNat / 256 % 16)) (hexDigit (c.toNat / 16 % 16))
      (hexDigit (c.toNat % 16)) = some c := by
  unfold hex4
  rw [hexVal_hexDigit _ (Nat.mod_lt _ (by decide)), hexVal_hexDigit _ (Nat.mod_lt _ (by decide)),
    hexVal_hexDigit _ (Nat.mod_lt _ (by decide)), hexVal_hexDigit _ (Nat.mod_lt _ (by decide))]
  have e : ((c.toNat / 4096 % 16 * 16 + c.toNat / 256 % 16) * 16 + c.toNat / 16 % 16) * 16 + c.toNat % 16 = c.toNat := by
    omega
  simp only [Option.bind_eq_bind, Option.bind_some, e]
  rw [if_pos (show c.toNat.isValidChar from c.valid)]
  simp

theorem jsonStr_plain {c : Char} (h1 : c ≠ '"') (h2 : c ≠ '\\') (h3 : ¬c.toNat < 32) (t : Str) :
    jsonStr (c :: t) = (jsonStr t).map fun p => (c :: p.1, p.2) := by
  rw [jsonStr.eq_def]
  split
  · rename_i h; cases h
  · rename_i h; cases h; exact absurd rfl h1
  · rename_i h; cases h; exact absurd rfl h2
  · rename_i h; cases h; exact absurd rfl h2
  · rename_i h; cases h
    rw [if_neg h3]
    cases jsonStr t <;> rfl

theorem jsonStr_escape (c : Char) (t : Str) : jsonStr (escape c ++ t) = (jsonStr t).map fun p => (c :: p.1, p.2) := by
  unfold escape
  split
  · rename_i h; subst h
    cases h : jsonStr t <;> simp [jsonStr, simpleEscape, h]
  split
  · rename_i h; subst h
    cases h : jsonStr t <;> simp [jsonStr, simpleEscape, h]
  split
  · rename_i h; subst h
    cases h : jsonStr t <;> simp [jsonStr, simpleEscape, h]
  split
  · rename_i h; subst h
    cases h : jsonStr t <;> simp [jsonStr, simpleEscape, h]
  split
  · rename_i h; subst h
    cases h : jsonStr t <;> simp [jsonStr, simpleEscape, h]
  split
  · rename_i h
    have hlt : c.toNat < 65536 := by
      rcases h with h | rfl | rfl | rfl | h | h
      · omega
      · decide
      · decide
      · decide
      · omega
      · omega
    unfold unicodeEscape
    rw [List.cons_append, List.cons_append, List.cons_append, List.cons_append, List.cons_append, List.cons_append,
      List.nil_append, jsonStr, hex4_digits hlt]
    cases jsonStr t <;> rfl
  · rename_i h1 h2 _ _ _ h
    exact jsonStr_plain h1 h2 (fun e => h (Or.inl e)) t

theorem jsonStr_print (s t : Str) : jsonStr (s.flatMap escape ++ '"' :: t) = some (s, t) := by
  induction s with
  | nil => simp [jsonStr]
  | cons c s ih =>
    rw [List.flatMap_cons, List.append_assoc, jsonStr_escape, ih]
    rfl

/-! ### Values -/

mutual
/-- Size of a value. -/
def jsize : Json → Nat
  | .null | .bool _ | .num _ | .str _ => 1
  | .arr l => 1 + lsize l
  | .obj l => 1 + msize l
/-- Size of the elements of an array. -/
def lsize : List Json → Nat
  | [] => 0
  | x :: xs => 1 + jsize x + lsize xs
/-- Size of the members of an object. -/
def msize : List (Str × Json) → Nat
  | [] => 0
  | x :: xs => 1 + jsize x.2 + msize xs
end

theorem skipSpace_newline (k : Nat) (t : Str) : skipSpace (newline k ++ t) = skipSpace t := by
  unfold newline skipSpace
  rw [List.cons_append, List.dropWhile_cons_of_pos (by decide), List.dropWhile_append_of_pos]
  intro c hc
  rw [List.eq_of_mem_replicate hc]
  decide

theorem skipSpace_cons {c : Char} (h : jsonSpace c = false) (t : Str) : skipSpace (c :: t) = c :: t := by
  unfold skipSpace
  rw [List.dropWhile_cons_of_neg (by simp [h])]

theorem isDigit_not_space {c : Char} (h : isDigit c = true) : jsonSpace c = false := by
  cases hs : jsonSpace c
  · rfl
  · unfold jsonSpace at hs
    simp only [Bool.or_eq_true, beq_iff_eq] at hs
    rcases hs with ((rfl | rfl) | rfl) | rfl <;> revert h <;> decide

theorem itoa_cons (n : Nat) : ∃ d ds, itoa n = d :: ds ∧ isDigit d = true := by
  cases h : itoa n with
  | nil => exact absurd h (itoa_ne_nil n)
  | cons d ds => exact ⟨d, ds, rfl, itoa_digits n d (by rw [h]; simp)⟩

/-- The text of a value does not begin with a space. -/
theorem print_head (k : Nat) (j : Json) : ∃ c t, print k j = c :: t ∧ jsonSpace c = false ∧ c ≠ ']' ∧ c ≠ '}' := by
  match j with
  | .null => exact ⟨'n', _, by rw [print]; rfl, by decide, by decide, by decide⟩
  | .bool true => exact ⟨'t', _, by rw [print]; rfl, by decide, by decide, by decide⟩
  | .bool false => exact ⟨'f', _, by rw [print]; rfl, by decide, by decide, by decide⟩
  | .num n =>
    obtain ⟨d, ds, h, hd⟩ := itoa_cons n
    refine ⟨d, ds, by rw [print, h], isDigit_not_space hd, ?_, ?_⟩ <;> rintro rfl <;> revert hd <;> decide
  | .str s => exact ⟨'"', _, by rw [print]; rfl, by decide, by decide, by decide⟩
  | .arr [] => exact ⟨'[', _, by rw [print]; rfl, by decide, by decide, by decide⟩
  | .arr (x :: xs) => exact ⟨'[', _, by rw [print], by decide, by decide, by decide⟩
  | .obj [] => exact ⟨'{', _, by rw [print]; rfl, by decide, by decide, by decide⟩
  | .obj (x :: xs) => exact ⟨'{', _, by rw [print], by decide, by decide, by decide⟩

theorem skipSpace_print (k : Nat) (j : Json) (t : Str) : skipSpace (print k j ++ t) = print k j ++ t := by
  obtain ⟨c, u, h, hc, _⟩ := print_head k j
  rw [h, List.cons_append, skipSpace_cons hc]

/-- What follows a number must not look like a part of it. -/
def NoDigit (r : Str) : Prop := ∀ c t, r = c :: t → isDigit c = false

theorem itoaAux_lead : ∀ (f n : Nat), n < f → 0 < n → ∃ d t, itoaAux f n = d :: t ∧ d ≠ '0' := by
  intro f
  induction f with
  | zero => intro n h; omega
  | succ f ih =>
    intro n h hn
    simp only [itoaAux]
    split_ifs with h10
    · refine ⟨_, [], rfl, fun e => ?_⟩
      have := congrArg Char.toNat e
      rw [toNat_digitChar] at this
      have h0 : ('0' : Char).toNat = 48 := rfl
      omega
    · obtain ⟨d, t, e, hd⟩ := ih (n / 10) (by omega) (by omega)
      exact ⟨d, _, by rw [e]; rfl, hd⟩

/-- Numbers are written without leading zeros. -/
theorem itoa_lead (n : Nat) (c : Char) (t : Str) : itoa n ≠ '0' :: c :: t := by
  intro h
  by_cases hn : n = 0
  · subst hn
    cases h
  · obtain ⟨d, t', e, hd⟩ := itoaAux_lead (n + 1) n (by omega) (by omega)
    unfold itoa at h
    rw [e] at h
    injection h with h
    exact hd h

theorem jsonNum_itoa (n : Nat) {r : Str} (h : NoDigit r) : jsonNum (itoa n ++ r) = some (.num n, r) := by
  have h1 : (itoa n ++ r).takeWhile isDigit = itoa n := by
    rw [List.takeWhile_append_of_pos (itoa_digits n)]
    cases r with
    | nil => simp
    | cons c t => rw [List.takeWhile_cons_of_neg (by simp [h c t rfl]), List.append_nil]
  have h2 : (itoa n ++ r).dropWhile isDigit = r := by
    rw [List.dropWhile_append_of_pos (itoa_digits n)]
    cases r with
    | nil => rfl
    | cons c t => rw [List.dropWhile_cons_of_neg (by simp [h c t rfl])]
  unfold jsonNum
  rw [h1, h2]
  obtain ⟨d, ds, e, _⟩ := itoa_cons n
  have h3 := digitsVal_itoa n
  have h4 := itoa_lead n
  rw [e] at h3 h4 ⊢
  split
  · rename_i h; cases h
  · rename_i a b h; exact absurd h (h4 _ _)
  · rw [h3]

theorem dropWhile_twice {α : Type} (p : α → Bool) (l : List α) : (l.dropWhile p).dropWhile p = l.dropWhile p := by
  induction l with
  | nil => rfl
  | cons a l ih =>
    cases h : p a
    · rw [List.dropWhile_cons_of_neg (by simp [h]), List.dropWhile_cons_of_neg (by simp [h])]
    · rw [List.dropWhile_cons_of_pos h, ih]

theorem jsonValue_skip (n : Nat) (s : Str) : jsonValue n s = jsonValue n (skipSpace s) := by
  have h : skipSpace (skipSpace s) = skipSpace s := by
    unfold skipSpace
    exact dropWhile_twice _ _
  cases n with
  | zero => rfl
  | succ n => rw [jsonValue, jsonValue, h]

theorem jsonElems_skip (n : Nat) (s : Str) : jsonElems n s = jsonElems n (skipSpace s) := by
  cases n with
  | zero => rfl
  | succ n => rw [jsonElems, jsonElems, jsonValue_skip]

theorem jsonMembers_skip (n : Nat) (s : Str) : jsonMembers n s = jsonMembers n (skipSpace s) := by
  have h : skipSpace (skipSpace s) = skipSpace s := by
    unfold skipSpace
    exact dropWhile_twice _ _
  cases n with
  | zero => rfl
  | succ n => rw [jsonMembers, jsonMembers, h]

theorem jsonValue_digit {d : Char} (hd : isDigit d = true) (n : Nat) (t : Str) :
    jsonValue (n + 1) (d :: t) = jsonNum (d :: t) := by
  rw [jsonValue, skipSpace_cons (isDigit_not_space hd)]
  split
  · rename_i h; cases h; exact absurd hd (by decide)
  · rename_i h; cases h; exact absurd hd (by decide)
  · rename_i h; cases h; exact absurd hd (by decide)
  · rename_i h; cases h; exact absurd hd (by decide)
  · rename_i h; cases h; exact absurd hd (by decide)
  · rename_i h; cases h; exact absurd hd (by decide)
  · rfl

theorem noDigit_newline (k : Nat) (t : Str) : NoDigit (newline k ++ t) := by
  intro c u h
  unfold newline at h
  rw [List.cons_append] at h
  cases h; decide

theorem noDigit_comma (t : Str) : NoDigit (',' :: t) := by
  intro c u h; cases h; decide

theorem noDigit_elems (k k' : Nat) (xs : List Json) (t : Str) : NoDigit (printElems k xs ++ (newline k' ++ t)) := by
  cases xs with
  | nil => rw [printElems]; exact noDigit_newline k' t
  | cons x xs => rw [printElems, List.cons_append]; exact noDigit_comma _

theorem noDigit_members (k k' : Nat) (xs : List (Str × Json)) (t : Str) :
    NoDigit (printMembers k xs ++ (newline k' ++ t)) := by
  cases xs with
  | nil => rw [printMembers]; exact noDigit_newline k' t
  | cons x xs => rw [printMembers, List.cons_append]; exact noDigit_comma _

/-- Reading what was written. -/
theorem read_print (n : Nat) :
    (∀ j k r, jsize j ≤ n → NoDigit r → jsonValue n (print k j ++ r) = some (j, r)) ∧
    (∀ x xs k k' r, 1 + jsize x + lsize xs ≤ n →
      jsonElems n (print k x ++ (printElems k xs ++ (newline k' ++ ']' :: r))) = some (x :: xs, r)) ∧
    (∀ x xs k k' r, 1 + jsize x.2 + msize xs ≤ n →
      jsonMembers n (printStr x.1 ++ (':' :: ' ' :: (print k x.2 ++ (printMembers k xs ++ (newline k' ++ '}' :: r))))) =
        some (x :: xs, r)) := by
  induction n with
  | zero =>
    refine ⟨?_, ?_, ?_⟩
    · intro j k r h
      cases j <;> simp [jsize] at h
    · intro x xs k k' r h; omega
    · intro x xs k k' r h; omega
  | succ n ih =>
    obtain ⟨ih1, ih2, ih3⟩ := ih
    refine ⟨?_, ?_, ?_⟩
    · intro j k r hj hr
      match j, hj with
      | .null, _ => rw [print]; rfl
      | .bool true, _ => rw [print]; rfl
      | .bool false, _ => rw [print]; rfl
      | .num m, _ =>
        rw [print]
        obtain ⟨d, ds, e, hd⟩ := itoa_cons m
        have := jsonNum_itoa m hr
        rw [e, List.cons_append] at this ⊢
        rw [jsonValue_digit hd, this]
      | .str s, _ =>
        rw [print, printStr, List.cons_append, List.append_assoc, jsonValue, skipSpace_cons (by decide)]
        show (jsonStr (s.flatMap escape ++ '"' :: r)).map _ = _
        rw [jsonStr_print]; rfl
      | .arr [], _ => rw [print]; rfl
      | .arr (x :: xs), hj =>
        simp only [jsize, lsize] at hj
        have h := ih2 x xs (k + 1) k r (by omega)
        obtain ⟨c, u, e, hc, hb, _⟩ := print_head (k + 1) x
        have e2 : print k (.arr (x :: xs)) ++ r =
            '[' :: (newline (k + 1) ++ (print (k + 1) x ++ (printElems (k + 1) xs ++ (newline k ++ ']' :: r)))) := by
          rw [print]; simp
        rw [e2, jsonValue, skipSpace_cons (by decide)]
        simp only []
        rw [skipSpace_newline, skipSpace_print]
        rw [e, List.cons_append] at h ⊢
        split
        · rename_i h'; cases h'; exact absurd rfl hb
        · rw [h]; rfl
      | .obj [], _ => rw [print]; rfl
      | .obj (x :: xs), hj =>
        simp only [jsize, msize] at hj
        have h := ih3 x xs (k + 1) k r (by omega)
        have e2 : print k (.obj (x :: xs)) ++ r =
            '{' :: (newline (k + 1) ++ (printStr x.1 ++ (':' :: ' ' :: (print (k + 1) x.2 ++
              (printMembers (k + 1) xs ++ (newline k ++ '}' :: r)))))) := by
          rw [print]; simp
        rw [e2, jsonValue, skipSpace_cons (by decide)]
        simp only []
        rw [skipSpace_newline]
        rw [printStr, List.cons_append] at h ⊢
        rw [skipSpace_cons (by decide)]
        show (jsonMembers n _).map _ = _
        rw [h]; rfl
    · intro x xs k k' r h
      rw [jsonElems, ih1 x k _ (by omega) (noDigit_elems _ _ _ _)]
      simp only []
      cases xs with
      | nil =>
        rw [printElems, List.nil_append, skipSpace_newline, skipSpace_cons (by decide)]
        rfl
      | cons y ys =>
        simp only [lsize] at h
        rw [printElems, List.cons_append, skipSpace_cons (by decide)]
        simp only []
        rw [jsonElems_skip, List.append_assoc, skipSpace_newline, List.append_assoc, skipSpace_print, ih2 y ys k k' r (by omega)]
        rfl
    · intro x xs k k' r h
      rw [printStr, List.cons_append, jsonMembers, skipSpace_cons (by decide)]
      simp only []
      rw [List.append_assoc, List.singleton_append, jsonStr_print]
      simp only []
      rw [skipSpace_cons (by decide)]
      simp only []
      have e : jsonValue n (' ' :: (print k x.2 ++ (printMembers k xs ++ (newline k' ++ '}' :: r)))) =
          some (x.2, printMembers k xs ++ (newline k' ++ '}' :: r)) := by
        rw [jsonValue_skip]
        have : skipSpace (' ' :: (print k x.2 ++ (printMembers k xs ++ (newline k' ++ '}' :: r)))) =
            skipSpace (print k x.2 ++ (printMembers k xs ++ (newline k' ++ '}' :: r))) := by
          unfold skipSpace
          rw [List.dropWhile_cons_of_pos (by decide)]
        rw [this, skipSpace_print]
        exact ih1 x.2 k _ (by omega) (noDigit_members _ _ _ _)
      rw [e]
      simp only []
      cases xs with
      | nil =>
        rw [printMembers, List.nil_append, skipSpace_newline, skipSpace_cons (by decide)]
        rfl
      | cons y ys =>
        simp only [msize] at h
        rw [printMembers, List.cons_append, skipSpace_cons (by decide)]
        simp only []
        have e3 := ih3 y ys k k' r (by omega)
        rw [jsonMembers_skip, List.append_assoc, skipSpace_newline]
        have e4 : (printStr y.1 ++ (':' :: ' ' :: (print k y.2 ++ printMembers k ys))) ++ (newline k' ++ '}' :: r) =
            printStr y.1 ++ (':' :: ' ' :: (print k y.2 ++ (printMembers k ys ++ (newline k' ++ '}' :: r)))) := by simp
        rw [e4]
        have e5 : ∀ t, skipSpace (printStr y.1 ++ t) = printStr y.1 ++ t := by
          intro t
          rw [printStr, List.cons_append, skipSpace_cons (by decide)]
        rw [e5, e3]
        rfl

theorem size_le_print (n : Nat) :
    (∀ j k, jsize j ≤ n → jsize j ≤ (print k j).length) ∧
    (∀ xs k, lsize xs ≤ n → lsize xs ≤ (printElems k xs).length) ∧
    (∀ xs k, msize xs ≤ n → msize xs ≤ (printMembers k xs).length) := by
  induction n with
  | zero =>
    refine ⟨?_, ?_, ?_⟩
    · intro j k h; omega
    · intro j k h; omega
    · intro j k h; omega
  | succ n ih =>
    obtain ⟨ih1, ih2, ih3⟩ := ih
    refine ⟨?_, ?_, ?_⟩
    · intro j k hj
      have hpos : 1 ≤ (print k j).length := by
        obtain ⟨c, t, e, _⟩ := print_head k j
        rw [e]; simp
      match j, hj with
      | .null, _ => exact hpos
      | .bool true, _ => exact hpos
      | .bool false, _ => exact hpos
      | .num m, _ => exact hpos
      | .str s, _ => exact hpos
      | .arr [], _ => exact hpos
      | .arr (x :: xs), hj =>
        simp only [jsize, lsize] at hj ⊢
        have h1 := ih1 x (k + 1) (by omega)
        have h2 := ih2 xs (k + 1) (by omega)
        rw [print]
        simp only [List.length_cons, List.length_append, newline]
        omega
      | .obj [], _ => exact hpos
      | .obj (x :: xs), hj =>
        simp only [jsize, msize] at hj ⊢
        have h1 := ih1 x.2 (k + 1) (by omega)
        have h2 := ih3 xs (k + 1) (by omega)
        rw [print]
        simp only [List.length_cons, List.length_append, newline]
        omega
    · intro xs k h
      cases xs with
      | nil => simp [lsize]
      | cons x xs =>
        simp only [lsize] at h ⊢
        have h1 := ih1 x k (by omega)
        have h2 := ih2 xs k (by omega)
        rw [printElems]
        simp only [List.length_cons, List.length_append, newline]
        omega
    · intro xs k h
      cases xs with
      | nil => simp [msize]
      | cons x xs =>
        simp only [msize] at h ⊢
        have h1 := ih1 x.2 k (by omega)
        have h2 := ih3 xs k (by omega)
        rw [printMembers]
        simp only [List.length_cons, List.length_append, newline]
        omega

/-- A written document reads back as the same value. -/
theorem readJson_print (j : Json) : readJson (print 0 j) = some j := by
  unfold readJson
  have h := (read_print ((print 0 j).length + 1)).1 j 0 []
    (Nat.le_succ_of_le ((size_le_print (jsize j)).1 j 0 le_rfl)) (by intro c t e; cases e)
  rw [List.append_nil] at h
  rw [h]
  rfl

/-! ### Schemas as values -/

theorem field_members : ∀ {fields : List (String × Option Json)}, (fields.map fun f => lower f.1.toList).Nodup →
    ∀ {k : String} {v : Option Json}, (k, v) ∈ fields → field (members fields) k = v := by
  have key : ∀ (fields : List (String × Option Json)), (fields.map fun f => lower f.1.toList).Nodup →
      ∀ k : String, (∀ v, (k, v) ∈ fields → field (members fields) k = v) ∧
        (lower k.toList ∉ fields.map (fun f => lower f.1.toList) → field (members fields) k = none) := by
    intro fields
    induction fields with
    | nil => intro _ k; exact ⟨fun v h => absurd h List.not_mem_nil, fun _ => rfl⟩
    | cons f fs ih =>
      intro hn k
      obtain ⟨k', v'⟩ := f
      have hn' := List.nodup_cons.1 hn
      have happ : field (members ((k', v') :: fs)) k =
          (field (members fs) k).or (v'.bind fun v => if lower k'.toList = lower k.toList then some v else none) := by
        cases v' with
        | none =>
          have : members ((k', none) :: fs) = members fs := rfl
          rw [this]; simp
        | some v =>
          have : members ((k', some v) :: fs) = (k'.toList, v) :: members fs := rfl
          rw [this]
          unfold field
          rw [List.reverse_cons, List.find?_append]
          cases hfs : (members fs).reverse.find? fun p => lower p.1 == lower k.toList with
          | none =>
            by_cases he : lower k'.toList = lower k.toList <;> simp [he]
          | some p => simp
      obtain ⟨ih1, ih2⟩ := ih hn'.2 k
      refine ⟨?_, ?_⟩
      · intro v hv
        rw [happ]
        rcases List.mem_cons.1 hv with h | h
        · cases h
          rw [ih2 hn'.1]
          cases v' <;> simp
        · rw [ih1 v h]
          have hne : lower k'.toList ≠ lower k.toList := by
            intro e
            apply hn'.1
            show lower k'.toList ∈ _
            rw [e]
            exact List.mem_map.2 ⟨(k, v), h, rfl⟩
          cases v <;> cases v' <;> simp [hne]
      · intro hk
        rw [List.map_cons, List.mem_cons, not_or] at hk
        rw [happ, ih2 hk.2]
        cases v' with
        | none => rfl
        | some v => simp [Ne.symm hk.1]
  exact @fun fields hn k v hm => (key fields hn k).1 v hm

theorem toStr_optStr (s : Str) : toStr (optStr s) = some s := by
  unfold optStr
  split
  · rename_i h; rw [h]; rfl
  · rfl

theorem toNum_optNum (n : UInt16) : toNum (optNum n) = some n := by
  unfold optNum
  split
  · rename_i h; rw [h]; rfl
  · show (if n.toNat < 65536 then some (UInt16.ofNat n.toNat) else none) = some n
    rw [if_pos n.toNat_lt]
    simp

theorem toBool_optBool (b : Bool) : toBool (optBool b) = some b := by cases b <;> rfl

theorem mapM_of {α : Type} {f : Json → Option α} {g : α → Json} (h : ∀ a, f (g a) = some a) (l : List α) :
    (l.map g).mapM f = some l := by
  induction l with
  | nil => rfl
  | cons a l ih => rw [List.map_cons, List.mapM_cons, h, ih]; rfl

theorem toList_optArr {α : Type} {f : Json → Option α} {g : α → Json} (h : ∀ a, f (g a) = some a) (l : List α) :
    toList f (optArr (l.map g)) = some l := by
  cases l with
  | nil => rfl
  | cons a l => exact mapM_of h (a :: l)

theorem field_at {fields : List (String × Option Json)} (keys : List String) (hk : fields.map Prod.fst = keys)
    (hn : (keys.map fun k => lower k.toList).Nodup) (i : Nat) {k : String} {v : Option Json} (h : fields[i]? = some (k, v)) :
    field (members fields) k = v := by
  refine field_members ?_ (List.mem_of_getElem? h)
  rw [← hk, List.map_map] at hn
  exact hn

theorem toReference_of (r : Reference) : toReference (ofReference r) = some r := by
  have hf := @field_at [("table", optStr r.table), ("column", optStr r.column), ("relationship", optStr r.relationship)]
    ["table", "column", "relationship"] rfl (by decide)
  unfold ofReference toReference
  simp only []
  rw [hf 0 rfl, hf 1 rfl, hf 2 rfl, toStr_optStr, toStr_optStr, toStr_optStr]
  rfl

theorem toPtr_of (r : Option Reference) : toPtr toReference (r.map ofReference) = some r := by
  cases r with
  | none => rfl
  | some r =>
    show toPtr toReference (some (ofReference r)) = _
    have h := toReference_of r
    unfold ofReference at h ⊢
    show (toReference _).map some = _
    rw [h]; rfl

theorem toColumn_of (c : Column) : toColumn (ofColumn c) = some c := by
  have hf := @field_at [("name", some (.str c.name)), ("type", some (.str c.type)), ("desc", optStr c.description),
    ("size", optNum c.size), ("scale", optNum c.scale), ("notnull", optBool c.notNull), ("pk", optBool c.primaryKey),
    ("unique", optBool c.uniqueKey), ("autoinc", optBool c.autoIncremental), ("default", optStr c.defaultValue),
    ("onupdate", optStr c.onUpdate), ("values", optArr (c.values.map .str)), ("ref", c.ref.map ofReference)]
    ["name", "type", "desc", "size", "scale", "notnull", "pk", "unique", "autoinc", "default", "onupdate", "values", "ref"]
    rfl (by decide)
  unfold ofColumn toColumn
  simp only []
  rw [hf 0 rfl, hf 1 rfl, hf 2 rfl, hf 3 rfl, hf 4 rfl, hf 5 rfl, hf 6 rfl, hf 7 rfl, hf 8 rfl, hf 9 rfl, hf 10 rfl,
    hf 11 rfl, hf 12 rfl, toStr_optStr, toStr_optStr, toStr_optStr, toNum_optNum, toNum_optNum, toBool_optBool,
    toBool_optBool, toBool_optBool, toBool_optBool, toList_optArr (f := fun j => toStr (some j)) (g := Json.str) (fun _ => rfl), toPtr_of]
  rfl

theorem toIndex_of (i : Index) : toIndex (ofIndex i) = some i := by
  have hf := @field_at [("name", some (.str i.name)),
    ("columns", some (if i.columns = [] then .null else .arr (i.columns.map .str)))] ["name", "columns"] rfl (by decide)
  unfold ofIndex toIndex
  simp only []
  rw [hf 0 rfl, hf 1 rfl]
  obtain ⟨n, cs⟩ := i
  cases cs with
  | nil => rfl
  | cons a l =>
    have h := mapM_of (f := fun j => toStr (some j)) (g := Json.str) (fun _ => rfl) (a :: l)
    show (do
      let name ← some n
      let columns ← ((a :: l).map Json.str).mapM (fun j => toStr (some j))
      pure (⟨name, columns⟩ : Index)) = _
    rw [h]; rfl

theorem toTable_of (t : Table) : toTable (ofTable t) = some t := by
  have hf := @field_at [("name", optStr t.name), ("columns", optArr (t.columns.map ofColumn)),
    ("desc", optStr t.description), ("group", optStr t.group), ("className", optStr t.className),
    ("indices", optArr (t.indices.map ofIndex))] ["name", "columns", "desc", "group", "className", "indices"] rfl (by decide)
  unfold ofTable toTable
  simp only []
  rw [hf 0 rfl, hf 1 rfl, hf 2 rfl, hf 3 rfl, hf 4 rfl, hf 5 rfl, toStr_optStr, toStr_optStr, toStr_optStr, toStr_optStr,
    toList_optArr toColumn_of, toList_optArr toIndex_of]
  rfl

theorem toSchema_of (s : Schema) : toSchema (ofSchema s) = some s := by
  have hf := @field_at [("author", optStr s.author), ("name", optStr s.name), ("version", optStr s.version),
    ("tables", optArr (s.tables.map ofTable))] ["author", "name", "version", "tables"] rfl (by decide)
  unfold ofSchema toSchema
  simp only []
  rw [hf 0 rfl, hf 1 rfl, hf 2 rfl, hf 3 rfl, toStr_optStr, toStr_optStr, toStr_optStr, toList_optArr toTable_of]
  rfl

end Octo.Json
