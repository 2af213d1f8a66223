import Verif.Props.Strings
import Verif.Props.Stats

/-! # Non-vacuity of C54, C55 and C62: a calculator with numbers, strings and truth values -/

namespace MC.Props
open MC.Spec MC.Strings MC.Arrays MC.Boolean

/-- Scalars for the examples. -/
inductive TS where
  | n (x : Number)
  | s (t : List Char)
  | b (v : Bool)
  deriving DecidableEq

/-- Strings among them; natural numbers are shown by their digits. -/
def demoTexts : Texts TS Unit Unit where
  text? := fun x => match x with | .s t => some t | _ => none
  ofText := .s
  ofBool := .b
  num? := fun x => match x with | .n x => some x | _ => none
  ofNum := .n
  render := fun v => match v with
    | .sc (.n x) => .ok (Nat.toDigits 10 x.num.natAbs)
    | .sc (.b true) => .ok "true".toList
    | .sc (.b false) => .ok "false".toList
    | _ => .error (.py "not shown")
  lower := List.map Char.toLower
  upper := List.map Char.toUpper

/-- The calculator without validators. -/
def bareTxt : Calc TS Unit Unit ℕ where
  validator := fun _ => none
  number := fun x => match x with | .n a => some (.n a) | _ => none
  isNumber := fun x => match x with | .n _ => true | _ => false
  cast := fun _ => none
  setCast := fun _ x => x
  normalise := none
  toString := fun _ => .ok "x"

/-- The validators; that of arrays looks up the others, never with a sub-type. -/
def txtValidator (array : Opd TS Unit Unit → Option String → Except Raise Bool) (t : String) :
    Option (Opd TS Unit Unit → Option String → Except Raise Bool) :=
  if t = "array" then some array
  else if t = "number" then some (validateNumber bareTxt)
  else if t = "string" then some (validateString demoTexts)
  else none

/-- A calculator with numbers, strings and arrays. -/
def txtCalc : Calc TS Unit Unit ℕ :=
  { bareTxt with
    validator := txtValidator (validateArray { bareTxt with
      validator := txtValidator (fun x _ => validateArray bareTxt x none) }) }

theorem txtCalc_has : HasStrings txtCalc demoTexts where
  string := rfl
  number := rfl
  array := by
    show some _ = some _
    congr 1
    funext x sub
    unfold validateArray
    cases x.value with
    | sc v => rfl
    | exc e => rfl
    | arr els =>
      cases sub with
      | none => rfl
      | some t =>
        dsimp only
        induction els with
        | nil => rfl
        | cons e es ih =>
          unfold validateArray.go
          rw [ih]
          simp only [txtCalc, txtValidator]
          by_cases h : t = "array"
          · simp [h, validateArray]
          · simp [h]
  back := fun _ => rfl
  notNumber := fun _ => rfl

/-- A string as operand. -/
abbrev str (t : String) : Opd TS Unit Unit := ⟨.sc (.s t.toList), none, none, none⟩
/-- An integer as operand. -/
abbrev int (z : ℤ) : Opd TS Unit Unit := ⟨.sc (.n ⟨z, 1⟩), none, none, none⟩

theorem str_is (t : String) : IsString demoTexts (str t) t.toList := ⟨_, rfl, rfl⟩
theorem str_reads (t : String) : ReadsAs demoTexts (str t) t.toList := (str_is t).reads
theorem int_reads (z : ℤ) : ReadsAs demoTexts (int z) (Nat.toDigits 10 z.natAbs) := ⟨⟨_, rfl⟩, rfl⟩
theorem int_raw (z : ℤ) : rawText demoTexts (int z).value = none := rfl
theorem int_is (z : ℤ) (h : |z| < 10 ^ 30) : IsInt txtCalc demoTexts 30 (int z) z :=
  ⟨_, _, ⟨z, 1⟩, rfl, rfl, rfl, toInt_30 z h⟩

-- `split('a,b,,c', ',')` is `['a', 'b', '', 'c']`
example (s : ℕ) : call txtCalc (opSplit demoTexts) [str "a,b,,c", str ","] s =
    (.ok (arrayOf (["a".toList, "b".toList, [], "c".toList].map (strV demoTexts))), s) := rfl
-- the first occurrence counts: `split('aaa', 'aa')` is `['', 'a']`
example : Pieces "aa".toList "aaa".toList [[], "a".toList] :=
  (splitF_pieces (sep := "aa".toList) (by decide) "aaa".toList.length "aaa".toList le_rfl :)
example (s : ℕ) := C54_split txtCalc_has (str_reads "a,b,,c") (str_reads ",") (by decide) s
example (s : ℕ) := C54_split txtCalc_has (int_reads 10203) (int_reads 0) (by decide) s
example (s : ℕ) := C54_split_empty txtCalc_has (str_reads "a,b") (str_reads "") s
example (s : ℕ) := C54_split_join txtCalc_has (str_reads "a--b-") (str_is "--") (by decide) s
example (s : ℕ) : call txtCalc (opJoin demoTexts) [arrayOf [str "a", int 12, str "c"], str ", "] s =
    (.ok (str "a, 12, c"), s) :=
  C54_join (x := arrayOf [str "a", int 12, str "c"]) txtCalc_has rfl
    (.cons (str_reads "a") (.cons (int_reads 12) (.cons (str_reads "c") .nil))) (str_is _) s
example (s : ℕ) : call txtCalc (opJoin demoTexts) [arrayOf [str "a", int 12, str "c"]] s =
    (.ok (str "a12c"), s) :=
  C54_join_plain (x := arrayOf [str "a", int 12, str "c"]) txtCalc_has rfl
    (.cons (str_reads "a") (.cons (int_reads 12) (.cons (str_reads "c") .nil))) s
example (s : ℕ) := C54_join_split (d := ',') txtCalc_has (x := arrayOf [str "a", int 12, str ""]) rfl
  (.cons (str_reads _) (.cons (int_reads _) (.cons (str_reads _) .nil))) (by simp) (by decide) (str_is ",") s
-- `join(split('10203', 0), 0)` raises
example (s : ℕ) := C54_number_separator_violation txtCalc_has (str_reads "10203") (int_reads 0) (by decide)
  (int_raw 0) s

example (s : ℕ) : call txtCalc (opAppend demoTexts) [str "ab", int 12] s = (.ok (str "ab12"), s) :=
  C55_append txtCalc_has (str_reads _) (int_reads _) s
example (s : ℕ) : call txtCalc (opLength demoTexts 30) [str "abc"] s = (.ok (int 3), s) :=
  C55_length txtCalc_has (by norm_num) (str_reads _) s
example (s : ℕ) := C55_length_append (p := 30) txtCalc_has (by norm_num) (str_reads "abc") (int_reads 12) s
example (s : ℕ) : call txtCalc (opRepeat demoTexts 30) [str "ab", int 3] s = (.ok (str "ababab"), s) :=
  C55_repeat txtCalc_has (str_reads _) (int_is 3 (by norm_num)) s
example (s : ℕ) : call txtCalc (opRepeat demoTexts 30) [str "ab", int (-3)] s = (.ok (str ""), s) :=
  C55_repeat txtCalc_has (str_reads _) (int_is (-3) (by norm_num)) s
example (s : ℕ) := C55_length_repeat (p := 30) txtCalc_has (by norm_num) (str_reads "abc")
  (int_is ((2 : ℕ) : ℤ) (by norm_num)) s
example := C55_compare (σ := ℕ) txtCalc_has (str_reads "abc") (str_reads "abd")
example : Precedes "abc".toList "abd".toList := less_iff.mp (by decide)
example : Precedes "ab".toList "abd".toList := less_iff.mp (by decide)
example : ¬ Precedes "b".toList "abd".toList := fun h => absurd (less_iff.mpr h) (by decide)
example := C55_compare_caseless (σ := ℕ) txtCalc_has (str_reads "aBc") (str_reads "AbC")
example : demoTexts.lower "aBc".toList = demoTexts.lower "AbC".toList := by decide
example (s : ℕ) : call txtCalc (opFind demoTexts 30) [str "banana", str "an"] s = (.ok (int 1), s) :=
  C55_find (k := 1) txtCalc_has (by norm_num) (str_reads _) (str_reads _) (find_some.mp (by decide)) s
example (s : ℕ) : call txtCalc (opFind demoTexts 30) [str "banana", str "x"] s = (.ok (int (-1)), s) :=
  C55_find_absent txtCalc_has (by norm_num) (str_reads _) (str_reads _) (find_none.mp (by decide)) s
example (s : ℕ) : call txtCalc (opReplace demoTexts) [str "banana", str "an", str "A"] s =
    (.ok (str "bAAa"), s) :=
  C55_replace (parts := ["b".toList, [], "a".toList]) txtCalc_has (str_reads _) (str_reads _) (str_reads _)
    (by decide) (splitF_pieces (by decide) _ _ le_rfl) s
example (s : ℕ) := C55_replace_split_join txtCalc_has (str_reads "banana") (str_reads "an") (str_is "A")
  (by decide) s
example (s : ℕ) : call txtCalc (opReplace demoTexts) [str "abc", str "", str "-"] s =
    (.ok (str "-a-b-c-"), s) :=
  C55_replace_empty txtCalc_has (str_reads _) (str_reads _) (str_reads _) s
example (s : ℕ) := C55_lstrip_partial txtCalc_has (str_reads "xxabx") (str_is "x") s
example (s : ℕ) : call txtCalc (opLstrip demoTexts) [str "xyabx", str "xy"] s = (.ok (str "abx"), s) := rfl
-- `lstrip('1231', 1)` raises, `rstrip('1231', 1)` does not
example (s : ℕ) := C55_lstrip_violation txtCalc_has (str_reads "1231") (int_reads 1) (int_raw 1) s
example (s : ℕ) := C55_rstrip txtCalc_has (str_reads "1231") (int_reads 1) s
example (s : ℕ) : call txtCalc (opRstrip demoTexts) [str "1231", int 1] s = (.ok (str "123"), s) := rfl
example (s : ℕ) := C55_strip txtCalc_has (str_reads "1231") (int_reads 1) s
example (s : ℕ) : call txtCalc (opStrip demoTexts) [str "1231", int 1] s = (.ok (str "23"), s) := rfl
example (s : ℕ) := C55_substr_rest txtCalc_has (str_reads "abcdef") (int_is 2 (by norm_num)) s
example (s : ℕ) := C55_substr_partial txtCalc_has (str_reads "abcdef") (int_is (-3) (by norm_num))
  (int_is (-2) (by norm_num)) (.inr ⟨str_is _, by decide⟩) s
example : slice "abcdef".toList (-3) (-2 + 1) = "de".toList := by decide
example (s : ℕ) := C55_substr_partial txtCalc_has (int_reads 12345) (int_is 1 (by norm_num))
  (int_is 3 (by norm_num)) (.inl (by norm_num)) s
-- `substr('abc', 0, -5)` is `'ab'`
example (s : ℕ) := C55_substr_violation txtCalc_has (str_is "abc") (int_is 0 (by norm_num))
  (int_is (-5) (by norm_num)) rfl (by decide) (by decide) s
example : slice "abc".toList 0 (-5 + 1 + 3) = "ab".toList := by decide
-- `substr(12345, 0, -2)` raises
example (s : ℕ) := C55_substr_number_violation txtCalc_has (int_reads 12345) (int_raw _)
  (int_is 0 (by norm_num)) (int_is (-2) (by norm_num)) (by norm_num) s

/-- Patterns without special characters, where the empty one is not valid. -/
def demoRegex : Regex TS where
  search := fun pat t => if pat = [] then .error (.py "re.error") else .ok (find pat t).isSome
  findall := fun pat t => .ok (List.replicate ((splitF pat t.length t).length - 1) (.s pat))
  split := fun pat t => .ok ((splitF pat t.length t).map .s)
  sub := fun pat new t n => if n = 0 then .ok (replace pat new t) else .ok t

example (s : ℕ) : call txtCalc (opRegexNot demoTexts demoRegex) [str "banana", str "nan"] s =
    (.ok ⟨.sc (.b false), none, none, none⟩, s) :=
  ((C62_match txtCalc_has (str_reads _) (str_reads _) s).1 true (by decide)).2
example (s : ℕ) := (C62_match (re := demoRegex) txtCalc_has (str_reads "banana") (str_reads "") s).2 _ rfl
example (s : ℕ) := C62_count (p := 30) (re := demoRegex) txtCalc_has (by norm_num) (str_reads "banana")
  (str_reads "an") rfl s
example (s : ℕ) : call txtCalc (opRegexGet demoTexts 30 demoRegex) [str "banana", str "an", int 2] s =
    (.ok (str "an"), s) :=
  C62_get (i := 1) (found := [.s "an".toList, .s "an".toList]) txtCalc_has (str_reads _) (str_reads _)
    (int_is _ (by norm_num)) (by decide) rfl rfl s
example (s : ℕ) : call txtCalc (opRegexSub demoTexts 30 demoRegex) [str "banana", str "an", str "A"] s =
    (.ok (str "bAAa"), s) :=
  (C62_sub (w := int 1) (n := 1) txtCalc_has (str_reads _) (str_reads _) (str_reads _)
    (int_is _ (by norm_num)) s).1 (by decide)

end MC.Props
