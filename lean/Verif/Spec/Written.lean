import Verif.Model.Lexer
import Verif.Model.Terminator
import Verif.Spec.Parse

/-!
# How an expression is written

The words of an expression, what may stand right after each of them, and how brackets and calls are
built from them.  `Reading … t it next` says that the text `t` stands for the item `it` where the
next character is `next`.
-/

namespace MC.Parse.Spec
open MC.Parse

/-- A decimal number: an optional minus sign, digits, and an optional fraction. -/
def IsLiteral (t : Text) : Prop :=
  ∃ sign ip fp : Text, t = sign ++ ip ++ fp ∧ (sign = [] ∨ sign = ['-']) ∧
    ip ≠ [] ∧ (∀ c ∈ ip, c.isDigit = true) ∧
    (fp = [] ∨ ∃ f, fp = '.' :: f ∧ f ≠ [] ∧ ∀ c ∈ f, c.isDigit = true)

/-- A name: a letter or an underscore, then letters, digits and underscores. -/
def IsName (w : Text) : Prop :=
  ∃ a t, w = a :: t ∧ (isLetter a = true ∨ a = '_') ∧ ∀ c ∈ t, asciiWord c = true

/-- A word ends before the character `next`. -/
def WordEnds (next : Option Char) : Prop :=
  ∀ c, next = some c → c.toNat < 128 ∧ asciiWord c = false

/-- None of the texts `ws` starts with `w` followed by `next`. -/
def NoLonger (ws : List Text) (w : Text) (next : Option Char) : Prop :=
  ∀ c, next = some c → ∀ o ∈ ws, ¬ (w ++ [c]) <+: o

variable (x : Lex)

/-- A name that is neither an operator nor `true` or `false` in any letter case.  An operator may be
at its start if it is made of letters. -/
structure FreeName (w : Text) : Prop where
  name : IsName w
  noBool : lowerText w ≠ "true".toList ∧ lowerText w ≠ "false".toList
  noOp : ∀ o ∈ x.ops, o <+: w → o ≠ w ∧ o.all isLetter = true

/-- A name that has no reserved word at its start: no constant is its first run of letters, no
unit is at its start where a letter or an underscore does not follow, and no unit system or number
type is at its start where a letter does not follow. -/
structure IsVar (w : Text) : Prop where
  free : FreeName x w
  noConst : w.takeWhile isLetter ∉ x.constants
  noUnit : ∀ u v, w = u ++ v → u ≠ [] → (∀ c, v.head? = some c → isLetter c = false ∧ c ≠ '_') →
    lowerText u ∉ x.unitNames ∧ u ∉ x.unitSymbols
  noWord : ∀ y ∈ x.systems ++ x.numTypes, ∀ v, w = y ++ v → ∃ c, v.head? = some c ∧ isLetter c = true

/-- A word for a unit system or a number type. -/
structure IsSpecial (w : Text) : Prop where
  free : FreeName x w
  letters : w.all isLetter = true
  mem : w ∈ x.systems ++ x.numTypes
  noConst : w ∉ x.constants
  noUnit : lowerText w ∉ x.unitNames ∧ w ∉ x.unitSymbols

/-- The text of a unit that no other word is in the way of. -/
structure IsUnit (n : Text) : Prop where
  isUnit : lowerText n ∈ x.unitNames ∨ n ∈ x.unitSymbols
  short : n.length ≤ x.unitMaxLength
  start : ∃ a t, n = a :: t ∧ isSpaceChar a = false ∧ a.isDigit = false ∧
    (a.toNat < 128 → asciiWord a = true)
  noCall : '(' ∉ n
  noBool : ¬ "true".toList <+: lowerText n ∧ ¬ "false".toList <+: lowerText n
  noConst : n.takeWhile isLetter ∉ x.constants
  noOp : ∀ o ∈ x.ops, ∀ v, n = o ++ v → o ≠ [] ∧ (∀ c ∈ o, isLetter c = true) ∧
    ∃ c, v.head? = some c ∧ asciiWord c = true

/-- The words of an expression.  `nl`: a newline is a space here, as between brackets.  `first`: an
operand is expected here, as at the start and after an operator. -/
inductive Leaf (nl : Bool) : Bool → Text → Kind → Option Char → Prop
  | space {first c next} : isSpaceChar c = true → (c = '\n' → nl = true) →
      Leaf nl first [c] .space next
  | comment {first s next} : '\n' ∉ s → (next = none ∨ next = some '\n') →
      Leaf nl first ('#' :: s) .comment next
  | num {t next} : IsLiteral t →
      (∀ c, next = some c → c.isDigit = false ∧ c ≠ '.' ∧ c ≠ '%' ∧
        c.toLower ∉ ['e', 'z', 'b', 'o', 'x']) → Leaf nl true t .num next
  | bool {first t next} : lowerText t = "true".toList ∨ lowerText t = "false".toList →
      WordEnds next → Leaf nl first t .bool next
  | str {first next} (s : Text) : Leaf nl first (quoted '\'' '\\' s) .str next
  | op {first o next} : o ∈ x.ops → NoLonger x.ops o next →
      (∀ a, o.head? = some a → isLetter a = true → WordEnds next) →
      (first = true → o = ['-'] → ∀ c, next = some c → c.isDigit = false) →
      Leaf nl first o .op next
  | const {first w next} : FreeName x w → w.all isLetter = true → w ∈ x.constants →
      WordEnds next → next ≠ some '(' → Leaf nl first w .constant next
  | unit {first n next} : IsUnit x n → WordEnds next → (∀ c, next = some c → c ∉ ['-', '.', '(']) →
      NoLonger x.unitNames (lowerText n) next → NoLonger x.unitSymbols n next →
      Leaf nl first n .unit next
  | special {first w next} : IsSpecial x w → WordEnds next → next ≠ some '(' →
      NoLonger x.unitNames (lowerText w) next → NoLonger x.unitSymbols w next →
      Leaf nl first w .special next
  | var {first w next} : IsVar x w → WordEnds next → next ≠ some '(' →
      NoLonger x.unitNames (lowerText w) next → NoLonger x.unitSymbols w next →
      Leaf nl first w .var next

/-- Whether an operand is expected after an item. -/
def after (first : Bool) (it : Item) : Bool := if it.functional then it.isOp else first

/-- Texts one after the other, each read with `R`; `tail` is the character after the last. -/
inductive Line (R : Bool → Text → Item → Option Char → Prop) :
    Bool → Text → List Item → Option Char → Prop
  | nil {first tail} : Line R first [] [] tail
  | cons {first t it rest its tail} : R first t it (rest.head?.or tail) →
      Line R (after first it) rest its tail → Line R first (t ++ rest) (it :: its) tail

/-- The arguments of a call up to the closing bracket. -/
inductive Args (L : Text → List Item → Option Char → Prop) : Text → List Item → Prop
  | last {t its} : L t its (some ')') → Args L t its
  | more {t its ts rest} : L t its (some ',') → Args L ts rest →
      Args L (t ++ ',' :: ts) (its ++ .leaf .funcParam [','] :: rest)

/-- The statements of an inline function up to the closing brace.  `nl`: a newline is a space here;
otherwise it ends a statement, if `complete` says that it may end. -/
inductive Body (L : Text → List Item → Option Char → Prop) (nl : Bool) (complete : List Item → Prop) :
    Text → List (List Item) → Prop
  | last {t its} : L t its (some '}') → Body L nl complete t [its ++ [.leaf .inlineEnd ['}']]]
  | more {t its ts st} : nl = false → L t its (some '\n') → complete (its.filter Item.functional) →
      Body L nl complete ts st →
      Body L nl complete (t ++ '\n' :: ts) ((its ++ [.leaf .terminator ['\n']]) :: st)

/-- The start of a range, before `..`; a number may be at its end, as in `1..5`. -/
def BeforeRange (L : Text → List Item → Option Char → Prop) (t : Text) (its : List Item) : Prop :=
  its ≠ [] ∧ (L t its (some '.') ∨ ∃ u its' w, L u its' w.head? ∧ IsLiteral w ∧
    its'.foldl after true = true ∧ t = u ++ w ∧ its = its' ++ [.leaf .num w])

/-- An element of an array, before `next`: a value, a range, or a range with a step. -/
inductive Element (L : Text → List Item → Option Char → Prop) (next : Char) : Text → List Item → Prop
  | one {t its} : L t its (some next) → its ≠ [] → Element L next t its
  | range {a as b bs} : BeforeRange L a as → L b bs (some next) → bs ≠ [] →
      Element L next (a ++ ('.' :: '.' :: b)) (as ++ .leaf .arrRange ['.', '.'] :: bs)
  | step {a as b bs c cs} : BeforeRange L a as → L b bs (some 's') → bs ≠ [] →
      Leaf x true false "step".toList .var (c.head?.or (some next)) → L c cs (some next) → cs ≠ [] →
      Element L next (a ++ ('.' :: '.' :: (b ++ ("step".toList ++ c))))
        (as ++ .leaf .arrRange ['.', '.'] :: (bs ++ .leaf .arrStep "step".toList :: cs))

/-- The elements of an array up to the closing bracket; there is at least one. -/
inductive Elements (L : Text → List Item → Option Char → Prop) : Text → List Item → Prop
  | last {t its} : Element x L ']' t its → Elements L t its
  | more {t its ts rest} : Element x L ',' t its → Elements L ts rest →
      Elements L (t ++ ',' :: ts) (its ++ .leaf .arrParam [','] :: rest)

mutual
/-- No variable in this item has a name that starts with `step`, unless it is in an array or in the
arguments of a call inside. -/
def stepFree : Item → Bool
  | .leaf .var w => !("step".toList.isPrefixOf w)
  | .leaf _ _ => true
  | .nest .inner _ its => stepFreeAll its
  | .nest .inline _ its => stepFreeAll its
  | .nest _ _ _ => true
def stepFreeAll : List Item → Bool
  | [] => true
  | it :: its => stepFree it && stepFreeAll its
end

variable (funcs : List Text)

/-- An item as it is written, with brackets and braces nested at most `n` deep.  `complete` is for the
statements of inline functions. -/
def ReadingC (complete : List Item → Prop) : ℕ → Bool → Bool → Text → Item → Option Char → Prop
  | 0, nl, first, t, it, next => ∃ k, it = .leaf k t ∧ Leaf x nl first t k next
  | n + 1, nl, first, t, it, next =>
    (∃ k, it = .leaf k t ∧ Leaf x nl first t k next) ∨
    (∃ ts its, Line (ReadingC complete n true) true ts its (some ')') ∧
      t = '(' :: ts ++ [')'] ∧
      it = .nest .inner t (.leaf .innerStart ['('] :: its ++ [.leaf .innerEnd [')']])) ∨
    (∃ w ts its, FreeName x w ∧ w ∈ funcs ∧
      Args (Line (ReadingC complete n true) true) ts its ∧
      t = w ++ '(' :: ts ++ [')'] ∧
      it = .nest .func t (.leaf .funcName w :: .leaf .funcStart ['('] :: its ++ [.leaf .funcEnd [')']])) ∨
    (∃ w ts its, IsName w ∧
      Args (Line (ReadingC complete n true) true) ts its ∧
      t = '@' :: w ++ '(' :: ts ++ [')'] ∧
      it = .nest .pointer t (.leaf .funcName ('@' :: w) :: .leaf .funcStart ['('] :: its
        ++ [.leaf .funcEnd [')']])) ∨
    (∃ ts st, Body (Line (ReadingC complete n nl) true) nl complete ts st ∧
      t = '{' :: ts ++ ['}'] ∧
      it = .nest .inline t (.leaf .inlineStart ['{'] :: st.flatten)) ∨
    (∃ ts its, Elements x (fun t its next => Line (ReadingC complete n true) true t its next ∧
        stepFreeAll its = true) ts its ∧
      t = '[' :: ts ++ [']'] ∧
      it = .nest .array t (.leaf .arrStart ['['] :: its ++ [.leaf .arrEnd [']']]))

/-- The same with inline functions of one line only. -/
abbrev Reading := ReadingC x funcs (fun _ => False)

/-- Statements one per line.  `complete` says of the items of a statement, without spaces and
comments, that it may end. -/
inductive ProgramC (n : ℕ) (inner complete : List Item → Prop) : Text → List (List Item) → Prop
  | last {t its} : Line (ReadingC x funcs inner n false) true t its none → ProgramC n inner complete t [its]
  | more {t its ts st} : Line (ReadingC x funcs inner n false) true t its (some '\n') →
      complete (its.filter Item.functional) → ProgramC n inner complete ts st →
      ProgramC n inner complete (t ++ '\n' :: ts) ((its ++ [.leaf .terminator ['\n']]) :: st)

/-- The same, where an inline function is written on one line. -/
abbrev Program (n : ℕ) (complete : List Item → Prop) := ProgramC x funcs n (fun _ => False) complete

/-- An expression as it is written: it stands on its own, so nothing follows. -/
def Expression (n : ℕ) (t : Text) (its : List Item) : Prop :=
  Line (Reading x funcs n false) true t its none

end MC.Parse.Spec
