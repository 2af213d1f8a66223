import Verif.Lemmas.UnitReads
import Verif.Props.UnitTable

/-! # C68: the names of units are read as units -/

namespace MC.Props
open MC.Parse (Text Lex Flags Cache parse shippedCfg asciiWord isLetter)
open MC.Unit MC.Unit.Table MC.Unit.Registry

attribute [local irreducible] ops units unitNames unitSymbols maxLength

/-- The texts a user may write for a unit: a name of a shipped unit in any letter case, one of its
symbols, or one of the names and symbols with two meanings. -/
def WritesUnit (n : Text) : Prop :=
  (∃ u ∈ units, (∃ m ∈ u.names, lowerText m = lowerText n) ∨ n ∈ u.symbols) ∨
  ∃ m ∈ twoMeanings, (∃ k ∈ m.1, lowerText k.toList = lowerText n) ∨ ∃ k ∈ m.2.1, k.toList = n

theorem writes_table {n : Text} (h : WritesUnit n) :
    lowerText n ∈ unitNames ∨ n ∈ unitSymbols := by
  have hname : ∀ o ∈ ops, (∃ m ∈ opNames o, lowerText m = lowerText n) → lowerText n ∈ unitNames := by
    rintro o ho ⟨m, hm, e⟩
    unfold unitNames
    exact List.mem_map.2 ⟨m, List.mem_flatMap.2 ⟨o, ho, hm⟩, e⟩
  have hsym : ∀ o ∈ ops, n ∈ opSymbols o → n ∈ unitSymbols := by
    intro o ho hm
    unfold unitSymbols
    exact List.mem_flatMap.2 ⟨o, ho, hm⟩
  rcases h with ⟨u, hu, h⟩ | ⟨m, hm, h⟩
  · obtain ⟨d, hd⟩ := op_of_unit hu
    rcases h with h | h
    · exact .inl (hname _ hd h)
    · exact .inr (hsym _ hd h)
  · have hmem : (m.1, m.2.1) ∈ shippedAmbs.map (fun a => (a.names, a.symbols)) := by
      rw [shippedAmbs_eq]
      exact List.mem_map.2 ⟨m, hm, rfl⟩
    obtain ⟨a, ha, e⟩ := List.mem_map.1 hmem
    simp only [Prod.mk.injEq] at e
    obtain ⟨us, ho⟩ := fine_shipped.ambs_mem a ha
    rcases h with ⟨k, hk, e'⟩ | ⟨k, hk, e'⟩
    · exact .inl (hname _ ho ⟨k.toList, List.mem_map.2 ⟨k, by rw [e.1]; exact hk, rfl⟩, e'⟩)
    · exact .inr (hsym _ ho (List.mem_map.2 ⟨k, by rw [e.2]; exact hk, e'⟩))


theorem reads_writes {n : Text} (h : WritesUnit n) (h1 : n ≠ "as".toList) (h2 : n ≠ "GΩ".toList)
    {p : ℕ} {powF : ℚ → ℚ → Except Err ℚ} {word alpha : Char → Bool}
    {systems numTypes : List Text} : Reads (unitLex p powF word alpha systems numTypes) n := by
  rcases writes_table h with h | h
  · exact reads_name h
  · exact reads_symbol h (by
      unfold unread
      rintro (_ | ⟨_, _ | ⟨_, h⟩⟩)
      · exact h1 rfl
      · exact h2 rfl
      · cases h)

section
variable {p : ℕ} {powF : ℚ → ℚ → Except Err ℚ} {word alpha : Char → Bool}
    {systems numTypes : List Text} (hw : ∀ c, c.toNat < 128 → word c = asciiWord c)
    (ha : ∀ c, c.toNat < 128 → alpha c = isLetter c)
include hw ha

/-- **C68**, reading: every text for a unit, other than the two symbols `as` and `GΩ`, is read as
one item, that unit, also when it contains the name of an operator, a constant or another unit.
Missing: those two symbols, for which it is false. -/
theorem C68_read_partial (funcs : List Text) (inc : List Parse.Item → Bool) (fl : Flags)
    (m : Cache) (bound : ℕ) {n : Text} (h : WritesUnit n) (h1 : n ≠ "as".toList)
    (h2 : n ≠ "GΩ".toList) :
    parse (shippedCfg (unitLex p powF word alpha systems numTypes) funcs inc) (bound + 1) fl n m
      = some (.ok ([[.leaf .unit n]], n.length, none), m) := by
  have hn := reads_writes (p := p) (powF := powF) (word := word) (alpha := alpha)
    (systems := systems) (numTypes := numTypes) h h1 h2
  have ht := turn_unit (tableOk hw ha) hn (rest := []) (by intro c hc; cases hc)
    (by intro c hc; cases hc) funcs inc
    (parse (shippedCfg (unitLex p powF word alpha systems numTypes) funcs inc) bound) fl [] [] m
  obtain ⟨a, l, e, _⟩ := hn.plainStart
  rw [List.append_nil] at ht
  have hdrop : n.drop n.length = [] := by simp
  unfold parse
  subst e
  simp only [List.length_cons] at hdrop ht
  simp only [List.length_cons, Parse.parseLoop, ht, hdrop, Nat.zero_add, List.nil_append]
  simp

/-- What may follow a unit in the text: nothing, or an ASCII character that is no letter, digit or
underscore and none of `-`, `.` and `(`. -/
def UnitEnds (rest : Text) : Prop :=
  ∀ c, rest.head? = some c → c.toNat < 128 ∧ asciiWord c = false ∧ c ∉ ['-', '.', '(']

/-- **C68**, reading in an expression: wherever such a text stands and is followed by the end of the
text or by a separator, the next item read is that unit, and nothing else is read with it.  The
symbol `deg` before a space may be the start of a longer name (`deg C`). -/
theorem C68_read_next_partial (funcs : List Text) (inc : List Parse.Item → Bool)
    (rec : Parse.ParseFn) (fl : Flags) (done : List (List Parse.Item)) (cur : List Parse.Item)
    (m : Cache) {n rest : Text} (h : WritesUnit n) (h1 : n ≠ "as".toList) (h2 : n ≠ "GΩ".toList)
    (hr : UnitEnds rest) (hd : ¬ (n = "deg".toList ∧ rest.head? = some ' ')) :
    Parse.tryParsers (shippedCfg (unitLex p powF word alpha systems numTypes) funcs inc) rec
        (n ++ rest) fl (Parse.shippedParsers (unitLex p powF word alpha systems numTypes)) done cur m
      = some (.ok (.go done (cur ++ [.leaf .unit n]) n.length), m) := by
  have hsep : ∀ c, rest.head? = some c → sep c = true := by
    intro c hc
    obtain ⟨q1, q2, q3⟩ := hr c hc
    unfold sep
    simp [q1, q2, q3]
  exact turn_unit (tableOk hw ha) (reads_writes h h1 h2) hsep (by
    intro c hc
    exact not_longer (writes_table h) (hsep c hc) (by rintro ⟨e1, e2⟩; exact hd ⟨e1, by rw [hc, e2]⟩))
    funcs inc rec fl done cur m

end

/-- The shipped parsers on ASCII. -/
def asciiLex : Lex := unitLex 30 (fun _ _ => .ok 0) asciiWord isLetter [] []

/-- The kinds and texts of the items of a successful parse (none of them nested). -/
def leaves : Option (Parse.Parsed × Cache) → Option (List (List (Option Parse.Kind × Text)))
  | some (.ok (st, _), _) => some (st.map (fun items => items.map (fun it =>
      match it with
      | .leaf k t => (some k, t)
      | .nest _ t _ => (none, t))))
  | _ => none

theorem writes_tonnes : WritesUnit "Tonnes".toList := .inl (by decide +kernel)

/-- Non-vacuity: `Tonnes`, in this letter case, is a text for a unit although `to` is an operator. -/
example : "to".toList ∈ asciiLex.ops := by decide +kernel

example (m : Cache) : parse (shippedCfg asciiLex [] (fun _ => false)) 1 {} "Tonnes".toList m =
    some (.ok ([[.leaf .unit "Tonnes".toList]], 6, none), m) :=
  C68_read_partial (fun _ _ => rfl) (fun _ _ => rfl) [] _ {} m 0 writes_tonnes (by decide) (by decide)

/-- **C68**, what is missing: `GΩ` is a symbol of the gigaohm, but it is read as the gravitational
constant `G` followed by the ohm. -/
theorem C68_read_violation_gigaohm :
    WritesUnit "GΩ".toList ∧
    leaves (parse (shippedCfg asciiLex [] (fun _ => false)) 1 {} "GΩ".toList none) =
      some [[(some .constant, "G".toList), (some .unit, "Ω".toList)]] :=
  ⟨.inl (by decide +kernel), by decide +kernel⟩

/-- **C68**, what is missing: `as` is a symbol of the attosecond, but it is read as the operator. -/
theorem C68_read_violation_as :
    WritesUnit "as".toList ∧
    leaves (parse (shippedCfg asciiLex [] (fun _ => false)) 1 {} "as".toList none) =
      some [[(some .op, "as".toList)]] :=
  ⟨.inl (by decide +kernel), by decide +kernel⟩

end MC.Props
