import Mathlib.Tactic.IntervalCases
import Verif.Lemmas.Calendar

/-! # Writing and reading dates -/

namespace MC.Dates

theorem digit_digitChar (n : ℕ) : digit? (digitChar n) = some (n % 10) := by
  unfold digitChar
  have h : n % 10 < 10 := Nat.mod_lt _ (by omega)
  generalize n % 10 = k at h
  interval_cases k <;> rfl

theorem readDigit_cons (n : ℕ) (s : List Char) :
    readDigit (digitChar n :: s) = some (n % 10, s) := by
  simp [readDigit, digit_digitChar]

theorem fixed_length : ∀ k n, (fixed k n).length = k
  | 0, _ => rfl
  | k + 1, n => by simp [fixed, fixed_length k]

theorem fixed_two (n : ℕ) : fixed 2 n = [digitChar (n / 10), digitChar n] := rfl

theorem fixed_four (n : ℕ) : fixed 4 n = fixed 2 (n / 100) ++ fixed 2 n := by
  simp only [fixed, List.nil_append, List.append_assoc, List.cons_append]
  congr 2
  · rw [Nat.div_div_eq_div_mul, Nat.div_div_eq_div_mul, Nat.div_div_eq_div_mul]
  · rw [Nat.div_div_eq_div_mul]

theorem readPair_fixed (n : ℕ) (s : List Char) :
    readPair (fixed 2 n ++ s) = some (n % 100, s) := by
  simp only [fixed_two, List.cons_append, List.nil_append, readPair, readDigit_cons, Option.bind_eq_bind,
    Option.bind_some]
  show some _ = some _
  congr 2
  omega

theorem readYear_fixed (n : ℕ) (s : List Char) :
    readYear (fixed 4 n ++ s) = some (n % 10000, s) := by
  rw [readYear, fixed_four, List.append_assoc, readPair_fixed]
  simp only [Option.bind_eq_bind, Option.bind_some, readPair_fixed]
  show some _ = some _
  congr 2
  omega

theorem readUpTo_fixed {lo hi n : ℕ} (h1 : lo ≤ n) (h2 : n ≤ hi) (h : hi < 100) (s : List Char) :
    readUpTo lo hi (fixed 2 n ++ s) = some (n, s) := by
  unfold readUpTo
  rw [readPair_fixed, Nat.mod_eq_of_lt (by omega)]
  simp [h1, h2]

theorem readDay_fixed {n : ℕ} (h1 : 1 ≤ n) (h2 : n ≤ 31) (s : List Char) :
    readDay (fixed 2 n ++ s) = some (n, s) := by
  unfold readDay
  rw [readUpTo_fixed h1 h2 (by omega)]

theorem readSixty_fixed {n : ℕ} (h : n < 60) (s : List Char) :
    readSixty (fixed 2 n ++ s) = some (n, s) := by
  unfold readSixty
  rw [readPair_fixed, Nat.mod_eq_of_lt (by omega)]
  simp [h]

theorem readFraction_fixed (s : List Char) : ∀ (k j acc n : ℕ),
    readFraction (k + j) acc (fixed k n ++ s) = readFraction j (acc * 10 ^ k + n % 10 ^ k) s
  | 0, j, acc, n => by simp [fixed, Nat.mod_one]
  | k + 1, j, acc, n => by
    rw [fixed, List.append_assoc, show k + 1 + j = k + (j + 1) by omega,
      readFraction_fixed _ k (j + 1) acc (n / 10)]
    simp only [List.cons_append, List.nil_append, readFraction, readDigit_cons]
    congr 1
    have h1 := Nat.mod_mul (a := 10) (b := 10 ^ k) (x := n)
    rw [show (10 : ℕ) ^ (k + 1) = 10 * 10 ^ k by rw [pow_succ, mul_comm], h1]
    ring

theorem readMicro_fixed {n : ℕ} (h : n < 1000000) (s : List Char) :
    readMicro (fixed 6 n ++ s) = some (n, s) := by
  unfold readMicro
  have := readFraction_fixed s 6 0 0 n
  rw [show 6 + 0 = 6 from rfl] at this
  rw [this, Nat.mod_eq_of_lt (by simpa using h)]
  simp [readFraction]

theorem readFraction_stop {s : List Char} (h : readDigit s = none) (j acc : ℕ) :
    readFraction j acc s = (acc * 10 ^ j, j, s) := by
  cases j with
  | zero => simp [readFraction]
  | succ j => simp [readFraction, h]

theorem readMicro_some {k n : ℕ} (h1 : 1 ≤ k) (h2 : k ≤ 6) (hn : n < 10 ^ k) {s : List Char}
    (hs : readDigit s = none) : readMicro (fixed k n ++ s) = some (n * 10 ^ (6 - k), s) := by
  unfold readMicro
  have := readFraction_fixed s k (6 - k) 0 n
  rw [show k + (6 - k) = 6 by omega, readFraction_stop hs, Nat.mod_eq_of_lt hn] at this
  rw [this]
  simp
  omega

theorem readColon_fixed (n : ℕ) (s : List Char) :
    readColon (fixed 2 n ++ s) = (false, fixed 2 n ++ s) := by
  rw [fixed_two, List.cons_append]
  unfold readColon
  have h : n / 10 % 10 < 10 := Nat.mod_lt _ (by omega)
  unfold digitChar
  generalize n / 10 % 10 = k at h
  interval_cases k <;> rfl

theorem readZoneAbs_text {a : ℕ} (h : a < usPerDay) :
    readZoneAbs (fixed 2 (a / 3600000000) ++ fixed 2 (a / 60000000 % 60)
      ++ (if a % 60000000 = 0 then []
        else fixed 2 (a / 1000000 % 60)
          ++ (if a % 1000000 = 0 then [] else '.' :: fixed 6 (a % 1000000)))) = some (a, []) := by
  unfold usPerDay at h
  unfold readZoneAbs
  rw [List.append_assoc, readPair_fixed]
  simp only [Option.bind_eq_bind, Option.bind_some, readColon_fixed, readSixty_fixed (show
    a / 60000000 % 60 < 60 by omega)]
  by_cases h1 : a % 60000000 = 0
  · rw [if_pos h1]
    have : readZoneSeconds false [] = some (0, []) := rfl
    rw [this]
    show some _ = some _
    congr 2
    omega
  · rw [if_neg h1]
    by_cases h2 : a % 1000000 = 0
    · rw [if_pos h2]
      unfold readZoneSeconds
      rw [readColon_fixed]
      simp only [readSixty_fixed (show a / 1000000 % 60 < 60 by omega), if_true]
      show some _ = some _
      congr 2
      omega
    · rw [if_neg h2]
      unfold readZoneSeconds
      rw [readColon_fixed]
      simp only [readSixty_fixed (show a / 1000000 % 60 < 60 by omega), if_true]
      have := readMicro_fixed (n := a % 1000000) (by omega) []
      rw [List.append_nil] at this
      rw [this]
      show some _ = some _
      congr 2
      omega

theorem readZone_text {o : ℤ} (h : o.natAbs < usPerDay) : readZone (zoneText o) = some (o, []) := by
  unfold zoneText
  by_cases hn : o < 0
  · simp only [hn, if_true, List.cons_append, readZone]
    rw [readZoneAbs_text h]
    simp only [Option.map_some]
    congr 2
    omega
  · simp only [hn, if_false, List.cons_append, readZone]
    rw [readZoneAbs_text h]
    simp only [Option.map_some]
    congr 2
    omega

theorem zoneText_head (o : ℤ) : ∃ s, zoneText o = '+' :: s ∨ zoneText o = '-' :: s := by
  unfold zoneText
  by_cases hn : o < 0
  · exact ⟨_, Or.inr (by simp only [hn, if_true]; rfl)⟩
  · exact ⟨_, Or.inl (by simp only [hn, if_false]; rfl)⟩

/-! ## Padding -/

theorem dropWhile_zeros : ∀ l : List Char,
    l = List.replicate (l.length - (l.dropWhile (· == '0')).length) '0' ++ l.dropWhile (· == '0')
  | [] => rfl
  | c :: cs => by
    by_cases h : c = '0'
    · subst h
      have ih := dropWhile_zeros cs
      have hl : (cs.dropWhile (· == '0')).length ≤ cs.length := (List.dropWhile_sublist _).length_le
      simp only [List.dropWhile_cons, beq_self_eq_true, if_true, List.length_cons]
      rw [show cs.length + 1 - (cs.dropWhile (· == '0')).length
        = cs.length - (cs.dropWhile (· == '0')).length + 1 by omega, List.replicate_succ,
        List.cons_append, ← ih]
    · simp [h]

theorem padLeft_year {w : ℕ} {y : ℕ} {rest : List Char} (padded : Bool)
    (h : rest.length + 4 = w) : padLeft w (yearText padded y ++ rest) = fixed 4 y ++ rest := by
  unfold padLeft yearText
  cases padded with
  | true => simp [fixed_length, ← h, Nat.add_comm]
  | false =>
    have h1 := dropWhile_zeros (fixed 4 y)
    have h2 : ((fixed 4 y).dropWhile (· == '0')).length ≤ 4 := by
      have := (List.dropWhile_sublist (· == '0') (l := fixed 4 y)).length_le
      rwa [fixed_length] at this
    simp only [Bool.false_eq_true, if_false, List.length_append]
    rw [fixed_length] at h1
    conv_rhs => rw [h1]
    rw [List.append_assoc]
    congr 2
    omega

/-- No padding is needed with four digits. -/
theorem padLeft_long {w : ℕ} {y : ℕ} {rest : List Char} {padded : Bool}
    (hw : w ≤ rest.length + 4) (h : padded = true ∨ (1000 ≤ y ∧ y ≤ 9999)) :
    padLeft w (yearText padded y ++ rest) = fixed 4 y ++ rest := by
  have hy : yearText padded y = fixed 4 y := by
    unfold yearText
    rcases h with rfl | h
    · rfl
    · cases padded with
      | true => rfl
      | false =>
        have hd : (digitChar (y / 1000) == '0') = false := by
          have : digit? (digitChar (y / 1000)) = some (y / 1000 % 10) := digit_digitChar _
          by_contra hc
          rw [Bool.not_eq_false, beq_iff_eq] at hc
          rw [hc] at this
          have h0 : digit? '0' = some 0 := rfl
          rw [h0] at this
          have := Option.some.inj this
          omega
        have hf : fixed 4 y = digitChar (y / 1000) :: (digitChar (y / 100) :: fixed 2 y) := by
          rw [fixed_four, fixed_two]
          simp only [List.cons_append, List.nil_append]
          rw [Nat.div_div_eq_div_mul]
        simp only [Bool.false_eq_true, if_false]
        rw [hf, List.dropWhile_cons, hd]
        rfl
  rw [hy]
  unfold padLeft
  rw [List.length_append, fixed_length, show w - (4 + rest.length) = 0 by omega]
  rfl

/-! ## Reading what was written -/

theorem readAll_append : ∀ (a b : List Dir) (f : Found) (s : List Char),
    readAll (a ++ b) f s = (readAll a f s).bind (fun q => readAll b q.1 q.2)
  | [], b, f, s => rfl
  | d :: a, b, f, s => by
    simp only [List.cons_append, readAll]
    cases readDir f s d with
    | none => rfl
    | some q => exact readAll_append a b q.1 q.2

/-- The text of the day. -/
def dayText (t : DT) : List Char :=
  fixed 4 t.year ++ '-' :: fixed 2 t.month ++ '-' :: fixed 2 t.day

/-- The text of the time of day in seconds. -/
def clockText (t : DT) : List Char :=
  'T' :: fixed 2 t.hour ++ ':' :: fixed 2 t.minute ++ ':' :: fixed 2 t.second

/-- A moment in the years 1 to 9999. -/
structure InRange (t : DT) : Prop where
  days : t.us < dayCount * usPerDay
  zone : ∀ o ∈ t.off, o.natAbs < usPerDay

theorem InRange.day {t : DT} (h : InRange t) : t.us / usPerDay < dayCount :=
  Nat.div_lt_of_lt_mul (by rw [mul_comm]; exact h.days)

theorem InRange.valid {t : DT} (h : InRange t) : Valid t.year t.month t.day := valid_of h.day

theorem read_day {t : DT} (h : InRange t) (s : List Char) :
    readAll fmtDate {} (dayText t ++ s)
      = some ({ year := t.year, month := t.month, day := t.day }, s) := by
  obtain ⟨h1, h2, h3, h4, h5, h6⟩ := h.valid
  have h7 := daysInMonth_le t.year t.month
  simp only [fmtDate, dayText, List.append_assoc, List.cons_append, readAll, readDir,
    readYear_fixed, Option.map_some, sameLetter, beq_self_eq_true, Bool.true_or, if_true,
    readUpTo_fixed h3 h4 (by omega), readDay_fixed h5 (by omega)]
  rw [Nat.mod_eq_of_lt (by omega)]

theorem hour_lt (t : DT) : t.hour ≤ 23 := by unfold DT.hour usPerDay; omega
theorem minute_lt (t : DT) : t.minute ≤ 59 := by unfold DT.minute; omega
theorem second_lt (t : DT) : t.second ≤ 59 := by unfold DT.second; omega
theorem micro_lt (t : DT) : t.micro < 1000000 := by unfold DT.micro; omega

theorem read_clock (t : DT) (f : Found) (s : List Char) :
    readAll [.lit 'T', .hour, .lit ':', .minute, .lit ':', .second] f (clockText t ++ s)
      = some ({ f with hour := t.hour, minute := t.minute, second := t.second }, s) := by
  have h3 := second_lt t
  simp only [clockText, List.append_assoc, List.cons_append, readAll, readDir,
    Option.map_some, sameLetter, beq_self_eq_true, Bool.true_or, if_true,
    readUpTo_fixed (Nat.zero_le _) (hour_lt t) (by omega),
    readUpTo_fixed (Nat.zero_le _) (minute_lt t) (by omega),
    readUpTo_fixed (Nat.zero_le _) (show t.second ≤ 61 by omega) (by omega)]

/-- The decimals of the second, without the last `6 - k` zeros. -/
structure Decimals (t : DT) (k : ℕ) : Prop where
  one : 1 ≤ k
  six : k ≤ 6
  zeros : t.micro / 10 ^ (6 - k) * 10 ^ (6 - k) = t.micro

theorem decimals_six (t : DT) : Decimals t 6 := ⟨by omega, by omega, by simp⟩

theorem Decimals.lt {t : DT} {k : ℕ} (h : Decimals t k) : t.micro / 10 ^ (6 - k) < 10 ^ k := by
  rw [Nat.div_lt_iff_lt_mul (by positivity), ← pow_add, show k + (6 - k) = 6 by have := h.six; omega]
  exact micro_lt t

theorem read_micro {t : DT} {k : ℕ} (h : Decimals t k) (f : Found) {s : List Char}
    (hs : readDigit s = none) :
    readAll [.lit '.', .micro] f ('.' :: fixed k (t.micro / 10 ^ (6 - k)) ++ s)
      = some ({ f with micro := t.micro }, s) := by
  simp only [List.cons_append, readAll, readDir,
    Option.map_some, sameLetter, beq_self_eq_true, Bool.true_or, if_true,
    readMicro_some h.one h.six h.lt hs, h.zeros]

theorem us_eq {t : DT} (h : InRange t) :
    dayNumber t.year t.month t.day * usPerDay + t.hour * 3600000000 + t.minute * 60000000
      + t.second * 1000000 + t.micro = t.us := by
  have := dayNumber_of h.day
  unfold DT.year DT.month DT.day
  rw [this]
  unfold DT.hour DT.minute DT.second DT.micro usPerDay
  omega

theorem make_eq {t : DT} (h : InRange t) {f : Found} (h1 : f.year = t.year)
    (h2 : f.month = t.month) (h3 : f.day = t.day) (h4 : f.hour = t.hour) (h5 : f.minute = t.minute)
    (h6 : f.second = t.second) (h7 : f.micro = t.micro) (h8 : f.off = t.off) :
    f.ok = true ∧ f.make = t := by
  have hv := h.valid
  constructor
  · unfold Found.ok
    rw [h1, h2, h3, h6, h8, decide_eq_true_eq]
    exact ⟨hv.year, hv.fits, by have := second_lt t; omega, h.zone⟩
  · unfold Found.make
    rw [h1, h2, h3, h4, h5, h6, h7, h8, us_eq h]

/-- The text of the zone. -/
def offText (t : DT) : List Char :=
  match t.off with | some o => zoneText o | none => []

theorem midnight {t : DT} (h : t.hour = 0 ∧ t.minute = 0 ∧ t.second = 0 ∧ t.micro = 0) :
    t.us % usPerDay = 0 := by
  unfold DT.hour DT.minute DT.second DT.micro usPerDay at h
  unfold usPerDay
  omega

/-- When the padding gives the year its four digits. -/
def FourDigits (padded : Bool) (t : DT) : Prop :=
  padded = true ∨ 1000 ≤ t.year ∨ ∀ o ∈ t.off, (60000000 : ℤ) ∣ o

/-- The date, the time and `k` decimals of the second if wanted, and the zone. -/
def shown (t : DT) (clock frac : Bool) (k : ℕ) : List Char :=
  dayText t
    ++ (if clock = false then [] else clockText t
      ++ (if frac = false then [] else '.' :: fixed k (t.micro / 10 ^ (6 - k))))
    ++ offText t

/-- The date, the time unless it is midnight, the microseconds unless they are zero, and the
zone. -/
def fullText (t : DT) : List Char :=
  shown t (decide (t.us % usPerDay ≠ 0)) (decide (t.micro ≠ 0)) 6

theorem zoneText_length (o : ℤ) : 5 ≤ (zoneText o).length ∧
    ((60000000 : ℤ) ∣ o → (zoneText o).length = 5) := by
  unfold zoneText
  simp only [List.length_append, List.length_cons, fixed_length]
  constructor
  · omega
  · intro h
    have : o.natAbs % 60000000 = 0 := by omega
    simp [this]

theorem toText_eq {t : DT} (h : InRange t) {padded : Bool} (hf : FourDigits padded t) :
    toText padded t = fullText t := by
  have hv := h.valid
  have hm : (t.hour = 0 ∧ t.minute = 0 ∧ t.second = 0 ∧ t.micro = 0) ↔ t.us % usPerDay = 0 := by
    refine ⟨midnight, ?_⟩
    unfold DT.hour DT.minute DT.second DT.micro usPerDay
    omega
  unfold toText formatFor fullText shown offText
  have key : ∀ w rest, (t.off = none → rest.length + 4 = w) →
      (∀ o, t.off = some o → rest.length + 4 + 5 = w + (zoneText o).length) →
      padLeft w (yearText padded t.year ++ rest) = fixed 4 t.year ++ rest := by
    intro w rest h1 h2
    cases ho : t.off with
    | none => exact padLeft_year padded (h1 ho)
    | some o =>
      have hl := zoneText_length o
      rcases hf with hf | hf | hf
      · exact padLeft_long (by have := h2 o ho; omega) (Or.inl hf)
      · exact padLeft_long (by have := h2 o ho; omega) (Or.inr ⟨hf, hv.last⟩)
      · exact padLeft_year padded (by have := h2 o ho; have := hl.2 (hf o (by rw [ho]; rfl)); omega)
  cases ho : t.off with
  | none =>
    by_cases h0 : t.us % usPerDay = 0
    · simp only [hm.mpr h0, h0, and_self, if_true, ne_eq, not_true_eq_false, decide_false]
      rw [show strftime padded fmtDate t
        = yearText padded t.year ++ ('-' :: fixed 2 t.month ++ '-' :: fixed 2 t.day) by
          simp [strftime, fmtDate, dirText]]
      rw [key _ _ (by intro; simp [fixed_length]) (by intro o h'; rw [ho] at h'; cases h')]
      simp [dayText]
    · have h0' : ¬ (t.hour = 0 ∧ t.minute = 0 ∧ t.second = 0 ∧ t.micro = 0) := fun x => h0 (hm.mp x)
      simp only [h0, h0', if_false, ne_eq, not_false_eq_true, decide_true, Bool.true_eq_false]
      by_cases h1 : t.micro = 0
      · simp only [h1, if_true, not_true_eq_false, decide_false]
        rw [show strftime padded fmtTime t
          = yearText padded t.year ++ ('-' :: fixed 2 t.month ++ '-' :: fixed 2 t.day ++ clockText t) by
            simp [strftime, fmtTime, fmtDate, dirText, clockText]]
        rw [key _ _ (by intro; simp [fixed_length, clockText])
          (by intro o h'; rw [ho] at h'; cases h')]
        simp [dayText]
      · simp only [h1, if_false, not_false_eq_true, decide_true, Bool.true_eq_false]
        rw [show strftime padded fmtHires t
          = yearText padded t.year ++ ('-' :: fixed 2 t.month ++ '-' :: fixed 2 t.day ++ clockText t
            ++ '.' :: fixed 6 t.micro) by
            simp [strftime, fmtHires, fmtTime, fmtDate, dirText, clockText]]
        rw [key _ _ (by intro; simp [fixed_length, clockText])
          (by intro o h'; rw [ho] at h'; cases h')]
        simp [dayText]
  | some z =>
    by_cases h0 : t.us % usPerDay = 0
    · simp only [hm.mpr h0, h0, and_self, if_true, ne_eq, not_true_eq_false, decide_false]
      rw [show strftime padded fmtDateTz t
        = yearText padded t.year ++ ('-' :: fixed 2 t.month ++ '-' :: fixed 2 t.day ++ zoneText z) by
          simp [strftime, fmtDateTz, fmtDate, dirText, ho]]
      rw [key _ _ (by intro h'; rw [ho] at h'; cases h')
        (by intro o h'; rw [ho] at h'; cases h'; simp [fixed_length]; omega)]
      simp [dayText]
    · have h0' : ¬ (t.hour = 0 ∧ t.minute = 0 ∧ t.second = 0 ∧ t.micro = 0) := fun x => h0 (hm.mp x)
      simp only [h0, h0', if_false, ne_eq, not_false_eq_true, decide_true, Bool.true_eq_false]
      by_cases h1 : t.micro = 0
      · simp only [h1, if_true, not_true_eq_false, decide_false]
        rw [show strftime padded fmtTimeTz t
          = yearText padded t.year ++ ('-' :: fixed 2 t.month ++ '-' :: fixed 2 t.day ++ clockText t
            ++ zoneText z) by
            simp [strftime, fmtTimeTz, fmtTime, fmtDate, dirText, clockText, ho]]
        rw [key _ _ (by intro h'; rw [ho] at h'; cases h')
          (by intro o h'; rw [ho] at h'; cases h'; simp [fixed_length, clockText]; omega)]
        simp [dayText]
      · simp only [h1, if_false, not_false_eq_true, decide_true, Bool.true_eq_false]
        rw [show strftime padded fmtHiresTz t
          = yearText padded t.year ++ ('-' :: fixed 2 t.month ++ '-' :: fixed 2 t.day ++ clockText t
            ++ '.' :: fixed 6 t.micro ++ zoneText z) by
            simp [strftime, fmtHiresTz, fmtHires, fmtTime, fmtDate, dirText, clockText, ho]]
        rw [key _ _ (by intro h'; rw [ho] at h'; cases h')
          (by intro o h'; rw [ho] at h'; cases h'; simp [fixed_length, clockText]; omega)]
        simp [dayText]

/-- The last step of `strptime`. -/
def ended : Option (Found × List Char) → Option DT
  | some (f, []) => if f.ok then some f.make else none
  | _ => none

theorem strptime_day {t : DT} (h : InRange t) (more : List Dir) (s : List Char) :
    strptime (fmtDate ++ more) (dayText t ++ s)
      = ended (readAll more { year := t.year, month := t.month, day := t.day } s) := by
  unfold strptime
  rw [readAll_append, read_day h]
  rfl

/-- The directives after the day and the time. -/
theorem read_clock_more (t : DT) (f : Found) (more : List Dir) (s : List Char) :
    readAll ([.lit 'T', .hour, .lit ':', .minute, .lit ':', .second] ++ more) f (clockText t ++ s)
      = readAll more { f with hour := t.hour, minute := t.minute, second := t.second } s := by
  rw [readAll_append, read_clock]
  rfl

theorem read_micro_more {t : DT} {k : ℕ} (h : Decimals t k) (f : Found) (more : List Dir)
    {s : List Char} (hs : readDigit s = none) :
    readAll ([.lit '.', .micro] ++ more) f ('.' :: fixed k (t.micro / 10 ^ (6 - k)) ++ s)
      = readAll more { f with micro := t.micro } s := by
  rw [readAll_append, read_micro h f hs]
  rfl

/-- A text that does not begin with the letter a format wants. -/
theorem read_other {c : Char} {more : List Dir} {f : Found} {s : List Char}
    (h : ∀ d r, s = d :: r → sameLetter c d = false) : readAll ([.lit c] ++ more) f s = none := by
  cases s with
  | nil => rfl
  | cons d r => simp [readAll, readDir, h d r rfl]

theorem read_zone_none {f : Found} {s : List Char} (h : readZone s = none) :
    readAll [.zone] f s = none := by
  simp [readAll, readDir, h]

theorem read_zone {f : Found} {s r : List Char} {o : ℤ} (h : readZone s = some (o, r)) :
    readAll [.zone] f s = some ({ f with off := some o }, r) := by
  simp [readAll, readDir, h]

theorem offText_head (t : DT) : ∀ d r, offText t = d :: r → d = '+' ∨ d = '-' := by
  intro d r h
  unfold offText at h
  cases ho : t.off with
  | none => rw [ho] at h; cases h
  | some o =>
    rw [ho] at h
    dsimp only at h
    obtain ⟨s, hs | hs⟩ := zoneText_head o <;> rw [hs] at h <;> cases h <;> simp

theorem read_zone_off {t : DT} (h : InRange t) (f : Found) :
    readAll [.zone] f (offText t)
      = if t.off = none then none else some ({ f with off := t.off }, []) := by
  unfold offText
  cases ho : t.off with
  | none => rfl
  | some o =>
    simp only [reduceCtorEq, if_false]
    exact read_zone (readZone_text (h.zone o (by rw [ho]; rfl)))

theorem toDate_shown {t : DT} (h : InRange t) {clock frac : Bool} {k : ℕ} (hk : Decimals t k)
    (hclock : clock = false → t.us % usPerDay = 0) (hfrac : frac = false → t.micro = 0) :
    toDate (shown t clock frac k) = .ok t := by
  have e1 : fmtHiresTz = fmtDate ++ ([.lit 'T', .hour, .lit ':', .minute, .lit ':', .second]
      ++ ([.lit '.', .micro] ++ [.zone])) := rfl
  have e2 : fmtTimeTz = fmtDate ++ ([.lit 'T', .hour, .lit ':', .minute, .lit ':', .second]
      ++ [.zone]) := rfl
  have e3 : fmtDateTz = fmtDate ++ [.zone] := rfl
  have e4 : fmtHires = fmtDate ++ ([.lit 'T', .hour, .lit ':', .minute, .lit ':', .second]
      ++ ([.lit '.', .micro] ++ [])) := rfl
  have e5 : fmtTime = fmtDate ++ ([.lit 'T', .hour, .lit ':', .minute, .lit ':', .second]
      ++ []) := rfl
  have e6 : fmtDate = fmtDate ++ [] := rfl
  have hnT : ∀ more f, readAll ([.lit 'T', .hour, .lit ':', .minute, .lit ':', .second]
      ++ more) f (offText t) = none := by
    intro more f
    refine read_other (c := 'T') (more := [.hour, .lit ':', .minute, .lit ':', .second] ++ more) ?_
    intro d r hd
    rcases offText_head t d r hd with rfl | rfl <;> rfl
  have hnD : ∀ more f, readAll ([.lit '.', .micro] ++ more) f (offText t) = none := by
    intro more f
    refine read_other (c := '.') (more := [.micro] ++ more) ?_
    intro d r hd
    rcases offText_head t d r hd with rfl | rfl <;> rfl
  have hzT : ∀ f s, readAll [.zone] f (clockText t ++ s) = none := fun f s => read_zone_none rfl
  have hzD : ∀ f s, readAll [.zone] f ('.' :: s) = none := fun f s => read_zone_none rfl
  have hnd : readDigit (offText t) = none := by
    cases hd : offText t with
    | nil => rfl
    | cons d r => rcases offText_head t d r hd with rfl | rfl <;> rfl
  have hend : ∀ f : Found, f.ok = true ∧ f.make = t → ended (some (f, [])) = some t := by
    intro f hf
    simp [ended, hf.1, hf.2]
  unfold toDate attempts
  simp only [List.findSome?_cons, List.findSome?_nil]
  have e7 : strptime fmtDate (shown t clock frac k)
      = strptime (fmtDate ++ []) (shown t clock frac k) := by
    rw [List.append_nil]
  rw [e7, e1, e2, e3, e4, e5]
  unfold shown
  simp only [List.append_assoc, strptime_day h]
  by_cases hc : clock = false
  · have h0 := hclock hc
    have hh : t.hour = 0 ∧ t.minute = 0 ∧ t.second = 0 ∧ t.micro = 0 := by
      unfold DT.hour DT.minute DT.second DT.micro
      unfold usPerDay at *
      omega
    simp only [hc, if_true, List.nil_append, hnT, read_zone_off h]
    by_cases ho : t.off = none
    · have : offText t = [] := by unfold offText; rw [ho]
      simp only [ho, if_true, this, readAll]
      rw [hend _ (make_eq h rfl rfl rfl hh.1.symm hh.2.1.symm hh.2.2.1.symm hh.2.2.2.symm ho.symm)]
      rfl
    · simp only [ho, if_false]
      rw [hend _ (make_eq h rfl rfl rfl hh.1.symm hh.2.1.symm hh.2.2.1.symm hh.2.2.2.symm rfl)]
      rfl
  · simp only [hc, Bool.true_eq_false, if_false, List.append_assoc, read_clock_more, hzT]
    by_cases hf : frac = false
    · have h1 := hfrac hf
      simp only [hf, if_true, List.nil_append, hnD, read_zone_off h]
      by_cases ho : t.off = none
      · have : offText t = [] := by unfold offText; rw [ho]
        simp only [ho, if_true, this, readAll]
        rw [hend _ (make_eq h rfl rfl rfl rfl rfl rfl h1.symm ho.symm)]
        rfl
      · simp only [ho, if_false]
        rw [hend _ (make_eq h rfl rfl rfl rfl rfl rfl h1.symm rfl)]
        rfl
    · simp only [hf, Bool.true_eq_false, if_false, read_micro_more hk _ _ hnd, read_zone_off h]
      by_cases ho : t.off = none
      · have : offText t = [] := by unfold offText; rw [ho]
        simp only [ho, if_true, this, List.cons_append, hzD, readAll]
        rw [hend _ (make_eq h rfl rfl rfl rfl rfl rfl rfl ho.symm)]
        rfl
      · simp only [ho, if_false]
        rw [hend _ (make_eq h rfl rfl rfl rfl rfl rfl rfl rfl)]

theorem toDate_fullText {t : DT} (h : InRange t) : toDate (fullText t) = .ok t :=
  toDate_shown h (decimals_six t) (by simp) (by simp)

theorem toDate_toText {t : DT} (h : InRange t) {padded : Bool} (hf : FourDigits padded t) :
    toDate (toText padded t) = .ok t := by
  rw [toText_eq h hf, toDate_fullText h]

end MC.Dates
