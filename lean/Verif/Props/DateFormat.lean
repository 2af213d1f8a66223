import Verif.Model.DateFormat
import Verif.Spec.DateFormat
import Verif.Props.Dates

/-! # C89: dates for people to read -/

namespace MC.Props
open MC.Dates MC.Strings MC.Arrays MC.Boolean MC.Numeric MC.Number MC.Spec

theorem monday2000 : calendar 730121 = ⟨2000, 1, 3⟩ :=
  (calendar_eq (by decide)).trans (by decide +kernel)

theorem weekday_written {n : ℕ} : Weekday n (dayNames.getD ((n + 1 + 6) % 7) "") := by
  refine ⟨730121, (n + 1 + 6) % 7, ((n : ℤ) - 730121) / 7, monday2000, ?_, by omega⟩
  have h : (n + 1 + 6) % 7 < 7 := Nat.mod_lt _ (by omega)
  generalize (n + 1 + 6) % 7 = i at h
  interval_cases i <;> rfl

theorem month_written {m : ℕ} (h1 : 1 ≤ m) (h2 : m ≤ 12) : MonthName m (monthNames.getD (m - 1) "") := by
  refine ⟨h1, ?_⟩
  interval_cases m <;> rfl

theorem year_written (padded : Bool) {y : ℕ} (h1 : 1 ≤ y) (h2 : y ≤ 9999) :
    ∃ k, 1 ≤ k ∧ k ≤ 4 ∧ Digits k y (yearText padded y) := by
  cases padded with
  | true => exact ⟨4, by omega, by omega, fixed_digits 4 y (by omega)⟩
  | false =>
    have hf := fixed_digits 4 y (by omega)
    have hd := dropWhile_zeros (fixed 4 y)
    have hy : yearText false y = (fixed 4 y).dropWhile (· == '0') := rfl
    rw [hy]
    rw [hd] at hf
    obtain ⟨l1, l2, l3⟩ := hf
    have hz : ∀ (j : ℕ) (l : List Char),
        (List.replicate j '0' ++ l).foldl (fun a c => 10 * a + (c.toNat - '0'.toNat)) 0
          = l.foldl (fun a c => 10 * a + (c.toNat - '0'.toNat)) 0 := by
      intro j l
      induction j with
      | zero => rfl
      | succ j ih => simpa [List.replicate_succ] using ih
    rw [hz] at l3
    refine ⟨((fixed 4 y).dropWhile (· == '0')).length, ?_, ?_, rfl, ?_, l3⟩
    · rw [Nat.one_le_iff_ne_zero]
      intro h0
      rw [List.length_eq_zero_iff] at h0
      rw [h0] at l3
      simp at l3
      omega
    · rw [List.length_append] at l1
      omega
    · intro c hc
      exact l2 c (by simp [hc])

/-- What `dateformat` writes for a moment. -/
theorem human_text {padded : Bool} {m : Moment} (hm : m.Exists) : HumanText m (human padded (ofMoment m)) := by
  have hr := inRange_ofMoment hm
  have hv := hr.valid
  obtain ⟨hd, e1, e2, e3, e4⟩ := day_facts hm
  obtain ⟨k, k1, k2, hk⟩ := year_written padded hv.year hv.last
  have hw : (ofMoment m).weekday = (m.days + 1 + 6) % 7 := by unfold DT.weekday; rw [← hd]; rfl
  have hz : (ofMoment m).off = m.zone := rfl
  have hdate : ∀ rest, (humanDate ++ rest).flatMap (humanDir padded (ofMoment m))
      = (dayNames.getD ((m.days + 1 + 6) % 7) "").toList ++ ", ".toList ++ fixed 2 (ofMoment m).day ++ "-".toList
        ++ (monthNames.getD ((ofMoment m).month - 1) "").toList ++ "-".toList ++ yearText padded (ofMoment m).year
        ++ rest.flatMap (humanDir padded (ofMoment m)) := by
    intro rest
    simp only [humanDate, lits, List.flatMap_append, List.flatMap_cons, List.flatMap_nil, humanDir, hw, dirText,
      List.flatMap_map, List.append_nil, List.append_assoc]
    simp
  have key : ∀ clock zone, human padded (ofMoment m)
        = (humanDate ++ (clock ++ zone)).flatMap (humanDir padded (ofMoment m)) →
      ((clock.flatMap (humanDir padded (ofMoment m)) = [] ∧ m.hour = 0 ∧ m.minute = 0 ∧ m.second = 0 ∧ m.micro = 0) ∨
        ∃ hs mis ss frac, clock.flatMap (humanDir padded (ofMoment m))
            = " at ".toList ++ hs ++ ":".toList ++ mis ++ ":".toList ++ ss ++ frac ∧
        ¬ (m.hour = 0 ∧ m.minute = 0 ∧ m.second = 0 ∧ m.micro = 0) ∧
        Digits 2 m.hour hs ∧ Digits 2 m.minute mis ∧ Digits 2 m.second ss ∧
        ((frac = [] ∧ m.micro = 0) ∨ ∃ fs, frac = ".".toList ++ fs ∧ m.micro ≠ 0 ∧ Digits 6 m.micro fs)) →
      ((m.zone = none ∧ zone.flatMap (humanDir padded (ofMoment m)) = []) ∨
        ∃ o zs, m.zone = some o ∧ zone.flatMap (humanDir padded (ofMoment m)) = " (".toList ++ zs ++ ")".toList ∧
      ZoneText o zs) → HumanText m (human padded (ofMoment m)) := by
    intro clock zone h hc hzo
    refine ⟨_, monthNames.getD ((ofMoment m).month - 1) "", fixed 2 (ofMoment m).day, yearText padded (ofMoment m).year,
      k, _, _, ?_, weekday_written, ?_, ?_, k1, k2, ?_, hc, hzo⟩
    · rw [h, hdate, List.flatMap_append]
      simp only [List.append_assoc]
    · rw [calendar_ofMoment hm]; exact month_written hv.month hv.most
    · rw [calendar_ofMoment hm]
      exact fixed_digits 2 _ (by
        have := hv.fits; have := daysInMonth_le (ofMoment m).year (ofMoment m).month; dsimp only; omega)
    · rw [calendar_ofMoment hm]; exact hk
  have hclock : ∀ rest, (humanTime ++ rest) = humanDate ++ ((lits " at " ++ [HumanDir.plain .hour] ++ lits ":" ++
      [HumanDir.plain .minute] ++ lits ":" ++ [HumanDir.plain .second]) ++ rest) := by
    intro rest
    simp only [humanTime, List.append_assoc]
  have hct : ∀ rest, ((lits " at " ++ [HumanDir.plain .hour] ++ lits ":" ++ [HumanDir.plain .minute] ++ lits ":" ++
      [HumanDir.plain .second]) ++ rest).flatMap (humanDir padded (ofMoment m))
      = " at ".toList ++ fixed 2 m.hour ++ ":".toList ++ fixed 2 m.minute ++ ":".toList ++ fixed 2 m.second
        ++ rest.flatMap (humanDir padded (ofMoment m)) := by
    intro rest
    simp only [lits, List.flatMap_append, List.flatMap_cons, List.flatMap_nil, humanDir, dirText,
      List.flatMap_map, List.append_nil, List.append_assoc, e1, e2, e3]
    simp
  have hzt : ∀ o, m.zone = some o → ∃ zs, humanZone.flatMap (humanDir padded (ofMoment m))
      = " (".toList ++ zs ++ ")".toList ∧ ZoneText o zs := by
    intro o ho
    refine ⟨zoneText o, ?_, zoneText_spec (hr.zone o (by rw [hz, ho]; rfl))⟩
    simp only [humanZone, lits, List.flatMap_append, List.flatMap_cons, List.flatMap_nil, humanDir, dirText,
      List.flatMap_map, List.append_nil, List.append_assoc, hz, ho]
    simp
  have hH : Digits 2 m.hour (fixed 2 m.hour) := fixed_digits 2 _ (by have := hm.hour; omega)
  have hM : Digits 2 m.minute (fixed 2 m.minute) := fixed_digits 2 _ (by have := hm.minute; omega)
  have hS : Digits 2 m.second (fixed 2 m.second) := fixed_digits 2 _ (by have := hm.second; omega)
  have hU : Digits 6 m.micro (fixed 6 m.micro) := fixed_digits 6 _ (by have := hm.micro; omega)
  have hfrac : ∀ rest, (lits "." ++ [HumanDir.plain .micro] ++ rest).flatMap (humanDir padded (ofMoment m))
      = ".".toList ++ fixed 6 m.micro ++ rest.flatMap (humanDir padded (ofMoment m)) := by
    intro rest
    simp only [lits, List.flatMap_append, List.flatMap_cons, List.flatMap_nil, humanDir, dirText,
      List.flatMap_map, List.append_nil, e4]
    simp
  have hfmt : ∃ zone, ((m.zone = none ∧ zone = []) ∨ ∃ o, m.zone = some o ∧ zone = humanZone) ∧
      humanFormat (ofMoment m) =
        if m.hour = 0 ∧ m.minute = 0 ∧ m.second = 0 ∧ m.micro = 0 then humanDate ++ zone
        else if m.micro = 0 then humanTime ++ zone else humanHires ++ zone := by
    unfold humanFormat
    rw [hz, e1, e2, e3, e4]
    cases ho : m.zone with
    | none => exact ⟨[], .inl ⟨rfl, rfl⟩, by simp only [List.append_nil]⟩
    | some o => exact ⟨humanZone, .inr ⟨o, rfl, rfl⟩, rfl⟩
  obtain ⟨zone, hzone, hf⟩ := hfmt
  have hzone' : (m.zone = none ∧ zone.flatMap (humanDir padded (ofMoment m)) = []) ∨
      ∃ o zs, m.zone = some o ∧ zone.flatMap (humanDir padded (ofMoment m)) = " (".toList ++ zs ++ ")".toList ∧
      ZoneText o zs := by
    rcases hzone with ⟨h, rfl⟩ | ⟨o, h, rfl⟩
    · exact .inl ⟨h, rfl⟩
    · obtain ⟨zs, h1, h2⟩ := hzt o h
      exact .inr ⟨o, zs, h, h1, h2⟩
  by_cases h0 : m.hour = 0 ∧ m.minute = 0 ∧ m.second = 0 ∧ m.micro = 0
  · rw [if_pos h0] at hf
    exact key [] zone (by unfold human; rw [hf, List.nil_append]) (.inl ⟨rfl, h0⟩) hzone'
  · rw [if_neg h0] at hf
    by_cases h1 : m.micro = 0
    · rw [if_pos h1] at hf
      refine key (lits " at " ++ [HumanDir.plain .hour] ++ lits ":" ++ [HumanDir.plain .minute] ++ lits ":" ++
        [HumanDir.plain .second]) zone (by unfold human; rw [hf, hclock]) (.inr ⟨_, _, _, [], ?_, h0, hH, hM, hS, .inl ⟨rfl, h1⟩⟩)
        hzone'
      have := hct []
      rw [List.append_nil] at this
      rw [this, List.flatMap_nil]
    · rw [if_neg h1] at hf
      refine key ((lits " at " ++ [HumanDir.plain .hour] ++ lits ":" ++ [HumanDir.plain .minute] ++ lits ":" ++
        [HumanDir.plain .second]) ++ (lits "." ++ [HumanDir.plain .micro])) zone
        (by unfold human; rw [hf]; unfold humanHires; rw [List.append_assoc, List.append_assoc, hclock]
            simp only [List.append_assoc])
        (.inr ⟨_, _, _, ".".toList ++ fixed 6 m.micro, ?_, h0, hH, hM, hS, .inr ⟨_, rfl, h1, hU⟩⟩) hzone'
      rw [hct]
      have := hfrac []
      rw [List.append_nil, List.flatMap_nil, List.append_nil] at this
      rw [this]

section
variable {S U R K σ : Type} {c : Calc S U R K} {text? : S → Option (List Char)} {ofText : List Char → S} {padded : Bool}

/-- **C89**: `dateformat` answers with the text of the moment for people to read: its weekday, day, month and
year, and its time and offset. -/
theorem C89_dateformat (hd : HasDates c text?) {x : Opd S U R} {m : Moment}
    (hx : ReadsAs text? x m) (hm : m.Exists) (s : σ) :
    ∃ z, call c (opDateFormat (σ := σ) text? ofText padded) [x] s = (.ok (textResult ofText z), s) ∧
      HumanText m z := by
  refine ⟨human padded (ofMoment m), ?_, human_text hm⟩
  have hsc : ∀ z ∈ [x], IsScalar z := by
    intro z hz
    simp only [List.mem_cons, List.not_mem_nil, or_false] at hz
    subst hz
    exact hx.scalar
  rw [call_direct (spreads_scalar hsc 0) (by simp) rfl
    (by intro z hz; obtain ⟨v, hv⟩ := hsc z hz; rw [hv]; rfl)]
  have hval : validate c (opDateFormat (σ := σ) text? ofText padded) [x] = .ok () := by
    simp [validate, opDateFormat, checkValues, checkFrom, Operation.applies, anyType, hx.valid hd, checkUnits]
  have hprep : prepare c (opDateFormat (σ := σ) text? ofText padded) [x] = .ok ([x], none, none) := by
    obtain ⟨v, hv⟩ := hx.scalar
    simp [prepare, opDateFormat, convertFrom, convertible, Operation.applies, numbersFrom,
      Operation.canBe, ObjType.main, hv, normaliseArrays, castOf, castFrom]
  unfold attempt
  rw [hval]
  dsimp only
  rw [hprep]
  dsimp only
  have href : (opDateFormat (σ := σ) text? ofText padded).ref [x] s
      = (.ok { value := .sc (ofText (human padded (ofMoment m))) }, s) := by
    simp [opDateFormat, one, hx.dateOf, bind, Except.bind, pure, Except.pure]
  rw [href]
  rfl
end

/-! ### Nothing is lost -/

theorem digits_value {k k' n n' : ℕ} {s : List Char} (h : Digits k n s) (h' : Digits k' n' s) : n = n' := by
  rw [← h.2.2, ← h'.2.2]

theorem digits_split {a b r r' : List Char} (ha : ∀ c ∈ a, '0' ≤ c ∧ c ≤ '9') (hb : ∀ c ∈ b, '0' ≤ c ∧ c ≤ '9')
    (hr : ∀ c t, r = c :: t → ¬ ('0' ≤ c ∧ c ≤ '9')) (hr' : ∀ c t, r' = c :: t → ¬ ('0' ≤ c ∧ c ≤ '9'))
    (h : a ++ r = b ++ r') : a = b ∧ r = r' := by
  induction a generalizing b with
  | nil =>
    cases b with
    | nil => exact ⟨rfl, h⟩
    | cons c b => exact absurd (hb c (by simp)) (hr c (b ++ r') h)
  | cons d a ih =>
    cases b with
    | nil => exact absurd (ha d (by simp)) (hr' d (a ++ r) h.symm)
    | cons c b =>
      simp only [List.cons_append, List.cons.injEq] at h
      obtain ⟨h1, h2⟩ := ih (b := b) (fun c hc => ha c (by simp [hc])) (fun c hc => hb c (by simp [hc])) h.2
      exact ⟨by rw [h.1, h1], h2⟩

theorem week_split {a b : String} (ha : a ∈ week) (hb : b ∈ week) {r r' : List Char}
    (h : a.toList ++ ", ".toList ++ r = b.toList ++ ", ".toList ++ r') : r = r' := by
  simp only [week, List.mem_cons, List.not_mem_nil, or_false] at ha hb
  rcases ha with rfl | rfl | rfl | rfl | rfl | rfl | rfl <;>
    rcases hb with rfl | rfl | rfl | rfl | rfl | rfl | rfl <;> first | (simp at h; done) | simpa using h

theorem month_length {m : ℕ} {a : String} (h : MonthName m a) : a.toList.length = 3 := by
  have : a ∈ shortMonths := List.mem_of_getElem? h.2
  simp only [shortMonths, List.mem_cons, List.not_mem_nil, or_false] at this
  rcases this with rfl | rfl | rfl | rfl | rfl | rfl | rfl | rfl | rfl | rfl | rfl | rfl <;> rfl

theorem month_unique {m m' : ℕ} {a : String} (h : MonthName m a) (h' : MonthName m' a) : m = m' := by
  have hn : shortMonths.Nodup := by decide
  obtain ⟨h1, h2⟩ := h
  obtain ⟨h3, h4⟩ := h'
  obtain ⟨l1, g1⟩ := List.getElem?_eq_some_iff.1 h2
  obtain ⟨l2, g2⟩ := List.getElem?_eq_some_iff.1 h4
  have := (hn.getElem_inj_iff (hi := l1) (hj := l2)).1 (g1.trans g2.symm)
  omega

theorem calendar_unique {a b : ℕ} (ha : (calendar a).year ≤ 9999) (hb : (calendar b).year ≤ 9999)
    (h : calendar a = calendar b) : a = b := by
  have la := days_lt ha
  have lb := days_lt hb
  rw [calendar_eq la, calendar_eq lb] at h
  injection h with h1 h2 h3
  rw [← dayNumber_of la, ← dayNumber_of lb, h1, h2, h3]

theorem zone_unique {o o' : ℤ} {s : List Char} (h : ZoneText o s) (h' : ZoneText o' s) (l : o.natAbs < usPerDay)
    (l' : o'.natAbs < usPerDay) : o = o' := by
  have := zoneText_eq h
  have e := zoneText_eq h'
  have r := readZone_text l
  rw [← this, e, readZone_text l'] at r
  simpa using (Option.some.inj r).symm

/-- **C89**: two moments shown alike are the same moment. -/
theorem C89_distinct {m m' : Moment} (hm : m.Exists) (hm' : m'.Exists) {s : List Char} (h : HumanText m s)
    (h' : HumanText m' s) : m = m' := by
  obtain ⟨name, month, ds, ys, k, clock, zone, rfl, hw, hmo, hd, -, -, hy, hc, hz⟩ := h
  obtain ⟨name', month', ds', ys', k', clock', zone', he, hw', hmo', hd', -, -, hy', hc', hz'⟩ := h'
  have hzl : ∀ o ∈ m.zone, o.natAbs < usPerDay := hm.zone
  have hzl' : ∀ o ∈ m'.zone, o.natAbs < usPerDay := hm'.zone
  simp only [List.append_assoc] at he
  have hn : name ∈ week := by obtain ⟨_, _, _, _, h, _⟩ := hw; exact List.mem_of_getElem? h
  have hn' : name' ∈ week := by obtain ⟨_, _, _, _, h, _⟩ := hw'; exact List.mem_of_getElem? h
  replace he := week_split hn hn' (by simpa only [List.append_assoc] using he)
  obtain ⟨hds, he'⟩ := List.append_inj he (by rw [hd.1, hd'.1])
  clear he
  rename' he' => he
  obtain ⟨-, he'⟩ := List.append_inj he rfl
  clear he
  rename' he' => he
  obtain ⟨hmon, he'⟩ := List.append_inj he (by rw [month_length hmo, month_length hmo'])
  clear he
  rename' he' => he
  obtain ⟨-, he'⟩ := List.append_inj he rfl
  clear he
  rename' he' => he
  have hmon : month = month' := String.toList_inj.1 hmon
  subst hmon hds
  have hstart : ∀ {m : Moment} {clock zone : List Char},
      ((clock = [] ∧ m.hour = 0 ∧ m.minute = 0 ∧ m.second = 0 ∧ m.micro = 0) ∨
      ∃ hs mis ss frac, clock = " at ".toList ++ hs ++ ":".toList ++ mis ++ ":".toList ++ ss ++ frac ∧
        ¬ (m.hour = 0 ∧ m.minute = 0 ∧ m.second = 0 ∧ m.micro = 0) ∧
        Digits 2 m.hour hs ∧ Digits 2 m.minute mis ∧ Digits 2 m.second ss ∧
        ((frac = [] ∧ m.micro = 0) ∨ ∃ fs, frac = ".".toList ++ fs ∧ m.micro ≠ 0 ∧ Digits 6 m.micro fs)) →
      ((m.zone = none ∧ zone = []) ∨ ∃ o zs, m.zone = some o ∧ zone = " (".toList ++ zs ++ ")".toList ∧
      ZoneText o zs) → ∀ c t, clock ++ zone = c :: t → ¬ ('0' ≤ c ∧ c ≤ '9') := by
    intro m clock zone hc hz c t e
    have : c = ' ' := by
      rcases hc with ⟨rfl, -⟩ | ⟨_, _, _, _, rfl, -⟩
      · rcases hz with ⟨-, rfl⟩ | ⟨_, _, _, rfl, _⟩
        · cases e
        · simp at e; exact e.1.symm
      · simp at e; exact e.1.symm
    subst this
    decide
  obtain ⟨hys, he'⟩ := digits_split hy.2.1 hy'.2.1 (hstart hc hz) (hstart hc' hz') he
  clear he
  rename' he' => he
  subst hys
  have hdays : m.days = m'.days := by
    refine calendar_unique hm.year hm'.year ?_
    have h1 := digits_value hd hd'
    have h2 := digits_value hy hy'
    have h3 := month_unique hmo hmo'
    generalize calendar m.days = a at h1 h2 h3
    generalize calendar m'.days = b at h1 h2 h3
    cases a
    cases b
    simp only at h1 h2 h3
    rw [h1, h2, h3]
  have hzone : ∀ {a b : List Char}, a = b →
      ((m.zone = none ∧ a = []) ∨ ∃ o zs, m.zone = some o ∧ a = " (".toList ++ zs ++ ")".toList ∧ ZoneText o zs) →
      ((m'.zone = none ∧ b = []) ∨ ∃ o zs, m'.zone = some o ∧ b = " (".toList ++ zs ++ ")".toList ∧ ZoneText o zs) →
      m.zone = m'.zone := by
    rintro a b rfl (⟨z, rfl⟩ | ⟨o, zs, z, rfl, t⟩) (⟨z', e⟩ | ⟨o', zs', z', e, t'⟩)
    · rw [z, z']
    · simp at e
    · simp at e
    · have e : zs = zs' := by simpa using e
      subst e
      rw [z, z', zone_unique t t' (hzl o z) (hzl' o' z')]
  have hend : m.hour = m'.hour ∧ m.minute = m'.minute ∧ m.second = m'.second ∧ m.micro = m'.micro ∧
      m.zone = m'.zone := by
    rcases hc with ⟨rfl, a1, a2, a3, a4⟩ | ⟨hs, mis, ss, frac, rfl, -, a1, a2, a3, a4⟩ <;>
      rcases hc' with ⟨rfl, b1, b2, b3, b4⟩ | ⟨hs', mis', ss', frac', rfl, -, b1, b2, b3, b4⟩
    · exact ⟨by rw [a1, b1], by rw [a2, b2], by rw [a3, b3], by rw [a4, b4], hzone he hz hz'⟩
    · exfalso
      rcases hz with ⟨-, rfl⟩ | ⟨_, _, _, rfl, _⟩ <;> simp at he
    · exfalso
      rcases hz' with ⟨-, rfl⟩ | ⟨_, _, _, rfl, _⟩ <;> simp at he
    · simp only [List.append_assoc] at he
      obtain ⟨-, he'⟩ := List.append_inj he rfl
      clear he
      rename' he' => he
      obtain ⟨h1, he'⟩ := List.append_inj he (by rw [a1.1, b1.1])
      clear he
      rename' he' => he
      obtain ⟨-, he'⟩ := List.append_inj he rfl
      clear he
      rename' he' => he
      obtain ⟨h2, he'⟩ := List.append_inj he (by rw [a2.1, b2.1])
      clear he
      rename' he' => he
      obtain ⟨-, he'⟩ := List.append_inj he rfl
      clear he
      rename' he' => he
      obtain ⟨h3, he'⟩ := List.append_inj he (by rw [a3.1, b3.1])
      clear he
      rename' he' => he
      subst h1 h2 h3
      refine ⟨digits_value a1 b1, digits_value a2 b2, digits_value a3 b3, ?_⟩
      rcases a4 with ⟨rfl, a4⟩ | ⟨fs, rfl, -, a4⟩ <;> rcases b4 with ⟨rfl, b4⟩ | ⟨fs', rfl, -, b4⟩
      · exact ⟨by rw [a4, b4], hzone he hz hz'⟩
      · exfalso
        rcases hz with ⟨-, rfl⟩ | ⟨_, _, _, rfl, _⟩ <;> simp at he
      · exfalso
        rcases hz' with ⟨-, rfl⟩ | ⟨_, _, _, rfl, _⟩ <;> simp at he
      · simp only [List.append_assoc] at he
        obtain ⟨-, he'⟩ := List.append_inj he rfl
        clear he
        rename' he' => he
        obtain ⟨h4, he'⟩ := List.append_inj he (by rw [a4.1, b4.1])
        clear he
        rename' he' => he
        subst h4
        exact ⟨digits_value a4 b4, hzone he hz hz'⟩
  cases m
  cases m'
  simp only at hend hdays
  obtain ⟨rfl, rfl, rfl, rfl, rfl⟩ := hend
  rw [hdays]

/-- A weekday has one name. -/
theorem C89_weekday_unique {n : ℕ} {a b : String} (ha : Weekday n a) (hb : Weekday n b) : a = b := by
  obtain ⟨d, i, k, hd, hi, e⟩ := ha
  obtain ⟨d', i', k', hd', hi', e'⟩ := hb
  have : d = d' := calendar_unique (by rw [hd]; decide) (by rw [hd']; decide) (hd.trans hd'.symm)
  subst this
  have l1 : i < 7 := (List.getElem?_eq_some_iff.1 hi).1
  have l2 : i' < 7 := (List.getElem?_eq_some_iff.1 hi').1
  have : i = i' := by omega
  subst this
  rw [hi] at hi'
  exact Option.some.inj hi'

/-! ### The present moment -/

section
variable {S U R K σ : Type} {c : Calc S U R K} {text? : S → Option (List Char)} {ofText : List Char → S} {padded : Bool}

/-- **C89**: `now` answers with a text that is read as the moment the clock shows, from the year 1000 on. -/
theorem C89_now (ht : ∀ s, text? (ofText s) = some s) {clock : σ → DT} {m : Moment} (hm : m.Exists) {s : σ}
    (hc : clock s = ofMoment m) (hy : YearFits padded m) (hn : ∀ f, c.normalise = some f → ∀ a b, f [] a b = .ok ([], none)) :
    ∃ z, call c (opNow (σ := σ) ofText padded clock) [] s = (.ok (textResult ofText z), s) ∧
      DateText m z ∧ ReadsAs (U := U) (R := R) text? (textResult ofText z) m := by
  refine ⟨toText padded (ofMoment m), ?_, C56_writes hm hy, isDate_textResult ht (reads_back hm hy)⟩
  rw [call_direct (spreads_scalar (by simp) 0) (by simp) rfl (by simp)]
  have hval : validate c (opNow (σ := σ) ofText padded clock) [] = .ok () := by
    simp [validate, opNow, checkValues, checkUnits]
  have hprep : prepare c (opNow (σ := σ) ofText padded clock) [] = .ok ([], none, none) := by
    cases hc : c.normalise with
    | none => simp [prepare, opNow, convertFrom, numbersFrom, castOf, castFrom, hc]
    | some f => simp [prepare, opNow, convertFrom, numbersFrom, castOf, castFrom, hc, hn f hc, setNumbers]
  unfold attempt
  rw [hval]
  dsimp only
  rw [hprep]
  dsimp only
  have href : (opNow (U := U) (R := R) (σ := σ) ofText padded clock).ref [] s
      = (.ok { value := .sc (ofText (toText padded (ofMoment m))) }, s) := by
    simp [opNow, hc]
  rw [href]
  rfl
end

/-! ### Examples -/

example : human false (ofMoment leapDay) = "Thursday, 29-Feb-2024 at 23:59:59.000005 (+0100)".toList := by decide +kernel

/-- 29 February 2024. -/
example (s : ℕ) : ∃ z, call dateCalc (opDateFormat (σ := ℕ) DateS.text? .inr false) [dateV leapText] s
    = (.ok (textResult .inr z), s) ∧ HumanText leapDay z :=
  C89_dateformat dateCalc_dates leapText_date leapDay_exists s

/-- The clock shows noon of 17 November 2026. -/
def noon : Moment := ⟨739936, 12, 0, 0, 0, none⟩

theorem noon_exists : noon.Exists := ⟨year_le (by decide), by decide, by decide, by decide, by decide, by decide⟩

example (s : ℕ) : ∃ z, call dateCalc (opNow (σ := ℕ) .inr false (fun _ => ofMoment noon)) [] s
    = (.ok (textResult .inr z), s) ∧ DateText noon z ∧ ReadsAs DateS.text? (textResult (U := Unit) (R := Unit) .inr z) noon :=
  C89_now (c := dateCalc) (fun _ => rfl) noon_exists rfl (.inr (.inr (by simp [noon]))) (fun _ h => by cases h)

example (m : Moment) (h : m.Exists) (hs : HumanText m (human false (ofMoment leapDay))) : m = leapDay :=
  C89_distinct h leapDay_exists hs (human_text leapDay_exists)

/-- 17 November 2026 is a Tuesday. -/
example : calendar 739936 = ⟨2026, 11, 17⟩ ∧ Weekday 739936 "Tuesday" :=
  ⟨(calendar_eq (by decide)).trans (by decide +kernel), weekday_written⟩

end MC.Props
