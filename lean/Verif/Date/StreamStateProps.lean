import Verif.Date.StreamState

/-!
# C123: theorems
-/
namespace Gul14.Date.Out
open Gul14.Date.Parts Gul14.Spec.DateText Gul14.Spec.DateStream

/-- **C123.**  Whatever the state of the stream is, it is the same after a value of a calendar class has been written, but for the
width. -/
theorem c123_state (G : Names) (os : OS) (o : Obj) : ∃ os', objOut G os o = .ok os' ∧ SameState os os' := by
  obtain ⟨t, b, -, hb, -⟩ := c102_form G o
  have : ∃ os', objOut G os o = .ok os' := by
    unfold objOut
    rw [hb]
    simp only [Res.ok_bind, Res.pure_eq]
    cases o <;> exact ⟨_, rfl⟩
  obtain ⟨os', h⟩ := this
  exact ⟨os', h, same_obj (same_refl os) G o h⟩

/-- **C123.**  The same for weekdays, times of day, points in time and durations. -/
theorem c123_state_times (G : Names) (T : Nat) (os : OS) (w : UInt8) (x : HMS) (c : Int) (n d : Nat) :
    SameState os (weekdayObjOut G os w) ∧ SameState os (hmsOut T os x) ∧ (∀ os', sysOut T os c = .ok os' → SameState os os') ∧
    (∀ os', sysDaysOut os c = .ok os' → SameState os os') ∧ SameState os (durOut os c n d) := by
  have hd : ∀ c os', sysDaysOut os c = .ok os' → SameState os os' := by
    intro c os' h
    unfold sysDaysOut at h
    cases hf : fromDays c with
    | ok y => rw [hf, Res.ok_bind] at h; exact same_obj (same_refl os) _ _ h
    | throw _ => rw [hf] at h; cases h
    | terminate => rw [hf] at h; cases h
    | ub => rw [hf] at h; cases h
    | diverge => rw [hf] at h; cases h
  refine ⟨?_, same_hms T (same_refl os) x, ?_, hd c, same_refl os⟩
  · unfold weekdayObjOut
    split
    · exact same_weekday (same_refl os) G w
    · exact same_text (same_weekday (same_refl os) G w) _
  · intro os' h
    unfold sysOut at h
    simp only at h
    cases hf : sysDaysOut os (floorTo 1 (86400 * T) c) with
    | ok y =>
      rw [hf] at h
      simp only [Res.ok_bind, Res.pure_eq, Res.ok.injEq] at h
      subst h
      exact same_hms T (same_text (hd _ _ hf) [' ']) _
    | throw _ => rw [hf] at h; cases h
    | terminate => rw [hf] at h; cases h
    | ub => rw [hf] at h; cases h
    | diverge => rw [hf] at h; cases h

/-- **C123.**  On a stream without width that writes integers in base ten, the text of a value of a calendar class does not depend on the
other flags, the fill character, the precision and the way in which the locale groups thousands: it is the one of C102. -/
theorem c123_calendar_partial (G : Names) (os : OS) (hw : os.width = 0) (hf : Decimal os.flags) (hl : GroupsOfThree os.loc)
    (o : Obj) (ho : o.isClass = true) :
    ∃ t b os', Form ⟨os.loc.names.mon, G.wd⟩ t o ∧ objOk o = .ok b ∧ objOut G os o = .ok os' ∧
      Appended os (t ++ if b then [] else (" is not a valid " ++ className o).toList) os' := by
  obtain ⟨t, b, h1, h2, h3⟩ := c102_form ⟨os.loc.names.mon, G.wd⟩ o
  exact ⟨t, b, _, h1, h2, objOut_eq ⟨hw, hf, hl⟩ G ⟨os.loc.names.mon, G.wd⟩ rfl rfl o ho h3, appended_iff.mpr rfl⟩

/-- **C123.**  Weekdays. -/
theorem c123_weekday_partial (G : Names) (os : OS) (hw : os.width = 0) (hf : Decimal os.flags) (hl : GroupsOfThree os.loc) (w : UInt8) :
    ∃ t, WeekdayText G w t ∧ Appended os (t ++ if w.toNat ≤ 6 then [] else " is not a valid weekday".toList) (weekdayObjOut G os w) := by
  obtain ⟨t, h1, h2⟩ := c102_weekday_form G w
  refine ⟨t, h1, ?_⟩
  rw [← h2, appended_iff]
  have hp : Plain os := ⟨hw, hf, hl⟩
  unfold weekdayObjOut weekdayText
  rw [weekdayOut_eq hp G G rfl]
  split
  · rw [List.append_nil]
  · rw [text_plain (hp.add _), add_add]

/-- **C123.**  Times of day: if moreover no plus sign is asked for, the decimal point is a point, and thousands are not grouped or there
are fewer than a thousand hours, the text is the one of C79. -/
theorem c123_time_of_day_partial (T : Nat) (hT : 0 < T) (os : OS) (hw : os.width = 0) (hf : Decimal os.flags) (hs : os.flags.showpos = false)
    (hp : os.loc.point = '.') (c : Int)
    (hl : (∀ s, os.loc.group s = s) ∨ GroupsOfThree os.loc ∧ c.natAbs < 3600000 * T) :
    Appended os ((hhmmss T c).text T) (hmsOut T os (hhmmss T c)) := by
  rw [appended_iff]
  obtain ⟨r1, r2, r3, r4, r5, -⟩ := c77_ranges T hT c
  have hg : GroupsOfThree os.loc := by
    rcases hl with h | h
    · exact fun s _ => h s
    · exact h.1
  apply hmsOut_eq T hw hf hs hp
  · rcases hl with h | ⟨-, h⟩
    · exact h _
    · apply hg
      apply dec_small
      obtain ⟨q, r, e, h1, h2, h3, hh⟩ := hms_fields T hT c
      rw [hh]
      have : q < 3600000 := by
        refine Int.lt_of_not_ge fun hq => ?_
        have : (3600000 : Int) * T ≤ q * T := Int.mul_le_mul_of_nonneg_right (by omega) (by omega)
        omega
      show (q / 3600).natAbs < 1000
      omega
  · exact hg _ (dec_small (by omega))
  · exact hg _ (dec_small (by omega))

theorem note_eq : (" is not a valid " ++ className (.ymd 0 0 0)).toList = " is not a valid year_month_day".toList := by decide +kernel

theorem objOut_ymd (G : Names) (os : OS) (y : Int16) (m d : UInt8) :
    objOut G os (.ymd y m d) = .ok (os.add (base G (.ymd y m d) ++ if (YMD.mk y m d).ok then [] else " is not a valid year_month_day".toList)) := by
  rw [← note_eq]
  exact congrArg Res.ok (ymdOut_eq os y m d _)

theorem ymdText_eq (G : Names) (x : YMD) :
    base G (.ymd x.y x.m x.d) ++ (if x.ok then [] else " is not a valid year_month_day".toList) = x.text := by
  unfold YMD.text base
  generalize (if x.ok then [] else " is not a valid year_month_day".toList) = n
  simp

/-- **C123.**  Points in time, under the same conditions: the text is the one of C79. -/
theorem c123_sys_time_partial (T : Nat) (hT : 0 < T) (os : OS) (hw : os.width = 0) (hf : Decimal os.flags) (hs : os.flags.showpos = false)
    (hp : os.loc.point = '.') (hl : GroupsOfThree os.loc) (c : Int) (t : List Char) (ht : sysText T c = .ok t) :
    ∃ os', sysOut T os c = .ok os' ∧ Appended os t os' := by
  refine ⟨_, ?_, appended_iff.mpr rfl⟩
  unfold sysText at ht
  unfold sysOut sysDaysOut
  simp only at ht ⊢
  have hfl : 0 ≤ c - floorTo 1 (86400 * T) c * (86400 * T) ∧ c - floorTo 1 (86400 * T) c * (86400 * T) < 86400 * T := by
    have h := c78_floor 1 (86400 * T) c (by omega)
    rw [Int.add_mul] at h
    omega
  cases hx : fromDays (floorTo 1 (86400 * T) c) with
  | ok y =>
    rw [hx] at ht
    simp only [Res.ok_bind, Res.pure_eq, Res.ok.injEq] at ht ⊢
    subst ht
    rw [objOut_ymd, show (⟨y.y, y.m, y.d⟩ : YMD) = y from rfl, ymdText_eq, Res.ok_bind]
    rw [text_zero (os := os.add y.text) hw, add_add]
    have := c123_time_of_day_partial T hT (os.add (y.text ++ [' '])) hw hf hs hp (c - floorTo 1 (86400 * T) c * (86400 * T))
      (Or.inr ⟨hl, by omega⟩)
    rw [appended_iff] at this
    rw [this, add_add, List.append_assoc]
    rfl
  | throw _ => rw [hx] at ht; cases ht
  | terminate => rw [hx] at ht; cases ht
  | ub => rw [hx] at ht; cases ht
  | diverge => rw [hx] at ht; cases ht

/-- **C123.**  Complete dates are written in the same way on every stream, whatever its flags, its width and its locale are, and the state is
the same afterwards. -/
theorem c123_date_any_stream (G : Names) (os : OS) (y : Int16) (m d : UInt8) :
    ∃ t os', Form G t (.ymd y m d) ∧ objOut G os (.ymd y m d) = .ok os' ∧
      Appended os (t ++ if (YMD.mk y m d).ok then [] else " is not a valid year_month_day".toList) os' := by
  exact ⟨_, _, form_base G (.ymd y m d), objOut_ymd G os y m d, appended_iff.mpr rfl⟩

/-- **C123.**  So are valid years, and, if the locale does not group fewer than three digits, valid days. -/
theorem c123_field_any_stream (G : Names) (os : OS) :
    (∀ y, yearOk y = true → ∃ t os', YearText y t ∧ objOut G os (.year y) = .ok os' ∧ Appended os t os') ∧
    (GroupsOfThree os.loc → ∀ d, dayOk d = true → ∃ t os', DayText d t ∧ objOut G os (.day d) = .ok os' ∧ Appended os t os') := by
  refine ⟨fun y hy => ⟨_, _, form_base G (.year y), ?_, appended_iff.mpr rfl⟩, fun hl d hd => ⟨_, _, form_base G (.day d), ?_, appended_iff.mpr rfl⟩⟩
  · unfold objOut objOk
    simp only [Res.ok_bind, Res.pure_eq, hy, if_true]
    exact congrArg Res.ok (yearOut_eq os y)
  · unfold objOut objOk
    simp only [Res.ok_bind, Res.pure_eq, hd, if_true]
    exact congrArg Res.ok (dayOut_eq hl d)

/-- **C123.**  If the stream has a width, a valid month, a valid weekday and a duration are filled to it as a whole, and the width is zero
afterwards. -/
theorem c123_width_partial (G : Names) (os : OS) :
    (∀ m, monthOk m = true → ∃ s os', objOut G os (.month m) = .ok os' ∧ Filled os (os.loc.names.mon m.toNat) s ∧
      Appended { os with width := 0 } s os') ∧
    (∀ w, weekdayOk w = true → ∃ s, Filled os (G.wd w.toNat) s ∧ Appended { os with width := 0 } s (weekdayObjOut G os w)) ∧
    (∀ c n d, ∃ s, Filled os (durText c n d) s ∧ Appended { os with width := 0 } s (durOut os c n d)) := by
  have key : ∀ t, ∃ s, Filled os t s ∧ Appended { os with width := 0 } s (os.text t) := by
    intro t
    refine ⟨_, ⟨_, rfl, rfl⟩, ?_, rfl, rfl, rfl, rfl, rfl⟩
    unfold OS.text OS.insert
    simp only
    cases h : os.flags.adjust <;> simp
  refine ⟨fun m hm => ?_, fun w hw => ?_, fun c n d => key _⟩
  · obtain ⟨s, h1, h2⟩ := key (os.loc.names.mon m.toNat)
    refine ⟨s, _, ?_, h1, h2⟩
    unfold objOut objOk baseOut monthOut
    simp only [Res.ok_bind, Res.pure_eq, hm, if_true]
  · obtain ⟨s, h1, h2⟩ := key (G.wd w.toNat)
    refine ⟨s, h1, ?_⟩
    unfold weekdayObjOut weekdayOut
    simp only [hw, if_true]
    exact h2

/-- **C123.**  With a format string the text does not depend on flags, fill character, width and precision, and the whole state is the same
afterwards. -/
theorem c123_to_stream (put : Loc → Spec.DateFormat.TimePut) (os : OS) (f : Fields) (fmt t : List Char)
    (h : formatFields (put os.loc) f fmt = .ok t) : ∃ os', toStreamOut put os f fmt = .ok os' ∧ Appended os t os' := by
  refine ⟨os.add t, ?_, appended_iff.mpr rfl⟩
  unfold toStreamOut
  rw [h]
  simp only [Res.ok_bind, Res.pure_eq, OS.saving]
  rw [text_zero rfl]
  rfl

/-- A stream as it is after its construction. -/
def fresh : OS := ⟨[], ' ', ⟨.dec, .none, false, false, false, 0⟩, 0, 6, classic⟩

/-- **C123, violated.**  Hours and minutes are written with the flags of the stream: ten hours as `a:00:00` in base sixteen, one hour as `0+1:0+0:00`
if plus signs are asked for, and the seconds in base ten all the same; the index of a weekday is written in base sixteen, too. -/
theorem c123_flags_violated :
    (hmsOut 1 { fresh with flags := { fresh.flags with base := .hex } } (hhmmss 1 36000)).out = "a:00:00".toList ∧
    (hmsOut 1 { fresh with flags := { fresh.flags with base := .hex } } (hhmmss 1 36010)).out = "a:00:10".toList ∧
    (hmsOut 1 { fresh with flags := { fresh.flags with showpos := true } } (hhmmss 1 3600)).out = "0+1:0+0:00".toList ∧
    (wiOut classicNames { fresh with flags := { fresh.flags with base := .hex, showbase := true } } (WI.of 1 2)).out = "Mon[0x2]".toList := by
  decide +kernel

/-- **C123, violated.**  A width is not used by a day and stays for what is written next; for a time of day it pads the first character that is
written, and for a point in time the space between date and time. -/
theorem c123_width_violated :
    (∃ os', objOut classicNames { fresh with width := 5 } (.day 7) = .ok os' ∧ os'.out = "07".toList ∧ os'.width = 5) ∧
    (hmsOut 1 { fresh with width := 10 } (hhmmss 1 3600)).out = "         01:00:00".toList ∧
    (∃ os', sysOut 1 { fresh with width := 5 } 0 = .ok os' ∧ os'.out = "1970-01-01     00:00:00".toList ∧ os'.width = 0) := by
  refine ⟨⟨_, rfl, ?_⟩, ?_, ⟨_, rfl, ?_⟩⟩ <;> decide +kernel

/-! ### Examples -/

/-- A stream with unusual flags and a locale that groups thousands. -/
def odd : OS := ⟨"x".toList, '*', ⟨.none, .left, true, true, true, 77⟩, 0, 3, ⟨fun s => if s.length ≤ 3 then s else s.take (s.length - 3) ++ ',' :: s.drop (s.length - 3), ',', classicNames⟩⟩

example : odd.width = 0 ∧ Decimal odd.flags ∧ GroupsOfThree odd.loc := by
  refine ⟨rfl, Or.inr rfl, fun s h => ?_⟩
  simp only [odd, h, if_true]

example : ∃ os', objOut classicNames odd (.ymw 2024 2 (WI.of 4 5)) = .ok os' ∧ os'.out = "x2024/Feb/Thu[5]".toList ∧ os'.flags = odd.flags ∧ os'.fill = '*' := by
  refine ⟨_, rfl, ?_⟩
  decide +kernel

example : ∃ os', objOut classicNames odd (.day 40) = .ok os' ∧ os'.out = "x40 is not a valid day".toList := by
  refine ⟨_, rfl, ?_⟩
  decide +kernel

example : ∃ os', objOut classicNames { odd with width := 30, flags := { odd.flags with base := .hex } } (.ymd 12345 10 31) = .ok os' ∧
    os'.out = "x12345-10-31".toList ∧ os'.width = 30 ∧ os'.flags.base = .hex := by
  refine ⟨_, rfl, ?_⟩
  decide +kernel

example : ∃ os', objOut classicNames { odd with width := 6 } (.month 7) = .ok os' ∧ os'.out = "xJul***".toList ∧ os'.width = 0 := by
  refine ⟨_, rfl, ?_⟩
  decide +kernel

example : let os := { fresh with fill := '#', precision := 1 }
    (∀ s, os.loc.group s = s) ∧ os.flags.showpos = false ∧ os.loc.point = '.' ∧
    (hmsOut 1000 os (hhmmss 1000 (-36061001))).out = "-10:01:01.001".toList := by
  refine ⟨fun s => rfl, rfl, rfl, ?_⟩
  decide +kernel

example : ∃ t os', sysText 1000 951782400123 = .ok t ∧ sysOut 1000 fresh 951782400123 = .ok os' ∧ os'.out = t ∧ t = "2000-02-29 00:00:00.123".toList := by
  refine ⟨_, _, rfl, rfl, ?_⟩
  decide +kernel

end Gul14.Date.Out
