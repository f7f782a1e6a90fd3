import Verif.Date.FormatProps
import Verif.Date.FormatPartsSpec

/-! # C113: format of values that are not a complete date -/
namespace Gul14.Date.Incomplete
open Gul14.Spec.Calendar Gul14.Spec.DateText Gul14.Spec.DateFormat Gul14.Spec.DateFormat.Incomplete

/-- The fields of a value of which only the parts `p` are known. -/
structure Holds (f : Fields) (p : Parts) : Prop where
  notOk : f.ymd.ok = false
  noTime : f.hasTod = false
  year : p.year = aYear f.ymd.y.toInt
  month : p.month = aMonth f.ymd.m.toNat
  day : p.day = aDay f.ymd.d.toNat
  wday : p.wday = aWeekday f.wd.toNat

theorem year_some {y : Int16} (h : yearOk y = true) : aYear y.toInt = some y.toInt := by
  unfold yearOk at h; unfold aYear; rw [if_neg (by simpa using h)]

theorem year_none {y : Int16} (h : yearOk y = false) : aYear y.toInt = none := by
  unfold yearOk at h; unfold aYear; rw [if_pos (by simpa using h)]

theorem month_some {m : UInt8} (h : monthOk m = true) : aMonth m.toNat = some m.toNat := by
  unfold aMonth; rw [if_pos ((monthOk_iff m).mp h)]

theorem month_none {m : UInt8} (h : monthOk m = false) : aMonth m.toNat = none := by
  unfold aMonth; rw [if_neg (fun h' => by rw [(monthOk_iff m).mpr h'] at h; cases h)]

theorem dayOk_iff (d : UInt8) : dayOk d = true ↔ 1 ≤ d.toNat ∧ d.toNat ≤ 31 :=
  (c72_fields_ok d 0 ⟨0, 0⟩).1

theorem day_some {m : UInt8} (h : dayOk m = true) : aDay m.toNat = some m.toNat := by
  unfold aDay; rw [if_pos ((dayOk_iff m).mp h)]

theorem day_none {m : UInt8} (h : dayOk m = false) : aDay m.toNat = none := by
  unfold aDay; rw [if_neg (fun h' => by rw [(dayOk_iff m).mpr h'] at h; cases h)]

theorem weekdayOk_iff (w : UInt8) : weekdayOk w = true ↔ w.toNat < 7 := by
  simp only [weekdayOk, decide_eq_true_eq, UInt8.le_iff_toNat_le]
  rw [show (6 : UInt8).toNat = 6 from rfl]; omega

theorem wday_some {m : UInt8} (h : weekdayOk m = true) : aWeekday m.toNat = some m.toNat := by
  unfold aWeekday; rw [if_pos ((weekdayOk_iff m).mp h)]

theorem wday_none {m : UInt8} (h : weekdayOk m = false) : aWeekday m.toNat = none := by
  unfold aWeekday; rw [if_neg (fun h' => by rw [(weekdayOk_iff m).mpr h'] at h; cases h)]

/-- What one conversion does. -/
def Right (e : FmtEnv) (p : Parts) (md : Option Char) (c : Char) (v : FmtVars) : Prop :=
  ∃ t v', conv e c md v = .ok (t, v') ∧
    ∀ n d, Agrees p n d → SaysDate e.loc n d md c t

theorem conv_year {e : FmtEnv} {p : Parts} (F : Holds e.fds p) (v : FmtVars) (md : Option Char) (c : Char)
    (h : asksYear md c = true) :
    (p.year = none → conv e c md v = .throw .runtimeError) ∧ (p.year ≠ none → Right e p md c v) := by
  have hmd : md = none ∨ md = some 'E' ∨ md = some 'O' := by
    unfold asksYear at h; split at h <;> simp_all
  cases hy : yearOk e.fds.ymd.y with
  | false =>
    refine ⟨fun _ => ?_, fun h' => absurd (F.year.trans (year_none hy)) h'⟩
    rcases hmd with rfl | rfl | rfl
    · simp [asksYear] at h
      rcases h with rfl | rfl | rfl <;> simp [conv, hy, failure]
    · simp [asksYear] at h
      rcases h with rfl | rfl | rfl <;> simp [conv, hy, failure]
    · simp [asksYear] at h
      subst h; simp [conv, hy, failure]
  | true =>
    have hp := F.year.trans (year_some hy)
    refine ⟨fun h' => absurd h' (by simp [hp]), fun _ => ?_⟩
    have lo : -32768 ≤ e.fds.ymd.y.toInt := Int16.le_toInt _
    have hi : e.fds.ymd.y.toInt < 32768 := Int16.toInt_lt _
    rcases hmd with rfl | rfl | rfl
    · simp [asksYear] at h
      rcases h with rfl | rfl | rfl
      · simp only [Right, conv, hy]
        by_cases h : e.fds.ymd.y.toInt ≥ 0
        · refine ⟨pad 2 (decInt (e.fds.ymd.y.toInt.tdiv 100)), v, by simp [h], ?_⟩
          intro n d ha
          simp only [SaysDate]
          rw [ha.1 _ hp, Int.tdiv_eq_ediv_of_nonneg h]
          exact pad_atLeast (by omega) (by omega)
        · refine ⟨'-' :: pad 2 (decInt ((-(e.fds.ymd.y.toInt - 99)).tdiv 100)), v, by simp [h], ?_⟩
          intro n d ha
          simp only [SaysDate]
          rw [ha.1 _ hp, Int.tdiv_eq_ediv_of_nonneg (by omega)]
          obtain ⟨j, h1, h2, h3⟩ := pad_min (k := 2) (by omega) (-(e.fds.ymd.y.toInt - 99) / 100).toNat
          refine ⟨_, j, h1, ?_, h3, ?_⟩
          · rw [show (e.fds.ymd.y.toInt / 100).natAbs = (-(e.fds.ymd.y.toInt - 99) / 100).toNat by omega]; exact h2
          · rw [if_pos (by omega), decInt_nonneg (by omega)]
      · simp only [Right, conv, hy]
        refine ⟨_, _, rfl, ?_⟩
        intro n d ha
        simp only [SaysDate]
        rw [ha.1 _ hp]
        generalize e.fds.ymd.y.toInt = y
        have e1 : ((y.natAbs : Int).tmod 100) = ((y.natAbs % 100 : Nat) : Int) := by
          rw [Int.tmod_eq_emod_of_nonneg (by omega)]; omega
        have := two_digits' (n := ((y.natAbs % 100 : Nat) : Int)) (by omega) (by omega)
        rw [e1]; rwa [Int.toNat_natCast] at this
      · simp only [Right, conv, hy]
        refine ⟨_, _, rfl, ?_⟩
        intro n d ha
        simp only [SaysDate]
        rw [ha.1 _ hp]
        exact yearText_spec _ hy
    · simp [asksYear] at h
      rcases h with rfl | rfl | rfl <;>
      · simp only [Right, conv, hy]
        refine ⟨_, _, rfl, ?_⟩
        intro n d ha
        exact ⟨_, by rw [ha.1 _ hp], rfl⟩
    · simp [asksYear] at h
      subst h
      simp only [Right, conv, hy]
      refine ⟨_, _, rfl, ?_⟩
      intro n d ha
      exact ⟨_, by rw [ha.1 _ hp], rfl⟩

theorem conv_month {e : FmtEnv} {p : Parts} (F : Holds e.fds p) (v : FmtVars) (md : Option Char) (c : Char)
    (h : asksMonth md c = true) :
    (p.month = none → conv e c md v = .throw .runtimeError) ∧ (p.month ≠ none → Right e p md c v) := by
  have hmd : md = none ∨ md = some 'O' := by
    unfold asksMonth at h; split at h <;> simp_all
  cases hy : monthOk e.fds.ymd.m with
  | false =>
    refine ⟨fun _ => ?_, fun h' => absurd (F.month.trans (month_none hy)) h'⟩
    rcases hmd with rfl | rfl
    · simp [asksMonth] at h
      rcases h with rfl | rfl | rfl | rfl <;> simp [conv, extractMonth, hy, failure]
    · simp [asksMonth] at h
      subst h; simp [conv, hy, failure]
  | true =>
    have hp := F.month.trans (month_some hy)
    refine ⟨fun h' => absurd h' (by simp [hp]), fun _ => ?_⟩
    have hr := (monthOk_iff _).mp hy
    have hE : extractMonth e.fds = .ok (e.fds.ymd.m.toNat : Int) := by simp [extractMonth, hy, val]
    rcases hmd with rfl | rfl
    · simp [asksMonth] at h
      rcases h with rfl | rfl | rfl | rfl
      · simp only [Right, conv, hE, Res.ok_bind]
        refine ⟨_, _, rfl, ?_⟩
        intro n d ha
        exact ⟨_, by rw [ha.2.1 _ hp], rfl⟩
      · simp only [Right, conv, hE, Res.ok_bind]
        refine ⟨_, _, rfl, ?_⟩
        intro n d ha
        exact ⟨_, by rw [ha.2.1 _ hp], rfl⟩
      · simp only [Right, conv, hE, Res.ok_bind]
        refine ⟨_, _, rfl, ?_⟩
        intro n d ha
        exact ⟨_, by rw [ha.2.1 _ hp], rfl⟩
      · simp only [Right, conv, hy]
        refine ⟨_, _, rfl, ?_⟩
        intro n d ha
        have := two_digits' (n := (e.fds.ymd.m.toNat : Int)) (by omega) (by omega)
        simpa [SaysDate, ha.2.1 _ hp, val] using this
    · simp [asksMonth] at h
      subst h
      simp only [Right, conv, hy]
      refine ⟨_, _, rfl, ?_⟩
      intro n d ha
      exact ⟨_, by rw [ha.2.1 _ hp]; rfl, rfl⟩

theorem conv_day {e : FmtEnv} {p : Parts} (F : Holds e.fds p) (v : FmtVars) (md : Option Char) (c : Char)
    (h : asksDay md c = true) :
    (p.day = none → conv e c md v = .throw .runtimeError) ∧ (p.day ≠ none → Right e p md c v) := by
  have hmd : md = none ∨ md = some 'O' := by
    unfold asksDay at h; split at h <;> simp_all
  cases hy : dayOk e.fds.ymd.d with
  | false =>
    refine ⟨fun _ => ?_, fun h' => absurd (F.day.trans (day_none hy)) h'⟩
    rcases hmd with rfl | rfl <;>
    · simp [asksDay] at h
      rcases h with rfl | rfl <;> simp [conv, hy, failure]
  | true =>
    have hp := F.day.trans (day_some hy)
    refine ⟨fun h' => absurd h' (by simp [hp]), fun _ => ?_⟩
    have hr := (dayOk_iff _).mp hy
    rcases hmd with rfl | rfl
    · simp [asksDay] at h
      rcases h with rfl | rfl
      · simp only [Right, conv, hy]
        refine ⟨_, _, rfl, ?_⟩
        intro n d ha
        have := pad2_int (n := (e.fds.ymd.d.toNat : Int)) (by omega) (by omega)
        simpa [SaysDate, ha.2.2.1 _ hp, val] using this
      · simp only [Right, conv, hy]
        refine ⟨_, _, rfl, ?_⟩
        intro n d ha
        simp only [SaysDate, val]
        rw [ha.2.2.1 _ hp]
        generalize e.fds.ymd.d.toNat = k at hr
        have hc : ('e' : Char) ≠ 'd' := by decide
        simp only [hc, if_false]
        have e1 : decInt (k : Int) = dec k := by rw [decInt_nonneg (by omega)]; simp
        rw [e1]
        split
        · rename_i h
          have h1 := dec_one h
          exact ⟨dec k, by rw [h1.1]; rfl, h1⟩
        · rename_i h
          have h2 : two (k : Int) = dec k := by
            unfold two; rw [if_neg (by omega), e1]; rfl
          have h3 := two_digits' (n := (k : Int)) (by omega) (by omega)
          rw [h2] at h3
          rw [h3.1]
          simpa using h3
    · simp [asksDay] at h
      rcases h with rfl | rfl <;>
      · simp only [Right, conv, hy]
        refine ⟨_, _, rfl, ?_⟩
        intro n d ha
        exact ⟨_, by rw [ha.2.2.1 _ hp]; rfl, rfl⟩

theorem conv_weekday {e : FmtEnv} {p : Parts} (F : Holds e.fds p) (v : FmtVars) (md : Option Char) (c : Char)
    (h : asksWeekday md c = true) :
    (p.wday = none → conv e c md v = .throw .runtimeError) ∧ (p.wday ≠ none → Right e p md c v) := by
  have hmd : md = none ∨ md = some 'E' ∨ md = some 'O' := by
    unfold asksWeekday at h; split at h <;> simp_all
  cases hy : weekdayOk e.fds.wd with
  | false =>
    refine ⟨fun _ => ?_, fun h' => absurd (F.wday.trans (wday_none hy)) h'⟩
    have hE : extractWeekday e.fds = .throw .runtimeError := by simp [extractWeekday, F.notOk, hy, failure]
    rcases hmd with rfl | rfl | rfl
    · simp [asksWeekday] at h
      rcases h with rfl | rfl | rfl | rfl <;> simp [conv, hE]
    · simp [asksWeekday] at h
      subst h; simp [conv, hE]
    · simp [asksWeekday] at h
      rcases h with rfl | rfl <;> simp [conv, hE]
  | true =>
    have hp := F.wday.trans (wday_some hy)
    refine ⟨fun h' => absurd h' (by simp [hp]), fun _ => ?_⟩
    have hr := (weekdayOk_iff _).mp hy
    have hE : extractWeekday e.fds = .ok (e.fds.wd.toNat : Int) := by
      simp only [extractWeekday, F.notOk, hy, Bool.not_false, Bool.not_true, Bool.and_false, Bool.false_eq_true,
        if_false, Res.pure_eq, Res.ok_bind]
      rw [weekdayMinus_eq, show (0 : UInt8).toNat = 0 from rfl]
      congr 1; omega
    rcases hmd with rfl | rfl | rfl
    · simp [asksWeekday] at h
      rcases h with rfl | rfl | rfl | rfl
      · simp only [Right, conv, hE, Res.ok_bind]
        refine ⟨_, _, rfl, ?_⟩
        intro n d ha
        exact ⟨_, by rw [ha.2.2.2 _ hp], rfl⟩
      · simp only [Right, conv, hE, Res.ok_bind]
        refine ⟨_, _, rfl, ?_⟩
        intro n d ha
        exact ⟨_, by rw [ha.2.2.2 _ hp], rfl⟩
      · simp only [Right, conv, hE, Res.ok_bind]
        refine ⟨_, _, rfl, ?_⟩
        intro n d ha
        simp only [SaysDate]
        rw [ha.2.2.2 _ hp]
        generalize e.fds.wd.toNat = w at hr
        by_cases h : w = 0
        · subst h; exact dec_one (n := 7) (by omega)
        · have h' : (w : Int) ≠ 0 := by omega
          rw [if_neg h, if_pos h', decInt_nonneg (by omega)]
          simpa using dec_one (n := w) (by omega)
      · simp only [Right, conv, hE, Res.ok_bind]
        refine ⟨_, _, rfl, ?_⟩
        intro n d ha
        simp only [SaysDate]
        rw [ha.2.2.2 _ hp, decInt_nonneg (by omega)]
        simpa using dec_one (n := e.fds.wd.toNat) (by omega)
    · simp [asksWeekday] at h
      subst h
      simp only [Right, conv, hE, Res.ok_bind]
      exact ⟨_, _, rfl, fun _ _ _ => rfl⟩
    · simp [asksWeekday] at h
      rcases h with rfl | rfl <;>
      · simp only [Right, conv, hE, Res.ok_bind]
        refine ⟨_, _, rfl, ?_⟩
        intro n d ha
        exact ⟨_, by rw [ha.2.2.2 _ hp], rfl⟩

theorem conv_more {e : FmtEnv} {p : Parts} (F : Holds e.fds p) (hz : e.zone = none) (ho : e.offset = none)
    (v : FmtVars) (md : Option Char) (c : Char) (h : asksMore md c = true) :
    conv e c md v = .throw .runtimeError := by
  have hmd : md = none ∨ md = some 'E' ∨ md = some 'O' := by
    unfold asksMore at h; split at h <;> simp_all
  rcases hmd with rfl | rfl | rfl
  · simp only [asksMore, List.mem_cons, List.not_mem_nil, or_false, decide_eq_true_eq] at h
    rcases h with rfl | rfl | rfl | rfl | rfl | rfl | rfl | rfl | rfl | rfl | rfl | rfl | rfl | rfl | rfl | rfl |
      rfl | rfl | rfl | rfl | rfl | rfl | rfl <;> simp [conv, F.notOk, F.noTime, hz, ho, failure]
  · simp only [asksMore, List.mem_cons, List.not_mem_nil, or_false, decide_eq_true_eq] at h
    rcases h with rfl | rfl | rfl | rfl <;> simp [conv, F.notOk, F.noTime, ho, failure]
  · simp only [asksMore, List.mem_cons, List.not_mem_nil, or_false, decide_eq_true_eq] at h
    rcases h with rfl | rfl | rfl | rfl | rfl | rfl | rfl | rfl <;> simp [conv, F.notOk, F.noTime, ho, failure]

/-- Every conversion that asks for nothing is written without looking at the value. -/
theorem conv_nothing (e : FmtEnv) (v : FmtVars) (md : Option Char) (c : Char) (hc : c ∈ convChars)
    (hp : md = none ∨ md = some 'E' ∨ md = some 'O') (h1 : asksYear md c = false) (h2 : asksMonth md c = false)
    (h3 : asksDay md c = false) (h4 : asksWeekday md c = false) (h5 : asksMore md c = false) :
    ∃ t, conv e c md v = .ok (t, v) ∧ ∀ n d, Says e.loc ⟨some (n, d), 0, none, none, none⟩ (.conv md c) t := by
  simp only [convChars, List.mem_cons, List.not_mem_nil, or_false] at hc
  rcases hp with rfl | rfl | rfl <;>
  rcases hc with rfl | rfl | rfl | rfl | rfl | rfl | rfl | rfl | rfl | rfl | rfl | rfl | rfl | rfl | rfl |
    rfl | rfl | rfl | rfl | rfl | rfl | rfl | rfl | rfl | rfl | rfl | rfl | rfl | rfl | rfl | rfl | rfl |
    rfl | rfl | rfl | rfl | rfl | rfl <;>
  first
  | (exfalso; revert h1; decide)
  | (exfalso; revert h2; decide)
  | (exfalso; revert h3; decide)
  | (exfalso; revert h4; decide)
  | (exfalso; revert h5; decide)
  | exact ⟨_, rfl, fun _ _ => rfl⟩

/-- The conversions of single parts are conversions of a date. -/
theorem part_uses {md : Option Char} {c : Char}
    (h : asksYear md c = true ∨ asksMonth md c = true ∨ asksDay md c = true ∨ asksWeekday md c = true) :
    c ∈ convChars ∧ usesDate md c = true ∧ usesTime md c = false := by
  rcases h with h | h | h | h
  · unfold asksYear at h
    split at h <;> simp at h
    · rcases h with rfl | rfl | rfl <;> decide
    · rcases h with rfl | rfl | rfl <;> decide
    · subst h; decide
  · unfold asksMonth at h
    split at h <;> simp at h
    · rcases h with rfl | rfl | rfl | rfl <;> decide
    · subst h; decide
  · unfold asksDay at h
    split at h <;> simp at h
    · rcases h with rfl | rfl <;> decide
    · rcases h with rfl | rfl <;> decide
  · unfold asksWeekday at h
    split at h <;> simp at h
    · rcases h with rfl | rfl | rfl | rfl <;> decide
    · subst h; decide
    · rcases h with rfl | rfl <;> decide

theorem more_conv {md : Option Char} {c : Char} (h : asksMore md c = true) : c ∈ convChars := by
  unfold asksMore at h
  split at h <;> simp at h
  · rcases h with rfl | rfl | rfl | rfl | rfl | rfl | rfl | rfl | rfl | rfl | rfl | rfl | rfl | rfl | rfl | rfl |
      rfl | rfl | rfl | rfl | rfl | rfl | rfl <;> decide
  · rcases h with rfl | rfl | rfl | rfl <;> decide
  · rcases h with rfl | rfl | rfl | rfl | rfl | rfl | rfl | rfl <;> decide

/-- A conversion asks for at most one thing. -/
theorem asks_one {md : Option Char} {c : Char} :
    (asksYear md c = true → asksMonth md c = false ∧ asksDay md c = false ∧ asksWeekday md c = false ∧ asksMore md c = false) ∧
    (asksMonth md c = true → asksYear md c = false ∧ asksDay md c = false ∧ asksWeekday md c = false ∧ asksMore md c = false) ∧
    (asksDay md c = true → asksYear md c = false ∧ asksMonth md c = false ∧ asksWeekday md c = false ∧ asksMore md c = false) ∧
    (asksWeekday md c = true → asksYear md c = false ∧ asksMonth md c = false ∧ asksDay md c = false ∧ asksMore md c = false) := by
  refine ⟨?_, ?_, ?_, ?_⟩ <;> intro h
  · unfold asksYear at h
    split at h <;> simp at h
    · rcases h with rfl | rfl | rfl <;> decide
    · rcases h with rfl | rfl | rfl <;> decide
    · subst h; decide
  · unfold asksMonth at h
    split at h <;> simp at h
    · rcases h with rfl | rfl | rfl | rfl <;> decide
    · subst h; decide
  · unfold asksDay at h
    split at h <;> simp at h
    · rcases h with rfl | rfl <;> decide
    · rcases h with rfl | rfl <;> decide
  · unfold asksWeekday at h
    split at h <;> simp at h
    · rcases h with rfl | rfl | rfl | rfl <;> decide
    · subst h; decide
    · rcases h with rfl | rfl <;> decide

theorem right_says {e : FmtEnv} {p : Parts} {md : Option Char} {c : Char} {v : FmtVars}
    (hu : usesDate md c = true) (ht : usesTime md c = false) (h : Right e p md c v) :
    ∃ t v', conv e c md v = .ok (t, v') ∧
      ∀ n d, Agrees p n d → Says e.loc ⟨some (n, d), 0, none, none, none⟩ (.conv md c) t := by
  obtain ⟨t, v', h1, h2⟩ := h
  refine ⟨t, v', h1, fun n d ha => ?_⟩
  simp only [Says, hu, ht, Bool.and_false, Bool.false_eq_true, if_false, if_true]
  exact ⟨n, d, rfl, h2 n d ha⟩

theorem emit_parts {e : FmtEnv} {p : Parts} (F : Holds e.fds p) (hz : e.zone = none) (ho : e.offset = none)
    (v : FmtVars) (i : Item) (hp : Proper i) :
    (Lacks p i → emit e v i = .throw .runtimeError) ∧
    (¬ Lacks p i → ∃ t v', emit e v i = .ok (t, v') ∧
      ∀ n d, Agrees p n d → Says e.loc ⟨some (n, d), 0, none, none, none⟩ i t) := by
  cases i with
  | lit c => exact ⟨fun h => h.elim, fun _ => ⟨_, v, rfl, fun _ _ _ => rfl⟩⟩
  | conv md c =>
    by_cases hc : c ∈ convChars
    · have hem : emit e v (.conv md c) = conv e c md v := by simp [emit, hc]
      rw [hem]
      simp only [Proper] at hp
      obtain ⟨o1, o2, o3, o4⟩ := asks_one (md := md) (c := c)
      by_cases h1 : asksYear md c = true
      · obtain ⟨-, hu, ht⟩ := part_uses (Or.inl h1)
        obtain ⟨q1, q2, q3, q4⟩ := o1 h1
        have := conv_year F v md c h1
        simp only [Lacks, h1, q1, q2, q3, q4, true_and, false_and, or_false, Bool.false_eq_true]
        exact ⟨this.1, fun h => right_says hu ht (this.2 h)⟩
      by_cases h2 : asksMonth md c = true
      · obtain ⟨-, hu, ht⟩ := part_uses (Or.inr (Or.inl h2))
        obtain ⟨q1, q2, q3, q4⟩ := o2 h2
        have := conv_month F v md c h2
        simp only [Lacks, h2, q1, q2, q3, q4, true_and, false_and, or_false, false_or, Bool.false_eq_true]
        exact ⟨this.1, fun h => right_says hu ht (this.2 h)⟩
      by_cases h3 : asksDay md c = true
      · obtain ⟨-, hu, ht⟩ := part_uses (Or.inr (Or.inr (Or.inl h3)))
        obtain ⟨q1, q2, q3, q4⟩ := o3 h3
        have := conv_day F v md c h3
        simp only [Lacks, h3, q1, q2, q3, q4, true_and, false_and, or_false, false_or, Bool.false_eq_true]
        exact ⟨this.1, fun h => right_says hu ht (this.2 h)⟩
      by_cases h4 : asksWeekday md c = true
      · obtain ⟨-, hu, ht⟩ := part_uses (Or.inr (Or.inr (Or.inr h4)))
        obtain ⟨q1, q2, q3, q4⟩ := o4 h4
        have := conv_weekday F v md c h4
        simp only [Lacks, h4, q1, q2, q3, q4, true_and, false_and, or_false, false_or, Bool.false_eq_true]
        exact ⟨this.1, fun h => right_says hu ht (this.2 h)⟩
      by_cases h5 : asksMore md c = true
      · exact ⟨fun _ => conv_more F hz ho v md c h5,
          fun h => absurd (Or.inr (Or.inr (Or.inr (Or.inr h5)))) h⟩
      · refine ⟨fun h => ?_, fun _ => ?_⟩
        · exfalso
          rcases h with h | h | h | h | h
          · exact h1 h.1
          · exact h2 h.1
          · exact h3 h.1
          · exact h4 h.1
          · exact h5 h
        · obtain ⟨t, t1, t2⟩ := conv_nothing e v md c hc hp (by simpa using h1) (by simpa using h2)
            (by simpa using h3) (by simpa using h4) (by simpa using h5)
          exact ⟨t, v, t1, fun n d _ => t2 n d⟩
    · have hl : ¬ Lacks p (.conv md c) := by
        rintro (h | h | h | h | h)
        · exact hc (part_uses (Or.inl h.1)).1
        · exact hc (part_uses (Or.inr (Or.inl h.1))).1
        · exact hc (part_uses (Or.inr (Or.inr (Or.inl h.1)))).1
        · exact hc (part_uses (Or.inr (Or.inr (Or.inr h.1)))).1
        · exact hc (more_conv h)
      refine ⟨fun h => absurd h hl, fun _ => ?_⟩
      have hu : usesDate md c = false ∧ usesTime md c = false ∧ c ≠ 'z' ∧ c ≠ 'Z' ∧ c ≠ 'j' ∧ c ≠ 'n' ∧ c ≠ 't' := by
        simp only [Proper] at hp
        simp only [convChars, List.mem_cons, List.not_mem_nil, or_false, not_or] at hc
        rcases hp with rfl | rfl | rfl <;> simp [usesDate, usesTime, hc]
      obtain ⟨u1, u2, u3, u4, u5, u6, u7⟩ := hu
      simp only [emit, if_neg hc, Says, u1, u2, u3, u4, u5, u6, u7, Bool.and_false, Bool.false_eq_true, if_false, and_false]
      split
      · exact ⟨_, v, rfl, fun _ _ _ => rfl⟩
      · exact ⟨_, v, rfl, fun _ _ _ => rfl⟩

theorem emitAll_parts {e : FmtEnv} {p : Parts} (F : Holds e.fds p) (hz : e.zone = none) (ho : e.offset = none)
    (is : List Item) : ∀ v : FmtVars, (∀ i ∈ is, Proper i) →
    ((∃ i ∈ is, Lacks p i) → emitAll e v is = .throw .runtimeError) ∧
    ((∀ i ∈ is, ¬ Lacks p i) → ∃ t, emitAll e v is = .ok t ∧ RightAll e.loc p is t) := by
  induction is with
  | nil => intro v _; exact ⟨by simp, fun _ => ⟨[], rfl, rfl⟩⟩
  | cons i is ih =>
    intro v hp
    have key := emit_parts F hz ho v i (hp i (by simp))
    by_cases hm : Lacks p i
    · refine ⟨fun _ => ?_, fun h => absurd hm (h i (by simp))⟩
      rw [emitAll, key.1 hm]; rfl
    · obtain ⟨t, v', h1, h3⟩ := key.2 hm
      obtain ⟨i1, i2⟩ := ih v' (fun j hj => hp j (by simp [hj]))
      constructor
      · rintro ⟨j, hj, hmj⟩
        rcases List.mem_cons.mp hj with rfl | hj
        · exact absurd hmj hm
        · rw [emitAll, h1]
          simp only [Res.ok_bind]
          rw [i1 ⟨j, hj, hmj⟩]; rfl
      · intro h
        obtain ⟨r, r1, r2⟩ := i2 fun j hj => h j (by simp [hj])
        refine ⟨t ++ r, ?_, t, r, rfl, h3, r2⟩
        rw [emitAll, h1]
        simp only [Res.ok_bind, r1, Res.pure_eq]

/-- The value `f` is formatted like something of which exactly the parts `p` are known. -/
def FormatsAs (loc : TimePut) (f : Fields) (p : Parts) : Prop :=
  ∀ fmt, ((∃ i ∈ items fmt, Lacks p i) → formatFields loc f fmt = .throw .runtimeError) ∧
    ((∀ i ∈ items fmt, ¬ Lacks p i) → ∃ t, formatFields loc f fmt = .ok t ∧ RightAll loc p (items fmt) t)

theorem formatsAs {f : Fields} {p : Parts} (F : Holds f p) (loc : TimePut) : FormatsAs loc f p := by
  intro fmt
  unfold formatFields
  rw [toStream_items]
  exact emitAll_parts (e := ⟨1, loc, f, none, none⟩) F rfl rfl _ _ (items_proper fmt)

theorem ok_parts {x : YMD} (h : x.ok = true) : yearOk x.y = true ∧ monthOk x.m = true ∧ 1 ≤ x.d.toNat := by
  unfold YMD.ok at h
  split at h
  · cases h
  · rename_i h'
    simp only [Bool.not_eq_true', Bool.not_eq_false', Bool.and_eq_true] at h h'
    simp only [Bool.not_eq_false, Bool.and_eq_true, decide_eq_true_eq, UInt8.le_iff_toNat_le] at h h'
    exact ⟨h'.1, h'.2, h.1⟩

/-- Two values that differ at most in the weekday, from which the same weekday is taken, are formatted alike. -/
theorem conv_weekday_only {e e' : FmtEnv} (hT : e'.T = e.T) (hl : e'.loc = e.loc) (hz : e'.zone = e.zone) (ho : e'.offset = e.offset)
    (h1 : e'.fds.ymd = e.fds.ymd) (h2 : e'.fds.tod = e.fds.tod) (h3 : e'.fds.hasTod = e.fds.hasTod)
    (hw : extractWeekday e'.fds = extractWeekday e.fds) (c : Char) (md : Option Char) (v : FmtVars) :
    conv e' c md v = conv e c md v := by
  have hm : extractMonth e'.fds = extractMonth e.fds := by unfold extractMonth; rw [h1]
  have ht : ∀ ld wd, weekText e'.fds ld wd = weekText e.fds ld wd := by intro ld wd; unfold weekText; rw [h1]
  have hu : ∀ ld tm, weekTm e'.fds ld tm = weekTm e.fds ld tm := by intro ld tm; unfold weekTm; rw [hw, h1]
  unfold conv
  simp only [hT, hl, hz, ho, h1, h2, h3, hw, hm, ht, hu]

theorem fmtLoop_weekday_only {e e' : FmtEnv} (h : ∀ c md v, conv e' c md v = conv e c md v) :
    ∀ (cs : List Char) (s : FmtState), fmtLoop e' s cs = fmtLoop e s cs := by
  intro cs
  induction cs with
  | nil => intro s; rfl
  | cons c cs ih =>
    intro s
    have hs : fmtStep e' s c = fmtStep e s c := by unfold fmtStep; simp only [h]
    simp only [fmtLoop, hs, ih]

theorem extract_right {x : YMD} {w : UInt8} (h : x.ok = true) {n : Int} (hn : x.toDays = .ok n)
    (hw : weekdayOk w = true) : extractWeekday { ymd := x, wd := w } =
      if weekday n = w then extractWeekday (fieldsDate x) else .throw .runtimeError := by
  have h8 : weekdayOk 8 = false := by decide
  unfold extractWeekday
  simp only [fieldsDate, h, hw, hn, h8]
  split <;> simp_all [failure]

theorem emit_wrong_weekday {e : FmtEnv} (h : extractWeekday e.fds = .throw .runtimeError) (v : FmtVars) {md : Option Char} {c : Char}
    (hc : asksWeekday md c = true) : emit e v (.conv md c) = .throw .runtimeError := by
  have hcv := (part_uses (md := md) (c := c) (Or.inr (Or.inr (Or.inr hc)))).1
  have hmd : md = none ∨ md = some 'E' ∨ md = some 'O' := by
    unfold asksWeekday at hc
    split at hc <;> simp_all
  simp only [emit, hcv, if_true]
  rcases hmd with rfl | rfl | rfl <;> simp [asksWeekday] at hc
  · rcases hc with rfl | rfl | rfl | rfl <;> simp [conv, h]
  · subst hc; simp [conv, h]
  · rcases hc with rfl | rfl <;> simp [conv, h]

theorem emitAll_wrong_weekday {e : FmtEnv} (h : extractWeekday e.fds = .throw .runtimeError) {md : Option Char} {c : Char}
    (hc : asksWeekday md c = true) : ∀ (is : List Item) (v : FmtVars), .conv md c ∈ is → ∀ t, emitAll e v is ≠ .ok t := by
  intro is
  induction is with
  | nil => intro v hi; simp at hi
  | cons i is ih =>
    intro v hi t ht
    rw [emitAll] at ht
    rcases List.mem_cons.mp hi with rfl | hi
    · rw [emit_wrong_weekday h v hc] at ht; cases ht
    · rcases he : emit e v i with ⟨u, v'⟩ | _ | _ | _ | _ <;> rw [he] at ht <;> try (cases ht; done)
      simp only [Res.ok_bind] at ht
      rcases hr : emitAll e v' is with r | _ | _ | _ | _ <;> rw [hr] at ht <;> try (cases ht; done)
      exact ih v' hi r hr

/-! ### C113 -/

/-- A year. -/
theorem c113_year (loc : TimePut) (y : Int16) : FormatsAs loc (fieldsYear y) { year := aYear y.toInt } := by
  refine formatsAs ⟨?_, rfl, rfl, rfl, rfl, rfl⟩ loc
  cases h : (fieldsYear y).ymd.ok with
  | false => rfl
  | true => have := (ok_parts h).2.1; cases this

/-- A month. -/
theorem c113_month (loc : TimePut) (m : UInt8) : FormatsAs loc (fieldsMonth m) { month := aMonth m.toNat } := by
  refine formatsAs ⟨?_, rfl, rfl, rfl, rfl, rfl⟩ loc
  cases h : (fieldsMonth m).ymd.ok with
  | false => rfl
  | true => have := (ok_parts h).1; cases this

/-- A day. -/
theorem c113_day (loc : TimePut) (d : UInt8) : FormatsAs loc (fieldsDay d) { day := aDay d.toNat } := by
  refine formatsAs ⟨?_, rfl, rfl, rfl, rfl, rfl⟩ loc
  cases h : (fieldsDay d).ymd.ok with
  | false => rfl
  | true => have := (ok_parts h).1; cases this

/-- A weekday. -/
theorem c113_weekday (loc : TimePut) (w : UInt8) : FormatsAs loc (fieldsWeekday w) { wday := aWeekday w.toNat } := by
  refine formatsAs ⟨?_, rfl, rfl, rfl, rfl, rfl⟩ loc
  cases h : (fieldsWeekday w).ymd.ok with
  | false => rfl
  | true => have := (ok_parts h).1; cases this

/-- A month of a year. -/
theorem c113_year_month (loc : TimePut) (x : YM) :
    FormatsAs loc (fieldsYearMonth x) { year := aYear x.y.toInt, month := aMonth x.m.toNat } := by
  refine formatsAs ⟨?_, rfl, rfl, rfl, rfl, rfl⟩ loc
  cases h : (fieldsYearMonth x).ymd.ok with
  | false => rfl
  | true => exact absurd (ok_parts h).2.2 (show ¬ 1 ≤ (0 : UInt8).toNat by decide)

/-- A day of a month. -/
theorem c113_month_day (loc : TimePut) (m d : UInt8) :
    FormatsAs loc (fieldsMonthDay m d) { month := aMonth m.toNat, day := aDay d.toNat } := by
  refine formatsAs ⟨?_, rfl, rfl, rfl, rfl, rfl⟩ loc
  cases h : (fieldsMonthDay m d).ymd.ok with
  | false => rfl
  | true => have := (ok_parts h).1; cases this

/-- A triple of year, month and day that is no date of the calendar. -/
theorem c113_no_date (loc : TimePut) (x : YMD)
    (h : ¬ (Date.Valid ⟨x.y.toInt, x.m.toNat, x.d.toNat⟩ ∧ x.y.toInt ≠ -32768)) :
    FormatsAs loc (fieldsDate x)
      { year := aYear x.y.toInt, month := aMonth x.m.toNat, day := aDay x.d.toNat } := by
  refine formatsAs ⟨?_, rfl, rfl, rfl, rfl, rfl⟩ loc
  cases h' : (fieldsDate x).ymd.ok with
  | false => rfl
  | true => exact absurd ((c72_ok x).mp h') h

/-- A date together with a weekday: the right weekday changes nothing; with a wrong one no weekday is written. -/
theorem c113_date_and_weekday (loc : TimePut) (x : YMD) (n : Int) (hd : DayOf n ⟨x.y.toInt, x.m.toNat, x.d.toNat⟩)
    (hy : x.y.toInt ≠ -32768) (w : UInt8) (hw : w.toNat < 7) :
    (w.toNat = dayOfWeek n → ∀ fmt, formatFields loc { ymd := x, wd := w } fmt = formatFields loc (fieldsDate x) fmt) ∧
    (w.toNat ≠ dayOfWeek n → ∀ fmt, (∃ md c, .conv md c ∈ items fmt ∧ asksWeekday md c = true) →
      ∀ t, formatFields loc { ymd := x, wd := w } fmt ≠ .ok t) := by
  have hv := (Calc.dayOf_iff.mp hd).1
  have hn := (Calc.dayOf_iff.mp hd).2
  have hok : x.ok = true := (c72_ok x).mpr ⟨hv, hy⟩
  have hr := dayNum_range x.y x.m x.d
  have en : Calc.dayNum x.y.toInt (val x.m) (val x.d) = n := hn
  have hw' : weekdayOk w = true := (weekdayOk_iff w).mpr hw
  have ht : x.toDays = .ok n := by rw [toDays_eq, en]
  have hq := extract_right hok ht hw'
  have hk : (weekday n).toNat = dayOfWeek n := c73_weekday (by omega) (by omega)
  refine ⟨fun h fmt => ?_, fun h fmt hi t => ?_⟩
  · rw [if_pos (UInt8.toNat_inj.mp (hk.trans h.symm))] at hq
    unfold formatFields toStream
    have hc := conv_weekday_only (e := ⟨1, loc, fieldsDate x, none, none⟩) (e' := ⟨1, loc, { ymd := x, wd := w }, none, none⟩)
      rfl rfl rfl rfl rfl rfl rfl hq
    simp only [fmtLoop_weekday_only hc]
    simp only [fieldsDate, Bool.false_and]
  · rw [if_neg (fun e => h (by rw [← hk, e]))] at hq
    obtain ⟨md, c, h1, h2⟩ := hi
    unfold formatFields
    rw [toStream_items]
    exact emitAll_wrong_weekday (e := ⟨1, loc, { ymd := x, wd := w }, none, none⟩) hq h2 _ _ h1 t

-- the known parts are written
example : formatFields put0 (fieldsYearMonth ⟨1987, 6⟩) "%m/%y, the %Cth".toList = .ok "06/87, the 19th".toList := by
  decide +kernel
example : formatFields put0 (fieldsMonthDay 2 30) "%e.%m.".toList = .ok "30.02.".toList := by decide +kernel
example : formatFields put0 (fieldsWeekday 0) "%u or %w".toList = .ok "7 or 0".toList := by decide +kernel
example : formatFields put0 (fieldsDate ⟨2001, 2, 30⟩) "%d.%m.%Y".toList = .ok "30.02.2001".toList := by decide +kernel
-- unknown ones are an error
example : formatFields put0 (fieldsMonthDay 2 29) "%Y".toList = .throw .runtimeError := by decide +kernel
example : formatFields put0 (fieldsDate ⟨2001, 2, 30⟩) "%F".toList = .throw .runtimeError := by decide +kernel
example : ∀ i ∈ items "%e.%m.".toList, ¬ Lacks { month := aMonth 2, day := aDay 30 } i := by
  rw [show items "%e.%m.".toList = [.conv none 'e', .lit '.', .conv none 'm', .lit '.'] by decide +kernel]
  simp [Lacks, asksYear, asksMonth, asksDay, asksWeekday, asksMore, aMonth, aDay]
example : ¬ (Date.Valid ⟨2001, 2, 30⟩ ∧ (2001 : Int) ≠ -32768) := by decide +kernel
-- Monday, 16 November 2026
example : formatFields put0 { ymd := ⟨2026, 11, 16⟩, wd := 1 } "%F %u".toList = .ok "2026-11-16 1".toList := by decide +kernel
example : formatFields put0 { ymd := ⟨2026, 11, 16⟩, wd := 2 } "%F %u".toList = .throw .runtimeError := by decide +kernel
example : DayOf 20773 ⟨2026, 11, 16⟩ := Calc.dayOf_iff.mpr ⟨by decide +kernel, by decide +kernel⟩

end Gul14.Date.Incomplete
