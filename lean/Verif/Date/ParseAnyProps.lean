import Verif.Date.ParseAnyLoop
import Verif.Date.ParseTotalProps
import Verif.Date.ParseNamesProps

/-! # C94: parse ends, without undefined behaviour, for every format -/
namespace Gul14.Date.AnyFormat
open Gul14.Date.Names
open Gul14.Spec.Calendar Gul14.Spec.DateText Gul14.Spec.DateFormat Gul14.Spec.DateParse Gul14.Spec.DateParse.AnyFormat

/-- Calendar types: whatever the format and the text are, the text is accepted or not. -/
theorem c94_any_calendar_partial (get : TimeGet) (hg : Sensible get.get) (fmt text : List Char) (hw : Widths fmt)
    (hz : 'z' ∈ fmt → OffsetsComplete text) :
    (∃ is r, parseDate get fmt ⟨text, false, false⟩ = .ok (is, r)) ∧ (∃ is r, parseYear get fmt ⟨text, false, false⟩ = .ok (is, r)) ∧
    (∃ is r, parseMonth get fmt ⟨text, false, false⟩ = .ok (is, r)) ∧ (∃ is r, parseDay get fmt ⟨text, false, false⟩ = .ok (is, r)) ∧
    (∃ is r, parseWeekday get fmt ⟨text, false, false⟩ = .ok (is, r)) ∧ (∃ is r, parseYearMonth get fmt ⟨text, false, false⟩ = .ok (is, r)) ∧
    (∃ is r, parseMonthDay get fmt ⟨text, false, false⟩ = .ok (is, r)) := by
  have key : ∀ {α : Type} (ok : Fields → Bool) (g : Fields → α), ∃ is r, parseFields get fmt ok g ⟨text, false, false⟩ = .ok (is, r) := by
    intro α ok g
    obtain ⟨is, r, h⟩ := fromStream_any (e := ⟨1, get⟩) (by norm_num) hg {} (fmt := fmt) (text := text)
      ⟨fun _ => secondsFit (show fractionalWidth 1 ≤ 7 by decide +kernel) text, hz⟩ hw
    unfold parseFields
    rw [h]
    rcases r with _ | r
    · exact ⟨_, _, rfl⟩
    · simp only [Res.ok_bind]
      split <;> exact ⟨_, _, rfl⟩
  exact ⟨key _ _, key _ _, key _ _, key _ _, key _ _, key _ _, key _ _⟩

/-- Points in time and durations, with ticks of pn/T seconds. -/
theorem c94_any_time_partial (pn T : Nat) (hT : T ∣ 10 ^ 16) (get : TimeGet) (hg : Sensible get.get) (fmt text : List Char) (hw : Widths fmt)
    (hs : SafeFor fmt (fractionalWidth T) text) :
    (∀ off, ∃ is r, parseSys pn T get fmt off ⟨text, false, false⟩ = .ok (is, r)) ∧
    (∃ is r, parseLocal pn T get fmt ⟨text, false, false⟩ = .ok (is, r)) ∧
    (∃ is r, parseDuration pn T get fmt ⟨text, false, false⟩ = .ok (is, r)) := by
  refine ⟨fun off => ?_, ?_, ?_⟩
  · obtain ⟨is, r, h⟩ := fromStream_any (e := ⟨T, get⟩) hT hg { hasTod := true } hs hw
    unfold parseSys
    rw [h]
    rcases r with _ | r
    · exact ⟨_, _, rfl⟩
    · simp only [Res.ok_bind, toDays_eq]
      split <;> exact ⟨_, _, rfl⟩
  · obtain ⟨is, r, h⟩ := fromStream_any (e := ⟨T, get⟩) hT hg { hasTod := true } hs hw
    unfold parseLocal
    rw [h]
    rcases r with _ | r
    · exact ⟨_, _, rfl⟩
    · simp only [Res.ok_bind, toDays_eq]
      split <;> exact ⟨_, _, rfl⟩
  · obtain ⟨is, r, h⟩ := fromStream_any (e := ⟨T, get⟩) hT hg {} hs hw
    unfold parseDuration
    rw [h]
    rcases r with _ | r
    · exact ⟨_, _, rfl⟩
    · simp only [Res.ok_bind]
      split <;> exact ⟨_, _, rfl⟩

/-- Larger widths are not safe: a week of nine digits is multiplied by seven, a century of eight digits by a hundred, and the width itself may
be too large. -/
theorem c94_widths_violated :
    parseDate get0 "%G %9V %u".toList ⟨"2020 999999999 1".toList, false, false⟩ = .ub ∧
    parseDate get0 "%8C%y".toList ⟨"9999999999".toList, false, false⟩ = .ub ∧
    parseDate get0 "%9999999999Y".toList ⟨"2020".toList, false, false⟩ = .ub := by
  refine ⟨by decide +kernel, by decide +kernel, by decide +kernel⟩

/-! ### Examples -/

theorem widths_of {fmt : List Char} (h : ∀ k ≤ fmt.length, (fmt.drop k).head? = some '%' → ∀ j ≤ fmt.length,
    ((fmt.drop (k + 1)).take j).all (· == 't') = true →
    ((fmt.drop (k + 1 + j)).takeWhile isDigit = [] ∨ (1 ≤ value ((fmt.drop (k + 1 + j)).takeWhile isDigit) ∧
      value ((fmt.drop (k + 1 + j)).takeWhile isDigit) ≤ 7))) : Widths fmt := by
  intro a t b e ht
  have e1 : fmt.drop (a.length + 1) = t ++ b := by rw [e]; simp [List.drop_append]
  have e2 : fmt.drop (a.length + 1 + t.length) = b := by rw [← List.drop_drop, e1, List.drop_left]
  have := h a.length (by rw [e]; simp) (by rw [e]; simp) t.length (by rw [e]; simp; omega) (by
    rw [e1, List.take_left, List.all_eq_true]
    intro x hx
    simp [ht x hx])
  rw [e2] at this
  exact this

theorem lookup_lt {names : List (List Char)} {w : List Char} {i : Nat} (h : lookup names w = some i) : i < names.length := by
  unfold lookup at h
  exact (List.findIdx?_eq_some_iff_findIdx_eq.mp h).1

/-- The facet with English names is of this kind. -/
theorem english_sensible : Sensible englishGet.get := by
  intro tm f s
  have hs : ∃ taken, s = taken ++ s.dropWhile Letter := ⟨_, (List.takeWhile_append_dropWhile ..).symm⟩
  simp only [englishGet]
  split
  · split
    · rename_i i hi
      have := lookup_lt hi
      simp [weekdays] at this
      refine ⟨fun hu _ => ?_, hs⟩
      obtain ⟨h1, h2, h3, h4, h5, h6, h7⟩ := hu
      exact ⟨h1, h2, h3, h4, h5, h6, by simp only; omega⟩
    · exact ⟨fun hu _ => hu, hs⟩
  · split
    · split
      · rename_i i hi
        have := lookup_lt hi
        simp [months] at this
        refine ⟨fun hu _ => ?_, hs⟩
        obtain ⟨h1, h2, h3, h4, h5, h6, h7⟩ := hu
        exact ⟨h1, h2, h3, h4, by simp only; omega, h6, h7⟩
      · exact ⟨fun hu _ => hu, hs⟩
    · split
      · rename_i hp
        split
        · rename_i i hi
          have := lookup_lt hi
          simp [halves] at this
          refine ⟨fun hu hh => ?_, hs⟩
          obtain ⟨h1, h2, h3, h4, h5, h6, h7⟩ := hu
          have h1' : tm.hour = 1 := hh (by
            rcases f with _ | ⟨x, f⟩
            · exact absurd hp (by decide)
            · rw [List.getLastD_cons] at hp
              rw [List.getLast?_cons, List.getLastD_eq_getLast?] at *
              rw [hp])
          exact ⟨h1, h2, by simp only; omega, h4, h5, h6, h7⟩
        · exact ⟨fun hu _ => hu, hs⟩
      · exact ⟨fun hu _ => hu, [], rfl⟩

/-- Names, a width, a twelve-hour clock and an offset; a text that is accepted and one that is not. -/
example : Sensible englishGet.get ∧ Widths "%a %e %b %6Y %I:%M %p %z".toList ∧
    OffsetsComplete "Tue 28 Feb 2023 10:00 PM -0130".toList ∧ OffsetsComplete "Thu 29 Feb 2023 10:00 PM -0130".toList ∧
    SafeFor "%a %e %b %6Y %I:%M %p %z".toList (fractionalWidth 1) "Tue 28 Feb 2023 10:00 PM -0130".toList ∧
    (∃ is p, parseSys 1 1 englishGet "%a %e %b %6Y %I:%M %p %z".toList 0 ⟨"Tue 28 Feb 2023 10:00 PM -0130".toList, false, false⟩ =
      .ok (is, some (1677627000, p))) ∧
    (∃ is, parseSys 1 1 englishGet "%a %e %b %6Y %I:%M %p %z".toList 0 ⟨"Thu 29 Feb 2023 10:00 PM -0130".toList, false, false⟩ =
      .ok (is, none)) := by
  have h : OffsetsComplete "Tue 28 Feb 2023 10:00 PM -0130".toList := offsets_of (by decide)
  refine ⟨english_sensible, widths_of (by decide), h, offsets_of (by decide), ⟨fun _ => secondsFit (by decide +kernel) _, fun _ => h⟩,
    ⟨⟨[], false, false⟩, ⟨⟨⟨2023, 2, 28⟩, 2, ⟨22, 0, 0, 0, false⟩, true⟩, [], some (-90)⟩, by decide +kernel⟩,
    ⟨⟨[], false, true⟩, by decide +kernel⟩⟩

end Gul14.Date.AnyFormat
