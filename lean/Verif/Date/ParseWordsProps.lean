import Verif.Date.ParseWordsClaims
import Verif.Date.ParseNamesProps

/-! # C93: parse accepts only texts that say the result: names, twelve-hour clock and zone -/
namespace Gul14.Date.Words
open Gul14.Spec.Calendar Gul14.Spec.DateText Gul14.Spec.DateFormat Gul14.Spec.DateParse

/-- A date.  The facet of the locale accepts only words of a language. -/
theorem c93_names_date_partial (W : Words) (get : TimeGet) (hW : KnowsWords W get.get) (fmt text : List Char) (is : IStream) (ymd : YMD) (hr : ∀ i ∈ items fmt, Wordy i)
    (hc : CoherentWords (letters (items fmt))) (h : parseDate get fmt ⟨text, false, false⟩ = .ok (is, some ymd)) :
    ∃ x z, Claim.Consistent x ∧ Split (AgreesWords W z 1 0 x) (items fmt) text is.rest ∧ x.d = ⟨ymd.y.toInt, ymd.m.toNat, ymd.d.toNat⟩ := by
  unfold parseDate parseFields at h
  obtain ⟨⟨is', r⟩, h1, h⟩ := bind_ok h
  rcases r with _ | r
  · cases h
  · simp only at h
    split at h
    · rename_i hok
      simp only [Res.pure_eq, Res.ok.injEq, Prod.mk.injEq, Option.some.injEq] at h
      obtain ⟨rfl, rfl⟩ := h
      have w0 : fractionalWidth 1 = 0 := by decide +kernel
      obtain ⟨x, a1, -, a3, -, a4, -⟩ := fromStream_words_claim (e := ⟨1, get⟩) (by simp) (by simp) (by simp [w0]) hW hr hc h1 hok
      refine ⟨x, r.abbr, a1, ?_, a4.symm⟩
      simpa [w0] using a3
    · cases h

/-- A point in time, with ticks of pn/T seconds: the day and the time that the text says, in the time zone with the offset that it says.
(If there is no `%z`, then the value that the caller's offset has before the call is used; it is 0 if the caller gives none.) -/
theorem c93_names_sys_time_partial (pn T : Nat) (hpn : 0 < pn) (hT : T ≤ 10 ^ 15) (hT' : T ∣ 10 ^ 16) (W : Words) (get : TimeGet) (hW : KnowsWords W get.get) (off : Int) (fmt text : List Char)
    (is : IStream) (r : Int) (p : Parsed) (hr : ∀ i ∈ items fmt, Wordy i) (hc : CoherentWords (letters (items fmt)))
    (h : parseSys pn T get fmt off ⟨text, false, false⟩ = .ok (is, some (r, p))) :
    ∃ x : Claim, x.Consistent ∧ x.RestWords (letters (items fmt)) ∧ Split (AgreesWords W p.abbr T (fractionalWidth T) x) (items fmt) text is.rest ∧
      ('Z' ∉ letters (items fmt) → p.abbr = []) ∧ x.h < 24 ∧ x.m < 60 ∧ 0 ≤ x.s ∧ x.s < 60 * T ∧ p.offset = (if 'z' ∈ letters (items fmt) then some x.o else none) ∧
      Nearest pn (x.n * (86400 * T) + x.h * (3600 * T) + x.m * (60 * T) + x.s -
        (if 'z' ∈ letters (items fmt) then x.o else off) * (60 * T)) r := by
  obtain ⟨hw, hw'⟩ := fractionalWidth_le hT'
  have hT0 := pos_of_dvd hT'
  unfold parseSys at h
  obtain ⟨⟨is', q⟩, h1, h⟩ := bind_ok h
  rcases q with _ | q
  · cases h
  · simp only at h
    split at h
    · cases h
    · rename_i hok
      simp only [Bool.or_eq_true, Bool.not_eq_true', not_or, Bool.not_eq_false] at hok
      obtain ⟨x, a1, a2, a3, az, a4, a5, a6, a7, a8⟩ := fromStream_words_claim (e := ⟨T, get⟩) hT0 hT hw hW hr hc h1 hok.1
      simp only [a5, Res.ok_bind, Res.pure_eq, Res.ok.injEq, Prod.mk.injEq, Option.some.injEq] at h
      obtain ⟨rfl, rfl, rfl⟩ := h
      have hcv := hok.2
      rw [a6] at hcv
      obtain ⟨b1, b2, b3⟩ := conventional_bounds hT0 a7 hcv
      refine ⟨x, a1, a2, a3, az, b1, b2, a7, b3, a8, toTarget_nearest hpn ?_⟩
      rw [Int.add_mul, a6, toDuration_of hT0 hw', a8, pow10_eq]
      push_cast
      by_cases hz : 'z' ∈ letters (items fmt) <;> simp only [hz, if_true, if_false, Option.getD] <;> ring

/-- Local time. -/
theorem c93_names_local_time_partial (pn T : Nat) (hpn : 0 < pn) (hT : T ≤ 10 ^ 15) (hT' : T ∣ 10 ^ 16) (W : Words) (get : TimeGet) (hW : KnowsWords W get.get) (fmt text : List Char)
    (is : IStream) (r : Int) (p : Parsed) (hr : ∀ i ∈ items fmt, Wordy i) (hc : CoherentWords (letters (items fmt)))
    (h : parseLocal pn T get fmt ⟨text, false, false⟩ = .ok (is, some (r, p))) :
    ∃ x : Claim, x.Consistent ∧ x.RestWords (letters (items fmt)) ∧ Split (AgreesWords W p.abbr T (fractionalWidth T) x) (items fmt) text is.rest ∧
      ('Z' ∉ letters (items fmt) → p.abbr = []) ∧ x.h < 24 ∧ x.m < 60 ∧ 0 ≤ x.s ∧ x.s < 60 * T ∧ p.offset = (if 'z' ∈ letters (items fmt) then some x.o else none) ∧
      Nearest pn (x.n * (86400 * T) + x.h * (3600 * T) + x.m * (60 * T) + x.s) r := by
  obtain ⟨hw, hw'⟩ := fractionalWidth_le hT'
  have hT0 := pos_of_dvd hT'
  unfold parseLocal at h
  obtain ⟨⟨is', q⟩, h1, h⟩ := bind_ok h
  rcases q with _ | q
  · cases h
  · simp only at h
    split at h
    · cases h
    · rename_i hok
      simp only [Bool.or_eq_true, Bool.not_eq_true', not_or, Bool.not_eq_false] at hok
      obtain ⟨x, a1, a2, a3, az, a4, a5, a6, a7, a8⟩ := fromStream_words_claim (e := ⟨T, get⟩) hT0 hT hw hW hr hc h1 hok.1
      simp only [a5, Res.ok_bind, Res.pure_eq, Res.ok.injEq, Prod.mk.injEq, Option.some.injEq] at h
      obtain ⟨rfl, rfl, rfl⟩ := h
      have hcv := hok.2
      rw [a6] at hcv
      obtain ⟨b1, b2, b3⟩ := conventional_bounds hT0 a7 hcv
      refine ⟨x, a1, a2, a3, az, b1, b2, a7, b3, a8, toTarget_nearest hpn ?_⟩
      rw [Int.add_mul, a6, toDuration_of hT0 hw', pow10_eq]
      push_cast
      ring

/-! ### English -/

open Gul14.Date.Names (englishGet lookup weekdays months halves)

/-- English names, in full or with three letters. -/
def english : Words where
  weekday w a := lookup weekdays a = some w
  month m a := 1 ≤ m ∧ lookup months a = some (m - 1)
  half b a := lookup halves a = some (if b then 1 else 0)

theorem lookup_lt {names : List (List Char)} {a : List Char} {i : Nat} (h : lookup names a = some i) : i < names.length := by
  unfold lookup at h
  exact (List.findIdx?_eq_some_iff_getElem.mp h).1

theorem english_knows : KnowsWords english englishGet.get := by
  refine ⟨?_, ?_, ?_⟩
  · intro c hc old new t r e h
    have hc' : c = 'a' ∨ c = 'A' := by simpa using hc
    simp only [englishGet, List.getLastD_cons, List.getLastD_nil, if_pos hc'] at h
    rcases hl : lookup weekdays (t.takeWhile Letter) with _ | i <;> rw [hl] at h <;> simp only [Prod.mk.injEq] at h
    · exact absurd h.2.2.2 (by simp)
    · obtain ⟨rfl, rfl, -⟩ := h
      have : i < 7 := lookup_lt hl
      exact ⟨_, i, List.takeWhile_append_dropWhile.symm, hl, by omega, rfl⟩
  · intro c hc old new t r e h
    have hc' : c = 'b' ∨ c = 'B' ∨ c = 'h' := by simpa using hc
    have hn : ¬ (c = 'a' ∨ c = 'A') := by rcases hc' with rfl | rfl | rfl <;> decide
    simp only [englishGet, List.getLastD_cons, List.getLastD_nil, if_neg hn, if_pos hc'] at h
    rcases hl : lookup months (t.takeWhile Letter) with _ | i <;> rw [hl] at h <;> simp only [Prod.mk.injEq] at h
    · exact absurd h.2.2.2 (by simp)
    · obtain ⟨rfl, rfl, -⟩ := h
      have : i < 12 := lookup_lt hl
      exact ⟨_, i + 1, List.takeWhile_append_dropWhile.symm, ⟨by omega, hl⟩, by omega, by omega, by simp⟩
  · intro old new t r e h ho
    simp only [englishGet, List.getLastD_cons, List.getLastD_nil] at h
    rw [if_neg (by decide), if_neg (by decide), if_pos trivial] at h
    rcases hl : lookup halves (t.takeWhile Letter) with _ | i <;> rw [hl] at h <;> simp only [Prod.mk.injEq] at h
    · exact absurd h.2.2.2 (by simp)
    · obtain ⟨rfl, rfl, -⟩ := h
      have : i < 2 := lookup_lt hl
      refine ⟨_, decide (i = 1), List.takeWhile_append_dropWhile.symm, ?_, ?_⟩
      · show lookup _ _ = _
        rw [hl]
        congr 1
        by_cases hi : i = 1 <;> simp [hi] <;> omega
      · by_cases hi : i = 1 <;> simp [hi, ho] <;> omega

instance : DecidablePred Wordy := fun i => by cases i <;> unfold Wordy <;> infer_instance

theorem take_of_append {t a b : List Char} (h : t = a ++ b) : ∃ k ≤ t.length, a = t.take k ∧ b = t.drop k :=
  ⟨a.length, by rw [h]; simp, by rw [h]; simp, by rw [h]; simp⟩

/-- The general statement fails for formats that are excluded here.  The half of the day is ignored if the hour is on a clock of 24
hours: 13 AM is accepted.  And what comes after `%t` is not compared if the text ends there. -/
theorem c93_names_violated :
    ((∀ i ∈ items "%H%p%F".toList, Wordy i) ∧
      (∃ p, parseSys 1 1 englishGet "%H%p%F".toList 0 ⟨"13AM2023-01-01".toList, false, false⟩ = .ok (⟨[], false, false⟩, some (1672578000, p))) ∧
      ¬ ∃ x z, Split (AgreesWords english z 1 0 x) (items "%H%p%F".toList) "13AM2023-01-01".toList []) ∧
    parseDate get0 "%F%tE".toList ⟨"2023-01-01".toList, false, false⟩ = .ok (⟨[], true, false⟩, some ⟨2023, 1, 1⟩) ∧
    'E' ∉ "2023-01-01".toList := by
  refine ⟨⟨by decide +kernel, ⟨⟨⟨⟨2023, 1, 1⟩, 0, ⟨13, 0, 0, 0, false⟩, true⟩, [], none⟩, by decide +kernel⟩, ?_⟩, by decide +kernel, by decide⟩
  rintro ⟨x, z, h⟩
  obtain ⟨a, b, h1, h2, c, d, h3, h4, -⟩ := h
  change Num 2 x.h a at h2
  change lookup halves c = some (if decide (12 ≤ x.h) then 1 else 0) at h4
  obtain ⟨k, -, e1, e2⟩ := take_of_append h1
  obtain ⟨j, hj, e3, -⟩ := take_of_append h3
  obtain ⟨n1, n2, -, n4⟩ := h2
  have hl : b.length ≤ 14 := by rw [e2]; simp
  have hk : a = "1".toList ∨ a = "13".toList := by
    rcases Nat.lt_or_ge k 3 with hk | hk
    · rcases show k = 0 ∨ k = 1 ∨ k = 2 by omega with rfl | rfl | rfl
      · exact absurd e1 n1
      · exact Or.inl e1
      · exact Or.inr e1
    · exfalso
      rw [e1] at n2
      simp at n2
      omega
  rcases hk with rfl | rfl
  · have hb : b = "3AM2023-01-01".toList := by
      have := h1
      simpa using this.symm
    rw [e3, hb] at h4
    have : ∀ j ≤ 14, lookup halves ("3AM2023-01-01".toList.take j) = none := by decide +kernel
    rw [this j (by omega)] at h4
    cases h4
  · have hb : b = "AM2023-01-01".toList := by
      have := h1
      simpa using this.symm
    have h13 : x.h = 13 := by rw [← n4]; decide
    rw [e3, hb, h13] at h4
    have : ∀ j ≤ 14, lookup halves ("AM2023-01-01".toList.take j) ≠ some 1 := by decide +kernel
    exact this j (by omega) h4

/-! ### Examples -/

/-- A Sunday: the text says half past one in the afternoon. -/
example : ∃ x : Claim, Split (AgreesWords english "CET".toList 1 0 x) (items "%a %b %e %Y, %I:%M %p %Z".toList)
      "Sun Jan 1 2023, 01:30 PM CET".toList [] ∧ x.n = 19358 ∧ x.h = 13 ∧ x.m = 30 ∧ x.s = 0 := by
  have hp : parseSys 1 1 englishGet "%a %b %e %Y, %I:%M %p %Z".toList 0 ⟨"Sun Jan 1 2023, 01:30 PM CET".toList, false, false⟩ =
      .ok (⟨[], true, false⟩, some (1672579800, ⟨⟨⟨2023, 1, 1⟩, 0, ⟨13, 30, 0, 0, false⟩, true⟩, "CET".toList, none⟩)) := by decide +kernel
  obtain ⟨x, a1, a2, a3, -, a4, a5, a6, a7, -, a8⟩ := c93_names_sys_time_partial 1 1 (by omega) (by omega) (by decide) english englishGet english_knows
    0 _ _ _ _ _ (by decide +kernel) ⟨⟨by decide +kernel, by decide +kernel⟩, by decide +kernel⟩ hp
  have w0 : fractionalWidth 1 = 0 := by decide +kernel
  rw [w0] at a3
  unfold Nearest at a8
  have hz : 'z' ∉ letters (items "%a %b %e %Y, %I:%M %p %Z".toList) := by decide +kernel
  rw [if_neg hz] at a8
  refine ⟨x, a3, ?_⟩
  omega

/-- A wrong name of the weekday is noticed. -/
example : ∃ is, parseDate englishGet "%A %F".toList ⟨"Monday 2023-01-01".toList, false, false⟩ = .ok (is, none) := ⟨_, rfl⟩

end Gul14.Date.Words
