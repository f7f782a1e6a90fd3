import Verif.Date.ParsePartsSpec
import Verif.Date.ParseWordsProps

/-! # C118: parse accepts only texts that say the result: years, months, days, weekdays, months of a year, days of a month -/
namespace Gul14.Date.Parts
open Gul14.Spec.Calendar Gul14.Spec.DateText Gul14.Spec.DateFormat Gul14.Spec.DateParse Gul14.Date.Words

variable {W : Words} {v : PVars}

theorem partly_wordy {i : Item} (h : Partly i) : Wordy i := by
  cases i with
  | lit c => exact h
  | conv md c =>
    obtain ⟨rfl, h⟩ := h
    rcases (show ∀ c ∈ partLetters, c ∈ plain ∨ c ∈ wordLetters by decide) c h with h | h
    · exact Or.inl (Or.inl ⟨rfl, h⟩)
    · exact Or.inr ⟨rfl, h⟩

/-- A conversion that is not there has set nothing. -/
theorem not_set {L : List Char} (hst : StepW L {} v) (f : Fld) (h : ∀ c ∈ L, f ∉ fieldsOf (trc c)) : get v f = unset f := by
  rcases hst.fld f with e | ⟨-, -, c, c1, c2⟩
  · exact e.trans (by cases f <;> rfl)
  · exact absurd c2 (h c c1)

theorem was_set {L : List Char} (hst : StepW L {} v) (f : Fld) (h : get v f ≠ unset f) : ∃ c ∈ L, f ∈ fieldsOf (trc c) := by
  rcases hst.fld f with e | ⟨-, -, c, c1, c2⟩
  · exact absurd (e.trans (by cases f <;> rfl)) h
  · exact ⟨c, c1, c2⟩

/-- Without week numbers and days of the year. -/
theorem combine_part {e : PEnv} {fds : Fields} {r : Parsed} (hb : ∀ f, get v f = unset f ∨ InRange f (get v f)) (hg : v.g = 100)
    (hG : v.G = -32768) (hV : v.V = 100) (hU : v.U = 100) (hW : v.W = 100) (hj : v.j = -1) (h : combine e v fds = .ok r) :
    ∃ Y wd, theDate { v with Y := Y } false = .ok (r.fds.ymd, wd) ∧ r.fds.wd = (if wd ≠ 8 then weekdayOf (uns wd) else fds.wd) ∧
      (Y = -32768 ∨ (-9999 ≤ Y ∧ Y ≤ 9999)) ∧
      ((v.y = 100 ∧ Y = v.Y) ∨ (v.y ≠ 100 ∧ Y ≠ -32768 ∧ v.y = (Y.natAbs % 100 : Nat) ∧ (v.C ≠ -327 → v.C = Y / 100) ∧ (v.Y ≠ -32768 → v.Y = Y))) := by
  have bY := hb .Y; have by' := hb .y; have bC := hb .C
  simp only [get, unset, InRange] at bY by' bC
  unfold combine at h
  obtain ⟨⟨Y, C⟩, h1, h⟩ := bind_ok h
  obtain ⟨⟨G, C'⟩, h2, h⟩ := bind_ok h
  rw [hg] at h2
  simp only [fullYear, if_true, Res.pure_eq, Res.ok.injEq, Prod.mk.injEq] at h2
  obtain ⟨rfl, -⟩ := h2
  have hfy := fullYear_inv by' bY bC h1
  have hYr : Y = -32768 ∨ (-9999 ≤ Y ∧ Y ≤ 9999) := by
    rcases hfy with ⟨-, rfl⟩ | h
    · exact bY
    · exact Or.inr ⟨h.2.1, h.2.2.1⟩
  have hcl : (if Y < -32767 ∨ Y > 32767 then -32768 else Y) = Y := by split <;> omega
  simp only [hcl] at h
  obtain ⟨⟨v', b⟩, h3, h⟩ := bind_ok h
  have hw : weeks { v with Y := Y, G := v.G } = .ok ({ v with Y := Y }, false) := by
    simp [weeks, usesIso, usesU, usesW, usesJ, hG, hV, hU, hW, hj, whenUsed]
  rw [hw] at h3
  simp only [Res.ok.injEq, Prod.mk.injEq] at h3
  obtain ⟨rfl, rfl⟩ := h3
  obtain ⟨⟨ymd, wd⟩, h4, h⟩ := bind_ok h
  obtain ⟨H, h5, h⟩ := bind_ok h
  simp only [Res.pure_eq, Res.ok.injEq] at h
  subst h
  refine ⟨Y, wd, h4, rfl, hYr, hfy.imp id fun ⟨a, b, c, d, e, f⟩ => ⟨a, by omega, d, e, f⟩⟩

/-- The date is stored as it was read. -/
theorem theDate_part {ymd : YMD} {wd : Int} (h : theDate v false = .ok (ymd, wd)) :
    ymd = ⟨year v.Y, asUchar (uns v.m), asUchar (uns v.d)⟩ ∧ (ymd.ok = false → wd = v.wd) := by
  rw [theDate_eq] at h
  split at h
  · rename_i hok
    obtain ⟨n, -, h⟩ := bind_ok h
    split at h
    · cases h
    · obtain ⟨_, -, h⟩ := bind_ok h
      simp only [Res.ok.injEq, Prod.mk.injEq] at h
      obtain ⟨rfl, -⟩ := h
      exact ⟨rfl, fun h => absurd hok (by simp [h])⟩
  · simp only [Res.ok.injEq, Prod.mk.injEq] at h
    exact ⟨h.1.symm, fun _ => h.2.symm⟩

theorem fields_year {c : Char} (hc : c ∈ partLetters) (h : Fld.Y ∈ fieldsOf (trc c) ∨ Fld.y ∈ fieldsOf (trc c)) : c ∈ ['Y', 'F', 'y', 'D'] := by
  revert c; decide
theorem fields_month {c : Char} (hc : c ∈ partLetters) (h : Fld.m ∈ fieldsOf (trc c)) : c ∈ ['m', 'b', 'B', 'h', 'F', 'D'] := by
  revert c; decide
theorem fields_day {c : Char} (hc : c ∈ partLetters) (h : Fld.d ∈ fieldsOf (trc c)) : c ∈ ['d', 'e', 'F', 'D'] := by
  revert c; decide
theorem fields_weekday {c : Char} (hc : c ∈ partLetters) (h : Fld.wd ∈ fieldsOf (trc c)) : c ∈ ['u', 'w', 'a', 'A'] := by
  revert c; decide
theorem fields_century {c : Char} (hc : c ∈ partLetters) (h : Fld.C ∈ fieldsOf (trc c)) : c = 'C' := by
  revert c; decide
theorem fields_none {c : Char} (hc : c ∈ partLetters) : Fld.G ∉ fieldsOf (trc c) ∧ Fld.V ∉ fieldsOf (trc c) ∧ Fld.U ∉ fieldsOf (trc c) ∧
    Fld.W ∉ fieldsOf (trc c) ∧ Fld.j ∉ fieldsOf (trc c) := by
  revert c; decide

theorem year_mem {L : List Char} (h : ∃ c ∈ L, c ∈ ['Y', 'F', 'y', 'D']) : YearGiven L := by
  obtain ⟨c, h1, h2⟩ := h
  simp only [List.mem_cons, List.not_mem_nil, or_false] at h2
  unfold YearGiven
  rcases h2 with rfl | rfl | rfl | rfl <;> simp [h1]

/-- What the variables say. -/
structure Says (v : PVars) (x : Parts) : Prop where
  Y : v.Y = -32768 ∨ v.Y = x.year
  y : v.y = 100 ∨ v.y = (x.year.natAbs % 100 : Nat)
  C : v.C = -327 ∨ v.C = x.year / 100
  m : v.m = 0 ∨ v.m = x.month
  d : v.d = 0 ∨ v.d = x.day
  wd : v.wd = 8 ∨ v.wd = x.weekday

theorem says_of {x : Parts} (hx : Says v x) {md : Option Char} {c : Char} {a : List Char} (hc : c ∈ partLetters) (h : AgreeW W 1 v md c a) :
    SaysPart W x md c a := by
  have hm := hx.m
  have hd := hx.d
  simp only [partLetters, List.mem_cons, List.not_mem_nil, or_false] at hc
  rcases hc with rfl | rfl | rfl | rfl | rfl | rfl | rfl | rfl | rfl | rfl | rfl | rfl | rfl | rfl | rfl | rfl | rfl <;>
    simp only [AgreeW] at h <;> simp (config := { decide := true }) only [if_true, if_false] at h
  · obtain ⟨z, h1, h2⟩ := h -- Y
    have l := snum_lt h1
    have e : v.Y = z := h2.eq (by simp only [unset]; omega)
    have : z = x.year := by have := hx.Y; omega
    rw [this] at h1; exact h1
  · obtain ⟨z, h1, h2⟩ := h -- y
    have l := num_lt h1
    have e : v.y = z := h2.eq (by simp only [unset]; omega)
    have : z = x.year.natAbs % 100 := by have := hx.y; omega
    rw [this] at h1; exact h1
  · obtain ⟨z, h1, h2⟩ := h -- C
    have l := snum_lt h1
    have e : v.C = z := h2.eq (by simp only [unset]; omega)
    have : z = x.year / 100 := by have := hx.C; omega
    rw [this] at h1; exact h1
  · obtain ⟨z, h1, h2⟩ := h -- m
    refine ⟨z, h1, ?_⟩
    rcases h2 with h2 | h2 <;> simp only [unset, get] at h2 <;> omega
  · obtain ⟨z, h1, h2, h3, h4⟩ := h -- b
    refine ⟨z, h1, ?_⟩
    rcases h4 with h4 | h4 <;> simp only [unset, get] at h4 <;> omega
  · obtain ⟨z, h1, h2, h3, h4⟩ := h -- B
    refine ⟨z, h1, ?_⟩
    rcases h4 with h4 | h4 <;> simp only [unset, get] at h4 <;> omega
  · obtain ⟨z, h1, h2, h3, h4⟩ := h -- h
    refine ⟨z, h1, ?_⟩
    rcases h4 with h4 | h4 <;> simp only [unset, get] at h4 <;> omega
  · obtain ⟨z, h1, h2⟩ := h -- d
    refine ⟨z, h1, ?_⟩
    rcases h2 with h2 | h2 <;> simp only [unset, get] at h2 <;> omega
  · obtain ⟨z, h1, h2⟩ := h -- e
    refine ⟨z, h1, ?_⟩
    rcases h2 with h2 | h2 <;> simp only [unset, get] at h2 <;> omega
  · obtain ⟨m, d, y, h1, h2, h3, h4⟩ := h -- D
    obtain ⟨m', d', p, q, r, rfl, rfl, rfl, n1, n2, n3⟩ := seqD h1
    have l := snum_lt n3
    have e : v.y = y := h2.eq (by simp only [unset]; omega)
    have : y = (x.year.natAbs % 100 : Nat) := by have := hx.y; omega
    refine ⟨p, q, r, m', d', rfl, n1, n2, this ▸ n3, ?_, ?_⟩
    · rcases h3 with h3 | h3 <;> simp only [unset, get] at h3 <;> omega
    · rcases h4 with h4 | h4 <;> simp only [unset, get] at h4 <;> omega
  · obtain ⟨y, m, d, h1, h2, h3, h4⟩ := h -- F
    obtain ⟨m', d', p, q, r, rfl, rfl, rfl, n1, n2, n3⟩ := seqF h1
    have l := snum_lt n1
    have e : v.Y = y := h2.eq (by simp only [unset]; omega)
    have : y = x.year := by have := hx.Y; omega
    refine ⟨p, q, r, m', d', rfl, this ▸ n1, n2, n3, ?_, ?_⟩
    · rcases h3 with h3 | h3 <;> simp only [unset, get] at h3 <;> omega
    · rcases h4 with h4 | h4 <;> simp only [unset, get] at h4 <;> omega
  · obtain ⟨z, h1, h2, h3, h4⟩ := h -- u
    have hwd := hx.wd
    have e : z = if x.weekday = 0 then 7 else x.weekday := by
      split at h4
      · have e : v.wd = 0 := h4.eq (by simp [unset])
        rw [if_pos (by omega)]; assumption
      · have e : v.wd = z := h4.eq (by simp only [unset]; omega)
        rw [if_neg (by omega)]; omega
    rw [e] at h1; exact h1
  · obtain ⟨z, h1, h2, h3⟩ := h -- w
    have hwd := hx.wd
    have e : v.wd = z := h3.eq (by simp only [unset]; omega)
    have : z = x.weekday := by omega
    rw [this] at h1; exact h1
  · obtain ⟨z, h1, h2, h3⟩ := h -- a
    have hwd := hx.wd
    have e : v.wd = z := h3.eq (by simp only [unset]; omega)
    have : z = x.weekday := by omega
    rw [this] at h1; exact h1
  · obtain ⟨z, h1, h2, h3⟩ := h -- A
    have hwd := hx.wd
    have e : v.wd = z := h3.eq (by simp only [unset]; omega)
    have : z = x.weekday := by omega
    rw [this] at h1; exact h1
  · exact h
  · exact h

set_option maxHeartbeats 1000000 in
/-- A successful call. -/
theorem fromStream_parts {get : TimeGet} (hW : KnowsWords W get.get) {fmt text : List Char} {is : IStream} {r : Parsed}
    (hr : ∀ i ∈ items fmt, Partly i) (hc : 'C' ∈ letters (items fmt) → 'y' ∈ letters (items fmt) ∨ 'D' ∈ letters (items fmt))
    (h : fromStream ⟨1, get⟩ ⟨text, false, false⟩ fmt {} = .ok (is, some r)) :
    ∃ x : Parts, Split (SaysPart W x) (items fmt) text is.rest ∧ x.Agree (letters (items fmt)) ∧
      (yearOk r.fds.ymd.y = true → YearGiven (letters (items fmt))) ∧ (YearGiven (letters (items fmt)) → x.year = r.fds.ymd.y.toInt) ∧
      (monthOk r.fds.ymd.m = true → MonthGiven (letters (items fmt)) ∧ x.month = r.fds.ymd.m.toNat) ∧
      (dayOk r.fds.ymd.d = true → DayGiven (letters (items fmt)) ∧ x.day = r.fds.ymd.d.toNat) ∧
      (weekdayOk r.fds.wd = true → x.weekday = r.fds.wd.toNat ∧ (WeekdayGiven (letters (items fmt)) ∨
        (YearGiven (letters (items fmt)) ∧ MonthGiven (letters (items fmt)) ∧ DayGiven (letters (items fmt)) ∧
          ∃ n, DayOf n ⟨x.year, x.month.toNat, x.day.toNat⟩ ∧ x.weekday = dayOfWeek n))) := by
  have w0 : fractionalWidth 1 = 0 := by decide +kernel
  obtain ⟨v, hs, hst, hcm⟩ := fromStream_words (e := ⟨1, get⟩) hW (by simp [w0]) (fun i hi => partly_wordy (hr i hi)) h
  generalize hL : letters (items fmt) = L at *
  have hLp : ∀ c ∈ L, c ∈ partLetters := by
    intro c hc
    rw [← hL] at hc
    obtain ⟨md, hm⟩ := letters_mem hc
    exact (hr _ hm).2
  have hn := fun c hc => fields_none (hLp c hc)
  obtain ⟨Y, wd, h1, h2, hYr, hy⟩ := combine_part hst.bounds hst.g (not_set hst .G fun c hc => (hn c hc).1) (not_set hst .V fun c hc => (hn c hc).2.1)
    (not_set hst .U fun c hc => (hn c hc).2.2.1) (not_set hst .W fun c hc => (hn c hc).2.2.2.1) (not_set hst .j fun c hc => (hn c hc).2.2.2.2) hcm
  obtain ⟨e1, e2⟩ := theDate_part h1
  have bm := hst.bounds .m
  have bd := hst.bounds .d
  have bwd := hst.bounds .wd
  simp only [Date.get, unset, InRange] at bm bd bwd
  have hyg : Y ≠ -32768 → YearGiven L := by
    intro hY
    rcases hy with ⟨-, rfl⟩ | ⟨hy, -⟩
    · obtain ⟨c, c1, c2⟩ := was_set hst .Y hY
      exact year_mem ⟨c, c1, fields_year (hLp c c1) (Or.inl c2)⟩
    · obtain ⟨c, c1, c2⟩ := was_set hst .y hy
      exact year_mem ⟨c, c1, fields_year (hLp c c1) (Or.inr c2)⟩
  have hmg : v.m ≠ 0 → MonthGiven L := fun hm => by
    obtain ⟨c, c1, c2⟩ := was_set hst .m hm
    exact ⟨c, c1, fields_month (hLp c c1) c2⟩
  have hdg : v.d ≠ 0 → DayGiven L := fun hm => by
    obtain ⟨c, c1, c2⟩ := was_set hst .d hm
    exact ⟨c, c1, fields_day (hLp c c1) c2⟩
  have hwg : v.wd ≠ 8 → WeekdayGiven L := fun hm => by
    obtain ⟨c, c1, c2⟩ := was_set hst .wd hm
    exact ⟨c, c1, fields_weekday (hLp c c1) c2⟩
  have piece : ∀ c ∈ L, ∃ md a, AgreeW W 1 v md c a := by
    intro c hc
    rw [← hL] at hc
    obtain ⟨md, hm⟩ := letters_mem hc
    exact ⟨md, split_mem _ _ _ hs hm⟩
  have hyy : 'y' ∈ L ∨ 'D' ∈ L → v.y ≠ 100 := by
    rintro (hc | hc) <;> obtain ⟨md, a, ha⟩ := piece _ hc <;> simp only [AgreeW] at ha <;>
      simp (config := { decide := true }) only [if_false] at ha
    · obtain ⟨z, h1, h2⟩ := ha
      have l := num_lt h1
      have e : v.y = z := h2.eq (by simp only [unset]; omega)
      omega
    · obtain ⟨m, d, y, h1, h2, h3, h4⟩ := ha
      obtain ⟨m', d', p, q, r, rfl, rfl, rfl, n1, n2, n3⟩ := seqD h1
      have l := snum_lt n3
      have e : v.y = y := h2.eq (by simp only [unset]; omega)
      omega
  have hYY : 'Y' ∈ L ∨ 'F' ∈ L → v.Y ≠ -32768 := by
    rintro (hc | hc) <;> obtain ⟨md, a, ha⟩ := piece _ hc <;> simp only [AgreeW] at ha <;>
      simp (config := { decide := true }) only [if_false] at ha
    · obtain ⟨z, h1, h2⟩ := ha
      have l := snum_lt h1
      have e : v.Y = z := h2.eq (by simp only [unset]; omega)
      omega
    · obtain ⟨y, m, d, h1, h2, h3, h4⟩ := ha
      obtain ⟨m', d', p, q, r, rfl, rfl, rfl, n1, n2, n3⟩ := seqF h1
      have l := snum_lt n1
      have e : v.Y = y := h2.eq (by simp only [unset]; omega)
      omega
  have hgy : YearGiven L → Y ≠ -32768 := by
    intro hg
    rcases hy with ⟨e, rfl⟩ | hy
    · rcases hg with h | h | h | h
      · exact hYY (Or.inl h)
      · exact hYY (Or.inr h)
      · exact absurd e (hyy (Or.inl h))
      · exact absurd e (hyy (Or.inr h))
    · exact hy.2.1
  have hCy : v.C = -327 ∨ v.y ≠ 100 := by
    by_cases hC : v.C = -327
    · exact Or.inl hC
    · obtain ⟨c, c1, c2⟩ := was_set hst .C hC
      obtain rfl := fields_century (hLp c c1) c2
      exact Or.inr (hyy (hc c1))
  have eY : r.fds.ymd.y.toInt = Y := by
    rw [e1]; exact year_toInt (by simp only; omega) (by simp only; omega)
  have em : monthOk r.fds.ymd.m = true → v.m = r.fds.ymd.m.toNat := by
    intro hm
    have : r.fds.ymd.m.toNat ≤ 12 := by
      unfold monthOk at hm
      simp only [Bool.and_eq_true, decide_eq_true_eq] at hm
      exact UInt8.le_iff_toNat_le.mp hm.2
    exact uchar_back (by omega) (by omega) (c := r.fds.ymd.m) (by omega) (by rw [e1])
  have ed : dayOk r.fds.ymd.d = true → v.d = r.fds.ymd.d.toNat := by
    intro hm
    have : r.fds.ymd.d.toNat ≤ 31 := by
      unfold dayOk at hm
      simp only [Bool.and_eq_true, decide_eq_true_eq] at hm
      exact UInt8.le_iff_toNat_le.mp hm.2
    exact uchar_back (by omega) (by omega) (c := r.fds.ymd.d) (by omega) (by rw [e1])
  have sY : v.Y = -32768 ∨ v.Y = Y := by
    rcases hy with ⟨-, rfl⟩ | ⟨-, -, -, -, h⟩
    · exact Or.inr rfl
    · by_cases hh : v.Y = -32768
      · exact Or.inl hh
      · exact Or.inr (h hh)
  have sy : v.y = 100 ∨ v.y = (Y.natAbs % 100 : Nat) := hy.imp And.left fun h => h.2.2.1
  have sC : v.C = -327 ∨ v.C = Y / 100 := by
    by_cases hC : v.C = -327
    · exact Or.inl hC
    · rcases hy with h | h
      · exact absurd h.1 (hCy.resolve_left hC)
      · exact Or.inr (h.2.2.2.1 hC)
  rcases hok : r.fds.ymd.ok with _ | _
  · -- no date
    have hwd := e2 hok
    simp only at hwd
    refine ⟨⟨Y, v.m, v.d, v.wd.toNat⟩, ?_, ?_, ?_, ?_, ?_, ?_, ?_⟩
    · exact split_mono _ _ _ (fun md c a hm ha => says_of ⟨sY, sy, sC, Or.inr rfl, Or.inr rfl, by simp only; omega⟩ (hr _ hm).2 ha) hs
    · intro g1 _ _ n m d hm hd hn
      exfalso
      simp only at hm hd hn
      have hv := (Calc.dayOf_sound hn).1
      have : r.fds.ymd.ok = true := by
        rw [c72_ok]
        have hl := monthLength_range Y m
        have v1 := hv.1; have v2 := hv.2.1; have v3 := hv.2.2.1; have v4 := hv.2.2.2
        simp only at v1 v2 v3 v4
        have e3 : r.fds.ymd.date = ⟨Y, m, d⟩ := by
          unfold YMD.date
          rw [eY, e1]
          simp only [hm, hd, Date.mk.injEq, true_and]
          exact ⟨by rw [asUchar_toNat]; unfold uns; omega, by rw [asUchar_toNat]; unfold uns; omega⟩
        rw [e3, eY]
        exact ⟨hv, hgy g1⟩
      rw [hok] at this; cases this
    · intro hh
      refine hyg ?_
      rw [← eY]
      unfold yearOk at hh
      simpa using hh
    · intro _; exact eY.symm
    · intro hh
      refine ⟨hmg ?_, em hh⟩
      have := em hh
      unfold monthOk at hh
      simp only [Bool.and_eq_true, decide_eq_true_eq] at hh
      have := UInt8.le_iff_toNat_le.mp hh.1
      simp at this
      omega
    · intro hh
      refine ⟨hdg ?_, ed hh⟩
      have := ed hh
      unfold dayOk at hh
      simp only [Bool.and_eq_true, decide_eq_true_eq] at hh
      have := UInt8.le_iff_toNat_le.mp hh.1
      simp at this
      omega
    · intro hh
      rw [hwd] at h2
      split at h2
      · rename_i h8
        refine ⟨?_, Or.inl (hwg h8)⟩
        show v.wd.toNat = _
        rw [h2, weekdayOf_toNat (by unfold uns; omega) (by unfold uns; omega)]
        unfold uns; omega
      · rw [h2] at hh; cases hh
  · -- a date
    obtain ⟨n, d1, d2, d3, d4, d5, d6, d7, d8, -⟩ := theDate_inv (v := { v with Y := Y }) (by simp only; omega) (by simp only; omega) (by simp only; omega) hok h1
    simp only at d3 d4 d5 d6 d7 d8
    have hdl := dow_lt n
    have g1 := hyg d6
    have hval := ((c72_ok _).mp hok).1
    have q1 : 1 ≤ r.fds.ymd.date.month := hval.1
    have q2 : 1 ≤ r.fds.ymd.date.day := hval.2.2.1
    have g2 := hmg (by omega)
    have g3 := hdg (by omega)
    have hdate : (⟨Y, v.m.toNat, v.d.toNat⟩ : Date) = r.fds.ymd.date := by
      rw [d3, d4, d5]; rfl
    refine ⟨⟨Y, v.m, v.d, dayOfWeek n⟩, ?_, ?_, fun _ => g1, fun _ => eY.symm, fun hh => ⟨g2, em hh⟩, fun hh => ⟨g3, ed hh⟩, fun _ => ⟨?_, Or.inr ⟨g1, g2, g3, n, ?_, rfl⟩⟩⟩
    · exact split_mono _ _ _ (fun md c a hm ha => says_of ⟨sY, sy, sC, Or.inr rfl, Or.inr rfl, d7⟩ (hr _ hm).2 ha) hs
    · intro _ _ _ n' m d hm hd hn
      simp only at hm hd hn
      have : (⟨Y, m, d⟩ : Date) = r.fds.ymd.date := by
        rw [← hdate, hm, hd]; rfl
      rw [this] at hn
      rw [dayOf_days_unique hn d1]
    · rw [if_pos (by omega)] at h2
      show dayOfWeek n = _
      rw [h2, d8, weekdayOf_toNat (by unfold uns; omega) (by unfold uns; omega)]
      unfold uns; omega
    · show DayOf n ⟨Y, v.m.toNat, v.d.toNat⟩
      rw [hdate]; exact d1

/-! ### The functions -/

theorem parseFields_inv {α : Type} {get : TimeGet} {fmt : List Char} {ok : Fields → Bool} {f : Fields → α} {is is' : IStream} {x : α}
    (h : parseFields get fmt ok f is = .ok (is', some x)) : ∃ r, fromStream ⟨1, get⟩ is fmt {} = .ok (is', some r) ∧ ok r.fds = true ∧ x = f r.fds := by
  unfold parseFields at h
  obtain ⟨⟨is1, r⟩, h1, h⟩ := bind_ok h
  rcases r with _ | r
  · cases h
  · simp only at h
    split at h
    · rename_i hok
      simp only [Res.pure_eq, Res.ok.injEq, Prod.mk.injEq, Option.some.injEq] at h
      obtain ⟨rfl, rfl⟩ := h
      exact ⟨r, h1, hok, rfl⟩
    · cases h

section
variable (W : Words) (get : TimeGet) (hW : KnowsWords W get.get) (fmt text : List Char) (is : IStream) (hr : ∀ i ∈ items fmt, Partly i)
  (hc : 'C' ∈ letters (items fmt) → 'y' ∈ letters (items fmt) ∨ 'D' ∈ letters (items fmt))
include hW hr hc

/-- A year. -/
theorem c118_year_partial (y : Int16) (h : parseYear get fmt ⟨text, false, false⟩ = .ok (is, some y)) :
    ∃ x : Parts, Split (SaysPart W x) (items fmt) text is.rest ∧ x.Agree (letters (items fmt)) ∧ YearGiven (letters (items fmt)) ∧ x.year = y.toInt := by
  obtain ⟨r, h1, hok, rfl⟩ := parseFields_inv h
  obtain ⟨x, a1, a2, a3, a4, -⟩ := fromStream_parts hW hr hc h1
  exact ⟨x, a1, a2, a3 hok, a4 (a3 hok)⟩

/-- A month. -/
theorem c118_month_partial (m : UInt8) (h : parseMonth get fmt ⟨text, false, false⟩ = .ok (is, some m)) :
    ∃ x : Parts, Split (SaysPart W x) (items fmt) text is.rest ∧ x.Agree (letters (items fmt)) ∧ MonthGiven (letters (items fmt)) ∧
      x.month = m.toNat ∧ 1 ≤ m.toNat ∧ m.toNat ≤ 12 := by
  obtain ⟨r, h1, hok, rfl⟩ := parseFields_inv h
  obtain ⟨x, a1, a2, -, -, a5, -⟩ := fromStream_parts hW hr hc h1
  refine ⟨x, a1, a2, (a5 hok).1, (a5 hok).2, ?_⟩
  unfold monthOk at hok
  simp only [Bool.and_eq_true, decide_eq_true_eq] at hok
  exact ⟨UInt8.le_iff_toNat_le.mp hok.1, UInt8.le_iff_toNat_le.mp hok.2⟩

/-- A day of the month. -/
theorem c118_day_partial (d : UInt8) (h : parseDay get fmt ⟨text, false, false⟩ = .ok (is, some d)) :
    ∃ x : Parts, Split (SaysPart W x) (items fmt) text is.rest ∧ x.Agree (letters (items fmt)) ∧ DayGiven (letters (items fmt)) ∧
      x.day = d.toNat ∧ 1 ≤ d.toNat ∧ d.toNat ≤ 31 := by
  obtain ⟨r, h1, hok, rfl⟩ := parseFields_inv h
  obtain ⟨x, a1, a2, -, -, -, a6, -⟩ := fromStream_parts hW hr hc h1
  refine ⟨x, a1, a2, (a6 hok).1, (a6 hok).2, ?_⟩
  unfold dayOk at hok
  simp only [Bool.and_eq_true, decide_eq_true_eq] at hok
  exact ⟨UInt8.le_iff_toNat_le.mp hok.1, UInt8.le_iff_toNat_le.mp hok.2⟩

/-- A weekday: it is said, or a date is said that has this weekday. -/
theorem c118_weekday_partial (w : UInt8) (h : parseWeekday get fmt ⟨text, false, false⟩ = .ok (is, some w)) :
    ∃ x : Parts, Split (SaysPart W x) (items fmt) text is.rest ∧ x.Agree (letters (items fmt)) ∧ x.weekday = w.toNat ∧ w.toNat ≤ 6 ∧
      (WeekdayGiven (letters (items fmt)) ∨ (YearGiven (letters (items fmt)) ∧ MonthGiven (letters (items fmt)) ∧ DayGiven (letters (items fmt)) ∧
        ∃ n, DayOf n ⟨x.year, x.month.toNat, x.day.toNat⟩ ∧ w.toNat = dayOfWeek n)) := by
  obtain ⟨r, h1, hok, rfl⟩ := parseFields_inv h
  obtain ⟨x, a1, a2, -, -, -, -, a7⟩ := fromStream_parts hW hr hc h1
  obtain ⟨b1, b2⟩ := a7 hok
  refine ⟨x, a1, a2, b1, ?_, b1 ▸ b2⟩
  unfold weekdayOk at hok
  simp only [decide_eq_true_eq] at hok
  exact UInt8.le_iff_toNat_le.mp hok

/-- A month of a year, provided that the format has a year. -/
theorem c118_year_month_partial (hy : YearGiven (letters (items fmt))) (ym : YM) (h : parseYearMonth get fmt ⟨text, false, false⟩ = .ok (is, some ym)) :
    ∃ x : Parts, Split (SaysPart W x) (items fmt) text is.rest ∧ x.Agree (letters (items fmt)) ∧ MonthGiven (letters (items fmt)) ∧
      x.year = ym.y.toInt ∧ x.month = ym.m.toNat ∧ 1 ≤ ym.m.toNat ∧ ym.m.toNat ≤ 12 := by
  obtain ⟨r, h1, hok, rfl⟩ := parseFields_inv h
  obtain ⟨x, a1, a2, -, a4, a5, -⟩ := fromStream_parts hW hr hc h1
  refine ⟨x, a1, a2, (a5 hok).1, a4 hy, (a5 hok).2, ?_⟩
  unfold monthOk at hok
  simp only [Bool.and_eq_true, decide_eq_true_eq] at hok
  exact ⟨UInt8.le_iff_toNat_le.mp hok.1, UInt8.le_iff_toNat_le.mp hok.2⟩

/-- A day of a month. -/
theorem c118_month_day_partial (m d : UInt8) (h : parseMonthDay get fmt ⟨text, false, false⟩ = .ok (is, some (m, d))) :
    ∃ x : Parts, Split (SaysPart W x) (items fmt) text is.rest ∧ x.Agree (letters (items fmt)) ∧ MonthGiven (letters (items fmt)) ∧ DayGiven (letters (items fmt)) ∧
      x.month = m.toNat ∧ x.day = d.toNat ∧ 1 ≤ m.toNat ∧ m.toNat ≤ 12 ∧ 1 ≤ d.toNat ∧ d.toNat ≤ 31 := by
  obtain ⟨r, h1, hok, he⟩ := parseFields_inv h
  simp only [Prod.mk.injEq] at he
  obtain ⟨rfl, rfl⟩ := he
  obtain ⟨x, a1, a2, -, -, a5, a6, -⟩ := fromStream_parts hW hr hc h1
  simp only [Bool.and_eq_true] at hok
  refine ⟨x, a1, a2, (a5 hok.1).1, (a6 hok.2).1, (a5 hok.1).2, (a6 hok.2).2, ?_⟩
  unfold monthOk dayOk at hok
  simp only [Bool.and_eq_true, decide_eq_true_eq] at hok
  exact ⟨UInt8.le_iff_toNat_le.mp hok.1.1, UInt8.le_iff_toNat_le.mp hok.1.2, UInt8.le_iff_toNat_le.mp hok.2.1, UInt8.le_iff_toNat_le.mp hok.2.2⟩

end

/-! ### What fails -/

instance : DecidablePred Partly := fun i => by cases i <;> unfold Partly <;> infer_instance

/-- The general statement fails.  A month of a year is stored although the text says no year (the year is then -32768, which is not `ok`).
The century is ignored if the year is there with four digits.  And a day of a month is stored that no month has. -/
theorem c118_violated :
    (parseYearMonth get0 "%m".toList ⟨"05".toList, false, false⟩ = .ok (⟨[], false, false⟩, some ⟨-32768, 5⟩) ∧
      ¬ YearGiven (letters (items "%m".toList))) ∧
    ((∀ i ∈ items "%C/%Y".toList, Partly i) ∧ parseYear get0 "%C/%Y".toList ⟨"30/2023".toList, false, false⟩ = .ok (⟨[], false, false⟩, some 2023) ∧
      ∀ W : Words, ¬ ∃ x : Parts, x.year = 2023 ∧ Split (SaysPart W x) (items "%C/%Y".toList) "30/2023".toList []) ∧
    (parseMonthDay get0 "%m/%d".toList ⟨"02/30".toList, false, false⟩ = .ok (⟨[], false, false⟩, some (2, 30)) ∧
      ¬ ∃ n y, DayOf n ⟨y, 2, 30⟩) := by
  refine ⟨⟨by decide +kernel, by unfold YearGiven; decide +kernel⟩, ⟨by decide +kernel, by decide +kernel, ?_⟩, by decide +kernel, ?_⟩
  · rintro W ⟨x, hx, a, b, h1, h2, c, d, h3, h4, -⟩
    have h2 : SNum 2 (x.year / 100) a := h2
    rw [hx] at h2
    have e : items "%C/%Y".toList = [.conv none 'C', .lit '/', .conv none 'Y'] := by decide +kernel
    have h4 : (White '/' ∧ ∀ x ∈ c, White x) ∨ (¬ White '/' ∧ c = ['/']) := h4
    have hw : ¬ White '/' := by unfold White; decide
    obtain rfl := (h4.resolve_left fun h => hw h.1).2
    obtain ⟨t, k, ⟨n1, n2, n3, n4⟩, hk⟩ := h2
    rcases hk with ⟨hk, hs⟩ | ⟨hk, -⟩
    · have hk : k = 20 := by omega
      subst hk
      have ha : a = "30".toList := by
        have hl : "30/2023".toList = ['3', '0', '/', '2', '0', '2', '3'] := by decide
        rw [hl, h3] at h1
        rcases a with _ | ⟨a1, _ | ⟨a2, _ | ⟨a3, a⟩⟩⟩
        · rcases hs with rfl | hs
          · exact absurd rfl n1
          · cases hs
        · simp only [List.cons_append, List.nil_append, List.cons.injEq] at h1
          exact absurd h1.2.1 (by decide)
        · simp only [List.cons_append, List.nil_append, List.cons.injEq] at h1
          rw [← h1.1, ← h1.2.1]; rfl
        · exfalso
          simp only [List.cons_append, List.nil_append, List.cons.injEq] at h1
          rcases hs with rfl | hs
          · simp at n2
          · simp only [List.cons.injEq] at hs
            exact absurd (h1.1.trans hs.1) (by decide)
      subst ha
      rcases hs with rfl | hs
      · exact absurd n4 (by decide)
      · simp at hs
    · omega
  · rintro ⟨n, y, h⟩
    have := (Calc.dayOf_sound h).1.2.2.2
    simp only at this
    have hl : monthLength y 2 ≤ 29 := by unfold monthLength; rw [if_neg (by omega)]; simp only [if_true]; split <;> omega
    omega

/-! ### Examples -/

open Gul14.Date.Names (englishGet) in
/-- A month by its name. -/
example : ∃ x : Parts, Split (SaysPart english x) (items "%d %B".toList) "17 May".toList [] ∧ x.month = 5 := by
  obtain ⟨x, a1, -, -, a2, -⟩ := c118_month_partial english englishGet english_knows "%d %B".toList "17 May".toList ⟨[], true, false⟩ (by decide +kernel)
    (by decide +kernel) 5 (by decide +kernel)
  exact ⟨x, a1, a2⟩

open Gul14.Date.Names (englishGet) in
/-- The weekday of a date: Sunday. -/
example : ∃ n, DayOf n ⟨2023, 1, 1⟩ ∧ dayOfWeek n = 0 ∧
    parseWeekday englishGet "%F".toList ⟨"2023-01-01".toList, false, false⟩ = .ok (⟨[], false, false⟩, some 0) :=
  ⟨19358, Calc.dayOf_iff.mpr (by decide), by decide, by decide +kernel⟩

open Gul14.Date.Names (englishGet) in
/-- A weekday that is not that of the date, two different months. -/
example : (∃ is, parseMonth englishGet "%a %F".toList ⟨"Mon 2023-01-01".toList, false, false⟩ = .ok (is, none)) ∧
    (∃ is, parseMonth englishGet "%m %b".toList ⟨"05 Jan".toList, false, false⟩ = .ok (is, none)) := ⟨⟨_, rfl⟩, ⟨_, rfl⟩⟩

end Gul14.Date.Parts
