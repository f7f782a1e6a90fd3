import Verif.Date.ParseParts
import Verif.Date.FormatParts

/-! # C119: parse reads what format writes: years, months, days, weekdays, months of a year, days of a month -/
namespace Gul14.Date.Parts
open Gul14.Spec.Calendar Gul14.Spec.DateText Gul14.Spec.DateFormat Gul14.Spec.DateParse Gul14.Date.Names

instance (L : List Char) : Decidable (MonthGiven L) := inferInstanceAs (Decidable (∃ c ∈ L, c ∈ ['m', 'b', 'B', 'h', 'F', 'D']))
instance (L : List Char) : Decidable (DayGiven L) := inferInstanceAs (Decidable (∃ c ∈ L, c ∈ ['d', 'e', 'F', 'D']))
instance (L : List Char) : Decidable (WeekdayGiven L) := inferInstanceAs (Decidable (∃ c ∈ L, c ∈ ['u', 'w', 'a', 'A']))

theorem combine_fwd {e : PEnv} {v : PVars} {fds : Fields} {Y C : Int} (hf : fullYear v.y v.Y v.C = .ok (Y, C)) (hg : v.g = 100)
    (hG : v.G = -32768) (hV : v.V = 100) (hU : v.U = 100) (hW : v.W = 100) (hj : v.j = -1) (hI : v.I = 0)
    (hYr : Y = -32768 ∨ (-9999 ≤ Y ∧ Y ≤ 9999)) (hno : (YMD.mk (year Y) (asUchar (uns v.m)) (asUchar (uns v.d))).ok = false) :
    ∃ r, combine e v fds = .ok r ∧ r.fds.ymd = ⟨year Y, asUchar (uns v.m), asUchar (uns v.d)⟩ ∧
      r.fds.wd = if v.wd ≠ 8 then weekdayOf (uns v.wd) else fds.wd := by
  have hfG : fullYear v.g v.G C = .ok (v.G, C) := by unfold fullYear; rw [if_pos hg]; rfl
  have hcl : (if Y < -32767 ∨ Y > 32767 then -32768 else Y) = Y := by split <;> omega
  have hw : weeks { v with Y := Y, G := v.G } = .ok ({ v with Y := Y }, false) := by
    simp [weeks, usesIso, usesU, usesW, usesJ, hG, hV, hU, hW, hj, whenUsed]
  have hD : theDate { v with Y := Y } false = .ok (⟨year Y, asUchar (uns v.m), asUchar (uns v.d)⟩, v.wd) := by
    rw [theDate_eq]
    simp only [hno, Bool.false_eq_true, if_false]
  have hH : theHour { v with Y := Y } = .ok v.H := by
    unfold theHour
    simp [hI]
  unfold combine
  simp only [hf, Res.ok_bind, hfG, hcl, hw, hD, hH, Res.pure_eq]
  exact ⟨_, rfl, rfl, rfl⟩

theorem mem_same {L : List Char} {c : Char} (h : c ∈ ['Y', 'y', 'C', 'F', 'D', 'G', 'V', 'U', 'W', 'j', 'u', 'H', 'T', 'R']) : c ∈ L.map sameAs ↔ c ∈ L := by
  rw [List.mem_map]
  have key : ∀ x, sameAs x = c ↔ x = c := by
    intro x
    unfold sameAs
    split
    · rename_i e
      constructor
      · rintro rfl; exact absurd h (by decide)
      · rintro rfl; rcases e with rfl | rfl <;> exact absurd h (by decide)
    split
    · rename_i e
      constructor
      · rintro rfl; exact absurd h (by decide)
      · rintro rfl; rcases e with rfl | rfl | rfl <;> exact absurd h (by decide)
    split
    · rename_i e
      constructor
      · rintro rfl; exact absurd h (by decide)
      · rintro rfl; subst e; exact absurd h (by decide)
    · rfl
  constructor
  · rintro ⟨x, h1, h2⟩
    exact (key x).mp h2 ▸ h1
  · intro h'
    exact ⟨c, h', (key c).mpr rfl⟩

theorem same_month {L : List Char} (hL : ∀ c ∈ L, c ∈ askLetters) :
    ('m' ∈ L.map sameAs ∨ 'F' ∈ L.map sameAs ∨ 'D' ∈ L.map sameAs) ↔ MonthGiven L := by
  constructor
  · intro h
    simp only [List.mem_map] at h
    rcases h with ⟨c, h1, h2⟩ | ⟨c, h1, h2⟩ | ⟨c, h1, h2⟩ <;> refine ⟨c, h1, ?_⟩ <;>
      exact (show ∀ c ∈ askLetters, sameAs c ∈ ['m', 'F', 'D'] → c ∈ ['m', 'b', 'B', 'h', 'F', 'D'] by decide) c (hL c h1) (by rw [h2]; decide)
  · rintro ⟨c, h1, h2⟩
    left
    rw [List.mem_map]
    exact ⟨c, h1, (show ∀ c ∈ askLetters, c ∈ ['m', 'b', 'B', 'h', 'F', 'D'] → sameAs c = 'm' by decide) c (hL c h1) h2⟩

theorem same_day {L : List Char} (hL : ∀ c ∈ L, c ∈ askLetters) :
    ('d' ∈ L.map sameAs ∨ 'F' ∈ L.map sameAs ∨ 'D' ∈ L.map sameAs) ↔ DayGiven L := by
  constructor
  · intro h
    simp only [List.mem_map] at h
    rcases h with ⟨c, h1, h2⟩ | ⟨c, h1, h2⟩ | ⟨c, h1, h2⟩ <;> refine ⟨c, h1, ?_⟩ <;>
      exact (show ∀ c ∈ askLetters, sameAs c ∈ ['d', 'F', 'D'] → c ∈ ['d', 'e', 'F', 'D'] by decide) c (hL c h1) (by rw [h2]; decide)
  · rintro ⟨c, h1, h2⟩
    left
    rw [List.mem_map]
    exact ⟨c, h1, (show ∀ c ∈ askLetters, c ∈ ['d', 'e', 'F', 'D'] → sameAs c = 'd' by decide) c (hL c h1) h2⟩

theorem same_weekday {L : List Char} (hL : ∀ c ∈ L, c ∈ askLetters) :
    ('u' ∈ L.map sameAs ∨ 'w' ∈ L.map sameAs) ↔ WeekdayGiven L := by
  constructor
  · intro h
    simp only [List.mem_map] at h
    rcases h with ⟨c, h1, h2⟩ | ⟨c, h1, h2⟩ <;> refine ⟨c, h1, ?_⟩ <;>
      exact (show ∀ c ∈ askLetters, sameAs c ∈ ['u', 'w'] → c ∈ ['u', 'w', 'a', 'A'] by decide) c (hL c h1) (by rw [h2]; decide)
  · rintro ⟨c, h1, h2⟩
    simp only [List.mem_map]
    rcases (show ∀ c ∈ askLetters, c ∈ ['u', 'w', 'a', 'A'] → sameAs c = 'u' ∨ sameAs c = 'w' by decide) c (hL c h1) h2 with h | h
    · exact Or.inl ⟨c, h1, h⟩
    · exact Or.inr ⟨c, h1, h⟩

/-- The text of any date with the parts that are asked for. -/
theorem fromStream_known (get : TimeGet) (loc : TimePut) (hn : ReadsNames loc get.get) {n : Int} {d : Date} (hd : DayOf n d) {fmt text : List Char}
    (hy : YearReadable (letters (items fmt)) n d.year) (hr : Legible d.day false (items fmt)) (hL : ∀ c ∈ letters (items fmt), c ∈ askLetters)
    (hs : SaysAll loc ⟨some (n, d), 0, none, none, none⟩ (items fmt) text)
    (hno : ¬ (YearGiven (letters (items fmt)) ∧ MonthGiven (letters (items fmt)) ∧ DayGiven (letters (items fmt)))) :
    ∃ is r, fromStream ⟨1, get⟩ ⟨text, false, false⟩ fmt {} = .ok (is, some r) ∧ is.rest = [] ∧ is.fail = false ∧
      (YearGiven (letters (items fmt)) → r.fds.ymd.y.toInt = d.year) ∧ (MonthGiven (letters (items fmt)) → r.fds.ymd.m.toNat = d.month) ∧
      (DayGiven (letters (items fmt)) → r.fds.ymd.d.toNat = d.day) ∧ (WeekdayGiven (letters (items fmt)) → r.fds.wd.toNat = dayOfWeek n) := by
  have w0 : fractionalWidth 1 = 0 := by decide +kernel
  have hT : Decimal 1 := ⟨by norm_num, 0, by omega, by simp⟩
  have hyr := hy
  obtain ⟨y1, y2, y3, y4, y5⟩ := hyr
  obtain ⟨F, K, -⟩ := facts_exist (T := 1) hT (x := ⟨some (n, d), 0, none, none, none⟩) w0.symm (t := 0) (off := 0)
    (by rintro n' d' e; cases e; exact ⟨hd, y1, y2⟩) (by omega) (by omega) (by rintro _ ⟨⟩) (by rintro _ ⟨⟩)
  obtain ⟨k1, k2, k3, k4, k5, k6, -, -⟩ := K.date n d rfl
  have KX : XKnown F ⟨0, 0, []⟩ ⟨1, get⟩ loc d.day ⟨some (n, d), 0, none, none, none⟩ := by
    refine ⟨K, hn, ?_, ?_, ?_⟩
    · rintro n' d' e
      cases e
      exact ⟨(month_range hd).1, (month_range hd).2, rfl⟩
    · rintro _ ⟨⟩
    · rintro _ ⟨⟩
  have hb : ∀ c ∈ letters (items fmt), Bounds F c ∧ (c = 'j' → (some (n, d) : Option (Int × Date)) ≠ none) ∧
      (c = 'Z' → ∀ z, (none : Option (List Char)) = some z → ZoneName z) := by
    intro c hc
    refine ⟨⟨?_, ?_⟩, by simp, by rintro - _ ⟨⟩⟩
    · rintro rfl
      rw [k3]
      have := y4 hc
      omega
    · rintro rfl
      exact absurd (hL _ hc) (by decide)
  obtain ⟨is, tm, g1, g2, g3⟩ := Names.ploop_fmt KX hr hb hs
  generalize hLL : letters (items fmt) = L at *
  have no : ∀ c ∈ ['F', 'D', 'G', 'V', 'U', 'W', 'j', 'I'], c ∉ L := fun c hc h =>
    (show ∀ c ∈ ['F', 'D', 'G', 'V', 'U', 'W', 'j', 'I'], c ∉ askLetters by decide) c hc (hL c h)
  have no' : ∀ c ∈ ['F', 'D', 'G', 'V', 'U', 'W', 'j'], c ∉ L.map sameAs := fun c hc h =>
    no c ((show ∀ c ∈ ['F', 'D', 'G', 'V', 'U', 'W', 'j'], c ∈ ['F', 'D', 'G', 'V', 'U', 'W', 'j', 'I'] by decide) c hc)
      ((mem_same ((show ∀ c ∈ ['F', 'D', 'G', 'V', 'U', 'W', 'j'], c ∈ ['Y', 'y', 'C', 'F', 'D', 'G', 'V', 'U', 'W', 'j', 'u', 'H', 'T', 'R'] by decide) c hc)).mp h)
  have hYG : YearGiven (L.map sameAs) ↔ YearGiven L := by
    unfold YearGiven
    simp only [mem_same (L := L) (c := 'Y') (by decide), mem_same (L := L) (c := 'F') (by decide), mem_same (L := L) (c := 'y') (by decide), mem_same (L := L) (c := 'D') (by decide)]
  have hyr' : YearReadable (L.map sameAs) n d.year := by
    refine ⟨y1, y2, ?_, ?_, ?_⟩
    · intro h; exact absurd h (no' 'G' (by decide))
    · rw [mem_same (by decide)]; exact y4
    · simp only [mem_same (L := L) (c := 'Y') (by decide), mem_same (L := L) (c := 'F') (by decide), mem_same (L := L) (c := 'y') (by decide),
        mem_same (L := L) (c := 'D') (by decide), mem_same (L := L) (c := 'C') (by decide)]
      exact y5
  obtain ⟨C, hC⟩ := fullYear_vars (L := L.map sameAs) (n := n) k1 k2 k3 hyr'
  have em : (xvars F ⟨0, 0, []⟩ L tm).m = if MonthGiven L then (d.month : Int) else 0 := by
    show (if 'm' ∈ L.map sameAs ∨ 'F' ∈ L.map sameAs ∨ 'D' ∈ L.map sameAs then F.m else 0) = _
    rw [if_congr (same_month hL) rfl rfl, k4]
  have ed : (xvars F ⟨0, 0, []⟩ L tm).d = if DayGiven L then (d.day : Int) else 0 := by
    show (if 'd' ∈ L.map sameAs ∨ 'F' ∈ L.map sameAs ∨ 'D' ∈ L.map sameAs then F.d else 0) = _
    rw [if_congr (same_day hL) rfl rfl, k5]
  have ew : (xvars F ⟨0, 0, []⟩ L tm).wd = if WeekdayGiven L then (dayOfWeek n : Int) else 8 := by
    show (if 'u' ∈ L.map sameAs ∨ 'w' ∈ L.map sameAs then F.wd else 8) = _
    rw [if_congr (same_weekday hL) rfl rfl, k6]
  have hmr := month_range hd
  have hdr : d.day ≤ 31 := by
    have := (Calc.dayOf_sound hd).1.2.2.2
    have hl := monthLength_range d.year d.month
    omega
  have hdl := dow_lt n
  have um : (asUchar (uns (xvars F ⟨0, 0, []⟩ L tm).m)).toNat = if MonthGiven L then d.month else 0 := by
    rw [em, asUchar_toNat]; unfold uns; split <;> omega
  have ud : (asUchar (uns (xvars F ⟨0, 0, []⟩ L tm).d)).toNat = if DayGiven L then d.day else 0 := by
    rw [ed, asUchar_toNat]; unfold uns; split <;> omega
  have uy : (year (if YearGiven (L.map sameAs) then d.year else -32768)).toInt = if YearGiven (L.map sameAs) then d.year else -32768 :=
    year_toInt (by split <;> omega) (by split <;> omega)
  have hokf : (YMD.mk (year (if YearGiven (L.map sameAs) then d.year else -32768)) (asUchar (uns (xvars F ⟨0, 0, []⟩ L tm).m))
      (asUchar (uns (xvars F ⟨0, 0, []⟩ L tm).d))).ok = false := by
    rw [Bool.eq_false_iff]
    intro hok
    obtain ⟨⟨v1, v2, v3, v4⟩, v5⟩ := (c72_ok _).mp hok
    refine hno ⟨?_, ?_, ?_⟩
    · rw [← hYG]
      by_contra hh
      simp only [uy, hh, if_false] at v5
      exact v5 rfl
    · by_contra hh
      have : 1 ≤ (asUchar (uns (xvars F ⟨0, 0, []⟩ L tm).m)).toNat := v1
      rw [um, if_neg hh] at this
      omega
    · by_contra hh
      have : 1 ≤ (asUchar (uns (xvars F ⟨0, 0, []⟩ L tm).d)).toNat := v3
      rw [ud, if_neg hh] at this
      omega
  obtain ⟨r, r1, r2, r3⟩ := combine_fwd (e := ⟨1, get⟩) (v := xvars F ⟨0, 0, []⟩ L tm) (fds := {}) hC rfl
    (if_neg (no' 'G' (by decide))) (if_neg (no' 'V' (by decide))) (if_neg (no' 'U' (by decide))) (if_neg (no' 'W' (by decide))) (if_neg (no' 'j' (by decide)))
    (if_neg (no 'I' (by decide))) (by split <;> omega) hokf
  refine ⟨is, r, ?_, g2, g3, ?_, ?_, ?_, ?_⟩
  · have hg : (IStream.good ⟨text, false, false⟩) = true := rfl
    unfold fromStream
    simp only [hg, Bool.not_true, Bool.false_eq_true, if_false]
    rw [g1]
    simp only [Res.ok_bind, Option.isSome_none, Bool.and_false, Bool.false_eq_true, if_false, g3, r1, Res.pure_eq]
  · intro h
    rw [r2]
    simp only [uy]
    rw [if_pos (hYG.mpr h)]
  · intro h; rw [r2]; simp only [um, if_pos h]
  · intro h; rw [r2]; simp only [ud, if_pos h]
  · intro h
    rw [r3, ew, if_pos h, if_pos (by omega), weekdayOf_toNat (by unfold uns; omega) (by unfold uns; omega)]
    unfold uns; omega

theorem legible_day {day : Nat} (its : List Item) : ∀ sk, Legible 0 sk its → Legible day sk its := by
  induction its with
  | nil => intro _ _; trivial
  | cons i its ih =>
    intro sk h
    cases i with
    | lit c =>
      obtain ⟨h1, h2, h3⟩ := h
      exact ⟨h1, h2, h3.imp (fun h => ⟨h.1, ih _ h.2⟩) fun h => ⟨h.1, ih _ h.2⟩⟩
    | conv md c =>
      obtain ⟨h1, h2⟩ := h
      refine ⟨?_, ih _ h2⟩
      rcases h1 with h | h | h | ⟨e, e', h⟩ | h
      · exact Or.inl h
      · exact Or.inr (Or.inl h)
      · exact Or.inr (Or.inr (Or.inl h))
      · exact Or.inr (Or.inr (Or.inr (Or.inl ⟨e, e', h.imp (fun h => absurd h (by omega)) id⟩)))
      · exact Or.inr (Or.inr (Or.inr (Or.inr h)))

theorem rightAll_says {loc : TimePut} {p : Incomplete.Parts} {n : Int} {d : Date} (h : Incomplete.Agrees p n d) (its : List Item) :
    ∀ t, Incomplete.RightAll loc p its t → SaysAll loc ⟨some (n, d), 0, none, none, none⟩ its t := by
  induction its with
  | nil => intro t h; exact h
  | cons i its ih =>
    rintro t ⟨a, b, h1, h2, h3⟩
    exact ⟨a, b, h1, h2 n d h, ih b h3⟩

/-- Conversions without modifier. -/
theorem legible_none {day : Nat} (its : List Item) : ∀ sk, Legible day sk its → ∀ md c, Item.conv md c ∈ its → c ∈ askLetters → md = none := by
  induction its with
  | nil => intro _ _ _ _ h; cases h
  | cons i its ih =>
    intro sk h md c hm hc
    rcases List.mem_cons.mp hm with hm' | hm'
    · subst hm'
      obtain ⟨h1, -⟩ := h
      rcases h1 with h | h | h | h | h | h
      · rcases h with h | ⟨rfl, -⟩
        · exact h.1
        · exact absurd hc (by decide)
      all_goals exact h.1
    · cases i with
      | lit c0 =>
        obtain ⟨-, -, h3⟩ := h
        rcases h3 with h3 | h3
        · exact ih _ h3.2 md c hm' hc
        · exact ih _ h3.2 md c hm' hc
      | conv md0 c0 => exact ih _ h.2 md c hm' hc

/-- Format, then parse. -/
theorem back {loc : TimePut} {get : TimeGet} (hn : ReadsNames loc get.get) {f : Fields} {p : Incomplete.Parts} (hf : Incomplete.FormatsAs loc f p) {n : Int} {d : Date}
    (hd : DayOf n d) (hp : Incomplete.Agrees p n d) {fmt : List Char} (hr : Legible d.day false (items fmt)) (hL : ∀ c ∈ letters (items fmt), c ∈ askLetters)
    (hl : ∀ c ∈ letters (items fmt), ¬ Incomplete.Lacks p (.conv none c)) (hy : YearReadable (letters (items fmt)) n d.year)
    (hno : ¬ (YearGiven (letters (items fmt)) ∧ MonthGiven (letters (items fmt)) ∧ DayGiven (letters (items fmt)))) :
    ∃ text is r, formatFields loc f fmt = .ok text ∧ fromStream ⟨1, get⟩ ⟨text, false, false⟩ fmt {} = .ok (is, some r) ∧ is.rest = [] ∧ is.fail = false ∧
      (YearGiven (letters (items fmt)) → r.fds.ymd.y.toInt = d.year) ∧ (MonthGiven (letters (items fmt)) → r.fds.ymd.m.toNat = d.month) ∧
      (DayGiven (letters (items fmt)) → r.fds.ymd.d.toNat = d.day) ∧ (WeekdayGiven (letters (items fmt)) → r.fds.wd.toNat = dayOfWeek n) := by
  obtain ⟨text, t1, t2⟩ := (hf fmt).2 (by
    intro i hi
    cases i with
    | lit c => exact id
    | conv md c =>
      have hc := mem_letters hi
      obtain rfl := legible_none _ _ hr md c hi (hL c hc)
      exact hl c hc)
  obtain ⟨is, r, h⟩ := fromStream_known get loc hn hd hy hr hL (rightAll_says hp _ _ t2) hno
  exact ⟨text, is, r, t1, h⟩

theorem parseFields_fwd {α : Type} {get : TimeGet} {fmt : List Char} {ok : Fields → Bool} {f : Fields → α} {is is' : IStream} {r : Parsed}
    (h : fromStream ⟨1, get⟩ is fmt {} = .ok (is', some r)) (hok : ok r.fds = true) : parseFields get fmt ok f is = .ok (is', some (f r.fds)) := by
  unfold parseFields
  simp only [h, Res.ok_bind, hok, if_true, Res.pure_eq]

/-- No year is asked for. -/
theorem no_year {L : List Char} {l : List Char} (hL : ∀ c ∈ L, c ∈ l) (hl : 'Y' ∉ l ∧ 'y' ∉ l ∧ 'C' ∉ l ∧ 'G' ∉ l ∧ 'F' ∉ l ∧ 'D' ∉ l) (n : Int) :
    YearReadable L n 2000 ∧ ¬ YearGiven L := by
  have h : ∀ c, c ∉ l → c ∉ L := fun c hc h => hc (hL c h)
  refine ⟨⟨by omega, by omega, fun hg => absurd hg (h _ hl.2.2.2.1), fun hg => absurd hg (h _ hl.2.2.1), ?_⟩, ?_⟩
  · rintro (hg | hg)
    · exact absurd hg (h _ hl.2.1)
    · exact absurd hg (h _ hl.2.2.2.2.2)
  · rintro (hg | hg | hg | hg)
    · exact h _ hl.1 hg
    · exact h _ hl.2.2.2.2.1 hg
    · exact h _ hl.2.1 hg
    · exact h _ hl.2.2.2.2.2 hg

section
variable (get : TimeGet) (loc : TimePut) (hn : ReadsNames loc get.get) (fmt : List Char)
include hn

/-- A year. -/
theorem c119_year (y : Int16) (hr : Legible 0 false (items fmt)) (hL : ∀ c ∈ letters (items fmt), c ∈ ['Y', 'y', 'C', '%', 'n', 't'])
    (hy : YearLegible (letters (items fmt)) y.toInt) :
    ∃ text is, formatFields loc (fieldsYear y) fmt = .ok text ∧ parseYear get fmt ⟨text, false, false⟩ = .ok (is, some y) ∧ is.rest = [] ∧ is.fail = false := by
  obtain ⟨y0, y1, y2, y3, y4⟩ := hy
  have hg : YearGiven (letters (items fmt)) := y0.elim Or.inl fun h => Or.inr (Or.inr (Or.inl h))
  have hsub : ∀ c ∈ ['Y', 'y', 'C', '%', 'n', 't'], c ∈ askLetters ∧ c ∉ ['m', 'b', 'B', 'h', 'F', 'D'] ∧ c ≠ 'G' ∧ c ≠ 'D' := by decide
  have hya : Incomplete.aYear y.toInt = some y.toInt := if_neg (by omega)
  have hv : Date.Valid ⟨y.toInt, 1, 1⟩ := ⟨by simp, by simp, by simp, by simp [monthLength]⟩
  obtain ⟨text, is, r, t1, t2, t3, t4, t5, -⟩ := back (d := ⟨y.toInt, 1, 1⟩) hn (Incomplete.c113_year loc y) (Calc.dayOf_iff.mpr ⟨hv, rfl⟩)
    ⟨by rw [hya]; rintro _ ⟨⟩; rfl, by rintro _ ⟨⟩, by rintro _ ⟨⟩, by rintro _ ⟨⟩⟩ (legible_day _ _ hr) (fun c hc => (hsub c (hL c hc)).1)
    (by
      intro c hc
      have := hL c hc
      unfold Incomplete.Lacks
      rw [hya]
      clear hc
      simp only [reduceCtorEq, and_false, and_true, false_or]
      revert c; decide)
    ⟨y1, y2, fun h => absurd rfl (hsub _ (hL _ h)).2.2.1, y3, fun h => by
      rcases h with h | h
      · rcases y4 h with h | h | h
        · exact Or.inl h
        · exact Or.inr (Or.inl ⟨Or.inl h.1, h.2⟩)
        · exact Or.inr (Or.inr h)
      · exact absurd rfl (hsub _ (hL _ h)).2.2.2⟩
    (by rintro ⟨-, ⟨c, h1, h2⟩, -⟩; exact (hsub c (hL c h1)).2.1 h2)
  have e : r.fds.ymd.y = y := Int16.toInt_inj.mp (t5 hg)
  refine ⟨text, is, t1, ?_, t3, t4⟩
  have := parseFields_fwd (ok := fun f => yearOk f.ymd.y) (f := fun f => f.ymd.y) t2 (by rw [e]; unfold yearOk; simp; omega)
  rw [e] at this
  exact this

/-- A month. -/
theorem c119_month (m : UInt8) (h1 : 1 ≤ m.toNat) (h2 : m.toNat ≤ 12) (hr : Legible 0 false (items fmt))
    (hL : ∀ c ∈ letters (items fmt), c ∈ ['m', 'b', 'B', 'h', '%', 'n', 't']) (hm : MonthGiven (letters (items fmt))) :
    ∃ text is, formatFields loc (fieldsMonth m) fmt = .ok text ∧ parseMonth get fmt ⟨text, false, false⟩ = .ok (is, some m) ∧ is.rest = [] ∧ is.fail = false := by
  have hsub : ∀ c ∈ ['m', 'b', 'B', 'h', '%', 'n', 't'], c ∈ askLetters := by decide
  have hma : Incomplete.aMonth m.toNat = some m.toNat := if_pos ⟨h1, h2⟩
  have hv : Date.Valid ⟨2000, m.toNat, 1⟩ := by
    have := monthLength_range 2000 m.toNat
    exact ⟨h1, h2, by simp, by simp; omega⟩
  obtain ⟨ny, ng⟩ := no_year hL (by decide) (Calc.dayNum 2000 m.toNat 1)
  obtain ⟨text, is, r, t1, t2, t3, t4, -, t5, -⟩ := back (d := ⟨2000, m.toNat, 1⟩) hn (Incomplete.c113_month loc m) (Calc.dayOf_iff.mpr ⟨hv, rfl⟩)
    ⟨by rintro _ ⟨⟩, by rw [hma]; rintro _ ⟨⟩; rfl, by rintro _ ⟨⟩, by rintro _ ⟨⟩⟩ (legible_day _ _ hr) (fun c hc => hsub c (hL c hc))
    (by
      intro c hc
      have := hL c hc
      unfold Incomplete.Lacks
      rw [hma]
      clear hc
      simp only [reduceCtorEq, and_false, and_true, false_or]
      revert c; decide)
    ny (fun h => ng h.1)
  have e : r.fds.ymd.m = m := UInt8.toNat_inj.mp (t5 hm)
  refine ⟨text, is, t1, ?_, t3, t4⟩
  have := parseFields_fwd (ok := fun f => monthOk f.ymd.m) (f := fun f => f.ymd.m) t2
    (by rw [e]; unfold monthOk; simp only [Bool.and_eq_true, decide_eq_true_eq, UInt8.le_iff_toNat_le]; exact ⟨h1, h2⟩)
  rw [e] at this
  exact this

/-- A day.  (`Legible`: with one digit, `%e` is read only after white space.) -/
theorem c119_day (d : UInt8) (h1 : 1 ≤ d.toNat) (h2 : d.toNat ≤ 31) (hr : Legible d.toNat false (items fmt))
    (hL : ∀ c ∈ letters (items fmt), c ∈ ['d', 'e', '%', 'n', 't']) (hm : DayGiven (letters (items fmt))) :
    ∃ text is, formatFields loc (fieldsDay d) fmt = .ok text ∧ parseDay get fmt ⟨text, false, false⟩ = .ok (is, some d) ∧ is.rest = [] ∧ is.fail = false := by
  have hsub : ∀ c ∈ ['d', 'e', '%', 'n', 't'], c ∈ askLetters := by decide
  have hma : Incomplete.aDay d.toNat = some d.toNat := if_pos ⟨h1, h2⟩
  have hv : Date.Valid ⟨2000, 1, d.toNat⟩ := ⟨by simp, by simp, h1, by simp [monthLength]; omega⟩
  obtain ⟨ny, ng⟩ := no_year hL (by decide) (Calc.dayNum 2000 1 d.toNat)
  obtain ⟨text, is, r, t1, t2, t3, t4, -, -, t5, -⟩ := back (d := ⟨2000, 1, d.toNat⟩) hn (Incomplete.c113_day loc d) (Calc.dayOf_iff.mpr ⟨hv, rfl⟩)
    ⟨by rintro _ ⟨⟩, by rintro _ ⟨⟩, by rw [hma]; rintro _ ⟨⟩; rfl, by rintro _ ⟨⟩⟩ hr (fun c hc => hsub c (hL c hc))
    (by
      intro c hc
      have := hL c hc
      unfold Incomplete.Lacks
      rw [hma]
      clear hc
      simp only [reduceCtorEq, and_false, and_true, false_or]
      revert c; decide)
    ny (fun h => ng h.1)
  have e : r.fds.ymd.d = d := UInt8.toNat_inj.mp (t5 hm)
  refine ⟨text, is, t1, ?_, t3, t4⟩
  have := parseFields_fwd (ok := fun f => dayOk f.ymd.d) (f := fun f => f.ymd.d) t2
    (by rw [e]; unfold dayOk; simp only [Bool.and_eq_true, decide_eq_true_eq, UInt8.le_iff_toNat_le]; exact ⟨h1, h2⟩)
  rw [e] at this
  exact this

/-- A weekday. -/
theorem c119_weekday (w : UInt8) (h1 : w.toNat ≤ 6) (hr : Legible 0 false (items fmt))
    (hL : ∀ c ∈ letters (items fmt), c ∈ ['u', 'w', 'a', 'A', '%', 'n', 't']) (hm : WeekdayGiven (letters (items fmt))) :
    ∃ text is, formatFields loc (fieldsWeekday w) fmt = .ok text ∧ parseWeekday get fmt ⟨text, false, false⟩ = .ok (is, some w) ∧ is.rest = [] ∧ is.fail = false := by
  have hsub : ∀ c ∈ ['u', 'w', 'a', 'A', '%', 'n', 't'], c ∈ askLetters := by decide
  have hma : Incomplete.aWeekday w.toNat = some w.toNat := if_pos (by omega)
  -- Sunday, 2 January 2000, and the days after it
  have hv : Date.Valid ⟨2000, 1, 2 + w.toNat⟩ := ⟨by simp, by simp, by simp; omega, by simp [monthLength]; omega⟩
  have hdn : dayOfWeek (Calc.dayNum 2000 1 (2 + w.toNat)) = w.toNat := by
    have : ∀ k : Nat, k ≤ 6 → dayOfWeek (Calc.dayNum 2000 1 (2 + k)) = k := by decide +kernel
    exact this _ h1
  obtain ⟨ny, ng⟩ := no_year hL (by decide) (Calc.dayNum 2000 1 (2 + w.toNat))
  obtain ⟨text, is, r, t1, t2, t3, t4, -, -, -, t5⟩ := back (d := ⟨2000, 1, 2 + w.toNat⟩) hn (Incomplete.c113_weekday loc w) (Calc.dayOf_iff.mpr ⟨hv, rfl⟩)
    ⟨by rintro _ ⟨⟩, by rintro _ ⟨⟩, by rintro _ ⟨⟩, by rw [hma]; rintro _ ⟨⟩; exact hdn⟩ (legible_day _ _ hr) (fun c hc => hsub c (hL c hc))
    (by
      intro c hc
      have := hL c hc
      unfold Incomplete.Lacks
      rw [hma]
      clear hc
      simp only [reduceCtorEq, and_false, and_true, false_or]
      revert c; decide)
    ny (fun h => ng h.1)
  have e : r.fds.wd = w := UInt8.toNat_inj.mp ((t5 hm).trans hdn)
  refine ⟨text, is, t1, ?_, t3, t4⟩
  have := parseFields_fwd (ok := fun f => weekdayOk f.wd) (f := fun f => f.wd) t2
    (by rw [e]; unfold weekdayOk; simp only [decide_eq_true_eq, UInt8.le_iff_toNat_le]; exact h1)
  rw [e] at this
  exact this

/-- A month of a year. -/
theorem c119_year_month (x : YM) (h1 : 1 ≤ x.m.toNat) (h2 : x.m.toNat ≤ 12) (hr : Legible 0 false (items fmt))
    (hL : ∀ c ∈ letters (items fmt), c ∈ ['Y', 'y', 'C', 'm', 'b', 'B', 'h', '%', 'n', 't']) (hm : MonthGiven (letters (items fmt)))
    (hy : YearLegible (letters (items fmt)) x.y.toInt) :
    ∃ text is, formatFields loc (fieldsYearMonth x) fmt = .ok text ∧ parseYearMonth get fmt ⟨text, false, false⟩ = .ok (is, some x) ∧
      is.rest = [] ∧ is.fail = false := by
  obtain ⟨y0, y1, y2, y3, y4⟩ := hy
  have hg : YearGiven (letters (items fmt)) := y0.elim Or.inl fun h => Or.inr (Or.inr (Or.inl h))
  have hsub : ∀ c ∈ ['Y', 'y', 'C', 'm', 'b', 'B', 'h', '%', 'n', 't'], c ∈ askLetters ∧ c ∉ ['d', 'e', 'F', 'D'] ∧ c ≠ 'G' ∧ c ≠ 'D' := by decide
  have hya : Incomplete.aYear x.y.toInt = some x.y.toInt := if_neg (by omega)
  have hma : Incomplete.aMonth x.m.toNat = some x.m.toNat := if_pos ⟨h1, h2⟩
  have hv : Date.Valid ⟨x.y.toInt, x.m.toNat, 1⟩ := by
    have := monthLength_range x.y.toInt x.m.toNat
    exact ⟨h1, h2, by simp, by simp; omega⟩
  obtain ⟨text, is, r, t1, t2, t3, t4, t5, t6, -⟩ := back (d := ⟨x.y.toInt, x.m.toNat, 1⟩) hn (Incomplete.c113_year_month loc x) (Calc.dayOf_iff.mpr ⟨hv, rfl⟩)
    ⟨by rw [hya]; rintro _ ⟨⟩; rfl, by rw [hma]; rintro _ ⟨⟩; rfl, by rintro _ ⟨⟩, by rintro _ ⟨⟩⟩ (legible_day _ _ hr) (fun c hc => (hsub c (hL c hc)).1)
    (by
      intro c hc
      have := hL c hc
      unfold Incomplete.Lacks
      rw [hya, hma]
      clear hc
      simp only [reduceCtorEq, and_false, and_true, false_or]
      revert c; decide)
    ⟨y1, y2, fun h => absurd rfl (hsub _ (hL _ h)).2.2.1, y3, fun h => by
      rcases h with h | h
      · rcases y4 h with h | h | h
        · exact Or.inl h
        · exact Or.inr (Or.inl ⟨Or.inl h.1, h.2⟩)
        · exact Or.inr (Or.inr h)
      · exact absurd rfl (hsub _ (hL _ h)).2.2.2⟩
    (by rintro ⟨-, -, ⟨c, h1, h2⟩⟩; exact (hsub c (hL c h1)).2.1 h2)
  have e : r.fds.ymd.y = x.y := Int16.toInt_inj.mp (t5 hg)
  have e' : r.fds.ymd.m = x.m := UInt8.toNat_inj.mp (t6 hm)
  refine ⟨text, is, t1, ?_, t3, t4⟩
  have := parseFields_fwd (ok := fun f => monthOk f.ymd.m) (f := fun f => YM.mk f.ymd.y f.ymd.m) t2
    (by rw [e']; unfold monthOk; simp only [Bool.and_eq_true, decide_eq_true_eq, UInt8.le_iff_toNat_le]; exact ⟨h1, h2⟩)
  rw [e, e'] at this
  exact this

/-- A day of a month: one that there is in leap years. -/
theorem c119_month_day (m d : UInt8) (h1 : 1 ≤ m.toNat) (h2 : m.toNat ≤ 12) (h3 : 1 ≤ d.toNat) (h4 : d.toNat ≤ monthLength 2000 m.toNat)
    (hr : Legible d.toNat false (items fmt)) (hL : ∀ c ∈ letters (items fmt), c ∈ ['m', 'b', 'B', 'h', 'd', 'e', '%', 'n', 't'])
    (hm : MonthGiven (letters (items fmt))) (hd : DayGiven (letters (items fmt))) :
    ∃ text is, formatFields loc (fieldsMonthDay m d) fmt = .ok text ∧ parseMonthDay get fmt ⟨text, false, false⟩ = .ok (is, some (m, d)) ∧
      is.rest = [] ∧ is.fail = false := by
  have hsub : ∀ c ∈ ['m', 'b', 'B', 'h', 'd', 'e', '%', 'n', 't'], c ∈ askLetters := by decide
  have h31 : d.toNat ≤ 31 := by have := monthLength_range 2000 m.toNat; omega
  have hma : Incomplete.aMonth m.toNat = some m.toNat := if_pos ⟨h1, h2⟩
  have hda : Incomplete.aDay d.toNat = some d.toNat := if_pos ⟨h3, h31⟩
  have hv : Date.Valid ⟨2000, m.toNat, d.toNat⟩ := ⟨h1, h2, h3, h4⟩
  obtain ⟨ny, ng⟩ := no_year hL (by decide) (Calc.dayNum 2000 m.toNat d.toNat)
  obtain ⟨text, is, r, t1, t2, t3, t4, -, t5, t6, -⟩ := back (d := ⟨2000, m.toNat, d.toNat⟩) hn (Incomplete.c113_month_day loc m d) (Calc.dayOf_iff.mpr ⟨hv, rfl⟩)
    ⟨by rintro _ ⟨⟩, by rw [hma]; rintro _ ⟨⟩; rfl, by rw [hda]; rintro _ ⟨⟩; rfl, by rintro _ ⟨⟩⟩ hr (fun c hc => hsub c (hL c hc))
    (by
      intro c hc
      have := hL c hc
      unfold Incomplete.Lacks
      rw [hma, hda]
      clear hc
      simp only [reduceCtorEq, and_false, and_true, false_or]
      revert c; decide)
    ny (fun h => ng h.1)
  have e : r.fds.ymd.m = m := UInt8.toNat_inj.mp (t5 hm)
  have e' : r.fds.ymd.d = d := UInt8.toNat_inj.mp (t6 hd)
  refine ⟨text, is, t1, ?_, t3, t4⟩
  have := parseFields_fwd (ok := fun f => monthOk f.ymd.m && dayOk f.ymd.d) (f := fun f => (f.ymd.m, f.ymd.d)) t2
    (by rw [e, e']; unfold monthOk dayOk; simp only [Bool.and_eq_true, decide_eq_true_eq, UInt8.le_iff_toNat_le]; exact ⟨⟨h1, h2⟩, h3, h31⟩)
  rw [e, e'] at this
  exact this

end

/-! ## Examples -/
open Gul14.Date.Names (englishGet english_reads) in
/-- "January 2023". -/
example : ∃ text is, formatFields english (fieldsYearMonth ⟨2023, 1⟩) "%B %Y".toList = .ok text ∧
    parseYearMonth englishGet "%B %Y".toList ⟨text, false, false⟩ = .ok (is, some ⟨2023, 1⟩) := by
  have hi : items "%B %Y".toList = [.conv none 'B', .lit ' ', .conv none 'Y'] := by decide +kernel
  obtain ⟨text, is, h1, h2, -⟩ := c119_year_month englishGet english english_reads "%B %Y".toList ⟨2023, 1⟩ (by decide) (by decide)
    (by rw [hi]; simp [Legible, Readable, plain, nameLetters, EndsName, EndsZone, EndsNumber, White, isDigit, Letter, ZoneLetter]) (by rw [hi]; decide +kernel)
    (by rw [hi]; exact ⟨'B', by decide⟩) (by rw [hi]; exact ⟨by decide, by decide, by decide, by decide, by decide⟩)
  exact ⟨text, is, h1, h2⟩

open Gul14.Date.Names (englishGet english_reads) in
/-- " 5 Jan": a day with one digit after white space. -/
example : ∃ text is, formatFields english (fieldsMonthDay 1 5) "day %e %b".toList = .ok text ∧
    parseMonthDay englishGet "day %e %b".toList ⟨text, false, false⟩ = .ok (is, some (1, 5)) := by
  have hi : items "day %e %b".toList = [.lit 'd', .lit 'a', .lit 'y', .lit ' ', .conv none 'e', .lit ' ', .conv none 'b'] := by decide +kernel
  obtain ⟨text, is, h1, h2, -⟩ := c119_month_day englishGet english english_reads "day %e %b".toList 1 5 (by decide) (by decide) (by decide) (by decide)
    (by rw [hi]; simp [Legible, Readable, plain, nameLetters, EndsName, EndsZone, EndsNumber, White, isDigit, Letter, ZoneLetter]) (by rw [hi]; decide +kernel)
    (by rw [hi]; exact ⟨'b', by decide⟩) (by rw [hi]; exact ⟨'e', by decide⟩)
  exact ⟨text, is, h1, h2⟩

open Gul14.Date.Names (englishGet english_reads) in
/-- "Saturday (6)". -/
example : ∃ text is, formatFields english (fieldsWeekday 6) "%A (%w)".toList = .ok text ∧
    parseWeekday englishGet "%A (%w)".toList ⟨text, false, false⟩ = .ok (is, some 6) := by
  have hi : items "%A (%w)".toList = [.conv none 'A', .lit ' ', .lit '(', .conv none 'w', .lit ')'] := by decide +kernel
  obtain ⟨text, is, h1, h2, -⟩ := c119_weekday englishGet english english_reads "%A (%w)".toList 6 (by decide)
    (by rw [hi]; simp [Legible, Readable, plain, nameLetters, EndsName, EndsZone, EndsNumber, White, isDigit, Letter, ZoneLetter]) (by rw [hi]; decide +kernel)
    (by rw [hi]; exact ⟨'A', by decide⟩)
  exact ⟨text, is, h1, h2⟩

/-- The hypotheses are needed: the day 5 at the beginning of the text, written " 5". -/
example : formatFields english (fieldsDay 5) "%e".toList = .ok " 5".toList ∧
    ∃ is, parseDay Gul14.Date.Names.englishGet "%e".toList ⟨" 5".toList, false, false⟩ = .ok (is, none) := ⟨by decide +kernel, _, rfl⟩

end Gul14.Date.Parts
