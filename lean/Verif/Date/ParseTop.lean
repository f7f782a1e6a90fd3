import Verif.Date.ParseCombine

/-! # parse as a whole: the text of a known subject -/
namespace Gul14.Date
open Gul14.Spec.Calendar Gul14.Spec.DateText Gul14.Spec.DateFormat Gul14.Spec.DateParse

theorem _root_.Gul14.Spec.DateParse.Decimal.pos {T : Nat} (h : Decimal T) : 0 < T := by
  obtain ⟨-, k, -, hk⟩ := h
  exact Nat.pos_of_dvd_of_pos hk (Nat.pow_pos (by omega))

theorem _root_.Gul14.Spec.DateParse.Decimal.width {T : Nat} (h : Decimal T) : T ∣ 10 ^ fractionalWidth T := ((c77_width T).1 h.2).1

theorem _root_.Gul14.Spec.DateParse.Decimal.w18 {T : Nat} (h : Decimal T) : fractionalWidth T ≤ 18 := by
  obtain ⟨-, k, hk, hd⟩ := h
  have := ((c77_width T).1 ⟨k, hk, hd⟩).2 k hd
  omega

theorem _root_.Gul14.Spec.DateParse.Decimal.one {T : Nat} (h : Decimal T) : T = 1 ↔ fractionalWidth T = 0 := by
  constructor
  · rintro rfl; decide +kernel
  · intro h0
    have := h.width
    rw [h0, Nat.pow_zero, Nat.dvd_one] at this
    exact this

theorem isoWeek_exists (n : Int) : ∃ g k, IsoWeek n g k := by
  let th := n + 3 - (n + 3) % 7
  have hd := Calc.dayOf_dateOf th
  have hv := dow_val th
  refine ⟨(Calc.dateOf th).year, countWeekday 4 (Calc.dayNum (Calc.dateOf th).year 1 1) th,
    th, Calc.dayNum (Calc.dateOf th).year 1 1, (Calc.dateOf th).month, (Calc.dateOf th).day, ?_, ?_, ?_, hd, newYear _, rfl⟩ <;>
    omega

/-- The facts about a subject. -/
theorem facts_exist {T : Nat} (hT : Decimal T) {x : Subject} (hw : x.w = fractionalWidth T)
    (hd : ∀ n d, x.date = some (n, d) → DayOf n d ∧ -9999 ≤ d.year ∧ d.year ≤ 9999) {t off : Int} (h0 : 0 ≤ t)
    (h1 : t < 360000 * T) (ht : ∀ y, x.time = some y → TimeOf T (fractionalWidth T) t y)
    (ho : ∀ o, x.offset = some o → o = off * 60 ∧ -6000 < off ∧ off < 6000) :
    ∃ F : Facts, Known F T x ∧ F.H = t / (3600 * T) ∧ F.M = t / (60 * T) % 60 ∧ F.s = t % (60 * T) ∧ F.off = off := by
  have hp := hT.pos
  have htime : ∀ F : Facts, F.H = t / (3600 * T) → F.M = t / (60 * T) % 60 → F.s = t % (60 * T) →
      ∀ y, x.time = some y → F.H = y.hour ∧ y.hour < 100 ∧ F.M = y.min ∧ y.sec < 60 ∧ y.frac < 10 ^ x.w ∧
        F.s * 10 ^ x.w = ((y.sec * 10 ^ x.w + y.frac) * T : Nat) := by
    intro F e1 e2 e3 y hy
    have hy := ht y hy
    have := timeOf_exact hp hT.width hy h0
    rw [hw]
    refine ⟨by rw [e1, this.1], ?_, by rw [e2, this.2.1], hy.2.1, hy.2.2.1, by rw [e3, this.2.2]⟩
    have : t / (3600 * T) < 100 := Int.ediv_lt_of_lt_mul (by omega) (by omega)
    omega
  rcases hx : x.date with _ | ⟨n, d⟩
  · refine ⟨⟨0, 0, 0, 0, 0, 0, 0, t / (3600 * T), t / (60 * T) % 60, t % (60 * T), 0, 0, 0, 0, off⟩,
      ⟨hw, hT.1, hw ▸ hT.w18, hw ▸ hT.one, by simp [hx], by simp [hx], by simp [hx], htime _ rfl rfl rfl, ho⟩,
      rfl, rfl, rfl, rfl⟩
  · obtain ⟨g, k, hg⟩ := isoWeek_exists n
    obtain ⟨hd, hy⟩ := hd n d hx
    refine ⟨{ Y := d.year, y := (d.year.natAbs % 100 : Nat), C := d.year / 100, m := d.month, d := d.day,
              j := (n - Calc.dayNum d.year 1 1 + 1).toNat, wd := dayOfWeek n, H := t / (3600 * T),
              M := t / (60 * T) % 60, s := t % (60 * T), G := g, V := k,
              U := countWeekday 0 (Calc.dayNum d.year 1 1) n, W := countWeekday 1 (Calc.dayNum d.year 1 1) n, off := off },
      ⟨hw, hT.1, hw ▸ hT.w18, hw ▸ hT.one, ?_, ?_, ?_, htime _ rfl rfl rfl, ho⟩, rfl, rfl, rfl, rfl⟩
    · rintro n' d' e
      rw [hx] at e; cases e
      exact ⟨rfl, rfl, rfl, rfl, rfl, rfl, hy⟩
    · rintro n' d' e ny hny
      rw [hx] at e; cases e
      rw [newYear_iff.mp hny]
      exact ⟨rfl, rfl, rfl⟩
    · rintro n' d' e g' k' h'
      rw [hx] at e; cases e
      obtain ⟨rfl, rfl⟩ := isoWeek_unique hg h'
      exact ⟨rfl, rfl⟩

theorem sound_vars {F : Facts} {T : Nat} {x : Subject} (K : Known F T x) {n : Int} {d : Date}
    (hx : x.date = some (n, d)) (hd : DayOf n d) (L : List Char) {v : PVars}
    (hv : v = { vars F L with Y := if YearGiven L then d.year else -32768 }) : Sound n d v := by
  obtain ⟨g, k, hg⟩ := isoWeek_exists n
  obtain ⟨k1, k2, k3, k4, k5, k6, -⟩ := K.date n d hx
  obtain ⟨k7, k8, k9⟩ := K.ny n d hx _ (newYear d.year)
  obtain ⟨k10, k11⟩ := K.iso n d hx g k hg
  have hb := year_bounds hd
  subst hv
  refine ⟨?_, ?_, ?_, ?_, ?_, ?_, ?_, ?_, ?_⟩ <;> simp only [vars, k4, k5, k6, k7, k8, k9, k10, k11]
  all_goals split
  all_goals first
    | exact Or.inl rfl
    | exact Or.inr rfl
    | exact Or.inr ⟨k, hg⟩
    | exact Or.inr ⟨g, k, hg, rfl⟩
    | exact Or.inr (by omega)

theorem countWeekday_small {wd : Nat} (hw : wd < 7) {n : Int} {d : Date} (hd : DayOf n d) :
    countWeekday wd (Calc.dayNum d.year 1 1) n < 100 := by
  have hb := year_bounds hd
  have hl := year_length d.year
  have := countWeekday_eq hw (a := Calc.dayNum d.year 1 1) (b := n) (by omega)
  omega

theorem enough_vars {F : Facts} {T : Nat} {x : Subject} (K : Known F T x) {n : Int} {d : Date}
    (hx : x.date = some (n, d)) (hd : DayOf n d) {L : List Char} (hL : Determined L) {v : PVars}
    (hv : v = { vars F L with Y := if YearGiven L then d.year else -32768 }) : Enough v := by
  obtain ⟨g, k, hg⟩ := isoWeek_exists n
  obtain ⟨k1, k2, k3, k4, k5, k6, k12, k13⟩ := K.date n d hx
  obtain ⟨k7, k8, k9⟩ := K.ny n d hx _ (newYear d.year)
  obtain ⟨k10, k11⟩ := K.iso n d hx g k hg
  have hb := year_bounds hd
  have hi := isoWeek_bounds hg hd
  have hw := dow_lt n
  have hU := countWeekday_small (wd := 0) (by omega) hd
  have hW := countWeekday_small (wd := 1) (by omega) hd
  have hvd := (Calc.dayOf_iff.mp hd).1
  have m1 : 1 ≤ d.month := hvd.1
  have d1 : 1 ≤ d.day := hvd.2.2.1
  subst hv
  unfold Enough usesIso usesU usesW usesJ
  simp only [vars, k4, k5, k6, k7, k8, k9, k10, k11, Bool.and_eq_true, decide_eq_true_eq]
  rcases hL with ⟨hY, h⟩ | ⟨h1, h2, h3⟩
  · refine Or.inr ⟨by rw [if_pos hY]; omega, ?_⟩
    rcases h with ⟨h1, h2⟩ | h1 | ⟨h1, h2 | h2⟩
    · exact Or.inl ⟨by rw [if_pos h1]; omega, by rw [if_pos h2]; omega⟩
    · exact Or.inr (Or.inr (Or.inr ⟨by rw [if_pos h1]; omega, by rw [if_pos hY]; omega⟩))
    · exact Or.inr (Or.inl ⟨⟨by rw [if_pos hY]; omega, by rw [if_pos h2]; omega⟩, by rw [if_pos h1]; omega⟩)
    · exact Or.inr (Or.inr (Or.inl ⟨⟨by rw [if_pos hY]; omega, by rw [if_pos h2]; omega⟩, by rw [if_pos h1]; omega⟩))
  · exact Or.inl ⟨⟨by rw [if_pos h1]; omega, by rw [if_pos h2]; omega⟩, by rw [if_pos h3]; omega⟩

/-- The time of day from the letters. -/
def todOf (F : Facts) (T : Nat) (L : List Char) : HMS :=
  ⟨if 'H' ∈ L ∨ 'T' ∈ L ∨ 'R' ∈ L then F.H else 0, if 'M' ∈ L ∨ 'T' ∈ L ∨ 'R' ∈ L then F.M else 0,
    if 'S' ∈ L ∨ 'T' ∈ L then F.s / T else 0,
    if 'S' ∈ L ∨ 'T' ∈ L then F.s % T * 10 ^ fractionalWidth T / T else 0, false⟩

def timeGiven (L : List Char) : Bool := decide ('H' ∈ L ∨ 'T' ∈ L ∨ 'R' ∈ L ∨ 'M' ∈ L ∨ 'S' ∈ L)

/-- The offset from the letters. -/
def offOf (F : Facts) (L : List Char) : Option Int := if 'z' ∈ L then some F.off else none

theorem offset_vars (F : Facts) (L : List Char) (h : -6000 < F.off ∧ F.off < 6000) :
    (if (vars F L).offset ≠ -9223372036854775808 then some (vars F L).offset else none) = offOf F L := by
  unfold offOf
  by_cases hz : 'z' ∈ L
  · simp only [vars, hz, if_true]
    rw [if_pos (by omega)]
  · simp [vars, hz]

/-- The facts about the time are not negative. -/
def TimeFacts (F : Facts) : Prop := 0 ≤ F.H ∧ 0 ≤ F.M ∧ 0 ≤ F.s ∧ -6000 < F.off ∧ F.off < 6000

theorem combine_date {e : PEnv} {F : Facts} {x : Subject} (K : Known F e.T x) (hT : 0 < e.T) {f : Fields} {n : Int} {d : Date}
    (H : HasDate f n d) (hx : x.date = some (n, d)) {L : List Char} (hL : Determined L) (hy : YearReadable L n d.year)
    (ht : TimeFacts F) (fds : Fields) (htod : fds.tod = ⟨0, 0, 0, 0, false⟩) :
    combine e (vars F L) fds = .ok ⟨⟨f.ymd, weekdayOf (uns (dayOfWeek n : Int)), todOf F e.T L,
      fds.hasTod || timeGiven L⟩, [], offOf F L⟩ := by
  obtain ⟨k1, k2, k3, -⟩ := K.date n d hx
  obtain ⟨C, hC⟩ := fullYear_vars (L := L) (n := n) k1 k2 k3 hy
  have hG : fullYear (vars F L).g (vars F L).G C = .ok ((vars F L).G, C) := by
    unfold fullYear; rfl
  have hlo := H.lo
  have hhi := H.hi
  have hYr : (if (if YearGiven L then d.year else -32768) < -32767 ∨ (if YearGiven L then d.year else -32768) > 32767
      then -32768 else (if YearGiven L then d.year else -32768)) = (if YearGiven L then d.year else -32768) := by
    by_cases h : YearGiven L
    · rw [if_pos h, if_neg (by omega)]
    · rw [if_neg h, if_pos (by omega)]
  have hs := sound_vars K hx H.dayOf L rfl
  have he := enough_vars K hx H.dayOf hL rfl
  obtain ⟨b, hb⟩ := weeks_sound H hs he
  have hD := theDate_sound (e := ⟨1, ⟨fun _ _ _ => []⟩, f, none, none⟩) H hs b
  have hH : theHour { full d { vars F L with Y := if YearGiven L then d.year else -32768 } with j := -1 } =
      .ok (vars F L).H := rfl
  have hTm := theTime_vars hT (F := F) (L := L)
    (v := { full d { vars F L with Y := if YearGiven L then d.year else -32768 } with j := -1 }) rfl rfl rfl
    ht.1 ht.2.1 ht.2.2.1 fds.hasTod
  have hw := dow_lt n
  unfold combine
  simp only [hC, Res.ok_bind, hG, hYr]
  rw [hb]
  simp only [Res.ok_bind, hD, hH]
  rw [htod, hTm]
  simp only [Res.pure_eq]
  rw [if_pos (show (dayOfWeek n : Int) ≠ 8 by omega), ← offset_vars F L ht.2.2.2]
  rfl

/-- The conversions of a time of day. -/
def timeLetters : List Char := ['H', 'M', 'S', 'T', 'R', 'z', '%']

theorem combine_time {e : PEnv} {F : Facts} (hT : 0 < e.T) {L : List Char} (hL : ∀ c ∈ L, c ∈ timeLetters)
    (ht : TimeFacts F) (fds : Fields) (htod : fds.tod = ⟨0, 0, 0, 0, false⟩) :
    ∃ ymd wd, combine e (vars F L) fds = .ok ⟨⟨ymd, wd, todOf F e.T L, fds.hasTod || timeGiven L⟩, [], offOf F L⟩ := by
  have no : ∀ c, c ∉ timeLetters → c ∉ L := fun c h h' => h (hL c h')
  have hv : vars F L = { H := (vars F L).H, M := (vars F L).M, s := (vars F L).s, offset := (vars F L).offset } := by
    simp [vars, no 'Y' (by decide), no 'F' (by decide), no 'y' (by decide), no 'D' (by decide), no 'C' (by decide),
      no 'm' (by decide), no 'd' (by decide), no 'j' (by decide), no 'u' (by decide), no 'w' (by decide),
      no 'G' (by decide), no 'V' (by decide), no 'U' (by decide), no 'W' (by decide)]
  have hTm := theTime_vars hT (F := F) (L := L) (v := vars F L) rfl rfl (by rw [hv]) ht.1 ht.2.1 ht.2.2.1 fds.hasTod
  have ho := offset_vars F L ht.2.2.2
  generalize hH : (vars F L).H = a at *
  generalize hM : (vars F L).M = b at *
  generalize hs : (vars F L).s = c at *
  generalize hO : (vars F L).offset = o at *
  rw [hv] at hTm ⊢
  refine ⟨⟨year (-32768), asUchar (uns 0), asUchar (uns 0)⟩, fds.wd, ?_⟩
  have h1 : fullYear 100 (-32768) (-327) = .ok (-32768, -327) := rfl
  have h2 : weeks { H := a, M := b, s := c, offset := o } = .ok ({ H := a, M := b, s := c, offset := o }, false) := rfl
  have h3 : theDate { H := a, M := b, s := c, offset := o } false =
      .ok (⟨year (-32768), asUchar (uns 0), asUchar (uns 0)⟩, 8) := by
    unfold theDate
    simp only
    rw [if_neg (by decide +kernel)]
    rfl
  have h4 : theHour { H := a, M := b, s := c, offset := o } = .ok a := rfl
  have h5 : (if (-32768 : Int) < -32767 ∨ (-32768 : Int) > 32767 then (-32768 : Int) else -32768) = -32768 := by decide
  unfold combine
  simp only [h1, Res.ok_bind, h5]
  rw [h2]
  simp only [Res.ok_bind, h3, h4]
  rw [htod, hTm]
  simp only [Res.pure_eq]
  rw [ho]
  rfl

end Gul14.Date
