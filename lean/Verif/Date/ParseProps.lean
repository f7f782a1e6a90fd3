import Verif.Date.ParseTop

/-! # C92: parse reads what format writes -/
namespace Gul14.Date
open Gul14.Spec.Calendar Gul14.Spec.DateText Gul14.Spec.DateFormat Gul14.Spec.DateParse

/-- The stream stands behind the text of a format: `u` is left, or what remains of it when white space is
skipped; the latter only if the format ends with white space. -/
def Leaves (fmt u : List Char) (is : IStream) : Prop :=
  At is u ∧ is.fail = false ∧ ((∀ c, (items fmt).getLast? = some (.lit c) → isSpace c = false) → is = ⟨u, false, false⟩)

theorem leaves_nil {fmt : List Char} {is : IStream} (h : Leaves fmt [] is) : is.rest = [] ∧ is.fail = false := ⟨at_nil h.1, h.2.1⟩

theorem items_ne {fmt : List Char} (h : letters (items fmt) ≠ []) : items fmt ≠ [] := by
  rintro e; rw [e] at h; exact h rfl

theorem fromStream_ok {e : PEnv} {F : Facts} {x : Subject} (K : Known F e.T x) {fmt text u : List Char} {i0 : IStream}
    (hr : ∀ i ∈ items fmt, Readable i) (hb : ∀ c ∈ letters (items fmt), Bounds F c ∧ (c = 'j' → x.date ≠ none))
    {loc : TimePut} (h : SaysAll loc x (items fmt) text) {fds : Fields} {r : Parsed}
    (hc : combine e (vars F (letters (items fmt))) fds = .ok r) (hn : letters (items fmt) ≠ []) (h0 : At i0 (text ++ u)) :
    ∃ is, fromStream e i0 fmt fds = .ok (is, some r) ∧ Leaves fmt u is := by
  obtain ⟨y, hy, hs⟩ := says_black (e := e) K _ _ hr hb h hn
  obtain ⟨b1, b2⟩ := at_good h0 ⟨y, List.mem_append_left _ hy, hs⟩
  obtain ⟨is, h1, h2, h3, h4⟩ := ploop_fmt K hr hb h h0 b2
  refine ⟨is, ?_, h2, h3, fun hl => h4 hl (items_ne hn)⟩
  have hg : i0.good = true := by unfold IStream.good; simp [b1, b2]
  unfold fromStream
  simp only [hg, Bool.not_true, Bool.false_eq_true, if_false]
  rw [h1]
  simp only [Res.ok_bind, Option.isSome_none, Bool.and_false, Bool.false_eq_true, if_false, h3, hc, Res.pure_eq]

theorem letters_ne {L : List Char} (h : Determined L) : L ≠ [] := by
  rintro rfl
  simp [Determined, YearGiven] at h

theorem toTarget_nearest {pn T : Nat} (hpn : 0 < pn) {c V : Int} (h : c * T = V * 10 ^ fractionalWidth T) :
    Nearest pn V (toTarget pn T c) := by
  have hp : (0 : Int) < 10 ^ fractionalWidth T := Int.pow_pos (by omega)
  have hpn' : (0 : Int) < pn := by omega
  have hr := c78_round (T : Int) (pn * 10 ^ fractionalWidth T) c (Int.mul_pos hpn' hp)
  have e : toTarget pn T c = roundTo (T : Int) (pn * 10 ^ fractionalWidth T) c := by
    unfold toTarget; rw [pow10_eq]; push_cast; rfl
  rw [e]
  generalize roundTo (T : Int) (pn * 10 ^ fractionalWidth T) c = r at *
  rw [h] at hr
  generalize (10 : Int) ^ fractionalWidth T = P at *
  obtain ⟨h1, h2, h3⟩ := hr
  have e1 : 2 * (V * P - r * (pn * P)) = (2 * (V - r * pn)) * P := by ring
  have e2 : 2 * (r * (pn * P) - V * P) = (2 * (r * pn - V)) * P := by ring
  rw [e1] at h1 h3
  rw [e2] at h2 h3
  have g1 := Int.le_of_mul_le_mul_right h1 hp
  have g2 := Int.le_of_mul_le_mul_right h2 hp
  refine ⟨by omega, fun hh => ?_⟩
  have : (2 * (V - r * pn) = pn) ∨ (2 * (r * pn - V) = pn) := by omega
  have := h3 (this.imp (fun h => by rw [h]) (fun h => by rw [h]))
  omega

theorem todOf_conventional {F : Facts} {T : Nat} (hT : 0 < T) {t : Int} (h0 : 0 ≤ t) (h1 : t < 86400 * T)
    (hH : F.H = t / (3600 * T)) (hM : F.M = t / (60 * T) % 60) (hs : F.s = t % (60 * T)) (L : List Char) :
    (todOf F T L).conventional T = true := by
  have hp : (0 : Int) < 10 ^ fractionalWidth T := Int.pow_pos (by omega)
  have a1 : F.H < 24 := by rw [hH]; exact Int.ediv_lt_of_lt_mul (by omega) (by omega)
  have a2 : F.M < 60 := by omega
  have a3 : F.s / T < 60 := by
    rw [hs]
    have := Int.emod_lt_of_pos t (show (0 : Int) < 60 * T by omega)
    exact Int.ediv_lt_of_lt_mul (by omega) this
  have a4 : F.s % T * 10 ^ fractionalWidth T / T < 10 ^ fractionalWidth T := by
    have := Int.emod_lt_of_pos F.s (show (0 : Int) < T by omega)
    exact Int.ediv_lt_of_lt_mul (by omega) (by rw [Int.mul_comm]; exact Int.mul_lt_mul_of_pos_left this hp)
  unfold todOf HMS.conventional
  simp only [pow10_eq, Bool.and_eq_true, Bool.not_false, decide_eq_true_eq, true_and]
  push_cast
  refine ⟨⟨?_, ?_⟩, ?_, ?_⟩ <;> split <;> omega

theorem timeFacts {F : Facts} {T : Nat} (hT : 0 < T) {t off : Int} (h0 : 0 ≤ t) (hH : F.H = t / (3600 * T))
    (hM : F.M = t / (60 * T) % 60) (hs : F.s = t % (60 * T)) (ho : F.off = off) (h : -6000 < off ∧ off < 6000) :
    TimeFacts F := by
  refine ⟨?_, by omega, ?_, by omega, by omega⟩
  · rw [hH]; exact Int.ediv_nonneg h0 (by omega)
  · rw [hs]; exact Int.emod_nonneg _ (by omega)

/-- The result of from_stream for a subject with a date. -/
theorem fromStream_date {T : Nat} (hT : Decimal T) (get : TimeGet) (loc : TimePut) {n t off : Int} {d : Date}
    {x : Subject} (hx : x.date = some (n, d)) (hw : x.w = fractionalWidth T)
    (hd : DayOf n d) (h0 : 0 ≤ t) (h1 : t < 86400 * T)
    (ht : ∀ y, x.time = some y → TimeOf T (fractionalWidth T) t y) (ho : -6000 < off ∧ off < 6000)
    (ho' : ∀ o, x.offset = some o → o = off * 60) {fmt text u : List Char} {i0 : IStream}
    (hr : ∀ i ∈ items fmt, Readable i) (hdet : Determined (letters (items fmt)))
    (hy : YearReadable (letters (items fmt)) n d.year) (hs : SaysAll loc x (items fmt) text) (hi : At i0 (text ++ u)) (has : Bool) :
    ∃ is f tod, fromStream ⟨T, get⟩ i0 fmt { hasTod := has } =
        .ok (is, some ⟨⟨f, weekdayOf (uns (dayOfWeek n : Int)), tod, has || timeGiven (letters (items fmt))⟩, [],
          if 'z' ∈ letters (items fmt) then some off else none⟩) ∧
      Leaves fmt u is ∧ f.ok = true ∧ f.date = d ∧ f.toDays = .ok n ∧ tod.conventional T = true ∧
      tod.toDuration T * T = told (letters (items fmt)) T t * 10 ^ fractionalWidth T := by
  have hp := hT.pos
  have hyr := hy
  obtain ⟨y1, y2, y3, y4, -⟩ := hyr
  obtain ⟨F, K, f1, f2, f3, f4⟩ := facts_exist (T := T) hT hw (t := t) (off := off)
    (by rintro n' d' e; rw [hx] at e; cases e; exact ⟨hd, y1, y2⟩) h0 (by omega) ht
    (fun o h => ⟨ho' o h, ho⟩)
  obtain ⟨f, hf, hfd⟩ : ∃ f : YMD, f.ok = true ∧ f.date = d := by
    have hv := (Calc.dayOf_iff.mp hd).1
    obtain ⟨f, -, hf⟩ := c71_from_days hd (by omega) (by omega)
    refine ⟨f, (c72_ok f).mpr ⟨hf ▸ hv, ?_⟩, hf⟩
    have : f.y.toInt = d.year := by rw [← hf]; rfl
    omega
  have H : HasDate (fieldsDate f) n d := hasDate hf hfd hd (by omega) (by omega) rfl
  have hF := timeFacts hp h0 f1 f2 f3 f4 ho
  have hc := combine_date (e := ⟨T, get⟩) K hp H hx hdet hy hF { hasTod := has } rfl
  obtain ⟨is, g1, g2⟩ := fromStream_ok (e := ⟨T, get⟩) K hr (by
    intro c hc
    refine ⟨⟨?_, ?_⟩, by simp [hx]⟩
    · rintro rfl
      rw [(K.date n d hx).2.2.1]
      have := y4 hc
      omega
    · rintro rfl
      obtain ⟨g, k, hg⟩ := isoWeek_exists n
      rw [(K.iso n d hx g k hg).1]
      exact y3 hc g k hg) hs hc (letters_ne hdet) hi
  refine ⟨is, f, todOf F T (letters (items fmt)), ?_, g2, hf, hfd, H.days,
    todOf_conventional hp h0 h1 f1 f2 f3 _, told_toDuration hp hT.width f1 f2 f3⟩
  rw [g1]
  unfold offOf
  rw [f4]
  rfl

theorem fromStream_time {T : Nat} (hT : Decimal T) (get : TimeGet) (loc : TimePut) {t : Int}
    {x : Subject} (hx : x.date = none) (hx' : x.offset = none) (hw : x.w = fractionalWidth T)
    (h0 : 0 ≤ t) (h1 : t < 360000 * T) (ht : ∀ y, x.time = some y → TimeOf T (fractionalWidth T) t y)
    {fmt text u : List Char} {i0 : IStream} (hr : ∀ i ∈ items fmt, Readable i) (hL : ∀ c ∈ letters (items fmt), c ∈ timeLetters)
    (hne : letters (items fmt) ≠ []) (hs : SaysAll loc x (items fmt) text) (hi : At i0 (text ++ u)) :
    ∃ is f wd tod off, fromStream ⟨T, get⟩ i0 fmt {} =
        .ok (is, some ⟨⟨f, wd, tod, timeGiven (letters (items fmt))⟩, [], off⟩) ∧
      Leaves fmt u is ∧
      tod.toDuration T * T = told (letters (items fmt)) T t * 10 ^ fractionalWidth T := by
  have hp := hT.pos
  obtain ⟨F, K, f1, f2, f3, f4⟩ := facts_exist (T := T) hT hw (t := t) (off := 0) (by simp [hx]) h0 h1 ht (by simp [hx'])
  have hF := timeFacts hp h0 f1 f2 f3 f4 ⟨by omega, by omega⟩
  obtain ⟨f, wd, hc⟩ := combine_time (e := ⟨T, get⟩) hp hL hF {} rfl
  obtain ⟨is, g1, g2⟩ := fromStream_ok (e := ⟨T, get⟩) K hr (by
    intro c hc
    have := hL c hc
    refine ⟨⟨?_, ?_⟩, ?_⟩ <;> rintro rfl <;> exact absurd this (by decide)) hs hc hne hi
  exact ⟨is, f, wd, todOf F T (letters (items fmt)), _, g1, g2, told_toDuration hp hT.width f1 f2 f3⟩

theorem mem_letters {is : List Item} {md : Option Char} {c : Char} (h : Item.conv md c ∈ is) : c ∈ letters is := by
  unfold letters
  rw [List.mem_filterMap]
  exact ⟨_, h, rfl⟩

theorem not_excluded {x : Subject} {fmt : List Char} (hr : ∀ i ∈ items fmt, Readable i)
    (h : ∀ n d, x.date = some (n, d) → Writable (letters (items fmt)) d.year) : ∀ i ∈ items fmt, ¬ Excluded x i := by
  rintro (c | ⟨md, c⟩) hi he
  · exact he
  · have hm := mem_letters hi
    obtain ⟨-, ⟨rfl, n, d, hx, hy⟩ | ⟨rfl, n, d, hx, hy⟩ | ⟨rfl, -⟩⟩ := he
    · have := (h n d hx).1 hm; omega
    · have := (h n d hx).2 hm; omega
    · have := hr _ hi
      revert this
      simp [Readable, plain]

theorem days_in_range {n : Int} {d : Date} (h : DayOf n d) (h1 : -9999 ≤ d.year) (h2 : d.year ≤ 9999) :
    -12686698 ≤ n ∧ n < 11248373 := by
  have hb := year_bounds h
  revert hb
  simp only [Calc.dayNum, Calc.fy, Calc.marchYear, Calc.marchMonth]
  omega

theorem timeOf_range {T w : Nat} (hT : 0 < T) {t : Int} {x : Time} (h : TimeOf T w t x) (h24 : x.hour < 24) :
    0 ≤ t ∧ t < 86400 * T := by
  obtain ⟨h1, h2, h3, h4, h5⟩ := h
  have hp : (0 : Int) < 10 ^ w := Int.pow_pos (by omega)
  have hT' : (0 : Int) < T := by omega
  have h3' : (x.frac : Int) < 10 ^ w := by exact_mod_cast h3
  generalize (10 : Int) ^ w = P at *
  constructor
  · by_contra hc
    have a1 : t * P < 0 := Int.mul_neg_of_neg_of_pos (by omega) hp
    have a2 : (0 : Int) ≤ ((x.hour * 3600 + x.min * 60 + x.sec) * P + x.frac) * T := by positivity
    omega
  · have a1 : ((x.hour * 3600 + x.min * 60 + x.sec : Int) * P + x.frac + 1) ≤ 86400 * P := by
      have : (x.hour * 3600 + x.min * 60 + x.sec : Int) * P ≤ 86399 * P :=
        Int.mul_le_mul_of_nonneg_right (by omega) (by omega)
      omega
    have a2 : ((x.hour * 3600 + x.min * 60 + x.sec : Int) * P + x.frac + 1) * T ≤ 86400 * P * T :=
      Int.mul_le_mul_of_nonneg_right a1 (by omega)
    have a3 : t * P < (86400 * T) * P := by
      have : (86400 : Int) * P * T = 86400 * T * P := by ring
      omega
    exact Int.lt_of_mul_lt_mul_right a3 (by omega)

theorem day_unique {T : Nat} (hT : 0 < T) {c n n' : Int} (h1 : n * (86400 * T) ≤ c) (h2 : c < (n + 1) * (86400 * T))
    (h3 : 0 ≤ c - n' * (86400 * T)) (h4 : c - n' * (86400 * T) < 86400 * T) : n = n' := by
  have hp : (0 : Int) < 86400 * T := by omega
  have e1 : c / (86400 * T) = n := (Int.ediv_eq_iff_of_pos hp).mpr ⟨by linarith, by linarith⟩
  have e2 : c / (86400 * T) = n' := (Int.ediv_eq_iff_of_pos hp).mpr ⟨by linarith, by linarith⟩
  omega

theorem nearest_exact {p : Nat} (hp : 0 < p) {k r : Int} (h : Nearest p (k * p) r) : r = k := by
  obtain ⟨h1, h2⟩ := h
  have e : r * p - k * p = (r - k) * p := by ring
  rw [e] at h1 h2
  rw [Int.natAbs_mul, Int.natAbs_natCast] at h1
  by_contra hne
  have h3 : 1 ≤ (r - k).natAbs := by omega
  have : 1 * p ≤ (r - k).natAbs * p := Nat.mul_le_mul_right _ h3
  omega

/-- The same with another text that follows. -/
theorem sys_reads (pn T : Nat) (hpn : 0 < pn) (hT : Decimal T) (get : TimeGet) (loc : TimePut) (n t off : Int)
    (d : Date) (x : Time) (zone : Option (List Char)) (fmt text : List Char) (hd : DayOf n d) (h0 : 0 ≤ t)
    (h1 : t < 86400 * T) (hx : TimeOf T (fractionalWidth T) t x) (ho : -6000 < off ∧ off < 6000)
    (hr : ∀ i ∈ items fmt, Readable i) (hdet : Determined (letters (items fmt)))
    (hy : YearReadable (letters (items fmt)) n d.year)
    (hs : SaysAll loc ⟨some (n, d), fractionalWidth T, some x, zone, some (off * 60)⟩ (items fmt) text)
    {u : List Char} {i0 : IStream} (hi : At i0 (text ++ u)) :
    ∃ is r p, parseSys pn T get fmt 0 i0 = .ok (is, some (r, p)) ∧ Leaves fmt u is ∧
      p.offset = (if 'z' ∈ letters (items fmt) then some off else none) ∧ p.fds.ymd.date = d ∧
      Nearest pn (n * (86400 * T) + told (letters (items fmt)) T t -
        if 'z' ∈ letters (items fmt) then off * (60 * T) else 0) r := by
  obtain ⟨is, f, tod, g1, g2, g4, g5, g6, g7, g8⟩ := fromStream_date hT get loc (x := ⟨some (n, d), fractionalWidth T, some x, zone, some (off * 60)⟩)
    rfl rfl hd h0 h1 (by rintro _ ⟨⟩; exact hx) ho (by rintro _ ⟨⟩; rfl) hr hdet hy hs hi true
  refine ⟨is, toTarget pn T (n * (86400 * (pow10 (fractionalWidth T) : Nat)) -
      (if 'z' ∈ letters (items fmt) then some off else none).getD 0 * (60 * (pow10 (fractionalWidth T) : Nat)) + tod.toDuration T),
    ⟨⟨f, weekdayOf (uns (dayOfWeek n : Int)), tod, true⟩, [], if 'z' ∈ letters (items fmt) then some off else none⟩,
    ?_, g2, rfl, g5, ?_⟩
  · unfold parseSys
    rw [g1]
    simp only [Res.ok_bind, g4, g7, Bool.not_true, Bool.or_self, Bool.false_eq_true, if_false, g6]
    rfl
  · refine toTarget_nearest hpn ?_
    rw [pow10_eq, Int.add_mul, Int.sub_mul, g8]
    push_cast
    by_cases hz : 'z' ∈ letters (items fmt) <;> simp only [hz, if_true, if_false, Option.getD] <;> ring

/-- A text that says the date and the time of a point in time, in the time zone with that offset (in
minutes), is read as the nearest point in time that the type can represent. -/
theorem c92_reads_partial (pn T : Nat) (hpn : 0 < pn) (hT : Decimal T) (get : TimeGet) (loc : TimePut) (n t off : Int)
    (d : Date) (x : Time) (zone : Option (List Char)) (fmt text : List Char) (hd : DayOf n d) (h0 : 0 ≤ t)
    (h1 : t < 86400 * T) (hx : TimeOf T (fractionalWidth T) t x) (ho : -6000 < off ∧ off < 6000)
    (hr : ∀ i ∈ items fmt, Readable i) (hdet : Determined (letters (items fmt)))
    (hy : YearReadable (letters (items fmt)) n d.year)
    (hs : SaysAll loc ⟨some (n, d), fractionalWidth T, some x, zone, some (off * 60)⟩ (items fmt) text) :
    ∃ is r p, parseSys pn T get fmt 0 ⟨text, false, false⟩ = .ok (is, some (r, p)) ∧ is.rest = [] ∧ is.fail = false ∧
      p.offset = (if 'z' ∈ letters (items fmt) then some off else none) ∧ p.fds.ymd.date = d ∧
      Nearest pn (n * (86400 * T) + told (letters (items fmt)) T t -
        if 'z' ∈ letters (items fmt) then off * (60 * T) else 0) r := by
  obtain ⟨is, r, p, h1, h2, h3⟩ := sys_reads pn T hpn hT get loc n t off d x zone fmt text hd h0 h1 hx ho hr hdet hy hs
    (u := []) (i0 := ⟨text, false, false⟩) (by rw [List.append_nil]; exact Or.inl rfl)
  exact ⟨is, r, p, h1, (leaves_nil h2).1, (leaves_nil h2).2, h3⟩

/-- The same with another text that follows. -/
theorem sys_time_reads (pn T : Nat) (hpn : 0 < pn) (hT : Decimal T) (get : TimeGet) (loc : TimePut) (k n : Int)
    (d : Date) (fmt : List Char) (h1 : n * (86400 * T) ≤ k * pn) (h2 : k * pn < (n + 1) * (86400 * T)) (hd : DayOf n d)
    (hr : ∀ i ∈ items fmt, Readable i) (hdet : Determined (letters (items fmt)))
    (hy : YearReadable (letters (items fmt)) n d.year) (hw : Writable (letters (items fmt)) d.year) :
    ∃ text, formatSys T loc (k * pn) fmt = .ok text ∧ ∀ u i0, At i0 (text ++ u) →
      ∃ is r p, parseSys pn T get fmt 0 i0 = .ok (is, some (r, p)) ∧ Leaves fmt u is ∧
      Nearest pn (n * (86400 * T) + told (letters (items fmt)) T (k * pn - n * (86400 * T))) r ∧
      (told (letters (items fmt)) T (k * pn - n * (86400 * T)) = k * pn - n * (86400 * T) → r = k) := by
  have hp := hT.pos
  have hp' : (0 : Int) < 86400 * T := by omega
  obtain ⟨n1, n2⟩ := days_in_range hd hy.1 hy.2.1
  obtain ⟨n', d', x, a1, a2, a3, a4⟩ := c90_sys_time_partial T hp loc (k * pn)
    (Int.le_trans (Int.mul_le_mul_of_nonneg_right n1 (by omega)) h1)
    (Int.lt_of_lt_of_le h2 (Int.mul_le_mul_of_nonneg_right (by omega) (by omega)))
  have hb := timeOf_range hp a2 a3
  obtain rfl := day_unique hp h1 h2 hb.1 hb.2
  obtain rfl : d' = d := (Calc.dayOf_eq a1).trans (Calc.dayOf_eq hd).symm
  obtain ⟨text, b1, b2⟩ := a4 fmt (not_excluded hr (by rintro _ _ ⟨⟩; exact hw))
  refine ⟨text, b1, fun u i0 hi => ?_⟩
  obtain ⟨is, r, p, c1, c2, -, -, c4⟩ := sys_reads pn T hpn hT get loc n _ 0 d' x _ fmt text hd hb.1 hb.2 a2
    (by omega) hr hdet hy b2 hi
  have e : (if 'z' ∈ letters (items fmt) then (0 : Int) * (60 * T) else 0) = 0 := by split <;> simp
  rw [e, Int.sub_zero] at c4
  refine ⟨is, r, p, c1, c2, c4, ?_⟩
  intro h
  rw [h, add_sub_cancel] at c4
  exact nearest_exact hpn c4

/-- What is written by format for a point in time (a number `k` of ticks of pn/T seconds) is read back by
parse: the date is the same, and so is the point in time if the format says all of it. -/
theorem c92_sys_time_partial (pn T : Nat) (hpn : 0 < pn) (hT : Decimal T) (get : TimeGet) (loc : TimePut) (k n : Int)
    (d : Date) (fmt : List Char) (h1 : n * (86400 * T) ≤ k * pn) (h2 : k * pn < (n + 1) * (86400 * T)) (hd : DayOf n d)
    (hr : ∀ i ∈ items fmt, Readable i) (hdet : Determined (letters (items fmt)))
    (hy : YearReadable (letters (items fmt)) n d.year) (hw : Writable (letters (items fmt)) d.year) :
    ∃ text is r p, formatSys T loc (k * pn) fmt = .ok text ∧
      parseSys pn T get fmt 0 ⟨text, false, false⟩ = .ok (is, some (r, p)) ∧ is.rest = [] ∧ is.fail = false ∧
      Nearest pn (n * (86400 * T) + told (letters (items fmt)) T (k * pn - n * (86400 * T))) r ∧
      (told (letters (items fmt)) T (k * pn - n * (86400 * T)) = k * pn - n * (86400 * T) → r = k) := by
  obtain ⟨text, b1, b2⟩ := sys_time_reads pn T hpn hT get loc k n d fmt h1 h2 hd hr hdet hy hw
  obtain ⟨is, r, p, c1, c2, c3⟩ := b2 [] ⟨text, false, false⟩ (by rw [List.append_nil]; exact Or.inl rfl)
  exact ⟨text, is, r, p, b1, c1, (leaves_nil c2).1, (leaves_nil c2).2, c3⟩

/-- The same with another text that follows. -/
theorem local_time_reads (pn T : Nat) (hpn : 0 < pn) (hT : Decimal T) (get : TimeGet) (loc : TimePut) (k n : Int)
    (d : Date) (zone : Option (List Char)) (off : Option Int) (fmt : List Char) (h1 : n * (86400 * T) ≤ k * pn)
    (h2 : k * pn < (n + 1) * (86400 * T)) (hd : DayOf n d) (ho : ∀ o, off = some o → -6000 < o ∧ o < 6000)
    (hz : 'z' ∈ letters (items fmt) → off ≠ none)
    (hr : ∀ i ∈ items fmt, Readable i) (hdet : Determined (letters (items fmt)))
    (hy : YearReadable (letters (items fmt)) n d.year) (hw : Writable (letters (items fmt)) d.year) :
    ∃ text, formatLocal T loc (k * pn) zone (off.map (· * 60)) fmt = .ok text ∧ ∀ u i0, At i0 (text ++ u) →
      ∃ is r p, parseLocal pn T get fmt i0 = .ok (is, some (r, p)) ∧ Leaves fmt u is ∧
      p.offset = (if 'z' ∈ letters (items fmt) then off else none) ∧
      Nearest pn (n * (86400 * T) + told (letters (items fmt)) T (k * pn - n * (86400 * T))) r ∧
      (told (letters (items fmt)) T (k * pn - n * (86400 * T)) = k * pn - n * (86400 * T) → r = k) := by
  have hp := hT.pos
  obtain ⟨n1, n2⟩ := days_in_range hd hy.1 hy.2.1
  obtain ⟨n', d', x, a1, a2, a3, a4⟩ := c90_local_time_partial T hp loc (k * pn) zone (off.map (· * 60))
    (Int.le_trans (Int.mul_le_mul_of_nonneg_right n1 (by omega)) h1)
    (Int.lt_of_lt_of_le h2 (Int.mul_le_mul_of_nonneg_right (by omega) (by omega)))
  have hb := timeOf_range hp a2 a3
  obtain rfl := day_unique hp h1 h2 hb.1 hb.2
  obtain rfl : d' = d := (Calc.dayOf_eq a1).trans (Calc.dayOf_eq hd).symm
  obtain ⟨text, b1, b2⟩ := (a4 fmt (not_excluded hr (by rintro _ _ ⟨⟩; exact hw))).2 (by
    rintro (c | ⟨md, c⟩) hi hm
    · exact hm
    · have hri := hr _ hi
      rcases hm with ⟨-, h⟩ | ⟨-, h⟩ | ⟨rfl, h⟩ | ⟨rfl, rfl, -⟩ | ⟨-, -, h, -⟩
      · cases h
      · cases h
      · exact hz (mem_letters hi) (by simpa using h)
      · revert hri; simp [Readable, plain]
      · cases h)
  refine ⟨text, b1, fun u i0 hi => ?_⟩
  obtain ⟨is, f, tod, g1, g2, g4, g5, g6, g7, g8⟩ := fromStream_date hT get loc
    (x := ⟨some (n, d'), fractionalWidth T, some x, zone, off.map (· * 60)⟩) (off := off.getD 0)
    rfl rfl hd hb.1 hb.2 (by rintro _ ⟨⟩; exact a2) (by
      rcases off with _ | o
      · simp
      · exact ho o rfl) (by
      rcases off with _ | o
      · simp
      · rintro _ ⟨⟩; rfl) hr hdet hy b2 hi true
  have hN : Nearest pn (n * (86400 * T) + told (letters (items fmt)) T (k * pn - n * (86400 * T)))
      (toTarget pn T (n * (86400 * (pow10 (fractionalWidth T) : Nat)) + tod.toDuration T)) := by
    refine toTarget_nearest hpn ?_
    rw [pow10_eq, Int.add_mul, g8]
    push_cast
    ring
  refine ⟨is, _, ⟨⟨f, weekdayOf (uns (dayOfWeek n : Int)), tod, true⟩, [],
    if 'z' ∈ letters (items fmt) then some (off.getD 0) else none⟩, ?_, g2, ?_, hN, ?_⟩
  · unfold parseLocal
    rw [g1]
    simp only [Res.ok_bind, g4, g7, Bool.not_true, Bool.or_self, Bool.false_eq_true, if_false, g6]
    rfl
  · rcases off with _ | o
    · have : 'z' ∉ letters (items fmt) := fun h => hz h rfl
      simp [this]
    · rfl
  · intro h
    rw [h, add_sub_cancel] at hN
    exact nearest_exact hpn hN

/-- Local time: the offset is read back too. -/
theorem c92_local_time_partial (pn T : Nat) (hpn : 0 < pn) (hT : Decimal T) (get : TimeGet) (loc : TimePut) (k n : Int)
    (d : Date) (zone : Option (List Char)) (off : Option Int) (fmt : List Char) (h1 : n * (86400 * T) ≤ k * pn)
    (h2 : k * pn < (n + 1) * (86400 * T)) (hd : DayOf n d) (ho : ∀ o, off = some o → -6000 < o ∧ o < 6000)
    (hz : 'z' ∈ letters (items fmt) → off ≠ none)
    (hr : ∀ i ∈ items fmt, Readable i) (hdet : Determined (letters (items fmt)))
    (hy : YearReadable (letters (items fmt)) n d.year) (hw : Writable (letters (items fmt)) d.year) :
    ∃ text is r p, formatLocal T loc (k * pn) zone (off.map (· * 60)) fmt = .ok text ∧
      parseLocal pn T get fmt ⟨text, false, false⟩ = .ok (is, some (r, p)) ∧ is.rest = [] ∧ is.fail = false ∧
      p.offset = (if 'z' ∈ letters (items fmt) then off else none) ∧
      Nearest pn (n * (86400 * T) + told (letters (items fmt)) T (k * pn - n * (86400 * T))) r ∧
      (told (letters (items fmt)) T (k * pn - n * (86400 * T)) = k * pn - n * (86400 * T) → r = k) := by
  obtain ⟨text, b1, b2⟩ := local_time_reads pn T hpn hT get loc k n d zone off fmt h1 h2 hd ho hz hr hdet hy hw
  obtain ⟨is, r, p, c1, c2, c3⟩ := b2 [] ⟨text, false, false⟩ (by rw [List.append_nil]; exact Or.inl rfl)
  exact ⟨text, is, r, p, b1, c1, (leaves_nil c2).1, (leaves_nil c2).2, c3⟩

/-- The same with another text that follows. -/
theorem date_reads (get : TimeGet) (loc : TimePut) (x : YMD) (hok : x.ok = true) (n : Int)
    (hd : DayOf n ⟨x.y.toInt, x.m.toNat, x.d.toNat⟩) (fmt : List Char)
    (hr : ∀ i ∈ items fmt, Readable i) (hdet : Determined (letters (items fmt)))
    (ht : ∀ c ∈ letters (items fmt), c ∉ ['H', 'M', 'S', 'T', 'R', 'z'])
    (hy : YearReadable (letters (items fmt)) n x.y.toInt) (hw : Writable (letters (items fmt)) x.y.toInt) :
    ∃ text, formatFields loc (fieldsDate x) fmt = .ok text ∧ ∀ u i0, At i0 (text ++ u) →
      ∃ is, parseDate get fmt i0 = .ok (is, some x) ∧ Leaves fmt u is := by
  obtain ⟨n', a1, a2⟩ := c90_date_partial loc x hok (by have := hy.1; omega) (by have := hy.2.1; omega)
  obtain rfl : n' = n := by
    rw [← (Calc.dayOf_iff.mp a1).2, ← (Calc.dayOf_iff.mp hd).2]
  obtain ⟨text, b1, b2⟩ := (a2 fmt (not_excluded hr (by rintro _ _ ⟨⟩; exact hw))).2 (by
    rintro (c | ⟨md, c⟩) hi hm
    · exact hm
    · have hri := hr _ hi
      have hti := ht _ (mem_letters hi)
      rcases hm with ⟨-, h⟩ | ⟨h, -⟩ | ⟨rfl, h⟩ | ⟨rfl, rfl, -⟩ | ⟨-, -, h, -⟩
      · cases h
      · rcases hri with ⟨rfl, hp⟩ | ⟨rfl, -⟩
        · have : ∀ c ∈ plain, c ∉ ['H', 'M', 'S', 'T', 'R', 'z'] → usesTime none c = false := by decide
          rw [this c hp hti] at h; cases h
        · exact hti (by decide)
      · exact hti (by decide)
      · revert hri; simp [Readable, plain]
      · cases h)
  refine ⟨text, b1, fun u i0 hi => ?_⟩
  obtain ⟨is, f, tod, g1, g2, g4, g5, -⟩ := fromStream_date (T := 1) ⟨by decide, 0, by decide, by decide⟩ get loc (off := 0)
    (x := ⟨some (n', ⟨x.y.toInt, x.m.toNat, x.d.toNat⟩), 0, none, none, none⟩) (t := 0)
    rfl (show 0 = fractionalWidth 1 by decide +kernel) hd (by omega) (by omega) (by rintro _ ⟨⟩) (by omega) (by rintro _ ⟨⟩) hr hdet hy b2 hi false
  refine ⟨is, ?_, g2⟩
  unfold parseDate parseFields
  rw [show (({} : Fields)) = { hasTod := false } from rfl, g1]
  simp only [Res.ok_bind, g4, if_true]
  rw [date_inj (show f.date = x.date from g5)]
  rfl

/-- A date. -/
theorem c92_date_partial (get : TimeGet) (loc : TimePut) (x : YMD) (hok : x.ok = true) (n : Int)
    (hd : DayOf n ⟨x.y.toInt, x.m.toNat, x.d.toNat⟩) (fmt : List Char)
    (hr : ∀ i ∈ items fmt, Readable i) (hdet : Determined (letters (items fmt)))
    (ht : ∀ c ∈ letters (items fmt), c ∉ ['H', 'M', 'S', 'T', 'R', 'z'])
    (hy : YearReadable (letters (items fmt)) n x.y.toInt) (hw : Writable (letters (items fmt)) x.y.toInt) :
    ∃ text is, formatFields loc (fieldsDate x) fmt = .ok text ∧
      parseDate get fmt ⟨text, false, false⟩ = .ok (is, some x) ∧ is.rest = [] ∧ is.fail = false := by
  obtain ⟨text, b1, b2⟩ := date_reads get loc x hok n hd fmt hr hdet ht hy hw
  obtain ⟨is, c1, c2⟩ := b2 [] ⟨text, false, false⟩ (by rw [List.append_nil]; exact Or.inl rfl)
  exact ⟨text, is, b1, c1, leaves_nil c2⟩

/-- The same with another text that follows. -/
theorem duration_reads (pn T : Nat) (hpn : 0 < pn) (hT : Decimal T) (get : TimeGet) (loc : TimePut) (k : Int)
    (fmt : List Char) (h0 : 0 ≤ k * pn) (h1 : k * pn < 360000 * T) (hr : ∀ i ∈ items fmt, Readable i)
    (hL : ∀ c ∈ letters (items fmt), c ∈ ['H', 'M', 'S', 'T', 'R', '%'])
    (hne : ∃ c ∈ letters (items fmt), c ≠ '%') :
    ∃ text, formatDuration T loc (k * pn) fmt = .ok text ∧ ∀ u i0, At i0 (text ++ u) →
      ∃ is r p, parseDuration pn T get fmt i0 = .ok (is, some (r, p)) ∧ Leaves fmt u is ∧
      Nearest pn (told (letters (items fmt)) T (k * pn)) r ∧
      (told (letters (items fmt)) T (k * pn) = k * pn → r = k) := by
  have hp := hT.pos
  obtain ⟨x, a1, a2⟩ := c90_duration_partial T hp loc (k * pn) h0
  obtain ⟨text, b1, b2⟩ := (a2 fmt (not_excluded hr (by rintro _ _ ⟨⟩))).2 (by
    rintro (c | ⟨md, c⟩) hi hm
    · exact hm
    · have hri := hr _ hi
      have hti := hL _ (mem_letters hi)
      rcases hm with ⟨h, -⟩ | ⟨-, h⟩ | ⟨rfl, -⟩ | ⟨rfl, rfl, -⟩ | ⟨-, rfl, -⟩
      · rcases hri with ⟨rfl, hp⟩ | ⟨rfl, -⟩
        · have : ∀ c ∈ ['H', 'M', 'S', 'T', 'R', '%'], usesDate none c = false := by decide
          rw [this c hti] at h; cases h
        · revert hti; decide
      · cases h
      · revert hti; decide
      · revert hti; decide
      · revert hti; decide)
  refine ⟨text, b1, fun u i0 hi => ?_⟩
  obtain ⟨is, f, wd, tod, off, g1, g2, g4⟩ := fromStream_time hT get loc
    (x := ⟨none, fractionalWidth T, some x, none, none⟩) rfl rfl rfl h0 h1 (by rintro _ ⟨⟩; exact a1) hr
    (fun c hc => by
      have : ∀ c ∈ ['H', 'M', 'S', 'T', 'R', '%'], c ∈ timeLetters := by decide
      exact this c (hL c hc)) (by rintro e; rw [e] at hne; obtain ⟨c, h, -⟩ := hne; cases h) b2 hi
  have hN : Nearest pn (told (letters (items fmt)) T (k * pn)) (toTarget pn T (tod.toDuration T)) :=
    toTarget_nearest hpn g4
  have hg : timeGiven (letters (items fmt)) = true := by
    obtain ⟨c, hc, hc'⟩ := hne
    have := hL c hc
    unfold timeGiven
    rw [decide_eq_true_eq]
    simp only [List.mem_cons, List.not_mem_nil, or_false] at this
    rcases this with rfl | rfl | rfl | rfl | rfl | rfl <;> simp_all
  refine ⟨is, _, ⟨⟨f, wd, tod, timeGiven (letters (items fmt))⟩, [], off⟩, ?_, g2, hN, ?_⟩
  · unfold parseDuration
    rw [g1]
    simp only [Res.ok_bind, hg, Bool.not_true, Bool.false_eq_true, if_false]
    rfl
  · intro h
    rw [h] at hN
    exact nearest_exact hpn hN

/-- A duration of less than a hundred hours. -/
theorem c92_duration_partial (pn T : Nat) (hpn : 0 < pn) (hT : Decimal T) (get : TimeGet) (loc : TimePut) (k : Int)
    (fmt : List Char) (h0 : 0 ≤ k * pn) (h1 : k * pn < 360000 * T) (hr : ∀ i ∈ items fmt, Readable i)
    (hL : ∀ c ∈ letters (items fmt), c ∈ ['H', 'M', 'S', 'T', 'R', '%'])
    (hne : ∃ c ∈ letters (items fmt), c ≠ '%') :
    ∃ text is r p, formatDuration T loc (k * pn) fmt = .ok text ∧
      parseDuration pn T get fmt ⟨text, false, false⟩ = .ok (is, some (r, p)) ∧ is.rest = [] ∧ is.fail = false ∧
      Nearest pn (told (letters (items fmt)) T (k * pn)) r ∧
      (told (letters (items fmt)) T (k * pn) = k * pn → r = k) := by
  obtain ⟨text, b1, b2⟩ := duration_reads pn T hpn hT get loc k fmt h0 h1 hr hL hne
  obtain ⟨is, r, p, c1, c2, c3⟩ := b2 [] ⟨text, false, false⟩ (by rw [List.append_nil]; exact Or.inl rfl)
  exact ⟨text, is, r, p, b1, c1, (leaves_nil c2).1, (leaves_nil c2).2, c3⟩

/-- Formats that say all of a time. -/
theorem c92_told_complete (L : List Char) (T : Nat) (t : Int)
    (hH : 'H' ∈ L ∨ 'T' ∈ L ∨ 'R' ∈ L ∨ t / (3600 * T) = 0) (hM : 'M' ∈ L ∨ 'T' ∈ L ∨ 'R' ∈ L ∨ t / (60 * T) % 60 = 0)
    (hS : 'S' ∈ L ∨ 'T' ∈ L ∨ t % (60 * T) = 0) : told L T t = t := by
  have e1 : (if 'H' ∈ L ∨ 'T' ∈ L ∨ 'R' ∈ L then t / (3600 * T) * (3600 * T) else 0) = t / (3600 * T) * (3600 * T) := by
    split
    · rfl
    · rename_i h
      rw [show t / (3600 * T) = 0 by tauto]; simp
  have e2 : (if 'M' ∈ L ∨ 'T' ∈ L ∨ 'R' ∈ L then t / (60 * T) % 60 * (60 * T) else 0) = t / (60 * T) % 60 * (60 * T) := by
    split
    · rfl
    · rename_i h
      rw [show t / (60 * T) % 60 = 0 by tauto]; simp
  have e3 : (if 'S' ∈ L ∨ 'T' ∈ L then t % (60 * T) else 0) = t % (60 * T) := by
    split
    · rfl
    · rename_i h
      rw [show t % (60 * T) = 0 by tauto]
  unfold told
  rw [e1, e2, e3]
  have d1 : t / (3600 * T) = t / (60 * T) / 60 := by
    rw [Int.ediv_ediv_of_nonneg (by omega)]; congr 1; ring
  have h1 := Int.mul_ediv_add_emod t (60 * T)
  have h2 := Int.mul_ediv_add_emod (t / (60 * T)) 60
  rw [d1]
  generalize t / (60 * T) / 60 = a at *
  generalize t / (60 * T) % 60 = b at *
  generalize t % (60 * T) = c at *
  rw [← h1, ← h2]
  ring

/-- A facet for the examples: nothing is read. -/
def get0 : TimeGet := ⟨fun tm _ s => (tm, s, false, true)⟩

/-- The general statement fails: the text that format writes for a year of five digits, with `%e` for a day
below 10, with `%Y` and `%y` for the last year of a century before 0, with `%y` and `%g` when the ISO year is
in another century, and with `%H` and `%I` in the afternoon is rejected by parse with the same format. -/
theorem c92_violated :
    (∃ t is, formatFields put0 (fieldsDate ⟨10000, 1, 1⟩) ['%', 'F'] = .ok t ∧
      parseDate get0 ['%', 'F'] ⟨t, false, false⟩ = .ok (is, none)) ∧
    (∃ t is, formatFields put0 (fieldsDate ⟨2023, 1, 5⟩) ['%', 'Y', '-', '%', 'm', '-', '%', 'e'] = .ok t ∧
      parseDate get0 ['%', 'Y', '-', '%', 'm', '-', '%', 'e'] ⟨t, false, false⟩ = .ok (is, none)) ∧
    (∃ t is, formatFields put0 (fieldsDate ⟨-100, 1, 1⟩) ['%', 'Y', ' ', '%', 'y', ' ', '%', 'm', ' ', '%', 'd'] = .ok t ∧
      parseDate get0 ['%', 'Y', ' ', '%', 'y', ' ', '%', 'm', ' ', '%', 'd'] ⟨t, false, false⟩ = .ok (is, none)) ∧
    (∃ t is, formatFields put0 (fieldsDate ⟨2000, 1, 1⟩) ['%', 'Y', ' ', '%', 'y', ' ', '%', 'G', ' ', '%', 'g', ' ', '%', 'm', ' ', '%', 'd'] = .ok t ∧
      parseDate get0 ['%', 'Y', ' ', '%', 'y', ' ', '%', 'G', ' ', '%', 'g', ' ', '%', 'm', ' ', '%', 'd'] ⟨t, false, false⟩ = .ok (is, none)) ∧
    (∃ t is, formatSys 1 put0 (13 * 3600) ['%', 'F', ' ', '%', 'H', ' ', '%', 'I'] = .ok t ∧
      parseSys 1 1 get0 ['%', 'F', ' ', '%', 'H', ' ', '%', 'I'] 0 ⟨t, false, false⟩ = .ok (is, none)) := by
  refine ⟨?_, ?_, ?_, ?_, ?_⟩
  · exact ⟨['1', '0', '0', '0', '0', '-', '0', '1', '-', '0', '1'], _, by decide +kernel, rfl⟩
  · exact ⟨['2', '0', '2', '3', '-', '0', '1', '-', ' ', '5'], _, by decide +kernel, rfl⟩
  · exact ⟨['-', '0', '1', '0', '0', ' ', '0', '0', ' ', '0', '1', ' ', '0', '1'], _, by decide +kernel, rfl⟩
  · exact ⟨['2', '0', '0', '0', ' ', '0', '0', ' ', '1', '9', '9', '9', ' ', '9', '9', ' ', '0', '1', ' ', '0', '1'], _, by decide +kernel, rfl⟩
  · exact ⟨['1', '9', '7', '0', '-', '0', '1', '-', '0', '1', ' ', '1', '3', ' ', '0', '1'], _, by decide +kernel, rfl⟩

/-! ### Examples -/

instance : DecidablePred Readable := fun i => by cases i <;> unfold Readable <;> infer_instance
instance : DecidablePred Determined := fun L => by unfold Determined YearGiven; infer_instance

/-- 2023-01-01 12:34:56.789 with "%F %T%z", in milliseconds. -/
example : ∃ text is p, formatSys 1000 put0 1672576496789 ['%', 'F', ' ', '%', 'T', '%', 'z'] = .ok text ∧
    parseSys 1 1000 get0 ['%', 'F', ' ', '%', 'T', '%', 'z'] 0 ⟨text, false, false⟩ = .ok (is, some (1672576496789, p)) := by
  obtain ⟨text, is, r, p, h1, h2, -, -, -, h3⟩ := c92_sys_time_partial 1 1000 (by omega) ⟨by decide, 3, by decide, by decide⟩
    get0 put0 1672576496789 19358 ⟨2023, 1, 1⟩ ['%', 'F', ' ', '%', 'T', '%', 'z'] (by decide) (by decide)
    (Calc.dayOf_iff.mpr ⟨by decide, by decide⟩) (by decide) (by decide)
    ⟨by decide, by decide, fun h => absurd h (by decide), by decide, by decide⟩ ⟨by decide, by decide⟩
  rw [h3 (c92_told_complete _ _ _ (by decide) (by decide) (by decide))] at h2
  exact ⟨text, is, p, h1, h2⟩

/-- "%y, day %j, %R": 2023-12-31 23:59 in minutes. -/
example : ∃ text is p, formatSys 1 put0 (28401119 * 60) ['%', 'y', ',', ' ', 'd', 'a', 'y', ' ', '%', 'j', ',', ' ', '%', 'R'] = .ok text ∧
    parseSys 60 1 get0 ['%', 'y', ',', ' ', 'd', 'a', 'y', ' ', '%', 'j', ',', ' ', '%', 'R'] 0 ⟨text, false, false⟩ = .ok (is, some (28401119, p)) := by
  obtain ⟨text, is, r, p, h1, h2, -, -, -, h3⟩ := c92_sys_time_partial 60 1 (by omega) ⟨by decide, 0, by decide, by decide⟩
    get0 put0 28401119 19722 ⟨2023, 12, 31⟩ ['%', 'y', ',', ' ', 'd', 'a', 'y', ' ', '%', 'j', ',', ' ', '%', 'R'] (by decide) (by decide)
    (Calc.dayOf_iff.mpr ⟨by decide, by decide⟩) (by decide) (by decide)
    ⟨by decide, by decide, fun h => absurd h (by decide), by decide, by decide⟩ ⟨by decide, by decide⟩
  rw [h3 (c92_told_complete _ _ _ (by decide) (by decide) (by decide))] at h2
  exact ⟨text, is, p, h1, h2⟩

/-- 2023-01-01 as ISO week date: Sunday of week 52 of 2022. -/
example : ∃ text is, formatFields put0 (fieldsDate ⟨2023, 1, 1⟩) ['%', 'G', '-', 'W', '%', 'V', '-', '%', 'u'] = .ok text ∧
    parseDate get0 ['%', 'G', '-', 'W', '%', 'V', '-', '%', 'u'] ⟨text, false, false⟩ = .ok (is, some ⟨2023, 1, 1⟩) := by
  have hd : DayOf 19358 ⟨2023, 1, 1⟩ := Calc.dayOf_iff.mpr ⟨by decide, by decide⟩
  obtain ⟨text, is, h1, h2, -⟩ := c92_date_partial get0 put0 ⟨2023, 1, 1⟩ (by decide +kernel) 19358 hd ['%', 'G', '-', 'W', '%', 'V', '-', '%', 'u']
    (by decide) (by decide) (by decide)
    ⟨by decide, by decide, fun _ g v hg => by
      have := isoWeek_bounds hg hd
      simp only at this
      omega, by decide, by decide⟩ ⟨by decide, by decide⟩
  exact ⟨text, is, h1, h2⟩

/-- A duration of 99:59:59.9 in tenths of a second. -/
example : ∃ text is p, formatDuration 10 put0 3599999 ['%', 'T'] = .ok text ∧
    parseDuration 1 10 get0 ['%', 'T'] ⟨text, false, false⟩ = .ok (is, some (3599999, p)) := by
  obtain ⟨text, is, r, p, h1, h2, -, -, -, h3⟩ := c92_duration_partial 1 10 (by omega) ⟨by decide, 1, by decide, by decide⟩
    get0 put0 3599999 ['%', 'T'] (by decide) (by decide) (by decide) (by decide) ⟨'T', by decide, by decide⟩
  rw [h3 (c92_told_complete _ _ _ (by decide) (by decide) (by decide))] at h2
  exact ⟨text, is, p, h1, h2⟩

/-- Half past one in the morning at +02:30 is 23:00 of the day before. -/
example : parseSys 3600 1 get0 ['%', 'F', ' ', '%', 'H', ':', '%', 'M', ' ', '%', 'z'] 0
    ⟨['1', '9', '7', '0', '-', '0', '1', '-', '0', '2', ' ', '0', '1', ':', '3', '0', ' ', '+', '0', '2', '3', '0'], false, false⟩ =
    .ok (⟨[], false, false⟩, some (23, ⟨⟨⟨1970, 1, 2⟩, 5, ⟨1, 30, 0, 0, false⟩, true⟩, [], some 150⟩)) := by decide +kernel

end Gul14.Date
