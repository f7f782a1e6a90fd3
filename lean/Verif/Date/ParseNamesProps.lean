import Verif.Date.ParseNames

/-! # C92: parse reads what format writes, with names, twelve-hour clock, zone and white space -/
namespace Gul14.Date.Names
open Gul14.Spec.Calendar Gul14.Spec.DateText Gul14.Spec.DateFormat Gul14.Spec.DateParse

theorem xvars_eq (F : Facts) (X : More) (L : List Char) (tm : Tm) : xvars F X L tm = { vars F (meaning L) with
    H := (xvars F X L tm).H, I := (xvars F X L tm).I, p := (xvars F X L tm).p, abbr := if 'Z' ∈ L then X.z else [], tm := tm } := by
  unfold xvars meaning
  by_cases h : 'I' ∈ L
  · simp only [h, if_true]
    generalize List.map sameAs L = L'
    simp [fr, extra, vars]
  · simp only [h, if_false]
    rfl

theorem combine_xdate {e : PEnv} {F : Facts} {X : More} {x : Subject} (K : Known F e.T x) (hT : 0 < e.T) {f : Fields} {n : Int} {d : Date}
    (H : HasDate f n d) (hx : x.date = some (n, d)) {L : List Char} (hL : Determined (meaning L)) (hy : YearReadable (meaning L) n d.year)
    (ht : TimeFacts F) {h : Nat} (hF : F.H = h) (hI : X.I = hour12 h) (hp : X.p = if h < 12 then 0 else 1) (h24 : h < 24)
    (hIp : 'I' ∈ L → 'p' ∈ L) (tm : Tm) (fds : Fields) (htod : fds.tod = ⟨0, 0, 0, 0, false⟩) :
    combine e (xvars F X L tm) fds = .ok ⟨⟨f.ymd, weekdayOf (uns (dayOfWeek n : Int)), todOf F e.T (meaning L),
      fds.hasTod || timeGiven (meaning L)⟩, if 'Z' ∈ L then X.z else [], offOf F (meaning L)⟩ := by
  have hth : ∀ v : PVars, v.I = (xvars F X L tm).I → v.p = (xvars F X L tm).p → v.H = (xvars F X L tm).H →
      theHour v = .ok (vars F (meaning L)).H := fun v => theHour_xvars hF hI hp h24 hIp tm v
  have hv := xvars_eq F X L tm
  generalize xvars F X L tm = v0 at *
  generalize meaning L = L' at *
  generalize (if 'Z' ∈ L then X.z else []) = z at *
  generalize v0.H = a at *
  generalize v0.I = b at *
  generalize v0.p = c at *
  subst hv
  obtain ⟨k1, k2, k3, -⟩ := K.date n d hx
  obtain ⟨C, hC⟩ := fullYear_vars (L := L') (n := n) k1 k2 k3 hy
  have hG : fullYear (vars F L').g (vars F L').G C = .ok ((vars F L').G, C) := by
    unfold fullYear; rfl
  have hlo := H.lo
  have hhi := H.hi
  have hYr : (if (if YearGiven L' then d.year else -32768) < -32767 ∨ (if YearGiven L' then d.year else -32768) > 32767
      then -32768 else (if YearGiven L' then d.year else -32768)) = (if YearGiven L' then d.year else -32768) := by
    by_cases h : YearGiven L'
    · rw [if_pos h, if_neg (by omega)]
    · rw [if_neg h, if_pos (by omega)]
  have hs0 := sound_vars K hx H.dayOf L' rfl
  have hs : Sound n d { vars F L' with Y := if YearGiven L' then d.year else -32768, H := a, I := b, p := c, abbr := z, tm := tm } :=
    ⟨hs0.Y, hs0.m, hs0.dd, hs0.j, hs0.wd, hs0.G, hs0.V, hs0.U, hs0.W⟩
  have he0 := enough_vars K hx H.dayOf hL rfl
  have he : Enough { vars F L' with Y := if YearGiven L' then d.year else -32768, H := a, I := b, p := c, abbr := z, tm := tm } := he0
  obtain ⟨bb, hb⟩ := weeks_sound H hs he
  have hD := theDate_sound (e := ⟨1, ⟨fun _ _ _ => []⟩, f, none, none⟩) H hs bb
  have hTm := theTime_vars hT (F := F) (L := L')
    (v := { full d { vars F L' with Y := if YearGiven L' then d.year else -32768, H := a, I := b, p := c, abbr := z, tm := tm } with j := -1 })
    rfl rfl rfl ht.1 ht.2.1 ht.2.2.1 fds.hasTod
  have hw := dow_lt n
  unfold combine
  simp only [hC, Res.ok_bind, hG, hYr]
  rw [hb]
  simp only [Res.ok_bind, hD]
  rw [hth _ rfl rfl rfl]
  simp only [Res.ok_bind]
  rw [htod, hTm]
  simp only [Res.pure_eq]
  rw [if_pos (show (dayOfWeek n : Int) ≠ 8 by omega), ← offset_vars F L' ht.2.2.2]
  rfl

theorem mem_meaning {L : List Char} {c : Char} (h : c ∈ L) (hs : sameAs c = c) : c ∈ meaning L := by
  have : c ∈ L.map sameAs := List.mem_map.mpr ⟨c, h, hs⟩
  unfold meaning
  split
  · exact List.mem_cons_of_mem _ this
  · exact this

theorem month_range {n : Int} {d : Date} (hd : DayOf n d) : 1 ≤ d.month ∧ d.month ≤ 12 := by
  have hv := (Calc.dayOf_iff.mp hd).1
  exact ⟨hv.1, hv.2.1⟩

/-- The result of from_stream for a subject with a date. -/
theorem fromStream_date {T : Nat} (hT : Decimal T) (get : TimeGet) (loc : TimePut) (hn : ReadsNames loc get.get) {n t off : Int} {d : Date}
    {x : Subject} (hx : x.date = some (n, d)) (hw : x.w = fractionalWidth T)
    (hd : DayOf n d) (h0 : 0 ≤ t) (h1 : t < 86400 * T)
    (ht : ∀ y, x.time = some y → TimeOf T (fractionalWidth T) t y) (ho : -6000 < off ∧ off < 6000)
    (ho' : ∀ o, x.offset = some o → o = off * 60) {fmt text : List Char}
    (hr : Legible d.day false (items fmt)) (hdet : Determined (meaning (letters (items fmt))))
    (hIp : 'I' ∈ letters (items fmt) → 'p' ∈ letters (items fmt))
    (hz : 'Z' ∈ letters (items fmt) → ∀ z, x.zone = some z → ZoneName z)
    (hy : YearReadable (meaning (letters (items fmt))) n d.year) (hs : SaysAll loc x (items fmt) text) (has : Bool) :
    ∃ is f tod, fromStream ⟨T, get⟩ ⟨text, false, false⟩ fmt { hasTod := has } =
        .ok (is, some ⟨⟨f, weekdayOf (uns (dayOfWeek n : Int)), tod, has || timeGiven (meaning (letters (items fmt)))⟩,
          if 'Z' ∈ letters (items fmt) then x.zone.getD [] else [],
          if 'z' ∈ meaning (letters (items fmt)) then some off else none⟩) ∧
      is.rest = [] ∧ is.fail = false ∧ f.ok = true ∧ f.date = d ∧ f.toDays = .ok n ∧ tod.conventional T = true ∧
      tod.toDuration T * T = told (meaning (letters (items fmt))) T t * 10 ^ fractionalWidth T := by
  have hp := hT.pos
  have hyr := hy
  obtain ⟨y1, y2, y3, y4, -⟩ := hyr
  obtain ⟨F, K, f1, f2, f3, f4⟩ := facts_exist (T := T) hT hw (t := t) (off := off)
    (by rintro n' d' e; rw [hx] at e; cases e; exact ⟨hd, y1, y2⟩) h0 (by omega) ht
    (fun o h => ⟨ho' o h, ho⟩)
  obtain ⟨f, hf, hfd⟩ : ∃ f : YMD, f.ok = true ∧ f.date = d := by
    have hv := (Calc.dayOf_iff.mp hd).1
    obtain ⟨f, -, hf⟩ := c71_from_days hd (by omega) (by omega)
    refine ⟨f, (c72_ok f).mpr ⟨hf ▸ hv, ?_⟩, hf⟩
    have : f.y.toInt = d.year := by rw [← hf]; rfl
    omega
  have H : HasDate (fieldsDate f) n d := hasDate hf hfd hd (by omega) (by omega) rfl
  have hF := timeFacts hp h0 f1 f2 f3 f4 ho
  have hH1 : F.H < 24 := by rw [f1]; exact Int.ediv_lt_of_lt_mul (by omega) (by omega)
  obtain ⟨h, hh⟩ : ∃ h : Nat, F.H = h := ⟨F.H.toNat, by have := hF.1; omega⟩
  have h24 : h < 24 := by omega
  let X : More := ⟨hour12 h, if h < 12 then 0 else 1, x.zone.getD []⟩
  have KX : XKnown F X ⟨T, get⟩ loc d.day x := by
    refine ⟨K, hn, ?_, ?_, ?_⟩
    · intro n' d' e
      rw [hx] at e; cases e
      exact ⟨(month_range hd).1, (month_range hd).2, rfl⟩
    · intro y e
      have := (K.time y e).1
      obtain rfl : y.hour = h := by omega
      exact ⟨h24, rfl, rfl⟩
    · intro z e
      simp [X, e]
  have hb : ∀ c ∈ letters (items fmt), Bounds F c ∧ (c = 'j' → x.date ≠ none) ∧ (c = 'Z' → ∀ z, x.zone = some z → ZoneName z) := by
    intro c hc
    refine ⟨⟨?_, ?_⟩, by simp [hx], by rintro rfl; exact hz hc⟩
    · rintro rfl
      rw [(K.date n d hx).2.2.1]
      have := y4 (mem_meaning hc rfl)
      omega
    · rintro rfl
      obtain ⟨g, k, hg⟩ := isoWeek_exists n
      rw [(K.iso n d hx g k hg).1]
      exact y3 (mem_meaning hc rfl) g k hg
  obtain ⟨is, tm, g1, g2, g3⟩ := ploop_fmt KX hr hb hs
  have hc := combine_xdate (e := ⟨T, get⟩) (X := X) K hp H hx hdet hy hF hh rfl rfl h24 hIp tm { hasTod := has } rfl
  refine ⟨is, f, todOf F T (meaning (letters (items fmt))), ?_, g2, g3, hf, hfd, H.days,
    todOf_conventional hp h0 h1 f1 f2 f3 _, told_toDuration hp hT.width f1 f2 f3⟩
  have hg : (IStream.good ⟨text, false, false⟩) = true := rfl
  unfold fromStream
  simp only [hg, Bool.not_true, Bool.false_eq_true, if_false]
  rw [g1]
  simp only [Res.ok_bind, Option.isSome_none, Bool.and_false, Bool.false_eq_true, if_false, g3, hc, Res.pure_eq]
  unfold offOf
  rw [f4]
  rfl

theorem not_excluded {x : Subject} {fmt : List Char}
    (h : ∀ n d, x.date = some (n, d) → Writable (letters (items fmt)) d.year) (h24 : ∀ t, x.time = some t → t.hour < 24) :
    ∀ i ∈ items fmt, ¬ Excluded x i := by
  rintro (c | ⟨md, c⟩) hi he
  · exact he
  · have hm := mem_letters hi
    obtain ⟨-, ⟨rfl, n, d, hx, hy⟩ | ⟨rfl, n, d, hx, hy⟩ | ⟨rfl, t, ht, hh⟩⟩ := he
    · have := (h n d hx).1 hm; omega
    · have := (h n d hx).2 hm; omega
    · have := h24 t ht; omega

/-- A point in time that was written in a format with names is read back, if the facets of the locale fit together. -/
theorem c92_names_sys_time_partial (pn T : Nat) (hpn : 0 < pn) (hT : Decimal T) (get : TimeGet) (loc : TimePut)
    (hn : ReadsNames loc get.get) (k n : Int)
    (d : Date) (fmt : List Char) (h1 : n * (86400 * T) ≤ k * pn) (h2 : k * pn < (n + 1) * (86400 * T)) (hd : DayOf n d)
    (hr : Legible d.day false (items fmt)) (hdet : Determined (meaning (letters (items fmt))))
    (hIp : 'I' ∈ letters (items fmt) → 'p' ∈ letters (items fmt))
    (hy : YearReadable (meaning (letters (items fmt))) n d.year) (hw : Writable (letters (items fmt)) d.year) :
    ∃ text is r p, formatSys T loc (k * pn) fmt = .ok text ∧
      parseSys pn T get fmt 0 ⟨text, false, false⟩ = .ok (is, some (r, p)) ∧ is.rest = [] ∧ is.fail = false ∧
      Nearest pn (n * (86400 * T) + told (meaning (letters (items fmt))) T (k * pn - n * (86400 * T))) r ∧
      (told (meaning (letters (items fmt))) T (k * pn - n * (86400 * T)) = k * pn - n * (86400 * T) → r = k) := by
  have hp := hT.pos
  obtain ⟨n1, n2⟩ := days_in_range hd hy.1 hy.2.1
  obtain ⟨n', d', x, a1, a2, a3, a4⟩ := c90_sys_time_partial T hp loc (k * pn)
    (Int.le_trans (Int.mul_le_mul_of_nonneg_right n1 (by omega)) h1)
    (Int.lt_of_lt_of_le h2 (Int.mul_le_mul_of_nonneg_right (by omega) (by omega)))
  have hb := timeOf_range hp a2 a3
  obtain rfl := day_unique hp h1 h2 hb.1 hb.2
  obtain rfl : d' = d := (Calc.dayOf_eq a1).trans (Calc.dayOf_eq hd).symm
  obtain ⟨text, b1, b2⟩ := a4 fmt (not_excluded (by rintro _ _ ⟨⟩; exact hw) (by rintro _ ⟨⟩; exact a3))
  obtain ⟨is, f, tod, g1, g2, g3, g4, g5, g6, g7, g8⟩ := fromStream_date hT get loc hn (off := 0)
    (x := ⟨some (n, d'), fractionalWidth T, some x, _, _⟩)
    rfl rfl hd hb.1 hb.2 (by rintro _ ⟨⟩; exact a2) (by omega) (by rintro _ ⟨⟩; rfl) hr hdet hIp
    (by rintro - _ ⟨⟩; exact ⟨by decide, by decide⟩) hy b2 true
  have hN : Nearest pn (n * (86400 * T) + told (meaning (letters (items fmt))) T (k * pn - n * (86400 * T)))
      (toTarget pn T (n * (86400 * (pow10 (fractionalWidth T) : Nat)) -
      (if 'z' ∈ meaning (letters (items fmt)) then some (0 : Int) else none).getD 0 * (60 * (pow10 (fractionalWidth T) : Nat)) + tod.toDuration T)) := by
    refine toTarget_nearest hpn ?_
    rw [pow10_eq, Int.add_mul, Int.sub_mul, g8]
    push_cast
    by_cases hz : 'z' ∈ meaning (letters (items fmt)) <;> simp only [hz, if_true, if_false, Option.getD] <;> ring
  refine ⟨text, is, _, ⟨⟨f, weekdayOf (uns (dayOfWeek n : Int)), tod, true⟩, if 'Z' ∈ letters (items fmt) then ['U', 'T', 'C'] else [],
    if 'z' ∈ meaning (letters (items fmt)) then some 0 else none⟩, b1, ?_, g2, g3, hN, ?_⟩
  · unfold parseSys
    rw [g1]
    simp only [Res.ok_bind, g4, g7, Bool.not_true, Bool.or_self, Bool.false_eq_true, if_false, g6]
    rfl
  · intro h
    rw [h, add_sub_cancel] at hN
    exact nearest_exact hpn hN

/-- Local time: offset and abbreviation of the time zone are read back too. -/
theorem c92_names_local_time_partial (pn T : Nat) (hpn : 0 < pn) (hT : Decimal T) (get : TimeGet) (loc : TimePut)
    (hn : ReadsNames loc get.get) (k n : Int)
    (d : Date) (zone : Option (List Char)) (off : Option Int) (fmt : List Char) (h1 : n * (86400 * T) ≤ k * pn)
    (h2 : k * pn < (n + 1) * (86400 * T)) (hd : DayOf n d) (ho : ∀ o, off = some o → -6000 < o ∧ o < 6000)
    (hz : 'z' ∈ letters (items fmt) → off ≠ none) (hZ : 'Z' ∈ letters (items fmt) → ∃ z, zone = some z ∧ ZoneName z)
    (hr : Legible d.day false (items fmt)) (hdet : Determined (meaning (letters (items fmt))))
    (hIp : 'I' ∈ letters (items fmt) → 'p' ∈ letters (items fmt))
    (hy : YearReadable (meaning (letters (items fmt))) n d.year) (hw : Writable (letters (items fmt)) d.year) :
    ∃ text is r p, formatLocal T loc (k * pn) zone (off.map (· * 60)) fmt = .ok text ∧
      parseLocal pn T get fmt ⟨text, false, false⟩ = .ok (is, some (r, p)) ∧ is.rest = [] ∧ is.fail = false ∧
      p.offset = (if 'z' ∈ letters (items fmt) then off else none) ∧
      ('Z' ∈ letters (items fmt) → zone = some p.abbr) ∧
      Nearest pn (n * (86400 * T) + told (meaning (letters (items fmt))) T (k * pn - n * (86400 * T))) r ∧
      (told (meaning (letters (items fmt))) T (k * pn - n * (86400 * T)) = k * pn - n * (86400 * T) → r = k) := by
  have hp := hT.pos
  obtain ⟨n1, n2⟩ := days_in_range hd hy.1 hy.2.1
  obtain ⟨n', d', x, a1, a2, a3, a4⟩ := c90_local_time_partial T hp loc (k * pn) zone (off.map (· * 60))
    (Int.le_trans (Int.mul_le_mul_of_nonneg_right n1 (by omega)) h1)
    (Int.lt_of_lt_of_le h2 (Int.mul_le_mul_of_nonneg_right (by omega) (by omega)))
  have hb := timeOf_range hp a2 a3
  obtain rfl := day_unique hp h1 h2 hb.1 hb.2
  obtain rfl : d' = d := (Calc.dayOf_eq a1).trans (Calc.dayOf_eq hd).symm
  obtain ⟨text, b1, b2⟩ := (a4 fmt (not_excluded (by rintro _ _ ⟨⟩; exact hw) (by rintro _ ⟨⟩; exact a3))).2 (by
    rintro (c | ⟨md, c⟩) hi hm
    · exact hm
    · rcases hm with ⟨-, h⟩ | ⟨-, h⟩ | ⟨rfl, h⟩ | ⟨rfl, rfl, h⟩ | ⟨-, -, h, -⟩
      · cases h
      · cases h
      · exact hz (mem_letters hi) (by simpa using h)
      · obtain ⟨z, h', -⟩ := hZ (mem_letters hi)
        rw [h'] at h; cases h
      · cases h)
  obtain ⟨is, f, tod, g1, g2, g3, g4, g5, g6, g7, g8⟩ := fromStream_date hT get loc hn
    (x := ⟨some (n, d'), fractionalWidth T, some x, zone, off.map (· * 60)⟩) (off := off.getD 0)
    rfl rfl hd hb.1 hb.2 (by rintro _ ⟨⟩; exact a2) (by
      rcases off with _ | o
      · simp
      · exact ho o rfl) (by
      rcases off with _ | o
      · simp
      · rintro _ ⟨⟩; rfl) hr hdet hIp (by
      intro h z e
      obtain ⟨z', h', hz'⟩ := hZ h
      rw [show zone = some z from e] at h'
      cases h'
      exact hz') hy b2 true
  have hN : Nearest pn (n * (86400 * T) + told (meaning (letters (items fmt))) T (k * pn - n * (86400 * T)))
      (toTarget pn T (n * (86400 * (pow10 (fractionalWidth T) : Nat)) + tod.toDuration T)) := by
    refine toTarget_nearest hpn ?_
    rw [pow10_eq, Int.add_mul, g8]
    push_cast
    ring
  have hzm : 'z' ∈ meaning (letters (items fmt)) ↔ 'z' ∈ letters (items fmt) := by
    refine ⟨fun h => ?_, fun h => mem_meaning h rfl⟩
    have h : 'z' ∈ (letters (items fmt)).map sameAs := by
      unfold meaning at h
      split at h
      · rcases List.mem_cons.mp h with h | h
        · exact absurd h (by decide)
        · exact h
      · exact h
    obtain ⟨c, h1, h2⟩ := List.mem_map.mp h
    unfold sameAs at h2
    split at h2
    · exact absurd h2 (by decide)
    · split at h2
      · exact absurd h2 (by decide)
      · split at h2
        · exact absurd h2 (by decide)
        · rw [← h2]; exact h1
  refine ⟨text, is, _, ⟨⟨f, weekdayOf (uns (dayOfWeek n : Int)), tod, true⟩, if 'Z' ∈ letters (items fmt) then zone.getD [] else [],
    if 'z' ∈ meaning (letters (items fmt)) then some (off.getD 0) else none⟩, b1, ?_, g2, g3, ?_, ?_, hN, ?_⟩
  · unfold parseLocal
    rw [g1]
    simp only [Res.ok_bind, g4, g7, Bool.not_true, Bool.or_self, Bool.false_eq_true, if_false, g6]
    rfl
  · simp only [hzm]
    rcases off with _ | o
    · have : 'z' ∉ letters (items fmt) := fun h => hz h rfl
      simp [this]
    · rfl
  · intro h
    obtain ⟨z, h', -⟩ := hZ h
    simp [h, h']
  · intro h
    rw [h, add_sub_cancel] at hN
    exact nearest_exact hpn hN

/-- A date. -/
theorem c92_names_date_partial (get : TimeGet) (loc : TimePut) (hn : ReadsNames loc get.get) (x : YMD) (hok : x.ok = true) (n : Int)
    (hd : DayOf n ⟨x.y.toInt, x.m.toNat, x.d.toNat⟩) (fmt : List Char)
    (hr : Legible x.d.toNat false (items fmt)) (hdet : Determined (meaning (letters (items fmt))))
    (ht : ∀ c ∈ letters (items fmt), c ∉ ['H', 'M', 'S', 'T', 'R', 'I', 'p', 'z', 'Z'])
    (hy : YearReadable (meaning (letters (items fmt))) n x.y.toInt) (hw : Writable (letters (items fmt)) x.y.toInt) :
    ∃ text is, formatFields loc (fieldsDate x) fmt = .ok text ∧
      parseDate get fmt ⟨text, false, false⟩ = .ok (is, some x) ∧ is.rest = [] ∧ is.fail = false := by
  obtain ⟨n', a1, a2⟩ := c90_date_partial loc x hok (by have := hy.1; omega) (by have := hy.2.1; omega)
  obtain rfl : n' = n := by
    rw [← (Calc.dayOf_iff.mp a1).2, ← (Calc.dayOf_iff.mp hd).2]
  have legible : ∀ (its : List Item) (sk : Bool), Legible x.d.toNat sk its → ∀ md c, Item.conv md c ∈ its →
      c ∉ ['H', 'M', 'S', 'T', 'R', 'I', 'p', 'z', 'Z'] → usesTime md c = false := by
    intro its
    induction its with
    | nil => intro sk _ md c h; cases h
    | cons i its ih =>
      intro sk hl md c h hc
      rcases List.mem_cons.mp h with h' | h'
      · subst h'
        obtain ⟨h | ⟨rfl, h, -⟩ | ⟨rfl, rfl⟩ | ⟨rfl, rfl, -⟩ | ⟨rfl, rfl | rfl, -⟩ | ⟨rfl, rfl, -⟩, -⟩ := hl
        · rcases h with ⟨rfl, hp⟩ | ⟨rfl, -⟩
          · have : ∀ c ∈ plain, c ∉ ['H', 'M', 'S', 'T', 'R', 'I', 'p', 'z', 'Z'] → usesTime none c = false := by decide
            exact this c hp hc
          · exact absurd (by decide) hc
        · have : ∀ c ∈ nameLetters, c ∉ ['H', 'M', 'S', 'T', 'R', 'I', 'p', 'z', 'Z'] → usesTime none c = false := by decide
          exact this c h hc
        all_goals first | rfl | exact absurd (by decide) hc
      · cases i with
        | lit c0 =>
          obtain ⟨-, -, ⟨-, hl⟩ | ⟨-, hl⟩⟩ := hl
          · exact ih _ hl md c h' hc
          · exact ih _ hl md c h' hc
        | conv md0 c0 => exact ih _ hl.2 md c h' hc
  obtain ⟨text, b1, b2⟩ := (a2 fmt (not_excluded (by rintro _ _ ⟨⟩; exact hw) (by rintro _ ⟨⟩))).2 (by
    rintro (c | ⟨md, c⟩) hi hm
    · exact hm
    · have hti := ht _ (mem_letters hi)
      rcases hm with ⟨-, h⟩ | ⟨h, -⟩ | ⟨rfl, h⟩ | ⟨rfl, rfl, -⟩ | ⟨-, -, h, -⟩
      · cases h
      · rw [legible _ _ hr md c hi hti] at h; cases h
      · exact hti (by decide)
      · exact hti (by decide)
      · cases h)
  obtain ⟨is, f, tod, g1, g2, g3, g4, g5, -⟩ := fromStream_date (T := 1) ⟨by decide, 0, by decide, by decide⟩ get loc hn (off := 0)
    (x := ⟨some (n', ⟨x.y.toInt, x.m.toNat, x.d.toNat⟩), 0, none, none, none⟩) (t := 0)
    rfl (show 0 = fractionalWidth 1 by decide +kernel) hd (by omega) (by omega) (by rintro _ ⟨⟩) (by omega) (by rintro _ ⟨⟩) hr hdet
    (fun h => absurd (ht _ h) (by decide)) (fun h => absurd (ht _ h) (by decide)) hy b2 false
  refine ⟨text, is, b1, ?_, g2, g3⟩
  unfold parseDate parseFields
  rw [show (({} : Fields)) = { hasTod := false } from rfl, g1]
  simp only [Res.ok_bind, g4, if_true]
  rw [date_inj (show f.date = x.date from g5)]
  rfl

/-! ### Examples -/

def weekdays : List (List Char) := ["Sunday", "Monday", "Tuesday", "Wednesday", "Thursday", "Friday", "Saturday"].map String.toList
def months : List (List Char) := ["January", "February", "March", "April", "May", "June", "July", "August", "September", "October",
  "November", "December"].map String.toList
def halves : List (List Char) := ["AM", "PM"].map String.toList

/-- A locale with English names. -/
def english : TimePut := ⟨fun tm _ c =>
  match c with
  | 'a' => (weekdays.getD tm.wday.toNat []).take 3
  | 'A' => weekdays.getD tm.wday.toNat []
  | 'b' | 'h' => (months.getD tm.mon.toNat []).take 3
  | 'B' => months.getD tm.mon.toNat []
  | 'p' => if tm.hour < 12 then ['A', 'M'] else ['P', 'M']
  | _ => []⟩

/-- The place of a word in a list of names or of their first three letters. -/
def lookup (names : List (List Char)) (w : List Char) : Option Nat :=
  names.findIdx? fun n => n == w || n.take 3 == w

/-- It reads a word. -/
def englishGet : TimeGet := ⟨fun tm f s =>
  let w := s.takeWhile Letter
  let r := s.dropWhile Letter
  let c := f.getLastD ' '
  if c = 'a' ∨ c = 'A' then
    match lookup weekdays w with
    | some i => ({ tm with wday := i }, r, r.isEmpty, false)
    | none => (tm, r, r.isEmpty, true)
  else if c = 'b' ∨ c = 'B' ∨ c = 'h' then
    match lookup months w with
    | some i => ({ tm with mon := i }, r, r.isEmpty, false)
    | none => (tm, r, r.isEmpty, true)
  else if c = 'p' then
    match lookup halves w with
    | some i => ({ tm with hour := tm.hour + 12 * i }, r, r.isEmpty, false)
    | none => (tm, r, r.isEmpty, true)
  else (tm, s, false, true)⟩

theorem english_word {w r : List Char} (hw : ∀ c ∈ w, Letter c = true) (hr : NameEnds r) :
    (w ++ r).takeWhile Letter = w ∧ (w ++ r).dropWhile Letter = r := takeWhile_zone Letter w hw hr

theorem english_reads : ReadsNames english englishGet.get := by
  refine ⟨?_, ?_, ?_⟩
  · intro c hc tm h0 h6
    obtain ⟨i, hi, hi'⟩ : ∃ i < 7, tm.wday = (i : Nat) := ⟨tm.wday.toNat, by omega, by omega⟩
    have key : ∀ c ∈ ['a', 'A'], ∀ i < 7, lookup weekdays (english.put { wday := (i : Nat) } none c) = some i ∧
        (∀ y ∈ english.put { wday := (i : Nat) } none c, Letter y = true) ∧
        ∃ x s, english.put { wday := (i : Nat) } none c = x :: s ∧ isSpace x = false := by
      have : ∀ c ∈ ['a', 'A'], ∀ i < 7, lookup weekdays (english.put { wday := (i : Nat) } none c) = some i ∧
        (∀ y ∈ english.put { wday := (i : Nat) } none c, Letter y = true) ∧
        english.put { wday := (i : Nat) } none c ≠ [] ∧ isSpace ((english.put { wday := (i : Nat) } none c).headD ' ') = false := by decide +kernel
      intro c hc i hi
      obtain ⟨h1, h2, h3, h4⟩ := this c hc i hi
      obtain ⟨x, s, e⟩ := List.exists_cons_of_ne_nil h3
      rw [e] at h4
      exact ⟨h1, h2, x, s, e, h4⟩
    obtain ⟨k1, k2, x, s, k3, k4⟩ := key c hc i hi
    have he : english.put tm none c = english.put { wday := (i : Nat) } none c := by
      simp only [List.mem_cons, List.not_mem_nil, or_false] at hc
      rcases hc with rfl | rfl <;> simp [english, hi']
    rw [he]
    refine ⟨⟨x, s, k3, by rw [white_iff, k4]; decide⟩, fun old r hr => ?_⟩
    obtain ⟨e1, e2⟩ := english_word k2 hr
    refine ⟨{ old with wday := i }, r.isEmpty, ?_, by simp, hi'.symm⟩
    have hc' : c = 'a' ∨ c = 'A' := by simpa using hc
    simp [englishGet, e1, e2, hc', k1]
  · intro c hc tm h0 h6
    obtain ⟨i, hi, hi'⟩ : ∃ i < 12, tm.mon = (i : Nat) := ⟨tm.mon.toNat, by omega, by omega⟩
    have key : ∀ c ∈ ['b', 'B', 'h'], ∀ i < 12, lookup months (english.put { mon := (i : Nat) } none c) = some i ∧
        (∀ y ∈ english.put { mon := (i : Nat) } none c, Letter y = true) ∧
        ∃ x s, english.put { mon := (i : Nat) } none c = x :: s ∧ isSpace x = false := by
      have : ∀ c ∈ ['b', 'B', 'h'], ∀ i < 12, lookup months (english.put { mon := (i : Nat) } none c) = some i ∧
        (∀ y ∈ english.put { mon := (i : Nat) } none c, Letter y = true) ∧
        english.put { mon := (i : Nat) } none c ≠ [] ∧ isSpace ((english.put { mon := (i : Nat) } none c).headD ' ') = false := by decide +kernel
      intro c hc i hi
      obtain ⟨h1, h2, h3, h4⟩ := this c hc i hi
      obtain ⟨x, s, e⟩ := List.exists_cons_of_ne_nil h3
      rw [e] at h4
      exact ⟨h1, h2, x, s, e, h4⟩
    obtain ⟨k1, k2, x, s, k3, k4⟩ := key c hc i hi
    have he : english.put tm none c = english.put { mon := (i : Nat) } none c := by
      simp only [List.mem_cons, List.not_mem_nil, or_false] at hc
      rcases hc with rfl | rfl | rfl <;> simp [english, hi']
    rw [he]
    refine ⟨⟨x, s, k3, by rw [white_iff, k4]; decide⟩, fun old r hr => ?_⟩
    obtain ⟨e1, e2⟩ := english_word k2 hr
    refine ⟨{ old with mon := i }, r.isEmpty, ?_, by simp, hi'.symm⟩
    have hc' : c = 'b' ∨ c = 'B' ∨ c = 'h' := by simpa using hc
    have hn : ¬ (c = 'a' ∨ c = 'A') := by rcases hc' with rfl | rfl | rfl <;> decide
    simp [englishGet, e1, e2, hc', hn, k1]
  · intro tm h0 h23
    have hl : lookup halves ['A', 'M'] = some 0 ∧ lookup halves ['P', 'M'] = some 1 := by decide +kernel
    have hput : english.put tm none 'p' = if tm.hour < 12 then ['A', 'M'] else ['P', 'M'] := rfl
    rw [hput]
    by_cases hh : tm.hour < 12
    · simp only [hh, if_true]
      refine ⟨⟨_, _, rfl, by rw [white_iff]; decide⟩, fun old r hr h1 => ?_⟩
      obtain ⟨e1, e2⟩ := english_word (w := ['A', 'M']) (by decide) hr
      refine ⟨old, r.isEmpty, ?_, by simp, h1⟩
      simp only [englishGet, e1, e2, hl.1]
      simp
    · simp only [hh, if_false]
      refine ⟨⟨_, _, rfl, by rw [white_iff]; decide⟩, fun old r hr h1 => ?_⟩
      obtain ⟨e1, e2⟩ := english_word (w := ['P', 'M']) (by decide) hr
      refine ⟨{ old with hour := 13 }, r.isEmpty, ?_, by simp, rfl⟩
      simp only [englishGet, e1, e2, hl.2]
      simp [h1]

/-- "%A, %e %b %Y, %I:%M:%S %p (%Z)". -/
def longFormat : List Char := "%A, %e %b %Y, %I:%M:%S %p (%Z)".toList

example : items longFormat = [.conv none 'A', .lit ',', .lit ' ', .conv none 'e', .lit ' ', .conv none 'b', .lit ' ', .conv none 'Y', .lit ',',
    .lit ' ', .conv none 'I', .lit ':', .conv none 'M', .lit ':', .conv none 'S', .lit ' ', .conv none 'p', .lit ' ', .lit '(', .conv none 'Z',
    .lit ')'] := by decide +kernel

/-- 2023-01-05 00:34:56 with this format. -/
example : ∃ text is p, formatSys 1 english 1672878896 longFormat = .ok text ∧
    parseSys 1 1 englishGet longFormat 0 ⟨text, false, false⟩ = .ok (is, some (1672878896, p)) := by
  have hi : items longFormat = [.conv none 'A', .lit ',', .lit ' ', .conv none 'e', .lit ' ', .conv none 'b', .lit ' ', .conv none 'Y', .lit ',',
    .lit ' ', .conv none 'I', .lit ':', .conv none 'M', .lit ':', .conv none 'S', .lit ' ', .conv none 'p', .lit ' ', .lit '(', .conv none 'Z',
    .lit ')'] := by decide +kernel
  obtain ⟨text, is, r, p, h1, h2, -, -, -, h3⟩ := c92_names_sys_time_partial 1 1 (by omega) ⟨by decide, 0, by decide, by decide⟩
    englishGet english english_reads 1672878896 19362 ⟨2023, 1, 5⟩ longFormat (by decide) (by decide)
    (Calc.dayOf_iff.mpr ⟨by decide, by decide⟩) (by
      rw [hi]
      simp [Legible, Readable, plain, nameLetters, EndsName, EndsZone, EndsNumber, White, isDigit, Letter, ZoneLetter]) (by rw [hi]; decide +kernel) (by rw [hi]; decide +kernel)
    (by rw [hi]; exact ⟨by decide, by decide, fun h => absurd h (by decide +kernel), by decide +kernel, by decide +kernel⟩) (by rw [hi]; exact ⟨by decide, by decide⟩)
  rw [h3 (c92_told_complete _ _ _ (by rw [hi]; decide +kernel) (by rw [hi]; decide +kernel) (by rw [hi]; decide +kernel))] at h2
  exact ⟨text, is, p, h1, h2⟩

example : formatSys 1 english 1672878896 longFormat = .ok "Thursday,  5 Jan 2023, 12:34:56 AM (UTC)".toList := by decide +kernel

end Gul14.Date.Names
