import Verif.Date.ParseAmounts

/-! # C94: parse ends, without undefined behaviour -/
namespace Gul14.Date
open Gul14.Spec.Calendar Gul14.Spec.DateText Gul14.Spec.DateFormat Gul14.Spec.DateParse

/-- With up to seven decimals no number is too large. -/
theorem secondsFit {w : Nat} (h : w ≤ 7) (text : List Char) : SecondsFit w text := by
  intro a b c _ _ hb
  omega

theorem width_le {T k : Nat} (h : T ∣ 10 ^ k) (hk : k ≤ 18) : fractionalWidth T ≤ k :=
  ((c77_width T).1 ⟨k, hk, h⟩).2 k h

theorem dvd16 {T k : Nat} (h : T ∣ 10 ^ k) (hk : k ≤ 16) : T ∣ 10 ^ 16 := h.trans (Nat.pow_dvd_pow 10 hk)

theorem safe_dates {L : List Char} {text : List Char} (h : 'z' ∈ L → OffsetsComplete text) : Safe L (fractionalWidth 1) text :=
  ⟨fun _ => secondsFit (by decide +kernel) text, h⟩

theorem safe_seven {T : Nat} (hT : T ∣ 10 ^ 7) {L : List Char} {text : List Char} (h : 'z' ∈ L → OffsetsComplete text) :
    Safe L (fractionalWidth T) text :=
  ⟨fun _ => secondsFit (width_le hT (by omega)) text, h⟩

/-- Calendar types: whatever the text is, it is accepted or not. -/
theorem c94_calendar_partial (get : TimeGet) (fmt text : List Char) (hr : ∀ i ∈ items fmt, Readable i)
    (hz : 'z' ∈ letters (items fmt) → OffsetsComplete text) :
    (∃ is r, parseDate get fmt ⟨text, false, false⟩ = .ok (is, r)) ∧ (∃ is r, parseYear get fmt ⟨text, false, false⟩ = .ok (is, r)) ∧
    (∃ is r, parseMonth get fmt ⟨text, false, false⟩ = .ok (is, r)) ∧ (∃ is r, parseDay get fmt ⟨text, false, false⟩ = .ok (is, r)) ∧
    (∃ is r, parseWeekday get fmt ⟨text, false, false⟩ = .ok (is, r)) ∧ (∃ is r, parseYearMonth get fmt ⟨text, false, false⟩ = .ok (is, r)) ∧
    (∃ is r, parseMonthDay get fmt ⟨text, false, false⟩ = .ok (is, r)) := by
  have key : ∀ {α : Type} (ok : Fields → Bool) (g : Fields → α), ∃ is r, parseFields get fmt ok g ⟨text, false, false⟩ = .ok (is, r) := by
    intro α ok g
    obtain ⟨is, r, h⟩ := fromStream_total (e := ⟨1, get⟩) (fds := {}) (by norm_num) hr (safe_dates hz)
    unfold parseFields
    rw [h]
    rcases r with _ | r
    · exact ⟨_, _, rfl⟩
    · simp only [Res.ok_bind]
      split <;> exact ⟨_, _, rfl⟩
  exact ⟨key _ _, key _ _, key _ _, key _ _, key _ _, key _ _, key _ _⟩

/-- Points in time and durations, with ticks of pn/T seconds. -/
theorem c94_time_partial (pn T : Nat) (hT : T ∣ 10 ^ 16) (get : TimeGet) (fmt text : List Char) (hr : ∀ i ∈ items fmt, Readable i)
    (hs : Safe (letters (items fmt)) (fractionalWidth T) text) :
    (∀ off, ∃ is r, parseSys pn T get fmt off ⟨text, false, false⟩ = .ok (is, r)) ∧
    (∃ is r, parseLocal pn T get fmt ⟨text, false, false⟩ = .ok (is, r)) ∧
    (∃ is r, parseDuration pn T get fmt ⟨text, false, false⟩ = .ok (is, r)) := by
  refine ⟨fun off => ?_, ?_, ?_⟩
  · obtain ⟨is, r, h⟩ := fromStream_total (e := ⟨T, get⟩) (fds := { hasTod := true }) hT hr hs
    unfold parseSys
    rw [h]
    rcases r with _ | r
    · exact ⟨_, _, rfl⟩
    · simp only [Res.ok_bind, toDays_eq]
      split <;> exact ⟨_, _, rfl⟩
  · obtain ⟨is, r, h⟩ := fromStream_total (e := ⟨T, get⟩) (fds := { hasTod := true }) hT hr hs
    unfold parseLocal
    rw [h]
    rcases r with _ | r
    · exact ⟨_, _, rfl⟩
    · simp only [Res.ok_bind, toDays_eq]
      split <;> exact ⟨_, _, rfl⟩
  · obtain ⟨is, r, h⟩ := fromStream_total (e := ⟨T, get⟩) (fds := {}) hT hr hs
    unfold parseDuration
    rw [h]
    rcases r with _ | r
    · exact ⟨_, _, rfl⟩
    · simp only [Res.ok_bind]
      split <;> exact ⟨_, _, rfl⟩

/-! ### The sums fit into 64 bits -/

/-- The sum of the absolute values of the parts of a time of day, in units of the last decimal digit of a second. -/
def amount (T : Nat) (x : HMS) : Nat :=
  x.h.natAbs * (3600 * 10 ^ fractionalWidth T) + x.m.natAbs * (60 * 10 ^ fractionalWidth T) + x.s.natAbs * 10 ^ fractionalWidth T + x.sub.natAbs

theorem day_bound {x : YMD} (h : -10005 ≤ x.y.toInt ∧ x.y.toInt ≤ 10005) : ∃ n, x.toDays = .ok n ∧ n.natAbs ≤ 4500000 := by
  refine ⟨_, toDays_eq x, ?_⟩
  have hm := val_range x.m
  have hd := val_range x.d
  simp only [Calc.dayNum, Calc.fy, Calc.marchYear, Calc.marchMonth]
  split <;> omega

theorem sub_bound {T P : Nat} (hT : 0 < T) (s : Int) : 0 ≤ s % T * P / T ∧ s % T * P / T ≤ P := by
  have hT' : (0 : Int) < T := by omega
  have h1 := Int.emod_nonneg s (by omega : (T : Int) ≠ 0)
  have h2 := Int.emod_lt_of_pos s hT'
  refine ⟨Int.ediv_nonneg (Int.mul_nonneg h1 (by omega)) (by omega), ?_⟩
  refine Int.ediv_le_of_le_mul hT' ?_
  nlinarith

theorem tod_amount {T : Nat} (hT : T ∣ 10 ^ 9) {h m s : Int} (h0 : 0 ≤ h) (h1 : h ≤ 24075) (m0 : 0 ≤ m) (m1 : m ≤ 99) (s0 : 0 ≤ s)
    (s1 : s ≤ (T * 10 ^ (18 - fractionalWidth T) : Nat) + 1) :
    amount T ⟨h, m, s / T, s % T * 10 ^ fractionalWidth T / T, false⟩ ≤ 1200000000000000000 := by
  have hw := width_le hT (by omega)
  have hT0 := pos_of_dvd (dvd16 hT (by omega))
  have hT' : (0 : Int) < T := by omega
  set w := fractionalWidth T with hwd
  have hP : 10 ^ w ≤ 10 ^ 9 := Nat.pow_le_pow_right (by omega) hw
  have hq : 10 ^ w * 10 ^ (18 - w) = 10 ^ 18 := by rw [← Nat.pow_add]; congr 1; omega
  have hsub := sub_bound (P := 10 ^ w) hT0 s
  rw [show ((10 ^ w : Nat) : Int) = 10 ^ w by push_cast; rfl] at hsub
  have hs : s / T ≤ (10 ^ (18 - w) : Nat) + 1 := by
    refine Int.ediv_le_of_le_mul hT' ?_
    push_cast at s1 ⊢
    nlinarith
  have hs0 : 0 ≤ s / T := Int.ediv_nonneg s0 (by omega)
  unfold amount
  rw [← hwd]
  simp only
  have e1 : (s / T).natAbs ≤ 10 ^ (18 - w) + 1 := by omega
  have e2 : (s % T * 10 ^ w / T).natAbs ≤ 10 ^ w := by
    have : ((10 ^ w : Nat) : Int) = 10 ^ w := by push_cast; rfl
    omega
  have e3 := Nat.mul_le_mul_right (10 ^ w) e1
  have e4 : (10 ^ (18 - w) + 1) * 10 ^ w = 10 ^ 18 + 10 ^ w := by rw [Nat.add_mul, Nat.mul_comm, hq, Nat.one_mul]
  have e5 := Nat.mul_le_mul (show h.natAbs ≤ 24075 by omega) (Nat.mul_le_mul_left 3600 hP)
  have e6 := Nat.mul_le_mul (show m.natAbs ≤ 99 by omega) (Nat.mul_le_mul_left 60 hP)
  omega

/-- Durations with ticks of up to nine decimals. -/
theorem c94_duration_fits_partial (pn T : Nat) (hT : T ∣ 10 ^ 9) (get : TimeGet) (fmt text : List Char) (is : IStream) (r : Int) (p : Parsed)
    (hr : ∀ i ∈ items fmt, Readable i) (hs : Safe (letters (items fmt)) (fractionalWidth T) text)
    (h : parseDuration pn T get fmt ⟨text, false, false⟩ = .ok (is, some (r, p))) : amount T p.fds.tod < 2 ^ 63 := by
  unfold parseDuration at h
  obtain ⟨⟨is', q⟩, h1, h⟩ := bind_ok h
  rcases q with _ | q
  · cases h
  · simp only at h
    split at h
    · cases h
    · simp only [Res.pure_eq, Res.ok.injEq, Prod.mk.injEq, Option.some.injEq] at h
      obtain ⟨rfl, rfl, rfl⟩ := h
      obtain ⟨⟨h, m, s, e, a1, a2, a3, a4, a5, a6⟩, -, -⟩ := fromStream_parts (get := get) (dvd16 hT (by omega)) hr hs h1
      rw [e]
      have := tod_amount hT a1 a2 a3 a4 a5 a6
      omega

/-- Points in time with ticks of up to seven decimals; the caller's offset is up to a million minutes. -/
theorem c94_sys_time_fits_partial (pn T : Nat) (hT : T ∣ 10 ^ 7) (get : TimeGet) (off : Int) (hoff : off.natAbs ≤ 1000000) (fmt text : List Char)
    (is : IStream) (r : Int) (p : Parsed) (hr : ∀ i ∈ items fmt, Readable i) (hz : 'z' ∈ letters (items fmt) → OffsetsComplete text)
    (h : parseSys pn T get fmt off ⟨text, false, false⟩ = .ok (is, some (r, p))) :
    ∃ n, p.fds.ymd.toDays = .ok n ∧
      n.natAbs * (86400 * 10 ^ fractionalWidth T) + (p.offset.getD off).natAbs * (60 * 10 ^ fractionalWidth T) + amount T p.fds.tod < 2 ^ 63 := by
  unfold parseSys at h
  obtain ⟨⟨is', q⟩, h1, h⟩ := bind_ok h
  rcases q with _ | q
  · cases h
  · simp only at h
    split at h
    · cases h
    · rename_i hok
      simp only [Bool.or_eq_true, Bool.not_eq_true', not_or, Bool.not_eq_false] at hok
      obtain ⟨⟨h', m, s, e, a1, a2, a3, a4, a5, a6⟩, b1, b2⟩ := fromStream_parts (get := get) (dvd16 hT (by omega)) hr (safe_seven hT hz) h1
      obtain ⟨n, c1, c2⟩ := day_bound (b1 hok.1)
      simp only [c1, Res.ok_bind, Res.pure_eq, Res.ok.injEq, Prod.mk.injEq, Option.some.injEq] at h
      obtain ⟨rfl, rfl, rfl⟩ := h
      refine ⟨n, c1, ?_⟩
      rw [e]
      have := tod_amount (hT.trans (by norm_num)) a1 a2 a3 a4 a5 a6
      have hP : 10 ^ fractionalWidth T ≤ 10 ^ 7 := Nat.pow_le_pow_right (by omega) (width_le hT (by omega))
      have ho : (q.offset.getD off).natAbs ≤ 1000000 := by
        rcases hq : q.offset with _ | o
        · exact hoff
        · have := b2 o hq
          show o.natAbs ≤ _
          omega
      have e1 := Nat.mul_le_mul c2 (Nat.mul_le_mul_left 86400 hP)
      have e2 := Nat.mul_le_mul ho (Nat.mul_le_mul_left 60 hP)
      omega

/-- Local time. -/
theorem c94_local_time_fits_partial (pn T : Nat) (hT : T ∣ 10 ^ 7) (get : TimeGet) (fmt text : List Char)
    (is : IStream) (r : Int) (p : Parsed) (hr : ∀ i ∈ items fmt, Readable i) (hz : 'z' ∈ letters (items fmt) → OffsetsComplete text)
    (h : parseLocal pn T get fmt ⟨text, false, false⟩ = .ok (is, some (r, p))) :
    ∃ n, p.fds.ymd.toDays = .ok n ∧ n.natAbs * (86400 * 10 ^ fractionalWidth T) + amount T p.fds.tod < 2 ^ 63 := by
  unfold parseLocal at h
  obtain ⟨⟨is', q⟩, h1, h⟩ := bind_ok h
  rcases q with _ | q
  · cases h
  · simp only at h
    split at h
    · cases h
    · rename_i hok
      simp only [Bool.or_eq_true, Bool.not_eq_true', not_or, Bool.not_eq_false] at hok
      obtain ⟨⟨h', m, s, e, a1, a2, a3, a4, a5, a6⟩, b1, b2⟩ := fromStream_parts (get := get) (dvd16 hT (by omega)) hr (safe_seven hT hz) h1
      obtain ⟨n, c1, c2⟩ := day_bound (b1 hok.1)
      simp only [c1, Res.ok_bind, Res.pure_eq, Res.ok.injEq, Prod.mk.injEq, Option.some.injEq] at h
      obtain ⟨rfl, rfl, rfl⟩ := h
      refine ⟨n, c1, ?_⟩
      rw [e]
      have := tod_amount (hT.trans (by norm_num)) a1 a2 a3 a4 a5 a6
      have hP : 10 ^ fractionalWidth T ≤ 10 ^ 7 := Nat.pow_le_pow_right (by omega) (width_le hT (by omega))
      have e1 := Nat.mul_le_mul c2 (Nat.mul_le_mul_left 86400 hP)
      omega

/-! ### What is not so -/

/-- The general statement fails.  The behaviour is undefined if a minus sign of the offset is followed by a letter (the smallest number of
minutes is negated), if a year of ten digits is the smallest `int` (its absolute value is computed), if a number of seconds does not fit
the ticks, and if the date is outside the range of the time point. -/
theorem c94_violated :
    parseDate get0 "%F%z".toList ⟨"2023-01-01-x".toList, false, false⟩ = .ub ∧
    parseDate get0 "%10Y".toList ⟨"-2147483648".toList, false, false⟩ = .ub ∧
    parseDuration 1 (10 ^ 9) get0 "%S".toList ⟨"99999999999".toList, false, false⟩ = .ub ∧
    ∃ p, parseSys 1 (10 ^ 9) get0 "%F".toList 0 ⟨"2300-01-01".toList, false, false⟩ =
      .ok (⟨[], false, false⟩, some (10413792000000000000, p)) ∧ 2 ^ 63 ≤ (10413792000000000000 : Int) := by
  refine ⟨by decide +kernel, by decide +kernel, by decide +kernel, ⟨⟨⟨2300, 1, 1⟩, 1, ⟨0, 0, 0, 0, false⟩, true⟩, [], none⟩, ?_, by decide⟩
  decide +kernel

/-! ### Examples -/

theorem offsets_of {t : List Char} (h : ∀ k ≤ t.length, (t.drop k).head? = some '-' →
    isDigit ((t.drop (k + 1)).headD 'x') = true ∧ isDigit ((t.drop (k + 2)).headD 'x') = true) : OffsetsComplete t := by
  intro a b e
  have := h a.length (by rw [e]; simp)
  rw [e] at this
  have e1 : (a ++ '-' :: b).drop (a.length + 1) = b := by simp [List.drop_append]
  have e2 : (a ++ '-' :: b).drop (a.length + 2) = b.drop 1 := by simp [List.drop_append]
  rw [e1, e2] at this
  have := this (by simp)
  rcases b with _ | ⟨x, _ | ⟨y, r⟩⟩
  · exact absurd this.1 (by decide)
  · exact absurd (show isDigit 'x' = true from this.2) (by decide)
  · exact ⟨x, y, r, rfl, this⟩

/-- The hypotheses hold for usual formats and texts, accepted or not. -/
example : (∀ i ∈ items "%FT%T%z".toList, Readable i) ∧ OffsetsComplete "2023-02-29T10:00:00.5-0130".toList ∧
    Safe (letters (items "%FT%T%z".toList)) (fractionalWidth (10 ^ 6)) "2023-02-29T10:00:00.5-0130".toList ∧
    (∃ is, parseSys 1 1000 get0 "%FT%T%z".toList 0 ⟨"2023-02-29T10:00:00.5-0130".toList, false, false⟩ = .ok (is, none)) ∧
    (∃ is p, parseSys 1 1000 get0 "%FT%T%z".toList 0 ⟨"2023-02-28T10:00:00.5-0130".toList, false, false⟩ = .ok (is, some (1677583800500, p))) := by
  have h : OffsetsComplete "2023-02-29T10:00:00.5-0130".toList := offsets_of (by decide)
  refine ⟨by decide, h, safe_seven (by norm_num) (fun _ => h), ⟨⟨[], false, true⟩, by decide +kernel⟩,
    ⟨⟨[], false, false⟩, ⟨⟨⟨2023, 2, 28⟩, 2, ⟨10, 0, 0, 500, false⟩, true⟩, [], some (-90)⟩, by decide +kernel⟩⟩

/-- Nanoseconds, where the condition on the seconds is not void. -/
example : SecondsFit 9 "T12:34:56.123456789".toList := by
  intro a b c h1 h2 h3
  by_contra hc
  have e := congrArg (fun l => (l.drop a.length).take 10) h1
  have hb : 10 ≤ b.length := by omega
  have : (("T12:34:56.123456789".toList.drop a.length).take 10).all isDigit = true ∧
      (("T12:34:56.123456789".toList.drop a.length).take 10).length = 10 := by
    rw [h1, List.drop_left, List.take_append_of_le_length hb]
    exact ⟨List.all_eq_true.mpr (fun x hx => List.all_eq_true.mp h2 x (List.mem_of_mem_take hx)), by simp [hb]⟩
  have hl : a.length ≤ 19 := by have := congrArg List.length h1; simp at this; omega
  revert this
  generalize a.length = k at hl
  revert k
  decide

end Gul14.Date
