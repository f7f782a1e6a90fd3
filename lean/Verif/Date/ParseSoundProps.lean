import Verif.Date.ParseClaims

/-! # C93: parse accepts only texts that say the result -/
namespace Gul14.Date
open Gul14.Spec.Calendar Gul14.Spec.DateText Gul14.Spec.DateFormat Gul14.Spec.DateParse

theorem fractionalWidth_le {T : Nat} (h : T ∣ 10 ^ 16) : fractionalWidth T ≤ 16 ∧ T ∣ 10 ^ fractionalWidth T := by
  have := (c77_width T).1 ⟨16, by omega, h⟩
  exact ⟨this.2 16 h, this.1⟩

theorem pos_of_dvd {T : Nat} (h : T ∣ 10 ^ 16) : 0 < T := Nat.pos_of_dvd_of_pos h (by norm_num)

/-- A date. -/
theorem c93_date_partial (get : TimeGet) (fmt text : List Char) (is : IStream) (ymd : YMD) (hr : ∀ i ∈ items fmt, Readable i)
    (hc : Coherent (letters (items fmt))) (h : parseDate get fmt ⟨text, false, false⟩ = .ok (is, some ymd)) :
    ∃ x : Claim, x.Consistent ∧ Split (Agrees 1 0 x) (items fmt) text is.rest ∧ x.d = ⟨ymd.y.toInt, ymd.m.toNat, ymd.d.toNat⟩ := by
  unfold parseDate parseFields at h
  obtain ⟨⟨is', r⟩, h1, h⟩ := bind_ok h
  rcases r with _ | r
  · cases h
  · simp only at h
    split at h
    · rename_i hok
      simp only [Res.pure_eq, Res.ok.injEq, Prod.mk.injEq, Option.some.injEq] at h
      obtain ⟨rfl, rfl⟩ := h
      have w0 : fractionalWidth 1 = 0 := by decide +kernel
      obtain ⟨x, a1, -, a3, a4, -⟩ := fromStream_claim (e := ⟨1, get⟩) (by simp) (by simp) (by simp [w0]) hr hc h1 hok
      refine ⟨x, a1, ?_, a4.symm⟩
      simpa [w0] using a3
    · cases h

theorem conventional_bounds {T : Nat} (hT : 0 < T) {h m : Nat} {s : Int} {sub : Int} {neg : Bool} (hs : 0 ≤ s)
    (hc : HMS.conventional ⟨h, m, s / T, sub, neg⟩ T = true) : h < 24 ∧ m < 60 ∧ s < 60 * T := by
  unfold HMS.conventional at hc
  simp only [Bool.and_eq_true, decide_eq_true_eq] at hc
  obtain ⟨⟨⟨-, h1⟩, h2⟩, -, h3⟩ := hc
  have hT' : (0 : Int) < T := by omega
  have := (Int.ediv_lt_iff_lt_mul hT').mp h3
  omega

/-- A point in time, with ticks of pn/T seconds: the day and the time that the text says, in the time zone with the offset that it says.
(If there is no `%z`, then the value that the caller's offset has before the call is used; it is 0 if the caller gives none.) -/
theorem c93_sys_time_partial (pn T : Nat) (hpn : 0 < pn) (hT : T ≤ 10 ^ 15) (hT' : T ∣ 10 ^ 16) (get : TimeGet) (off : Int) (fmt text : List Char)
    (is : IStream) (r : Int) (p : Parsed) (hr : ∀ i ∈ items fmt, Readable i) (hc : Coherent (letters (items fmt)))
    (h : parseSys pn T get fmt off ⟨text, false, false⟩ = .ok (is, some (r, p))) :
    ∃ x : Claim, x.Consistent ∧ x.Rest (letters (items fmt)) ∧ Split (Agrees T (fractionalWidth T) x) (items fmt) text is.rest ∧
      x.h < 24 ∧ x.m < 60 ∧ 0 ≤ x.s ∧ x.s < 60 * T ∧ p.offset = (if 'z' ∈ letters (items fmt) then some x.o else none) ∧
      Nearest pn (x.n * (86400 * T) + x.h * (3600 * T) + x.m * (60 * T) + x.s -
        (if 'z' ∈ letters (items fmt) then x.o else off) * (60 * T)) r := by
  obtain ⟨hw, hw'⟩ := fractionalWidth_le hT'
  have hT0 := pos_of_dvd hT'
  unfold parseSys at h
  obtain ⟨⟨is', q⟩, h1, h⟩ := bind_ok h
  rcases q with _ | q
  · cases h
  · simp only at h
    split at h
    · cases h
    · rename_i hok
      simp only [Bool.or_eq_true, Bool.not_eq_true', not_or, Bool.not_eq_false] at hok
      obtain ⟨x, a1, a2, a3, a4, a5, a6, a7, a8⟩ := fromStream_claim (e := ⟨T, get⟩) hT0 hT hw hr hc h1 hok.1
      simp only [a5, Res.ok_bind, Res.pure_eq, Res.ok.injEq, Prod.mk.injEq, Option.some.injEq] at h
      obtain ⟨rfl, rfl, rfl⟩ := h
      have hcv := hok.2
      rw [a6] at hcv
      obtain ⟨b1, b2, b3⟩ := conventional_bounds hT0 a7 hcv
      refine ⟨x, a1, a2, a3, b1, b2, a7, b3, a8, toTarget_nearest hpn ?_⟩
      rw [Int.add_mul, a6, toDuration_of hT0 hw', a8, pow10_eq]
      push_cast
      by_cases hz : 'z' ∈ letters (items fmt) <;> simp only [hz, if_true, if_false, Option.getD] <;> ring

/-- Local time. -/
theorem c93_local_time_partial (pn T : Nat) (hpn : 0 < pn) (hT : T ≤ 10 ^ 15) (hT' : T ∣ 10 ^ 16) (get : TimeGet) (fmt text : List Char)
    (is : IStream) (r : Int) (p : Parsed) (hr : ∀ i ∈ items fmt, Readable i) (hc : Coherent (letters (items fmt)))
    (h : parseLocal pn T get fmt ⟨text, false, false⟩ = .ok (is, some (r, p))) :
    ∃ x : Claim, x.Consistent ∧ x.Rest (letters (items fmt)) ∧ Split (Agrees T (fractionalWidth T) x) (items fmt) text is.rest ∧
      x.h < 24 ∧ x.m < 60 ∧ 0 ≤ x.s ∧ x.s < 60 * T ∧ p.offset = (if 'z' ∈ letters (items fmt) then some x.o else none) ∧
      Nearest pn (x.n * (86400 * T) + x.h * (3600 * T) + x.m * (60 * T) + x.s) r := by
  obtain ⟨hw, hw'⟩ := fractionalWidth_le hT'
  have hT0 := pos_of_dvd hT'
  unfold parseLocal at h
  obtain ⟨⟨is', q⟩, h1, h⟩ := bind_ok h
  rcases q with _ | q
  · cases h
  · simp only at h
    split at h
    · cases h
    · rename_i hok
      simp only [Bool.or_eq_true, Bool.not_eq_true', not_or, Bool.not_eq_false] at hok
      obtain ⟨x, a1, a2, a3, a4, a5, a6, a7, a8⟩ := fromStream_claim (e := ⟨T, get⟩) hT0 hT hw hr hc h1 hok.1
      simp only [a5, Res.ok_bind, Res.pure_eq, Res.ok.injEq, Prod.mk.injEq, Option.some.injEq] at h
      obtain ⟨rfl, rfl, rfl⟩ := h
      have hcv := hok.2
      rw [a6] at hcv
      obtain ⟨b1, b2, b3⟩ := conventional_bounds hT0 a7 hcv
      refine ⟨x, a1, a2, a3, b1, b2, a7, b3, a8, toTarget_nearest hpn ?_⟩
      rw [Int.add_mul, a6, toDuration_of hT0 hw', pow10_eq]
      push_cast
      ring

/-! ### Durations -/

def durationLetters : List Char := ['H', 'M', 'S', 'T', 'R', 'j', '%']

theorem unset_of {L : List Char} (hL : ∀ c ∈ L, c ∈ durationLetters) {v : PVars} (h : Step L {} v) (f : Fld)
    (hf : f ∈ [Fld.Y, .y, .C, .m, .d, .wd, .G, .V, .U, .W]) : get v f = unset f := by
  by_contra hc
  obtain ⟨-, c, c1, c2⟩ := h.of_set f hc
  have := hL c c1
  simp only [durationLetters, List.mem_cons, List.not_mem_nil, or_false] at this hf
  rcases this with rfl | rfl | rfl | rfl | rfl | rfl | rfl <;>
    (rcases hf with rfl | rfl | rfl | rfl | rfl | rfl | rfl | rfl | rfl | rfl <;> simp [fieldsOf] at c2)

theorem combine_duration {e : PEnv} {L : List Char} (hL : ∀ c ∈ L, c ∈ durationLetters) {v : PVars} (h : Step L {} v) {fds : Fields} {r : Parsed}
    (hc : combine e v fds = .ok r) : (r.fds.tod, r.fds.hasTod) = theTime e.T v v.H fds.tod fds.hasTod := by
  have u := unset_of hL h
  have hI := h.2.2.1
  have hg := h.2.1
  have u1 : v.Y = -32768 := u .Y (by simp)
  have u2 : v.y = 100 := u .y (by simp)
  have u3 : v.m = 0 := u .m (by simp)
  have u4 : v.d = 0 := u .d (by simp)
  have u5 : v.wd = 8 := u .wd (by simp)
  have u6 : v.G = -32768 := u .G (by simp)
  have u7 : v.V = 100 := u .V (by simp)
  have u8 : v.U = 100 := u .U (by simp)
  have u9 : v.W = 100 := u .W (by simp)
  change v.g = 100 at hg
  change v.I = 0 at hI
  have f1 : fullYear v.y v.Y v.C = .ok (v.Y, v.C) := by rw [u2]; rfl
  have f2 : ∀ C, fullYear v.g v.G C = .ok (v.G, C) := fun C => by rw [hg]; rfl
  unfold combine at hc
  rw [f1] at hc
  simp only [Res.ok_bind, f2] at hc
  have hY : (if v.Y < -32767 ∨ v.Y > 32767 then -32768 else v.Y) = v.Y := by rw [u1]; rfl
  rw [hY] at hc
  have hw : weeks { v with Y := v.Y, G := v.G } = .ok (v, false) := by
    have e1 : usesIso v = false := by simp [usesIso, u6]
    have e2 : usesU v = false := by simp [usesU, u1]
    have e3 : usesW v = false := by simp [usesW, u1]
    have e4 : usesJ v = false := by simp [usesJ, u1]
    show weeks v = _
    unfold weeks
    simp only [whenUsed, e1, e2, e3, e4, Bool.false_eq_true, if_false, Res.pure_eq, Res.ok_bind, Bool.or_self]
  rw [hw] at hc
  simp only [Res.ok_bind] at hc
  have hd : ∃ y, theDate v false = .ok (y, v.wd) := by
    refine ⟨⟨year v.Y, asUchar (uns v.m), asUchar (uns v.d)⟩, ?_⟩
    rw [theDate_eq, if_neg]
    rw [u1, u3, u4]
    decide
  obtain ⟨y, hd⟩ := hd
  rw [hd] at hc
  simp only [Res.ok_bind] at hc
  have hh : theHour v = .ok v.H := by unfold theHour; rw [if_pos hI]; rfl
  rw [hh] at hc
  simp only [Res.ok_bind, Res.pure_eq, Res.ok.injEq] at hc
  subst hc
  rfl

/-- The day count is added to the hours. -/
theorem theTime_days (T : Nat) (v : PVars) (H : Int) (tod : HMS) (has : Bool) : theTime T v H tod has =
    if v.j = -1 then theTime T { v with j := -1 } H tod has
    else ({ (theTime T { v with j := -1 } H tod has).1 with h := (theTime T { v with j := -1 } H tod has).1.h + 24 * v.j }, true) := by
  by_cases hj : v.j = -1
  · rw [if_pos hj]
    unfold theTime
    simp only [hj]
  · rw [if_neg hj]
    unfold theTime
    simp only [ne_eq, hj, not_false_eq_true, if_true, not_true_eq_false, if_false]

/-- A duration: the hours, minutes and seconds that the text says, and 24 hours for each day that it says; it says something. -/
theorem c93_duration_partial (pn T : Nat) (hpn : 0 < pn) (hT : T ≤ 10 ^ 15) (hT' : T ∣ 10 ^ 16) (get : TimeGet) (fmt text : List Char)
    (is : IStream) (r : Int) (p : Parsed) (hr : ∀ i ∈ items fmt, Readable i) (hL : ∀ c ∈ letters (items fmt), c ∈ durationLetters)
    (h : parseDuration pn T get fmt ⟨text, false, false⟩ = .ok (is, some (r, p))) :
    ∃ x : Claim, x.Rest (letters (items fmt)) ∧ Split (Agrees T (fractionalWidth T) x) (items fmt) text is.rest ∧
      (∃ c ∈ letters (items fmt), c ≠ '%') ∧ 0 ≤ x.s ∧
      Nearest pn ((24 * (if 'j' ∈ letters (items fmt) then x.j else 0 : Nat) + x.h) * (3600 * T) + x.m * (60 * T) + x.s) r := by
  obtain ⟨hw, hw'⟩ := fractionalWidth_le hT'
  have hT0 := pos_of_dvd hT'
  unfold parseDuration at h
  obtain ⟨⟨is', q⟩, h1, h⟩ := bind_ok h
  rcases q with _ | q
  · cases h
  · simp only at h
    split at h
    · cases h
    · rename_i hhas
      simp only [Bool.not_eq_true', Bool.not_eq_false] at hhas
      simp only [Res.pure_eq, Res.ok.injEq, Prod.mk.injEq, Option.some.injEq] at h
      obtain ⟨rfl, rfl, rfl⟩ := h
      obtain ⟨v, hs, hst, hcm⟩ := fromStream_sound (e := ⟨T, get⟩) hw hr h1
      have ht := combine_duration hL hst hcm
      have u := unset_of hL hst
      have sH := hst.of_set .H; have sM := hst.of_set .M; have ss := hst.of_set .s; have sj := hst.of_set .j
      simp only [Date.get, unset, InRange] at sH sM ss sj
      have hs0 : v.s = -9223372036854775808 ∨ 0 ≤ v.s := by
        by_cases hh : v.s = -9223372036854775808
        · exact Or.inl hh
        · exact Or.inr (ticks_nonneg hT0 hT hw hs hst hh)
      let x : Claim := ⟨0, ⟨0, 0, 0⟩, 0, 0, if v.j = -1 then 0 else v.j.toNat,
        if v.H = -2147483648 then 0 else v.H.toNat, if v.M = -2147483648 then 0 else v.M.toNat,
        if v.s = -9223372036854775808 then 0 else v.s, if v.offset = -9223372036854775808 then 0 else v.offset⟩
      have hTF : TimeFits v x := by
        refine ⟨?_, ?_, rfl, rfl⟩
        · show ((if v.H = -2147483648 then 0 else v.H.toNat : Nat) : Int) = _
          split
          · rfl
          · rename_i hh; have := (sH hh).1; omega
        · show ((if v.M = -2147483648 then 0 else v.M.toNat : Nat) : Int) = _
          split
          · rfl
          · rename_i hh; have := (sM hh).1; omega
      have hj : v.j = -1 ∨ v.j = x.j := by
        show v.j = -1 ∨ v.j = ((if v.j = -1 then 0 else v.j.toNat : Nat) : Int)
        split
        · exact Or.inl ‹_›
        · rename_i hh; have := (sj hh).1; omega
      have hDF : DateFits (letters (items fmt)) v x :=
        ⟨Or.inl (u .Y (by simp)), Or.inl (u .y (by simp)), Or.inl (u .C (by simp)), Or.inl (u .m (by simp)), Or.inl (u .d (by simp)),
          Or.inl (u .wd (by simp)), Or.inl (u .U (by simp)), Or.inl (u .W (by simp)), Or.inl (u .G (by simp)), Or.inl (u .V (by simp)), hj⟩
      have hx0 : 0 ≤ x.s := by
        show 0 ≤ if v.s = -9223372036854775808 then 0 else v.s
        split <;> omega
      have hsome : ∀ f, f ∈ [Fld.H, .M, .s, .j] → Date.get v f ≠ unset f → ∃ c ∈ letters (items fmt), c ≠ '%' := by
        intro f hf hh
        obtain ⟨-, c, c1, c2⟩ := hst.of_set f hh
        refine ⟨c, c1, ?_⟩
        rintro rfl
        simp [fieldsOf] at c2
      have htime := theTime_of hT0 { v with j := -1 } rfl (by
        simp only; by_cases hh : v.H = -2147483648
        · exact Or.inl hh
        · exact Or.inr (sH hh).1.1) (by
        simp only; by_cases hh : v.M = -2147483648
        · exact Or.inl hh
        · exact Or.inr (sM hh).1.1) hs0 false hTF.1 hTF.2.1 hTF.2.2.1
      have ht := ht.trans (theTime_days _ _ _ _ _)
      have htime' : theTime T { v with j := -1 } v.H ⟨0, 0, 0, 0, false⟩ false = _ := htime
      have htd : theTime T { v with j := -1 } v.H ({} : Fields).tod ({} : Fields).hasTod = _ := htime
      refine ⟨x, ⟨?_, ?_, ?_⟩, split_mono _ _ _ (fun md c a _ hp => agrees_of hT0 hT hw hTF hDF hp) hs, ?_, hx0, ?_⟩
      · intro h1 h2 h3
        show (if v.H = -2147483648 then 0 else v.H.toNat) = 0
        split
        · rfl
        · rename_i hh
          obtain ⟨-, c, c1, c2⟩ := sH hh
          rcases fieldsOf_H c2 with rfl | rfl | rfl
          · exact absurd c1 h1
          · exact absurd c1 h2
          · exact absurd c1 h3
      · intro h1 h2 h3
        show (if v.M = -2147483648 then 0 else v.M.toNat) = 0
        split
        · rfl
        · rename_i hh
          obtain ⟨-, c, c1, c2⟩ := sM hh
          rcases fieldsOf_M c2 with rfl | rfl | rfl
          · exact absurd c1 h1
          · exact absurd c1 h2
          · exact absurd c1 h3
      · intro h1 h2
        show (if v.s = -9223372036854775808 then 0 else v.s) = 0
        split
        · rfl
        · rename_i hh
          obtain ⟨-, c, c1, c2⟩ := ss hh
          rcases fieldsOf_s c2 with rfl | rfl
          · exact absurd c1 h1
          · exact absurd c1 h2
      · by_cases hj' : v.j = -1
        · rw [if_pos hj', htd] at ht
          have e := congrArg Prod.snd ht
          simp only [hhas, Bool.false_or] at e
          have e := of_decide_eq_true e.symm
          rcases e with e | e | e
          · exact hsome .H (by simp) e
          · exact hsome .M (by simp) e
          · exact hsome .s (by simp) e
        · exact hsome .j (by simp) hj'
      · refine toTarget_nearest hpn ?_
        have etod : q.fds.tod = ⟨x.h + 24 * (if v.j = -1 then 0 else v.j), x.m, x.s / T, x.s % T * 10 ^ fractionalWidth T / T, false⟩ := by
          by_cases hj' : v.j = -1
          · rw [if_pos hj', htd] at ht
            rw [if_pos hj']
            have := congrArg Prod.fst ht
            simpa using this
          · rw [if_neg hj', htd] at ht
            rw [if_neg hj']
            exact congrArg Prod.fst ht
        have ej : (if v.j = -1 then 0 else v.j) = ((if 'j' ∈ letters (items fmt) then x.j else 0 : Nat) : Int) := by
          by_cases hj' : v.j = -1
          · rw [if_pos hj']
            split
            · rename_i hm
              obtain ⟨md, hm⟩ := letters_mem hm
              obtain ⟨a, z, -, hz⟩ := split_mem _ _ _ hs hm
              have := hz.eq (by simp only [unset]; omega)
              change v.j = z at this
              omega
            · rfl
          · rw [if_neg hj']
            obtain ⟨-, c, c1, c2⟩ := sj hj'
            obtain rfl := fieldsOf_one (x := 'j') (f := .j) (by simp) c2
            rw [if_pos c1]
            exact hj.resolve_left hj'
        rw [etod, toDuration_of hT0 hw', ej]
        push_cast
        ring

/-! ### What is not so -/

theorem split_last {P : Option Char → Char → List Char → Prop} {md : Option Char} {c : Char} (its : List Item) : ∀ t,
    Split P (its ++ [.conv md c]) t [] → ∃ p a, t = p ++ a ∧ P md c a := by
  induction its with
  | nil =>
    rintro t ⟨a, b, h1, h2, h3⟩
    change b = [] at h3
    subst h3
    exact ⟨[], a, by simpa using h1, h2⟩
  | cons i its ih =>
    intro t h
    cases i with
    | lit x =>
      obtain ⟨a, b, rfl, -, h3⟩ := h
      obtain ⟨p, q, rfl, h⟩ := ih _ h3
      exact ⟨a ++ p, q, by simp, h⟩
    | conv m x =>
      obtain ⟨a, b, rfl, -, h3⟩ := h
      obtain ⟨p, q, rfl, h⟩ := ih _ h3
      exact ⟨a ++ p, q, by simp, h⟩

theorem suffix_drop {t p a : List Char} (h : t = p ++ a) : ∃ k, k ≤ t.length ∧ a = t.drop k :=
  ⟨p.length, by rw [h]; simp, by rw [h]; simp⟩

/-- No end of the text is this number. -/
theorem no_num {t p a : List Char} {M v : Nat} (h : t = p ++ a)
    (hd : ∀ k ≤ t.length, ¬ ((t.drop k) ≠ [] ∧ (t.drop k).length ≤ M ∧ (t.drop k).all isDigit = true ∧ value (t.drop k) = v)) : ¬ Num M v a := by
  obtain ⟨k, h1, rfl⟩ := suffix_drop h
  exact hd k h1

theorem dayInYear_eq {y : Int} {j : Nat} {n : Int} (h : DayInYear y j n) : n = Calc.dayNum y 1 1 + j - 1 := by
  obtain ⟨ny, m, d, h1, h2, h3⟩ := h
  rw [newYear_iff.mp h1] at h2
  exact h2

theorem iso_of {n : Int} {d : Date} (h : DayOf n d) {g g' : Int} {k k' : Nat} (hg : IsoWeek n g k)
    (hg' : IsoWeek (Calc.dayNum d.year d.month d.day) g' k') : g = g' ∧ k = k' := by
  rw [(Calc.dayOf_iff.mp h).2] at hg'
  exact isoWeek_unique hg hg'

/-- A text that is accepted although it does not say the date that is the result. -/
def Misread (fmt text : List Char) (ymd : YMD) : Prop :=
  (∀ i ∈ items fmt, Readable i) ∧
  parseDate get0 fmt ⟨text, false, false⟩ = .ok (⟨[], false, false⟩, some ymd) ∧
  ¬ ∃ x : Claim, x.Exact ∧ Split (Agrees 1 0 x) (items fmt) text [] ∧ x.d = ⟨ymd.y.toInt, ymd.m.toNat, ymd.d.toNat⟩

/-- The general statement fails.  Accepted are: a day that the year does not have (`2021 366` is taken for the first of January 2021), a
week that the year does not have, a century that is not that of the year, an ISO week that is not that of the date; and a month
that is zero, if another month is given. -/
theorem c93_violated :
    Misread "%Y %j".toList "2021 366".toList ⟨2021, 1, 1⟩ ∧ Misread "%Y %j".toList "2021 000".toList ⟨2021, 12, 31⟩ ∧
    Misread "%u %G %V".toList "1 2021 53".toList ⟨2022, 1, 3⟩ ∧ Misread "%F %C".toList "2023-01-01 19".toList ⟨2023, 1, 1⟩ ∧
    Misread "%Y %U %w %V".toList "2023 10 3 40".toList ⟨2023, 3, 8⟩ ∧
    parseDate get0 "%F %m".toList ⟨"2023-00-05 07".toList, false, false⟩ = .ok (⟨[], false, false⟩, some ⟨2023, 7, 5⟩) := by
  refine ⟨⟨by decide, by decide +kernel, ?_⟩, ⟨by decide, by decide +kernel, ?_⟩, ⟨by decide, by decide +kernel, ?_⟩,
    ⟨by decide, by decide +kernel, ?_⟩, ⟨by decide, by decide +kernel, ?_⟩, by decide +kernel⟩
  · rintro ⟨x, ⟨h1, -, h3⟩, h4, h5⟩
    obtain ⟨p, a, hp, ha⟩ := split_last [.conv none 'Y', .lit ' '] _ h4
    have e := dayInYear_eq h3
    have e' := (Calc.dayOf_iff.mp h1).2
    rw [h5] at e e'
    have : x.j = 1 := by
      have a1 : Calc.dayNum (⟨2021, 1, 1⟩ : YMD).y.toInt (⟨2021, 1, 1⟩ : YMD).m.toNat (⟨2021, 1, 1⟩ : YMD).d.toNat = 18628 := by decide +kernel
      have a2 : Calc.dayNum (⟨2021, 1, 1⟩ : YMD).y.toInt 1 1 = 18628 := by decide +kernel
      simp only at e e' a1 a2
      omega
    change Num 3 x.j a at ha
    rw [this] at ha
    exact no_num hp (by decide +kernel) ha
  · rintro ⟨x, ⟨h1, -, h3⟩, h4, h5⟩
    obtain ⟨p, a, hp, ha⟩ := split_last [.conv none 'Y', .lit ' '] _ h4
    have e := dayInYear_eq h3
    have e' := (Calc.dayOf_iff.mp h1).2
    rw [h5] at e e'
    have : x.j = 365 := by
      have a1 : Calc.dayNum (⟨2021, 12, 31⟩ : YMD).y.toInt (⟨2021, 12, 31⟩ : YMD).m.toNat (⟨2021, 12, 31⟩ : YMD).d.toNat = 18992 := by decide +kernel
      have a2 : Calc.dayNum (⟨2021, 12, 31⟩ : YMD).y.toInt 1 1 = 18628 := by decide +kernel
      simp only at e e' a1 a2
      omega
    change Num 3 x.j a at ha
    rw [this] at ha
    exact no_num hp (by decide +kernel) ha
  · rintro ⟨x, ⟨h1, h3, -⟩, h4, h5⟩
    obtain ⟨p, a, hp, ha⟩ := split_last [.conv none 'u', .lit ' ', .conv none 'G', .lit ' '] _ h4
    have : x.k = 1 := by
      refine (iso_of h1 h3 (g' := 2022) (k' := 1) ?_).2
      rw [h5]
      have a1 : Calc.dayNum (⟨2022, 1, 3⟩ : YMD).y.toInt (⟨2022, 1, 3⟩ : YMD).m.toNat (⟨2022, 1, 3⟩ : YMD).d.toNat = 18995 := by decide +kernel
      simp only at a1 ⊢
      rw [a1]
      exact ⟨18998, 18993, 1, 6, by decide, by decide, by decide, Calc.dayOf_iff.mpr ⟨by decide, by decide⟩,
        Calc.dayOf_iff.mpr ⟨by decide, by decide⟩, by decide⟩
    change Num 2 x.k a at ha
    rw [this] at ha
    exact no_num hp (by decide +kernel) ha
  · rintro ⟨x, -, h4, h5⟩
    obtain ⟨p, a, hp, t, k, hk, hv⟩ := split_last [.conv none 'F', .lit ' '] _ h4
    have hy : x.d.year / 100 = 20 := by rw [h5]; decide
    rw [hy] at hv
    have : k = 20 ∧ ∃ p', "2023-01-01 19".toList = p' ++ t := by
      rcases hv with ⟨e, rfl | rfl⟩ | ⟨e, rfl⟩
      · exact ⟨by omega, p, hp⟩
      · exact ⟨by omega, p ++ ['+'], by rw [hp]; simp⟩
      · omega
    obtain ⟨rfl, p', hp'⟩ := this
    exact no_num hp' (by decide +kernel) hk
  · rintro ⟨x, ⟨h1, h3, -⟩, h4, h5⟩
    obtain ⟨p, a, hp, ha⟩ := split_last [.conv none 'Y', .lit ' ', .conv none 'U', .lit ' ', .conv none 'w', .lit ' '] _ h4
    have : x.k = 10 := by
      refine (iso_of h1 h3 (g' := 2023) (k' := 10) ?_).2
      rw [h5]
      have a1 : Calc.dayNum (⟨2023, 3, 8⟩ : YMD).y.toInt (⟨2023, 3, 8⟩ : YMD).m.toNat (⟨2023, 3, 8⟩ : YMD).d.toNat = 19424 := by decide +kernel
      simp only at a1 ⊢
      rw [a1]
      exact ⟨19425, 19358, 3, 9, by decide, by decide, by decide, Calc.dayOf_iff.mpr ⟨by decide, by decide⟩,
        Calc.dayOf_iff.mpr ⟨by decide, by decide⟩, by decide +kernel⟩
    change Num 2 x.k a at ha
    rw [this] at ha
    exact no_num hp (by decide +kernel) ha

/-! ### Examples -/

/-- A wrong weekday is noticed. -/
example : ∃ is, parseDate get0 "%F %u".toList ⟨"2023-01-01 6".toList, false, false⟩ = .ok (is, none) := ⟨_, rfl⟩

/-- Half a second. -/
example : ∃ x : Claim, Split (Agrees 1000 3 x) (items "%F %T".toList) "2023-01-01 12:34:56.5".toList [] ∧ x.d = ⟨2023, 1, 1⟩ ∧
    (x.h : Int) * 3600000 + x.m * 60000 + x.s = 45296500 := by
  have hp : parseSys 1 1000 get0 "%F %T".toList 0 ⟨"2023-01-01 12:34:56.5".toList, false, false⟩ =
      .ok (⟨[], true, false⟩, some (1672576496500, ⟨⟨⟨2023, 1, 1⟩, 0, ⟨12, 34, 56, 500, false⟩, true⟩, [], none⟩)) := by decide +kernel
  obtain ⟨x, h1, -, h3, h4, h5, h6, h7, -, h8⟩ := c93_sys_time_partial 1 1000 (by omega) (by norm_num) (by decide) get0 0 _ _ _ _ _
    (by decide) ⟨by decide, by decide⟩ hp
  have w : fractionalWidth 1000 = 3 := by decide +kernel
  rw [w] at h3
  have hn : x.n * 86400000 + x.h * 3600000 + x.m * 60000 + x.s = 1672576496500 := by
    have := h8.1
    rw [if_neg (by decide)] at this
    push_cast at this
    omega
  have : x.n = 19358 := by omega
  refine ⟨x, h3, ?_, by omega⟩
  have h1 := h1.1
  rw [this] at h1
  exact Calc.dayOf_eq h1 |>.trans (by decide +kernel)

end Gul14.Date
