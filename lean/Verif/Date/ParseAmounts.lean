import Verif.Date.ParseTotal

/-! # The amounts of time that parse computes with -/
namespace Gul14.Date
open Gul14.Spec.Calendar Gul14.Spec.DateText Gul14.Spec.DateFormat Gul14.Spec.DateParse
open Gul14.Ieee

theorem split_piece {P : Option Char → Char → List Char → Prop} {md : Option Char} {c : Char} (its : List Item) : ∀ t r, Split P its t r →
    Item.conv md c ∈ its → ∃ p a q, t = p ++ (a ++ q) ∧ P md c a := by
  induction its with
  | nil => intro t r _ h; cases h
  | cons i its ih =>
    intro t r h hm
    cases i with
    | lit x =>
      obtain ⟨a, b, rfl, -, h3⟩ := h
      rcases List.mem_cons.mp hm with h | h
      · cases h
      · obtain ⟨p, a', q, rfl, h⟩ := ih _ _ h3 h
        exact ⟨a ++ p, a', q, by simp, h⟩
    | conv m x =>
      obtain ⟨a, b, rfl, h2, h3⟩ := h
      rcases List.mem_cons.mp hm with h | h
      · cases h; exact ⟨[], a, b, rfl, h2⟩
      · obtain ⟨p, a', q, rfl, h⟩ := ih _ _ h3 h
        exact ⟨a ++ p, a', q, by simp, h⟩

/-- The number of ticks that was read. -/
theorem ticks_bounded {T : Nat} (hT : T ∣ 10 ^ 16) {v : PVars} {its : List Item} {text rest : List Char} (hs : Split (AgreeV T v) its text rest)
    (hst : Step (letters its) {} v) (hsafe : Safe (letters its) (fractionalWidth T) text) (hv : v.s ≠ -9223372036854775808) :
    0 ≤ v.s ∧ v.s ≤ (T * 10 ^ (18 - fractionalWidth T) : Nat) + 1 := by
  obtain ⟨-, c, hc, hf⟩ := hst.of_set .s hv
  obtain ⟨md, hm⟩ := letters_mem hc
  obtain ⟨p, a, q, rfl, ha⟩ := split_piece _ _ _ hs hm
  rcases fieldsOf_s hf with rfl | rfl
  · obtain ⟨S, s, h1, h2, h3⟩ := ha
    obtain ⟨s', g1, g2, g3⟩ := ticks_fit hT (hsafe.1 (Or.inl hc)) h1 rfl
    rw [h2] at g1; cases g1
    rw [show v.s = s from h3.eq (by simp only [unset]; omega)]
    exact ⟨g2, g3⟩
  · obtain ⟨h, m, S, s, h1, h2, -, -, h3⟩ := ha
    obtain ⟨_, _, y, z, r, -, -, rfl, -, -, h1⟩ := seqT h1
    have hh := hsafe.1 (Or.inr hc)
    rw [show p ++ ((y ++ ':' :: (z ++ ':' :: r)) ++ q) = (p ++ (y ++ ':' :: (z ++ [':']))) ++ (r ++ q) by simp] at hh
    obtain ⟨s', g1, g2, g3⟩ := ticks_fit hT hh h1 rfl
    rw [h2] at g1; cases g1
    rw [show v.s = s from h3.eq (by simp only [unset]; omega)]
    exact ⟨g2, g3⟩

theorem weeks_j {v v' : PVars} {b : Bool} (hv : Sane v) (h : weeks v = .ok (v', b)) : v'.j = v.j ∨ v'.j = -1 := by
  unfold weeks at h
  obtain ⟨v1, h1, h⟩ := bind_ok h
  obtain ⟨v2, h2, h⟩ := bind_ok h
  obtain ⟨v3, h3, h⟩ := bind_ok h
  obtain ⟨v4, h4, h⟩ := bind_ok h
  simp only [Res.pure_eq, Res.ok.injEq, Prod.mk.injEq] at h
  obtain ⟨rfl, rfl⟩ := h
  obtain ⟨s1, k1, j1, c1⟩ := stepIso hv h1
  obtain ⟨s2, k2, j2, c2⟩ := stepWeek (by decide) s1 s1.U.1 s1.U.2 rfl h2
  obtain ⟨s3, k3, j3, c3⟩ := stepWeek (by decide) s2 s2.W.1 s2.W.2 rfl h3
  rcases hu : usesJ v3 with _ | _ <;> rw [hu] at h4
  · cases h4; left; omega
  · simp only [whenUsed, if_true] at h4
    obtain ⟨n, e1, rfl, e3, e4⟩ := fromYearDay_inv s3 hu h4
    exact Or.inr rfl

theorem combine_parts {e : PEnv} {v : PVars} {fds : Fields} {r : Parsed} (hv : Bounded v) (h : combine e v fds = .ok r) :
    (∃ j, (j = v.j ∨ j = -1) ∧ (r.fds.tod, r.fds.hasTod) = theTime e.T { v with j := j } v.H fds.tod fds.hasTod) ∧
      (r.fds.ymd.ok = true → -10005 ≤ r.fds.ymd.y.toInt ∧ r.fds.ymd.y.toInt ≤ 10005) ∧
      r.offset = if v.offset ≠ -9223372036854775808 then some v.offset else none := by
  obtain ⟨hb, hg, hI, hp, -⟩ := hv
  have bY := hb .Y; have by' := hb .y; have bC := hb .C; have bm := hb .m; have bd := hb .d; have bj := hb .j
  have bwd := hb .wd; have bG := hb .G; have bV := hb .V; have bU := hb .U; have bW := hb .W
  simp only [get, unset, InRange] at bY by' bC bm bd bj bwd bG bV bU bW
  unfold combine at h
  obtain ⟨⟨Y, C⟩, h1, h⟩ := bind_ok h
  obtain ⟨⟨G, C'⟩, h2, h⟩ := bind_ok h
  rw [hg] at h2
  simp only [fullYear, if_true, Res.pure_eq, Res.ok.injEq, Prod.mk.injEq] at h2
  obtain ⟨rfl, -⟩ := h2
  have hfy := fullYear_inv by' bY bC h1
  have hYr : Y = -32768 ∨ (-9999 ≤ Y ∧ Y ≤ 9999) := by
    rcases hfy with ⟨-, rfl⟩ | h
    · exact bY
    · exact Or.inr ⟨h.2.1, h.2.2.1⟩
  have hcl : (if Y < -32767 ∨ Y > 32767 then -32768 else Y) = Y := by split <;> omega
  simp only [hcl] at h
  obtain ⟨⟨v', b⟩, h3, h⟩ := bind_ok h
  obtain ⟨⟨ymd, wd⟩, h4, h⟩ := bind_ok h
  obtain ⟨H, h5, h⟩ := bind_ok h
  simp only [Res.pure_eq, Res.ok.injEq] at h
  subst h
  have hs : Sane { v with Y := Y, G := v.G } :=
    ⟨by simp only; omega, by simp only; omega, by simp only; omega, by simp only; omega, by simp only; omega, by simp only; omega,
      by simp only; omega, by simp only; omega, by simp only; omega, by simp only; omega⟩
  obtain ⟨k, k1, k2, k3, k4⟩ := weeks_inv hs h3
  have hj := weeks_j hs h3
  have hY' : v'.Y = -32768 ∨ (-10005 ≤ v'.Y ∧ v'.Y ≤ 10005) := by
    by_cases hh : v'.Y = -32768
    · exact Or.inl hh
    · exact Or.inr (k3 hh).1
  obtain ⟨-, -, -, Y0, m0, d0, j0, hv'⟩ := k
  have eM : v'.M = v.M ∧ v'.s = v.s ∧ v'.offset = v.offset ∧ v'.H = v.H ∧ v'.I = v.I := by subst hv'; exact ⟨rfl, rfl, rfl, rfl, rfl⟩
  have eH : H = v.H := by
    unfold theHour at h5
    rw [eM.2.2.2.2, hI, eM.2.2.2.1] at h5
    cases h5; rfl
  subst eH
  refine ⟨⟨v'.j, hj, ?_⟩, fun hok => ?_, by rw [eM.2.2.1]⟩
  · simp only [theTime, eM.1, eM.2.1]
  · obtain ⟨n, d1, d2, d3, d4, d5, d6, -⟩ := theDate_inv hY' k1 k2 hok h4
    have := hY'.resolve_left d6
    simp only
    change v'.Y = ymd.y.toInt at d3
    omega

/-- The parts of the result. -/
theorem fromStream_parts {T : Nat} {get : TimeGet} (hT : T ∣ 10 ^ 16) {fmt text : List Char} {has : Bool} {is : IStream} {r : Parsed}
    (hr : ∀ i ∈ items fmt, Readable i) (hsafe : Safe (letters (items fmt)) (fractionalWidth T) text)
    (h : fromStream ⟨T, get⟩ ⟨text, false, false⟩ fmt { hasTod := has } = .ok (is, some r)) :
    (∃ h m s : Int, r.fds.tod = ⟨h, m, s / T, s % T * 10 ^ fractionalWidth T / T, false⟩ ∧ 0 ≤ h ∧ h ≤ 24075 ∧ 0 ≤ m ∧ m ≤ 99 ∧ 0 ≤ s ∧
      s ≤ (T * 10 ^ (18 - fractionalWidth T) : Nat) + 1) ∧
    (r.fds.ymd.ok = true → -10005 ≤ r.fds.ymd.y.toInt ∧ r.fds.ymd.y.toInt ≤ 10005) ∧
    (∀ o, r.offset = some o → -6039 ≤ o ∧ o ≤ 6039) := by
  obtain ⟨hw, hw'⟩ := fractionalWidth_le hT
  have hT0 := pos_of_dvd hT
  obtain ⟨v, hs, hst, hcm⟩ := fromStream_sound (e := ⟨T, get⟩) hw hr h
  obtain ⟨⟨j, hj, ht⟩, hy, ho⟩ := combine_parts hst.bounded hcm
  have sH := hst.of_set .H; have sM := hst.of_set .M; have sj := hst.of_set .j; have so := hst.of_set .off
  simp only [Date.get, unset, InRange] at sH sM sj so
  have hs0 : v.s = -9223372036854775808 ∨ (0 ≤ v.s ∧ v.s ≤ (T * 10 ^ (18 - fractionalWidth T) : Nat) + 1) := by
    by_cases hh : v.s = -9223372036854775808
    · exact Or.inl hh
    · exact Or.inr (ticks_bounded hT hs hst hsafe hh)
  have hH : v.H = -2147483648 ∨ (0 ≤ v.H ∧ v.H ≤ 99) := by
    by_cases hh : v.H = -2147483648
    · exact Or.inl hh
    · exact Or.inr (sH hh).1
  have hM : v.M = -2147483648 ∨ (0 ≤ v.M ∧ v.M ≤ 99) := by
    by_cases hh : v.M = -2147483648
    · exact Or.inl hh
    · exact Or.inr (sM hh).1
  have hj' : -1 ≤ j ∧ j ≤ 999 := by
    by_cases hh : v.j = -1
    · omega
    · have := (sj hh).1; omega
  refine ⟨?_, hy, ?_⟩
  · have htime := theTime_of hT0 { v with j := -1 } rfl (by simp only; omega) (by simp only; omega) (by simp only; omega) has rfl rfl rfl
    rw [theTime_days] at ht
    simp only at ht htime
    rw [htime] at ht
    refine ⟨(if v.H = -2147483648 then 0 else v.H) + 24 * (if j = -1 then 0 else j), if v.M = -2147483648 then 0 else v.M,
      if v.s = -9223372036854775808 then 0 else v.s, ?_, ?_, ?_, ?_, ?_, ?_, ?_⟩
    · by_cases hj1 : j = -1
      · rw [if_pos hj1] at ht
        have := congrArg Prod.fst ht
        rw [if_pos hj1]
        simpa using this
      · rw [if_neg hj1] at ht
        have := congrArg Prod.fst ht
        rw [if_neg hj1]
        exact this
    all_goals (repeat' split) <;> omega
  · intro o he
    rw [ho] at he
    split at he
    · rename_i hh
      cases he
      exact (so hh).1
    · cases he

end Gul14.Date
