import Verif.Date.ParseSoundProps

/-! # Parsing ends without undefined behaviour -/
namespace Gul14.Date
open Gul14.Spec.Calendar Gul14.Spec.DateText Gul14.Spec.DateFormat Gul14.Spec.DateParse
open Gul14.Ieee

/-- A result or an exception. -/
def Calm {α : Type} (r : Res α) : Prop := (∃ a, r = .ok a) ∨ ∃ x, r = .throw x

theorem Calm.pure {α : Type} (a : α) : Calm (.ok a) := Or.inl ⟨a, rfl⟩
theorem Calm.broken {α : Type} : Calm (broken : Res α) := Or.inr ⟨_, rfl⟩

theorem Calm.bind {α β : Type} {x : Res α} {f : α → Res β} (h : Calm x) (hf : ∀ a, x = .ok a → Calm (f a)) : Calm (x.bind f) := by
  rcases h with ⟨a, rfl⟩ | ⟨e, rfl⟩
  · exact hf a rfl
  · exact Or.inr ⟨e, rfl⟩

theorem int_calm {x : Int} (h1 : -2147483648 ≤ x) (h2 : x ≤ 2147483647) : Calm (int x) := by
  rw [int_ok h1 h2]; exact Calm.pure _

/-! ### The year -/

theorem fullYear_calm {y Y C : Int} (hY : Y = -32768 ∨ (-9999 ≤ Y ∧ Y ≤ 9999))
    (hC : C = -327 ∨ (-99 ≤ C ∧ C ≤ 99)) : Calm (fullYear y Y C) := by
  unfold fullYear
  split
  · exact Calm.pure _
  · split
    · exact Calm.broken
    · rename_i h1
      simp only [Bool.not_eq_true', Bool.not_eq_false, Bool.and_eq_true, decide_eq_true_eq] at h1
      refine Calm.bind ?_ fun c hc => Calm.bind ?_ fun t _ => ?_
      · unfold century
        split
        · exact Calm.pure _
        · split
          · exact Calm.pure _
          · split
            · exact Calm.pure _
            · exact Calm.bind (int_calm (by omega) (by omega)) fun _ _ => Calm.pure _
      · have hcr : -101 ≤ c ∧ c ≤ 100 := by
          unfold century at hc
          split at hc
          · cases hc; omega
          · split at hc
            · simp only [Res.pure_eq, Res.ok.injEq] at hc; subst hc; split <;> omega
            · by_cases h0 : Y ≥ 0
              · simp only [if_pos h0, Res.pure_eq, Res.ok_bind, Res.ok.injEq] at hc
                rw [Int.tdiv_eq_ediv_of_nonneg h0] at hc
                omega
              · simp only [if_neg h0] at hc
                rw [int_ok (by omega) (by omega)] at hc
                simp only [Res.pure_eq, Res.ok_bind, Res.ok.injEq] at hc
                rw [show Y - 100 = -(100 - Y) by omega, Int.neg_tdiv, Int.tdiv_eq_ediv_of_nonneg (by omega)] at hc
                omega
        unfold yearIn
        split
        · rw [int_ok (by omega) (by omega)]
          simp only [Res.ok_bind]
          exact int_calm (by omega) (by omega)
        · rw [int_ok (by omega) (by omega)]
          simp only [Res.ok_bind]
          split
          · exact int_calm (by omega) (by omega)
          · exact int_calm (by omega) (by omega)
      · split
        · exact Calm.broken
        · exact Calm.pure _

/-! ### The date -/

theorem useMD_calm (v : PVars) (t : YMD) : Calm (useTrialMD v t) := by
  unfold useTrialMD
  refine Calm.bind ?_ fun _ _ => ?_
  · unfold useMonth
    split
    · exact Calm.pure _
    · split
      · exact Calm.broken
      · exact Calm.pure _
  · unfold useDay
    split
    · exact Calm.pure _
    · split
      · exact Calm.broken
      · exact Calm.pure _

theorem useTrial_calm (v : PVars) (t : YMD) : Calm (useTrial v t) := by
  unfold useTrial
  refine Calm.bind ?_ fun _ _ => useMD_calm _ _
  unfold useYear
  split
  · exact Calm.pure _
  · split
    · exact Calm.broken
    · exact Calm.pure _

theorem dayInWeek_val {st k wd : Int} {first : UInt8} (hf : first.toNat < 7) (h1 : -4500000 ≤ st) (h2 : st ≤ 3100000)
    (h3 : 0 ≤ k) (h4 : k ≤ 100) (h5 : 0 ≤ wd) (h6 : wd ≤ 6) :
    dayInWeek st k wd first = .ok (st + 7 * (k - 1) + (wd - first.toNat) % 7) := by
  unfold dayInWeek
  rw [int_ok (by omega) (by omega)]
  simp only [Res.ok_bind]
  rw [int_ok (by omega) (by omega)]
  simp only [Res.ok_bind]
  rw [int_ok (by omega) (by omega)]
  simp only [Res.ok_bind]
  have e : uns wd = wd := by unfold uns; omega
  rw [e, weekdayMinus_eq, weekdayOf_toNat (by omega) (by omega), Int.toNat_of_nonneg h5, int_ok (by omega) (by omega)]

theorem fromDays_calm {n : Int} (h1 : -4700000 ≤ n) (h2 : n ≤ 3200000) : Calm (fromDays n) := by
  obtain ⟨t, h, -⟩ := fromDays_dateOf h1 h2
  rw [h]; exact Calm.pure _

theorem fromIsoWeek_calm {v : PVars} (hv : Sane v) (hu : usesIso v = true) : Calm (fromIsoWeek v) := by
  simp only [usesIso, Bool.and_eq_true, decide_eq_true_eq] at hu
  have hG := hv.G.resolve_left hu.1.1
  have hw := hv.wd.resolve_left hu.2
  have hV := hv.V
  have ey : (year v.G).toInt = v.G := year_toInt (by omega) (by omega)
  obtain ⟨st, s1, s2, s3, s4⟩ := isoStart_eq (year v.G) (by omega)
  rw [ey] at s3 s4
  unfold isoStart at s1
  rw [yearPlus_toInt (by omega) (by omega), ey] at s1
  have hny : -4371700 ≤ Calc.dayNum v.G 1 1 ∧ Calc.dayNum v.G 1 1 ≤ 2932900 := by
    simp only [Calc.dayNum, Calc.fy, Calc.marchYear, Calc.marchMonth]
    omega
  unfold fromIsoWeek
  rw [int_ok (by omega) (by omega)]
  simp only [Res.ok_bind] at s1 ⊢
  rw [show v.G - 1 = v.G + -1 by omega]
  obtain ⟨a, h1, s1⟩ := bind_ok s1
  rw [h1]
  simp only [Res.ok_bind]
  rw [s1]
  simp only [Res.ok_bind]
  rw [dayInWeek_val (by decide) (by omega) (by omega) hV.1 hV.2 hw.1 hw.2]
  simp only [Res.ok_bind]
  rw [show (1 : UInt8).toNat = 1 from rfl]
  exact Calm.bind (fromDays_calm (by omega) (by omega)) fun _ _ => useTrial_calm _ _

theorem fromWeek_calm {v : PVars} {k : Int} {first : UInt8} (hf : first.toNat < 7) (hv : Sane v) (hY : v.Y ≠ -32768) (hw : v.wd ≠ 8)
    (h3 : 0 ≤ k) (h4 : k ≤ 100) : Calm (fromWeek v k first) := by
  have hY' := hv.Y'.resolve_left hY
  have hw := hv.wd.resolve_left hw
  have hny := newYear_range hY'.1 hY'.2
  unfold fromWeek
  rw [firstWeekday_year (by omega) (by omega) first hf]
  simp only [Res.ok_bind]
  rw [dayInWeek_val hf (by omega) (by omega) h3 h4 hw.1 hw.2]
  simp only [Res.ok_bind]
  exact Calm.bind (fromDays_calm (by omega) (by omega)) fun _ _ => useTrial_calm _ _

theorem fromYearDay_calm {v : PVars} (hv : Sane v) (hu : usesJ v = true) : Calm (fromYearDay v) := by
  simp only [usesJ, Bool.and_eq_true, decide_eq_true_eq] at hu
  have hY' := hv.Y'.resolve_left hu.2
  have hny := newYear_range hY'.1 hY'.2
  have hj := hv.j
  have hjan : (YMD.mk (year v.Y) 1 1).toDays = .ok (Calc.dayNum v.Y 1 1) := by
    rw [toDays_eq, year_toInt (by omega) (by omega)]; rfl
  unfold fromYearDay
  rw [hjan]
  simp only [Res.ok_bind]
  rw [int_ok (by omega) (by omega)]
  simp only [Res.ok_bind]
  rw [int_ok (by omega) (by omega)]
  simp only [Res.ok_bind]
  refine Calm.bind (fromDays_calm (by omega) (by omega)) fun _ _ => Calm.bind (useMD_calm _ _) fun _ _ => Calm.pure _

theorem whenUsed_calm {b : Bool} {a : Res PVars} {v : PVars} (h : b = true → Calm a) : Calm (whenUsed b a v) := by
  cases b
  · exact Calm.pure _
  · exact h rfl

theorem weeks_calm {v : PVars} (hv : Sane v) : Calm (weeks v) := by
  unfold weeks
  refine Calm.bind (whenUsed_calm (fromIsoWeek_calm hv)) fun v1 h1 => ?_
  obtain ⟨s1, -⟩ := stepIso hv h1
  refine Calm.bind (whenUsed_calm fun hu => ?_) fun v2 h2 => ?_
  · simp only [usesU, Bool.and_eq_true, decide_eq_true_eq] at hu
    exact fromWeek_calm (by decide) s1 hu.1.1 hu.2 s1.U.1 s1.U.2
  obtain ⟨s2, -⟩ := stepWeek (by decide) s1 s1.U.1 s1.U.2 rfl h2
  refine Calm.bind (whenUsed_calm fun hu => ?_) fun v3 h3 => ?_
  · simp only [usesW, Bool.and_eq_true, decide_eq_true_eq] at hu
    exact fromWeek_calm (by decide) s2 hu.1.1 hu.2 s2.W.1 s2.W.2
  obtain ⟨s3, -⟩ := stepWeek (by decide) s2 s2.W.1 s2.W.2 rfl h3
  exact Calm.bind (whenUsed_calm (fromYearDay_calm s3)) fun _ _ => Calm.pure _

section
variable {e : FmtEnv} {n : Int} {d : Date} (H : HasDate e.fds n d) {v : PVars}
include H

theorem checkIso_calm : Calm (checkIso v n) := by
  unfold checkIso
  split
  · exact Calm.pure _
  · obtain ⟨y0, st, h1, h2, h3, hlo, hhi⟩ := iso_calc H
    have := H.nlo
    have := H.nhi
    rw [int_ok (by omega) (by omega)]
    simp only [Res.ok_bind, h1, h2]
    rcases h3 with ⟨a, b, c⟩ | ⟨a, g0, st', g1, g2, g3, g4⟩
    · rw [if_neg (by omega)]
      simp only [Res.ok_bind, Res.pure_eq]
      split
      · exact Calm.broken
      · split
        · rw [int_ok (by omega) (by omega)]
          simp only [Res.ok_bind]
          split
          · exact Calm.broken
          · exact Calm.pure _
        · exact Calm.pure _
    · rw [if_pos a, yearPlus_toInt (by omega) (by omega)]
      rw [show y0.y.toInt + -1 = y0.y.toInt - 1 by omega]
      simp only [Res.ok_bind, g1, Res.pure_eq]
      by_cases hV : v.V = 100
      · simp only [hV, ne_eq, not_true_eq_false, if_false, Res.ok_bind]
        split
        · exact Calm.broken
        · exact Calm.pure _
      · simp only [ne_eq, hV, not_false_eq_true, if_true, Res.ok_bind]
        split
        · exact Calm.broken
        · rw [int_ok (by omega) (by omega)]
          simp only [Res.ok_bind]
          split
          · exact Calm.broken
          · exact Calm.pure _

end

theorem checkWeek_calm {f : Fields} {n : Int} {d : Date} (H : HasDate f n d) (k : Int) (wd : UInt8) (hw : wd.toNat < 7) :
    Calm (checkWeek k f.ymd.y wd n) := by
  obtain ⟨c1, c2, c3, c4, c5⟩ := week_calc H wd hw
  unfold checkWeek
  split
  · exact Calm.pure _
  · rw [firstWeekday_eq H wd hw]
    simp only [Res.ok_bind]
    rw [int_ok (by omega) (by omega)]
    simp only [Res.ok_bind]
    split
    · exact Calm.broken
    · exact Calm.pure _

theorem theDate_calm {v : PVars} {b : Bool} (hY : v.Y = -32768 ∨ (-10005 ≤ v.Y ∧ v.Y ≤ 10005)) : Calm (theDate v b) := by
  rw [theDate_eq]
  split
  · rename_i hok
    generalize hymd : (⟨year v.Y, asUchar (uns v.m), asUchar (uns v.d)⟩ : YMD) = ymd at *
    have hval := (c72_ok ymd).mp hok
    obtain ⟨⟨h1, h2, h3, h4⟩, h5⟩ := hval
    have eY : v.Y = ymd.date.year := by
      have : (year v.Y).toInt = v.Y := year_toInt (by omega) (by omega)
      rw [← this]; rw [← hymd]; rfl
    have hYne : v.Y ≠ -32768 := by rw [eY]; exact h5
    obtain ⟨n, hn, hdn⟩ := c71_to_days ymd ⟨h1, h2, h3, h4⟩
    have hYr := hY.resolve_left hYne
    have H : HasDate { ymd := ymd } n ymd.date := hasDate hok rfl hdn (by omega) (by omega) rfl
    rw [hn]
    simp only [Res.bind]
    split
    · exact Calm.broken
    · refine Calm.bind ?_ fun _ _ => Calm.pure _
      split
      · exact Calm.pure _
      · unfold checkWeeks
        rw [hn]
        simp only [Res.ok_bind]
        exact Calm.bind (checkIso_calm (e := ⟨0, ⟨fun _ _ _ => []⟩, { ymd := ymd }, none, none⟩) H) fun _ _ =>
          Calm.bind (checkWeek_calm H _ 0 (by decide)) fun _ _ => checkWeek_calm H _ 1 (by decide)
  · exact Calm.pure _

theorem combine_calm {e : PEnv} {v : PVars} {fds : Fields} (hv : Bounded v) : Calm (combine e v fds) := by
  obtain ⟨hb, hg, hI, hp, -⟩ := hv
  have bY := hb .Y; have by' := hb .y; have bC := hb .C; have bm := hb .m; have bd := hb .d; have bj := hb .j
  have bwd := hb .wd; have bG := hb .G; have bV := hb .V; have bU := hb .U; have bW := hb .W
  simp only [get, unset, InRange] at bY by' bC bm bd bj bwd bG bV bU bW
  unfold combine
  refine Calm.bind (fullYear_calm bY bC) fun ⟨Y, C⟩ h1 => ?_
  have hfy := fullYear_inv by' bY bC h1
  have hYr : Y = -32768 ∨ (-9999 ≤ Y ∧ Y ≤ 9999) := by
    rcases hfy with ⟨-, rfl⟩ | h
    · exact bY
    · exact Or.inr ⟨h.2.1, h.2.2.1⟩
  have hcl : (if Y < -32767 ∨ Y > 32767 then -32768 else Y) = Y := by split <;> omega
  simp only [hcl]
  have f2 : fullYear v.g v.G C = .ok (v.G, C) := by rw [hg]; rfl
  rw [f2]
  simp only [Res.ok_bind]
  have hs : Sane { v with Y := Y, G := v.G } :=
    ⟨by simp only; omega, by simp only; omega, by simp only; omega, by simp only; omega, by simp only; omega, by simp only; omega,
      by simp only; omega, by simp only; omega, by simp only; omega, by simp only; omega⟩
  refine Calm.bind (weeks_calm hs) fun ⟨v', b⟩ h3 => ?_
  obtain ⟨k, k1, k2, k3, k4⟩ := weeks_inv hs h3
  refine Calm.bind (theDate_calm ?_) fun ⟨ymd, wd⟩ _ => Calm.bind ?_ fun _ _ => Calm.pure _
  · by_cases hh : v'.Y = -32768
    · exact Or.inl hh
    · exact Or.inr (k3 hh).1
  · obtain ⟨-, -, -, Y0, m0, d0, j0, hv'⟩ := k
    have : v'.I = 0 := by rw [hv']; exact hI
    unfold theHour
    rw [this]
    exact Calm.pure _

/-! ### Numbers -/

theorem readSigned_total (is : IStream) (m : Nat) {M : Nat} (h1 : 1 ≤ M) (h9 : M ≤ 9) : ∃ p, readSigned is m M = .ok p := by
  unfold readSigned
  rcases hpk : is.peek with ⟨_ | c, i0⟩ <;> simp only
  · exact ⟨_, rfl⟩
  · split
    · generalize (if (decide (c = '-') || decide (c = '+')) = true then i0.get.2 else i0) = i1
      rcases hu : readUnsigned i1 (max m 1) M with ⟨x, i2⟩
      simp only
      rcases hf : i2.fail with _ | _
      · simp only [Bool.false_eq_true, if_false]
        obtain ⟨s, -, hn, -⟩ := readUnsigned_sound h1 h9 (by omega) hu hf
        have hlt := num_lt hn
        have hp : 10 ^ M ≤ 10 ^ 9 := Nat.pow_le_pow_right (by omega) h9
        have hai : asInt (x : Int) = x := by unfold asInt; rw [if_pos (by omega)]
        rw [hai]
        split
        · rw [int_ok (by omega) (by omega)]
          exact ⟨_, rfl⟩
        · exact ⟨_, rfl⟩
      · exact ⟨_, rfl⟩
    · exact ⟨_, rfl⟩

theorem readSeq_total (as : List RArg) : ∀ (is : IStream), (∀ a ∈ as, RArg.Small a) → ∃ r, readSeq as is = .ok r := by
  induction as with
  | nil => intro is _; exact ⟨_, rfl⟩
  | cons a as ih =>
    intro is ha
    have haa := ha a List.mem_cons_self
    have hr := fun x hx => ha x (List.mem_cons_of_mem _ hx)
    cases a with
    | ch c =>
      unfold readSeq
      simp only
      split
      · exact ⟨_, rfl⟩
      · exact ih _ hr
    | rs m M =>
      unfold readSeq
      obtain ⟨p, hp⟩ := readSigned_total is m haa.2.1 haa.2.2
      rw [hp]
      simp only [Res.ok_bind]
      split
      · exact ⟨_, rfl⟩
      · obtain ⟨q, hq⟩ := ih p.2 hr
        rw [hq]
        exact ⟨_, rfl⟩
    | ru m M =>
      unfold readSeq
      simp only
      split
      · exact ⟨_, rfl⟩
      · obtain ⟨q, hq⟩ := ih (readUnsigned is m M).2 hr
        rw [hq]
        exact ⟨_, rfl⟩
    | rld m M =>
      unfold readSeq
      simp only
      split
      · exact ⟨_, rfl⟩
      · obtain ⟨q, hq⟩ := ih (readLongDouble is m M).2 hr
        rw [hq]
        exact ⟨_, rfl⟩

end Gul14.Date
