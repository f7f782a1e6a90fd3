import Verif.Date.ParseLemmas

/-! # The loop of parse on the text of a format -/
namespace Gul14.Date
open Gul14.Spec.Calendar Gul14.Spec.DateText Gul14.Spec.DateFormat Gul14.Spec.DateParse

section
variable {e : PEnv} {F : Facts} {a : List Char} {n : Int} {d : Date} {x : Subject}

theorem pstep_conv {st : PState} {c : Char} (h : st.command.isSome) (hc : c ∈ pconvChars) :
    pstep e st c = (do let st ← pconv e st c; pure st.reset) := by
  obtain ⟨cmd, h⟩ := Option.isSome_iff_exists.mp h
  unfold pstep
  simp only [h, hc, if_true]

local macro "num" : tactic => `(tactic| (
  intro st h1 h2 h3
  rw [pstep_conv (by rw [h3]; rfl) (by decide)]
  simp [pconv, h1, PState.max, h2]))

theorem reads_Y (hY : F.Y = d.year) (hb : -9999 ≤ d.year ∧ d.year ≤ 9999) (h : YearText d.year a) :
    Reads e F none 'Y' a := by
  obtain ⟨s, h1, h2⟩ := yearText_exact h (by omega)
  refine reads_rs (M := 4) (nt := -32768) (set := setY) h1 (by omega) (by omega) h2 (by num) fun r L cmd => ?_
  rw [← hY]
  simp [setY, vars, checkedSet_true]

theorem reads_G {g : Int} (hY : F.G = g) (hb : -9999 ≤ g ∧ g ≤ 9999) (h : YearText g a) :
    Reads e F none 'G' a := by
  obtain ⟨s, h1, h2⟩ := yearText_exact h (by omega)
  refine reads_rs (M := 4) (nt := -32768) (set := setG) h1 (by omega) (by omega) h2 (by num) fun r L cmd => ?_
  rw [← hY]
  simp [setG, vars, checkedSet_true]

theorem reads_C {v : Int} (hY : F.C = v) (hb : -99 ≤ v ∧ v ≤ 99) (h : AtLeast 2 v a) :
    Reads e F none 'C' a := by
  obtain ⟨s, h1, h2⟩ := atLeast_exact (by omega) h (by omega)
  refine reads_rs (M := 2) (nt := -327) (set := setC) h1 (by omega) (by omega) h2 (by num) fun r L cmd => ?_
  rw [← hY]
  simp [setC, vars, checkedSet_true]

theorem reads_m {v : Nat} (hY : F.m = v) (h : Digits 2 v a) : Reads e F none 'm' a := by
  refine reads_rs (M := 2) (v := v) (s := a) (nt := 0) (set := setm) (by simpa using h) (by omega) (by omega)
    (by rw [signed, if_neg (by omega)]) (by num) fun r L cmd => ?_
  rw [← hY]
  simp [setm, vars, checkedSet_true]

theorem reads_d {v : Nat} (hY : F.d = v) (h : Digits 2 v a) : Reads e F none 'd' a := by
  refine reads_rs (M := 2) (v := v) (s := a) (nt := 0) (set := setd) (by simpa using h) (by omega) (by omega)
    (by rw [signed, if_neg (by omega)]) (by num) fun r L cmd => ?_
  rw [← hY]
  simp [setd, vars, checkedSet_true]

theorem reads_y {v : Nat} (hY : F.y = v) (h : Digits 2 v a) : Reads e F none 'y' a := by
  refine reads_ru (M := 2) (nt := 100) (set := sety) h (by omega) (by omega) (by num) fun r L cmd => ?_
  rw [← hY]
  simp [sety, vars, checkedSet_true]

theorem reads_j {v : Nat} (hY : F.j = v) (h : Digits 3 v a) : Reads e F none 'j' a := by
  refine reads_ru (M := 3) (nt := -1) (set := setj) h (by omega) (by omega) (by num) fun r L cmd => ?_
  rw [← hY]
  simp [setj, vars, checkedSet_true]

theorem reads_V {v : Nat} (hY : F.V = v) (h : Digits 2 v a) : Reads e F none 'V' a := by
  refine reads_ru (M := 2) (nt := 100) (set := setV) h (by omega) (by omega) (by num) fun r L cmd => ?_
  rw [← hY]
  simp [setV, vars, checkedSet_true]

theorem reads_U {v : Nat} (hY : F.U = v) (h : Digits 2 v a) : Reads e F none 'U' a := by
  refine reads_ru (M := 2) (nt := 100) (set := setU) h (by omega) (by omega) (by num) fun r L cmd => ?_
  rw [← hY]
  simp [setU, vars, checkedSet_true]

theorem reads_W {v : Nat} (hY : F.W = v) (h : Digits 2 v a) : Reads e F none 'W' a := by
  refine reads_ru (M := 2) (nt := 100) (set := setW) h (by omega) (by omega) (by num) fun r L cmd => ?_
  rw [← hY]
  simp [setW, vars, checkedSet_true]

theorem reads_H {v : Nat} (hY : F.H = v) (hv : v < 100) (h : AtLeast 2 (v : Int) a) : Reads e F none 'H' a := by
  refine reads_ru (M := 2) (nt := -2147483648) (set := setH) (atLeast_nat (by omega) h hv) (by omega) (by omega)
    (by num) fun r L cmd => ?_
  rw [← hY]
  simp [setH, vars, checkedSet_true]

theorem reads_M {v : Nat} (hY : F.M = v) (h : Digits 2 v a) : Reads e F none 'M' a := by
  refine reads_ru (M := 2) (nt := -2147483648) (set := setM) h (by omega) (by omega) (by num) fun r L cmd => ?_
  rw [← hY]
  simp [setM, vars, checkedSet_true]

theorem reads_w (hw : F.wd = dayOfWeek n) (h : Digits 1 (dayOfWeek n) a) : Reads e F none 'w' a := by
  refine ⟨starts_digits h (by omega), fun b L => ?_⟩
  have := dow_lt n
  rw [pstep_conv rfl (by decide)]
  simp only [pconv, if_true, PState.max, seq_ru h (Nat.le_refl 1) (by omega) (Nat.le_refl 1), seq_nil, Res.ok_bind, Res.pure_eq,
    List.getD_cons_zero, Bool.false_eq_true, if_false, show ('w' = 'u') = False by decide]
  rw [if_neg (by simp; omega), ← hw]
  simp [setwd, vars, checkedSet_true, PState.reset]

theorem reads_u (hw : F.wd = dayOfWeek n) (h : Digits 1 (if dayOfWeek n = 0 then 7 else dayOfWeek n) a) :
    Reads e F none 'u' a := by
  refine ⟨starts_digits h (by omega), fun b L => ?_⟩
  have := dow_lt n
  rw [pstep_conv rfl (by decide)]
  simp only [pconv, if_true, PState.max, seq_ru h (Nat.le_refl 1) (by omega) (Nat.le_refl 1), seq_nil, Res.ok_bind, Res.pure_eq,
    List.getD_cons_zero, Bool.false_eq_true, if_false]
  rw [if_neg (by split <;> simp <;> omega)]
  rw [show (if (((if dayOfWeek n = 0 then 7 else dayOfWeek n : Nat)) : Int) = 7 then (0 : Int)
      else ((if dayOfWeek n = 0 then 7 else dayOfWeek n : Nat) : Int)) = F.wd by rw [hw]; split <;> split <;> omega]
  simp [setwd, vars, checkedSet_true, PState.reset]

theorem reads_F (hY : F.Y = d.year) (hm : F.m = d.month) (hd : F.d = d.day) (hb : -9999 ≤ d.year ∧ d.year ≤ 9999)
    (h : IsoDate d a) : Reads e F none 'F' a := by
  obtain ⟨s1, s2, s3, rfl, h0, h2, h3⟩ := h
  obtain ⟨s, h1, rfl⟩ := yearText_exact h0 (by omega)
  refine ⟨starts_append (starts_signed h1 (by omega)), fun b L => ?_⟩
  rw [pstep_conv rfl (by decide)]
  simp only [pconv, if_true, PState.max, List.append_assoc, List.cons_append,
    seq_rs h1 (show 1 ≤ 4 by omega) (by omega) (show 1 ≤ 4 by omega), seq_ch,
    seq_ru h2 (show 1 ≤ 2 by omega) (by omega) (show 1 ≤ 2 by omega),
    seq_ru h3 (show 1 ≤ 2 by omega) (by omega) (show 1 ≤ 2 by omega), seq_nil, Res.ok_bind, Res.pure_eq,
    List.getD_cons_zero, List.getD_cons_succ]
  rw [← hY, ← hm, ← hd]
  simp [setY, setm, setd, vars, checkedSet_true, PState.reset]

theorem reads_D (hy : F.y = (d.year.natAbs % 100 : Nat)) (hm : F.m = d.month) (hd : F.d = d.day)
    (h : SlashDate d a) : Reads e F none 'D' a := by
  obtain ⟨s1, s2, s3, rfl, h1, h2, h3⟩ := h
  refine ⟨starts_append (starts_digits h1 (by omega)), fun b L => ?_⟩
  rw [pstep_conv rfl (by decide)]
  simp only [pconv, if_true, List.append_assoc, List.cons_append, seq_ch,
    seq_ru h1 (show 1 ≤ 2 by omega) (by omega) (show 1 ≤ 2 by omega),
    seq_ru h2 (show 1 ≤ 2 by omega) (by omega) (show 1 ≤ 2 by omega),
    seq_rs_nat h3 (show 1 ≤ 2 by omega) (by omega) (show 1 ≤ 2 by omega), seq_nil, Res.ok_bind, Res.pure_eq,
    List.getD_cons_zero, List.getD_cons_succ]
  rw [← hy, ← hm, ← hd]
  simp [sety, setm, setd, vars, checkedSet_true, PState.reset]

theorem reads_R {h m : Nat} (hH : F.H = h) (hM : F.M = m) (hv : h < 100)
    (ht : ∃ s1 s2, a = s1 ++ ':' :: s2 ∧ AtLeast 2 (h : Int) s1 ∧ Digits 2 m s2) : Reads e F none 'R' a := by
  obtain ⟨s1, s2, rfl, h1, h2⟩ := ht
  have h1 := atLeast_nat (by omega) h1 hv
  refine ⟨starts_append (starts_digits h1 (by omega)), fun b L => ?_⟩
  rw [pstep_conv rfl (by decide)]
  simp only [pconv, if_true, List.append_assoc, List.cons_append, seq_ch,
    seq_ru h1 (show 1 ≤ 2 by omega) (by omega) (show 1 ≤ 2 by omega),
    seq_ru h2 (show 1 ≤ 2 by omega) (by omega) (show 1 ≤ 2 by omega), seq_nil, Res.ok_bind, Res.pure_eq,
    List.getD_cons_zero, List.getD_cons_succ]
  rw [← hH, ← hM]
  simp [setH, setM, vars, checkedSet_true, PState.reset]

theorem starts_seconds {w : Nat} {t : Time} (h : Seconds w t a) : ∃ x r, a = x :: r ∧ isSpace x = false := by
  obtain ⟨s1, s2, rfl, h1, -⟩ := h
  exact starts_append (starts_digits h1 (by omega))

theorem reads_S {t : Time} (K : Known F e.T x) (hx : x.time = some t) (h : Seconds x.w t a) :
    Reads e F none 'S' a := by
  obtain ⟨-, -, -, k4, k5, k6⟩ := K.time t hx
  refine ⟨starts_seconds h, fun b L => ?_⟩
  obtain ⟨S, h1, h2⟩ := readSec h K.w K.T17 K.w18 K.T1 k4 k5 k6 b
  rw [pstep_conv rfl (by decide)]
  simp [pconv, PState.max, readSeq, h1, h2]
  simp [sets, vars, checkedSet_true, PState.reset]

theorem reads_T {t : Time} (K : Known F e.T x) (hx : x.time = some t)
    (h : ∃ s1 s2 s3, a = s1 ++ ':' :: (s2 ++ ':' :: s3) ∧ AtLeast 2 (t.hour : Int) s1 ∧ Digits 2 t.min s2 ∧ Seconds x.w t s3) :
    Reads e F none 'T' a := by
  obtain ⟨k1, k2, k3, k4, k5, k6⟩ := K.time t hx
  obtain ⟨s1, s2, s3, rfl, h1, h2, h3⟩ := h
  have h1 := atLeast_nat (by omega) h1 k2
  refine ⟨starts_append (starts_digits h1 (by omega)), fun b L => ?_⟩
  obtain ⟨S, g1, g2⟩ := readSec h3 K.w K.T17 K.w18 K.T1 k4 k5 k6 b
  rw [pstep_conv rfl (by decide)]
  simp only [pconv, if_true, List.append_assoc, List.cons_append, seq_ch,
    seq_ru h1 (show 1 ≤ 2 by omega) (by omega) (show 1 ≤ 2 by omega),
    seq_ru h2 (show 1 ≤ 2 by omega) (by omega) (show 1 ≤ 2 by omega)]
  simp only [readSeq, g1, Bool.false_eq_true, if_false, Res.ok_bind, Res.pure_eq,
    List.getD_cons_zero, List.getD_cons_succ, g2]
  rw [← k1, ← k3]
  simp [setH, setM, sets, vars, checkedSet_true, PState.reset]

theorem reads_percent : Reads e F none '%' ['%'] := by
  refine ⟨⟨_, _, rfl, by decide⟩, fun b L => ?_⟩
  unfold pstep
  simp [pconvChars, readChar_exact, PState.reset, vars]

theorem offsetMinutes_exact {md : Option Char} {m : Nat} {s : List Char} (h : Digits 2 m s) (b : List Char) (toff : Int) :
    offsetMinutes md toff ⟨(if md.isSome then [':'] else []) ++ (s ++ b), false, false⟩ = .ok (toff + m, ⟨b, false, false⟩) := by
  obtain ⟨c, s', rfl, hc⟩ := digits_cons h (by omega)
  have hr := seq_ru h (show 1 ≤ 2 by omega) (by omega) (Nat.le_refl 2) b []
  rw [seq_nil] at hr
  unfold offsetMinutes
  cases md with
  | none =>
    rw [List.cons_append] at hr
    simp only [Option.isSome_none, Bool.false_eq_true, if_false, List.nil_append, List.cons_append, peek_cons, if_true,
      isDig_eq, hc, hr]
    rfl
  | some k =>
    simp only [Option.isSome_some, if_true, List.cons_append, List.nil_append, peek_cons, get_cons] at hr ⊢
    simp [hr]

theorem reads_z {md : Option Char} (hmd : md = none ∨ md = some 'E' ∨ md = some 'O')
    (hb : -6000 < F.off ∧ F.off < 6000) (h : OffsetText md.isSome (F.off * 60) a) : Reads e F md 'z' a := by
  obtain ⟨s1, s2, h1, h2, rfl⟩ := h
  have hs : (F.off * 60).natAbs / 60 = F.off.natAbs := by omega
  rw [hs] at h1 h2
  have h1 := atLeast_nat (by omega) h1 (by omega)
  refine ⟨⟨_, _, rfl, by split <;> decide⟩, fun b L => ?_⟩
  rw [pstep_conv rfl (by decide)]
  have hmin : (if md = none then 2 else 1) ≤ 2 := by split <;> omega
  rw [show pconv e ⟨⟨(if F.off * 60 ≤ -60 then '-' else '+') :: (s1 ++ ((if md.isSome then [':'] else []) ++ s2)) ++ b,
    false, false⟩, vars F L, some ('%' :: md.toList), md, -1⟩ 'z' = pconvOffset ⟨⟨(if F.off * 60 ≤ -60 then '-' else '+') ::
      (s1 ++ ((if md.isSome then [':'] else []) ++ s2)) ++ b, false, false⟩, vars F L, some ('%' :: md.toList), md, -1⟩
    from rfl]
  unfold pconvOffset
  simp only [List.cons_append, List.append_assoc, peek_cons]
  by_cases hn : F.off < 0
  · have hs : (if F.off * 60 ≤ -60 then '-' else '+') = '-' := if_pos (by omega)
    simp only [hs, readSeq, readSigned_minus h1 (show 1 ≤ 2 by omega) (by omega) hmin, Res.ok_bind, Bool.false_eq_true,
      if_false, Res.pure_eq, List.getD_cons_zero, good_mk, Bool.not_false, Bool.and_self, if_true,
      offsetMinutes_exact h2]
    simp only [Res.ok_bind, decide_true, Bool.true_and, decide_eq_true_eq, if_true]
    rw [if_neg (by omega), show -(((-((F.off.natAbs / 60 : Nat) : Int)).natAbs : Int) * 60 + (F.off.natAbs % 60 : Nat)) = F.off by omega]
    simp [setOffset, vars, checkedSet_true, PState.reset]
  · have hs : (if F.off * 60 ≤ -60 then '-' else '+') = '+' := if_neg (by omega)
    simp only [hs, readSeq, readSigned_plus h1 (show 1 ≤ 2 by omega) (by omega) hmin, Res.ok_bind, Bool.false_eq_true,
      if_false, Res.pure_eq, List.getD_cons_zero, good_mk, Bool.not_false, Bool.and_self, if_true,
      offsetMinutes_exact h2]
    simp only [Res.ok_bind, show (some '+' = some '-') = False by decide, decide_false, Bool.false_and, Bool.false_eq_true, if_false]
    rw [show ((((F.off.natAbs / 60 : Nat) : Int)).natAbs : Int) * 60 + (F.off.natAbs % 60 : Nat) = F.off by omega]
    simp [setOffset, vars, checkedSet_true, PState.reset]

/-- A conversion reads the text that says what it should. -/
theorem reads_of_says {loc : TimePut} {md : Option Char} {c : Char} (K : Known F e.T x) (hr : Readable (.conv md c))
    (hb : Bounds F c) (hj : c = 'j' → x.date ≠ none) (h : Says loc x (.conv md c) a) : Reads e F md c a := by
  rcases hr with ⟨rfl, hc⟩ | ⟨rfl, hmd⟩
  · simp only [plain, List.mem_cons, List.not_mem_nil, or_false] at hc
    rcases hc with rfl | rfl | rfl | rfl | rfl | rfl | rfl | rfl | rfl | rfl | rfl | rfl | rfl | rfl | rfl | rfl | rfl |
      rfl | rfl | rfl <;> simp [Says, usesDate, usesTime] at h
    · obtain ⟨n, d, h1, h2⟩ := h
      obtain ⟨k1, k2, k3, k4, k5, k6, k7, k8⟩ := K.date n d h1
      exact reads_Y k1 ⟨k7, k8⟩ h2
    · obtain ⟨n, d, h1, h2⟩ := h
      obtain ⟨k1, k2, k3, k4, k5, k6, k7, k8⟩ := K.date n d h1
      exact reads_y k2 h2
    · obtain ⟨n, d, h1, h2⟩ := h
      obtain ⟨k1, k2, k3, k4, k5, k6, k7, k8⟩ := K.date n d h1
      have := hb.1 rfl
      exact reads_C k3 (by omega) h2
    · obtain ⟨n, d, h1, h2⟩ := h
      obtain ⟨k1, k2, k3, k4, k5, k6, k7, k8⟩ := K.date n d h1
      exact reads_m k4 h2
    · obtain ⟨n, d, h1, h2⟩ := h
      obtain ⟨k1, k2, k3, k4, k5, k6, k7, k8⟩ := K.date n d h1
      exact reads_d k5 h2
    · obtain ⟨n, d, h1, h2⟩ := h
      obtain ⟨k1, k2, k3, k4, k5, k6, k7, k8⟩ := K.date n d h1
      exact reads_D k2 k4 k5 h2
    · obtain ⟨n, d, h1, h2⟩ := h
      obtain ⟨k1, k2, k3, k4, k5, k6, k7, k8⟩ := K.date n d h1
      exact reads_F k1 k4 k5 ⟨k7, k8⟩ h2
    · rcases h with ⟨n, d, h1, ny, h2, h3⟩ | ⟨h1, -⟩
      · exact reads_j (K.ny n _ h1 ny h2).1 h3
      · exact absurd h1 (hj rfl)
    · obtain ⟨t, h1, h2⟩ := h
      obtain ⟨k1, k2, k3, -⟩ := K.time t h1
      exact reads_H k1 k2 h2
    · obtain ⟨t, h1, h2⟩ := h
      obtain ⟨k1, k2, k3, -⟩ := K.time t h1
      exact reads_M k3 h2
    · obtain ⟨t, h1, h2⟩ := h
      exact reads_S K h1 h2
    · obtain ⟨t, h1, h2⟩ := h
      exact reads_T K h1 h2
    · obtain ⟨t, h1, h2⟩ := h
      obtain ⟨k1, k2, k3, -⟩ := K.time t h1
      exact reads_R k1 k3 k2 h2
    · obtain ⟨n, d, h1, h2⟩ := h
      obtain ⟨k1, k2, k3, k4, k5, k6, k7, k8⟩ := K.date n d h1
      exact reads_u k6 h2
    · obtain ⟨n, d, h1, h2⟩ := h
      obtain ⟨k1, k2, k3, k4, k5, k6, k7, k8⟩ := K.date n d h1
      exact reads_w k6 h2
    · obtain ⟨n, d, h1, g, v, h2, h3⟩ := h
      obtain ⟨k1, k2⟩ := K.iso n d h1 g v h2
      have := hb.2 rfl
      exact reads_G k1 (by omega) h3
    · obtain ⟨n, d, h1, g, v, h2, h3⟩ := h
      exact reads_V (K.iso n d h1 g v h2).2 h3
    · obtain ⟨n, d, h1, ny, h2, h3⟩ := h
      exact reads_U (K.ny n d h1 ny h2).2.1 h3
    · obtain ⟨n, d, h1, ny, h2, h3⟩ := h
      exact reads_W (K.ny n d h1 ny h2).2.2 h3
    · subst h
      exact reads_percent
  · have hh : ∃ o, x.offset = some o ∧ OffsetText md.isSome o a := by
      rcases hmd with rfl | rfl | rfl <;> simpa [Says, usesDate, usesTime] using h
    obtain ⟨o, h1, h2⟩ := hh
    obtain ⟨rfl, k1⟩ := K.off o h1
    exact reads_z hmd k1 h2

end

/-! ### The loop -/

/-- An item as it stands in the format. -/
def source : Item → List Char
  | .lit c => [c]
  | .conv md c => '%' :: (md.toList ++ [c])

theorem items_source (fmt : List Char) : (items fmt).flatMap source = fmt := by
  induction fmt using items.induct with
  | case1 => rfl
  | case2 => rfl
  | case3 c h => simp [items, h, source]
  | case4 c h => simp [items, h, source]
  | case5 c d r h ih => rw [items, if_pos h, List.flatMap_cons, ih]; rfl
  | case6 c d r h ih => rw [items, if_neg h, List.flatMap_cons, ih]; rfl
  | case7 c r h1 h2 h3 ih =>
    have hp : c ≠ '%' := by
      rintro rfl
      cases r with
      | nil => exact h1 rfl rfl
      | cons d r =>
        cases r with
        | nil => exact h2 d rfl rfl
        | cons d' r => exact h3 d d' r rfl rfl
    have hi' : items (c :: r) = .lit c :: items r := by
      cases r with
      | nil => simp [items]
      | cons d r => cases r <;> simp [items, hp]
    rw [hi', List.flatMap_cons, ih]; rfl

/-- The text is what remains in the stream; white space may have been skipped already. -/
def At (is : IStream) (t : List Char) : Prop :=
  is = ⟨t, false, false⟩ ∨ is = ⟨t.dropWhile isSpace, (t.dropWhile isSpace).isEmpty, false⟩

theorem at_start {is : IStream} {c : Char} {r : List Char} (h : At is (c :: r)) (hc : isSpace c = false) :
    is = ⟨c :: r, false, false⟩ := by
  rcases h with h | h
  · exact h
  · rw [h, List.dropWhile_cons, if_neg (by simp [hc])]; rfl

theorem vars_congr (F : Facts) {L L' : List Char} (h : ∀ c, c ∈ L ↔ c ∈ L') : vars F L = vars F L' := by
  simp only [vars, h]

theorem ploop_cons {e : PEnv} (fuel : Nat) (c : Char) (r : List Char) (st : PState) (hf : st.is.fail = false)
    (hd : isDig c = false ∨ st.command = none) :
    ploop e (fuel + 1) (c :: r) st = (do let st ← pstep e st c; ploop e fuel r st) := by
  have : (st.command.isSome && st.width == -1 && st.modified == none && isDig c) = false := by
    rcases hd with h | h <;> simp [h]
  simp only [ploop, hf, this, Bool.false_eq_true, if_false]

theorem dropWhile_idem (p : Char → Bool) (t : List Char) : (t.dropWhile p).dropWhile p = t.dropWhile p := by
  induction t with
  | nil => rfl
  | cons y t ih =>
    rw [List.dropWhile_cons]
    split
    · exact ih
    · rename_i hy; rw [List.dropWhile_cons, if_neg hy]

theorem step_lit {e : PEnv} {is : IStream} {v : PVars} {c : Char} {t : List Char} (hc : c ≠ '%') (h : At is (c :: t)) :
    ∃ is', pstep e ⟨is, v, none, none, -1⟩ c = .ok ⟨is', v, none, none, -1⟩ ∧ At is' t ∧ is'.fail = false ∧
      (isSpace c = false → is' = ⟨t, false, false⟩) := by
  unfold pstep
  simp only [if_neg hc]
  by_cases hs : isSpace c = true
  · simp only [hs, if_true]
    rcases h with rfl | rfl
    · refine ⟨_, rfl, Or.inr ?_, ?_, ?_⟩ <;> simp [IStream.ws, List.dropWhile_cons, hs]
    · simp only [List.dropWhile_cons, hs, if_true]
      split
      · refine ⟨_, rfl, Or.inr ?_, ?_, by simp⟩
        · simp only [IStream.ws]
          simp [dropWhile_idem]
        · simp [IStream.ws]
      · exact ⟨_, rfl, Or.inr rfl, rfl, by simp⟩
  · have hs : isSpace c = false := by simpa using hs
    rw [at_start h hs]
    simp only [hs, Bool.false_eq_true, if_false, readChar_exact]
    exact ⟨_, rfl, Or.inl rfl, rfl, fun _ => rfl⟩

theorem step_conv {e : PEnv} {F : Facts} {is : IStream} {L : List Char} {md : Option Char} {c : Char} {a b : List Char}
    (hmd : md = none ∨ md = some 'E' ∨ md = some 'O') (hc : isDig c = false) (h : At is (a ++ b)) (hr : Reads e F md c a)
    (r : List Char) (fuel : Nat) (hf : (source (.conv md c) ++ r).length ≤ fuel) :
    ∃ fuel', r.length ≤ fuel' ∧ ploop e fuel (source (.conv md c) ++ r) ⟨is, vars F L, none, none, -1⟩ =
      ploop e fuel' r ⟨⟨b, false, false⟩, vars F (c :: L), none, none, -1⟩ := by
  obtain ⟨⟨x, a', rfl, hx⟩, hr⟩ := hr
  have his : is = ⟨x :: a' ++ b, false, false⟩ := at_start (by simpa using h) hx
  have hr := hr b L
  clear h
  subst his
  generalize x :: a' ++ b = q at hr ⊢
  have pct : ∀ r fuel, ploop e (fuel + 1) ('%' :: r) ⟨⟨q, false, false⟩, vars F L, none, none, -1⟩ =
      ploop e fuel r ⟨⟨q, false, false⟩, vars F L, some ['%'], none, -1⟩ := by
    intro r fuel
    rw [ploop_cons _ _ _ _ rfl (Or.inr rfl)]
    rfl
  rcases hmd with rfl | rfl | rfl
  · simp only [source, Option.toList, List.nil_append, List.cons_append, List.length_cons] at hf ⊢
    obtain ⟨k, rfl⟩ : ∃ k, fuel = k + 1 + 1 := ⟨fuel - 2, by omega⟩
    refine ⟨k, by omega, ?_⟩
    rw [pct, ploop_cons _ _ _ _ rfl (Or.inl hc), show (['%'] : List Char) = '%' :: Option.toList none from rfl, hr]
    rfl
  · simp only [source, Option.toList, List.nil_append, List.cons_append, List.length_cons] at hf ⊢
    obtain ⟨k, rfl⟩ : ∃ k, fuel = k + 1 + 1 + 1 := ⟨fuel - 3, by omega⟩
    refine ⟨k, by omega, ?_⟩
    rw [pct, ploop_cons _ _ _ _ rfl (Or.inl (by decide))]
    have : pstep e ⟨⟨q, false, false⟩, vars F L, some ['%'], none, -1⟩ 'E' =
      .ok ⟨⟨q, false, false⟩, vars F L, some ('%' :: Option.toList (some 'E')), some 'E', -1⟩ := rfl
    rw [this]
    simp only [Res.ok_bind]
    rw [ploop_cons _ _ _ _ rfl (Or.inl hc), hr]
    rfl
  · simp only [source, Option.toList, List.nil_append, List.cons_append, List.length_cons] at hf ⊢
    obtain ⟨k, rfl⟩ : ∃ k, fuel = k + 1 + 1 + 1 := ⟨fuel - 3, by omega⟩
    refine ⟨k, by omega, ?_⟩
    rw [pct, ploop_cons _ _ _ _ rfl (Or.inl (by decide))]
    have : pstep e ⟨⟨q, false, false⟩, vars F L, some ['%'], none, -1⟩ 'O' =
      .ok ⟨⟨q, false, false⟩, vars F L, some ('%' :: Option.toList (some 'O')), some 'O', -1⟩ := rfl
    rw [this]
    simp only [Res.ok_bind]
    rw [ploop_cons _ _ _ _ rfl (Or.inl hc), hr]
    rfl

theorem readable_conv {md : Option Char} {c : Char} (h : Readable (.conv md c)) :
    (md = none ∨ md = some 'E' ∨ md = some 'O') ∧ isDig c = false := by
  rcases h with ⟨rfl, h⟩ | ⟨rfl, h⟩
  · refine ⟨Or.inl rfl, ?_⟩
    simp only [plain, List.mem_cons, List.not_mem_nil, or_false] at h
    rcases h with rfl | rfl | rfl | rfl | rfl | rfl | rfl | rfl | rfl | rfl | rfl | rfl | rfl | rfl | rfl | rfl | rfl |
      rfl | rfl | rfl <;> decide
  · exact ⟨h, by decide⟩

theorem getLast_tail {i : Item} {its : List Item} {c : Char} (h : its.getLast? = some (.lit c)) : (i :: its).getLast? = some (.lit c) := by
  rw [List.getLast?_cons, h]; rfl

/-- The items of a format are read from their text; what follows stays in the stream, up to white space that the
last item skips. -/
theorem ploop_items {e : PEnv} {F : Facts} {x : Subject} {loc : TimePut} (K : Known F e.T x) (u : List Char) (its : List Item) :
    ∀ (t : List Char) (is : IStream) (L : List Char) (fuel : Nat), (∀ i ∈ its, Readable i) →
    (∀ c ∈ letters its, Bounds F c ∧ (c = 'j' → x.date ≠ none)) → SaysAll loc x its t → At is (t ++ u) → is.fail = false →
    (its.flatMap source).length ≤ fuel →
    ∃ is', ploop e fuel (its.flatMap source) ⟨is, vars F L, none, none, -1⟩ =
      .ok ⟨is', vars F (letters its ++ L), none, none, -1⟩ ∧ At is' u ∧ is'.fail = false ∧
      ((∀ c, its.getLast? = some (.lit c) → isSpace c = false) → its ≠ [] ∨ is = ⟨u, false, false⟩ → is' = ⟨u, false, false⟩) := by
  induction its with
  | nil =>
    intro t is L fuel _ _ h ha hf _
    cases h
    exact ⟨is, by simp [ploop, letters], ha, hf, fun _ h => h.resolve_left (by simp)⟩
  | cons i its ih =>
    intro t is L fuel hr hb h ha hf hl
    obtain ⟨a, b, rfl, h1, h2⟩ := h
    rw [List.flatMap_cons] at hl ⊢
    cases i with
    | lit c =>
      simp only [Says] at h1
      subst h1
      obtain ⟨hc, -⟩ := hr _ List.mem_cons_self
      obtain ⟨is', g1, g2, g3, g4⟩ := step_lit (e := e) (v := vars F L) hc ha
      simp only [source, List.cons_append, List.nil_append, List.length_cons] at hl ⊢
      obtain ⟨k, rfl⟩ : ∃ k, fuel = k + 1 := ⟨fuel - 1, by omega⟩
      obtain ⟨is'', e1, e2, e3, e4⟩ := ih b is' L k (fun i hi => hr i (List.mem_cons_of_mem _ hi)) hb h2 g2 g3 (by omega)
      refine ⟨is'', ?_, e2, e3, fun hl _ => e4 (fun c h => hl c (getLast_tail h)) ?_⟩
      swap
      · by_cases hn : its = []
        · subst hn
          cases h2
          exact Or.inr (g4 (hl c rfl))
        · exact Or.inl hn
      rw [ploop_cons _ _ _ _ hf (Or.inr rfl), g1]
      exact e1
    | conv md c =>
      have hi := hr _ List.mem_cons_self
      obtain ⟨hmd, hcd⟩ := readable_conv hi
      have hbc := hb c (by simp [letters])
      have hR := reads_of_says (e := e) K hi hbc.1 hbc.2 h1
      obtain ⟨k, k1, k2⟩ := step_conv (L := L) hmd hcd (List.append_assoc a b u ▸ ha) hR _ fuel hl
      obtain ⟨is'', e1, e2, e3, e4⟩ := ih b ⟨b ++ u, false, false⟩ (c :: L) k (fun i hi => hr i (List.mem_cons_of_mem _ hi))
        (fun c' hc' => hb c' (by simp only [letters, List.filterMap_cons, List.mem_cons]; exact Or.inr hc'))
        h2 (Or.inl rfl) rfl k1
      refine ⟨is'', ?_, e2, e3, fun hl _ => e4 (fun c h => hl c (getLast_tail h)) ?_⟩
      swap
      · by_cases hn : its = []
        · subst hn
          cases h2
          exact Or.inr rfl
        · exact Or.inl hn
      rw [k2, e1]
      rw [vars_congr F (L' := letters (.conv md c :: its) ++ L)]
      intro c'
      simp only [letters, List.filterMap_cons, List.mem_append, List.mem_cons]
      tauto

/-- The loop on a format. -/
theorem ploop_fmt {e : PEnv} {F : Facts} {x : Subject} {loc : TimePut} (K : Known F e.T x) {fmt t u : List Char} {is : IStream}
    (hr : ∀ i ∈ items fmt, Readable i) (hb : ∀ c ∈ letters (items fmt), Bounds F c ∧ (c = 'j' → x.date ≠ none))
    (h : SaysAll loc x (items fmt) t) (ha : At is (t ++ u)) (hf : is.fail = false) :
    ∃ is', ploop e fmt.length fmt ⟨is, {}, none, none, -1⟩ =
      .ok ⟨is', vars F (letters (items fmt)), none, none, -1⟩ ∧ At is' u ∧ is'.fail = false ∧
      ((∀ c, (items fmt).getLast? = some (.lit c) → isSpace c = false) → items fmt ≠ [] → is' = ⟨u, false, false⟩) := by
  obtain ⟨is', h1, h2, h3, h4⟩ := ploop_items (e := e) K u (items fmt) t is [] fmt.length hr hb h ha hf
    (by rw [items_source])
  rw [items_source, List.append_nil] at h1
  exact ⟨is', h1, h2, h3, fun h h' => h4 h (Or.inl h')⟩

/-- A conversion writes something that is not white space. -/
theorem says_black {e : PEnv} {F : Facts} {x : Subject} {loc : TimePut} (K : Known F e.T x) (its : List Item) :
    ∀ (t : List Char), (∀ i ∈ its, Readable i) →
    (∀ c ∈ letters its, Bounds F c ∧ (c = 'j' → x.date ≠ none)) → SaysAll loc x its t → letters its ≠ [] →
    ∃ c ∈ t, isSpace c = false := by
  induction its with
  | nil => intro t _ _ _ h; exact absurd rfl h
  | cons i its ih =>
    intro t hr hb h hn
    obtain ⟨a, b, rfl, h1, h2⟩ := h
    cases i with
    | lit c =>
      obtain ⟨y, hy, hs⟩ := ih b (fun i hi => hr i (List.mem_cons_of_mem _ hi)) hb h2 hn
      exact ⟨y, List.mem_append_right _ hy, hs⟩
    | conv md c =>
      have hbc := hb c (by simp [letters])
      obtain ⟨⟨y, a', rfl, hy⟩, -⟩ := reads_of_says (e := e) K (hr _ List.mem_cons_self) hbc.1 hbc.2 h1
      exact ⟨y, by simp, hy⟩

theorem at_good {is : IStream} {t : List Char} (h : At is t) (hb : ∃ c ∈ t, isSpace c = false) : is.eof = false ∧ is.fail = false := by
  rcases h with rfl | rfl
  · exact ⟨rfl, rfl⟩
  · refine ⟨?_, rfl⟩
    obtain ⟨c, hc, hs⟩ := hb
    induction t with
    | nil => cases hc
    | cons y t ih =>
      rw [List.dropWhile_cons]
      split
      · rename_i hy
        rcases List.mem_cons.mp hc with rfl | hc
        · rw [hs] at hy; cases hy
        · exact ih hc
      · rfl

theorem at_nil {is : IStream} (h : At is []) : is.rest = [] := by
  rcases h with rfl | rfl <;> rfl

end Gul14.Date
