import Verif.Date.ParseWeeks
import Verif.Date.ParseTicks
import Verif.Date.ParseProps

/-! # From the variables of parse to what the text says -/
namespace Gul14.Date
open Gul14.Spec.Calendar Gul14.Spec.DateText Gul14.Spec.DateFormat Gul14.Spec.DateParse
open Gul14.Ieee (Fl extended)

theorem split_mem {P : Option Char → Char → List Char → Prop} {md : Option Char} {c : Char} (its : List Item) : ∀ t r, Split P its t r →
    Item.conv md c ∈ its → ∃ a, P md c a := by
  induction its with
  | nil => intro t r _ h; cases h
  | cons i its ih =>
    intro t r h hm
    cases i with
    | lit x =>
      obtain ⟨a, b, -, -, h3⟩ := h
      rcases List.mem_cons.mp hm with h | h
      · cases h
      · exact ih _ _ h3 h
    | conv m x =>
      obtain ⟨a, b, -, h2, h3⟩ := h
      rcases List.mem_cons.mp hm with h | h
      · cases h; exact ⟨a, h2⟩
      · exact ih _ _ h3 h

theorem letters_mem {its : List Item} {c : Char} (h : c ∈ letters its) : ∃ md, Item.conv md c ∈ its := by
  unfold letters at h
  rw [List.mem_filterMap] at h
  obtain ⟨i, h1, h2⟩ := h
  cases i with
  | lit _ => cases h2
  | conv md x => cases h2; exact ⟨md, h1⟩

/-- A value that was read and does not mean that nothing was read. -/
theorem Has.eq {v : PVars} {f : Fld} {x : Int} (h : Has v f x) (hx : x ≠ unset f) : get v f = x := h.resolve_left hx

theorem isoDay_week {g k wd n n' : Int} {k' : Nat} (h : IsoDay g k wd n) (hk : k = k') (h' : IsoWeek n' g k') : IsoWeek n g k' := by
  obtain ⟨st, h1, h2, h3, h4⟩ := h
  have hd := isoWeek_day h' h1 h2 h3
  obtain ⟨th, ny, m, d, a1, a2, a3, a4⟩ := h'
  have hv := dow_val th
  have hv' := dow_val n'
  refine ⟨th, ny, m, d, a1, ?_, ?_, a4⟩ <;> omega

/-- The time from the variables. -/
theorem theTime_of {T : Nat} (hT : 0 < T) (v : PVars) (hj : v.j = -1) (hH : v.H = -2147483648 ∨ 0 ≤ v.H) (hM : v.M = -2147483648 ∨ 0 ≤ v.M)
    (hs : v.s = -9223372036854775808 ∨ 0 ≤ v.s) (has : Bool) {h m s : Int} (eh : h = if v.H = -2147483648 then 0 else v.H)
    (em : m = if v.M = -2147483648 then 0 else v.M) (es : s = if v.s = -9223372036854775808 then 0 else v.s) :
    theTime T v v.H ⟨0, 0, 0, 0, false⟩ has = (⟨h, m, s / T, s % T * 10 ^ fractionalWidth T / T, false⟩,
      has || decide (v.H ≠ -2147483648 ∨ v.M ≠ -2147483648 ∨ v.s ≠ -9223372036854775808)) := by
  have key := theTime_vars hT (F := ⟨0, 0, 0, 0, 0, 0, 0, h, m, s, 0, 0, 0, 0, 0⟩)
    (L := (if v.H = -2147483648 then [] else ['H']) ++ ((if v.M = -2147483648 then [] else ['M']) ++
      (if v.s = -9223372036854775808 then [] else ['S']))) (v := v)
    (by
      by_cases a : v.H = -2147483648 <;> by_cases b : v.M = -2147483648 <;> by_cases c : v.s = -9223372036854775808 <;>
      simp [vars, em, a, b, c])
    (by
      by_cases a : v.H = -2147483648 <;> by_cases b : v.M = -2147483648 <;> by_cases c : v.s = -9223372036854775808 <;>
      simp [vars, es, a, b, c]) hj (by simp only; split at eh <;> omega) (by simp only; split at em <;> omega)
      (by simp only; split at es <;> omega) has
  have eH : (vars ⟨0, 0, 0, 0, 0, 0, 0, h, m, s, 0, 0, 0, 0, 0⟩ ((if v.H = -2147483648 then [] else ['H']) ++ ((if v.M = -2147483648 then [] else ['M']) ++
      (if v.s = -9223372036854775808 then [] else ['S'])))).H = v.H := by
    by_cases a : v.H = -2147483648 <;> by_cases b : v.M = -2147483648 <;> by_cases c : v.s = -9223372036854775808 <;>
      simp [vars, eh, a, b, c]
  rw [eH] at key
  rw [key]
  by_cases a : v.H = -2147483648 <;> by_cases b : v.M = -2147483648 <;> by_cases c : v.s = -9223372036854775808 <;>
    simp [eh, em, es, a, b, c]

theorem toDuration_of {T : Nat} (hT : 0 < T) (hw : T ∣ 10 ^ fractionalWidth T) (h m s : Int) :
    HMS.toDuration ⟨h, m, s / T, s % T * 10 ^ fractionalWidth T / T, false⟩ T * T =
      (h * (3600 * T) + m * (60 * T) + s) * 10 ^ fractionalWidth T := by
  obtain ⟨q, hq⟩ := hw
  have hT' : (T : Int) ≠ 0 := by omega
  have hp : (10 : Int) ^ fractionalWidth T = T * q := by exact_mod_cast hq
  have hsub : s % T * 10 ^ fractionalWidth T / T = s % T * q := by
    rw [hp, show s % T * ((T : Int) * q) = s % T * q * T by ring]
    exact Int.mul_ediv_cancel _ hT'
  have hmod : s / T * T + s % T = s := by
    have := Int.mul_ediv_add_emod s T; rwa [Int.mul_comm] at this
  simp only [HMS.toDuration, pow10_eq, hsub]
  push_cast
  rw [hp]
  have : (s : Int) * (T * q) = (s / T * T + s % T) * (T * q) := by rw [hmod]
  linarith

/-! ### The time -/

/-- The ticks that were read. -/
theorem secText {T : Nat} (hT0 : 0 < T) (hT : T ≤ 10 ^ 15) (hw : fractionalWidth T ≤ 16) {S : Fl} {s : Int} {a : List Char}
    (h : LdText (secWidth T) S a) (hr : roundTicks T S = .ok s) :
    0 ≤ s ∧ SecText T (if T = 1 then 2 else 3 + fractionalWidth T) s a := by
  obtain ⟨i, f, k, hd, rfl⟩ := h
  have hM : secWidth T ≤ 19 := by unfold secWidth; split <;> omega
  obtain ⟨h1, h2, x, y, h3, h4, h5, h6, h7, h8⟩ := hd
  have lx : x.length ≤ 19 ∧ y.length ≤ 19 := by
    rcases h8 with ⟨rfl, rfl⟩ | rfl
    · simp; omega
    · simp at h2; omega
  have hi : i < 10 ^ 19 := by
    rcases x with _ | ⟨c, x⟩
    · rw [← h5]; simp [value]
    · exact num_lt ⟨by simp, lx.1, h3, h5⟩
  have hf : f < 10 ^ k := by
    rcases y with _ | ⟨c, y⟩
    · rw [← h6, ← h7]; simp [value]
    · exact num_lt ⟨by simp, by rw [h7], h4, h6⟩
  obtain ⟨g1, g2⟩ := roundTicks_close hT0 hT hi hf (by omega) hr
  exact ⟨g1, i, f, k, ⟨h1, h2, x, y, h3, h4, h5, h6, h7, h8⟩, g2⟩

theorem seqR {a : List Char} {h m : Int} (hs : SeqText [.ru 1 2, .ch ':', .ru 1 2] [h, m] (.num 0) a) :
    ∃ (h' m' : Nat) (p q : List Char), h = h' ∧ m = m' ∧ a = p ++ ':' :: q ∧ Num 2 h' p ∧ Num 2 m' q := by
  obtain ⟨h', _, p, _, ⟨⟩, rfl, n1, q0, rfl, m', _, q, _, ⟨⟩, rfl, n2, -, -, rfl⟩ := hs
  exact ⟨h', m', p, q, rfl, rfl, by simp, n1, n2⟩

theorem seqT {a : List Char} {h m : Int} {S : Fl} {M : Nat} (hs : SeqText [.ru 1 2, .ch ':', .ru 1 2, .ch ':', .rld 1 M] [h, m] S a) :
    ∃ (h' m' : Nat) (p q r : List Char), h = h' ∧ m = m' ∧ a = p ++ ':' :: (q ++ ':' :: r) ∧ Num 2 h' p ∧ Num 2 m' q ∧ LdText M S r := by
  obtain ⟨h', _, p, _, ⟨⟩, rfl, n1, q0, rfl, m', _, q, _, ⟨⟩, rfl, n2, r0, rfl, S', r, _, rfl, n3, -, -, rfl⟩ := hs
  exact ⟨h', m', p, q, r, rfl, rfl, by simp, n1, n2, n3⟩

theorem seqF {a : List Char} {y m d : Int} {c : Char} (hs : SeqText [.rs 1 4, .ch c, .ru 1 2, .ch c, .ru 1 2] [y, m, d] (.num 0) a) :
    ∃ (m' d' : Nat) (p q r : List Char), m = m' ∧ d = d' ∧ a = p ++ c :: (q ++ c :: r) ∧ SNum 4 y p ∧ Num 2 m' q ∧ Num 2 d' r := by
  obtain ⟨_, _, p, _, ⟨⟩, rfl, n1, q0, rfl, m', _, q, _, ⟨⟩, rfl, n2, r0, rfl, d', _, r, _, ⟨⟩, rfl, n3, -, -, rfl⟩ := hs
  exact ⟨m', d', p, q, r, rfl, rfl, by simp, n1, n2, n3⟩

theorem seqD {a : List Char} {y m d : Int} {c : Char} (hs : SeqText [.ru 1 2, .ch c, .ru 1 2, .ch c, .rs 1 2] [m, d, y] (.num 0) a) :
    ∃ (m' d' : Nat) (p q r : List Char), m = m' ∧ d = d' ∧ a = p ++ c :: (q ++ c :: r) ∧ Num 2 m' p ∧ Num 2 d' q ∧ SNum 2 y r := by
  obtain ⟨m', _, p, _, ⟨⟩, rfl, n1, q0, rfl, d', _, q, _, ⟨⟩, rfl, n2, r0, rfl, _, _, r, _, ⟨⟩, rfl, n3, -, -, rfl⟩ := hs
  exact ⟨m', d', p, q, r, rfl, rfl, by simp, n1, n2, n3⟩

/-! ### Everything together -/

section
variable {T : Nat} {v : PVars} {its : List Item} {text rest : List Char}

/-- What is set was set by a conversion. -/
theorem Step.of_set {L : List Char} (h : Step L {} v) (f : Fld) (hf : get v f ≠ unset f) : InRange f (get v f) ∧ ∃ c ∈ L, f ∈ fieldsOf c := by
  rcases h.1 f with h | h
  · exact absurd (h.trans (by cases f <;> rfl)) hf
  · exact h.2

theorem fieldsOf_s {c : Char} (h : Fld.s ∈ fieldsOf c) : c = 'S' ∨ c = 'T' := by
  unfold fieldsOf at h
  split at h <;> simp at h ⊢

theorem fieldsOf_H {c : Char} (h : Fld.H ∈ fieldsOf c) : c = 'H' ∨ c = 'T' ∨ c = 'R' := by
  unfold fieldsOf at h
  split at h <;> simp at h ⊢

theorem fieldsOf_M {c : Char} (h : Fld.M ∈ fieldsOf c) : c = 'M' ∨ c = 'T' ∨ c = 'R' := by
  unfold fieldsOf at h
  split at h <;> simp at h ⊢

theorem fieldsOf_y {c : Char} (h : Fld.y ∈ fieldsOf c) : c = 'y' ∨ c = 'D' := by
  unfold fieldsOf at h
  split at h <;> simp at h ⊢

theorem fieldsOf_one {c x : Char} {f : Fld} (hx : (x, f) ∈ [('G', Fld.G), ('V', .V), ('U', .U), ('W', .W), ('z', .off), ('C', .C), ('j', .j)])
    (h : f ∈ fieldsOf c) : c = x := by
  simp only [List.mem_cons, Prod.mk.injEq, List.not_mem_nil, or_false] at hx
  unfold fieldsOf at h
  rcases hx with ⟨rfl, rfl⟩ | ⟨rfl, rfl⟩ | ⟨rfl, rfl⟩ | ⟨rfl, rfl⟩ | ⟨rfl, rfl⟩ | ⟨rfl, rfl⟩ | ⟨rfl, rfl⟩ <;>
    (split at h <;> simp at h ⊢)

/-- The ticks are not negative. -/
theorem ticks_nonneg (hT0 : 0 < T) (hT : T ≤ 10 ^ 15) (hw : fractionalWidth T ≤ 16) (hs : Split (AgreeV T v) its text rest)
    (hst : Step (letters its) {} v) (hv : v.s ≠ -9223372036854775808) : 0 ≤ v.s := by
  obtain ⟨-, c, hc, hf⟩ := hst.of_set .s hv
  obtain ⟨md, hm⟩ := letters_mem hc
  obtain ⟨a, ha⟩ := split_mem _ _ _ hs hm
  rcases fieldsOf_s hf with rfl | rfl
  · obtain ⟨S, s, h1, h2, h3⟩ := ha
    have := (secText hT0 hT hw h1 h2).1
    rw [show v.s = s from h3.eq (by simp only [unset]; omega)]
    exact this
  · obtain ⟨h, m, S, s, h1, h2, -, -, h3⟩ := ha
    obtain ⟨-, -, -, -, r, -, -, -, -, -, h1⟩ := seqT h1
    have := (secText hT0 hT hw h1 h2).1
    rw [show v.s = s from h3.eq (by simp only [unset]; omega)]
    exact this

/-- Conversions that always set their variable. -/
theorem set_of_mem (hs : Split (AgreeV T v) its text rest) {c : Char} (h : c ∈ letters its) :
    (c = 'G' → v.G ≠ -32768) ∧ (c = 'V' → v.V ≠ 100) ∧ (c = 'z' → v.offset ≠ -9223372036854775808) ∧
    (c = 'y' ∨ c = 'D' → v.y ≠ 100) := by
  obtain ⟨md, hm⟩ := letters_mem h
  obtain ⟨a, ha⟩ := split_mem _ _ _ hs hm
  refine ⟨?_, ?_, ?_, ?_⟩
  · rintro rfl
    obtain ⟨x, h1, h2⟩ := ha
    have := snum_lt h1
    rw [show v.G = x from h2.eq (by simp only [unset]; omega)]
    omega
  · rintro rfl
    obtain ⟨x, h1, h2⟩ := ha
    have := num_lt h1
    rw [show v.V = x from h2.eq (by simp only [unset]; omega)]
    omega
  · rintro rfl
    obtain ⟨o, h1, h2⟩ := ha
    have ho : -9000 < o ∧ o < 9000 := by
      obtain ⟨g, a, b, h, m, -, -, n1, -, n2, rfl⟩ := h1
      have l1 := num_lt n1
      have l2 : m < 10 ^ 2 := by
        rcases n2 with ⟨-, rfl⟩ | ⟨b', -, -, n2⟩
        · norm_num
        · exact num_lt n2
      split <;> omega
    rw [show v.offset = o from h2.eq (by simp only [unset]; omega)]
    omega
  · rintro (rfl | rfl)
    · obtain ⟨x, h1, h2⟩ := ha
      have := num_lt h1
      rw [show v.y = x from h2.eq (by simp only [unset]; omega)]
      omega
    · obtain ⟨m, d, y, h1, h2, -⟩ := ha
      obtain ⟨-, -, -, -, r, -, -, -, -, -, h1⟩ := seqD h1
      have := snum_lt h1
      rw [show v.y = y from h2.eq (by simp only [unset]; omega)]
      omega

end

/-- What the text says about the time. -/
def TimeFits (v : PVars) (x : Claim) : Prop :=
  x.h = (if v.H = -2147483648 then 0 else v.H) ∧ x.m = (if v.M = -2147483648 then 0 else v.M) ∧
  x.s = (if v.s = -9223372036854775808 then 0 else v.s) ∧ x.o = (if v.offset = -9223372036854775808 then 0 else v.offset)

/-- What the text says about the date. -/
structure DateFits (L : List Char) (v : PVars) (x : Claim) : Prop where
  Y : v.Y = -32768 ∨ v.Y = x.d.year
  y : v.y = 100 ∨ v.y = (x.d.year.natAbs % 100 : Nat)
  C : v.C = -327 ∨ v.C = x.d.year / 100
  m : v.m = 0 ∨ v.m = x.d.month
  dd : v.d = 0 ∨ v.d = x.d.day
  wd : v.wd = 8 ∨ v.wd = dayOfWeek x.n
  U : v.U = 100 ∨ v.U = countWeekday 0 (Calc.dayNum x.d.year 1 1) x.n
  W : v.W = 100 ∨ v.W = countWeekday 1 (Calc.dayNum x.d.year 1 1) x.n
  g : v.G = -32768 ∨ v.G = x.g
  k : v.V = 100 ∨ v.V = x.k
  j : v.j = -1 ∨ v.j = x.j

/-- A piece of text and its conversion. -/
theorem agrees_of {T : Nat} {L : List Char} {v : PVars} {x : Claim} (hT0 : 0 < T) (hT : T ≤ 10 ^ 15) (hw : fractionalWidth T ≤ 16)
    (ht : TimeFits v x) (hd : DateFits L v x) {md : Option Char} {c : Char} {a : List Char}
    (h : AgreeV T v md c a) : Agrees T (fractionalWidth T) x md c a := by
  obtain ⟨th, tm, ts, tz⟩ := ht
  have hdow := dow_lt x.n
  unfold AgreeV at h
  split at h
  · obtain ⟨z, h1, h2⟩ := h -- Y
    have l := snum_lt h1
    have e : v.Y = z := h2.eq (by simp only [unset]; omega)
    have : z = x.d.year := by have := hd.Y; omega
    rw [this] at h1
    exact h1
  · obtain ⟨z, h1, h2⟩ := h -- G
    have l := snum_lt h1
    have e : v.G = z := h2.eq (by simp only [unset]; omega)
    have : z = x.g := by have := hd.g; omega
    rw [this] at h1
    exact h1
  · obtain ⟨z, h1, h2⟩ := h -- C
    have l := snum_lt h1
    have e : v.C = z := h2.eq (by simp only [unset]; omega)
    have : z = x.d.year / 100 := by have := hd.C; omega
    rw [this] at h1
    exact h1
  · obtain ⟨z, h1, h2⟩ := h -- m
    refine ⟨z, h1, ?_⟩
    have := hd.m
    rcases h2 with h2 | h2 <;> simp only [unset, get] at h2 <;> omega
  · obtain ⟨z, h1, h2⟩ := h -- d
    refine ⟨z, h1, ?_⟩
    have := hd.dd
    rcases h2 with h2 | h2 <;> simp only [unset, get] at h2 <;> omega
  · obtain ⟨z, h1, h2⟩ := h -- y
    have l := num_lt h1
    have e : v.y = z := h2.eq (by simp only [unset]; omega)
    have : z = x.d.year.natAbs % 100 := by have := hd.y; omega
    rw [this] at h1
    exact h1
  · obtain ⟨z, h1, h2⟩ := h -- H
    have e : v.H = z := h2.eq (by simp only [unset]; omega)
    have : z = x.h := by split at th <;> omega
    rw [this] at h1
    exact h1
  · obtain ⟨z, h1, h2⟩ := h -- M
    have e : v.M = z := h2.eq (by simp only [unset]; omega)
    have : z = x.m := by split at tm <;> omega
    rw [this] at h1
    exact h1
  · obtain ⟨z, h1, h2⟩ := h -- U
    have l := num_lt h1
    have e : v.U = z := h2.eq (by simp only [unset]; omega)
    have : z = countWeekday 0 (Calc.dayNum x.d.year 1 1) x.n := by have := hd.U; omega
    exact ⟨_, newYear _, this ▸ h1⟩
  · obtain ⟨z, h1, h2⟩ := h -- V
    have l := num_lt h1
    have e : v.V = z := h2.eq (by simp only [unset]; omega)
    have : z = x.k := by have := hd.k; omega
    rw [this] at h1
    exact h1
  · obtain ⟨z, h1, h2⟩ := h -- W
    have l := num_lt h1
    have e : v.W = z := h2.eq (by simp only [unset]; omega)
    have : z = countWeekday 1 (Calc.dayNum x.d.year 1 1) x.n := by have := hd.W; omega
    exact ⟨_, newYear _, this ▸ h1⟩
  · obtain ⟨z, h1, h2⟩ := h -- j
    have e : v.j = z := h2.eq (by simp only [unset]; omega)
    have : z = x.j := by have := hd.j; omega
    rw [this] at h1
    exact h1
  · obtain ⟨z, h1, h3, h2⟩ := h -- w
    have e : v.wd = z := h2.eq (by simp only [unset]; omega)
    have : z = dayOfWeek x.n := by have := hd.wd; omega
    rw [this] at h1
    exact h1
  · obtain ⟨z, h1, h3, h4, h2⟩ := h -- u
    have e := h2.eq (by simp only [unset]; split <;> omega)
    change v.wd = _ at e
    have : z = if dayOfWeek x.n = 0 then 7 else dayOfWeek x.n := by
      have := hd.wd
      split at e <;> split <;> omega
    rw [this] at h1
    exact h1
  · obtain ⟨y, m, d, h1, h2, h3, h4⟩ := h -- F
    obtain ⟨m', d', p, q, r, rfl, rfl, rfl, n1, n2, n3⟩ := seqF h1
    have l := snum_lt n1
    have e : v.Y = y := h2.eq (by simp only [unset]; omega)
    have : y = x.d.year := by have := hd.Y; omega
    refine ⟨p, q, r, m', d', rfl, this ▸ n1, n2, n3, ?_, ?_⟩
    · have := hd.m
      rcases h3 with h3 | h3 <;> simp only [unset, get] at h3 <;> omega
    · have := hd.dd
      rcases h4 with h4 | h4 <;> simp only [unset, get] at h4 <;> omega
  · obtain ⟨m, d, y, h1, h2, h3, h4⟩ := h -- D
    obtain ⟨m', d', p, q, r, rfl, rfl, rfl, n1, n2, n3⟩ := seqD h1
    have l := snum_lt n3
    have e : v.y = y := h2.eq (by simp only [unset]; omega)
    have : y = (x.d.year.natAbs % 100 : Nat) := by have := hd.y; omega
    refine ⟨p, q, r, m', d', rfl, n1, n2, this ▸ n3, ?_, ?_⟩
    · have := hd.m
      rcases h3 with h3 | h3 <;> simp only [unset, get] at h3 <;> omega
    · have := hd.dd
      rcases h4 with h4 | h4 <;> simp only [unset, get] at h4 <;> omega
  · obtain ⟨h', m, h1, h2, h3⟩ := h -- R
    obtain ⟨h', m', p, q, rfl, rfl, rfl, n1, n2⟩ := seqR h1
    have e : v.H = h' := h2.eq (by simp only [unset]; omega)
    have e' : v.M = m' := h3.eq (by simp only [unset]; omega)
    obtain rfl : h' = x.h := by split at th <;> omega
    obtain rfl : m' = x.m := by split at tm <;> omega
    exact ⟨p, q, rfl, n1, n2⟩
  · obtain ⟨S, s, h1, h2, h3⟩ := h -- S
    have hs := secText hT0 hT hw h1 h2
    have e : v.s = s := h3.eq (by simp only [unset]; omega)
    have : s = x.s := by split at ts <;> omega
    rw [this] at hs
    exact hs.2
  · obtain ⟨h', m, S, s, h1, h2, h3, h4, h5⟩ := h -- T
    obtain ⟨h', m', p, q, r, rfl, rfl, rfl, n1, n2, n3⟩ := seqT h1
    have hs := secText hT0 hT hw n3 h2
    have e : v.H = h' := h3.eq (by simp only [unset]; omega)
    have e' : v.M = m' := h4.eq (by simp only [unset]; omega)
    have e'' : v.s = s := h5.eq (by simp only [unset]; omega)
    obtain rfl : h' = x.h := by split at th <;> omega
    obtain rfl : m' = x.m := by split at tm <;> omega
    have : s = x.s := by split at ts <;> omega
    exact ⟨p, q, r, rfl, n1, n2, this ▸ hs.2⟩
  · obtain ⟨o, h1, h2⟩ := h -- z
    have : o = x.o := by
      have ho : -9000 < o := by
        obtain ⟨g, a, b, h, m, -, -, n1, -, n2, rfl⟩ := h1
        have l1 := num_lt n1
        have l2 : m < 10 ^ 2 := by
          rcases n2 with ⟨-, rfl⟩ | ⟨b', -, -, n2⟩
          · norm_num
          · exact num_lt n2
        split <;> omega
      have e : v.offset = o := h2.eq (by simp only [unset]; omega)
      split at tz <;> omega
    rw [this] at h1
    exact h1
  · exact h
  · exact h.elim

/-- What the variables say; `its` and `text` are any format and text that they fit to. -/
theorem claim_of {e : PEnv} (hT0 : 0 < e.T) (hT : e.T ≤ 10 ^ 15) (hw : fractionalWidth e.T ≤ 16) {its : List Item} {text rest : List Char}
    {has : Bool} {v : PVars} {r : Parsed} {n Y : Int} (hc : Coherent (letters its)) (hs : Split (AgreeV e.T v) its text rest)
    (hst : Step (letters its) {} v) (d1 : DayOf n r.fds.ymd.date) (d2 : r.fds.ymd.toDays = .ok n)
    (F : FitsDate n r.fds.ymd.date { v with Y := Y })
    (hy : (v.y = 100 ∧ Y = v.Y) ∨ (v.y ≠ 100 ∧ v.y = (Y.natAbs % 100 : Nat) ∧ (v.C ≠ -327 → v.C = Y / 100) ∧
        (v.Y ≠ -32768 → v.Y = Y) ∧ Y = r.fds.ymd.date.year))
    (ht : (r.fds.tod, r.fds.hasTod) = theTime e.T { v with j := -1 } v.H ⟨0, 0, 0, 0, false⟩ has)
    (ho : r.offset = if v.offset ≠ -9223372036854775808 then some v.offset else none) :
    ∃ x : Claim, x.Consistent ∧ x.Rest (letters its) ∧ TimeFits v x ∧ DateFits (letters its) v x ∧
      r.fds.ymd.date = x.d ∧ r.fds.ymd.toDays = .ok x.n ∧
      r.fds.tod = ⟨x.h, x.m, x.s / e.T, x.s % e.T * 10 ^ fractionalWidth e.T / e.T, false⟩ ∧ 0 ≤ x.s ∧
      r.offset = if 'z' ∈ letters its then some x.o else none := by
  have sH := hst.of_set .H; have sM := hst.of_set .M; have ss := hst.of_set .s; have so := hst.of_set .off
  have sj := hst.of_set .j; have sV := hst.of_set .V
  have sU := hst.of_set .U; have sW := hst.of_set .W; have sC := hst.of_set .C; have sG := hst.of_set .G
  simp only [get, unset, InRange] at sH sM ss so sj sV sU sW sC sG
  obtain ⟨g0, k0, hgk⟩ := isoWeek_exists n
  -- the claim
  let x : Claim := ⟨n, r.fds.ymd.date, if v.G = -32768 then g0 else v.G, if v.V = 100 then k0 else v.V.toNat,
    if v.j = -1 then (n - Calc.dayNum r.fds.ymd.date.year 1 1 + 1).toNat else v.j.toNat,
    if v.H = -2147483648 then 0 else v.H.toNat, if v.M = -2147483648 then 0 else v.M.toNat,
    if v.s = -9223372036854775808 then 0 else v.s, if v.offset = -9223372036854775808 then 0 else v.offset⟩
  have hTF : TimeFits v x := by
    refine ⟨?_, ?_, rfl, rfl⟩
    · show ((if v.H = -2147483648 then 0 else v.H.toNat : Nat) : Int) = _
      split
      · rfl
      · rename_i hh; have := (sH hh).1; omega
    · show ((if v.M = -2147483648 then 0 else v.M.toNat : Nat) : Int) = _
      split
      · rfl
      · rename_i hh; have := (sM hh).1; omega
  have hs0 : v.s = -9223372036854775808 ∨ 0 ≤ v.s := by
    by_cases hh : v.s = -9223372036854775808
    · exact Or.inl hh
    · exact Or.inr (ticks_nonneg hT0 hT hw hs hst hh)
  have hyb := year_bounds d1
  have hDF : DateFits (letters its) v x := by
    refine ⟨?_, ?_, ?_, F.m, F.dd, F.wd, F.U, F.W, ?_, ?_, ?_⟩
    · have := F.Y
      simp only at this
      show v.Y = -32768 ∨ v.Y = r.fds.ymd.date.year
      rcases hy with ⟨-, rfl⟩ | ⟨-, -, -, h1, h2⟩
      · exact this
      · by_cases hh : v.Y = -32768
        · exact Or.inl hh
        · exact Or.inr ((h1 hh).trans h2)
    · show v.y = 100 ∨ v.y = (r.fds.ymd.date.year.natAbs % 100 : Nat)
      rcases hy with ⟨h, -⟩ | ⟨-, h, -, -, h2⟩
      · exact Or.inl h
      · exact Or.inr (h2 ▸ h)
    · show v.C = -327 ∨ v.C = r.fds.ymd.date.year / 100
      by_cases hh : v.C = -327
      · exact Or.inl hh
      · right
        obtain ⟨-, c, c1, c2⟩ := sC hh
        obtain rfl := fieldsOf_one (x := 'C') (f := .C) (by simp) c2
        have hy' : v.y ≠ 100 := by
          rcases hc.1 c1 with h | h
          · exact (set_of_mem hs h).2.2.2 (Or.inl rfl)
          · exact (set_of_mem hs h).2.2.2 (Or.inr rfl)
        rcases hy with ⟨h, -⟩ | ⟨-, -, h1, -, h2⟩
        · exact absurd h hy'
        · rw [h1 hh, h2]
    · show v.G = -32768 ∨ v.G = if v.G = -32768 then g0 else v.G
      split <;> omega
    · show v.V = 100 ∨ v.V = ((if v.V = 100 then k0 else v.V.toNat : Nat) : Int)
      split
      · exact Or.inl ‹_›
      · rename_i hh; have := (sV hh).1; omega
    · show v.j = -1 ∨ v.j = ((if v.j = -1 then (n - Calc.dayNum r.fds.ymd.date.year 1 1 + 1).toNat else v.j.toNat : Nat) : Int)
      split
      · exact Or.inl ‹_›
      · rename_i hh; have := (sj hh).1; omega
  refine ⟨x, ⟨d1, ?_, ?_⟩, ⟨?_, ?_, ?_⟩, hTF, hDF, rfl, d2, ?_, ?_, ?_⟩
  · -- the ISO week
    rintro ⟨n', hn'⟩
    show IsoWeek n (if v.G = -32768 then g0 else v.G) (if v.V = 100 then k0 else v.V.toNat)
    change IsoWeek n' (if v.G = -32768 then g0 else v.G) (if v.V = 100 then k0 else v.V.toNat) at hn'
    have hiso := F.iso
    simp only at hiso
    rcases hiso with ⟨h1, h2⟩ | ⟨h1, h2⟩ | ⟨h1, h2, h3, -⟩
    · -- a week of the year: neither ISO year nor ISO week
      have hL : 'U' ∈ letters its ∨ 'W' ∈ letters its := by
        rcases h1 with h | h
        · obtain ⟨-, c, c1, c2⟩ := sU h
          obtain rfl := fieldsOf_one (x := 'U') (f := .U) (by simp) c2
          exact Or.inl c1
        · obtain ⟨-, c, c1, c2⟩ := sW h
          obtain rfl := fieldsOf_one (x := 'W') (f := .W) (by simp) c2
          exact Or.inr c1
      have hGV := hc.2 hL
      have hG : v.G = -32768 := by
        by_contra hh
        obtain ⟨-, c, c1, c2⟩ := sG hh
        obtain rfl := fieldsOf_one (x := 'G') (f := .G) (by simp) c2
        exact (set_of_mem hs (hGV.mp c1)).2.1 rfl (h2.resolve_left hh)
      have hV : v.V = 100 := by
        by_contra hh
        obtain ⟨-, c, c1, c2⟩ := sV hh
        obtain rfl := fieldsOf_one (x := 'V') (f := .V) (by simp) c2
        exact (set_of_mem hs (hGV.mpr c1)).1 rfl hG
      rw [if_pos hG, if_pos hV]
      exact hgk
    · have eG : (if v.G = -32768 then g0 else v.G) = g0 := by
        split
        · rfl
        · rename_i hh
          obtain ⟨k, hk⟩ := h1.resolve_left hh
          exact (isoWeek_unique hk hgk).1
      have eV : (if v.V = 100 then k0 else v.V.toNat) = k0 := by
        split
        · rfl
        · rename_i hh
          obtain ⟨g, k, hk, hk'⟩ := h2.resolve_left hh
          rw [hk']
          exact (isoWeek_unique hk hgk).2
      rw [eG, eV]
      exact hgk
    · rw [if_neg h1, if_neg h2] at hn' ⊢
      have := (sV h2).1
      exact isoDay_week h3 (by omega) hn'
  · -- the day of the year
    rintro ⟨n', ny, m, d, e1, e2, e3⟩
    have e1 := newYear_iff.mp e1
    change n' = ny + ((if v.j = -1 then (n - Calc.dayNum r.fds.ymd.date.year 1 1 + 1).toNat else v.j.toNat : Nat) : Int) - 1 at e2
    change ny = Calc.dayNum r.fds.ymd.date.year 1 1 at e1
    change DayOf n' ⟨r.fds.ymd.date.year, m, d⟩ at e3
    show DayInYear r.fds.ymd.date.year _ n
    refine ⟨Calc.dayNum r.fds.ymd.date.year 1 1, r.fds.ymd.date.month, r.fds.ymd.date.day, newYear _, ?_, d1⟩
    show n = Calc.dayNum r.fds.ymd.date.year 1 1 + ((if v.j = -1 then (n - Calc.dayNum r.fds.ymd.date.year 1 1 + 1).toNat else v.j.toNat : Nat) : Int) - 1
    have hj := F.j
    simp only at hj
    split at e2
    · rename_i hh
      rw [if_pos hh]
      omega
    · rename_i hh
      rw [if_neg hh]
      have hr := (sj hh).1
      obtain ⟨n'', j1, j2, j3⟩ := hj.resolve_left hh
      have en : n' = n'' := by omega
      subst en
      have e3' := dateOf_of e3
      rw [e3'] at j2 j3
      simp only at j2 j3
      have : (⟨r.fds.ymd.date.year, m, d⟩ : Date) = r.fds.ymd.date := by rw [j2, j3]
      rw [this] at e3
      have := dayOf_days_unique e3 d1
      omega
  · intro h1 h2 h3
    show (if v.H = -2147483648 then 0 else v.H.toNat) = 0
    split
    · rfl
    · rename_i hh
      obtain ⟨-, c, c1, c2⟩ := sH hh
      rcases fieldsOf_H c2 with rfl | rfl | rfl
      · exact absurd c1 h1
      · exact absurd c1 h2
      · exact absurd c1 h3
  · intro h1 h2 h3
    show (if v.M = -2147483648 then 0 else v.M.toNat) = 0
    split
    · rfl
    · rename_i hh
      obtain ⟨-, c, c1, c2⟩ := sM hh
      rcases fieldsOf_M c2 with rfl | rfl | rfl
      · exact absurd c1 h1
      · exact absurd c1 h2
      · exact absurd c1 h3
  · intro h1 h2
    show (if v.s = -9223372036854775808 then 0 else v.s) = 0
    split
    · rfl
    · rename_i hh
      obtain ⟨-, c, c1, c2⟩ := ss hh
      rcases fieldsOf_s c2 with rfl | rfl
      · exact absurd c1 h1
      · exact absurd c1 h2
  · have := theTime_of hT0 { v with j := -1 } rfl (by
        simp only; by_cases hh : v.H = -2147483648
        · exact Or.inl hh
        · exact Or.inr (sH hh).1.1) (by
        simp only; by_cases hh : v.M = -2147483648
        · exact Or.inl hh
        · exact Or.inr (sM hh).1.1) hs0 has hTF.1 hTF.2.1 hTF.2.2.1
    have ht' := ht.trans this
    exact congrArg Prod.fst ht'
  · show 0 ≤ if v.s = -9223372036854775808 then 0 else v.s
    split <;> omega
  · rw [ho]
    show _ = if _ then some (if v.offset = -9223372036854775808 then 0 else v.offset) else none
    by_cases hz : 'z' ∈ letters its
    · have := (set_of_mem hs hz).2.2.1 rfl
      rw [if_pos this, if_pos hz, if_neg this]
    · have : v.offset = -9223372036854775808 := by
        by_contra hh
        obtain ⟨-, c, c1, c2⟩ := so hh
        obtain rfl := fieldsOf_one (x := 'z') (f := .off) (by simp) c2
        exact hz c1
      simp [this, hz]

/-- A call that finds a valid date. -/
theorem fromStream_claim {e : PEnv} (hT0 : 0 < e.T) (hT : e.T ≤ 10 ^ 15) (hw : fractionalWidth e.T ≤ 16) {fmt text : List Char} {has : Bool}
    {is : IStream} {r : Parsed} (hr : ∀ i ∈ items fmt, Readable i) (hc : Coherent (letters (items fmt)))
    (h : fromStream e ⟨text, false, false⟩ fmt { hasTod := has } = .ok (is, some r)) (hok : r.fds.ymd.ok = true) :
    ∃ x : Claim, x.Consistent ∧ x.Rest (letters (items fmt)) ∧
      Split (Agrees e.T (fractionalWidth e.T) x) (items fmt) text is.rest ∧ r.fds.ymd.date = x.d ∧ r.fds.ymd.toDays = .ok x.n ∧
      r.fds.tod = ⟨x.h, x.m, x.s / e.T, x.s % e.T * 10 ^ fractionalWidth e.T / e.T, false⟩ ∧ 0 ≤ x.s ∧
      r.offset = if 'z' ∈ letters (items fmt) then some x.o else none := by
  obtain ⟨v, hs, hst, hcm⟩ := fromStream_sound hw hr h
  obtain ⟨n, Y, d1, d2, F, hy, ht, ho⟩ := combine_inv hst.bounded hok hcm
  obtain ⟨x, a1, a2, hTF, hDF, a3⟩ := claim_of hT0 hT hw hc hs hst d1 d2 F hy ht ho
  exact ⟨x, a1, a2, split_mono _ _ _ (fun md c a _ hp => agrees_of hT0 hT hw hTF hDF hp) hs, a3⟩

end Gul14.Date
