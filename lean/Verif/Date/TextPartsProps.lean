import Verif.Date.TextParts

/-! # C102: calendar values and durations as text are unambiguous -/
namespace Gul14.Date.Parts
open Gul14.Spec.DateText

/-! ### Lemmas -/

theorem split_char {c : Char} {a b a' b' : List Char} (h : c ∉ a) (h' : c ∉ a')
    (e : a ++ c :: b = a' ++ c :: b') : a = a' ∧ b = b' := by
  induction a generalizing a' with
  | nil =>
    cases a' with
    | nil => simpa using e
    | cons x xs => simp only [List.nil_append, List.cons_append, List.cons.injEq] at e; simp [← e.1] at h'
  | cons x xs ih =>
    cases a' with
    | nil => simp only [List.nil_append, List.cons_append, List.cons.injEq] at e; simp [e.1] at h
    | cons y ys =>
      simp only [List.cons_append, List.cons.injEq] at e
      simp only [List.mem_cons, not_or] at h h'
      obtain ⟨r1, r2⟩ := ih h.2 h'.2 e.2
      exact ⟨by rw [e.1, r1], r2⟩

theorem dec_inj {a b : Nat} (h : dec a = dec b) : a = b := by
  have h1 := (dec_spec a).2.2.1
  rw [h, (dec_spec b).2.2.1] at h1
  exact h1.symm

theorem padDec_inj {w a b : Nat} (h : pad w (dec a) = pad w (dec b)) : a = b := by
  have h1 : value (pad w (dec a)) = a := by rw [pad, value_zeros, (dec_spec a).2.2.1]
  have h2 : value (pad w (dec b)) = b := by rw [pad, value_zeros, (dec_spec b).2.2.1]
  rw [h, h2] at h1
  exact h1.symm

theorem dec_digits (n : Nat) : ∀ c, c ∈ dec n → isDigit c = true := fun c hc =>
  List.all_eq_true.mp (dec_spec n).2.1 c hc

theorem pad_digits (w n : Nat) : ∀ c, c ∈ pad w (dec n) → isDigit c = true := by
  intro c hc
  unfold pad at hc
  rcases List.mem_append.mp hc with h | h
  · rw [(List.mem_replicate.mp h).2]; decide
  · exact dec_digits n c h

theorem u8_inj {a b : UInt8} (h : a.toNat = b.toNat) : a = b := UInt8.toNat_inj.mp h

theorem i16_inj {a b : Int16} (h : a.toInt = b.toInt) : a = b := Int16.toInt_inj.mp h

/-- The names of a locale can be told apart: they are different, not empty, contain neither spaces nor the characters
`/` and `[`, and do not begin with a digit. -/
structure Good (N : Names) : Prop where
  mon : ∀ i j, 1 ≤ i ∧ i ≤ 12 → 1 ≤ j ∧ j ≤ 12 → N.mon i = N.mon j → i = j
  wd : ∀ i j, i ≤ 6 → j ≤ 6 → N.wd i = N.wd j → i = j
  monText : ∀ i, 1 ≤ i ∧ i ≤ 12 → (∃ c t, N.mon i = c :: t ∧ isDigit c = false) ∧
    ' ' ∉ N.mon i ∧ '/' ∉ N.mon i ∧ '[' ∉ N.mon i
  wdText : ∀ i, i ≤ 6 → (∃ c t, N.wd i = c :: t ∧ isDigit c = false) ∧
    ' ' ∉ N.wd i ∧ '/' ∉ N.wd i ∧ '[' ∉ N.wd i

theorem not_digit {s : List Char} (h : ∀ c, c ∈ s → isDigit c = true) {c : Char} (hc : isDigit c = false) : c ∉ s :=
  fun hm => by rw [h c hm] at hc; cases hc

theorem monthOk_range (m : UInt8) : monthOk m = true ↔ 1 ≤ m.toNat ∧ m.toNat ≤ 12 := by
  simp only [monthOk, Bool.and_eq_true, decide_eq_true_eq, UInt8.le_iff_toNat_le]
  rfl

theorem weekdayOk_range (w : UInt8) : weekdayOk w = true ↔ w.toNat ≤ 6 := by
  simp only [weekdayOk, decide_eq_true_eq, UInt8.le_iff_toNat_le]
  rfl

variable {N : Names}

theorem name_dec {s : List Char} (h : ∃ c t, s = c :: t ∧ isDigit c = false) (n : Nat) : s ≠ dec n := by
  obtain ⟨c, t, rfl, hc⟩ := h
  intro he
  have := dec_digits n c (by rw [← he]; simp)
  rw [hc] at this
  cases this

theorem monthBase_inj (hN : Good N) {m m' : UInt8} (h : monthBase N m = monthBase N m') : m = m' := by
  unfold monthBase at h
  by_cases h1 : monthOk m = true <;> by_cases h2 : monthOk m' = true
  · rw [if_pos h1, if_pos h2] at h
    exact u8_inj (hN.mon _ _ ((monthOk_range m).mp h1) ((monthOk_range m').mp h2) h)
  · rw [if_pos h1, if_neg h2] at h
    exact absurd h (name_dec (hN.monText _ ((monthOk_range m).mp h1)).1 _)
  · rw [if_neg h1, if_pos h2] at h
    exact absurd h.symm (name_dec (hN.monText _ ((monthOk_range m').mp h2)).1 _)
  · rw [if_neg h1, if_neg h2] at h
    exact u8_inj (dec_inj h)

theorem weekdayBase_inj (hN : Good N) {m m' : UInt8} (h : weekdayBase N m = weekdayBase N m') : m = m' := by
  unfold weekdayBase at h
  by_cases h1 : weekdayOk m = true <;> by_cases h2 : weekdayOk m' = true
  · rw [if_pos h1, if_pos h2] at h
    exact u8_inj (hN.wd _ _ ((weekdayOk_range m).mp h1) ((weekdayOk_range m').mp h2) h)
  · rw [if_pos h1, if_neg h2] at h
    exact absurd h (name_dec (hN.wdText _ ((weekdayOk_range m).mp h1)).1 _)
  · rw [if_neg h1, if_pos h2] at h
    exact absurd h.symm (name_dec (hN.wdText _ ((weekdayOk_range m').mp h2)).1 _)
  · rw [if_neg h1, if_neg h2] at h
    exact u8_inj (dec_inj h)

theorem yearBase_inj {y y' : Int16} (h : yearBase y = yearBase y') : y = y' := by
  unfold yearBase at h
  have hm : ∀ n, '-' ∉ pad 4 (dec n) := fun n => not_digit (pad_digits 4 n) (by decide)
  apply i16_inj
  by_cases h1 : y.toInt < 0 <;> by_cases h2 : y'.toInt < 0
  · rw [if_pos h1, if_pos h2] at h
    have := padDec_inj (List.cons.inj h).2
    omega
  · rw [if_pos h1, if_neg h2] at h
    exact absurd (by rw [← h]; simp) (hm y'.toInt.natAbs)
  · rw [if_neg h1, if_pos h2] at h
    exact absurd (by rw [h]; simp) (hm y.toInt.natAbs)
  · rw [if_neg h1, if_neg h2] at h
    have := padDec_inj h
    omega

theorem dayBase_inj {d d' : UInt8} (h : dayBase d = dayBase d') : d = d' := u8_inj (padDec_inj h)

theorem decInt_inj {a b : Int} (h : decInt a = decInt b) : a = b := by
  unfold decInt at h
  have hm : ∀ n, '-' ∉ dec n := fun n => not_digit (dec_digits n) (by decide)
  by_cases h1 : a < 0 <;> by_cases h2 : b < 0
  · rw [if_pos h1, if_pos h2] at h
    have := dec_inj (List.cons.inj h).2
    omega
  · rw [if_pos h1, if_neg h2] at h
    exact absurd (by rw [← h]; simp) (hm b.natAbs)
  · rw [if_neg h1, if_pos h2] at h
    exact absurd (by rw [h]; simp) (hm a.natAbs)
  · rw [if_neg h1, if_neg h2] at h
    have := dec_inj h
    omega

theorem monthBase_not (hN : Good N) (m : UInt8) : ' ' ∉ monthBase N m ∧ '/' ∉ monthBase N m ∧ '[' ∉ monthBase N m := by
  unfold monthBase
  split
  · rename_i h
    exact (hN.monText _ ((monthOk_range m).mp h)).2
  · exact ⟨not_digit (dec_digits _) (by decide), not_digit (dec_digits _) (by decide),
      not_digit (dec_digits _) (by decide)⟩

theorem weekdayBase_not (hN : Good N) (m : UInt8) :
    ' ' ∉ weekdayBase N m ∧ '/' ∉ weekdayBase N m ∧ '[' ∉ weekdayBase N m := by
  unfold weekdayBase
  split
  · rename_i h
    exact (hN.wdText _ ((weekdayOk_range m).mp h)).2
  · exact ⟨not_digit (dec_digits _) (by decide), not_digit (dec_digits _) (by decide),
      not_digit (dec_digits _) (by decide)⟩

theorem yearBase_not (y : Int16) : ' ' ∉ yearBase y ∧ '/' ∉ yearBase y := by
  unfold yearBase
  have h1 := fun n => not_digit (pad_digits 4 n) (c := ' ') (by decide)
  have h2 := fun n => not_digit (pad_digits 4 n) (c := '/') (by decide)
  split <;> simp [h1, h2]

theorem wiBase_inj (hN : Good N) {x x' : WI} (h : wiBase N x = wiBase N x') : x.eq x' = true := by
  unfold wiBase at h
  obtain ⟨h1, h2⟩ := split_char (weekdayBase_not hN _).2.2 (weekdayBase_not hN _).2.2 h
  have h3 := weekdayBase_inj hN h1
  have h4 := dec_inj (List.append_cancel_right h2)
  simp [WI.eq, weekdayEq, h3, val, h4]

theorem wlBase_inj (hN : Good N) {x x' : UInt8} (h : wlBase N x = wlBase N x') : x = x' :=
  weekdayBase_inj hN (List.append_cancel_right h)

/-- A class of calendar values, not `int` or `last`. -/
def _root_.Gul14.Date.Obj.isClass : Obj → Bool
  | .int _ | .last => false
  | _ => true

theorem base_inj (hN : Good N) {o o' : Obj} (hc : o.isClass = true) (hk : className o = className o')
    (h : base N o = base N o') : objEq o o' = true := by
  have hslash : ∀ {m m' : UInt8} {a b : List Char}, monthBase N m ++ '/' :: a = monthBase N m' ++ '/' :: b →
      m = m' ∧ a = b := by
    intro m m' a b e
    obtain ⟨e1, e2⟩ := split_char (monthBase_not hN _).2.1 (monthBase_not hN _).2.1 e
    exact ⟨monthBase_inj hN e1, e2⟩
  have yslash : ∀ {m m' : Int16} {a b : List Char}, yearBase m ++ '/' :: a = yearBase m' ++ '/' :: b →
      m = m' ∧ a = b := by
    intro m m' a b e
    obtain ⟨e1, e2⟩ := split_char (yearBase_not _).2 (yearBase_not _).2 e
    exact ⟨yearBase_inj e1, e2⟩
  cases o <;> cases o' <;> first | (simp [Obj.isClass] at hc; done) | (exfalso; revert hk; simp [className]; done) | skip
  · have := dayBase_inj h
    simp [objEq, dayCmp, this]
  · have := monthBase_inj hN h
    simp [objEq, monthCmp, this]
  · have := yearBase_inj h
    simp [objEq, yearCmp, this]
  · exact wiBase_inj hN h
  · have := wlBase_inj hN h
    simp [objEq, weekdayEq, this]
  · obtain ⟨rfl, e⟩ := yslash h
    have := monthBase_inj hN e
    simp [objEq, ymCmp, yearCmp, monthCmp, this]
  · obtain ⟨rfl, e⟩ := hslash h
    have := dayBase_inj e
    simp [objEq, mdCmp, dayCmp, monthCmp, this]
  · have := monthBase_inj hN (List.append_cancel_right h)
    simp [objEq, monthCmp, this]
  · obtain ⟨rfl, e⟩ := hslash h
    have := wiBase_inj hN e
    simp [objEq, monthWeekdayEq, monthCmp, this]
  · obtain ⟨rfl, e⟩ := hslash h
    have := wlBase_inj hN e
    simp [objEq, monthWeekdayLastEq, monthCmp, weekdayEq, this]
  · rename_i y m d y' m' d'
    have h : decInt y.toInt ++ '-' :: (pad 2 (dec m.toNat) ++ '-' :: pad 2 (dec d.toNat)) =
      decInt y'.toInt ++ '-' :: (pad 2 (dec m'.toNat) ++ '-' :: pad 2 (dec d'.toNat)) := h
    have hm : ∀ n, '-' ∉ dec n := fun n => not_digit (dec_digits n) (by decide)
    have hp : ∀ n, '-' ∉ pad 2 (dec n) := fun n => not_digit (pad_digits 2 n) (by decide)
    have key : y.toInt = y'.toInt ∧ (pad 2 (dec m.toNat) ++ '-' :: pad 2 (dec d.toNat)) =
        (pad 2 (dec m'.toNat) ++ '-' :: pad 2 (dec d'.toNat)) := by
      unfold decInt at h
      by_cases h1 : y.toInt < 0 <;> by_cases h2 : y'.toInt < 0
      · rw [if_pos h1, if_pos h2] at h
        obtain ⟨e1, e2⟩ := split_char (hm _) (hm _) (List.cons.inj h).2
        have := dec_inj e1
        exact ⟨by omega, e2⟩
      · rw [if_pos h1, if_neg h2] at h
        exfalso
        cases hd : dec y'.toInt.natAbs with
        | nil => exact (dec_spec _).1 hd
        | cons c t =>
            rw [hd] at h
            have := (List.cons.inj h).1
            have h3 := dec_digits y'.toInt.natAbs c (by rw [hd]; simp)
            rw [← this] at h3
            revert h3; decide
      · rw [if_neg h1, if_pos h2] at h
        exfalso
        cases hd : dec y.toInt.natAbs with
        | nil => exact (dec_spec _).1 hd
        | cons c t =>
            rw [hd] at h
            have := (List.cons.inj h).1
            have h3 := dec_digits y.toInt.natAbs c (by rw [hd]; simp)
            rw [this] at h3
            revert h3; decide
      · rw [if_neg h1, if_neg h2] at h
        obtain ⟨e1, e2⟩ := split_char (hm _) (hm _) h
        have := dec_inj e1
        exact ⟨by omega, e2⟩
    obtain ⟨e1, e2⟩ := split_char (hp _) (hp _) key.2
    have h1 := i16_inj key.1
    have h2 := u8_inj (padDec_inj e1)
    have h3 := u8_inj (padDec_inj e2)
    simp [objEq, ymdCmp, yearCmp, monthCmp, dayCmp, h1, h2, h3]
  · obtain ⟨rfl, e⟩ := yslash h
    have := monthBase_inj hN (List.append_cancel_right e)
    simp [objEq, ymlCmp, yearCmp, monthCmp, this]
  · obtain ⟨rfl, e⟩ := yslash h
    obtain ⟨rfl, e2⟩ := hslash e
    have := wiBase_inj hN e2
    simp [objEq, ymwEq, yearCmp, monthCmp, this]
  · obtain ⟨rfl, e⟩ := yslash h
    obtain ⟨rfl, e2⟩ := hslash e
    have := wlBase_inj hN e2
    simp [objEq, ymwlEq, yearCmp, monthCmp, weekdayEq, this]


theorem base_nospace (hN : Good N) {o : Obj} (hc : o.isClass = true) : ' ' ∉ base N o := by
  have hm := fun m => (monthBase_not hN m).1
  have hy := fun y => (yearBase_not y).1
  have hw := fun w => (weekdayBase_not hN w).1
  have hd := fun n => not_digit (dec_digits n) (c := ' ') (by decide)
  have hp := fun k n => not_digit (pad_digits k n) (c := ' ') (by decide)
  have hdi : ∀ n, ' ' ∉ decInt n := by
    intro n
    unfold decInt
    split <;> simp [hd]
  cases o <;> first
    | (simp [Obj.isClass] at hc; done)
    | simp [base, wiBase, wlBase, dayBase, hm, hy, hw, hd, hp, hdi]

theorem objOk_total (o : Obj) : ∃ b, objOk o = .ok b := by
  cases o with
  | ymw y m x =>
      obtain ⟨b, hb, _⟩ := c75_ok ⟨y, m, x.wd, x.idx⟩
      exact ⟨b, hb⟩
  | _ => exact ⟨_, rfl⟩

theorem eq_of_objEq {o o' : Obj} (h : objEq o o' = true) :
    className o = className o' ∧ base N o = base N o' ∧ objOk o = objOk o' := by
  have hval : ∀ {a b : UInt8}, val a = val b → a = b := by
    intro a b h
    exact u8_inj (by unfold val at h; omega)
  have hwi : ∀ {x x' : WI}, x.eq x' = true → x.weekday = x'.weekday ∧ x.idx = x'.idx := by
    intro x x' h
    simp only [WI.eq, weekdayEq, Bool.and_eq_true, beq_iff_eq, decide_eq_true_eq] at h
    exact ⟨h.1, hval h.2⟩
  cases o <;> cases o' <;> first | (simp [objEq] at h; done) | skip
  · have := hval (of_decide_eq_true h); subst this; simp
  · have := hval (of_decide_eq_true h); subst this; simp
  · have := i16_inj (of_decide_eq_true h); subst this; simp
  · obtain ⟨h1, h2⟩ := hwi h
    simp [className, base, wiBase, objOk, WI.ok, h1, h2]
  · simp [objEq, weekdayEq] at h; subst h; simp
  · simp only [objEq, ymCmp, yearCmp, monthCmp, Bool.and_eq_true, decide_eq_true_eq] at h
    obtain ⟨h1, h2⟩ := h
    have h1 := i16_inj h1; have h2 := hval h2; subst h1 h2; simp
  · simp only [objEq, mdCmp, dayCmp, monthCmp, Bool.and_eq_true, decide_eq_true_eq] at h
    obtain ⟨h1, h2⟩ := h
    have h1 := hval h1; have h2 := hval h2; subst h1 h2; simp
  · have := hval (of_decide_eq_true h); subst this; simp
  · simp only [objEq, monthWeekdayEq, monthCmp, Bool.and_eq_true, decide_eq_true_eq] at h
    obtain ⟨h1, h2⟩ := h
    have h1 := hval h1; subst h1
    obtain ⟨h1, h2⟩ := hwi h2
    simp [className, base, wiBase, objOk, monthWeekdayOk, WI.ok, h1, h2]
  · simp only [objEq, monthWeekdayLastEq, monthCmp, weekdayEq, Bool.and_eq_true, decide_eq_true_eq, beq_iff_eq] at h
    obtain ⟨h1, h2⟩ := h
    have h1 := hval h1; subst h1 h2; simp
  · simp only [objEq, ymdCmp, yearCmp, dayCmp, monthCmp, Bool.and_eq_true, decide_eq_true_eq] at h
    obtain ⟨⟨h1, h2⟩, h3⟩ := h
    have h1 := i16_inj h1; have h2 := hval h2; have h3 := hval h3; subst h1 h2 h3; simp
  · simp only [objEq, ymlCmp, yearCmp, monthCmp, Bool.and_eq_true, decide_eq_true_eq] at h
    obtain ⟨h1, h2⟩ := h
    have h1 := i16_inj h1; have h2 := hval h2; subst h1 h2; simp
  · simp only [objEq, ymwEq, yearCmp, monthCmp, Bool.and_eq_true, decide_eq_true_eq] at h
    obtain ⟨⟨h1, h2⟩, h3⟩ := h
    have h1 := i16_inj h1; have h2 := hval h2; subst h1 h2
    obtain ⟨h1, h2⟩ := hwi h3
    have h4 : ∀ (y : Int16) (m : UInt8) (x : WI), (YMWD.mk y m x.wd x.idx).weekday = x.weekday := fun _ _ _ => rfl
    refine ⟨rfl, by simp [base, wiBase, h1, h2], ?_⟩
    rename_i x x' _ _
    have h5 : ∀ y m i, (YMWD.mk y m x.wd i).weekday = x'.weekday := fun _ _ _ => h1
    simp only [objOk, YMWD.ok, h4, h5, h2]
  · simp only [objEq, ymwlEq, yearCmp, monthCmp, weekdayEq, Bool.and_eq_true, decide_eq_true_eq, beq_iff_eq] at h
    obtain ⟨⟨h1, h2⟩, h3⟩ := h
    have h1 := i16_inj h1; have h2 := hval h2; subst h1 h2 h3; simp

/-! ### Calendar values -/

/-- **C102.**  operator<< of every calendar class is defined for every value, and two values of a class are written in
the same way if and only if operator== says that they are equal, whether they are ok() or not. -/
theorem c102_calendar (hN : Good N) (o o' : Obj) (hc : o.isClass = true) (hk : className o = className o') :
    (∃ t, objText N o = .ok t) ∧ (objText N o = objText N o' ↔ objEq o o' = true) := by
  obtain ⟨b, hb⟩ := objOk_total o
  obtain ⟨b', hb'⟩ := objOk_total o'
  have hc' : o'.isClass = true := by
    cases o' <;> first | rfl | (cases o <;> first | (simp [className] at hk; done) | (simp [Obj.isClass] at hc; done))
  have e1 : objText N o = .ok (base N o ++ if b then [] else (" is not a valid " ++ className o).toList) := by
    unfold objText; rw [hb]; rfl
  have e2 : objText N o' = .ok (base N o' ++ if b' then [] else (" is not a valid " ++ className o').toList) := by
    unfold objText; rw [hb']; rfl
  have n1 := base_nospace hN hc
  have n2 := base_nospace hN hc'
  have hsuf : ∀ o : Obj, ∃ t, (" is not a valid " ++ className o).toList = ' ' :: t := by
    intro o
    exact ⟨"is not a valid ".toList ++ (className o).toList, by rw [String.toList_append]; rfl⟩
  refine ⟨⟨_, e1⟩, ?_⟩
  constructor
  · intro h
    rw [e1, e2] at h
    have h := Res.ok.inj h
    apply base_inj hN hc hk
    obtain ⟨t, ht⟩ := hsuf o
    obtain ⟨t', ht'⟩ := hsuf o'
    cases b <;> cases b' <;> simp only [Bool.false_eq_true, if_false, if_true, List.append_nil, ht, ht'] at h
    · exact (split_char n1 n2 h).1
    · exact absurd (by rw [← h]; simp) n2
    · exact absurd (by rw [h]; simp) n1
    · exact h
  · intro h
    obtain ⟨h1, h2, h3⟩ := eq_of_objEq (N := N) h
    unfold objText
    rw [h1, h2, h3]

/-- **C102.**  The same for weekdays. -/
theorem c102_weekday (hN : Good N) (w w' : UInt8) : weekdayText N w = weekdayText N w' ↔ weekdayEq w w' = true := by
  constructor
  · intro h
    have n1 := (weekdayBase_not hN w).1
    have n2 := (weekdayBase_not hN w').1
    have hs : " is not a valid weekday".toList = ' ' :: "is not a valid weekday".toList := by decide
    have : w = w' := by
      apply weekdayBase_inj hN
      unfold weekdayText at h
      rw [hs] at h
      by_cases h1 : weekdayOk w = true <;> by_cases h2 : weekdayOk w' = true <;>
        simp only [h1, h2, Bool.false_eq_true, if_false, if_true, List.append_nil] at h
      · exact h
      · exact absurd (by rw [h]; simp) n1
      · exact absurd (by rw [← h]; simp) n2
      · exact (split_char n1 n2 h).1
    simp [weekdayEq, this]
  · intro h
    simp [weekdayEq] at h
    rw [h]

/-! ### Durations -/

theorem mslGo_eq (fuel : Nat) : ∀ n, mslGo fuel n = decGo fuel n := by
  induction fuel with
  | zero => intro n; rfl
  | succ f ih => intro n; simp only [mslGo, decGo, ih]

theorem mslNum_eq (n : Nat) : mslNum n = dec n := mslGo_eq n n

theorem decGo_fuel : ∀ (f g n : Nat), n ≤ f → n ≤ g → decGo f n = decGo g n := by
  intro f
  induction f with
  | zero =>
      intro g n hf hg
      have : n = 0 := by omega
      subst this
      cases g <;> simp [decGo]
  | succ f ih =>
      intro g n hf hg
      cases g with
      | zero =>
          have : n = 0 := by omega
          subst this
          simp [decGo]
      | succ g =>
          simp only [decGo]
          split
          · rfl
          · rw [ih g (n / 10) (by omega) (by omega)]

theorem toStringLenGo_eq : ∀ (fuel n r : Nat), n < fuel → toStringLenGo fuel n r = r + (dec n).length := by
  intro fuel
  induction fuel with
  | zero => intro n r h; omega
  | succ f ih =>
      intro n r h
      simp only [toStringLenGo]
      by_cases h10 : n < 10
      · have : n / 10 = 0 := by omega
        rw [if_neg (by omega)]
        have : (dec n).length = 1 := by
          unfold dec
          cases n with
          | zero => rfl
          | succ k => simp only [decGo]; rw [if_pos h10]; rfl
        omega
      · rw [if_pos (by omega), ih (n / 10) (r + 1) (by omega)]
        have : dec n = dec (n / 10) ++ [digit n] := by
          unfold dec
          obtain ⟨k, rfl⟩ : ∃ k, n = k + 1 := ⟨n - 1, by omega⟩
          rw [show decGo (k + 1) (k + 1) = decGo k ((k + 1) / 10) ++ [digit (k + 1)] by simp only [decGo]; rw [if_neg h10]]
          rw [decGo_fuel k ((k + 1) / 10) ((k + 1) / 10) (by omega) (by omega)]
        rw [this, List.length_append]
        simp
        omega

/-- **C102.**  The texts of the numbers in a unit are the usual numerals, and fit the arrays that are computed for
them at compile time. -/
theorem c102_numbers (n : Nat) : Numeral n (mslNum n) ∧ (mslNum n).length = toStringLen n := by
  rw [mslNum_eq]
  refine ⟨dec_spec n, ?_⟩
  unfold toStringLen
  rw [toStringLenGo_eq _ _ _ (by omega)]
  omega

theorem lookup_mem {α β : Type} [BEq α] [LawfulBEq α] [DecidableEq α] : ∀ {l : List (α × β)} {k : α} {v : β}, l.lookup k = some v → (k, v) ∈ l := by
  intro l
  induction l with
  | nil => intro k v h; cases h
  | cons x xs ih =>
      intro k v h
      obtain ⟨a, b⟩ := x
      rw [List.lookup_cons] at h
      by_cases hk : k = a
      · subst hk
        simp at h
        simp [h]
      · have : (k == a) = false := by simp [hk]
        rw [this] at h
        exact List.mem_cons_of_mem _ (ih h)

/-- What is written for a unit: one of the known texts, or the ratio in brackets. -/
inductive Unit' : Nat → Nat → List Char → Prop
  | known (n d t) (h : ((n, d), t) ∈ (((1, 1), ['s']) :: ((3600, 1), ['h']) :: ((60, 1), ['m', 'i', 'n']) :: ((86400, 1), ['d']) ::
      prefixes.map fun p => (p.1, p.2 ++ ['s']) : List ((Nat × Nat) × List Char))) : Unit' n d t
  | whole (n) : Unit' n 1 ('[' :: (dec n ++ [']', 's']))
  | ratio (n d) (h : d ≠ 1) : Unit' n d ('[' :: (dec n ++ '/' :: (dec d ++ [']', 's'])))

theorem getUnits_cases (n d : Nat) : Unit' n d (getUnits n d) := by
  unfold getUnits
  split
  · rename_i h; obtain ⟨rfl, rfl⟩ := h; exact .known _ _ _ (by simp)
  split
  · rename_i h; obtain ⟨rfl, rfl⟩ := h; exact .known _ _ _ (by simp)
  split
  · rename_i h; obtain ⟨rfl, rfl⟩ := h; exact .known _ _ _ (by simp)
  split
  · rename_i h; obtain ⟨rfl, rfl⟩ := h; exact .known _ _ _ (by simp)
  unfold msl
  split
  · rename_i t ht
    refine .known _ _ _ ?_
    refine List.mem_cons_of_mem _ (List.mem_cons_of_mem _ (List.mem_cons_of_mem _ (List.mem_cons_of_mem _ ?_)))
    exact List.mem_map.mpr ⟨((n, d), t), lookup_mem ht, rfl⟩
  · split
    · rename_i h
      subst h
      rw [mslNum_eq]
      simpa using Unit'.whole n
    · rename_i h
      rw [mslNum_eq, mslNum_eq]
      simpa using Unit'.ratio n d h

/-- The known texts are different, and begin with something that is neither a digit nor a bracket. -/
theorem known_facts : ∀ x, x ∈ (((1, 1), ['s']) :: ((3600, 1), ['h']) :: ((60, 1), ['m', 'i', 'n']) :: ((86400, 1), ['d']) ::
      prefixes.map fun p => (p.1, p.2 ++ ['s']) : List ((Nat × Nat) × List Char)) →
    (∀ y, y ∈ (((1, 1), ['s']) :: ((3600, 1), ['h']) :: ((60, 1), ['m', 'i', 'n']) :: ((86400, 1), ['d']) ::
      prefixes.map fun p => (p.1, p.2 ++ ['s']) : List ((Nat × Nat) × List Char)) → x.2 = y.2 → x.1 = y.1) ∧
    (match x.2 with | [] => false | c :: _ => !isDigit c && c != '[') = true := by
  decide +kernel

theorem units_inj {n d n' d' : Nat} (h : getUnits n d = getUnits n' d') : n = n' ∧ d = d' := by
  have hb : ∀ n, ']' ∉ dec n := fun n => not_digit (dec_digits n) (by decide)
  have hs : ∀ n, '/' ∉ dec n := fun n => not_digit (dec_digits n) (by decide)
  have u := getUnits_cases n d
  have u' := getUnits_cases n' d'
  rw [← h] at u'
  generalize getUnits n d = t at u u'
  have kb : ∀ {n d : Nat} {t : List Char}, ((n, d), t) ∈ (((1, 1), ['s']) :: ((3600, 1), ['h']) :: ((60, 1), ['m', 'i', 'n']) :: ((86400, 1), ['d']) ::
      prefixes.map fun p => (p.1, p.2 ++ ['s']) : List ((Nat × Nat) × List Char)) → ∀ s, t ≠ '[' :: s := by
    intro n d t hm s he
    have := (known_facts _ hm).2
    simp only [he] at this
    revert this; decide
  cases u with
  | known _ _ hm =>
      cases u' with
      | known _ _ hm' =>
          have := (known_facts _ hm).1 _ hm' rfl
          simpa using this
      | whole => exact absurd rfl (kb hm _)
      | ratio => exact absurd rfl (kb hm _)
  | whole =>
      generalize ht : '[' :: (dec n ++ [']', 's']) = t at u'
      cases u' with
      | known _ _ hm' => exact absurd ht.symm (kb hm' _)
      | whole =>
          have h1 := (List.cons.inj ht).2
          exact ⟨dec_inj (split_char (hb _) (hb _) h1).1, rfl⟩
      | ratio _ hd =>
          have h1 := (List.cons.inj ht).2
          have : '/' ∈ dec n ++ [']', 's'] := by rw [h1]; simp
          simp [hs] at this
  | ratio _ hd =>
      generalize ht : '[' :: (dec n ++ '/' :: (dec d ++ [']', 's'])) = t at u'
      cases u' with
      | known _ _ hm' => exact absurd ht.symm (kb hm' _)
      | whole =>
          have h1 := (List.cons.inj ht).2
          have : '/' ∈ dec n' ++ [']', 's'] := by rw [← h1]; simp
          simp [hs] at this
      | ratio _ hd' =>
          have h1 := (List.cons.inj ht).2
          obtain ⟨h2, h3⟩ := split_char (hs _) (hs _) h1
          obtain ⟨h4, _⟩ := split_char (hb _) (hb _) h3
          exact ⟨dec_inj h2, dec_inj h4⟩

theorem units_head (n d : Nat) : ∃ c t, getUnits n d = c :: t ∧ isDigit c = false := by
  have u := getUnits_cases n d
  generalize getUnits n d = t at u
  cases u with
  | known _ _ hm =>
      have := (known_facts _ hm).2
      cases t with
      | nil => simp at this
      | cons c t => exact ⟨c, t, rfl, by simp at this; exact this.1⟩
  | whole => exact ⟨'[', _, rfl, by decide⟩
  | ratio => exact ⟨'[', _, rfl, by decide⟩

theorem digits_prefix : ∀ {a b : List Char} {c c' : Char} {s t : List Char}, (∀ x, x ∈ a → isDigit x = true) →
    (∀ x, x ∈ b → isDigit x = true) → isDigit c = false → isDigit c' = false → a ++ c :: s = b ++ c' :: t →
    a = b ∧ c :: s = c' :: t := by
  intro a
  induction a with
  | nil =>
      intro b c c' s t _ hb hc _ he
      cases b with
      | nil => exact ⟨rfl, he⟩
      | cons y ys =>
          have := (List.cons.inj he).1
          rw [this, hb y (by simp)] at hc
          cases hc
  | cons x xs ih =>
      intro b c c' s t ha hb hc hc' he
      cases b with
      | nil =>
          have := (List.cons.inj he).1
          rw [← this, ha x (by simp)] at hc'
          cases hc'
      | cons y ys =>
          obtain ⟨h1, h2⟩ := List.cons.inj he
          obtain ⟨r1, r2⟩ := ih (fun z hz => ha z (by simp [hz])) (fun z hz => hb z (by simp [hz])) hc hc' h2
          exact ⟨by rw [h1, r1], r2⟩

/-- **C102.**  Durations, of any integer count and of any period, are written in the same way if and only if they have
the same count and the same period. -/
theorem c102_duration (c c' : Int) (n d n' d' : Nat) :
    durText c n d = durText c' n' d' ↔ c = c' ∧ n = n' ∧ d = d' := by
  constructor
  · intro h
    unfold durText at h
    obtain ⟨u, s, hu, hud⟩ := units_head n d
    obtain ⟨u', s', hu', hud'⟩ := units_head n' d'
    rw [hu, hu'] at h
    have key : c = c' ∧ u :: s = u' :: s' := by
      unfold decInt at h
      by_cases h1 : c < 0 <;> by_cases h2 : c' < 0
      · rw [if_pos h1, if_pos h2] at h
        obtain ⟨r1, r2⟩ := digits_prefix (dec_digits _) (dec_digits _) hud hud' (List.cons.inj h).2
        have := dec_inj r1
        exact ⟨by omega, r2⟩
      · rw [if_pos h1, if_neg h2] at h
        exfalso
        cases hd : dec c'.natAbs with
        | nil => exact (dec_spec _).1 hd
        | cons x t =>
            rw [hd] at h
            have := (List.cons.inj h).1
            have h3 := dec_digits c'.natAbs x (by rw [hd]; simp)
            rw [← this] at h3
            revert h3; decide
      · rw [if_neg h1, if_pos h2] at h
        exfalso
        cases hd : dec c.natAbs with
        | nil => exact (dec_spec _).1 hd
        | cons x t =>
            rw [hd] at h
            have := (List.cons.inj h).1
            have h3 := dec_digits c.natAbs x (by rw [hd]; simp)
            rw [this] at h3
            revert h3; decide
      · rw [if_neg h1, if_neg h2] at h
        obtain ⟨r1, r2⟩ := digits_prefix (dec_digits _) (dec_digits _) hud hud' h
        have := dec_inj r1
        exact ⟨by omega, r2⟩
    have := units_inj (hu.trans (key.2.trans hu'.symm))
    exact ⟨key.1, this⟩
  · rintro ⟨rfl, rfl, rfl⟩
    rfl

/-- The SI prefixes: exponent of ten and symbol (µ in UTF-8). -/
def si : List (Int × List Char) := [
  (-18, ['a']), (-15, ['f']), (-12, ['p']), (-9, ['n']), (-6, [Char.ofNat 0xC2, Char.ofNat 0xB5]), (-3, ['m']),
  (-2, ['c']), (-1, ['d']), (1, ['d', 'a']), (2, ['h']), (3, ['k']), (6, ['M']), (9, ['G']), (12, ['T']),
  (15, ['P']), (18, ['E'])]

/-- **C102.**  A duration is written as its count and its unit: s, min, h, d, an SI prefix and s, or the number of
seconds of a tick in brackets and s. -/
theorem c102_units (count : Int) (n d : Nat) :
    ∃ num u, durText count n d = num ++ u ∧ SignedNumeral count num ∧
      ((n, d, u) ∈ ([(1, 1, "s".toList), (60, 1, "min".toList), (3600, 1, "h".toList), (86400, 1, "d".toList)] : List (Nat × Nat × List Char)) ∨
       (∃ e p, (e, p) ∈ si ∧ u = p ++ ['s'] ∧ (if 0 ≤ e then n = 10 ^ e.toNat ∧ d = 1 else n = 1 ∧ d = 10 ^ (-e).toNat)) ∨
       (∃ a, Numeral n a ∧ d = 1 ∧ u = '[' :: (a ++ [']', 's'])) ∨
       (∃ a b, Numeral n a ∧ Numeral d b ∧ d ≠ 1 ∧ u = '[' :: (a ++ '/' :: (b ++ [']', 's'])))) := by
  refine ⟨_, _, rfl, decInt_spec count, ?_⟩
  have u := getUnits_cases n d
  generalize getUnits n d = t at u
  cases u with
  | known _ _ hm =>
      simp only [prefixes, List.map_cons, List.map_nil, List.mem_cons, Prod.mk.injEq, List.not_mem_nil, or_false] at hm
      rcases hm with ⟨⟨rfl, rfl⟩, rfl⟩ | ⟨⟨rfl, rfl⟩, rfl⟩ | ⟨⟨rfl, rfl⟩, rfl⟩ | ⟨⟨rfl, rfl⟩, rfl⟩ | hm
      · exact .inl (by simp)
      · exact .inl (by simp)
      · exact .inl (by simp)
      · exact .inl (by simp)
      · right; left
        rcases hm with ⟨⟨rfl, rfl⟩, rfl⟩ | ⟨⟨rfl, rfl⟩, rfl⟩ | ⟨⟨rfl, rfl⟩, rfl⟩ | ⟨⟨rfl, rfl⟩, rfl⟩ | ⟨⟨rfl, rfl⟩, rfl⟩ |
          ⟨⟨rfl, rfl⟩, rfl⟩ | ⟨⟨rfl, rfl⟩, rfl⟩ | ⟨⟨rfl, rfl⟩, rfl⟩ | ⟨⟨rfl, rfl⟩, rfl⟩ | ⟨⟨rfl, rfl⟩, rfl⟩ |
          ⟨⟨rfl, rfl⟩, rfl⟩ | ⟨⟨rfl, rfl⟩, rfl⟩ | ⟨⟨rfl, rfl⟩, rfl⟩ | ⟨⟨rfl, rfl⟩, rfl⟩ | ⟨⟨rfl, rfl⟩, rfl⟩ | ⟨⟨rfl, rfl⟩, rfl⟩
        · exact ⟨-18, ['a'], by simp [si], rfl, by decide⟩
        · exact ⟨-15, ['f'], by simp [si], rfl, by decide⟩
        · exact ⟨-12, ['p'], by simp [si], rfl, by decide⟩
        · exact ⟨-9, ['n'], by simp [si], rfl, by decide⟩
        · exact ⟨-6, [Char.ofNat 0xC2, Char.ofNat 0xB5], by simp [si], rfl, by decide⟩
        · exact ⟨-3, ['m'], by simp [si], rfl, by decide⟩
        · exact ⟨-2, ['c'], by simp [si], rfl, by decide⟩
        · exact ⟨1, ['d', 'a'], by simp [si], rfl, by decide⟩
        · exact ⟨-1, ['d'], by simp [si], rfl, by decide⟩
        · exact ⟨2, ['h'], by simp [si], rfl, by decide⟩
        · exact ⟨3, ['k'], by simp [si], rfl, by decide⟩
        · exact ⟨6, ['M'], by simp [si], rfl, by decide⟩
        · exact ⟨9, ['G'], by simp [si], rfl, by decide⟩
        · exact ⟨12, ['T'], by simp [si], rfl, by decide⟩
        · exact ⟨15, ['P'], by simp [si], rfl, by decide⟩
        · exact ⟨18, ['E'], by simp [si], rfl, by decide⟩
  | whole => exact .inr (.inr (.inl ⟨_, dec_spec n, rfl, rfl⟩))
  | ratio _ h => exact .inr (.inr (.inr ⟨_, _, dec_spec n, dec_spec d, h, rfl⟩))

/-! ### The form of the texts -/

/-- A decimal number of at least `w` digits, with zeros in front only to reach them. -/
def Padded (w n : Nat) (t : List Char) : Prop :=
  t.all isDigit = true ∧ value t = n ∧ w ≤ t.length ∧ (w < t.length → Numeral n t)

/-- Fields as text: the day with two digits, the year with four and its sign, the month and the weekday by name or, if
there is no such month or weekday, as a number. -/
def DayText (d : UInt8) (t : List Char) : Prop := Padded 2 d.toNat t
def YearText (y : Int16) (t : List Char) : Prop :=
  ∃ s, Padded 4 y.toInt.natAbs s ∧ t = if y.toInt < 0 then '-' :: s else s
def MonthText (N : Names) (m : UInt8) (t : List Char) : Prop :=
  if 1 ≤ m.toNat ∧ m.toNat ≤ 12 then t = N.mon m.toNat else Numeral m.toNat t
def WeekdayText (N : Names) (w : UInt8) (t : List Char) : Prop :=
  if w.toNat ≤ 6 then t = N.wd w.toNat else Numeral w.toNat t
def IndexedText (N : Names) (x : WI) (t : List Char) : Prop :=
  ∃ a b, WeekdayText N x.weekday a ∧ Numeral x.idx.toNat b ∧ t = a ++ "[".toList ++ b ++ "]".toList
def LastText (N : Names) (w : UInt8) (t : List Char) : Prop :=
  ∃ a, WeekdayText N w a ∧ t = a ++ "[last]".toList

/-- How the values of each class are written, without the note that they are not valid: the fields from the largest to
the smallest, separated by `/`, except that year_month_day has the form year-month-day with numbers only. -/
def Form (N : Names) (t : List Char) : Obj → Prop
  | .int n => SignedNumeral n t
  | .last => t = "last".toList
  | .day d => DayText d t
  | .month m => MonthText N m t
  | .year y => YearText y t
  | .wi x => IndexedText N x t
  | .wl w => LastText N w t
  | .ym y m => ∃ a b, YearText y a ∧ MonthText N m b ∧ t = a ++ "/".toList ++ b
  | .md m d => ∃ a b, MonthText N m a ∧ DayText d b ∧ t = a ++ "/".toList ++ b
  | .ml m => ∃ a, MonthText N m a ∧ t = a ++ "/last".toList
  | .mw m x => ∃ a b, MonthText N m a ∧ IndexedText N x b ∧ t = a ++ "/".toList ++ b
  | .mwl m w => ∃ a b, MonthText N m a ∧ LastText N w b ∧ t = a ++ "/".toList ++ b
  | .ymd y m d => ∃ a b c, SignedNumeral y.toInt a ∧ Padded 2 m.toNat b ∧ Padded 2 d.toNat c ∧
      t = a ++ "-".toList ++ b ++ "-".toList ++ c
  | .yml y m => ∃ a b, YearText y a ∧ MonthText N m b ∧ t = a ++ "/".toList ++ b ++ "/last".toList
  | .ymw y m x => ∃ a b c, YearText y a ∧ MonthText N m b ∧ IndexedText N x c ∧
      t = a ++ "/".toList ++ b ++ "/".toList ++ c
  | .ymwl y m w => ∃ a b c, YearText y a ∧ MonthText N m b ∧ LastText N w c ∧
      t = a ++ "/".toList ++ b ++ "/".toList ++ c

theorem padded_pad (w n : Nat) : Padded w n (pad w (dec n)) := by
  obtain ⟨h1, h2, h3, h4⟩ := dec_spec n
  refine ⟨List.all_eq_true.mpr (pad_digits w n), by rw [pad, value_zeros, h3], by simp [pad]; omega, fun h => ?_⟩
  have : w - (dec n).length = 0 := by simp [pad] at h; omega
  rw [pad, this]
  exact dec_spec n

theorem monthText_base (N : Names) (m : UInt8) : MonthText N m (monthBase N m) := by
  have hk : monthOk m = true ↔ 1 ≤ m.toNat ∧ m.toNat ≤ 12 := by
    simp [monthOk, UInt8.le_iff_toNat_le]
  unfold MonthText monthBase
  by_cases h : 1 ≤ m.toNat ∧ m.toNat ≤ 12
  · rw [if_pos h, if_pos (hk.mpr h)]
  · rw [if_neg h, if_neg (fun e => h (hk.mp e))]
    exact dec_spec _

theorem weekdayOk_iff (w : UInt8) : weekdayOk w = true ↔ w.toNat ≤ 6 := by
  simp [weekdayOk, UInt8.le_iff_toNat_le]

theorem weekdayText_base (N : Names) (w : UInt8) : WeekdayText N w (weekdayBase N w) := by
  have hk := weekdayOk_iff w
  unfold WeekdayText weekdayBase
  by_cases h : w.toNat ≤ 6
  · rw [if_pos h, if_pos (hk.mpr h)]
  · rw [if_neg h, if_neg (fun e => h (hk.mp e))]
    exact dec_spec _

theorem yearText_base (y : Int16) : YearText y (yearBase y) := by
  refine ⟨_, padded_pad 4 _, ?_⟩
  unfold yearBase
  split <;> rfl

theorem indexedText_base (N : Names) (x : WI) : IndexedText N x (wiBase N x) :=
  ⟨_, _, weekdayText_base N _, dec_spec _, by simp [wiBase]⟩

theorem lastText_base (N : Names) (w : UInt8) : LastText N w (wlBase N w) := ⟨_, weekdayText_base N _, rfl⟩

theorem form_base (N : Names) (o : Obj) : Form N (base N o) o := by
  cases o with
  | int n => exact decInt_spec n
  | last => rfl
  | day d => exact padded_pad 2 _
  | month m => exact monthText_base N m
  | year y => exact yearText_base y
  | wi x => exact indexedText_base N x
  | wl w => exact lastText_base N w
  | ym y m => exact ⟨_, _, yearText_base y, monthText_base N m, by simp [base]⟩
  | md m d => exact ⟨_, _, monthText_base N m, padded_pad 2 _, by simp [base, dayBase]⟩
  | ml m => exact ⟨_, monthText_base N m, rfl⟩
  | mw m x => exact ⟨_, _, monthText_base N m, indexedText_base N x, by simp [base]⟩
  | mwl m w => exact ⟨_, _, monthText_base N m, lastText_base N w, by simp [base]⟩
  | ymd y m d => exact ⟨_, _, _, decInt_spec _, padded_pad 2 _, padded_pad 2 _, by simp [base]⟩
  | yml y m => exact ⟨_, _, yearText_base y, monthText_base N m, by simp [base]⟩
  | ymw y m x => exact ⟨_, _, _, yearText_base y, monthText_base N m, indexedText_base N x, by simp [base]⟩
  | ymwl y m w => exact ⟨_, _, _, yearText_base y, monthText_base N m, lastText_base N w, by simp [base]⟩

/-- **C102.**  What is written for a value of each class: its fields in the form of the class; values that are not valid
are followed by a note with the name of the class. -/
theorem c102_form (N : Names) (o : Obj) : ∃ t b, Form N t o ∧ objOk o = .ok b ∧
    objText N o = .ok (t ++ if b then [] else (" is not a valid " ++ className o).toList) := by
  obtain ⟨b, hb⟩ := objOk_total o
  refine ⟨base N o, b, form_base N o, hb, ?_⟩
  unfold objText
  rw [hb]
  rfl

/-- **C102.**  A weekday is written by its name, or as a number with a note. -/
theorem c102_weekday_form (N : Names) (w : UInt8) : ∃ t, WeekdayText N w t ∧
    weekdayText N w = t ++ if w.toNat ≤ 6 then [] else " is not a valid weekday".toList := by
  refine ⟨_, weekdayText_base N w, ?_⟩
  have hk := weekdayOk_iff w
  unfold weekdayText
  by_cases h : w.toNat ≤ 6
  · rw [if_pos h, if_pos (hk.mpr h)]
  · rw [if_neg h, if_neg (fun e => h (hk.mp e))]

/-! ### Examples -/

/-- The classic locale. -/
def classic : Names where
  mon := fun i => (["Jan", "Feb", "Mar", "Apr", "May", "Jun", "Jul", "Aug", "Sep", "Oct", "Nov", "Dec"].map String.toList).getD (i - 1) []
  wd := fun i => (["Sun", "Mon", "Tue", "Wed", "Thu", "Fri", "Sat"].map String.toList).getD i []

theorem classic_good : Good classic where
  mon := by
    have h : ∀ i, i < 13 → ∀ j, j < 13 → 1 ≤ i → 1 ≤ j → classic.mon i = classic.mon j → i = j := by decide +kernel
    exact fun i j hi hj => h i (by omega) j (by omega) hi.1 hj.1
  wd := by
    have h : ∀ i, i < 7 → ∀ j, j < 7 → classic.wd i = classic.wd j → i = j := by decide +kernel
    exact fun i j hi hj => h i (by omega) j (by omega)
  monText := by
    have h : ∀ i, i < 13 → 1 ≤ i → (match classic.mon i with | [] => false | c :: _ => !isDigit c) = true ∧
        ' ' ∉ classic.mon i ∧ '/' ∉ classic.mon i ∧ '[' ∉ classic.mon i := by decide +kernel
    intro i hi
    obtain ⟨h1, h2⟩ := h i (by omega) hi.1
    refine ⟨?_, h2⟩
    cases hc : classic.mon i with
    | nil => rw [hc] at h1; cases h1
    | cons c t => rw [hc] at h1; exact ⟨c, t, rfl, by simpa using h1⟩
  wdText := by
    have h : ∀ i, i < 7 → (match classic.wd i with | [] => false | c :: _ => !isDigit c) = true ∧
        ' ' ∉ classic.wd i ∧ '/' ∉ classic.wd i ∧ '[' ∉ classic.wd i := by decide +kernel
    intro i hi
    obtain ⟨h1, h2⟩ := h i (by omega)
    refine ⟨?_, h2⟩
    cases hc : classic.wd i with
    | nil => rw [hc] at h1; cases h1
    | cons c t => rw [hc] at h1; exact ⟨c, t, rfl, by simpa using h1⟩

example : objText classic (.ymw 2023 2 ⟨3, 2⟩) = .ok "2023/Feb/Wed[2]".toList := by decide +kernel
example : objText classic (.md 13 5) = .ok "13/05 is not a valid month_day".toList := by decide +kernel
example : objText classic (.yml (-5) 2) = .ok "-0005/Feb/last".toList := by decide +kernel
example : durText (-5) 1 1000 = "-5ms".toList := by decide +kernel
example : durText 7 60 1 = "7min".toList := by decide +kernel
example : durText 7 1 3 = "7[1/3]s".toList := by decide +kernel
example : durText 2 604800 1 = "2[604800]s".toList := by decide +kernel

end Gul14.Date.Parts
