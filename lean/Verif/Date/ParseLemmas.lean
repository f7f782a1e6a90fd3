import Verif.Date.ParseSpec
import Verif.Date.ParseSeconds
import Verif.Date.FormatProps

/-! # Reading the texts of a format -/
namespace Gul14.Date
open Gul14.Spec.Calendar Gul14.Spec.DateText Gul14.Spec.DateFormat Gul14.Spec.DateParse

/-! ### The stream -/

@[simp] theorem good_mk (r : List Char) (e f : Bool) : IStream.good ⟨r, e, f⟩ = (!e && !f) := rfl

@[simp] theorem peek_cons (c : Char) (r : List Char) :
    IStream.peek ⟨c :: r, false, false⟩ = (some c, ⟨c :: r, false, false⟩) := rfl

@[simp] theorem peek_nil : IStream.peek ⟨[], false, false⟩ = (none, ⟨[], true, false⟩) := rfl

@[simp] theorem get_cons (c : Char) (r : List Char) :
    IStream.get ⟨c :: r, false, false⟩ = (some c, ⟨r, false, false⟩) := rfl

/-! ### Numbers -/

theorem isDig_eq (c : Char) : isDig c = isDigit c := rfl

theorem dig_le {c : Char} (h : isDigit c = true) : 48 ≤ c.toNat ∧ c.toNat ≤ 57 := by
  simp [isDigit] at h
  exact ⟨h.1, h.2⟩

def accum (x : Nat) (s : List Char) : Nat := s.foldl (fun a c => 10 * a + (c.toNat - 48)) x

theorem accum_zero (s : List Char) : accum 0 s = value s := rfl

theorem readDigits_exact (M : Nat) (r : List Char) (s : List Char) : ∀ (count x : Nat), s ≠ [] →
    s.all isDigit = true → count + s.length = M → (x + 1) * 10 ^ s.length ≤ 4294967296 →
    readDigits M count x (s ++ r) = (M, accum x s, r, false) := by
  induction s with
  | nil => intro count x h; exact absurd rfl h
  | cons c s ih =>
    intro count x _ ha hl hx
    rw [List.all_cons, Bool.and_eq_true] at ha
    have hd := dig_le ha.1
    rw [List.length_cons] at hl hx
    rw [Nat.pow_succ', ← Nat.mul_assoc] at hx
    have hx' : (10 * x + digVal c + 1) * 10 ^ s.length ≤ 4294967296 :=
      Nat.le_trans (Nat.mul_le_mul_right _ (by unfold digVal; omega)) hx
    have hp : 1 ≤ 10 ^ s.length := Nat.one_le_pow _ _ (by omega)
    have hlt : 10 * x + digVal c < 4294967296 := by
      have := Nat.mul_le_mul_left (10 * x + digVal c + 1) hp
      omega
    simp only [List.cons_append, readDigits, isDig_eq, ha.1, Bool.not_true, Bool.false_eq_true, if_false,
      Nat.mod_eq_of_lt hlt]
    cases s with
    | nil => rw [if_pos (by simp at hl; omega)]; simp at hl; simp [accum, digVal, hl]
    | cons c' s' =>
      rw [if_neg (by simp at hl; omega)]
      rw [ih (count + 1) _ (by simp) ha.2 (by omega) hx']
      rfl

theorem readUnsigned_exact {M v m : Nat} {s : List Char} (h : Digits M v s) (h1 : 1 ≤ M) (h9 : M ≤ 9) (hm : m ≤ M)
    (r : List Char) : readUnsigned ⟨s ++ r, false, false⟩ m M = (v, ⟨r, false, false⟩) := by
  obtain ⟨hl, ha, hv⟩ := h
  have hp : 10 ^ M ≤ 10 ^ 9 := Nat.pow_le_pow_right (by omega) h9
  have hs : s ≠ [] := by rintro rfl; simp at hl; omega
  unfold readUnsigned
  simp only [IStream.good, Bool.not_false, Bool.and_self, Bool.not_true, Bool.false_eq_true, if_false]
  rw [readDigits_exact M r s 0 0 hs ha (by omega) (by rw [hl]; omega)]
  simp only [accum_zero, hv]
  rw [show decide (M < m) = false from by simp; omega]

theorem digits_lt {M v : Nat} {s : List Char} (h : Digits M v s) : v < 10 ^ M := by
  have := value_lt s h.2.1
  rw [h.1, h.2.2] at this
  exact this

theorem digits_cons {M v : Nat} {s : List Char} (h : Digits M v s) (h1 : 1 ≤ M) : ∃ c s', s = c :: s' ∧ isDigit c = true := by
  obtain ⟨hl, ha, -⟩ := h
  cases s with
  | nil => simp at hl; omega
  | cons c s' => rw [List.all_cons, Bool.and_eq_true] at ha; exact ⟨c, s', rfl, ha.1⟩

/-- Digits with an optional sign. -/
def signed (v : Int) (s : List Char) : List Char := if v < 0 then '-' :: s else s

theorem readSigned_cons (c : Char) (r : List Char) (m M : Nat) : readSigned ⟨c :: r, false, false⟩ m M =
    if isDig c || c = '-' || c = '+' then
      let is : IStream := if c = '-' || c = '+' then ⟨r, false, false⟩ else ⟨c :: r, false, false⟩
      let (x, is) := readUnsigned is (max m 1) M
      if is.fail then pure (0, if m > 0 then is.setFail else is)
      else
        let x := asInt x
        if c = '-' then do pure (← int (-x), is) else pure (x, is)
    else pure (0, if m > 0 then IStream.setFail ⟨c :: r, false, false⟩ else ⟨c :: r, false, false⟩) := rfl

theorem readSigned_exact {M m : Nat} {v : Int} {s : List Char} (h : Digits M v.natAbs s) (h1 : 1 ≤ M) (h9 : M ≤ 9)
    (hm : m ≤ M) (r : List Char) :
    readSigned ⟨signed v s ++ r, false, false⟩ m M = .ok (v, ⟨r, false, false⟩) := by
  have hp : 10 ^ M ≤ 10 ^ 9 := Nat.pow_le_pow_right (by omega) h9
  have hv := digits_lt h
  have hr := readUnsigned_exact (m := max m 1) h h1 h9 (by omega) r
  have ha : asInt (v.natAbs : Int) = v.natAbs := by unfold asInt; rw [if_pos (by omega)]
  unfold signed
  split
  · rename_i hneg
    rw [List.cons_append, readSigned_cons]
    simp only [decide_true, Bool.or_true, Bool.true_or, if_true, hr, Bool.false_eq_true, if_false, ha]
    rw [int_ok (by omega) (by omega)]
    rw [show -(v.natAbs : Int) = v by omega]
    rfl
  · rename_i hneg
    obtain ⟨c, s', rfl, hc⟩ := digits_cons h h1
    have hd := dig_le hc
    have n1 : c ≠ '-' := by rintro rfl; revert hd; decide
    have n2 : c ≠ '+' := by rintro rfl; revert hd; decide
    rw [List.cons_append] at hr ⊢
    rw [readSigned_cons]
    simp only [isDig_eq, hc, Bool.true_or, if_true, n1, n2, decide_false, Bool.or_self, Bool.false_eq_true, if_false,
      hr, ha, Res.pure_eq]
    rw [show (v.natAbs : Int) = v by omega]

/-- With an explicit plus sign. -/
theorem readSigned_plus {M m v : Nat} {s : List Char} (h : Digits M v s) (h1 : 1 ≤ M) (h9 : M ≤ 9)
    (hm : m ≤ M) (r : List Char) :
    readSigned ⟨'+' :: (s ++ r), false, false⟩ m M = .ok (v, ⟨r, false, false⟩) := by
  have hp : 10 ^ M ≤ 10 ^ 9 := Nat.pow_le_pow_right (by omega) h9
  have hv := digits_lt h
  have hr := readUnsigned_exact (m := max m 1) h h1 h9 (by omega) r
  have ha : asInt (v : Int) = v := by unfold asInt; rw [if_pos (by omega)]
  rw [readSigned_cons]
  simp [hr, ha]

/-- With an explicit minus sign. -/
theorem readSigned_minus {M m v : Nat} {s : List Char} (h : Digits M v s) (h1 : 1 ≤ M) (h9 : M ≤ 9)
    (hm : m ≤ M) (r : List Char) :
    readSigned ⟨'-' :: (s ++ r), false, false⟩ m M = .ok (-(v : Int), ⟨r, false, false⟩) := by
  have hp : 10 ^ M ≤ 10 ^ 9 := Nat.pow_le_pow_right (by omega) h9
  have hv := digits_lt h
  have hr := readUnsigned_exact (m := max m 1) h h1 h9 (by omega) r
  have ha : asInt (v : Int) = v := by unfold asInt; rw [if_pos (by omega)]
  rw [readSigned_cons]
  simp [hr, ha, int_ok (x := -(v : Int)) (by omega) (by omega)]

theorem value_ge (s : List Char) (ha : s.all isDigit = true) (hs : s ≠ []) (h0 : s.head? ≠ some '0') :
    10 ^ (s.length - 1) ≤ value s := by
  have key : ∀ (s : List Char) (a : Nat), a * 10 ^ s.length ≤ accum a s := by
    intro s
    induction s with
    | nil => intro a; simp [accum]
    | cons c s ih =>
      intro a
      have := ih (10 * a + (c.toNat - 48))
      simp only [accum, List.foldl_cons, List.length_cons] at this ⊢
      refine Nat.le_trans ?_ this
      rw [Nat.pow_succ', ← Nat.mul_assoc]
      exact Nat.mul_le_mul_right _ (by omega)
  cases s with
  | nil => exact absurd rfl hs
  | cons c s =>
    rw [List.all_cons, Bool.and_eq_true] at ha
    have hd := dig_le ha.1
    have h1 : 1 ≤ c.toNat - 48 := by
      have : c ≠ '0' := by rintro rfl; simp at h0
      have : c.toNat ≠ 48 := fun h => this (Char.ext (UInt32.ext h))
      omega
    have := key s (c.toNat - 48)
    rw [← accum_zero]
    simp only [accum, List.foldl_cons, List.length_cons, Nat.add_sub_cancel] at this ⊢
    refine Nat.le_trans ?_ (Nat.le_trans this (by simp))
    exact Nat.le_mul_of_pos_left _ (by omega)

theorem atLeast_exact {k : Nat} {v : Int} {t : List Char} (hk : 0 < k) (h : AtLeast k v t) (hv : v.natAbs < 10 ^ k) :
    ∃ s, Digits k v.natAbs s ∧ t = signed v s := by
  obtain ⟨s, j, h1, h2, h3, h4⟩ := h
  refine ⟨s, ?_, h4⟩
  rcases Nat.lt_or_ge k j with h | h
  · exfalso
    have := value_ge s h2.2.1 (by rintro rfl; have := h2.1; simp at this; omega) (h3 h)
    rw [h2.2.2, h2.1] at this
    have : 10 ^ k ≤ 10 ^ (j - 1) := Nat.pow_le_pow_right (by omega) (by omega)
    omega
  · rwa [show j = k by omega] at h2

theorem yearText_exact {y : Int} {t : List Char} (h : YearText y t) (hv : y.natAbs < 10000) :
    ∃ s, Digits 4 y.natAbs s ∧ t = signed y s := atLeast_exact (k := 4) (by omega) h (by omega)

theorem atLeast_nat {k v : Nat} {t : List Char} (hk : 0 < k) (h : AtLeast k (v : Int) t) (hv : v < 10 ^ k) :
    Digits k v t := by
  obtain ⟨s, h1, h2⟩ := atLeast_exact hk h (by simpa using hv)
  rw [signed, if_neg (by omega)] at h2
  rw [h2]; simpa using h1

theorem readChar_exact (c : Char) (r : List Char) : readChar c ⟨c :: r, false, false⟩ = ⟨r, false, false⟩ := by
  simp [readChar]

/-! ### Seconds -/

theorem readDecimal_digits (M : Nat) (r : List Char) (s : List Char) : ∀ (st : LdState),
    s.all isDigit = true → st.count + s.length < M → st.frac = false → (st.i + 1) * 10 ^ s.length ≤ 18446744073709551616 →
    readDecimal M st (s ++ r) = readDecimal M { st with count := st.count + s.length, i := accum st.i s } r := by
  induction s with
  | nil => intro st _ _ _ _; simp [accum]
  | cons c s ih =>
    intro st ha hl hf hx
    rw [List.all_cons, Bool.and_eq_true] at ha
    have hd := dig_le ha.1
    rw [List.length_cons] at hl hx
    rw [Nat.pow_succ', ← Nat.mul_assoc] at hx
    have hx' : (10 * st.i + digVal c + 1) * 10 ^ s.length ≤ 18446744073709551616 :=
      Nat.le_trans (Nat.mul_le_mul_right _ (by unfold digVal; omega)) hx
    have hp : 1 ≤ 10 ^ s.length := Nat.one_le_pow _ _ (by omega)
    have hlt : 10 * st.i + digVal c < 18446744073709551616 := by
      have := Nat.mul_le_mul_left (10 * st.i + digVal c + 1) hp
      omega
    have n1 : c ≠ '.' := by rintro rfl; revert hd; decide
    simp only [List.cons_append, readDecimal, n1, false_and, if_false, isDig_eq, ha.1, Bool.not_true,
      Bool.false_eq_true, hf, Bool.not_false, if_true, Nat.mod_eq_of_lt hlt]
    rw [if_neg (by omega)]
    rw [ih ⟨st.count + 1, st.fcount, 10 * st.i + digVal c, st.f, false⟩ ha.2 (by simp only; omega) rfl hx']
    congr 1
    simp only [LdState.mk.injEq, hf, and_true, List.length_cons, true_and]
    exact ⟨by omega, rfl⟩

/-- The last digits before the limit. -/
theorem readDecimal_last (M : Nat) (r : List Char) (s : List Char) : ∀ (st : LdState), s ≠ [] →
    s.all isDigit = true → st.count + s.length = M →
    (st.frac = false → (st.i + 1) * 10 ^ s.length ≤ 18446744073709551616) →
    (st.frac = true → (st.f + 1) * 10 ^ s.length ≤ 18446744073709551616) →
    readDecimal M st (s ++ r) = ((if st.frac then
      { st with count := M, f := accum st.f s, fcount := st.fcount + s.length }
      else { st with count := M, i := accum st.i s }), r, false) := by
  induction s with
  | nil => intro st h; exact absurd rfl h
  | cons c s ih =>
    intro st _ ha hl hx hy
    rw [List.all_cons, Bool.and_eq_true] at ha
    have hd := dig_le ha.1
    rw [List.length_cons] at hl hx hy
    have n1 : c ≠ '.' := by rintro rfl; revert hd; decide
    have aux : ∀ x, (x + 1) * 10 ^ (s.length + 1) ≤ 18446744073709551616 →
        10 * x + digVal c < 18446744073709551616 ∧
        (10 * x + digVal c + 1) * 10 ^ s.length ≤ 18446744073709551616 := by
      intro x hx
      rw [Nat.pow_succ', ← Nat.mul_assoc] at hx
      have hx' : (10 * x + digVal c + 1) * 10 ^ s.length ≤ 18446744073709551616 :=
        Nat.le_trans (Nat.mul_le_mul_right _ (by unfold digVal; omega)) hx
      have hp : 1 ≤ 10 ^ s.length := Nat.one_le_pow _ _ (by omega)
      have := Nat.mul_le_mul_left (10 * x + digVal c + 1) hp
      exact ⟨by omega, hx'⟩
    simp only [List.cons_append, readDecimal, n1, false_and, if_false, isDig_eq, ha.1, Bool.not_true,
      Bool.false_eq_true]
    cases hf : st.frac with
    | false =>
      obtain ⟨a1, a2⟩ := aux _ (hx hf)
      simp only [Bool.not_false, if_true, Nat.mod_eq_of_lt a1, Bool.false_eq_true, if_false]
      cases s with
      | nil => rw [if_pos (by simp at hl; omega)]; simp at hl; simp [accum, digVal, hl, hf]
      | cons c' s' =>
        rw [if_neg (by simp at hl; omega)]
        rw [ih _ (by simp) ha.2 (by simp only; omega) (fun _ => a2) (by simp [hf])]
        simp [hf, accum, digVal]
    | true =>
      obtain ⟨a1, a2⟩ := aux _ (hy hf)
      simp only [Bool.not_true, Bool.false_eq_true, if_false, Nat.mod_eq_of_lt a1, if_true]
      cases s with
      | nil => rw [if_pos (by simp at hl; omega)]; simp at hl; simp [accum, digVal, hl, hf]
      | cons c' s' =>
        rw [if_neg (by simp at hl; omega)]
        rw [ih _ (by simp) ha.2 (by simp only; omega) (by simp [hf]) (fun _ => a2)]
        simp [hf, accum, digVal]
        omega

/-- The text of the seconds is read completely, and gives the number of ticks `k`. -/
theorem readSec {T w : Nat} {x : Time} {t : List Char} {k : Int} (h : Seconds w x t) (hw : w = fractionalWidth T)
    (hT : T ≤ 10 ^ 17) (hw18 : w ≤ 18) (hT1 : T = 1 ↔ w = 0) (hs : x.sec < 60) (hf : x.frac < 10 ^ w)
    (hk : k * 10 ^ w = ((x.sec * 10 ^ w + x.frac) * T : Nat)) (r : List Char) :
    ∃ S, readLongDouble ⟨t ++ r, false, false⟩ 1 (secWidth T) = (S, ⟨r, false, false⟩) ∧
      roundTicks T S = .ok k := by
  obtain ⟨a, b, rfl, h1, h2⟩ := h
  have hp : (10 : Nat) ^ w ≤ 10 ^ 18 := Nat.pow_le_pow_right (by omega) hw18
  have hrt := roundTicks_exact T w x.sec x.frac k hT hw18 hs hf hk
  refine ⟨_, ?_, hrt⟩
  unfold readLongDouble
  simp only [IStream.good, Bool.not_false, Bool.and_self, Bool.not_true, Bool.false_eq_true, if_false]
  have ha : a ≠ [] := by rintro rfl; have := h1.1; simp at this
  by_cases h0 : w = 0
  · rw [if_pos h0] at h2
    subst h2
    have hT1 := hT1.mpr h0
    have hsw : secWidth T = 2 := by rw [secWidth, if_pos hT1]
    rw [hsw, List.append_nil, readDecimal_last 2 r a {} ha h1.2.1 (by simp [h1.1]) (by simp [h1.1]) (by simp)]
    have hx0 : x.frac = 0 := by rw [h0] at hf; omega
    simp [accum_zero, h1.2.2, h0, hx0]
  · rw [if_neg h0] at h2
    obtain ⟨s, rfl, h3⟩ := h2
    have hT1 : T ≠ 1 := fun h => h0 (hT1.mp h)
    have hsw : secWidth T = 3 + w := by rw [secWidth, if_neg hT1, hw]
    rw [hsw, List.append_assoc, readDecimal_digits _ _ a {} h1.2.1 (by simp [h1.1]; omega) rfl (by simp [h1.1])]
    simp only [List.cons_append, readDecimal, Bool.false_eq_true, and_self, if_true, accum_zero, h1.2.2, h1.1]
    have hne : ¬ (0 + 2 + 1 = 3 + w) := by omega
    simp only [if_neg hne]
    have hs0 : s ≠ [] := by rintro rfl; have := h3.1; simp at this; omega
    rw [readDecimal_last _ r s _ hs0 h3.2.1 (by simp only [h3.1]) (by simp) (fun _ => by simp only [h3.1]; omega)]
    simp only [if_true, accum_zero, h3.2.2, h3.1]
    rw [if_neg (by omega)]
    simp

/-! ### Sequences -/

theorem seq_nil (is : IStream) : readSeq [] is = .ok ([], .num 0, is) := rfl

theorem seq_ch (c : Char) (r : List Char) (as : List RArg) :
    readSeq (.ch c :: as) ⟨c :: r, false, false⟩ = readSeq as ⟨r, false, false⟩ := by
  simp [readSeq, readChar_exact]

theorem seq_ru {M m v : Nat} {s : List Char} (h : Digits M v s) (h1 : 1 ≤ M) (h9 : M ≤ 9) (hm : m ≤ M)
    (r : List Char) (as : List RArg) : readSeq (.ru m M :: as) ⟨s ++ r, false, false⟩ =
      (do let (xs, S, is) ← readSeq as ⟨r, false, false⟩; pure ((v : Int) :: xs, S, is)) := by
  have hp : 10 ^ M ≤ 10 ^ 9 := Nat.pow_le_pow_right (by omega) h9
  have hv := digits_lt h
  have ha : asInt (v : Int) = v := by unfold asInt; rw [if_pos (by omega)]
  simp [readSeq, readUnsigned_exact h h1 h9 hm, ha]

theorem seq_rs {M m : Nat} {v : Int} {s : List Char} (h : Digits M v.natAbs s) (h1 : 1 ≤ M) (h9 : M ≤ 9)
    (hm : m ≤ M) (r : List Char) (as : List RArg) : readSeq (.rs m M :: as) ⟨signed v s ++ r, false, false⟩ =
      (do let (xs, S, is) ← readSeq as ⟨r, false, false⟩; pure (v :: xs, S, is)) := by
  simp [readSeq, readSigned_exact h h1 h9 hm]

theorem seq_rs_nat {M m v : Nat} {s : List Char} (h : Digits M v s) (h1 : 1 ≤ M) (h9 : M ≤ 9)
    (hm : m ≤ M) (r : List Char) (as : List RArg) : readSeq (.rs m M :: as) ⟨s ++ r, false, false⟩ =
      (do let (xs, S, is) ← readSeq as ⟨r, false, false⟩; pure ((v : Int) :: xs, S, is)) := by
  have := seq_rs (v := (v : Int)) (s := s) (by simpa using h) h1 h9 hm r as
  rwa [signed, if_neg (by omega)] at this

/-! ### The variables -/

/-- The true values of the variables. -/
structure Facts where
  Y : Int
  y : Int
  C : Int
  m : Int
  d : Int
  j : Int
  wd : Int
  H : Int
  M : Int
  s : Int
  G : Int
  V : Int
  U : Int
  W : Int
  off : Int

/-- The variables after the conversions `L`. -/
def vars (F : Facts) (L : List Char) : PVars :=
  { Y := if 'Y' ∈ L ∨ 'F' ∈ L then F.Y else -32768
    y := if 'y' ∈ L ∨ 'D' ∈ L then F.y else 100
    C := if 'C' ∈ L then F.C else -327
    m := if 'm' ∈ L ∨ 'F' ∈ L ∨ 'D' ∈ L then F.m else 0
    d := if 'd' ∈ L ∨ 'F' ∈ L ∨ 'D' ∈ L then F.d else 0
    j := if 'j' ∈ L then F.j else -1
    wd := if 'u' ∈ L ∨ 'w' ∈ L then F.wd else 8
    H := if 'H' ∈ L ∨ 'T' ∈ L ∨ 'R' ∈ L then F.H else -2147483648
    M := if 'M' ∈ L ∨ 'T' ∈ L ∨ 'R' ∈ L then F.M else -2147483648
    s := if 'S' ∈ L ∨ 'T' ∈ L then F.s else -9223372036854775808
    G := if 'G' ∈ L then F.G else -32768
    V := if 'V' ∈ L then F.V else 100
    U := if 'U' ∈ L then F.U else 100
    W := if 'W' ∈ L then F.W else 100
    offset := if 'z' ∈ L then F.off else -9223372036854775808 }

theorem checkedSet_true (p : Prop) [Decidable p] (a n : Int) (r : List Char) :
    checkedSet (if p then a else n) a n ⟨r, false, false⟩ = (a, ⟨r, false, false⟩) := by
  unfold checkedSet
  simp only [Bool.not_false, if_true]
  split <;> split <;> simp_all

/-- What is known about the texts: the facts are those of the subject. -/
structure Known (F : Facts) (T : Nat) (x : Subject) : Prop where
  w : x.w = fractionalWidth T
  T17 : T ≤ 10 ^ 17
  w18 : x.w ≤ 18
  T1 : T = 1 ↔ x.w = 0
  date : ∀ n d, x.date = some (n, d) → F.Y = d.year ∧ F.y = (d.year.natAbs % 100 : Nat) ∧ F.C = d.year / 100 ∧
    F.m = d.month ∧ F.d = d.day ∧ F.wd = dayOfWeek n ∧ -9999 ≤ d.year ∧ d.year ≤ 9999
  ny : ∀ n d, x.date = some (n, d) → ∀ ny, NewYear d.year ny → F.j = (n - ny + 1).toNat ∧
    F.U = countWeekday 0 ny n ∧ F.W = countWeekday 1 ny n
  iso : ∀ n d, x.date = some (n, d) → ∀ g v, IsoWeek n g v → F.G = g ∧ F.V = v
  time : ∀ t, x.time = some t → F.H = t.hour ∧ t.hour < 100 ∧ F.M = t.min ∧ t.sec < 60 ∧ t.frac < 10 ^ x.w ∧
    F.s * 10 ^ x.w = ((t.sec * 10 ^ x.w + t.frac) * T : Nat)
  off : ∀ o, x.offset = some o → o = F.off * 60 ∧ -6000 < F.off ∧ F.off < 6000

/-- The bounds for the conversions that need them. -/
def Bounds (F : Facts) (c : Char) : Prop := (c = 'C' → -99 ≤ F.C) ∧ (c = 'G' → -9999 ≤ F.G ∧ F.G ≤ 9999)

/-- The conversion reads its text. -/
def Reads (e : PEnv) (F : Facts) (md : Option Char) (c : Char) (a : List Char) : Prop :=
  (∃ x r, a = x :: r ∧ isSpace x = false) ∧
  ∀ b L, pstep e ⟨⟨a ++ b, false, false⟩, vars F L, some ('%' :: md.toList), md, -1⟩ c =
    .ok ⟨⟨b, false, false⟩, vars F (c :: L), none, none, -1⟩

theorem isSpace_dig {c : Char} (h : isDigit c = true) : isSpace c = false := by
  have := dig_le h
  simp only [isSpace, Bool.or_eq_false_iff, decide_eq_false_iff_not, Bool.and_eq_false_iff]
  exact ⟨by rintro rfl; revert this; decide, by omega⟩

theorem starts_digits {M v : Nat} {s : List Char} (h : Digits M v s) (h1 : 1 ≤ M) :
    ∃ x r, s = x :: r ∧ isSpace x = false := by
  obtain ⟨c, s', rfl, hc⟩ := digits_cons h h1
  exact ⟨c, s', rfl, isSpace_dig hc⟩

theorem starts_signed {M : Nat} {v : Int} {s : List Char} (h : Digits M v.natAbs s) (h1 : 1 ≤ M) :
    ∃ x r, signed v s = x :: r ∧ isSpace x = false := by
  unfold signed
  split
  · exact ⟨_, _, rfl, by decide⟩
  · exact starts_digits h h1

theorem starts_append {s t : List Char} (h : ∃ x r, s = x :: r ∧ isSpace x = false) :
    ∃ x r, s ++ t = x :: r ∧ isSpace x = false := by
  obtain ⟨x, r, rfl, h⟩ := h
  exact ⟨x, r ++ t, rfl, h⟩

section
variable {e : PEnv} {F : Facts}

theorem reads_rs {c : Char} {M : Nat} {v : Int} {a nt : _} {set : Int → PState → PState} {s : List Char}
    (h : Digits M v.natAbs s) (h1 : 1 ≤ M) (h9 : M ≤ 9) (ha : a = signed v s)
    (hc : ∀ st : PState, st.modified = none → st.width = -1 → st.command = some ['%'] →
      pstep e st c = (do let st ← st.number (.rs 1 M) nt set; pure st.reset))
    (hset : ∀ r L cmd, (set v ⟨⟨r, false, false⟩, vars F L, cmd, none, -1⟩) =
      ⟨⟨r, false, false⟩, vars F (c :: L), cmd, none, -1⟩) : Reads e F none c a := by
  subst ha
  refine ⟨starts_signed h h1, fun b L => ?_⟩
  rw [hc _ rfl rfl rfl]
  simp [PState.number, seq_rs h h1 h9 h1, seq_nil, hset, PState.reset]

theorem reads_ru {c : Char} {M v : Nat} {nt : Int} {set : Int → PState → PState} {s : List Char}
    (h : Digits M v s) (h1 : 1 ≤ M) (h9 : M ≤ 9)
    (hc : ∀ st : PState, st.modified = none → st.width = -1 → st.command = some ['%'] →
      pstep e st c = (do let st ← st.number (.ru 1 M) nt set; pure st.reset))
    (hset : ∀ r L cmd, (set v ⟨⟨r, false, false⟩, vars F L, cmd, none, -1⟩) =
      ⟨⟨r, false, false⟩, vars F (c :: L), cmd, none, -1⟩) : Reads e F none c s := by
  refine ⟨starts_digits h h1, fun b L => ?_⟩
  rw [hc _ rfl rfl rfl]
  simp [PState.number, seq_ru h h1 h9 h1, seq_nil, hset, PState.reset]

end

end Gul14.Date
