import Verif.ToNumber.Model
import Verif.ToNumber.Spec
import Verif.Text.Lemmas
import Verif.Strings.Lemmas
import Mathlib.Tactic.Ring
import Mathlib.Tactic.Linarith
import Mathlib.Tactic.Push

namespace Gul14.ToNumber
open Gul14.Spec Gul14.SV

theorem isDigit_iff (c : UInt8) : isDigit c = true ↔ 48 ≤ c.toNat ∧ c.toNat ≤ 57 := by
  revert c; apply Text.forall_u8; decide +kernel

/-- Value of a digit string read after the value `acc`. -/
def val (acc : Nat) (s : Str) : Nat := s.foldl (fun v c => 10 * v + (c.toNat - 48)) acc

def Digits (s : Str) : Prop := ∀ c ∈ s, isDigit c = true

theorem val_append (acc : Nat) (s t : Str) : val acc (s ++ t) = val (val acc s) t := by
  simp [val]

theorem val_eq (acc : Nat) (s : Str) : val acc s = acc * 10 ^ s.length + val 0 s := by
  induction s generalizing acc with
  | nil => simp [val]
  | cons c s ih =>
    have h : ∀ a, val a (c :: s) = val (10 * a + (c.toNat - 48)) s := fun _ => rfl
    rw [h, h, ih, ih (10 * 0 + _), List.length_cons, Nat.pow_succ]
    simp only [Nat.add_mul, Nat.mul_zero, Nat.zero_add]
    rw [Nat.mul_comm 10 acc, Nat.mul_assoc, Nat.mul_comm 10, Nat.add_assoc]

theorem le_val (acc : Nat) (s : Str) : acc ≤ val acc s := by
  rw [val_eq]
  have : 0 < 10 ^ s.length := Nat.pow_pos (by omega)
  have := Nat.le_mul_of_pos_right acc this
  omega

theorem val_lt (s : Str) (h : Digits s) : val 0 s < 10 ^ s.length := by
  induction s with
  | nil => simp [val]
  | cons c s ih =>
    have := ih (fun c hc => h c (by simp [hc]))
    have hc := (isDigit_iff c).1 (h c (by simp))
    have e : val 0 (c :: s) = val (10 * 0 + (c.toNat - 48)) s := rfl
    rw [e, val_eq, List.length_cons, Nat.pow_succ]
    have : (10 * 0 + (c.toNat - 48)) * 10 ^ s.length ≤ 9 * 10 ^ s.length :=
      Nat.mul_le_mul_right _ (by omega)
    omega

theorem decNumeral_iff (s : Str) (n : Nat) : DecNumeral s n ↔ Digits s ∧ val 0 s = n := by
  constructor
  · intro h
    induction h with
    | nil => exact ⟨by simp [Digits], rfl⟩
    | @snoc s n c _ h1 h2 ih =>
      refine ⟨?_, by rw [val_append, ih.2]; rfl⟩
      intro x hx
      simp at hx
      rcases hx with hx | rfl
      · exact ih.1 x hx
      · exact (isDigit_iff x).2 ⟨h1, h2⟩
  · rintro ⟨h, rfl⟩
    induction hs : s.length generalizing s with
    | zero => have := List.length_eq_zero_iff.1 hs; subst this; exact .nil
    | succ k ih =>
      rcases List.eq_nil_or_concat s with rfl | ⟨t, c, rfl⟩
      · simp at hs
      · rw [List.concat_eq_append] at *
        have hc := (isDigit_iff c).1 (h c (by simp))
        have := ih t (fun x hx => h x (by simp [hx])) (by simpa using hs)
        rw [val_append]
        exact .snoc this hc.1 hc.2

theorem digitLoop_iff (max : Nat) (s : Str) (acc n : Nat) (hacc : acc ≤ max) :
    digitLoop max s acc = some n ↔ Digits s ∧ val acc s = n ∧ n ≤ max := by
  induction s generalizing acc with
  | nil =>
    simp only [digitLoop, Digits, val, List.foldl_nil, Option.some.injEq]
    constructor
    · rintro rfl; exact ⟨by simp, rfl, hacc⟩
    · rintro ⟨-, rfl, -⟩; rfl
  | cons c s ih =>
    have e : val acc (c :: s) = val (acc * 10 + (c.toNat - 48)) s := by
      simp [val, Nat.mul_comm]
    have hle := le_val (acc * 10 + (c.toNat - 48)) s
    have hd : Digits (c :: s) ↔ isDigit c = true ∧ Digits s := by simp [Digits]
    rw [e, hd]
    unfold digitLoop
    by_cases hc : isDigit c = true
    · simp only [hc, Bool.not_true, Bool.false_eq_true, if_false, true_and]
      split
      · constructor
        · simp
        · rintro ⟨_, rfl, _⟩; omega
      · split
        · constructor
          · simp
          · rintro ⟨_, rfl, _⟩; omega
        · rw [ih _ (by omega)]
    · simp [hc]

theorem toUnsignedInteger_iff (max : Nat) (s : Str) (n : Nat) :
    toUnsignedInteger max s = some n ↔ s ≠ [] ∧ DecNumeral s n ∧ n ≤ max := by
  unfold toUnsignedInteger
  cases s with
  | nil => simp
  | cons c s =>
    rw [decNumeral_iff]
    simp only [List.isEmpty_cons, Bool.false_eq_true, if_false]
    rw [digitLoop_iff _ _ _ _ (Nat.zero_le _)]
    simp [and_assoc]


theorem val_zero_digits (acc : Nat) (s : Str) : val acc s = val 0 s + acc * 10 ^ s.length := by
  rw [val_eq, Nat.add_comm]

/-- With room for every number of that many digits only the digits matter. -/
theorem toUnsignedInteger_digits (max : Nat) (s : Str) (hs : s ≠ []) (hm : 10 ^ s.length ≤ max + 1)
    (hd : Digits s) : toUnsignedInteger max s = some (val 0 s) := by
  rw [toUnsignedInteger_iff]
  have := val_lt s hd
  exact ⟨hs, (decNumeral_iff _ _).2 ⟨hd, rfl⟩, by omega⟩

theorem toUnsignedInteger_not_digits (max : Nat) (s : Str) (hd : ¬ Digits s) :
    toUnsignedInteger max s = none := by
  cases h : toUnsignedInteger max s with
  | none => rfl
  | some n =>
    rw [toUnsignedInteger_iff, decNumeral_iff] at h
    exact absurd h.2.1.1 hd

/-! ### Decimal rendering -/

theorem decNat_spec (fuel n : Nat) (h : n < fuel) :
    DecNumeral (Text.decNat fuel n) n ∧ Text.decNat fuel n ≠ [] := by
  induction fuel generalizing n with
  | zero => omega
  | succ fuel ih =>
    unfold Text.decNat
    have dig : ∀ d, d < 10 → (UInt8.ofNat (48 + d)).toNat = 48 + d := by
      intro d hd
      simp
      omega
    split
    · rename_i hn
      refine ⟨?_, by simp⟩
      have := DecNumeral.snoc (c := UInt8.ofNat (48 + n)) DecNumeral.nil
        (by rw [dig n hn]; omega) (by rw [dig n hn]; omega)
      rw [dig n hn] at this
      have e : 10 * 0 + (48 + n - 48) = n := by omega
      rw [e] at this
      simpa using this
    · rename_i hn
      refine ⟨?_, by simp⟩
      have hm : n % 10 < 10 := Nat.mod_lt _ (by omega)
      have := DecNumeral.snoc (c := UInt8.ofNat (48 + n % 10)) (ih (n / 10) (by omega)).1
        (by rw [dig _ hm]; omega) (by rw [dig _ hm]; omega)
      rw [dig _ hm] at this
      have e : 10 * (n / 10) + (48 + n % 10 - 48) = n := by omega
      rw [e] at this
      exact this

theorem decNumeral_head {c : UInt8} {s : Str} {n : Nat} (h : DecNumeral (c :: s) n) : c ≠ 45 := by
  rw [decNumeral_iff] at h
  have := (isDigit_iff c).1 (h.1 c (by simp))
  rintro rfl
  simp at this

/-! ### The portable branch -/

theorem digitLoopPortable_unsigned (max : Nat) (hmax : 10 ≤ max) (s : Str) (acc : Nat)
    (hacc : acc ≤ max) : digitLoopPortable max false s acc = .ok (digitLoop max s acc) := by
  induction s generalizing acc with
  | nil => rfl
  | cons c s ih =>
    unfold digitLoopPortable digitLoop
    by_cases hc : isDigit c = true
    · have hd := (isDigit_iff c).1 hc
      simp only [hc, Bool.not_true, Bool.false_eq_true, if_false, false_and]
      by_cases h1 : acc > max / 10
      · rw [if_pos h1, if_pos (by omega)]
      · have hA : ¬ acc * 10 > max := by omega
        rw [if_neg h1]
        simp only [hA, if_false]
        by_cases h2 : acc * 10 + (c.toNat - 48) > max
        · have e : (acc * 10 + (c.toNat - 48)) % (max + 1) < acc * 10 := by
            rw [Nat.mod_eq_sub_mod (by omega), Nat.mod_eq_of_lt (by omega)]
            omega
          rw [if_pos h2, if_pos e]
        · have e : (acc * 10 + (c.toNat - 48)) % (max + 1) = acc * 10 + (c.toNat - 48) :=
            Nat.mod_eq_of_lt (by omega)
          rw [if_neg h2, e, if_neg (by omega), ih _ (by omega)]
    · simp [hc]

/-! ### Normalized value -/

theorem countedInteger_digits (s : Str) (m : Nat) (hs : s ≠ []) (hl : s.length ≤ 19)
    (hd : Digits s) (hm : m * 10 ^ s.length < 2 ^ 64) :
    countedInteger s m = some (val 0 s, m * 10 ^ s.length) := by
  unfold countedInteger
  have : 10 ^ s.length ≤ 10 ^ 19 := Nat.pow_le_pow_right (by omega) hl
  rw [toUnsignedInteger_digits _ _ hs (by omega) hd]
  rw [Nat.mod_eq_of_lt hm]
  rfl

theorem countedInteger_not_digits (s : Str) (m : Nat) (hd : ¬ Digits s) :
    countedInteger s m = none := by
  unfold countedInteger
  rw [toUnsignedInteger_not_digits _ _ hd]
  rfl

theorem digits_append {s t : Str} : Digits (s ++ t) ↔ Digits s ∧ Digits t := by
  unfold Digits
  constructor
  · intro h
    exact ⟨fun c hc => h c (by simp [hc]), fun c hc => h c (by simp [hc])⟩
  · rintro ⟨h1, h2⟩ c hc
    simp at hc
    rcases hc with hc | hc
    · exact h1 c hc
    · exact h2 c hc

/-- Only the first 19 digits count (and only they are checked). -/
theorem toNormalizedFloat_spec (i1 i2 : Str) (h1 : i1 ≠ []) :
    (Digits ((i1 ++ i2).take 19) → toNormalizedFloat i1 i2 =
      some (val 0 ((i1 ++ i2).take 19), 10 ^ (((i1 ++ i2).take 19).length - 1))) ∧
    (¬ Digits ((i1 ++ i2).take 19) → toNormalizedFloat i1 i2 = none) := by
  have hsplit : (i1 ++ i2).take 19 = i1.take (min i1.length 19) ++
      i2.take (min i2.length (19 - (i1.take (min i1.length 19)).length)) := by
    rw [List.take_append]
    congr 1
    · rw [List.take_eq_take_iff]; omega
    · rw [List.take_eq_take_iff, List.length_take]; omega
  unfold toNormalizedFloat digits10
  simp only
  rw [hsplit]
  have ht1 : i1.take (min i1.length 19) ≠ [] := by
    intro e
    have := congrArg List.length e
    rw [List.length_take, List.length_nil] at this
    have hp : 0 < i1.length := List.length_pos_iff.2 h1
    omega
  have hl1 : (i1.take (min i1.length 19)).length ≤ 19 := by rw [List.length_take]; omega
  have hl2 : (i1.take (min i1.length 19)).length +
      (i2.take (min i2.length (19 - (i1.take (min i1.length 19)).length))).length ≤ 19 := by
    simp; omega
  generalize i1.take (min i1.length 19) = t1 at *
  generalize i2.take (min i2.length (19 - t1.length)) = t2 at *
  have hp1 : 0 < t1.length := List.length_pos_iff.2 ht1
  have p19 : (10 : Nat) ^ 19 < 2 ^ 64 := by decide
  have hpl : ∀ k, k ≤ 19 → 10 ^ k ≤ 10 ^ 19 := fun k hk => Nat.pow_le_pow_right (by omega) hk
  rw [digits_append]
  have he1 : t1.isEmpty = false := by cases t1 <;> simp_all
  constructor
  · rintro ⟨d1, d2⟩
    have step1 : (if t2.isEmpty then some (0, 1) else countedInteger t2 1)
        = some (val 0 t2, 10 ^ t2.length) := by
      split
      · rename_i h
        rw [List.isEmpty_iff] at h
        subst h; rfl
      · rename_i h
        have := hpl t2.length (by omega)
        rw [countedInteger_digits t2 1 (by simpa using h) (by omega) d2 (by omega)]
        simp
    have hmag : 10 ^ t2.length * 10 ^ t1.length ≤ 10 ^ 19 := by
      rw [← Nat.pow_add]; exact hpl _ (by omega)
    have hval : val 0 t2 + val 0 t1 * 10 ^ t2.length = val 0 (t1 ++ t2) := by
      rw [val_append, val_zero_digits (val 0 t1) t2]
    have hvl : val 0 (t1 ++ t2) < 10 ^ 19 := by
      have := val_lt (t1 ++ t2) (digits_append.2 ⟨d1, d2⟩)
      have := hpl (t1 ++ t2).length (by simp; omega)
      omega
    rw [step1]
    simp only [he1, Bool.false_eq_true, if_false]
    rw [countedInteger_digits t1 _ ht1 (by omega) d1 (by omega)]
    simp only [Option.map_some]
    rw [hval, Nat.mod_eq_of_lt (by omega)]
    congr 2
    have : 10 ^ t2.length * 10 ^ t1.length = 10 ^ ((t1 ++ t2).length - 1) * 10 := by
      rw [← Nat.pow_add, ← Nat.pow_succ]
      congr 1
      simp; omega
    rw [this, Nat.mul_div_cancel _ (by omega)]
  · intro hd
    by_cases d2 : Digits t2
    · have d1 : ¬ Digits t1 := fun d1 => hd ⟨d1, d2⟩
      cases hst : (if t2.isEmpty then some (0, 1) else countedInteger t2 1 : Option (Nat × Nat)) with
      | none => rfl
      | some p =>
        simp only [he1, Bool.false_eq_true, if_false, countedInteger_not_digits _ _ d1,
          Option.map_none]
    · have : t2.isEmpty = false := by
        cases t2 with
        | nil => exact absurd (by simp [Digits]) d2
        | cons => rfl
      rw [this]
      simp only [Bool.false_eq_true, if_false, countedInteger_not_digits _ _ d2]

/-! ### Powers of ten -/

theorem pow10Loop_num (base : ℚ) (limit : FVal) (fuel x bit : Nat) (r : ℚ)
    (hf : 10 ≤ fuel + bit) (hb : bit ≤ 9) (hx : x < 2 ^ (9 - bit)) :
    pow10Loop base limit fuel x bit r = .num (r * base ^ (16 * 2 ^ bit * x)) := by
  induction fuel generalizing x bit r with
  | zero => omega
  | succ fuel ih =>
    unfold pow10Loop
    by_cases hx0 : x > 0
    · rw [if_pos hx0]
      have hb9 : bit ≠ 9 := by rintro rfl; simp at hx; omega
      rw [if_neg hb9]
      have e9 : 2 ^ (9 - bit) = 2 * 2 ^ (9 - (bit + 1)) := by
        rw [← Nat.pow_succ']; congr 1; omega
      rw [ih (x / 2) (bit + 1) _ (by omega) (by omega) (by omega)]
      congr 1
      have key : ∀ y : Nat, 16 * 2 ^ (bit + 1) * y = 16 * 2 ^ bit * (2 * y) := by
        intro y; rw [Nat.pow_succ]; ring
      rw [key]
      split
      · rename_i ho
        rw [mul_assoc, ← pow_add]
        congr 2
        have : x = 1 + 2 * (x / 2) := by omega
        conv => rhs; rw [this]
        ring
      · rename_i ho
        congr 2
        have : x = 2 * (x / 2) := by omega
        rw [← this]
    · have : x = 0 := by omega
      subst this
      simp

theorem pow10Loop_limit (base : ℚ) (limit : FVal) (fuel x bit : Nat) (r : ℚ)
    (hf : 10 ≤ fuel + bit) (hb : bit ≤ 9) (hx : 2 ^ (9 - bit) ≤ x) :
    pow10Loop base limit fuel x bit r = limit := by
  induction fuel generalizing x bit r with
  | zero => omega
  | succ fuel ih =>
    have hpos : 0 < 2 ^ (9 - bit) := Nat.pow_pos (by omega)
    unfold pow10Loop
    rw [if_pos (by omega)]
    by_cases hb9 : bit = 9
    · rw [if_pos hb9]
    · rw [if_neg hb9]
      have e9 : 2 ^ (9 - bit) = 2 * 2 ^ (9 - (bit + 1)) := by
        rw [← Nat.pow_succ']; congr 1; omega
      exact ih (x / 2) (bit + 1) _ (by omega) (by omega) (by omega)

theorem pow10_num (e : Int) (h1 : -8192 < e) (h2 : e < 8192) :
    pow10 e = .ok (.num ((10 : ℚ) ^ e)) := by
  have split : ∀ n : Nat, n % 16 + 16 * 2 ^ 0 * (n / 16) = n := by intro n; omega
  unfold pow10
  split
  · rename_i hneg
    rw [int32, if_pos (by unfold intMax; omega)]
    simp only [Res.map_ok, Res.bind_ok]
    rw [pow10Loop_num _ _ _ _ _ _ (by omega) (by omega) (by omega), ← pow_add, split]
    congr 2
    obtain ⟨n, rfl⟩ : ∃ n : Nat, e = -(n : Int) := ⟨(-e).toNat, by omega⟩
    simp
  · rename_i hneg
    simp only [Res.bind_ok]
    rw [pow10Loop_num _ _ _ _ _ _ (by omega) (by omega) (by omega), ← pow_add, split]
    congr 2
    obtain ⟨n, rfl⟩ : ∃ n : Nat, e = (n : Int) := ⟨e.toNat, by omega⟩
    simp

theorem pow10_big (e : Int) (h1 : 8192 ≤ e) : pow10 e = .ok (.inf false) := by
  unfold pow10
  rw [if_neg (by omega)]
  simp only [Res.bind_ok]
  rw [pow10Loop_limit _ _ _ _ _ _ (by omega) (by omega) (by omega)]

theorem pow10_small (e : Int) (h1 : e ≤ -8192) (h2 : -(2 ^ 31) < e) :
    pow10 e = .ok (.num 0) := by
  unfold pow10
  rw [if_pos (by omega), int32, if_pos (by unfold intMax; omega)]
  simp only [Res.map_ok, Res.bind_ok]
  rw [pow10Loop_limit _ _ _ _ _ _ (by omega) (by omega) (by omega)]

end Gul14.ToNumber
