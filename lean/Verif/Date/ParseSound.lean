import Verif.Date.ParseProps

/-! # What a successful parse has read -/
namespace Gul14.Date
open Gul14.Spec.Calendar Gul14.Spec.DateText Gul14.Spec.DateFormat Gul14.Spec.DateParse
open Gul14.Ieee (Fl extended)

/-! ### Numbers -/

theorem readDigits_sound (M : Nat) (h9 : M ≤ 9) (s : List Char) : ∀ (count x : Nat), count < M → x < 10 ^ count →
    ∃ ds r e, readDigits M count x s = (count + ds.length, accum x ds, r, e) ∧ s = ds ++ r ∧ ds.all isDigit = true ∧
      count + ds.length ≤ M := by
  induction s with
  | nil => intro count x h1 _; exact ⟨[], [], true, rfl, rfl, rfl, by simp; omega⟩
  | cons c r ih =>
    intro count x h1 h2
    unfold readDigits
    by_cases hc : isDigit c = true
    · have hd := dig_le hc
      have hp : 10 ^ (count + 1) ≤ 10 ^ 9 := Nat.pow_le_pow_right (by omega) (by omega)
      have hx : 10 * x + digVal c < 10 ^ (count + 1) := by rw [Nat.pow_succ]; unfold digVal; omega
      simp only [isDig_eq, hc, Bool.not_true, Bool.false_eq_true, if_false, Nat.mod_eq_of_lt (show 10 * x + digVal c < 4294967296 by omega)]
      by_cases hM : count + 1 = M
      · rw [if_pos hM]
        exact ⟨[c], r, false, rfl, rfl, by simp [hc], by simp; omega⟩
      · rw [if_neg hM]
        obtain ⟨ds, r', e, g1, g2, g3, g4⟩ := ih (count + 1) (10 * x + digVal c) (by omega) hx
        refine ⟨c :: ds, r', e, ?_, by rw [g2]; rfl, by simp [hc, g3], by simp; omega⟩
        rw [g1, List.length_cons]
        congr 1
        omega
    · have hc : isDigit c = false := by simpa using hc
      simp only [isDig_eq, hc, Bool.not_false, if_true]
      exact ⟨[], c :: r, false, rfl, rfl, rfl, by simp; omega⟩

theorem readUnsigned_sound {M m x : Nat} {is is' : IStream} (h1 : 1 ≤ M) (h9 : M ≤ 9) (hm : 1 ≤ m)
    (h : readUnsigned is m M = (x, is')) (hf : is'.fail = false) : ∃ s, is.rest = s ++ is'.rest ∧ Num M x s ∧ m ≤ s.length := by
  unfold readUnsigned at h
  split at h
  · cases h; simp [IStream.setFail] at hf
  · obtain ⟨ds, r, e, g1, g2, g3, g4⟩ := readDigits_sound M h9 is.rest 0 0 (by omega) (by simp)
    rw [g1] at h
    simp only [Prod.mk.injEq] at h
    obtain ⟨rfl, rfl⟩ := h
    simp only [decide_eq_false_iff_not, Nat.not_lt, Nat.zero_add] at hf
    refine ⟨ds, g2, ⟨?_, by omega, g3, rfl⟩, hf⟩
    rintro rfl
    simp at hf
    omega

theorem num_lt {M v : Nat} {s : List Char} (h : Num M v s) : v < 10 ^ M := by
  obtain ⟨-, h2, h3, rfl⟩ := h
  exact Nat.lt_of_lt_of_le (value_lt s h3) (Nat.pow_le_pow_right (by omega) h2)

theorem snum_lt {M : Nat} {v : Int} {s : List Char} (h : SNum M v s) : v.natAbs < 10 ^ M := by
  obtain ⟨t, k, hk, ⟨rfl, -⟩ | ⟨rfl, -⟩⟩ := h <;> have := num_lt hk <;> omega

theorem peek_some {is is' : IStream} {c : Char} (h : is.peek = (some c, is')) : is' = is ∧ is.good = true ∧ ∃ r, is.rest = c :: r := by
  unfold IStream.peek at h
  split at h
  · cases h
  · rename_i hg
    split at h
    · cases h
    · rename_i c' r hr
      cases h
      exact ⟨rfl, by simpa using hg, r, hr⟩

theorem good_fail {is : IStream} (h : is.good = true) : is.fail = false ∧ is.eof = false := by
  unfold IStream.good at h
  simp only [Bool.and_eq_true, Bool.not_eq_true'] at h
  exact ⟨h.2, h.1⟩

theorem get_good {is : IStream} {c : Char} {r : List Char} (h : is.good = true) (hr : is.rest = c :: r) :
    is.get = (some c, { is with rest := r }) := by
  unfold IStream.get
  simp only [h, Bool.not_true, Bool.false_eq_true, if_false]
  rw [hr]

/-- The sign, and the digits. -/
theorem readSigned_parts {M m : Nat} {x : Int} {is is' : IStream} (h1 : 1 ≤ M) (h9 : M ≤ 9) (hm : 1 ≤ m)
    (h : readSigned is m M = .ok (x, is')) (hf : is'.fail = false) : ∃ (g t : List Char) (k : Nat), is.rest = g ++ (t ++ is'.rest) ∧
      (g = [] ∧ x = k ∨ g = ['+'] ∧ x = k ∨ g = ['-'] ∧ x = -(k : Int)) ∧ Num M k t ∧ m ≤ t.length := by
  have hp : 10 ^ M ≤ 10 ^ 9 := Nat.pow_le_pow_right (by omega) h9
  have gu : ∀ i : IStream, ((pure (0, if m > 0 then i.setFail else i) : Res (Int × IStream)) = .ok (x, is')) → False := by
    intro i h
    rw [if_pos (by omega)] at h
    cases h
    simp [IStream.setFail] at hf
  unfold readSigned at h
  simp only at h
  rcases hpk : is.peek with ⟨_ | c, i0⟩ <;> rw [hpk] at h <;> simp only at h
  · exact (gu _ h).elim
  · obtain ⟨rfl, hg, r, hr⟩ := peek_some hpk
    split at h
    · rename_i hc
      generalize hI : (if (c = '-' || c = '+') = true then i0.get.2 else i0) = I at h
      rcases hru : readUnsigned I (max m 1) M with ⟨k, i1⟩
      rw [hru] at h
      simp only at h
      split at h
      · exact (gu _ h).elim
      · rename_i hnf
        have hk := fun hh => readUnsigned_sound h1 h9 (Nat.le_max_right m 1) hru hh
        have hnf' : i1.fail = false := by simpa using hnf
        obtain ⟨t, t1, t2, t3⟩ := hk hnf'
        have t3 : m ≤ t.length := by omega
        have hlt := num_lt t2
        have ha : asInt (k : Int) = k := by unfold asInt; rw [if_pos (by omega)]
        rw [ha] at h
        by_cases hs : c = '-'
        · subst hs
          simp only [decide_true, Bool.true_or, if_true] at hI h
          rw [int_ok (by omega) (by omega)] at h
          simp only [Res.ok_bind, Res.pure_eq, Res.ok.injEq, Prod.mk.injEq] at h
          obtain ⟨rfl, rfl⟩ := h
          rw [get_good hg hr] at hI
          subst hI
          refine ⟨['-'], t, k, ?_, by simp, t2, t3⟩
          rw [hr]; simp only at t1; rw [t1]; rfl
        · rw [if_neg hs] at h
          simp only [Res.pure_eq, Res.ok.injEq, Prod.mk.injEq] at h
          obtain ⟨rfl, rfl⟩ := h
          by_cases hp : c = '+'
          · subst hp
            simp only [decide_true, Bool.or_true, if_true] at hI
            rw [get_good hg hr] at hI
            subst hI
            refine ⟨['+'], t, k, ?_, by simp, t2, t3⟩
            rw [hr]; simp only at t1; rw [t1]; rfl
          · rw [if_neg (by simp [hs, hp])] at hI
            subst hI
            exact ⟨[], t, k, t1, by simp, t2, t3⟩
    · exact (gu _ h).elim

theorem readSigned_sound {M m : Nat} {x : Int} {is is' : IStream} (h1 : 1 ≤ M) (h9 : M ≤ 9) (hm : 1 ≤ m)
    (h : readSigned is m M = .ok (x, is')) (hf : is'.fail = false) : ∃ s, is.rest = s ++ is'.rest ∧ SNum M x s := by
  obtain ⟨g, t, k, a1, a2, a3, -⟩ := readSigned_parts h1 h9 hm h hf
  refine ⟨g ++ t, by rw [a1, List.append_assoc], t, k, a3, ?_⟩
  rcases a2 with ⟨rfl, rfl⟩ | ⟨rfl, rfl⟩ | ⟨rfl, rfl⟩ <;> simp

theorem readChar_sound {c : Char} {is : IStream} (hf : (readChar c is).fail = false) :
    is.rest = c :: (readChar c is).rest := by
  unfold readChar at *
  rcases hpk : is.peek with ⟨_ | x, i0⟩ <;> (simp only [hpk] at hf ⊢)
  · cases hf
  · obtain ⟨rfl, hg, r, hr⟩ := peek_some hpk
    split at hf
    · simp [IStream.setFail] at hf
    · rename_i hx
      have hx : x = c := by simpa using hx
      subst hx
      rw [if_neg (by simp), get_good hg hr, hr]

/-! ### Decimal fractions -/

theorem readDecimal_sound (M : Nat) (h9 : M ≤ 19) (s : List Char) : ∀ (st : LdState), st.count < M → st.i < 10 ^ st.count →
    st.f < 10 ^ st.count → (st.frac = false → st.fcount = 0 ∧ st.f = 0) →
    ∃ a b t r e, readDecimal M st s = (⟨st.count + t.length, st.fcount + b.length, accum st.i a, accum st.f b, e⟩, r) ∧
      s = t ++ r.1 ∧ a.all isDigit = true ∧ b.all isDigit = true ∧ st.count + t.length ≤ M ∧
      (if st.frac then a = [] ∧ t = b else (t = a ∧ b = []) ∨ t = a ++ '.' :: b) := by
  induction s with
  | nil =>
    intro st h1 _ _ _
    refine ⟨[], [], [], ([], true), st.frac, rfl, rfl, rfl, rfl, by simp; omega, ?_⟩
    split <;> simp
  | cons c r ih =>
    intro st h1 h2 h3 h4
    have hp : 10 ^ (st.count + 1) ≤ 10 ^ 19 := Nat.pow_le_pow_right (by omega) (by omega)
    have hps : 10 ^ (st.count + 1) = 10 ^ st.count * 10 := Nat.pow_succ ..
    unfold readDecimal
    by_cases hdot : c = '.' ∧ st.frac = false
    · simp only [hdot, and_self, if_true]
      by_cases hM : st.count + 1 = M
      · rw [if_pos hM]
        refine ⟨[], [], ['.'], (r, false), true, rfl, rfl, rfl, rfl, by simp; omega, ?_⟩
        simp
      · rw [if_neg hM]
        obtain ⟨a, b, t, r', e, g1, g2, g3, g4, g5, g6⟩ := ih ⟨st.count + 1, st.fcount, st.i, st.f, true⟩ (by simp; omega)
          (by simp only; omega) (by simp only; omega) (by simp)
        simp only [if_true] at g1 g5 g6
        obtain ⟨rfl, rfl⟩ := g6
        refine ⟨[], t, '.' :: t, r', e, ?_, by rw [g2]; rfl, rfl, g4, by simp; omega, ?_⟩
        · rw [g1, List.length_cons]
          congr 2
          omega
        · simp
    · rw [if_neg hdot]
      by_cases hc : isDigit c = true
      · have hd := dig_le hc
        have hd' : digVal c ≤ 9 := by unfold digVal; omega
        simp only [isDig_eq, hc, Bool.not_true, Bool.false_eq_true, if_false]
        rcases hfr : st.frac with _ | _
        · simp only [Bool.not_false, if_true]
          have hx : 10 * st.i + digVal c < 10 ^ (st.count + 1) := by omega
          rw [Nat.mod_eq_of_lt (show 10 * st.i + digVal c < 18446744073709551616 by omega)]
          by_cases hM : st.count + 1 = M
          · rw [if_pos hM]
            refine ⟨[c], [], [c], (r, false), false, ?_, rfl, by simp [hc], rfl, by simp; omega, ?_⟩
            · simp [accum, digVal]
            · simp
          · rw [if_neg hM]
            obtain ⟨a, b, t, r', e, g1, g2, g3, g4, g5, g6⟩ := ih ⟨st.count + 1, st.fcount, 10 * st.i + digVal c, st.f, false⟩ (by simp; omega)
              (by simp only; omega) (by simp only; omega) (fun _ => h4 hfr)
            simp only [Bool.false_eq_true, if_false] at g1 g5 g6
            refine ⟨c :: a, b, c :: t, r', e, ?_, by rw [g2]; rfl, by simp [hc, g3], g4, by simp; omega, ?_⟩
            · rw [g1, List.length_cons]
              congr 2
              omega
            · simp only [Bool.false_eq_true, if_false]
              rcases g6 with ⟨rfl, rfl⟩ | rfl
              · exact Or.inl ⟨rfl, rfl⟩
              · exact Or.inr rfl
        · simp only [Bool.not_true, Bool.false_eq_true, if_false]
          have hx : 10 * st.f + digVal c < 10 ^ (st.count + 1) := by omega
          rw [Nat.mod_eq_of_lt (show 10 * st.f + digVal c < 18446744073709551616 by omega)]
          by_cases hM : st.count + 1 = M
          · rw [if_pos hM]
            refine ⟨[], [c], [c], (r, false), true, ?_, rfl, rfl, by simp [hc], by simp; omega, ?_⟩
            · simp [accum, digVal]
            · simp
          · rw [if_neg hM]
            obtain ⟨a, b, t, r', e, g1, g2, g3, g4, g5, g6⟩ := ih ⟨st.count + 1, st.fcount + 1, st.i, 10 * st.f + digVal c, true⟩ (by simp; omega)
              (by simp only; omega) (by simp only; omega) (by simp)
            simp only [if_true] at g1 g5 g6
            obtain ⟨rfl, rfl⟩ := g6
            refine ⟨[], c :: t, c :: t, r', e, ?_, by rw [g2]; rfl, rfl, by simp [hc, g4], by simp; omega, by simp⟩
            rw [g1, List.length_cons, Nat.add_right_comm st.count, Nat.add_right_comm st.fcount]
            rfl
      · have hc : isDigit c = false := by simpa using hc
        simp only [isDig_eq, hc, Bool.not_false, if_true]
        refine ⟨[], [], [], (c :: r, false), st.frac, rfl, rfl, rfl, rfl, by simp; omega, ?_⟩
        split <;> simp

/-- The number that read_long_double returns for a text. -/
def LdText (M : Nat) (S : Fl) (s : List Char) : Prop :=
  ∃ i f k, DecText M i f k s ∧
    S = extended.add (extended.round i) (extended.div (extended.round f) (extended.round ((10 : ℚ) ^ k)))

theorem readLongDouble_sound {M : Nat} {S : Fl} {is is' : IStream} (h1 : 1 ≤ M) (h9 : M ≤ 19)
    (h : readLongDouble is 1 M = (S, is')) (hf : is'.fail = false) : ∃ s, is.rest = s ++ is'.rest ∧ LdText M S s := by
  unfold readLongDouble at h
  split at h
  · cases h; simp [IStream.setFail] at hf
  · obtain ⟨a, b, t, r, e, g1, g2, g3, g4, g5, g6⟩ := readDecimal_sound M h9 is.rest {} (by simp; omega) (by simp) (by simp) (by simp)
    simp only [Nat.zero_add, Bool.false_eq_true, if_false] at g1 g5 g6
    rw [g1] at h
    simp only at h
    split at h
    · cases h; cases hf
    · rename_i hc
      cases h
      refine ⟨t, g2, value a, value b, b.length, ⟨?_, g5, a, b, g3, g4, rfl, rfl, rfl, g6⟩, rfl⟩
      rintro rfl
      simp at hc

/-! ### Sequences -/

/-- The text of a sequence of numbers and characters. -/
def SeqText : List RArg → List Int → Fl → List Char → Prop
  | [], xs, S, s => xs = [] ∧ S = .num 0 ∧ s = []
  | .ch c :: r, xs, S, s => ∃ b, s = c :: b ∧ SeqText r xs S b
  | .rs _ M :: r, xs, S, s => ∃ x ys a b, xs = x :: ys ∧ s = a ++ b ∧ SNum M x a ∧ SeqText r ys S b
  | .ru _ M :: r, xs, S, s => ∃ (k : Nat) (ys : List Int) (a b : List Char), xs = (k : Int) :: ys ∧ s = a ++ b ∧ Num M k a ∧ SeqText r ys S b
  | .rld _ M :: r, xs, S, s => ∃ S' a b, s = a ++ b ∧ LdText M S a ∧ SeqText r xs S' b

/-- The arguments that are used: at most nine digits, or nineteen with a fraction. -/
def RArg.Small : RArg → Prop
  | .ch _ => True
  | .rs m M => 1 ≤ m ∧ 1 ≤ M ∧ M ≤ 9
  | .ru m M => 1 ≤ m ∧ 1 ≤ M ∧ M ≤ 9
  | .rld m M => m = 1 ∧ 1 ≤ M ∧ M ≤ 19

theorem readSeq_sound (as : List RArg) : ∀ (is is' : IStream) (xs : List Int) (S : Ieee.Fl), (∀ a ∈ as, RArg.Small a) →
    readSeq as is = .ok (xs, S, is') → is'.fail = false → ∃ s, is.rest = s ++ is'.rest ∧ SeqText as xs S s := by
  induction as with
  | nil =>
    intro is is' xs S _ h _
    cases h
    exact ⟨[], rfl, rfl, rfl, rfl⟩
  | cons a as ih =>
    intro is is' xs S ha h hf
    have haa := ha a List.mem_cons_self
    have hr := fun x hx => ha x (List.mem_cons_of_mem _ hx)
    cases a with
    | ch c =>
      unfold readSeq at h
      simp only at h
      split at h
      · rename_i hf'; cases h; rw [hf] at hf'; cases hf'
      · rename_i hf'
        obtain ⟨s, g1, g2⟩ := ih _ _ _ _ hr h hf
        refine ⟨c :: s, ?_, s, rfl, g2⟩
        rw [readChar_sound (by simpa using hf'), g1]; rfl
    | rs m M =>
      unfold readSeq at h
      rcases hrs : readSigned is m M with ⟨x, i1⟩ | _ | _ | _ | _ <;> rw [hrs] at h <;> simp only [Res.ok_bind] at h
      · split at h
        · rename_i hf'; cases h; rw [hf] at hf'; cases hf'
        · rename_i hf'
          rcases hq : readSeq as i1 with ⟨ys, S', i2⟩ | _ | _ | _ | _ <;> rw [hq] at h
          · simp only [Res.ok_bind, Res.pure_eq, Res.ok.injEq, Prod.mk.injEq] at h
            obtain ⟨rfl, rfl, rfl⟩ := h
            obtain ⟨a, a1, a2⟩ := readSigned_sound haa.2.1 haa.2.2 haa.1 hrs (by simpa using hf')
            obtain ⟨b, b1, b2⟩ := ih _ _ _ _ hr hq hf
            exact ⟨a ++ b, by rw [a1, b1, List.append_assoc], x, ys, a, b, rfl, rfl, a2, b2⟩
          all_goals cases h
      all_goals cases h
    | ru m M =>
      unfold readSeq at h
      rcases hrs : readUnsigned is m M with ⟨x, i1⟩
      rw [hrs] at h
      simp only at h
      split at h
      · rename_i hf'; cases h; rw [hf] at hf'; cases hf'
      · rename_i hf'
        rcases hq : readSeq as i1 with ⟨ys, S', i2⟩ | _ | _ | _ | _ <;> rw [hq] at h
        · simp only [Res.ok_bind, Res.pure_eq, Res.ok.injEq, Prod.mk.injEq] at h
          obtain ⟨rfl, rfl, rfl⟩ := h
          obtain ⟨a, a1, a2, -⟩ := readUnsigned_sound haa.2.1 haa.2.2 haa.1 hrs (by simpa using hf')
          obtain ⟨b, b1, b2⟩ := ih _ _ _ _ hr hq hf
          have hlt := num_lt a2
          have hp : 10 ^ M ≤ 10 ^ 9 := Nat.pow_le_pow_right (by omega) haa.2.2
          have hai : asInt (x : Int) = x := by unfold asInt; rw [if_pos (by omega)]
          exact ⟨a ++ b, by rw [a1, b1, List.append_assoc], x, ys, a, b, by rw [hai], rfl, a2, b2⟩
        all_goals cases h
    | rld m M =>
      obtain ⟨rfl, haa⟩ := haa
      unfold readSeq at h
      rcases hrs : readLongDouble is 1 M with ⟨x, i1⟩
      rw [hrs] at h
      simp only at h
      split at h
      · rename_i hf'; cases h; rw [hf] at hf'; cases hf'
      · rename_i hf'
        rcases hq : readSeq as i1 with ⟨ys, S', i2⟩ | _ | _ | _ | _ <;> rw [hq] at h
        · simp only [Res.ok_bind, Res.pure_eq, Res.ok.injEq, Prod.mk.injEq] at h
          obtain ⟨rfl, rfl, rfl⟩ := h
          obtain ⟨a, a1, a2⟩ := readLongDouble_sound haa.1 haa.2 hrs (by simpa using hf')
          obtain ⟨b, b1, b2⟩ := ih _ _ _ _ hr hq hf
          exact ⟨a ++ b, by rw [a1, b1, List.append_assoc], S', a, b, rfl, a2, b2⟩
        all_goals cases h

end Gul14.Date
