import Verif.ToNumber.FloatLemmas

/-! Property theorems C15 (integers read back), C16, C17, C18. -/

namespace Gul14.ToNumber
open Gul14.Spec Gul14.SV Gul14.Substring

/-! ## C16: to_number for integers -/

/-- Unsigned types of any width: a value is returned iff the string is a non-empty decimal
numeral whose value fits, and it is that value. -/
theorem c16_unsigned (w : Nat) (s : Str) (n : Nat) :
    toUnsigned w s = some n ↔ s ≠ [] ∧ DecNumeral s n ∧ n < 2 ^ w := by
  have : 0 < 2 ^ w := Nat.pow_pos (by omega)
  rw [toUnsigned, toUnsignedInteger_iff]
  constructor <;> rintro ⟨h1, h2, h3⟩ <;> exact ⟨h1, h2, by omega⟩

/-- Signed types of any width: the same with an optional leading minus sign. -/
theorem c16_signed (w : Nat) (hw : 0 < w) (s : Str) (v : Int) :
    toSigned w s = some v ↔
      (∃ n : Nat, s ≠ [] ∧ DecNumeral s n ∧ v = n ∧ v < 2 ^ (w - 1)) ∨
      (∃ (t : Str) (n : Nat), s = 45 :: t ∧ t ≠ [] ∧ DecNumeral t n ∧ v = -n ∧ -2 ^ (w - 1) ≤ v) := by
  have hp : 0 < 2 ^ (w - 1) := Nat.pow_pos (by omega)
  have hp2 : 2 ^ w = 2 * 2 ^ (w - 1) := by
    rw [← Nat.pow_succ']; congr 1; omega
  have hcast : ((2 : Int) ^ (w - 1)) = ((2 ^ (w - 1) : Nat) : Int) := by push_cast; rfl
  unfold toSigned
  simp only [hcast]
  generalize 2 ^ (w - 1) = p at *
  cases s with
  | nil => simp
  | cons c rest =>
    simp only
    by_cases hc : c = 45
    · subst hc
      rw [if_pos rfl, hp2]
      have hno : ¬ ∃ n : Nat, (45 :: rest : Str) ≠ [] ∧ DecNumeral (45 :: rest) n ∧ v = n ∧
          v < p := by
        rintro ⟨n, -, h, -⟩
        exact absurd rfl (decNumeral_head h)
      rw [iff_false_intro hno, false_or]
      cases h : toUnsignedInteger (2 * p - 1) rest with
      | none =>
        simp only [reduceCtorEq, false_iff]
        rintro ⟨t, n, ht, h1, h2, rfl, h3⟩
        simp at ht; subst ht
        have : toUnsignedInteger (2 * p - 1) rest = some n := by
          rw [toUnsignedInteger_iff]
          exact ⟨h1, h2, by omega⟩
        rw [h] at this; simp at this
      | some r =>
        rw [toUnsignedInteger_iff] at h
        obtain ⟨h1, h2, h3⟩ := h
        have huniq : ∀ (t : Str) (n : Nat), (45 :: rest : Str) = 45 :: t → DecNumeral t n → n = r := by
          intro t n ht hn
          simp at ht; subst ht
          rw [decNumeral_iff] at hn h2
          rw [← hn.2, h2.2]
        simp only
        split
        · rename_i hr
          constructor
          · intro hv
            simp at hv
            exact ⟨rest, r, rfl, h1, h2, by omega, by omega⟩
          · rintro ⟨t, n, ht, g1, g2, rfl, g3⟩
            have := huniq t n ht g2
            subst this
            simp; omega
        · split
          · simp only [reduceCtorEq, false_iff]
            rintro ⟨t, n, ht, g1, g2, rfl, g3⟩
            have := huniq t n ht g2
            omega
          · constructor
            · intro hv
              simp at hv
              exact ⟨rest, r, rfl, h1, h2, by omega, by omega⟩
            · rintro ⟨t, n, ht, g1, g2, rfl, g3⟩
              have := huniq t n ht g2
              subst this
              rfl
    · rw [if_neg hc]
      have hno : ¬ ∃ (t : Str) (n : Nat), (c :: rest : Str) = 45 :: t ∧ t ≠ [] ∧ DecNumeral t n ∧
          v = -n ∧ -(p : Int) ≤ v := by
        rintro ⟨t, n, h, -⟩
        simp at h
        exact hc h.1
      rw [iff_false_intro hno, or_false]
      cases h : toUnsignedInteger (p - 1) (c :: rest) with
      | none =>
        simp only [Option.map_none, reduceCtorEq, false_iff]
        rintro ⟨n, h1, h2, rfl, h3⟩
        have : toUnsignedInteger (p - 1) (c :: rest) = some n := by
          rw [toUnsignedInteger_iff]
          exact ⟨h1, h2, by omega⟩
        rw [h] at this; simp at this
      | some r =>
        rw [toUnsignedInteger_iff] at h
        obtain ⟨h1, h2, h3⟩ := h
        simp only [Option.map_some, Option.some.injEq]
        constructor
        · rintro rfl
          exact ⟨r, h1, h2, rfl, by omega⟩
        · rintro ⟨n, g1, g2, rfl, g3⟩
          rw [decNumeral_iff] at g2 h2
          rw [← g2.2, h2.2]

/-- The code path for compilers without overflow builtins gives the same answers for unsigned
types ... -/
theorem c16_portable_unsigned (w : Nat) (hw : 4 ≤ w) (s : Str) :
    toUnsignedIntegerPortable (2 ^ w - 1) false s = .ok (toUnsigned w s) := by
  have : 2 ^ 4 ≤ 2 ^ w := Nat.pow_le_pow_right (by omega) hw
  unfold toUnsignedIntegerPortable toUnsigned toUnsignedInteger
  split
  · rfl
  · exact digitLoopPortable_unsigned _ (by omega) s 0 (Nat.zero_le _)

/-- ... but has undefined behaviour for `int` when the last digit overflows, e.g. for
"2147483648". -/
theorem c16_portable_signed_violated :
    ∃ s : Str, toUnsignedIntegerPortable (2 ^ 31 - 1) true s = .ub :=
  ⟨bytes "2147483648", by decide +kernel⟩

example : toUnsigned 8 (bytes "255") = some 255 ∧ toUnsigned 8 (bytes "256") = none ∧
    toUnsigned 64 (bytes "042") = some 42 ∧ toUnsigned 64 (bytes "+1") = none ∧
    toSigned 8 (bytes "-128") = some (-128) ∧ toSigned 8 (bytes "-129") = none ∧
    toSigned 32 (bytes "2147483647") = some 2147483647 ∧ toSigned 32 (bytes " 1") = none := by
  decide +kernel

/-! ## C15: integers written by cat are read back by to_number -/

theorem c15_unsigned_read_back (w n : Nat) (h : n < 2 ^ w) :
    toUnsigned w (Text.cat [.int n]) = some n := by
  rw [c16_unsigned]
  have e : Text.cat [.int n] = Text.decNat (n + 1) n := by
    simp [Text.cat, Text.Arg.text, Text.toString]
  rw [e]
  have := decNat_spec (n + 1) n (by omega)
  exact ⟨this.2, this.1, h⟩

theorem c15_signed_read_back (w : Nat) (hw : 0 < w) (v : Int) (h1 : -2 ^ (w - 1) ≤ v)
    (h2 : v < 2 ^ (w - 1)) : toSigned w (Text.cat [.int v]) = some v := by
  rw [c16_signed w hw]
  have hd := decNat_spec (v.natAbs + 1) v.natAbs (by omega)
  by_cases hv : v < 0
  · right
    have e : Text.cat [.int v] = 45 :: Text.decNat (v.natAbs + 1) v.natAbs := by
      simp [Text.cat, Text.Arg.text, Text.toString, hv]
    exact ⟨_, v.natAbs, e, hd.2, hd.1, by omega, h1⟩
  · left
    have e : Text.cat [.int v] = Text.decNat (v.natAbs + 1) v.natAbs := by
      simp [Text.cat, Text.Arg.text, Text.toString, hv]
    rw [e]
    exact ⟨v.natAbs, hd.2, hd.1, by omega, h2⟩

example : toSigned 32 (Text.cat [.int (-2147483648)]) = some (-2147483648) ∧
    toUnsigned 16 (Text.cat [.int 65535]) = some 65535 := by decide +kernel

/-! ## C18: to_number<bool> -/

/-- to_number<bool> never fails otherwise than by an empty result, and its result is `b` iff the
string is one of the documented spellings of `b`. -/
theorem c18_bool (s : Str) :
    ∃ r, toBool s = .ok r ∧
      (r = some true ↔ s = bytes "1" ∨ SameNocase s (bytes "true")) ∧
      (r = some false ↔ s = bytes "0" ∨ SameNocase s (bytes "false")) := by
  have b1 : bytes "1" = [49] := by decide
  have b0 : bytes "0" = [48] := by decide
  have lenT : ∀ s, SameNocase s (bytes "true") → s.length = 4 := by
    intro s h
    have := congrArg List.length h
    have e : (bytes "true").length = 4 := by decide
    simpa [e] using this
  have lenF : ∀ s, SameNocase s (bytes "false") → s.length = 5 := by
    intro s h
    have := congrArg List.length h
    have e : (bytes "false").length = 5 := by decide
    simpa [e] using this
  rw [b1, b0]
  unfold toBool
  split
  · rename_i c
    have n1 : ¬ SameNocase [c] (bytes "true") := fun h => by have := lenT _ h; simp at this
    have n2 : ¬ SameNocase [c] (bytes "false") := fun h => by have := lenF _ h; simp at this
    by_cases h1 : c = 49
    · subst h1; exact ⟨_, rfl, by simp, by simp [n2]⟩
    · by_cases h2 : c = 48
      · subst h2; exact ⟨_, rfl, by simp [n1], by simp⟩
      · rw [if_neg h1, if_neg h2]
        exact ⟨_, rfl, by simp [n1, h1], by simp [n2, h2]⟩
  · rename_i hs
    have hs1 : ∀ c, s ≠ [c] := fun c h => hs c h
    obtain ⟨t, ht1, ht2⟩ := c11_equals_nocase s (bytes "true")
    obtain ⟨f, hf1, hf2⟩ := c11_equals_nocase s (bytes "false")
    rw [ht1, Res.bind_ok]
    by_cases h : t = true
    · rw [if_pos h]
      have hT := ht2.1 h
      have hF : ¬ SameNocase s (bytes "false") := fun g => by
        have := lenT _ hT; have := lenF _ g; omega
      exact ⟨_, rfl, by simp [hT], by simp [hF, hs1]⟩
    · have hT : ¬ SameNocase s (bytes "true") := fun g => h (ht2.2 g)
      rw [if_neg h, hf1, Res.bind_ok]
      by_cases g : f = true
      · rw [if_pos g]
        exact ⟨_, rfl, by simp [hT, hs1], by simp [hf2.1 g]⟩
      · have hF : ¬ SameNocase s (bytes "false") := fun k => g (hf2.2 k)
        rw [if_neg g]
        exact ⟨_, rfl, by simp [hT, hs1], by simp [hF, hs1]⟩

example : toBool (bytes "TrUe") = .ok (some true) ∧ toBool (bytes "0") = .ok (some false) ∧
    toBool (bytes "01") = .ok none ∧ toBool [] = .ok none := by decide

end Gul14.ToNumber
