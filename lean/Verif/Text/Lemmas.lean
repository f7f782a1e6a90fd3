import Verif.Text.Model
import Verif.Text.Spec

namespace Gul14.Text
open Gul14.Spec

/-- Every byte is one of 256. -/
theorem forall_u8 {P : UInt8 → Prop} (h : ∀ n : Fin 256, P (UInt8.ofNat n)) (c : UInt8) : P c := by
  have := h ⟨c.toNat, c.toNat_lt⟩
  simpa using this

theorem hexDigit_spec (i : Nat) (h : i < 16) :
    ∃ c, hexDigit i = .ok c ∧ hexDigitVal c = some i ∧ IsLowerHex c := by
  have : ∀ i : Fin 16, ∃ c : Fin 256, hexDigit i = .ok (UInt8.ofNat c) ∧
      hexDigitVal (UInt8.ofNat c) = some i.val ∧
      ((48 ≤ (UInt8.ofNat c).toNat ∧ (UInt8.ofNat c).toNat ≤ 57) ∨
       (97 ≤ (UInt8.ofNat c).toNat ∧ (UInt8.ofNat c).toNat ≤ 102)) := by decide +kernel
  obtain ⟨c, h1, h2, h3⟩ := this ⟨i, h⟩
  exact ⟨_, h1, h2, h3⟩

theorem hexNumeral_append {s n} (hs : HexNumeral s n) {a b x y : _} (ha : hexDigitVal a = some x)
    (hb : hexDigitVal b = some y) : HexNumeral (s ++ [a] ++ [b]) (256 * n + (16 * x + y)) := by
  have := (hs.snoc ha).snoc hb
  have e : 16 * (16 * n + x) + y = 256 * n + (16 * x + y) := by omega
  rw [e] at this
  exact this

theorem and15 (n : Nat) : n &&& 0xf = n % 16 := Nat.and_two_pow_sub_one_eq_mod n 4

/-- The loop renders the lowest `idx` bytes of `u` after what has been rendered already. -/
theorem hexLoop_spec (u idx : Nat) : ∀ (result : Str) (n : Nat), HexNumeral result n →
    (∀ c ∈ result, IsLowerHex c) → n = u / 2 ^ (8 * idx) →
    ∃ t, hexLoop u idx result = .ok t ∧ HexNumeral t u ∧ t.length = result.length + 2 * idx ∧
      ∀ c ∈ t, IsLowerHex c := by
  induction idx with
  | zero =>
    intro r n h hl hn
    refine ⟨r, rfl, ?_, by simp, hl⟩
    simp at hn; rw [← hn]; exact h
  | succ idx ih =>
    intro r n h hl hn
    unfold hexLoop
    simp only [and15]
    obtain ⟨hi, h1, h2, h3⟩ := hexDigit_spec (u >>> (8 * idx) >>> 4 % 16)
      (Nat.mod_lt _ (by omega))
    obtain ⟨lo, g1, g2, g3⟩ := hexDigit_spec (u >>> (8 * idx) % 16) (Nat.mod_lt _ (by omega))
    rw [h1, g1]
    simp only [Res.bind_ok]
    obtain ⟨t, k1, k2, k3, k4⟩ := ih (r ++ [hi] ++ [lo]) _ (hexNumeral_append h h2 g2)
      (by intro c hc; simp at hc; rcases hc with hc | rfl | rfl
          · exact hl c hc
          · exact h3
          · exact g3)
      (by
        subst hn
        rw [Nat.shiftRight_eq_div_pow, Nat.shiftRight_eq_div_pow]
        have e : 2 ^ (8 * (idx + 1)) = 2 ^ (8 * idx) * 256 := by
          rw [Nat.mul_add, Nat.pow_add]
        rw [e, ← Nat.div_div_eq_div_mul]
        generalize u / 2 ^ (8 * idx) = w
        omega)
    exact ⟨t, k1, k2, by rw [k3]; simp; omega, k4⟩

theorem hexNumeral_unique {s n} (h : HexNumeral s n) : ∀ m, HexNumeral s m → n = m := by
  induction h with
  | nil =>
    intro m h
    generalize hs : ([] : Str) = s at h
    cases h with
    | nil => rfl
    | snoc h1 h2 => simp at hs
  | @snoc s n c d h1 h2 ih =>
    intro m h
    generalize hs : s ++ [c] = s' at h
    cases h with
    | nil => simp at hs
    | @snoc s'' n' c' d' g1 g2 =>
      have := List.append_inj' hs (by simp)
      obtain ⟨rfl, e⟩ := this
      simp at e; subst e
      rw [ih _ g1]
      rw [h2] at g2
      simp at g2
      omega

/-! ### unescape -/

theorem isXdigit_iff (c : UInt8) : isXdigit c = true ↔ hexDigitVal c = some (xdigitVal c) := by
  revert c
  apply forall_u8
  decide +kernel

theorem hexDigitVal_some {c : UInt8} {x : Nat} (h : hexDigitVal c = some x) :
    isXdigit c = true ∧ xdigitVal c = x := by
  have : ∀ c : UInt8, (hexDigitVal c).isSome = true → isXdigit c = true := by
    apply forall_u8; decide +kernel
  have h1 := this c (by rw [h]; rfl)
  refine ⟨h1, ?_⟩
  have := (isXdigit_iff c).1 h1
  rw [h] at this
  simpa using this.symm

theorem b_quote : bytes "\\\"" = [92, 34] := by decide
theorem b_bs : bytes "\\\\" = [92, 92] := by decide
theorem b_n : bytes "\\n" = [92, 110] := by decide
theorem b_r : bytes "\\r" = [92, 114] := by decide
theorem b_t : bytes "\\t" = [92, 116] := by decide
theorem b_x : bytes "\\x" = [92, 120] := by decide

theorem matchHere_of_seq {e c} (h : EscapeSeq e c) (s : Str) :
    ∃ g, matchHere (e ++ s) = some (g, s) ∧ decodeGroup g = [c] := by
  cases h with
  | quote => exact ⟨[34], by simp [b_quote, matchHere], rfl⟩
  | backslash => exact ⟨[92], by simp [b_bs, matchHere], rfl⟩
  | newline => exact ⟨[110], by simp [b_n, matchHere], rfl⟩
  | ret => exact ⟨[114], by simp [b_r, matchHere], rfl⟩
  | tab => exact ⟨[116], by simp [b_t, matchHere], rfl⟩
  | @hex a b x y ha hb =>
    obtain ⟨h1, h2⟩ := hexDigitVal_some ha
    obtain ⟨h3, h4⟩ := hexDigitVal_some hb
    refine ⟨[120, a, b], by simp [b_x, matchHere, h1, h3], ?_⟩
    simp [decodeGroup, h2, h4]

theorem seq_of_matchHere {s g rest} (h : matchHere s = some (g, rest)) :
    ∃ e c, s = e ++ rest ∧ EscapeSeq e c ∧ decodeGroup g = [c] := by
  unfold matchHere at h
  split at h
  · rename_i c rest'
    split at h
    · rename_i hc
      simp at h
      obtain ⟨rfl, rfl⟩ := h
      rcases hc with rfl | rfl | rfl | rfl | rfl
      · exact ⟨_, _, by rw [b_quote]; rfl, .quote, rfl⟩
      · exact ⟨_, _, by rw [b_bs]; rfl, .backslash, rfl⟩
      · exact ⟨_, _, by rw [b_n]; rfl, .newline, rfl⟩
      · exact ⟨_, _, by rw [b_r]; rfl, .ret, rfl⟩
      · exact ⟨_, _, by rw [b_t]; rfl, .tab, rfl⟩
    · split at h
      · rename_i hx
        subst hx
        split at h
        · rename_i a b rest''
          split at h
          · rename_i hab
            simp at h
            obtain ⟨rfl, rfl⟩ := h
            refine ⟨_, _, ?_, .hex ((isXdigit_iff a).1 hab.1) ((isXdigit_iff b).1 hab.2), ?_⟩
            · rw [b_x]; rfl
            · simp [decodeGroup]
          · simp at h
        · simp at h
      · simp at h
  · simp at h

theorem not_prefix_of_none {s} (h : matchHere s = none) : ∀ e d, EscapeSeq e d → ¬ e <+: s := by
  rintro e d he ⟨t, rfl⟩
  obtain ⟨g, h1, -⟩ := matchHere_of_seq he t
  rw [h1] at h; simp at h

theorem search_none {s} (h : search s = none) : Unescaped s s := by
  induction s with
  | nil => exact .nil
  | cons c s ih =>
    unfold search at h
    split at h
    · simp at h
    · rename_i hm
      simp at h
      exact .keep (not_prefix_of_none hm) (ih h)

theorem search_some {s p g rest} (h : search s = some (p, g, rest)) :
    ∃ c, decodeGroup g = [c] ∧ rest.length < s.length ∧
      ∀ t, Unescaped rest t → Unescaped s (p ++ c :: t) := by
  induction s generalizing p with
  | nil => simp [search] at h
  | cons c s ih =>
    unfold search at h
    split at h
    · rename_i g' rest' hm
      simp at h
      obtain ⟨rfl, rfl, rfl⟩ := h
      obtain ⟨e, d, h1, h2, h3⟩ := seq_of_matchHere hm
      refine ⟨d, h3, ?_, ?_⟩
      · have : e ≠ [] := by rintro rfl; cases h2
        have := List.length_pos_iff.2 this
        rw [h1]; simp; omega
      · intro t ht
        rw [h1]
        exact .esc h2 ht
    · rename_i hm
      rw [Option.map_eq_some_iff] at h
      obtain ⟨⟨p', g', r'⟩, h1, h⟩ := h
      cases h
      obtain ⟨d, h3, h4, h5⟩ := ih h1
      exact ⟨d, h3, by simp; omega, fun t ht => .keep (not_prefix_of_none hm) (h5 t ht)⟩

theorem unescapeLoop_spec : ∀ (fuel : Nat) (rest out : Str), rest.length < fuel →
    ∃ t, unescapeLoop fuel rest out = .ok (out ++ t) ∧ Unescaped rest t := by
  intro fuel
  induction fuel with
  | zero => intro _ _ h; omega
  | succ fuel ih =>
    intro rest out hf
    unfold unescapeLoop
    split
    · rename_i h
      exact ⟨rest, rfl, search_none h⟩
    · rename_i p g suffix h
      obtain ⟨c, h1, h2, h3⟩ := search_some h
      obtain ⟨t, k1, k2⟩ := ih suffix (out ++ p ++ decodeGroup g) (by omega)
      refine ⟨p ++ c :: t, ?_, h3 t k2⟩
      rw [k1, h1]; simp

theorem unescaped_unique {s t} (h : Unescaped s t) : ∀ t', Unescaped s t' → t = t' := by
  induction h with
  | nil =>
    intro t' h
    generalize hs : ([] : Str) = s at h
    cases h with
    | nil => rfl
    | esc h1 h2 => cases h1 <;> simp [b_quote, b_bs, b_n, b_r, b_t, b_x] at hs
    | keep h1 h2 => simp at hs
  | @esc e c s t he _ ih =>
    intro t' h
    generalize hs : e ++ s = s' at h
    obtain ⟨g, m1, m2⟩ := matchHere_of_seq he s
    cases h with
    | nil => rw [hs] at m1; simp [matchHere] at m1
    | @esc e' c' s'' t'' he' h' =>
      obtain ⟨g', m1', m2'⟩ := matchHere_of_seq he' s''
      rw [hs, m1'] at m1
      simp at m1
      obtain ⟨rfl, rfl⟩ := m1
      rw [m2] at m2'
      simp at m2'
      rw [m2', ih _ h']
    | keep h1 h2 =>
      exact absurd ⟨s, hs⟩ (h1 _ _ he)
  | @keep c s t hno _ ih =>
    intro t' h
    generalize hs : c :: s = s' at h
    cases h with
    | nil => simp at hs
    | @esc e' c' s'' t'' he' h' =>
      exact absurd ⟨s'', hs.symm⟩ (hno _ _ he')
    | keep h1 h2 =>
      simp at hs
      obtain ⟨rfl, rfl⟩ := hs
      rw [ih _ h2]

/-! ### escape -/

/-- The text produced for one byte, as a pure function. -/
def esc (b : UInt8) : Str :=
  match escapeChar b with
  | .ok e => e
  | _ => []

theorem escapeChar_ok (b : UInt8) : escapeChar b = .ok (esc b) := by
  revert b; apply forall_u8; decide +kernel

theorem escapeLoop_ok (s out : Str) : escapeLoop s out = .ok (out ++ s.flatMap esc) := by
  induction s generalizing out with
  | nil => simp [escapeLoop]
  | cons b s ih => rw [escapeLoop, escapeChar_ok, Res.bind_ok, ih]; simp

theorem escape_ok (s : Str) : escape s = .ok (s.flatMap esc) := by
  rw [escape, escapeLoop_ok]; rfl

/-- A byte is either kept (printable or DEL, neither quote nor backslash) or turned into an
escape sequence for it. -/
theorem esc_cases (b : UInt8) :
    (esc b = [b] ∧ 32 ≤ b.toNat ∧ b.toNat ≤ 127 ∧ b ≠ 34 ∧ b ≠ 92) ∨
    (EscapeSeq (esc b) b ∧ (∀ c ∈ esc b, 33 ≤ c.toNat ∧ c.toNat ≤ 126) ∧
      ¬ (32 ≤ b.toNat ∧ b.toNat ≤ 127 ∧ b ≠ 34 ∧ b ≠ 92)) := by
  by_cases hp : 32 ≤ b.toNat ∧ b.toNat ≤ 127 ∧ b ≠ 34 ∧ b ≠ 92
  · left
    refine ⟨?_, hp⟩
    have : ∀ b : UInt8, (32 ≤ b.toNat ∧ b.toNat ≤ 127 ∧ b ≠ 34 ∧ b ≠ 92) → esc b = [b] := by
      apply forall_u8; decide +kernel
    exact this b hp
  · right
    have range : ∀ b : UInt8, ¬ (32 ≤ b.toNat ∧ b.toNat ≤ 127 ∧ b ≠ 34 ∧ b ≠ 92) →
        ∀ c ∈ esc b, 33 ≤ c.toNat ∧ c.toNat ≤ 126 := by
      apply forall_u8; decide +kernel
    refine ⟨?_, range b hp, hp⟩
    by_cases h1 : b = 34; · subst h1; exact .quote
    by_cases h2 : b = 92; · subst h2; exact .backslash
    by_cases h3 : b = 10; · subst h3; exact .newline
    by_cases h4 : b = 13; · subst h4; exact .ret
    by_cases h5 : b = 9; · subst h5; exact .tab
    have key : ∀ b : UInt8, b ≠ 34 → b ≠ 92 → b ≠ 10 → b ≠ 13 → b ≠ 9 →
        ¬ (32 ≤ b.toNat ∧ b.toNat ≤ 127 ∧ b ≠ 34 ∧ b ≠ 92) →
        esc b = bytes "\\x" ++ [(esc b)[2]!, (esc b)[3]!] ∧
        hexDigitVal (esc b)[2]! = some (b.toNat / 16) ∧
        hexDigitVal (esc b)[3]! = some (b.toNat % 16) ∧
        b = UInt8.ofNat (16 * (b.toNat / 16) + b.toNat % 16) := by
      apply forall_u8; decide +kernel
    obtain ⟨k1, k2, k3, k4⟩ := key b h1 h2 h3 h4 h5 hp
    rw [k1]
    conv => arg 2; rw [k4]
    exact .hex k2 k3

theorem escape_unescaped (s : Str) : Unescaped (s.flatMap esc) s := by
  induction s with
  | nil => exact .nil
  | cons b s ih =>
    rw [List.flatMap_cons]
    rcases esc_cases b with ⟨h1, -, -, -, h2⟩ | ⟨h1, -⟩
    · rw [h1]
      refine .keep ?_ ih
      rintro e d he ⟨t, ht⟩
      cases he <;> simp [b_quote, b_bs, b_n, b_r, b_t, b_x] at ht <;> exact h2 ht.1.symm
    · exact .esc h1 ih

end Gul14.Text
