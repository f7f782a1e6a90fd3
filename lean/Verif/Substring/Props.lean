import Verif.Substring.Model
import Verif.Substring.Spec
import Verif.StringView.Props
import Verif.Strings.Lemmas

/-! Property theorems C10, C11, C21. -/

namespace Gul14.Substring
open Gul14.SV Gul14.Spec

/-! ## C21: ASCII case conversion touches only ASCII letters -/

theorem c21_lower (c : UInt8) : lower c = asciiLower c := by
  have h : ∀ n : Fin 256, lower (UInt8.ofNat n) = asciiLower (UInt8.ofNat n) := by decide +kernel
  have := h ⟨c.toNat, c.toNat_lt⟩
  simpa using this

theorem c21_upper (c : UInt8) : upper c = asciiUpper c := by
  have h : ∀ n : Fin 256, upper (UInt8.ofNat n) = asciiUpper (UInt8.ofNat n) := by decide +kernel
  have := h ⟨c.toNat, c.toNat_lt⟩
  simpa using this

theorem foldl_snoc (f : UInt8 → UInt8) (s acc : Str) :
    s.foldl (fun r c => r ++ [f c]) acc = acc ++ s.map f := by
  induction s generalizing acc with
  | nil => simp
  | cons a s ih => simp [ih]

/-- The string functions apply the conversion to each byte in place; copying and in-place
versions agree. -/
theorem c21_strings (s : Str) :
    lowerStr s = s.map asciiLower ∧ lowerInplace s = s.map asciiLower ∧
    upperStr s = s.map asciiUpper ∧ upperInplace s = s.map asciiUpper := by
  have hl : lower = asciiLower := funext c21_lower
  have hu : upper = asciiUpper := funext c21_upper
  refine ⟨?_, ?_, ?_, ?_⟩
  · rw [lowerStr, foldl_snoc, hl, List.nil_append]
  · induction s with
    | nil => rfl
    | cons a s ih => simp [lowerInplace, ih, hl]
  · rw [upperStr, foldl_snoc, hu, List.nil_append]
  · induction s with
    | nil => rfl
    | cons a s ih => simp [upperInplace, ih, hu]

/-- Case conversion preserves length, is idempotent, and upper-casing absorbs lower-casing
and vice versa; bytes outside A-Z / a-z, in particular those ≥ 0x80, are unchanged. -/
theorem c21_laws (s : Str) :
    (lowerStr s).length = s.length ∧ (upperStr s).length = s.length ∧
    lowerStr (lowerStr s) = lowerStr s ∧ upperStr (upperStr s) = upperStr s ∧
    lowerStr (upperStr s) = lowerStr s ∧ upperStr (lowerStr s) = upperStr s ∧
    (∀ c : UInt8, ¬ (65 ≤ c.toNat ∧ c.toNat ≤ 90) → lower c = c) ∧
    (∀ c : UInt8, ¬ (97 ≤ c.toNat ∧ c.toNat ≤ 122) → upper c = c) := by
  have h : ∀ n : Fin 256,
      asciiLower (asciiLower (UInt8.ofNat n)) = asciiLower (UInt8.ofNat n) ∧
      asciiUpper (asciiUpper (UInt8.ofNat n)) = asciiUpper (UInt8.ofNat n) ∧
      asciiLower (asciiUpper (UInt8.ofNat n)) = asciiLower (UInt8.ofNat n) ∧
      asciiUpper (asciiLower (UInt8.ofNat n)) = asciiUpper (UInt8.ofNat n) := by decide +kernel
  have h' : ∀ c : UInt8,
      asciiLower (asciiLower c) = asciiLower c ∧ asciiUpper (asciiUpper c) = asciiUpper c ∧
      asciiLower (asciiUpper c) = asciiLower c ∧ asciiUpper (asciiLower c) = asciiUpper c := by
    intro c
    have := h ⟨c.toNat, c.toNat_lt⟩
    simpa using this
  have e1 := fun t => (c21_strings t).1
  have e2 := fun t => (c21_strings t).2.2.1
  simp only [e1, e2, List.map_map, List.length_map, true_and]
  refine ⟨?_, ?_, ?_, ?_, ?_, ?_⟩
  · congr 1; funext c; exact (h' c).1
  · congr 1; funext c; exact (h' c).2.1
  · congr 1; funext c; exact (h' c).2.2.1
  · congr 1; funext c; exact (h' c).2.2.2
  · intro c hc; rw [c21_lower, asciiLower, if_neg hc]
  · intro c hc; rw [c21_upper, asciiUpper, if_neg hc]

example : lowerStr (bytes "Aa[Z@" ++ [0xC4]) = bytes "aa[z@" ++ [0xC4] ∧
    upperStr (bytes "Aa{z`" ++ [0xE4]) = bytes "AA{Z`" ++ [0xE4] := by decide

/-! ## C10: contains / starts_with / ends_with -/

/-- `contains(h, n)` iff `h = a + n + b` for some a and b. -/
theorem c10_contains (h n : Str) (hmax : h.length < npos) :
    contains h n = true ↔ ∃ a b, h = a ++ n ++ b := by
  unfold contains
  simp only [bne_iff_ne, ne_eq]
  rcases c07_find h n 0 hmax with ⟨h1, h2⟩ | ⟨h1, ⟨-, h2⟩, -⟩
  · refine ⟨fun g => absurd h1 g, ?_⟩
    rintro ⟨a, b, rfl⟩
    exact absurd ⟨Nat.zero_le _, a, b, rfl, rfl⟩ (h2 a.length)
  · refine ⟨fun _ => ?_, fun _ => h1⟩
    obtain ⟨a, b, h3, -⟩ := h2
    exact ⟨a, b, h3⟩

/-- `contains(h, c)` iff the character occurs in the string. -/
theorem c10_contains_char (h : Str) (c : UInt8) (hmax : h.length < npos) :
    containsChar h c = true ↔ c ∈ h := by
  have := c10_contains h [c] hmax
  unfold containsChar
  unfold contains at this
  rw [this]
  constructor
  · rintro ⟨a, b, rfl⟩; simp
  · intro hc
    obtain ⟨a, b, rfl⟩ := List.append_of_mem hc
    exact ⟨a, b, by simp⟩

/-- `starts_with(s, p)` never misbehaves, and holds iff `s = p + b` for some b. -/
theorem c10_starts_with (s p : Str) : ∃ r, startsWith s p = .ok r ∧ (r = true ↔ ∃ b, s = p ++ b) := by
  unfold startsWith
  split
  · rename_i h
    obtain ⟨c, h1, -, h2, -⟩ := c09_compare (s.take p.length) p
    rw [h1]
    refine ⟨_, rfl, ?_⟩
    rw [beq_iff_eq, h2]
    constructor
    · intro e
      exact ⟨s.drop p.length, by conv => lhs; rw [← List.take_append_drop p.length s, e]⟩
    · rintro ⟨b, rfl⟩; simp
  · rename_i h
    refine ⟨false, rfl, by simp, ?_⟩
    rintro ⟨b, rfl⟩; simp at h

/-- `ends_with(s, p)` never throws or terminates, and holds iff `s = a + p` for some a. -/
theorem c10_ends_with (s p : Str) (hmax : s.length < npos) :
    ∃ r, endsWith s p = .ok r ∧ (r = true ↔ ∃ a, s = a ++ p) := by
  unfold endsWith
  split
  · rename_i h
    rw [compareSub, Strings.substr_ok _ _ _ (by omega) hmax]
    obtain ⟨c, h1, -, h2, -⟩ := c09_compare ((s.drop (s.length - p.length)).take p.length) p
    simp only [Res.map_ok, Res.noexcept_ok, Res.bind_ok, h1]
    refine ⟨_, rfl, ?_⟩
    have e0 : (s.drop (s.length - p.length)).take p.length = s.drop (s.length - p.length) :=
      List.take_of_length_le (by simp; omega)
    rw [beq_iff_eq, h2, e0]
    constructor
    · intro e
      exact ⟨s.take (s.length - p.length), by
        conv => lhs; rw [← List.take_append_drop (s.length - p.length) s, e]⟩
    · rintro ⟨a, rfl⟩; simp
  · rename_i h
    refine ⟨false, rfl, by simp, ?_⟩
    rintro ⟨b, rfl⟩; simp at h

theorem c10_char_versions (s : Str) (c : UInt8) :
    (startsWithChar s c = true ↔ ∃ b, s = c :: b) ∧ (endsWithChar s c = true ↔ ∃ a, s = a ++ [c]) := by
  constructor
  · unfold startsWithChar
    cases s with
    | nil => simp
    | cons a s => simp
  · unfold endsWithChar
    rcases List.eq_nil_or_concat s with rfl | ⟨a, b, rfl⟩
    · simp
    · simp

example : (bytes "hello").length < npos ∧ contains (bytes "hello") (bytes "ell") = true ∧
    contains (bytes "hello") (bytes "elo") = false ∧
    startsWith (bytes "hello") (bytes "he") = .ok true ∧
    endsWith (bytes "hello") (bytes "lo") = .ok true ∧
    endsWith (bytes "lo") (bytes "hello") = .ok false := by decide

/-! ## C11: the _nocase checks are the plain checks up to ASCII case -/

theorem equalsNocaseLoop_ok (s t : Str) (h : s.length = t.length) :
    ∃ r, equalsNocaseLoop s t = .ok r ∧ (r = true ↔ SameNocase s t) := by
  induction s generalizing t with
  | nil =>
    cases t with
    | nil => exact ⟨true, rfl, by simp [SameNocase]⟩
    | cons b t => simp at h
  | cons a s ih =>
    cases t with
    | nil => simp at h
    | cons b t =>
      obtain ⟨r, h1, h2⟩ := ih t (by simpa using h)
      unfold equalsNocaseLoop
      rw [c21_lower, c21_lower]
      by_cases hab : asciiLower a = asciiLower b
      · rw [if_neg (by simpa using hab)]
        refine ⟨r, h1, ?_⟩
        rw [h2]
        simp [SameNocase, hab]
      · rw [if_pos hab]
        exact ⟨false, rfl, by simp [SameNocase, hab]⟩

/-- `equals_nocase` iff the strings are equal up to ASCII case; no read past the end. -/
theorem c11_equals_nocase (s t : Str) :
    ∃ r, equalsNocase s t = .ok r ∧ (r = true ↔ SameNocase s t) := by
  unfold equalsNocase
  split
  · rename_i h
    refine ⟨false, rfl, by simp, fun e => ?_⟩
    have := congrArg List.length e
    simp at this
    exact absurd this h
  · rename_i h
    exact equalsNocaseLoop_ok s t (by simpa using h)

theorem matchBackwards_ok (h n : Str) (j : Nat) (hj : j ≤ n.length) (hh : j ≤ h.length) :
    ∃ r, matchBackwards h n j = .ok r ∧ (r = true ↔ SameNocase (h.take j) (n.take j)) := by
  induction j with
  | zero => exact ⟨true, rfl, by simp [SameNocase]⟩
  | succ j ih =>
    obtain ⟨r, h1, h2⟩ := ih (by omega) (by omega)
    unfold matchBackwards
    rw [List.getElem?_eq_getElem (by omega), List.getElem?_eq_getElem (by omega)]
    simp only [c21_lower]
    have e : SameNocase (h.take (j + 1)) (n.take (j + 1)) ↔
        SameNocase (h.take j) (n.take j) ∧ asciiLower h[j] = asciiLower n[j] := by
      unfold SameNocase
      rw [← List.take_append_getElem (show j < h.length by omega),
        ← List.take_append_getElem (show j < n.length by omega)]
      simp only [List.map_append, List.map_cons, List.map_nil]
      constructor
      · intro e
        have := List.append_inj e (by simp; omega)
        simpa using this
      · rintro ⟨e1, e2⟩
        rw [e1, e2]
    by_cases hab : asciiLower h[j] = asciiLower n[j]
    · rw [if_neg (by simpa using hab)]
      exact ⟨r, h1, by rw [h2, e]; simp [hab]⟩
    · rw [if_pos hab]
      exact ⟨false, rfl, by rw [e]; simp [hab]⟩

theorem containsNocaseLoop_ok (n h : Str) (k : Nat) (hk : h.length + 1 = n.length + k) :
    ∃ r, containsNocaseLoop n h k = .ok r ∧
      (r = true ↔ ∃ a m b, h = a ++ m ++ b ∧ SameNocase m n) := by
  induction k generalizing h with
  | zero =>
    refine ⟨false, rfl, by simp, ?_⟩
    rintro ⟨a, m, b, rfl, e⟩
    have := congrArg List.length e
    simp at this hk
    omega
  | succ k ih =>
    unfold containsNocaseLoop
    obtain ⟨r, h1, h2⟩ := matchBackwards_ok h n n.length (Nat.le_refl _) (by omega)
    rw [h1, Res.bind_ok]
    rw [List.take_length] at h2
    by_cases hr : r = true
    · rw [if_pos hr]
      refine ⟨true, rfl, ?_⟩
      simp only [true_iff]
      exact ⟨[], h.take n.length, h.drop n.length, by simp, h2.1 hr⟩
    · rw [if_neg hr]
      have hno : ¬ SameNocase (h.take n.length) n := fun e => hr (h2.2 e)
      cases h with
      | nil =>
        -- the needle is empty, then it matches
        have : n = [] := List.length_eq_zero_iff.mp (by simp at hk; omega)
        subst this
        simp [SameNocase] at hno
      | cons c h =>
        obtain ⟨r', g1, g2⟩ := ih h (by simp at hk; omega)
        refine ⟨r', by simpa using g1, ?_⟩
        rw [g2]
        constructor
        · rintro ⟨a, m, b, rfl, e⟩
          exact ⟨c :: a, m, b, by simp, e⟩
        · rintro ⟨a, m, b, e1, e⟩
          cases a with
          | nil =>
            exfalso
            apply hno
            have hl : m.length = n.length := by simpa using congrArg List.length e
            rw [e1, ← hl]; simpa using e
          | cons d a =>
            simp at e1
            exact ⟨a, m, b, by simp [e1.2], e⟩

/-- `contains_nocase(h, n)` iff some substring of `h` equals `n` up to ASCII case. -/
theorem c11_contains_nocase (h n : Str) :
    ∃ r, containsNocase h n = .ok r ∧
      (r = true ↔ ∃ a m b, h = a ++ m ++ b ∧ SameNocase m n) := by
  unfold containsNocase
  split
  · rename_i hl
    refine ⟨false, rfl, by simp, ?_⟩
    rintro ⟨a, m, b, rfl, e⟩
    have := congrArg List.length e
    simp at this hl
    omega
  · exact containsNocaseLoop_ok n h _ (by omega)

/-- `starts_with_nocase(s, p)` iff a prefix of `s` equals `p` up to ASCII case. -/
theorem c11_starts_with_nocase (s p : Str) :
    startsWithNocase s p = true ↔ ∃ m b, s = m ++ b ∧ SameNocase m p := by
  induction s generalizing p with
  | nil =>
    cases p with
    | nil => simp [startsWithNocase, SameNocase]
    | cons b p => simp [startsWithNocase, SameNocase]
  | cons a s ih =>
    cases p with
    | nil => simp [startsWithNocase, SameNocase]
    | cons b p =>
      unfold startsWithNocase
      rw [c21_lower, c21_lower]
      by_cases hab : asciiLower a = asciiLower b
      · rw [if_neg (by simpa using hab), ih]
        constructor
        · rintro ⟨m, t, rfl, e⟩
          refine ⟨a :: m, t, by simp, ?_⟩
          unfold SameNocase at *
          simp [hab, e]
        · rintro ⟨m, t, e1, e⟩
          cases m with
          | nil => simp [SameNocase] at e
          | cons c m =>
            simp at e1
            refine ⟨m, t, e1.2, ?_⟩
            simp [SameNocase] at e ⊢
            exact e.2
      · rw [if_pos hab]
        simp only [Bool.false_eq_true, false_iff]
        rintro ⟨m, t, e1, e⟩
        cases m with
        | nil => simp [SameNocase] at e
        | cons c m =>
          simp at e1
          simp [SameNocase] at e
          rw [← e1.1] at e
          exact hab e.1

theorem endsWithNocaseRev_eq (s p : Str) : endsWithNocaseRev s p = startsWithNocase s p := by
  induction s generalizing p with
  | nil => rfl
  | cons a s ih =>
    cases p with
    | nil => rfl
    | cons b p => simp only [endsWithNocaseRev, startsWithNocase, ih]

/-- `ends_with_nocase(s, p)` iff a suffix of `s` equals `p` up to ASCII case. -/
theorem c11_ends_with_nocase (s p : Str) :
    endsWithNocase s p = true ↔ ∃ a m, s = a ++ m ∧ SameNocase m p := by
  unfold endsWithNocase
  rw [endsWithNocaseRev_eq, c11_starts_with_nocase]
  constructor
  · rintro ⟨m, b, h1, h2⟩
    refine ⟨b.reverse, m.reverse, ?_, ?_⟩
    · have := congrArg List.reverse h1
      simpa using this
    · unfold SameNocase at *
      rw [List.map_reverse, h2]; simp
  · rintro ⟨a, m, rfl, h2⟩
    refine ⟨m.reverse, a.reverse, by simp, ?_⟩
    unfold SameNocase at *
    rw [List.map_reverse, h2]; simp

theorem c11_char_versions (s : Str) (c : UInt8) :
    (startsWithNocaseChar s c = true ↔ ∃ m b, s = m ++ b ∧ SameNocase m [c]) ∧
    (endsWithNocaseChar s c = true ↔ ∃ a m, s = a ++ m ∧ SameNocase m [c]) ∧
    (containsNocaseChar s c = true ↔ ∃ a m b, s = a ++ m ++ b ∧ SameNocase m [c]) := by
  have one : ∀ m, SameNocase m [c] ↔ ∃ x, m = [x] ∧ asciiLower x = asciiLower c := by
    intro m
    unfold SameNocase
    rw [List.map_cons, List.map_nil, List.map_eq_cons_iff]
    constructor
    · rintro ⟨x, l, rfl, h1, h2⟩
      simp at h2; subst h2
      exact ⟨x, rfl, h1⟩
    · rintro ⟨x, rfl, h⟩
      exact ⟨x, [], rfl, h, rfl⟩
  simp only [one]
  refine ⟨?_, ?_, ?_⟩
  · unfold startsWithNocaseChar
    cases s with
    | nil =>
      simp only [List.head?_nil, Bool.false_eq_true, false_iff]
      rintro ⟨m, b, h, x, rfl, -⟩
      simp at h
    | cons a s =>
      simp only [List.head?_cons, beq_iff_eq, c21_lower]
      constructor
      · intro h; exact ⟨[a], s, by simp, a, rfl, h⟩
      · rintro ⟨m, b, h, x, rfl, h2⟩
        simp at h
        rw [h.1]; exact h2
  · unfold endsWithNocaseChar
    rcases List.eq_nil_or_concat s with rfl | ⟨s, a, rfl⟩
    · simp only [List.getLast?_nil, Bool.false_eq_true, false_iff]
      rintro ⟨m, b, h, x, rfl, -⟩
      simp at h
    · simp only [List.concat_eq_append, List.getLast?_append, List.getLast?_singleton,
        Option.some_or, beq_iff_eq, c21_lower]
      constructor
      · intro h; exact ⟨s, [a], rfl, a, rfl, h⟩
      · rintro ⟨b, m, h, x, rfl, h2⟩
        have := List.append_inj' h (by simp)
        simp at this
        rw [this.2]; exact h2
  · induction s with
    | nil =>
      simp only [containsNocaseChar, Bool.false_eq_true, false_iff]
      rintro ⟨a, m, b, h, x, rfl, -⟩
      simp at h
    | cons d s ih =>
      unfold containsNocaseChar
      rw [c21_lower, c21_lower]
      by_cases hd : asciiLower d = asciiLower c
      · rw [if_pos hd]
        simp only [true_iff]
        exact ⟨[], [d], s, by simp, d, rfl, hd⟩
      · rw [if_neg hd, ih]
        constructor
        · rintro ⟨a, m, b, rfl, h⟩
          exact ⟨d :: a, m, b, by simp, h⟩
        · rintro ⟨a, m, b, h, x, rfl, hx⟩
          cases a with
          | nil => simp at h; rw [h.1] at hd; exact absurd hx hd
          | cons e a =>
            simp at h
            exact ⟨a, [x], b, by simp [h.2], x, rfl, hx⟩

/-- The answers do not depend on the case of either argument. -/
theorem c11_recasing (h h' n n' : Str) (eh : SameNocase h h') (en : SameNocase n n') :
    equalsNocase h n = equalsNocase h' n' ∧ containsNocase h n = containsNocase h' n' ∧
    startsWithNocase h n = startsWithNocase h' n' ∧ endsWithNocase h n = endsWithNocase h' n' := by
  have tr : ∀ (a b c : Str), SameNocase a b → SameNocase b c → SameNocase a c :=
    fun a b c h1 h2 => Eq.trans h1 h2
  have sy : ∀ (a b : Str), SameNocase a b → SameNocase b a := fun a b h1 => Eq.symm h1
  -- a decomposition of a string transfers to any recased version of it
  have dec : ∀ (h h' : Str), SameNocase h h' → ∀ a m b, h = a ++ m ++ b →
      ∃ a' m' b', h' = a' ++ m' ++ b' ∧ SameNocase a a' ∧ SameNocase m m' ∧ SameNocase b b' := by
    rintro h h' e a m b rfl
    have hl : a.length + m.length + b.length = h'.length := by
      simpa [Nat.add_assoc] using congrArg List.length e
    unfold SameNocase at *
    have e2 : h'.map asciiLower = a.map asciiLower ++ m.map asciiLower ++ b.map asciiLower := by
      rw [← e]; simp
    refine ⟨h'.take a.length, (h'.drop a.length).take m.length, (h'.drop a.length).drop m.length,
      by rw [List.append_assoc, List.take_append_drop, List.take_append_drop], ?_, ?_, ?_⟩
    · rw [List.map_take, e2]; simp
    · rw [List.map_take, List.map_drop, e2]; simp
    · rw [List.map_drop, List.map_drop, e2]; simp
  refine ⟨?_, ?_, ?_, ?_⟩
  · obtain ⟨r, h1, h2⟩ := c11_equals_nocase h n
    obtain ⟨r', h1', h2'⟩ := c11_equals_nocase h' n'
    have : r = r' := by
      rw [Bool.eq_iff_iff, h2, h2']
      exact ⟨fun g => tr _ _ _ (sy _ _ eh) (tr _ _ _ g en),
        fun g => tr _ _ _ eh (tr _ _ _ g (sy _ _ en))⟩
    rw [h1, h1', this]
  · obtain ⟨r, h1, h2⟩ := c11_contains_nocase h n
    obtain ⟨r', h1', h2'⟩ := c11_contains_nocase h' n'
    have : r = r' := by
      rw [Bool.eq_iff_iff, h2, h2']
      constructor
      · rintro ⟨a, m, b, e, g⟩
        obtain ⟨a', m', b', e', -, g', -⟩ := dec h h' eh a m b e
        exact ⟨a', m', b', e', tr _ _ _ (sy _ _ g') (tr _ _ _ g en)⟩
      · rintro ⟨a, m, b, e, g⟩
        obtain ⟨a', m', b', e', -, g', -⟩ := dec h' h (sy _ _ eh) a m b e
        exact ⟨a', m', b', e', tr _ _ _ (sy _ _ g') (tr _ _ _ g (sy _ _ en))⟩
    rw [h1, h1', this]
  · rw [Bool.eq_iff_iff, c11_starts_with_nocase, c11_starts_with_nocase]
    constructor
    · rintro ⟨m, b, e, g⟩
      obtain ⟨a', m', b', e', ga, g', -⟩ := dec h h' eh [] m b (by simpa using e)
      have : a' = [] := by simpa [SameNocase] using ga.symm
      subst this
      exact ⟨m', b', by simpa using e', tr _ _ _ (sy _ _ g') (tr _ _ _ g en)⟩
    · rintro ⟨m, b, e, g⟩
      obtain ⟨a', m', b', e', ga, g', -⟩ := dec h' h (sy _ _ eh) [] m b (by simpa using e)
      have : a' = [] := by simpa [SameNocase] using ga.symm
      subst this
      exact ⟨m', b', by simpa using e', tr _ _ _ (sy _ _ g') (tr _ _ _ g (sy _ _ en))⟩
  · rw [Bool.eq_iff_iff, c11_ends_with_nocase, c11_ends_with_nocase]
    constructor
    · rintro ⟨a, m, e, g⟩
      obtain ⟨a', m', b', e', -, g', gb⟩ := dec h h' eh a m [] (by simpa using e)
      have : b' = [] := by simpa [SameNocase] using gb.symm
      subst this
      exact ⟨a', m', by simpa using e', tr _ _ _ (sy _ _ g') (tr _ _ _ g en)⟩
    · rintro ⟨a, m, e, g⟩
      obtain ⟨a', m', b', e', -, g', gb⟩ := dec h' h (sy _ _ eh) a m [] (by simpa using e)
      have : b' = [] := by simpa [SameNocase] using gb.symm
      subst this
      exact ⟨a', m', by simpa using e', tr _ _ _ (sy _ _ g') (tr _ _ _ g (sy _ _ en))⟩

example : SameNocase (bytes "HeLLo") (bytes "hEllO") ∧
    containsNocase (bytes "HeLLo") (bytes "lL") = .ok true ∧
    equalsNocase (bytes "HeLLo") (bytes "hello") = .ok true ∧
    startsWithNocase (bytes "HeLLo") (bytes "HE") = true ∧
    endsWithNocase (bytes "HeLLo") (bytes "x") = false := by
  unfold SameNocase; decide

end Gul14.Substring
