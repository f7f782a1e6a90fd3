import Verif.StringView.CompareLemmas

/-! Property theorems about gul14::string_view: C07, C08, C09. -/

namespace Gul14.SV
open Gul14.Spec

/-! ## C07: searches return the extreme matching index

A view cannot be longer than the address space, hence the hypothesis `h.length < npos`. -/

/-- `find(s, pos)` is the least index ≥ pos at which `s` occurs, npos iff there is none. -/
theorem c07_find (h s : Str) (pos : Nat) (hmax : h.length < npos) :
    IsFirst (fun i => pos ≤ i ∧ OccursAt h s i) (find h s pos) := find_first h s pos hmax

/-- `rfind(s, pos)` is the greatest index ≤ pos at which `s` occurs, npos iff there is none. -/
theorem c07_rfind (h s : Str) (pos : Nat) (hmax : h.length < npos) :
    IsLast (fun i => i ≤ pos ∧ OccursAt h s i) (rfind h s pos) := rfind_last h s pos hmax

/-- `find_first_of(s, pos)`: least index ≥ pos of a character in `s`. -/
theorem c07_find_first_of (h s : Str) (pos : Nat) (hmax : h.length < npos) :
    IsFirst (fun i => pos ≤ i ∧ CharAt h (fun c => c ∈ s) i) (findFirstOf h s pos) :=
  findFirstOf_first h s pos hmax

/-- `find_last_of(s, pos)`: greatest index ≤ pos of a character in `s`. -/
theorem c07_find_last_of (h s : Str) (pos : Nat) (hmax : h.length < npos) :
    IsLast (fun i => i ≤ pos ∧ CharAt h (fun c => c ∈ s) i) (findLastOf h s pos) :=
  findLastOf_last h s pos hmax

/-- `find_first_not_of(s, pos)`: least index ≥ pos of a character not in `s`. -/
theorem c07_find_first_not_of (h s : Str) (pos : Nat) (hmax : h.length < npos) :
    IsFirst (fun i => pos ≤ i ∧ CharAt h (fun c => c ∉ s) i) (findFirstNotOf h s pos) :=
  findFirstNotOf_first h s pos hmax

/-- `find_last_not_of(s, pos)`: greatest index ≤ pos of a character not in `s`. -/
theorem c07_find_last_not_of (h s : Str) (pos : Nat) (hmax : h.length < npos) :
    IsLast (fun i => i ≤ pos ∧ CharAt h (fun c => c ∉ s) i) (findLastNotOf h s pos) :=
  findLastNotOf_last h s pos hmax

/-- No search reads a character outside of the two views or moves an iterator out of its range: it always has
a defined value. -/
theorem c07_defined (h s : Str) (pos : Nat) (hmax : h.length < npos) :
    findM h s pos = some (find h s pos) ∧ rfindM h s pos = some (rfind h s pos) ∧
    findFirstOfM h s pos = some (findFirstOf h s pos) ∧ findLastOfM h s pos = some (findLastOf h s pos) ∧
    findFirstNotOfM h s pos = some (findFirstNotOf h s pos) ∧
    findLastNotOfM h s pos = some (findLastNotOf h s pos) := by
  refine ⟨?_, ?_, ?_, ?_, ?_, ?_⟩
  · rw [find, findM_eq h s pos hmax]; rfl
  · rw [rfind, rfindM_eq h s pos hmax]; rfl
  · rw [findFirstOf, findFirstOfM_eq h s pos]; rfl
  · rw [findLastOf, findLastOfM_eq h s pos hmax]; rfl
  · rw [findFirstNotOf, findFirstNotOfM_eq h s pos]; rfl
  · rw [findLastNotOf, findLastNotOfM_eq h s pos hmax]; rfl

-- The hypothesis is met by ordinary strings, and the searches find something in them.
example : (bytes "abcabc").length < npos ∧ find (bytes "abcabc") (bytes "ca") 1 = 2 ∧
    rfind (bytes "abcabc") (bytes "abc") npos = 3 ∧
    findFirstOf (bytes "abcabc") (bytes "cb") 0 = 1 ∧
    findLastOf (bytes "abcabc") (bytes "ab") 3 = 3 ∧
    findFirstNotOf (bytes "abcabc") (bytes "ab") 3 = 5 ∧
    findLastNotOf (bytes "abcabc") (bytes "c") npos = 4 ∧
    find (bytes "abcabc") (bytes "x") 0 = npos := by decide

/-! ## C08: slicing stays inside the viewed range -/

/-- Violation: `substr(2, 2^64-2)` on a 3-character view adds up to 0 modulo 2^64, is not
clamped and yields a view of 2^64-2 characters that leaves the memory block. -/
theorem c08_substr_violated :
    ∃ (v : View) (pos n : Nat), v.Valid ∧ pos ≤ v.len ∧ n < sizeMod ∧
      ∃ w, v.substr pos n = .ok w ∧ ¬ w.Valid ∧ w.len ≠ min n (v.len - pos) := by
  refine ⟨⟨bytes "abc", 0, 3⟩, 2, 2 ^ 64 - 2, by decide, by decide, by decide,
    ⟨bytes "abc", 2, 2 ^ 64 - 2⟩, by decide, by decide, by decide⟩

/-- `substr(pos, n)` throws out_of_range exactly if `pos > size()`. -/
theorem c08_substr_throws (v : View) (pos n : Nat) :
    (∃ e, v.substr pos n = .throw e) ↔ pos > v.len := by
  unfold View.substr
  split <;> simp_all

/-- `substr(pos, n)` views exactly the characters [pos, min(pos+n, size())) of the view and
stays inside the memory block, provided that `pos + n` does not exceed the range of size_t
(or n is npos).  Missing from the full property: counts with `pos + n ≥ 2^64`, for which it
is false (`c08_substr_violated`). -/
theorem c08_substr_partial (v : View) (pos n : Nat) (hv : v.Valid) (hp : pos ≤ v.len)
    (hn : n = npos ∨ pos + n < sizeMod) (hmax : v.len < npos) :
    ∃ w, v.substr pos n = .ok w ∧ w.Valid ∧ w.len = min n (v.len - pos) ∧
      w.chars = (v.chars.drop pos).take n := by
  have h0 : ¬ pos > v.len := by omega
  unfold View.substr
  rw [if_neg h0]
  refine ⟨_, rfl, ?_⟩
  simp only [View.Valid, View.chars] at *
  have hcond : (n = npos ∨ (pos + n) % sizeMod > v.len) ↔ v.len - pos < n := by
    rcases hn with rfl | hn
    · simp; omega
    · rw [Nat.mod_eq_of_lt hn]
      constructor
      · rintro (rfl | h) <;> omega
      · intro h; right; omega
  simp only [hcond]
  refine ⟨by split <;> omega, by split <;> omega, ?_⟩
  rw [List.drop_take, List.drop_drop, List.take_take]
  congr 1
  split <;> omega

example : ∃ v : View, v.Valid ∧ 1 ≤ v.len ∧ 1 + 2 < sizeMod ∧ v.len < npos ∧
    v.substr 1 2 = .ok ⟨bytes "xabcd", 2, 2⟩ :=
  ⟨⟨bytes "xabcd", 1, 4⟩, by decide, by decide, by decide, by decide, by decide⟩

/-- `remove_prefix(n)` drops the first n characters (all of them if n is larger) and stays
inside the memory block. -/
theorem c08_remove_prefix (v : View) (n : Nat) (hv : v.Valid) :
    (v.removePrefix n).Valid ∧ (v.removePrefix n).chars = v.chars.drop n := by
  simp only [View.Valid, View.removePrefix, View.chars] at *
  constructor
  · split <;> omega
  · rw [List.drop_take]
    split
    · rw [show v.len - v.len = 0 by omega, show v.len - n = 0 by omega]; simp
    · rw [List.drop_drop]

/-- `remove_suffix(n)` drops the last n characters (all of them if n is larger). -/
theorem c08_remove_suffix (v : View) (n : Nat) (hv : v.Valid) :
    (v.removeSuffix n).Valid ∧ (v.removeSuffix n).chars = v.chars.take (v.chars.length - n) := by
  simp only [View.Valid, View.removeSuffix, View.chars, List.take_take, List.length_take,
    List.length_drop] at *
  refine ⟨by split <;> omega, ?_⟩
  congr 1
  split <;> omega

/-- `copy(dest, n, pos)` throws iff pos > size(), and otherwise writes exactly the
characters [pos, min(pos+n, size())), reading nothing outside the view. -/
theorem c08_copy (v : View) (n pos : Nat) (hv : v.Valid) :
    v.copy n pos = if pos > v.len then .throw .outOfRange
      else .ok ((v.chars.drop pos).take n) := by
  simp only [View.Valid, View.copy, View.chars] at *
  split
  · rfl
  · rw [if_pos (by omega), List.drop_take, List.take_take, List.drop_drop]

/-- `at(pos)` throws iff pos ≥ size() and otherwise returns the character there. -/
theorem c08_at (v : View) (pos : Nat) (hv : v.Valid) :
    (pos ≥ v.len → v.at pos = .throw .outOfRange) ∧
    (∀ h : pos < v.chars.length, v.at pos = .ok v.chars[pos]) ∧ v.chars.length = v.len := by
  have hlen : v.chars.length = v.len := by
    simp only [View.Valid, View.chars] at *
    simp; omega
  refine ⟨fun h => by simp [View.at, h], fun h => ?_, hlen⟩
  have h' : ¬ pos ≥ v.len := by omega
  simp only [View.Valid, View.at, View.read, View.chars] at *
  rw [if_neg h', List.getElem?_eq_getElem (by omega)]
  simp

/-- `front()` and `back()` of a non-empty view are its first and last character. -/
theorem c08_front_back (v : View) (hv : v.Valid) (h0 : 0 < v.chars.length)
    (hmax : v.len < npos) :
    v.front = .ok v.chars[0] ∧ v.back = .ok (v.chars[v.chars.length - 1]) := by
  have hlen : v.chars.length = v.len := (c08_at v 0 hv).2.2
  have h1 : (v.len + sizeMod - 1) % sizeMod = v.len - 1 := by
    have : sizeMod = npos + 1 := by decide
    rw [show v.len + sizeMod - 1 = v.len - 1 + sizeMod by omega, Nat.add_mod_right,
      Nat.mod_eq_of_lt (by omega)]
  simp only [View.front, View.back, View.read, h1, hlen]
  simp only [View.Valid, View.chars] at *
  rw [List.getElem?_eq_getElem (by omega), List.getElem?_eq_getElem (by omega)]
  simp

/-- Violation: `compare(pos1, n1, x)` is declared noexcept although `substr` throws
out_of_range, so an invalid position terminates the program; the five-argument overload
throws. -/
theorem c08_compare_terminates_violated :
    ∃ (a : Str) (pos n : Nat) (x : Str),
      compareSub a pos n x = .terminate ∧ compareSub2 a pos n x 0 npos = .throw .outOfRange :=
  ⟨bytes "abc", 4, 1, bytes "x", by decide, by decide⟩

/-! ## C09: comparison is the lexicographic total order -/

/-- `compare` reads nothing past either view, and its sign is the lexicographic order. -/
theorem c09_compare (a b : Str) :
    ∃ c, compare a b = some c ∧ (c < 0 ↔ LexLt a b) ∧ (c = 0 ↔ a = b) ∧ (c > 0 ↔ LexLt b a) := by
  refine ⟨cmp a b, compare_eq_cmp a b, cmp_neg_iff a b, cmp_zero_iff a b, ?_⟩
  rw [← cmp_neg_iff, cmp_antisymm a b]
  omega

/-- All six operators agree with the lexicographic order and equality of contents. -/
theorem c09_operators (a b : Str) :
    (opEq a b = some true ↔ a = b) ∧ (opNe a b = some true ↔ a ≠ b) ∧
    (opLt a b = some true ↔ LexLt a b) ∧ (opGt a b = some true ↔ LexLt b a) ∧
    (opLe a b = some true ↔ LexLt a b ∨ a = b) ∧ (opGe a b = some true ↔ LexLt b a ∨ a = b) := by
  have hz := cmp_zero_iff a b
  have hn := cmp_neg_iff a b
  have hp : LexLt b a ↔ cmp a b > 0 := by rw [← cmp_neg_iff, cmp_antisymm a b]; omega
  simp only [opEq, opNe, opLt, opGt, opLe, opGe, compare_eq_cmp, Option.map_some, ← hn, hp, ← hz,
    Option.some.injEq, decide_eq_true_eq]
  refine ⟨?_, ?_, trivial, trivial, by omega, by omega⟩
  · split
    · rename_i h
      simp; rw [hz]; rintro rfl; exact h rfl
    · simp
  · split
    · rename_i h
      simp; rintro rfl; exact h rfl
    · simp [hz]

/-- No operator reads past the end of a view: each of them has a result for all operands. -/
theorem c09_operators_defined (a b : Str) :
    (∃ r, opEq a b = some r) ∧ (∃ r, opNe a b = some r) ∧ (∃ r, opLt a b = some r) ∧
    (∃ r, opGt a b = some r) ∧ (∃ r, opLe a b = some r) ∧ (∃ r, opGe a b = some r) := by
  simp only [opEq, opNe, opLt, opGt, opLe, opGe, compare_eq_cmp, Option.map_some]
  refine ⟨?_, ?_, ⟨_, rfl⟩, ⟨_, rfl⟩, ⟨_, rfl⟩, ⟨_, rfl⟩⟩ <;> split <;> exact ⟨_, rfl⟩

/-- The order is total, irreflexive and transitive. -/
theorem c09_total_order :
    (∀ a b, LexLt a b ∨ a = b ∨ LexLt b a) ∧ (∀ a, ¬ LexLt a a) ∧
    (∀ a b c, LexLt a b → LexLt b c → LexLt a c) := by
  refine ⟨fun a b => ?_, fun a => ?_, fun a b c h1 h2 => ?_⟩
  · rw [← cmp_neg_iff, ← cmp_neg_iff, ← cmp_zero_iff, cmp_antisymm a b]
    have := cmp_range a b
    omega
  · rw [← cmp_neg_iff, (cmp_zero_iff a a).2 rfl]; decide
  · rw [← cmp_neg_iff] at *
    have h3 := cmp_trans a b c (by omega) (by omega)
    rcases Int.lt_or_eq_of_le h3 with h | h
    · exact h
    · rw [cmp_zero_iff] at h
      subst h
      have := cmp_antisymm a b
      omega

example : LexLt (bytes "ab") (bytes "abc") ∧ LexLt (bytes "abz") [98] ∧
    LexLt (bytes "~") [200] := by
  simp only [← cmp_neg_iff]; decide

end Gul14.SV
