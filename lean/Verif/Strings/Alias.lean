import Verif.Strings.Props

/-!
# C111: replace_inplace with arguments that are views of the text to be changed

std::string::erase and insert invalidate pointers into the string; whether a view of the text still shows
its characters afterwards is not defined by the C++ standard.
-/
namespace Gul14.Strings.Alias
open Gul14.SV Gul14.Strings Spec

/-- An argument of replace_inplace, replace.h:65: a view of memory of its own, or of `len` characters of the
haystack from position `off` on. -/
inductive Arg where
  | own (s : Str)
  | part (off len : Nat)

/-- size() and length(): a member of the view, string_view.h:163-164. -/
def Arg.length : Arg → Nat
  | .own s => s.length
  | .part _ len => len

/-- What a view shows when its characters are read; `h` is the haystack as it was when the view was made,
`changed` tells whether a non-const member function of the haystack was called since.  [string.require] -/
def Arg.read (h : Str) (changed : Bool) : Arg → Res Str
  | .own s => .ok s
  | .part off len =>
      if len = 0 then .ok []
      else if changed = true ∨ h.length < off + len then .ub
      else .ok ((h.drop off).take len)

/-- The loop of replace_inplace, replace.cc:58-63; `h0` is the haystack at the time of the call. -/
def loop (h0 : Str) (needle hammer : Arg) : Nat → Str → Nat → Res Str
  | 0, _, _ => .diverge
  | fuel + 1, h, pos =>
      if pos = npos then .ok h
      else
        (strErase h pos needle.length).bind fun h1 =>
        (hammer.read h0 true).bind fun k =>
        (strInsert h1 pos k).bind fun h2 =>
        (needle.read h0 true).bind fun n =>
          loop h0 needle hammer fuel h2 (find h2 n (pos + hammer.length))

/-- replace_inplace(haystack, needle, hammer), replace.cc:53-65. -/
def replaceInplace (h : Str) (needle hammer : Arg) : Res Str :=
  if needle.length = 0 then .ok h
  else (needle.read h false).bind fun n => loop h needle hammer (h.length + 1) h (find h n 0)

/-- What an argument shows before the call. -/
def shown (h : Str) : Arg → Str
  | .own s => s
  | .part off len => (h.drop off).take len

theorem loop_own (h0 n k : Str) (fuel : Nat) (h : Str) (pos : Nat) :
    loop h0 (.own n) (.own k) fuel h pos = replaceInplaceLoop n k fuel h pos := by
  induction fuel generalizing h pos with
  | zero => rfl
  | succ fuel ih =>
      simp only [loop, replaceInplaceLoop, Arg.read, Arg.length, Res.bind_ok]
      split
      · rfl
      · congr 1
        funext h1
        congr 1
        funext h2
        exact ih _ _

theorem replaceInplace_own (h needle : Str) (hammer : Arg) (hn : needle ≠ []) :
    replaceInplace h (.own needle) hammer = loop h (.own needle) hammer (h.length + 1) h (find h needle 0) := by
  unfold replaceInplace
  rw [if_neg (fun h : (Arg.own needle).length = 0 => hn (List.length_eq_zero_iff.mp h))]
  rfl

/-- **C111** (part).  With arguments in memory of their own, replace_inplace does what replace does. -/
theorem c111_own_partial (h needle hammer : Str) (hmax : h.length + h.length * hammer.length < npos) :
    replaceInplace h (.own needle) (.own hammer) = replace h needle hammer := by
  rw [← c05_replace_inplace h needle hammer hmax]
  by_cases hn : needle = []
  · subst hn; rfl
  · rw [replaceInplace_own _ _ _ hn, Strings.replaceInplace, if_neg hn]
    exact loop_own _ _ _ _ _ _

/-- **C111** (part).  If the needle does not occur, nothing is changed, whatever the hammer is. -/
theorem c111_absent_partial (h needle : Str) (hammer : Arg) (hmax : h.length < npos) (hn : needle ≠ [])
    (ha : ∀ i, ¬ OccursAt h needle i) : replaceInplace h (.own needle) hammer = .ok h := by
  have hf : find h needle 0 = npos := by
    rcases find_first h needle 0 hmax with ⟨h1, _⟩ | ⟨_, ⟨_, h3⟩, _⟩
    · exact h1
    · exact absurd h3 (ha _)
  rw [replaceInplace_own _ _ _ hn, hf]
  simp [loop]

/-- **C111 is violated** for every text and every needle that is a part of it: the needle is read again after
the text has been changed. -/
theorem c111_needle_violated (h : Str) (off len : Nat) (hammer : Str) (hl : 0 < len) (ho : off + len ≤ h.length)
    (hmax : h.length < npos) : replaceInplace h (.part off len) (.own hammer) = .ub := by
  have hocc : OccursAt h ((h.drop off).take len) off := by
    rw [occursAt_iff]
    exact ⟨by omega, List.take_prefix _ _⟩
  have hnl : ((h.drop off).take len).length = len := by simp; omega
  simp only [replaceInplace, Arg.length, Arg.read, Bool.false_eq_true, false_or]
  rw [if_neg (by omega), if_neg (by omega), if_neg (by omega)]
  simp only [Res.bind_ok]
  rcases find_first h ((h.drop off).take len) 0 hmax with ⟨_, h2⟩ | ⟨h1, ⟨_, h3⟩, _⟩
  · exact absurd ⟨Nat.zero_le _, hocc⟩ (h2 off)
  · rw [occursAt_iff] at h3
    have h4 := h3.1
    simp only [loop, Arg.read, Res.bind_ok]
    rw [if_neg h1]
    unfold strErase
    rw [if_neg (by omega)]
    simp only [Res.bind_ok]
    unfold strInsert
    rw [if_neg (by
      rw [List.length_append, List.length_take]; omega)]
    simp only [Res.bind_ok, true_or, if_true]
    rw [if_neg (by omega)]
    rfl

/-- **C111 is violated** for every text and every hammer that is a part of it, if the needle occurs. -/
theorem c111_hammer_violated (h needle : Str) (off len : Nat) (hl : 0 < len)
    (hmax : h.length < npos) (hn : needle ≠ []) (ha : ∃ i, OccursAt h needle i) :
    replaceInplace h (.own needle) (.part off len) = .ub := by
  obtain ⟨i, hi⟩ := ha
  rw [replaceInplace_own _ _ _ hn]
  rcases find_first h needle 0 hmax with ⟨_, h2⟩ | ⟨h1, ⟨_, h3⟩, _⟩
  · exact absurd ⟨Nat.zero_le _, hi⟩ (h2 i)
  · rw [occursAt_iff] at h3
    have h4 := h3.1
    simp only [loop, Arg.read, true_or, if_true]
    rw [if_neg h1]
    unfold strErase
    rw [if_neg (by omega)]
    simp only [Res.bind_ok]
    rw [if_neg (by omega)]
    rfl

/-- "abab" with its own first two characters as needle and "x" as hammer. -/
example : replaceInplace (bytes "abab") (.part 0 2) (.own (bytes "x")) = .ub ∧
    replace (bytes "abab") (shown (bytes "abab") (.part 0 2)) (bytes "x") = .ok (bytes "xx") := by decide +kernel

example : replaceInplace (bytes "abab") (.own (bytes "b")) (.part 0 1) = .ub ∧
    replaceInplace (bytes "abab") (.own (bytes "c")) (.part 0 1) = .ok (bytes "abab") ∧
    replaceInplace (bytes "abab") (.own (bytes "b")) (.own (bytes "a")) = .ok (bytes "aaaa") := by decide +kernel

/-- The needle occurs in the second text and not in the first. -/
example : OccursAt (bytes "abab") (bytes "b") 1 := ⟨bytes "a", bytes "ab", by decide, by decide⟩

end Gul14.Strings.Alias
