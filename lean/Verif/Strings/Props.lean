import Verif.Strings.Lemmas

/-! Property theorems C01 - C06.  Every string in memory is shorter than npos. -/

namespace Gul14.Strings
open Gul14.SV Gul14.Spec

/-! ## C01: split then join restores the text -/

/-- `join` places the glue between consecutive parts. -/
theorem c01_join (parts : List Str) (glue : Str) :
    join parts glue = List.intercalate glue parts := join_eq_intercalate parts glue

/-- For every text and every delimiter (empty or not), `split` terminates without exception
or undefined behaviour, returns at least one part, and joining the parts restores the text. -/
theorem c01_split_join (text delim : Str) (hmax : text.length < npos) :
    ∃ parts, split text delim = .ok parts ∧ parts ≠ [] ∧ join parts delim = text := by
  by_cases hd : delim = []
  · subst hd
    refine ⟨_, split_empty text hmax, by simp, ?_⟩
    rw [join_eq_intercalate]
    have : ∀ (l : List Str), List.intercalate ([] : Str) l = l.flatten := by
      intro l
      induction l with
      | nil => rfl
      | cons a l ih =>
        cases l with
        | nil => simp [List.intercalate]
        | cons b l => rw [intercalate_cons _ _ _ (by simp), ih]; simp
    rw [this]
    have h2 : ∀ (t : Str), (t.map (fun c => [c])).flatten = t := by
      intro t; induction t with
      | nil => rfl
      | cons a t ih => simp [ih]
    simp [h2]
  · obtain ⟨ps, h1, h2⟩ := splitLoop_cuts text delim hd hmax (text.length + 2) 0 (by omega)
      (by omega) []
    refine ⟨ps, by simpa [split] using h1, cuts_ne_nil h2, ?_⟩
    rw [join_eq_intercalate]
    simpa using cuts_intercalate h2

example : (bytes "a::b::").length < npos ∧
    split (bytes "a::b::") (bytes "::") = .ok [bytes "a", bytes "b", []] ∧
    split (bytes "abc") [] = .ok [[], bytes "a", bytes "b", bytes "c", []] := by decide

/-! ## C02: split cuts exactly at the delimiters -/

/-- With a non-empty delimiter, `split` returns exactly the parts obtained by cutting at the
leftmost occurrence, again and again. -/
theorem c02_split_cuts (text delim : Str) (hd : delim ≠ []) (hmax : text.length < npos)
    (parts : List Str) : split text delim = .ok parts ↔ Cuts delim text parts := by
  obtain ⟨ps, h1, h2⟩ := splitLoop_cuts text delim hd hmax (text.length + 2) 0 (by omega)
      (by omega) []
  have h1' : split text delim = .ok ps := by simpa [split] using h1
  simp only [List.drop_zero] at h2
  constructor
  · intro h
    rw [h1'] at h
    cases h; exact h2
  · intro h
    rw [h1', cuts_unique h2 h]

/-- No part returned by `split` with a non-empty delimiter contains the delimiter. -/
theorem c02_no_delimiter_in_parts (text delim : Str) (hd : delim ≠ []) (hmax : text.length < npos)
    (parts : List Str) (h : split text delim = .ok parts) :
    ∀ p ∈ parts, ∀ i, ¬ OccursAt p delim i := by
  rw [c02_split_cuts text delim hd hmax] at h
  have hdl : 0 < delim.length := List.length_pos_iff.mpr hd
  clear hmax
  induction h with
  | last text hn => simpa using hn
  | cut a rest ps hm hc ih =>
    intro p hp i ho
    rcases List.mem_cons.mp hp with rfl | hp
    · obtain ⟨x, y, hxy, hxl⟩ := ho
      have h1 : OccursAt (p ++ delim ++ rest) delim i :=
        ⟨x, y ++ delim ++ rest, by rw [hxy]; simp, hxl⟩
      have h2 := hm i h1
      have h3 := congrArg List.length hxy
      simp at h3
      omega
    · exact ih p hp i ho

/-- Splitting at the empty delimiter gives the single characters, between two empty parts. -/
theorem c02_split_empty_delimiter (text : Str) (hmax : text.length < npos) :
    split text [] = .ok ([] :: text.map (fun c => [c]) ++ [[]]) := split_empty text hmax

/-- For a one-character delimiter that occurs in none of the parts, `split` inverts `join`. -/
theorem c02_join_split (parts : List Str) (d : UInt8) (hne : parts ≠ [])
    (hfree : ∀ p ∈ parts, d ∉ p) (hmax : (join parts [d]).length < npos) :
    split (join parts [d]) [d] = .ok parts := by
  rw [c02_split_cuts _ _ (by simp) hmax, join_eq_intercalate]
  clear hmax
  have hocc : ∀ (t : Str) i, OccursAt t [d] i → d ∈ t := by
    rintro t i ⟨x, y, rfl, -⟩; simp
  induction parts with
  | nil => exact absurd rfl hne
  | cons p ps ih =>
    cases ps with
    | nil =>
      simp only [List.intercalate, List.intersperse, List.flatten_cons, List.flatten_nil,
        List.append_nil]
      exact .last p (fun i hi => hfree p (by simp) (hocc _ _ hi))
    | cons q ps =>
      rw [intercalate_cons _ _ _ (by simp)]
      refine .cut p _ _ ?_ (ih (by simp) (fun p hp => hfree p (by simp [hp])))
      rintro i ⟨x, y, hxy, rfl⟩
      rcases Nat.lt_or_ge x.length p.length with h | h
      · exfalso
        have h1 : (p ++ [d] ++ List.intercalate [d] (q :: ps))[x.length]? = some d := by
          rw [hxy]; simp
        rw [List.append_assoc, List.getElem?_append_left h] at h1
        exact hfree p (by simp) (List.mem_of_getElem? h1)
      · exact h

example : [bytes "a", [], bytes "bc"] ≠ [] ∧ (∀ p ∈ [bytes "a", [], bytes "bc"], (44 : UInt8) ∉ p) ∧
    (join [bytes "a", [], bytes "bc"] [44]).length < npos ∧
    join [bytes "a", [], bytes "bc"] [44] = bytes "a,,bc" := by decide

/-- For longer delimiters `split` does not invert `join`, even if no part contains the
delimiter. -/
theorem c02_join_split_long_delimiter_violated :
    ∃ (parts : List Str) (delim : Str), parts ≠ [] ∧ delim ≠ [] ∧
      (∀ p ∈ parts, ∀ i, ¬ OccursAt p delim i) ∧
      split (join parts delim) delim ≠ .ok parts := by
  refine ⟨[bytes "a", bytes "b"], bytes "aa", by decide, by decide, ?_, by decide⟩
  intro p hp i ho
  have := occ_le ho
  simp [bytes] at hp this
  rcases hp with rfl | rfl <;> simp at this <;> omega

/-! ## C03: tokenize returns exactly the maximal delimiter-free runs -/

/-- `tokenize` terminates without undefined behaviour, and its result is the unique list of
maximal runs of non-delimiter characters. -/
theorem c03_tokenize (s delims : Str) (hmax : s.length < npos) (ts : List Str) :
    tokenize s delims = .ok ts ↔ Tokens delims s ts := by
  obtain ⟨us, h1, h2⟩ := tokenizeLoop_spec s delims hmax (s.length + 1) 0 (by omega)
    (by omega) []
  have h1' : tokenize s delims = .ok us := by simpa [tokenize] using h1
  simp only [List.drop_zero] at h2
  constructor
  · intro h
    rw [h1'] at h
    cases h; exact h2
  · intro h
    rw [h1', tokens_unique h2 h]

/-- Every string has a token list (the specification is total), so tokenize always returns
normally. -/
theorem c03_tokenize_total (s delims : Str) (hmax : s.length < npos) :
    ∃ ts, tokenize s delims = .ok ts ∧ Tokens delims s ts := by
  obtain ⟨us, h1, h2⟩ := tokenizeLoop_spec s delims hmax (s.length + 1) 0 (by omega)
    (by omega) []
  exact ⟨us, by simpa [tokenize] using h1, by simpa using h2⟩

/-- No token is empty or contains a delimiter, and concatenating all tokens gives the text
without its delimiter characters. -/
theorem c03_tokens_clean (s delims : Str) (hmax : s.length < npos) (ts : List Str)
    (h : tokenize s delims = .ok ts) :
    (∀ t ∈ ts, t ≠ [] ∧ ∀ c ∈ t, c ∉ delims) ∧
    ts.flatten = s.filter (fun c => !delims.contains c) := by
  rw [c03_tokenize s delims hmax] at h
  clear hmax
  induction h with
  | none s h => exact ⟨by simp, by symm; simpa using h⟩
  | token a t rest ts h1 h2 h3 h4 h5 ih =>
    refine ⟨?_, ?_⟩
    · intro u hu
      rcases List.mem_cons.mp hu with rfl | hu
      · exact ⟨h2, h3⟩
      · exact ih.1 u hu
    · rw [List.flatten_cons, ih.2, List.filter_append, List.filter_append]
      have e1 : a.filter (fun c => !delims.contains c) = [] := by simpa using h1
      have e2 : t.filter (fun c => !delims.contains c) = t := by simpa using h3
      rw [e1, e2]; simp

example : (bytes " hello  world ").length < npos ∧
    tokenize (bytes " hello  world ") (bytes " ") = .ok [bytes "hello", bytes "world"] ∧
    tokenize (bytes "ab") [] = .ok [bytes "ab"] ∧ tokenize [] (bytes " ") = .ok [] := by decide

/-! ## C04: replace substitutes the leftmost non-overlapping occurrences once -/

/-- `replace` terminates without undefined behaviour and returns the unique string obtained
by replacing the leftmost occurrence and continuing behind it. -/
theorem c04_replace (h needle hammer : Str) (hn : needle ≠ []) (hmax : h.length < npos) (r : Str) :
    replace h needle hammer = .ok r ↔ Replaced needle hammer h r := by
  obtain ⟨r', h1, h2⟩ := replaceLoop_spec h needle hammer hn hmax (h.length + 1) 0 (by omega)
    (by omega) []
  have h1' : replace h needle hammer = .ok r' := by simpa [replace, hn] using h1
  simp only [List.drop_zero] at h2
  constructor
  · intro e
    rw [h1'] at e
    cases e; exact h2
  · intro e
    rw [h1', replaced_unique h2 e]

/-- `replace` always returns normally; an empty needle changes nothing. -/
theorem c04_replace_total (h needle hammer : Str) (hmax : h.length < npos) :
    ∃ r, replace h needle hammer = .ok r ∧ (needle = [] → r = h) ∧
      ((∀ i, ¬ OccursAt h needle i) → r = h) := by
  by_cases hn : needle = []
  · exact ⟨h, by simp [replace, hn], fun _ => rfl, fun _ => rfl⟩
  · obtain ⟨r', h1, h2⟩ := replaceLoop_spec h needle hammer hn hmax (h.length + 1) 0 (by omega)
      (by omega) []
    simp only [List.drop_zero] at h2
    refine ⟨r', by simpa [replace, hn] using h1, fun e => absurd e hn, fun e => ?_⟩
    exact replaced_unique h2 (.done h e)

/-- Replacing is splitting at the needle and joining with the hammer. -/
theorem c04_replace_is_split_join (h needle hammer : Str) (hn : needle ≠ [])
    (hmax : h.length < npos) (parts : List Str) (hs : split h needle = .ok parts) :
    replace h needle hammer = .ok (join parts hammer) := by
  rw [c02_split_cuts _ _ hn hmax] at hs
  rw [c04_replace _ _ _ hn hmax, join_eq_intercalate]
  exact replaced_of_cuts hs

example : bytes "aa" ≠ [] ∧ (bytes "aaaxaa").length < npos ∧
    replace (bytes "aaaxaa") (bytes "aa") (bytes "aab") = .ok (bytes "aabaxaab") := by decide

/-! ## C05: replace_inplace equals replace -/

/-- `replace_inplace` terminates and gives the result of `replace`, also if the hammer contains
the needle (strings short enough that the result fits into memory; arguments not aliasing the
haystack). -/
theorem c05_replace_inplace (h needle hammer : Str)
    (hmax : h.length + h.length * hammer.length < npos) :
    replaceInplace h needle hammer = replace h needle hammer := by
  by_cases hn : needle = []
  · simp [replaceInplace, replace, hn]
  · obtain ⟨r, h1, h2⟩ := replaceInplaceLoop_spec needle hammer hn (h.length + 1) [] h
      (by omega) (by simpa using hmax)
    have h3 : replace h needle hammer = .ok r :=
      (c04_replace h needle hammer hn (by omega) r).2 h2
    rw [h3]
    simpa [replaceInplace, hn] using h1

example : (bytes "xaxa").length + (bytes "xaxa").length * (bytes "bab").length < npos ∧
    replaceInplace (bytes "xaxa") (bytes "a") (bytes "bab") = .ok (bytes "xbabxbab") := by decide

/-! ## C06: trim removes exactly the outer whitespace -/

theorem c06_trim_left (s ws : Str) (hmax : s.length < npos) :
    ∃ r, trimLeft s ws = .ok r ∧ TrimmedLeft ws s r := trimLeft_spec s ws hmax

theorem c06_trim_right (s ws : Str) (hmax : s.length < npos) :
    ∃ r, trimRight s ws = .ok r ∧ TrimmedRight ws s r := trimRight_spec s ws hmax

theorem c06_trim (s ws : Str) (hmax : s.length < npos) :
    ∃ r, trim s ws = .ok r ∧ Trimmed ws s r := trimSv_spec s ws hmax

/-- The three specifications determine the result. -/
theorem c06_spec_unique (ws s r r' : Str) :
    (TrimmedLeft ws s r → TrimmedLeft ws s r' → r = r') ∧
    (TrimmedRight ws s r → TrimmedRight ws s r' → r = r') ∧
    (Trimmed ws s r → Trimmed ws s r' → r = r') := by
  have left : ∀ (s r r' : Str), TrimmedLeft ws s r → TrimmedLeft ws s r' → r = r' := by
    rintro s r r' ⟨a, rfl, h1, h2⟩ ⟨a', h3, h4, h5⟩
    induction a generalizing a' with
    | nil =>
      cases a' with
      | nil => simpa using h3
      | cons c a' =>
        simp at h3; subst h3
        exact absurd (h4 c (by simp)) (h2 c (by simp))
    | cons c a ih =>
      cases a' with
      | nil =>
        simp at h3; subst h3
        exact absurd (h1 c (by simp)) (h5 c (by simp))
      | cons c' a' =>
        simp at h3
        exact ih (fun x hx => h1 x (by simp [hx])) a' h3.2 (fun x hx => h4 x (by simp [hx]))
  have right : ∀ (s r r' : Str), TrimmedRight ws s r → TrimmedRight ws s r' → r = r' := by
    have flip : ∀ (s r : Str), TrimmedRight ws s r → TrimmedLeft ws s.reverse r.reverse := by
      rintro s r ⟨b, rfl, h1, h2⟩
      exact ⟨b.reverse, by simp, by simpa using h1, by simpa [List.head?_reverse] using h2⟩
    intro s r r' h h'
    have := left _ _ _ (flip _ _ h) (flip _ _ h')
    simpa using this
  refine ⟨left s r r', right s r r', ?_⟩
  rintro ⟨a, b, h1, h2, h3, h4, h5⟩ ⟨a', b', h1', h2', h3', h4', h5'⟩
  by_cases hr : r = []
  · subst hr
    have hall : ∀ c ∈ s, c ∈ ws := by
      rw [h1]; simp; rintro c (h | h)
      · exact h2 c h
      · exact h3 c h
    cases r' with
    | nil => rfl
    | cons c r' => exact absurd (hall c (by rw [h1']; simp)) (h4' c (by simp))
  · by_cases hr' : r' = []
    · subst hr'
      have hall : ∀ c ∈ s, c ∈ ws := by
        rw [h1']; simp; rintro c (h | h)
        · exact h2' c h
        · exact h3' c h
      cases r with
      | nil => rfl
      | cons c r => exact absurd (hall c (by rw [h1]; simp)) (h4 c (by simp))
    · have e1 : r ++ b = r' ++ b' := by
        refine left s _ _ ⟨a, by rw [h1]; simp, h2, ?_⟩ ⟨a', by rw [h1']; simp, h2', ?_⟩
        · cases r with
          | nil => exact absurd rfl hr
          | cons c r => simpa using h4
        · cases r' with
          | nil => exact absurd rfl hr'
          | cons c r' => simpa using h4'
      exact right (r ++ b) _ _ ⟨b, rfl, h3, h5⟩ ⟨b', e1, h3', h5'⟩

/-- Trimming both sides is trimming left then right, and right then left. -/
theorem c06_trim_compose (s ws : Str) (hmax : s.length < npos) :
    trim s ws = (trimLeft s ws).bind (fun t => trimRight t ws) ∧
    trim s ws = (trimRight s ws).bind (fun t => trimLeft t ws) := by
  obtain ⟨r, h1, h2⟩ := c06_trim s ws hmax
  rw [h1]
  constructor
  · obtain ⟨t, g1, a, g2, g3, g4⟩ := c06_trim_left s ws hmax
    obtain ⟨u, k1, b, k2, k3, k4⟩ := c06_trim_right t ws
      (by have := congrArg List.length g2; simp at this; omega)
    rw [g1, Res.bind_ok, k1]
    congr 1
    refine (c06_spec_unique ws s r u).2.2 h2 ⟨a, b, by rw [g2, k2]; simp, g3, k3, ?_, k4⟩
    intro c hc
    refine g4 c ?_
    rw [k2]
    cases u with
    | nil => simp at hc
    | cons x u => simpa using hc
  · obtain ⟨t, g1, b, g2, g3, g4⟩ := c06_trim_right s ws hmax
    obtain ⟨u, k1, a, k2, k3, k4⟩ := c06_trim_left t ws
      (by have := congrArg List.length g2; simp at this; omega)
    rw [g1, Res.bind_ok, k1]
    congr 1
    refine (c06_spec_unique ws s r u).2.2 h2 ⟨a, b, by rw [g2, k2], k3, g3, k4, ?_⟩
    intro c hc
    refine g4 c ?_
    rw [k2]
    cases u with
    | nil => simp at hc
    | cons x u => rw [List.getLast?_append, hc]; rfl

/-- Trimming twice changes nothing more; trimming with no whitespace characters changes
nothing at all. -/
theorem c06_trim_idempotent (s ws : Str) (hmax : s.length < npos) :
    ((trim s ws).bind fun t => trim t ws) = trim s ws ∧ trim s [] = .ok s := by
  constructor
  · obtain ⟨r, h1, h2⟩ := c06_trim s ws hmax
    have h2' := h2
    obtain ⟨a, b, g1, g2, g3, g4, g5⟩ := h2
    obtain ⟨r2, k1, k2⟩ := c06_trim r ws
      (by have := congrArg List.length g1; simp at this; omega)
    rw [h1, Res.bind_ok, k1]
    congr 1
    exact (c06_spec_unique ws r r2 r).2.2 k2 ⟨[], [], by simp, by simp, by simp, g4, g5⟩
  · obtain ⟨r, h1, h2⟩ := c06_trim s [] hmax
    rw [h1]
    congr 1
    exact (c06_spec_unique [] s r s).2.2 h2
      ⟨[], [], by simp, by simp, by simp, by simp, by simp⟩

example : (bytes "  a b ").length < npos ∧ trim (bytes "  a b ") (bytes " ") = .ok (bytes "a b") ∧
    trimLeft (bytes "  a b ") (bytes " ") = .ok (bytes "a b ") ∧
    trimRight (bytes "  a b ") (bytes " ") = .ok (bytes "  a b") ∧
    trim (bytes "   ") (bytes " ") = .ok [] := by decide

end Gul14.Strings
