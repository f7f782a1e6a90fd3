import Verif.Text.Lemmas

/-! Property theorems C12, C13, C14, C15 (concatenation), C19, C20. -/

namespace Gul14.Text
open Gul14.Spec

/-! ## C14: unescape decodes exactly the known sequences -/

/-- unescape terminates without exception, and its result is the one and only text obtained by
decoding the known escape sequences from left to right. -/
theorem c14_unescape (s t : Str) : unescape s = .ok t ↔ Unescaped s t := by
  obtain ⟨u, h1, h2⟩ := unescapeLoop_spec (s.length + 1) s [] (Nat.lt_succ_self _)
  have h1 : unescape s = .ok u := by rw [List.nil_append] at h1; exact h1
  rw [h1]
  constructor
  · rintro h; cases h; exact h2
  · intro h; rw [unescaped_unique h2 t h]

theorem c14_unescape_total (s : Str) : ∃ t, unescape s = .ok t := by
  obtain ⟨u, h1, -⟩ := unescapeLoop_spec (s.length + 1) s [] (Nat.lt_succ_self _)
  exact ⟨u, by rw [List.nil_append] at h1; exact h1⟩

/-- Text without a backslash is unchanged, and the result is never longer than the input. -/
theorem c14_unescape_plain (s : Str) (h : 92 ∉ s) : unescape s = .ok s := by
  rw [c14_unescape]
  induction s with
  | nil => exact .nil
  | cons c s ih =>
    simp at h
    refine .keep ?_ (ih h.2)
    rintro e d he ⟨t, ht⟩
    cases he <;> simp [b_quote, b_bs, b_n, b_r, b_t, b_x] at ht <;> exact h.1 ht.1

theorem c14_unescape_length (s t : Str) (h : unescape s = .ok t) : t.length ≤ s.length := by
  rw [c14_unescape] at h
  induction h with
  | nil => simp
  | @esc e c s t he _ ih =>
    have : 0 < e.length := List.length_pos_iff.2 (by rintro rfl; cases he)
    simp; omega
  | keep _ _ ih => simpa using ih

example : unescape (bytes "a\\x4F\\n\\q\\\\n\\x4") = .ok (bytes "aO\n\\q\\n\\x4") ∧
    (92 : UInt8) ∉ bytes "plain" := by decide

/-! ## C12: escape / unescape round trip -/

theorem c12_round_trip (s : Str) : ∃ e, escape s = .ok e ∧ unescape e = .ok s :=
  ⟨_, escape_ok s, (c14_unescape _ _).2 (escape_unescaped s)⟩

theorem c12_injective (s t e : Str) (hs : escape s = .ok e) (ht : escape t = .ok e) : s = t := by
  obtain ⟨e1, h1, h2⟩ := c12_round_trip s
  obtain ⟨e2, h3, h4⟩ := c12_round_trip t
  rw [hs] at h1; rw [ht] at h3
  cases h1; cases h3
  rw [h2] at h4
  cases h4; rfl

example : escape ([0xFC, 7, 92] ++ bytes "n\t\"") = .ok (bytes "\\xfc\\x07\\\\n\\t\\\"") ∧
    unescape (bytes "\\xfc\\x07\\\\n\\t\\\"") = .ok ([0xFC, 7, 92] ++ bytes "n\t\"") := by
  decide +kernel

/-! ## C13: escape produces only printable ASCII -/

/-- The documented property is false: DEL (0x7f) is not printable but copied unescaped. -/
theorem c13_printable_violated :
    ∃ (s e : Str) (c : UInt8), escape s = .ok e ∧ c ∈ e ∧ ¬ Printable c :=
  ⟨[127], [127], 127, by decide, by decide, by unfold Printable; decide⟩

/-- What holds: if the input contains no DEL, every character of the output is printable. -/
theorem c13_printable_partial (s e : Str) (h : escape s = .ok e) (hdel : 127 ∉ s) :
    ∀ c ∈ e, Printable c := by
  rw [escape_ok] at h
  cases h
  intro c hc
  rw [List.mem_flatMap] at hc
  obtain ⟨b, hb, hc⟩ := hc
  unfold Printable
  rcases esc_cases b with ⟨h1, h2, h3, -⟩ | ⟨-, h1, -⟩
  · rw [h1] at hc
    simp at hc; subst hc
    have : c.toNat ≠ 127 := fun e => by
      have : c = 127 := UInt8.toNat.inj e
      subst this; exact hdel hb
    omega
  · have := h1 c hc
    omega

/-- Every output is ASCII without control characters below 32, for every input. -/
theorem c13_ascii (s e : Str) (h : escape s = .ok e) : ∀ c ∈ e, 32 ≤ c.toNat ∧ c.toNat ≤ 127 := by
  rw [escape_ok] at h
  cases h
  intro c hc
  rw [List.mem_flatMap] at hc
  obtain ⟨b, hb, hc⟩ := hc
  rcases esc_cases b with ⟨h1, h2, h3, -⟩ | ⟨-, h1, -⟩
  · rw [h1] at hc
    simp at hc; subst hc
    exact ⟨h2, h3⟩
  · have := h1 c hc
    omega

/-- The output can be put between the quotes of a C literal: quotes and backslashes occur only
inside escape sequences. -/
theorem c13_literal (s e : Str) (h : escape s = .ok e) : CLiteral e := by
  rw [escape_ok] at h
  cases h
  induction s with
  | nil => exact .nil
  | cons b s ih =>
    rw [List.flatMap_cons]
    rcases esc_cases b with ⟨h1, h2, h3, h4, h5⟩ | ⟨h1, -⟩
    · rw [h1]
      exact .plain h2 h3 h4 h5 ih
    · exact .esc h1 ih

/-- Strings without special characters are unchanged. -/
theorem c13_unchanged (s : Str) (h : ∀ c ∈ s, ¬ Special c) : escape s = .ok s := by
  rw [escape_ok]
  congr 1
  induction s with
  | nil => rfl
  | cons b s ih =>
    have hb := h b (by simp)
    rw [List.flatMap_cons, ih (fun c hc => h c (by simp [hc]))]
    unfold Special Printable at hb
    rcases esc_cases b with ⟨h1, -⟩ | ⟨-, -, h1⟩
    · rw [h1]; rfl
    · exfalso; apply hb
      by_cases g1 : b = 34; · exact .inl g1
      by_cases g2 : b = 92; · exact .inr (.inl g2)
      right; right
      intro g3
      exact h1 ⟨g3.1, by omega, g1, g2⟩

example : (127 : UInt8) ∉ bytes "a\n\"" ∧ escape (bytes "a\n\"") = .ok (bytes "a\\n\\\"") := by decide
example : ∀ c ∈ bytes "Hi there!", ¬ Special c := by unfold Special Printable; decide

/-! ## C19: hex_string -/

/-- hex_string of an integer of `size` bytes has exactly 2*size lowercase hexadecimal digits,
which denote the value modulo 2^(8*size). -/
theorem c19_hex_string (size : Nat) (v : Int) :
    ∃ t n, hexString size v = .ok t ∧ t.length = 2 * size ∧ (∀ c ∈ t, IsLowerHex c) ∧
      HexNumeral t n ∧ (n : Int) = v % 2 ^ (8 * size) := by
  have hpos : (0 : Int) < (2 : Int) ^ (8 * size) := Int.pow_pos (by omega)
  have hlt := Int.emod_lt_of_pos v hpos
  have hge := Int.emod_nonneg v (Int.ne_of_gt hpos)
  obtain ⟨t, h1, h2, h3, h4⟩ := hexLoop_spec (v % (2 : Int) ^ (8 * size)).toNat size [] 0 .nil
    (by simp) (by
      rw [Nat.div_eq_of_lt]
      have : (((v % (2 : Int) ^ (8 * size)).toNat : Nat) : Int) < ((2 ^ (8 * size) : Nat) : Int) := by
        rw [Int.toNat_of_nonneg hge]
        simpa using hlt
      exact Int.ofNat_lt.1 this)
  exact ⟨t, _, h1, by simpa using h3, h4, h2, Int.toNat_of_nonneg hge⟩

/-- Two values of the type with the same rendering are equal (unsigned range). -/
theorem c19_injective (size : Nat) (v w : Int) (hv : 0 ≤ v ∧ v < 2 ^ (8 * size))
    (hw : 0 ≤ w ∧ w < 2 ^ (8 * size)) (h : hexString size v = hexString size w) : v = w := by
  obtain ⟨t, n, h1, -, -, h2, h3⟩ := c19_hex_string size v
  obtain ⟨t', n', g1, -, -, g2, g3⟩ := c19_hex_string size w
  rw [h1, g1] at h
  cases h
  have := hexNumeral_unique h2 _ g2
  rw [Int.emod_eq_of_lt hv.1 hv.2] at h3
  rw [Int.emod_eq_of_lt hw.1 hw.2] at g3
  omega

theorem intercalate_cons (sep t : Str) (ts : List Str) :
    List.intercalate sep (t :: ts) = t ++ (ts.map (sep ++ ·)).flatten := by
  induction ts generalizing t with
  | nil => simp [List.intercalate]
  | cons u us ih =>
    have : List.intercalate sep (t :: u :: us) = t ++ (sep ++ List.intercalate sep (u :: us)) := by
      simp [List.intercalate]
    rw [this, ih]; simp

/-- hex_string of a range is the list of the element renderings joined by the separator. -/
theorem c19_range (size : Nat) (vs : List Int) (sep : Str) :
    ∃ ts : List Str, ts.map Res.ok = vs.map (hexString size) ∧
      hexRange size vs sep = .ok (List.intercalate sep ts) := by
  have each : ∀ vs : List Int, ∃ ts : List Str, ts.map Res.ok = vs.map (hexString size) := by
    intro vs
    induction vs with
    | nil => exact ⟨[], rfl⟩
    | cons v vs ih =>
      obtain ⟨ts, h⟩ := ih
      obtain ⟨t, n, h1, -⟩ := c19_hex_string size v
      exact ⟨t :: ts, by simp [h, h1]⟩
  have fold : ∀ (vs : List Int) (ts : List Str) (acc : Str),
      ts.map Res.ok = vs.map (hexString size) →
      vs.foldl (fun (result : Res Str) w => result.bind fun r => (hexString size w).bind fun h =>
        Res.ok (r ++ sep ++ h)) (Res.ok acc) = .ok (acc ++ (ts.map (sep ++ ·)).flatten) := by
    intro vs
    induction vs with
    | nil => intro ts acc h; simp at h; subst h; simp
    | cons v vs ih =>
      intro ts acc h
      cases ts with
      | nil => simp at h
      | cons t ts =>
        simp at h
        rw [List.foldl_cons, Res.bind_ok, ← h.1, Res.bind_ok, ih ts _ (by simpa using h.2)]
        simp
  obtain ⟨ts, h⟩ := each vs
  refine ⟨ts, h, ?_⟩
  cases vs with
  | nil => simp at h; subst h; rfl
  | cons v vs =>
    cases ts with
    | nil => simp at h
    | cons t ts =>
      simp at h
      rw [hexRange, ← h.1, fold vs ts t (by simpa using h.2)]
      rw [intercalate_cons]

example : hexString 4 256 = .ok (bytes "00000100") ∧ hexString 1 (-1) = .ok (bytes "ff") ∧
    hexRange 2 [256, 255] (bytes "-") = .ok (bytes "0100-00ff") := by decide +kernel

/-! ## C20: repeat and safe_string -/

theorem c20_repeat (s : Str) (n : Nat) :
    repeatStr s n = copies n s ∧ (repeatStr s n).length = n * s.length := by
  have h : repeatStr s n = copies n s := by
    unfold copies
    induction n with
    | zero => rfl
    | succ n ih => rw [repeatStr, ih, List.replicate_succ']; simp
  refine ⟨h, ?_⟩
  rw [h]
  simp [copies]

/-- Reading succeeds if every byte up to the first NUL (or up to `length`) is readable, yields
the bytes before the first NUL among the first `length` bytes, and reads no byte beyond. -/
theorem c20_safe_string (mem : Nat → Option UInt8) (length k : Nat) (content : Str)
    (hk : content.length = k) (hle : k ≤ length)
    (hbytes : ∀ i (h : i < k), mem i = some (content[i]'(hk ▸ h)))
    (hnz : (0 : UInt8) ∉ content) (hend : k = length ∨ mem k = some 0) :
    ∃ log, safeString (some mem) length = .ok (content, log) ∧
      ∀ i ∈ log, i ≤ k ∧ i < length := by
  subst hk
  have key : ∀ (fuel i : Nat) (log : List Nat), i ≤ content.length → length + 1 ≤ fuel + i →
      (∀ j ∈ log, j ≤ content.length ∧ j < length) →
      ∃ log', safeScan mem length fuel i (content.take i) log = .ok (content, log') ∧
        ∀ j ∈ log', j ≤ content.length ∧ j < length := by
    intro fuel
    induction fuel with
    | zero => intro i log h1 h2; omega
    | succ fuel ih =>
      intro i log h1 h2 hlog
      unfold safeScan
      split
      · rename_i h
        have : i = content.length := by omega
        subst this
        exact ⟨log, by simp, hlog⟩
      · rename_i h
        by_cases hi : i = content.length
        · subst hi
          rcases hend with hend | hend
          · exact absurd hend h
          · rw [hend]
            refine ⟨log ++ [content.length], by simp, ?_⟩
            intro j hj
            simp at hj
            rcases hj with hj | rfl
            · exact hlog j hj
            · omega
        · have hlt : i < content.length := by omega
          rw [hbytes i hlt]
          have hne : content[i] ≠ 0 := fun e => hnz (e ▸ List.getElem_mem hlt)
          simp only [hne, if_false]
          rw [List.take_append_getElem hlt]
          apply ih (i + 1) _ (by omega) (by omega)
          intro j hj
          simp at hj
          rcases hj with hj | rfl
          · exact hlog j hj
          · omega
  obtain ⟨log, h1, h2⟩ := key (length + 1) 0 [] (Nat.zero_le _) (by omega) (by simp)
  exact ⟨log, by simpa [safeString] using h1, h2⟩

theorem c20_safe_string_null (length : Nat) : safeString none length = .ok ([], []) := rfl

example : safeString (some fun i => (bytes "ab\x00cd")[i]?) 5 = .ok (bytes "ab", [0, 1, 2]) ∧
    safeString (some fun i => (bytes "abc")[i]?) 3 = .ok (bytes "abc", [0, 1, 2]) ∧
    safeString (some fun i => (bytes "abc")[i]?) 4 = .ub := by decide

/-! ## C15 (concatenation) -/

/-- cat is the concatenation of the texts of its arguments, for any number of arguments. -/
theorem c15_cat (args : List Arg) : cat args = (args.map Arg.text).flatten := by
  have h : ∀ (l : List Arg) (acc : Str),
      l.foldl (fun str p => str ++ p.text) acc = acc ++ (l.map Arg.text).flatten := by
    intro l
    induction l with
    | nil => simp
    | cons a l ih => intro acc; rw [List.foldl_cons, ih]; simp
  match args with
  | [] => rfl
  | [a] => simp [cat]
  | [a, b] => simp [cat, cat2]
  | [a, b, c] => simp [cat, cat3]
  | a :: b :: c :: d :: l => simp only [cat, catList, h]; simp

example : cat [.str (bytes "x="), .int (-42), .chr 33] = bytes "x=-42!" ∧
    cat [.int 0, .int 10, .str [], .chr 65, .int 7] = bytes "010A7" := by decide

end Gul14.Text
