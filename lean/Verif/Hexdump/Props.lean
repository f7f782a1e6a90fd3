import Verif.Hexdump.Model
import Verif.Hexdump.Spec
import Verif.Text.Lemmas

/-! Properties of hexdump. -/
namespace Gul14.Hexdump
open Gul14.Spec Gul14.Spec.Dump Stream

/-! ### numbers -/

theorem digit_spec (i : Nat) (h : i < 16) :
    hexDigitVal (digit false i) = some i ∧ IsLowerHex (digit false i) := by
  have : ∀ i : Fin 16, hexDigitVal (digit false i) = some i.val ∧
      ((48 ≤ (digit false i).toNat ∧ (digit false i).toNat ≤ 57) ∨
       (97 ≤ (digit false i).toNat ∧ (digit false i).toNat ≤ 102)) := by decide +kernel
  exact this ⟨i, h⟩

theorem hexNumeral_zeros (k : Nat) {s : Str} {n : Nat} (h : HexNumeral s n) :
    HexNumeral (List.replicate k 48 ++ s) n := by
  induction h with
  | nil =>
      rw [List.append_nil]
      induction k with
      | zero => exact .nil
      | succ k ih =>
          have := ih.snoc (c := 48) (d := 0) (by decide)
          rw [List.replicate_succ']
          simpa using this
  | snoc h1 h2 ih => rw [← List.append_assoc]; exact ih.snoc h2

theorem digits_spec (w : Nat) : ∀ (fuel n : Nat), w ≤ fuel → n < 16 ^ w → 1 ≤ w →
    HexNumeral (digits false 16 fuel n) n ∧ (∀ c ∈ digits false 16 fuel n, IsLowerHex c) ∧
    (digits false 16 fuel n).length ≤ w := by
  induction w with
  | zero => intro fuel n _ _ h; omega
  | succ w ih =>
      intro fuel n hf hn _
      obtain ⟨k, rfl⟩ : ∃ k, fuel = k + 1 := ⟨fuel - 1, by omega⟩
      unfold digits
      by_cases hlt : n < 16
      · rw [if_pos hlt]
        obtain ⟨h1, h2⟩ := digit_spec n hlt
        refine ⟨?_, by simpa using h2, by simp⟩
        have := HexNumeral.nil.snoc h1
        simpa using this
      · rw [if_neg hlt]
        have hw : 1 ≤ w := by
          rcases Nat.eq_zero_or_pos w with rfl | h
          · simp at hn; omega
          · exact h
        have hdiv : n / 16 < 16 ^ w := by
          rw [Nat.div_lt_iff_lt_mul (by omega)]
          rwa [Nat.pow_succ] at hn
        obtain ⟨h1, h2, h3⟩ := ih k (n / 16) (by omega) hdiv hw
        obtain ⟨h4, h5⟩ := digit_spec (n % 16) (Nat.mod_lt _ (by omega))
        refine ⟨?_, ?_, by simp; omega⟩
        · have := h1.snoc h4
          rwa [Nat.div_add_mod] at this
        · intro c hc
          simp only [List.mem_append, List.mem_singleton] at hc
          rcases hc with hc | rfl
          · exact h2 c hc
          · exact h5

/-- The formatting state while a dump is written. -/
structure Good (f : Fmt) : Prop where
  hex : f.hex = true
  adjust : f.adjust ≠ .left
  showbase : f.showbase = false
  uppercase : f.uppercase = false
  fill : f.fill = 48
  width : f.width = 0

theorem putStr_good {d : Stream} (h : Good d.fmt) (s : Str) :
    (d.putStr s).out = d.out ++ s ∧ (d.putStr s).fmt = d.fmt := by
  have hw := h.width
  refine ⟨?_, ?_⟩
  · simp [putStr, hw, write, setw]
  · show { d.fmt with width := 0 } = d.fmt
    rw [← hw]

theorem putUInt_good {d : Stream} (h : Good d.fmt) (w n : Nat) (hw : 1 ≤ w) (hw2 : w ≤ 64)
    (hn : n < 16 ^ w) :
    ∃ g, Group w n g ∧ ((d.setw w).putUInt n).out = d.out ++ g ∧
      ((d.setw w).putUInt n).fmt = d.fmt := by
  obtain ⟨h1, h2, h3⟩ := digits_spec w 64 n hw2 hn hw
  refine ⟨List.replicate (w - (digits false 16 64 n).length) 48 ++ digits false 16 64 n,
    ⟨by simp; omega, ?_, hexNumeral_zeros _ h1⟩, ?_, ?_⟩
  · intro c hc
    simp only [List.mem_append, List.mem_replicate] at hc
    rcases hc with ⟨_, rfl⟩ | hc
    · exact Or.inl (by decide)
    · exact h2 c hc
  · have ha := h.adjust
    simp only [putUInt, setw, write, h.hex, h.showbase, h.uppercase, h.fill, if_true,
      Bool.false_and, Bool.false_eq_true, if_false, List.length_nil, Nat.zero_add]
    match hd : d.fmt.adjust with
    | .left => exact absurd hd ha
    | .right => simp
    | .internal => simp
  · show { d.fmt with width := 0 } = d.fmt
    rw [← h.width]

theorem toUnsigned_eq (size : Nat) (v : Int) : toUnsigned size v = unsigned size v := by
  unfold toUnsigned unsigned
  rw [Nat.pow_mul]

theorem toUnsigned_lt (size : Nat) (v : Int) : toUnsigned size v < 16 ^ (size * 2) := by
  unfold toUnsigned
  have hpos : (0 : Int) < ((256 ^ size : Nat) : Int) := by
    have : 0 < 256 ^ size := Nat.pow_pos (by omega)
    omega
  have h1 := Int.emod_nonneg v (Int.ne_of_gt hpos)
  have h2 := Int.emod_lt_of_pos v hpos
  have : 16 ^ (size * 2) = 256 ^ size := by rw [Nat.mul_comm, Nat.pow_mul]
  omega

/-! ### one line -/

theorem cellsLoop_good (size : Nat) (hs : 1 ≤ size) (hs2 : size ≤ 8) (k : Nat) :
    ∀ (it : List Int) (d : Stream), Good d.fmt →
    ∃ cells, Cells (2 * size) ((it.take k).map (unsigned size)) cells ∧
      (cellsLoop size k it d).1.out = d.out ++ cells ++
        (if size = 1 then List.replicate (3 * (k - it.length)) 32 else []) ∧
      (cellsLoop size k it d).1.fmt = d.fmt ∧ (cellsLoop size k it d).2 = it.drop k := by
  induction k with
  | zero => intro it d h; exact ⟨[], by simp; exact .nil, by simp [cellsLoop], rfl, by simp [cellsLoop]⟩
  | succ k ih =>
      intro it d h
      cases it with
      | nil =>
          simp only [cellsLoop]
          by_cases h1 : size = 1
          · subst h1
            obtain ⟨e1, e2⟩ := putStr_good h (List.replicate 3 32)
            obtain ⟨c, g1, g2, g3, g4⟩ := ih [] (d.putStr (List.replicate 3 32)) (by rw [e2]; exact h)
            simp only [show ¬ (1 * 2 ≠ 2) by decide, if_false]
            refine ⟨c, by simpa using g1, ?_, by rw [g3, e2], by rw [g4]; simp⟩
            have hc : c = [] := by
              simp at g1; cases g1; rfl
            rw [g2, e1, hc]
            simp only [if_true, List.append_nil, List.length_nil, Nat.sub_zero, List.append_assoc,
              List.replicate_append_replicate]
            congr 2; omega
          · rw [if_pos (by omega)]
            exact ⟨[], by simp; exact .nil, by simp [h1], rfl, by simp⟩
      | cons v it =>
          simp only [cellsLoop]
          obtain ⟨g, hg, e1, e2⟩ := putUInt_good h (size * 2) (toUnsigned size v) (by omega)
            (by omega) (toUnsigned_lt size v)
          generalize (d.setw (size * 2)).putUInt (toUnsigned size v) = d1 at *
          obtain ⟨e3, e4⟩ := putStr_good (d := d1) (by rw [e2]; exact h) [32]
          obtain ⟨c, g1, g2, g3, g4⟩ := ih it (d1.putStr [32]) (by rw [e4, e2]; exact h)
          refine ⟨g ++ bytes " " ++ c, ?_, ?_, by rw [g3, e4, e2], by rw [g4]; simp⟩
          · simp only [List.take_succ_cons, List.map_cons]
            refine .cons ?_ g1
            rwa [toUnsigned_eq, Nat.mul_comm] at hg
          · rw [g2, e3, e1]
            simp [show bytes " " = [32] by decide]

theorem shown_eq (v : Int) :
    UInt8.ofNat (if isprint (toUnsigned 1 v) then toUnsigned 1 v else 46) = shown (unsigned 1 v) := by
  rw [toUnsigned_eq]
  unfold shown isprint
  by_cases h : 32 ≤ unsigned 1 v ∧ unsigned 1 v < 127
  · have : (decide (32 ≤ unsigned 1 v) && decide (unsigned 1 v ≤ 126)) = true := by
      simp; omega
    rw [this, if_pos rfl, if_pos h]
  · have : (decide (32 ≤ unsigned 1 v) && decide (unsigned 1 v ≤ 126)) = false := by
      simp; omega
    rw [this, if_neg h]; rfl

theorem textLoop_good (k : Nat) : ∀ (it : List Int) (d : Stream), Good d.fmt →
    (textLoop k it d).out = d.out ++ ((it.take k).map (unsigned 1)).map shown ∧
    (textLoop k it d).fmt = d.fmt := by
  induction k with
  | zero => intro it d h; simp [textLoop]
  | succ k ih =>
      intro it d h
      cases it with
      | nil => simp [textLoop]
      | cons v it =>
          simp only [textLoop]
          rw [shown_eq]
          obtain ⟨e1, e2⟩ := putStr_good h [shown (unsigned 1 v)]
          obtain ⟨g1, g2⟩ := ih it (d.putStr [shown (unsigned 1 v)]) (by rw [e2]; exact h)
          rw [g1, g2, e1, e2]
          simp

/-- One iteration of the outer loop. -/
def oneLine (size : Nat) (lead : Str) (i : Nat) (it : List Int) (d : Stream) : Stream :=
  let d := (((d.putView lead).setw 6).putUInt i).putStr (bytes ": ")
  let d := (cellsLoop size 16 it d).1
  let d := if size * 2 = 2 then textLoop 16 it (d.putStr [32]) else d
  d.putStr (bytes "\n")

/-- The state before the first line: as `Good` but for a width that the prompt fills. -/
structure Start (f : Fmt) (lead : Str) : Prop where
  good : Good { f with width := 0 }
  width : f.width ≤ lead.length

theorem oneLine_good (size : Nat) (hs : 1 ≤ size) (hs2 : size ≤ 8) (lead : Str) (i : Nat)
    (hi : i < 16 ^ 6) (it : List Int) (d : Stream) (h : Start d.fmt lead) :
    ∃ s, Line (2 * size) lead i ((it.take 16).map (unsigned size)) s ∧
      (oneLine size lead i it d).out = d.out ++ s ∧
      (oneLine size lead i it d).fmt = { d.fmt with width := 0 } := by
  unfold oneLine
  dsimp only
  have e1 : (d.putView lead).out = d.out ++ lead := by
    rw [c68_insert_view]
    have : d.fmt.width - lead.length = 0 := by have := h.width; omega
    simp [putStr, this, write, setw]
  have e2 : (d.putView lead).fmt = { d.fmt with width := 0 } := by rw [c68_insert_view]; rfl
  have hG := h.good
  rw [← e2] at hG ⊢
  generalize d.putView lead = d1 at *
  obtain ⟨off, hoff, e3, e4⟩ := putUInt_good hG 6 i (by omega) (by omega) hi
  generalize (d1.setw 6).putUInt i = d2 at *
  rw [← e4] at hG ⊢
  obtain ⟨e5, e6⟩ := putStr_good hG (bytes ": ")
  generalize d2.putStr (bytes ": ") = d3 at *
  rw [← e6] at hG ⊢
  obtain ⟨cells, hc, e7, e8, e9⟩ := cellsLoop_good size hs hs2 16 it d3 hG
  generalize (cellsLoop size 16 it d3).1 = d4 at *
  rw [← e8] at hG ⊢
  by_cases h1 : size = 1
  · subst h1
    obtain ⟨e10, e11⟩ := putStr_good hG [32]
    generalize d4.putStr [32] = d5 at *
    rw [← e11] at hG ⊢
    obtain ⟨e12, e13⟩ := textLoop_good 16 it d5 hG
    generalize textLoop 16 it d5 = d6 at *
    rw [← e13] at hG ⊢
    simp only [show 1 * 2 = 2 by decide, if_true]
    obtain ⟨e14, e15⟩ := putStr_good hG (bytes "\n")
    refine ⟨lead ++ off ++ bytes ": " ++ cells ++ (List.replicate (3 * (16 - it.length)) 32 ++ bytes " "
      ++ ((it.take 16).map (unsigned 1)).map shown) ++ bytes "\n", ⟨off, cells, hoff, hc, ?_⟩, ?_, e15⟩
    · simp only [show 2 * 1 = 2 by decide, if_true, List.length_map, List.length_take]
      rw [show 16 - min 16 it.length = 16 - it.length by omega]
    · rw [e14, e12, e10, e7, e5, e3, e1]
      simp [show bytes " " = [32] by decide]
  · simp only [show ¬ (size * 2 = 2) by omega, if_false]
    obtain ⟨e14, e15⟩ := putStr_good hG (bytes "\n")
    refine ⟨lead ++ off ++ bytes ": " ++ cells ++ [] ++ bytes "\n",
      ⟨off, cells, hoff, hc, by rw [if_neg (by omega)]⟩, ?_, e15⟩
    rw [e14, e7, e5, e3, e1]
    simp [h1]

/-! ### all lines -/

theorem linesLoop_eq (size : Nat) (prompt indent : Str) (fuel i : Nat) (it : List Int) (d : Stream) :
    linesLoop size prompt indent (fuel + 1) i it d =
      if (it ≠ [] ∧ i < maxelem) ∨ i = 0 then
        linesLoop size prompt indent fuel (i + 16) (cellsLoop size 16 it
          ((((d.putView (if i ≠ 0 then indent else prompt)).setw 6).putUInt i).putStr (bytes ": "))).2
          (oneLine size (if i ≠ 0 then indent else prompt) i it d)
      else .ok (d, it) := rfl

theorem cellsLoop_snd (size : Nat) (k : Nat) : ∀ (it : List Int) (d : Stream),
    (cellsLoop size k it d).2 = it.drop k := by
  induction k with
  | zero => intro it d; simp [cellsLoop]
  | succ k ih =>
      intro it d
      cases it with
      | nil =>
          simp only [cellsLoop]
          split
          · simp
          · rw [ih]; simp
      | cons v it => simp only [cellsLoop, ih]; simp

theorem linesLoop_good (size : Nat) (hs : 1 ≤ size) (hs2 : size ≤ 8) (prompt indent : Str)
    (fuel : Nat) : ∀ (i : Nat) (it : List Int) (d : Stream),
    Start d.fmt (if i ≠ 0 then indent else prompt) → i + 16 * fuel = 16016 → i % 16 = 0 →
    (i = 0 ∨ (it ≠ [] ∧ i < maxelem)) →
    ∃ d' body, linesLoop size prompt indent fuel i it d = .ok (d', it.drop (16000 - i)) ∧
      Body (2 * size) indent (if i ≠ 0 then indent else prompt) i
        ((it.take (16000 - i)).map (unsigned size)) body ∧
      d'.out = d.out ++ body ∧ d'.fmt = { d.fmt with width := 0 } := by
  have hmax : maxelem = 16000 := rfl
  induction fuel with
  | zero => intro i it d _ h1 _ h2; exfalso; rcases h2 with h2 | ⟨_, h2⟩ <;> omega
  | succ fuel ih =>
      intro i it d hst hf hm hgo
      have hi : i < 16000 := by rcases hgo with h | ⟨_, h⟩ <;> omega
      rw [linesLoop_eq, if_pos hgo.symm, cellsLoop_snd]
      obtain ⟨s, hline, e1, e2⟩ := oneLine_good size hs hs2 (if i ≠ 0 then indent else prompt) i
        (by omega) it d hst
      generalize oneLine size (if i ≠ 0 then indent else prompt) i it d = d1 at *
      have hG : Good d1.fmt := by rw [e2]; exact hst.good
      by_cases hmore : it.drop 16 ≠ [] ∧ i + 16 < 16000
      · obtain ⟨d', body, h1, h2, h3, h4⟩ := ih (i + 16) (it.drop 16) d1
          ⟨by rw [show ({ d1.fmt with width := 0 } : Fmt) = d1.fmt by rw [← hG.width]]; exact hG,
            by rw [hG.width]; omega⟩ (by omega) (by omega) (Or.inr (by rw [hmax]; exact hmore))
        rw [if_pos (by omega)] at h2
        have hlen : 16 < it.length := by
          have := hmore.1
          rw [ne_eq, List.drop_eq_nil_iff] at this
          omega
        refine ⟨d', s ++ body, ?_, ?_, by rw [h3, e1]; simp, by rw [h4, e2]⟩
        · rw [h1, List.drop_drop]
          congr 3; omega
        · have htake : it.take (16000 - i) = it.take 16 ++ (it.drop 16).take (16000 - (i + 16)) := by
            rw [show 16000 - i = 16 + (16000 - (i + 16)) by omega, List.take_add]
          rw [htake, List.map_append]
          refine .more (by simp; omega) ?_ hline h2
          intro hnil
          have := congrArg List.length hnil
          simp at this
          omega
      · obtain ⟨k, hk⟩ : ∃ k, fuel = k + 1 := ⟨fuel - 1, by omega⟩
        subst hk
        rw [linesLoop_eq, if_neg (fun h => h.elim (fun h => hmore (by rw [hmax] at h; exact h)) (by omega))]
        by_cases hd : it.drop 16 = []
        · have hlen : it.length ≤ 16 := List.drop_eq_nil_iff.1 hd
          refine ⟨d1, s, ?_, ?_, e1, e2⟩
          · rw [hd, List.drop_eq_nil_of_le (by omega)]
          · rw [List.take_of_length_le (by omega)]
            rw [List.take_of_length_le (by omega)] at hline
            exact .last (by simp; omega) hline
        · have hi2 : i = 15984 := by
            have : ¬ i + 16 < 16000 := fun h => hmore ⟨hd, h⟩
            omega
          subst hi2
          exact ⟨d1, s, rfl, .last (by simp <;> omega) hline, e1, e2⟩

theorem stream_good (size : Nat) (hs : 1 ≤ size) (hs2 : size ≤ 8) (dest : Stream)
    (data : List Int) (prompt : Str) (hadj : dest.fmt.adjust ≠ .left)
    (hbase : dest.fmt.showbase = false) (hup : dest.fmt.uppercase = false)
    (hw : dest.fmt.width ≤ prompt.length) :
    ∃ d text, hexdumpStream size dest data prompt = .ok d ∧ d.out = dest.out ++ text ∧
      IsDump size prompt data text ∧
      d.fmt = { dest.fmt with hex := true, fill := 48, width := 0 } := by
  obtain ⟨d', body, h1, h2, h3, h4⟩ := linesLoop_good size hs hs2 prompt
    (List.replicate prompt.length 32) 1001 0 data (dest.setHex.setFill 48)
    ⟨⟨rfl, hadj, hbase, hup, rfl, rfl⟩, hw⟩ (by omega) (by omega) (Or.inl rfl)
  simp only [ne_eq, not_true_eq_false, if_false, Nat.sub_zero] at h2 h1
  have hG : Good d'.fmt := by rw [h4]; exact ⟨rfl, hadj, hbase, hup, rfl, rfl⟩
  unfold hexdumpStream
  simp only [h1, Res.bind_ok]
  by_cases hlen : data.length > 16000
  · have hne : data.drop 16000 ≠ [] := by
      rw [ne_eq, List.drop_eq_nil_iff]; omega
    simp only [hne, ne_eq, not_false_eq_true, if_true]
    obtain ⟨e1, e2⟩ := putStr_good hG (List.replicate prompt.length 32)
    generalize d'.putStr (List.replicate prompt.length 32) = d2 at *
    obtain ⟨e3, e4⟩ := putStr_good (d := d2) (by rw [e2]; exact hG) (bytes "[output truncated...]\n")
    refine ⟨_, _, rfl, ?_, ⟨body, h2, rfl⟩, by rw [e4, e2, h4]; rfl⟩
    rw [e3, e1, h3, if_pos hlen]
    simp [Stream.setHex, Stream.setFill]
  · have hne : data.drop 16000 = [] := by
      rw [List.drop_eq_nil_iff]; omega
    simp only [hne, ne_eq, not_true_eq_false, if_false]
    refine ⟨_, _, rfl, ?_, ⟨body, h2, rfl⟩, by rw [h4]; rfl⟩
    rw [h3, if_neg hlen]
    simp [Stream.setHex, Stream.setFill]

/-- hexdump_stream on a stream in any formatting state without left adjustment, showbase and
uppercase, and without a pending width larger than the prompt: the text appended to the stream is
the dump of the data.  (Missing from the full claim: the other formatting states; see
`c22_left_violated`.) -/
theorem c22_stream_partial (size : Nat) (hs : 1 ≤ size) (hs2 : size ≤ 8) (dest : Stream)
    (data : List Int) (prompt : Str) (hadj : dest.fmt.adjust ≠ .left)
    (hbase : dest.fmt.showbase = false) (hup : dest.fmt.uppercase = false)
    (hw : dest.fmt.width ≤ prompt.length) :
    ∃ d text, hexdumpStream size dest data prompt = .ok d ∧ d.out = dest.out ++ text ∧
      IsDump size prompt data text := by
  obtain ⟨d, text, h1, h2, h3, _⟩ := stream_good size hs hs2 dest data prompt hadj hbase hup hw
  exact ⟨d, text, h1, h2, h3⟩

/-- hexdump() terminates and returns the dump of the data, for all data, element sizes and
prompts. -/
theorem c22_hexdump (size : Nat) (hs : 1 ≤ size) (hs2 : size ≤ 8) (data : List Int) (prompt : Str) :
    ∃ text, hexdump size data prompt = .ok text ∧ IsDump size prompt data text := by
  obtain ⟨d, text, h1, h2, h3⟩ := c22_stream_partial size hs hs2 Stream.fresh data prompt
    (by decide) rfl rfl (Nat.zero_le _)
  refine ⟨text, ?_, h3⟩
  unfold hexdump
  rw [h1, Res.bind_ok, h2]
  rfl

example : hexdump 1 [116, -61, 10] (bytes "x> ") = .ok (bytes
    "x> 000000: 74 c3 0a                                         t..\n") := by decide +kernel

example : hexdump 4 [0, 1, -0x300fffff] (bytes "") = .ok (bytes
    "000000: 00000000 00000001 cff00001 \n") := by decide +kernel

/-! ### reading back -/

theorem group_unique {w x y : Nat} {g h : Str} {s t : Str} (hg : Group w x g) (hh : Group w y h)
    (e : g ++ s = h ++ t) : x = y ∧ s = t := by
  obtain ⟨rfl, e2⟩ := List.append_inj e (hg.1.trans hh.1.symm)
  exact ⟨Text.hexNumeral_unique hg.2.2 _ hh.2.2, e2⟩

/-- A group does not begin with a character that is not a lower-case hexadecimal digit. -/
theorem group_head {w x : Nat} (hw : 1 ≤ w) {g : Str} (hg : Group w x g) {s t : Str} {c : UInt8}
    (hc : ¬ IsLowerHex c) (e : g ++ s = c :: t) : False := by
  match g, hg with
  | [], hg => have := hg.1; simp at this; omega
  | a :: g, hg =>
      simp only [List.cons_append, List.cons.injEq] at e
      exact hc (e.1 ▸ hg.2.1 a (by simp))

/-- Cells followed by something that does not begin with a digit can be read in only one way. -/
theorem cells_unique {w : Nat} (hw : 1 ≤ w) {xs : List Nat} {s : Str} (hx : Cells w xs s) :
    ∀ {ys : List Nat} {t : Str} {c d : UInt8} {u v : Str}, Cells w ys t →
      ¬ IsLowerHex c → ¬ IsLowerHex d → s ++ c :: u = t ++ d :: v → xs = ys ∧ c :: u = d :: v := by
  induction hx with
  | nil =>
      intro ys t c d u v hy hc hd e
      cases hy with
      | nil => exact ⟨rfl, by simpa using e⟩
      | cons hg ht => exact absurd (group_head hw hg hc (by simpa using e.symm)) id
  | cons hg hs ih =>
      intro ys t c d u v hy hc hd e
      cases hy with
      | nil => exact absurd (group_head hw hg hd (by simpa using e)) id
      | cons hg2 ht =>
          simp only [List.append_assoc] at e
          obtain ⟨e1, e2⟩ := group_unique hg hg2 e
          obtain ⟨e3, e4⟩ := ih ht hc hd (by simpa [show bytes " " = [32] by decide] using e2)
          exact ⟨by rw [e1, e3], e4⟩

theorem notHex_32 : ¬ IsLowerHex 32 := by unfold IsLowerHex; decide
theorem notHex_10 : ¬ IsLowerHex 10 := by unfold IsLowerHex; decide
theorem notHex_91 : ¬ IsLowerHex 91 := by unfold IsLowerHex; decide

theorem line_unique {w : Nat} (hw : 1 ≤ w) {lead : Str} {o : Nat} {xs ys : List Nat} {s t u v : Str}
    (hx : Line w lead o xs s) (hy : Line w lead o ys t) (e : s ++ u = t ++ v) : xs = ys ∧ u = v := by
  obtain ⟨f, a, hf, ha, rfl⟩ := hx
  obtain ⟨g, b, hg, hb, rfl⟩ := hy
  simp only [List.append_assoc, List.append_cancel_left_eq] at e
  obtain ⟨_, e⟩ := group_unique hf hg e
  rw [List.append_cancel_left_eq] at e
  by_cases h2 : w = 2
  · simp only [h2, if_true, show bytes " " = [32] by decide] at e
    have hrep : ∀ (n : Nat) (t : Str), ∃ r, List.replicate n (32 : UInt8) ++ [32] ++ t = 32 :: r := by
      intro n t
      cases n with
      | zero => exact ⟨t, by simp⟩
      | succ n => exact ⟨List.replicate n 32 ++ [32] ++ t, by simp [List.replicate_succ]⟩
    obtain ⟨r1, h3⟩ := hrep (3 * (16 - xs.length)) (xs.map shown ++ (bytes "\n" ++ u))
    obtain ⟨r2, h4⟩ := hrep (3 * (16 - ys.length)) (ys.map shown ++ (bytes "\n" ++ v))
    simp only [List.append_assoc] at e h3 h4
    rw [h3, h4] at e
    obtain ⟨e1, e2⟩ := cells_unique hw ha hb notHex_32 notHex_32 e
    rw [← h3, ← h4] at e2
    subst e1
    simp only [List.append_cancel_left_eq] at e2
    exact ⟨rfl, e2⟩
  · simp only [h2, if_false, List.nil_append, show bytes "\n" = [10] by decide,
      List.cons_append] at e
    obtain ⟨e1, e2⟩ := cells_unique hw ha hb notHex_10 notHex_10 e
    exact ⟨e1, by simpa using e2⟩

/-- What can follow the last line: nothing, or the truncation notice. -/
def Tail (indent : Str) (t : Str) : Prop := t = [] ∨ ∃ r, t = indent ++ 91 :: r

theorem tail_not_body {w : Nat} {indent : Str} {o : Nat} {ys : List Nat} {t u v : Str}
    (hu : Tail indent u) (hb : Body w indent indent o ys t) (e : u = t ++ v) : False := by
  have hl : ∃ off r, Group 6 o off ∧ t = indent ++ (off ++ r) := by
    cases hb with
    | last _ hl => obtain ⟨off, c, h1, _, rfl⟩ := hl; exact ⟨off, _, h1, by simp; rfl⟩
    | more _ _ hl _ => obtain ⟨off, c, h1, _, rfl⟩ := hl; exact ⟨off, _, h1, by simp; rfl⟩
  obtain ⟨off, r, hg, rfl⟩ := hl
  rcases hu with rfl | ⟨q, rfl⟩
  · have h1 := hg.1
    have h2 := congrArg List.length e
    simp at h2
    omega
  · simp only [List.append_assoc, List.append_cancel_left_eq] at e
    exact group_head (by omega) hg notHex_91 e.symm

theorem body_unique {w : Nat} (hw : 1 ≤ w) {indent lead : Str} {o : Nat} {xs : List Nat} {s : Str}
    (hx : Body w indent lead o xs s) : ∀ {ys : List Nat} {t u v : Str}, Body w indent lead o ys t →
    Tail indent u → Tail indent v → s ++ u = t ++ v → xs = ys ∧ u = v := by
  induction hx with
  | last h1 h2 =>
      intro ys t u v hy hu hv e
      cases hy with
      | last h3 h4 => exact line_unique hw h2 h4 e
      | more h3 h4 h5 h6 =>
          rw [List.append_assoc] at e
          obtain ⟨_, e2⟩ := line_unique hw h2 h5 e
          exact absurd (tail_not_body hu h6 e2) id
  | more h1 h2 h3 h4 ih =>
      intro ys t u v hy hu hv e
      cases hy with
      | last h5 h6 =>
          rw [List.append_assoc] at e
          obtain ⟨_, e2⟩ := line_unique hw h3 h6 e
          exact absurd (tail_not_body hv h4 e2.symm) id
      | more h5 h6 h7 h8 =>
          rw [List.append_assoc, List.append_assoc] at e
          obtain ⟨e1, e2⟩ := line_unique hw h3 h7 e
          obtain ⟨e3, e4⟩ := ih h8 hu hv e2
          exact ⟨by rw [e1, e3], e4⟩

/-- The text determines the elements: if two dumps with the same element size and prompt are the
same text, they show the same (at most 16000) elements, and either both or none was truncated. -/
theorem c22_read_back (size : Nat) (hs : 1 ≤ size) (prompt : Str) (xs ys : List Int) (text : Str)
    (hx : IsDump size prompt xs text) (hy : IsDump size prompt ys text) :
    (xs.take 16000).map (unsigned size) = (ys.take 16000).map (unsigned size) ∧
    (xs.length > 16000 ↔ ys.length > 16000) := by
  obtain ⟨b, h1, rfl⟩ := hx
  obtain ⟨c, h2, e⟩ := hy
  have htail : ∀ zs : List Int, Tail (List.replicate prompt.length 32)
      (if zs.length > 16000 then List.replicate prompt.length 32 ++ bytes "[output truncated...]\n"
        else []) := by
    intro zs
    split
    · exact Or.inr ⟨bytes "output truncated...]\n", by
        rw [show bytes "[output truncated...]\n" = 91 :: bytes "output truncated...]\n" by decide]⟩
    · exact Or.inl rfl
  obtain ⟨e1, e2⟩ := body_unique (by omega) h1 h2 (htail xs) (htail ys) e
  refine ⟨e1, ?_⟩
  have hlen : (bytes "[output truncated...]\n").length = 22 := by decide
  constructor
  · intro hgt
    rw [if_pos hgt] at e2
    by_cases h : ys.length > 16000
    · exact h
    · rw [if_neg h] at e2
      have := congrArg List.length e2
      simp [hlen] at this
  · intro hgt
    rw [if_pos hgt] at e2
    by_cases h : xs.length > 16000
    · exact h
    · rw [if_neg h] at e2
      have := congrArg List.length e2
      simp [hlen] at this

/-- On a stream with left adjustment elements cannot be told apart: the 16-bit numbers 0x0005 and
0x5000 are written alike. -/
theorem c22_left_violated :
    ∃ (dest : Stream) (xs ys : List Int),
      dest.fmt = { Stream.fresh.fmt with adjust := .left } ∧
      xs.map (unsigned 2) ≠ ys.map (unsigned 2) ∧ xs.length = 1 ∧ ys.length = 1 ∧
      hexdumpStream 2 dest xs [] = hexdumpStream 2 dest ys [] :=
  ⟨⟨{ Stream.fresh.fmt with adjust := .left }, []⟩, [0x0005], [0x5000], rfl, by decide, rfl, rfl,
    by decide +kernel⟩

/-- After hexdump_stream the stream stays in hexadecimal mode with fill character '0' whatever it was
before; the rest of its formatting state is unchanged and the width is used up. -/
theorem c22_stream_state (size : Nat) (hs : 1 ≤ size) (hs2 : size ≤ 8) (dest : Stream)
    (data : List Int) (prompt : Str) (hadj : dest.fmt.adjust ≠ .left)
    (hbase : dest.fmt.showbase = false) (hup : dest.fmt.uppercase = false)
    (hw : dest.fmt.width ≤ prompt.length) :
    ∃ d, hexdumpStream size dest data prompt = .ok d ∧
      d.fmt = { dest.fmt with hex := true, fill := 48, width := 0 } := by
  obtain ⟨d, text, h1, _, _, h4⟩ := stream_good size hs hs2 dest data prompt hadj hbase hup hw
  exact ⟨d, h1, h4⟩

end Gul14.Hexdump
