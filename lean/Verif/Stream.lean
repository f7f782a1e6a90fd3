import Verif.Basic

/-!
# Formatted output streams

The part of std::ostream that the library uses: the formatting state, insertion of characters,
strings and unsigned integers as the C++ standard defines them, and the library's own inserter for
string views.  The stream is good all the time (write errors are not modelled).
-/
namespace Gul14

/-- The adjustfield of a stream. -/
inductive Adjust where
  | left | right | internal
  deriving DecidableEq, Repr

/-- The formatting state of a stream. -/
structure Fmt where
  hex : Bool
  adjust : Adjust
  showbase : Bool
  uppercase : Bool
  fill : UInt8
  width : Nat
  deriving DecidableEq, Repr

/-- A stream: its formatting state and everything written so far. -/
structure Stream where
  fmt : Fmt
  out : Str
  deriving DecidableEq, Repr

namespace Stream

/-- A newly constructed stream. -/
def fresh : Stream := ⟨⟨false, .right, false, false, 32, 0⟩, []⟩

def write (d : Stream) (s : Str) : Stream := { d with out := d.out ++ s }
def setw (d : Stream) (w : Nat) : Stream := { d with fmt := { d.fmt with width := w } }
def setHex (d : Stream) : Stream := { d with fmt := { d.fmt with hex := true } }
def setFill (d : Stream) (c : UInt8) : Stream := { d with fmt := { d.fmt with fill := c } }

/-- Insertion of a char, a C string or a std::string (C++ standard, [ostream.inserters.character],
[string.io]): padded to the width, which is then reset. -/
def putStr (d : Stream) (s : Str) : Stream :=
  let padding := List.replicate (d.fmt.width - s.length) d.fmt.fill
  (d.write (if d.fmt.adjust = .left then s ++ padding else padding ++ s)).setw 0

/-- One hexadecimal digit. -/
def digit (upper : Bool) (n : Nat) : UInt8 :=
  if n < 10 then UInt8.ofNat (48 + n)
  else if upper then UInt8.ofNat (55 + n) else UInt8.ofNat (87 + n)

/-- The digits of `n` in the given base, most significant first, no leading zeros. -/
def digits (upper : Bool) (base : Nat) : Nat → Nat → Str
  | 0, _ => []
  | k + 1, n => if n < base then [digit upper n]
      else digits upper base k (n / base) ++ [digit upper (n % base)]

/-- Insertion of an unsigned integer (C++ standard, [facet.num.put.virtuals]); 64 digits suffice for
every integer type. -/
def putUInt (d : Stream) (n : Nat) : Stream :=
  let body := digits d.fmt.uppercase (if d.fmt.hex then 16 else 10) 64 n
  let sign := if d.fmt.showbase && d.fmt.hex && n != 0 then
      (if d.fmt.uppercase then bytes "0X" else bytes "0x") else []
  let padding := List.replicate (d.fmt.width - (sign.length + body.length)) d.fmt.fill
  let s := match d.fmt.adjust with
    | .left => sign ++ body ++ padding
    | .right => padding ++ sign ++ body
    | .internal => sign ++ padding ++ body
  (d.write s).setw 0

/-- sv_insert_fill_chars, string_view.h:568-576: chunks of eight. -/
def insertFillChars (d : Stream) (n : Nat) : Nat → Stream
  | 0 => d
  | fuel + 1 =>
      if n ≥ 8 then insertFillChars (d.write (List.replicate 8 d.fmt.fill)) (n - 8) fuel
      else if n > 0 then d.write (List.replicate n d.fmt.fill) else d

/-- sv_insert_aligned, string_view.h:578-595. -/
def insertAligned (d : Stream) (s : Str) : Stream :=
  let alignmentSize := d.fmt.width - s.length
  if d.fmt.adjust ≠ .left then
    (insertFillChars d alignmentSize (alignmentSize / 8 + 1)).write s
  else
    insertFillChars (d.write s) alignmentSize (alignmentSize / 8 + 1)

/-- operator<< for string views, string_view.h:600-614. -/
def putView (d : Stream) (s : Str) : Stream :=
  let d := if d.fmt.width ≤ s.length then d.write s else insertAligned d s
  d.setw 0

@[simp] theorem setw_fmt_fill (d : Stream) (w : Nat) : (d.setw w).fmt.fill = d.fmt.fill := rfl

theorem insertFillChars_eq (fuel : Nat) : ∀ (d : Stream) (n : Nat), n < 8 * fuel →
    insertFillChars d n fuel = d.write (List.replicate n d.fmt.fill) := by
  induction fuel with
  | zero => intro d n h; omega
  | succ k ih =>
      intro d n h
      unfold insertFillChars
      split
      · rw [ih _ _ (by omega)]
        simp only [write]
        congr 1
        rw [List.append_assoc, List.replicate_append_replicate]
        congr 2; omega
      · split
        · rfl
        · have : n = 0 := by omega
          subst this
          simp [write]

/-- A string view is written to a stream like a std::string of the same characters, for every width,
fill character, adjustment and view, and the width is reset. -/
theorem c68_insert_view (d : Stream) (s : Str) : d.putView s = d.putStr s := by
  unfold putView putStr insertAligned
  have h1 : d.fmt.width - s.length < 8 * ((d.fmt.width - s.length) / 8 + 1) := by omega
  simp only
  rw [insertFillChars_eq _ _ _ h1, insertFillChars_eq _ _ _ h1]
  split
  · rename_i h
    have : d.fmt.width - s.length = 0 := by omega
    simp [this]
  · by_cases hl : d.fmt.adjust = .left <;> simp [hl, write, setw]

/-- Inserting a string or a view: what is appended has length max(width, length), consists of the
string and fill characters on one side, and the next insertion is not padded. -/
theorem c68_padding (d : Stream) (s : Str) : ∃ l r : Str,
    (d.putView s).out = d.out ++ l ++ s ++ r ∧ (∀ c ∈ l ++ r, c = d.fmt.fill) ∧
    l.length + s.length + r.length = max d.fmt.width s.length ∧
    (d.fmt.adjust = .left → l = []) ∧ (d.fmt.adjust ≠ .left → r = []) ∧
    (d.putView s).fmt = { d.fmt with width := 0 } := by
  rw [c68_insert_view]
  by_cases hl : d.fmt.adjust = .left
  · refine ⟨[], List.replicate (d.fmt.width - s.length) d.fmt.fill, ?_, ?_, ?_, ?_, ?_, ?_⟩
    · simp [putStr, hl, write, setw]
    · intro c hc; exact List.eq_of_mem_replicate (by simpa using hc)
    · simp; omega
    · simp
    · simp [hl]
    · rfl
  · refine ⟨List.replicate (d.fmt.width - s.length) d.fmt.fill, [], ?_, ?_, ?_, ?_, ?_, ?_⟩
    · simp [putStr, hl, write, setw]
    · intro c hc; exact List.eq_of_mem_replicate (by simpa using hc)
    · simp; omega
    · simp [hl]
    · simp
    · rfl

example : ((fresh.setw 20).putView (bytes "abc")).out = List.replicate 17 32 ++ bytes "abc" := by
  decide +kernel

end Stream
end Gul14
