import Verif.Stream

/-!
# hexdump, include/gul14/hexdump.h

Elements are the mathematical values of an integral type of `size` bytes (1, 2, 4 or 8).
-/
namespace Gul14.Hexdump

/-- hexdump.h:128. -/
def maxelem : Nat := 1000 * 16

/-- static_cast<make_unsigned<...>>(*it), hexdump.h:146-150. -/
def toUnsigned (size : Nat) (v : Int) : Nat := (v % ((256 ^ size : Nat) : Int)).toNat

/-- Inner loop, hexdump.h:144-158: `k` = 16 - j more cells; returns the advanced iterator. -/
def cellsLoop (size : Nat) : Nat → List Int → Stream → Stream × List Int
  | 0, it, d => (d, it)
  | k + 1, v :: it, d =>
      cellsLoop size k it (((d.setw (size * 2)).putUInt (toUnsigned size v)).putStr [32])
  | k + 1, [], d =>
      if size * 2 ≠ 2 then (d, [])
      else cellsLoop size k [] (d.putStr (List.replicate (size * 2 + 1) 32))

/-- isprint in the "C" locale. std::isprint in the C locale, used in hexdump.h:166. -/
def isprint (c : Nat) : Bool := 32 ≤ c && c ≤ 126

/-- Text column, hexdump.h:163-166. -/
def textLoop : Nat → List Int → Stream → Stream
  | 0, _, d => d
  | _ + 1, [], d => d
  | k + 1, v :: line, d =>
      let c := toUnsigned 1 v
      textLoop k line (d.putStr [UInt8.ofNat (if isprint c then c else 46)])

/-- Outer loop, hexdump.h:141-169. -/
def linesLoop (size : Nat) (prompt indent : Str) :
    Nat → Nat → List Int → Stream → Res (Stream × List Int)
  | 0, _, _, _ => .diverge
  | fuel + 1, i, it, d =>
      if (it ≠ [] ∧ i < maxelem) ∨ i = 0 then
        let d := (((d.putView (if i ≠ 0 then indent else prompt)).setw 6).putUInt i).putStr
          (bytes ": ")
        let (d, it') := cellsLoop size 16 it d
        let d := if size * 2 = 2 then textLoop 16 it (d.putStr [32]) else d
        linesLoop size prompt indent fuel (i + 16) it' (d.putStr (bytes "\n"))
      else .ok (d, it)

/-- detail::hexdump_stream, hexdump.h:126-174. -/
def hexdumpStream (size : Nat) (dest : Stream) (data : List Int) (prompt : Str) : Res Stream :=
  let indent := List.replicate prompt.length 32
  (linesLoop size prompt indent 1001 0 data (dest.setHex.setFill 48)).bind fun (d, it) =>
    .ok (if it ≠ [] then (d.putStr indent).putStr (bytes "[output truncated...]\n") else d)

/-- hexdump, hexdump.h:218-223 and 236-241: a fresh string stream. -/
def hexdump (size : Nat) (data : List Int) (prompt : Str) : Res Str :=
  (hexdumpStream size Stream.fresh data prompt).bind fun d => .ok d.out

end Gul14.Hexdump
