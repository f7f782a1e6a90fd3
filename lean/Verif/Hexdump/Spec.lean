import Verif.Text.Spec

/-! Independent description of a hexdump. -/
namespace Gul14.Spec.Dump

/-- The number `n` written with exactly `w` lower-case hexadecimal digits. -/
def Group (w n : Nat) (g : Str) : Prop :=
  g.length = w ∧ (∀ c ∈ g, IsLowerHex c) ∧ HexNumeral g n

/-- The elements `xs` in order, each as a group followed by a space. -/
inductive Cells (w : Nat) : List Nat → Str → Prop
  | nil : Cells w [] []
  | cons {x xs g t} : Group w x g → Cells w xs t → Cells w (x :: xs) (g ++ bytes " " ++ t)

/-- How an element of a character dump is shown in the text column: printable ASCII characters as
they are, everything else as a dot. -/
def shown (x : Nat) : UInt8 := if 32 ≤ x ∧ x < 127 then UInt8.ofNat x else 46

/-- One line: lead (prompt or indentation), offset of the first element, the elements; for elements
of one byte the missing cells are blank and the characters follow. -/
def Line (w : Nat) (lead : Str) (offset : Nat) (xs : List Nat) (s : Str) : Prop :=
  ∃ off cells, Group 6 offset off ∧ Cells w xs cells ∧
    s = lead ++ off ++ bytes ": " ++ cells ++
      (if w = 2 then List.replicate (3 * (16 - xs.length)) 32 ++ bytes " " ++ xs.map shown else [])
      ++ bytes "\n"

/-- All lines: sixteen elements on each line but the last one. -/
inductive Body (w : Nat) (indent : Str) : Str → Nat → List Nat → Str → Prop
  | last {lead offset xs s} : xs.length ≤ 16 → Line w lead offset xs s →
      Body w indent lead offset xs s
  | more {lead offset xs ys s t} : xs.length = 16 → ys ≠ [] → Line w lead offset xs s →
      Body w indent indent (offset + 16) ys t → Body w indent lead offset (xs ++ ys) (s ++ t)

/-- The elements as unsigned numbers of `size` bytes. -/
def unsigned (size : Nat) (v : Int) : Nat := (v % (2 ^ (8 * size) : Nat)).toNat

/-- The dump of `data`, whose elements have `size` bytes. -/
def IsDump (size : Nat) (prompt : Str) (data : List Int) (text : Str) : Prop :=
  ∃ body, Body (2 * size) (List.replicate prompt.length 32) prompt 0
      ((data.take 16000).map (unsigned size)) body ∧
    text = body ++ (if data.length > 16000 then
      List.replicate prompt.length 32 ++ bytes "[output truncated...]\n" else [])

end Gul14.Spec.Dump
