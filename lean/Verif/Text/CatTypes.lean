import Verif.Text.Model

/-!
# cat: which constructor is used for which arithmetic type, include/gul14/cat.h:51-63

Overload resolution among the constructors of ConvertingStringView for an argument of an arithmetic type.  The
constructors for strings are not viable for these (cat.h:51-53; the literal 0 is of type int, for which there is an exact
match).  The sizes of the types are those of 64-bit Linux.
-/
namespace Gul14.Text.CatTypes

/-- The arithmetic types of C++14. -/
inductive Ty where
  | bool | char | schar | uchar | wchar | char16 | char32 | short | ushort | int | uint | long | ulong | llong | ullong
  | float | double | longDouble
  deriving DecidableEq, Repr

/-- The least and the greatest value of an integral type; char is signed. -/
def Ty.range : Ty → Option (Int × Int)
  | .bool => some (0, 1)
  | .char | .schar => some (-2 ^ 7, 2 ^ 7 - 1)
  | .uchar => some (0, 2 ^ 8 - 1)
  | .short => some (-2 ^ 15, 2 ^ 15 - 1)
  | .ushort | .char16 => some (0, 2 ^ 16 - 1)
  | .int | .wchar => some (-2 ^ 31, 2 ^ 31 - 1)
  | .uint | .char32 => some (0, 2 ^ 32 - 1)
  | .long | .llong => some (-2 ^ 63, 2 ^ 63 - 1)
  | .ulong | .ullong => some (0, 2 ^ 64 - 1)
  | .float | .double | .longDouble => none

/-- Integral promotions and the floating-point promotion. C++ standard, [conv.prom] and [conv.fpprom]; no code in
/repo. -/
def Ty.promoted : Ty → Ty
  | .bool | .char | .schar | .uchar | .wchar | .char16 | .short | .ushort => .int
  | .char32 => .uint
  | .float => .double
  | t => t

/-- The rank of the conversion: 0 exact match, 1 promotion, 2 conversion. C++ standard, [over.ics.scs]; no code in
/repo. -/
def rank (src dst : Ty) : Nat := if src = dst then 0 else if src.promoted = dst then 1 else 2

/-- The parameters of the constructors, cat.h:55-63. -/
def constructors : List Ty := [.char, .int, .uint, .long, .ulong, .llong, .ullong, .float, .double]

/-- The constructor that is better than all others, if there is one. -/
def resolve (t : Ty) : Option Ty :=
  match constructors.filter (rank t · = 0), constructors.filter (rank t · ≤ 1), constructors with
  | [c], _, _ => some c
  | [], [c], _ => some c
  | [], [], [c] => some c
  | _, _, _ => none

/-- Conversion to an integral type: modulo 2^N, as all compilers do. -/
def convert (dst : Ty) (v : Int) : Int :=
  match dst.range with
  | some (lo, hi) => (v - lo) % (hi - lo + 1) + lo
  | none => v

/-- cat of one argument of an integral type with the value `v`: the argument that the constructor makes of it; `none`:
the call is ambiguous. -/
def intArg (t : Ty) (v : Int) : Option Arg :=
  match resolve t with
  | some .char => some (.chr (UInt8.ofNat (convert .char v % 256).toNat))
  | some .float | some .double => some (.flt (decide (v < 0)) (.num |(v : ℚ)|))
  | some c => some (.int (convert c v))
  | none => none

/-- The same for a floating-point type. -/
def fltArg (t : Ty) (neg : Bool) (x : Magnitude) : Option Arg :=
  match resolve t with
  | some .float | some .double => some (.flt neg x)
  | _ => none

/-! ## The property -/

/-- Every integer of a type other than char, however small the type is, and every bool and wide character, is shown as
the decimal number. -/
theorem c128_integers (t : Ty) (lo hi v : Int) (ht : t.range = some (lo, hi)) (hc : t ≠ .char) (h1 : lo ≤ v)
    (h2 : v ≤ hi) : ∃ a, intArg t v = some a ∧ cat [a] = toString v := by
  have key : intArg t v = some (.int v) := by
    cases t <;>
      simp only [Ty.range, Option.some.injEq, Prod.mk.injEq, reduceCtorEq, ne_eq, not_true_eq_false] at ht hc
    all_goals
      obtain ⟨rfl, rfl⟩ := ht
      have e : ∀ c d, resolve c = some d → d ≠ .char → d ≠ .float → d ≠ .double →
          intArg c v = some (.int (convert d v)) := by
        intro c d h q1 q2 q3
        unfold intArg
        rw [h]
        cases d <;> simp_all
    · rw [e .bool .int (by decide) (by decide) (by decide) (by decide)]; simp [convert, Ty.range]; omega
    · rw [e .schar .int (by decide) (by decide) (by decide) (by decide)]; simp [convert, Ty.range]; omega
    · rw [e .uchar .int (by decide) (by decide) (by decide) (by decide)]; simp [convert, Ty.range]; omega
    · rw [e .wchar .int (by decide) (by decide) (by decide) (by decide)]; simp [convert, Ty.range]; omega
    · rw [e .char16 .int (by decide) (by decide) (by decide) (by decide)]; simp [convert, Ty.range]; omega
    · rw [e .char32 .uint (by decide) (by decide) (by decide) (by decide)]; simp [convert, Ty.range]; omega
    · rw [e .short .int (by decide) (by decide) (by decide) (by decide)]; simp [convert, Ty.range]; omega
    · rw [e .ushort .int (by decide) (by decide) (by decide) (by decide)]; simp [convert, Ty.range]; omega
    · rw [e .int .int (by decide) (by decide) (by decide) (by decide)]; simp [convert, Ty.range]; omega
    · rw [e .uint .uint (by decide) (by decide) (by decide) (by decide)]; simp [convert, Ty.range]; omega
    · rw [e .long .long (by decide) (by decide) (by decide) (by decide)]; simp [convert, Ty.range]; omega
    · rw [e .ulong .ulong (by decide) (by decide) (by decide) (by decide)]; simp [convert, Ty.range]; omega
    · rw [e .llong .llong (by decide) (by decide) (by decide) (by decide)]; simp [convert, Ty.range]; omega
    · rw [e .ullong .ullong (by decide) (by decide) (by decide) (by decide)]; simp [convert, Ty.range]; omega
  exact ⟨.int v, key, rfl⟩

/-- A char is shown as this character. -/
theorem c128_char (v : Int) (h1 : -128 ≤ v) (h2 : v ≤ 127) :
    ∃ a c, intArg .char v = some a ∧ cat [a] = [c] ∧ (c.toNat : Int) = v % 256 := by
  refine ⟨.chr (UInt8.ofNat (v % 256).toNat), UInt8.ofNat (v % 256).toNat, ?_, rfl, ?_⟩
  · have e : convert .char v = v := by simp [convert, Ty.range]; omega
    have r : resolve .char = some .char := by decide
    simp only [intArg, r, e]
  · have : (v % 256).toNat < 256 := by omega
    rw [UInt8.toNat_ofNat', Nat.mod_eq_of_lt (by simpa using this)]
    omega

/-- A float or a double is shown as the number in fixed notation (see C15 for the text). -/
theorem c128_floats (t : Ty) (ht : t = .float ∨ t = .double) (neg : Bool) (x : Magnitude) :
    fltArg t neg x = some (.flt neg x) := by
  have r1 : resolve .float = some .float := by decide
  have r2 : resolve .double = some .double := by decide
  rcases ht with rfl | rfl
  · simp only [fltArg, r1]
  · simp only [fltArg, r2]

/-- Violated: cat of a long double does not compile, because the nine constructors for numbers and char are equally
good; std::to_string has an overload for this type. -/
theorem c128_long_double_violated (neg : Bool) (x : Magnitude) : fltArg .longDouble neg x = none := by
  have r : resolve .longDouble = none := by decide
  simp only [fltArg, r]

/-! ## Examples -/

example : ((intArg .uchar 65).map fun a => cat [a]) = some (bytes "65") := by decide +kernel
example : ((intArg .char 65).map fun a => cat [a]) = some (bytes "A") := by decide +kernel
example : ((intArg .bool 1).map fun a => cat [a]) = some (bytes "1") := by decide +kernel
example : ((intArg .schar (-1)).map fun a => cat [a]) = some (bytes "-1") := by decide +kernel
example : ((intArg .char32 4000000000).map fun a => cat [a]) = some (bytes "4000000000") := by decide +kernel
example : Ty.range .short = some (-32768, 32767) := by decide +kernel

end Gul14.Text.CatTypes
