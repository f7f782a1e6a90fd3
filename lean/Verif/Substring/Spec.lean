import Verif.Basic

namespace Gul14.Spec

/-- ASCII lower-casing of one byte: 'A'..'Z' (65..90) become 'a'..'z' (97..122). -/
def asciiLower (c : UInt8) : UInt8 :=
  if 65 ≤ c.toNat ∧ c.toNat ≤ 90 then UInt8.ofNat (c.toNat + 32) else c

/-- ASCII upper-casing of one byte. -/
def asciiUpper (c : UInt8) : UInt8 :=
  if 97 ≤ c.toNat ∧ c.toNat ≤ 122 then UInt8.ofNat (c.toNat - 32) else c

/-- Two strings are equal up to the case of ASCII letters. -/
def SameNocase (s t : Str) : Prop := s.map asciiLower = t.map asciiLower

end Gul14.Spec
