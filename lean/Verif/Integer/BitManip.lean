import Verif.Basic

/-!
# bit_set, bit_reset, bit_flip, bit_test (include/gul14/bit_manip.h)

A value of an integer type of `w` bits is a bit vector of length `w` together with the signedness
of its type.  Operands narrower than `int` (32 bits) are promoted: sign-extended if signed,
zero-extended if unsigned; the result is converted back to the type.  Assertions are enabled: a
failing one is the outcome `terminate`.
-/
namespace Gul14.BitManip

/-- Integral promotion of a value of a `w`-bit type. Integral promotion in the expressions of
bit_manip.h:120-220. -/
def promote (signed : Bool) {w : Nat} (x : BitVec w) : BitVec (max w 32) :=
  if signed then x.signExtend (max w 32) else x.setWidth (max w 32)

/-- bit_set<T>(bit), bit_manip.h:120-124.  The shifted one is unsigned (make_unsigned_t). -/
def mask (w : Nat) (bit : Nat) : Res (BitVec w) :=
  if bit < w then .ok ((promote false (1#w) <<< bit).setWidth w) else .terminate

/-- bit_set(previous, bit), bit_manip.h:146-149. -/
def bitSet (signed : Bool) {w : Nat} (previous : BitVec w) (bit : Nat) : Res (BitVec w) :=
  (mask w bit).map fun m => (promote signed previous ||| promote signed m).setWidth w

/-- bit_reset(previous, bit), bit_manip.h:171-174. -/
def bitReset (signed : Bool) {w : Nat} (previous : BitVec w) (bit : Nat) : Res (BitVec w) :=
  (mask w bit).map fun m => (promote signed previous &&& ~~~(promote signed m)).setWidth w

/-- bit_flip(previous, bit), bit_manip.h:198-201. -/
def bitFlip (signed : Bool) {w : Nat} (previous : BitVec w) (bit : Nat) : Res (BitVec w) :=
  (mask w bit).map fun m => (promote signed previous ^^^ promote signed m).setWidth w

/-- bit_test(bits, bit), bit_manip.h:223-226: conversion of the promoted conjunction to bool. -/
def bitTest (signed : Bool) {w : Nat} (bits : BitVec w) (bit : Nat) : Res Bool :=
  (mask w bit).map fun m => decide (promote signed bits &&& promote signed m ≠ 0#(max w 32))

theorem promote_bit (s : Bool) {w : Nat} (x : BitVec w) {i : Nat} (hi : i < w) :
    (promote s x).getLsbD i = x.getLsbD i := by
  unfold promote
  split
  · rw [BitVec.getLsbD_signExtend]
    simp [hi]; omega
  · rw [BitVec.getLsbD_setWidth]
    simp; omega

theorem mask_ok {w bit : Nat} (h : bit < w) :
    ∃ m, mask w bit = .ok m ∧ ∀ i, i < w → m.getLsbD i = decide (i = bit) := by
  refine ⟨_, by unfold mask; rw [if_pos h], ?_⟩
  intro i hi
  rw [BitVec.getLsbD_setWidth, BitVec.getLsbD_shiftLeft]
  by_cases hib : i < bit
  · simp [hib]; omega
  · have hlt : i - bit < w := by omega
    rw [promote_bit false _ hlt]
    simp [hi, hib]
    by_cases he : i = bit
    · subst he; simp; omega
    · simp [he]; omega

/-- The mask has exactly the requested bit set. -/
theorem c39_mask (w bit : Nat) (h : bit < w) :
    ∃ m, mask w bit = .ok m ∧ ∀ i, i < w → m.getLsbD i = decide (i = bit) := mask_ok h

/-- bit_set sets the requested bit and leaves every other bit alone. -/
theorem c39_bit_set (signed : Bool) (w : Nat) (x : BitVec w) (bit : Nat) (h : bit < w) :
    ∃ y, bitSet signed x bit = .ok y ∧
      ∀ i, i < w → y.getLsbD i = if i = bit then true else x.getLsbD i := by
  obtain ⟨m, hm, hb⟩ := mask_ok h
  refine ⟨_, by unfold bitSet; rw [hm]; rfl, ?_⟩
  intro i hi
  rw [BitVec.getLsbD_setWidth, BitVec.getLsbD_or, promote_bit _ _ hi, promote_bit _ _ hi, hb i hi]
  by_cases he : i = bit <;> simp [he, hi, h]

/-- bit_reset clears the requested bit and leaves every other bit alone. -/
theorem c39_bit_reset (signed : Bool) (w : Nat) (x : BitVec w) (bit : Nat) (h : bit < w) :
    ∃ y, bitReset signed x bit = .ok y ∧
      ∀ i, i < w → y.getLsbD i = if i = bit then false else x.getLsbD i := by
  obtain ⟨m, hm, hb⟩ := mask_ok h
  refine ⟨_, by unfold bitReset; rw [hm]; rfl, ?_⟩
  intro i hi
  rw [BitVec.getLsbD_setWidth, BitVec.getLsbD_and, BitVec.getLsbD_not, promote_bit _ _ hi,
    promote_bit _ _ hi, hb i hi]
  by_cases he : i = bit <;> simp [he, hi]
  omega

/-- bit_flip inverts the requested bit and leaves every other bit alone. -/
theorem c39_bit_flip (signed : Bool) (w : Nat) (x : BitVec w) (bit : Nat) (h : bit < w) :
    ∃ y, bitFlip signed x bit = .ok y ∧
      ∀ i, i < w → y.getLsbD i = if i = bit then !x.getLsbD i else x.getLsbD i := by
  obtain ⟨m, hm, hb⟩ := mask_ok h
  refine ⟨_, by unfold bitFlip; rw [hm]; rfl, ?_⟩
  intro i hi
  rw [BitVec.getLsbD_setWidth, BitVec.getLsbD_xor, promote_bit _ _ hi, promote_bit _ _ hi, hb i hi]
  by_cases he : i = bit <;> simp [he, hi, h]

/-- bit_test is the requested bit, also for the sign bit. -/
theorem c39_bit_test (signed : Bool) (w : Nat) (x : BitVec w) (bit : Nat) (h : bit < w) :
    bitTest signed x bit = .ok (x.getLsbD bit) := by
  obtain ⟨m, hm, hb⟩ := mask_ok h
  unfold bitTest
  rw [hm]
  simp only [Res.map_ok]
  congr 1
  by_cases hx : x.getLsbD bit = true
  · rw [hx, decide_eq_true_eq]
    intro he
    have := congrArg (fun v => v.getLsbD bit) he
    simp only [BitVec.getLsbD_and] at this
    rw [promote_bit _ _ h, promote_bit _ _ h, hb bit h, hx] at this
    simp at this
  · have hxf : x.getLsbD bit = false := by simpa using hx
    rw [hxf, decide_eq_false_iff_not, Decidable.not_not]
    apply BitVec.eq_of_getLsbD_eq
    intro i hi
    rw [BitVec.getLsbD_and]
    simp only [BitVec.getLsbD_zero]
    by_cases hiw : i < w
    · rw [promote_bit _ _ hiw, promote_bit _ _ hiw, hb i hiw]
      by_cases he : i = bit
      · subst he; simp [hxf]
      · simp [he]
    · -- a bit of the extension: the copy of the sign bit or zero
      unfold promote
      cases signed
      · simp only [Bool.false_eq_true, if_false]
        rw [BitVec.getLsbD_setWidth, BitVec.getLsbD_of_ge x i (by omega)]
        simp
      · simp only [if_true]
        rw [BitVec.getLsbD_signExtend, BitVec.getLsbD_signExtend]
        simp only [hiw, if_false, BitVec.msb_eq_getLsbD_last]
        rw [hb (w - 1) (by omega)]
        by_cases he : w - 1 = bit
        · rw [he, hxf]; simp
        · simp [he]

/-- A bit number outside the type aborts instead of computing. -/
theorem c39_out_of_range (signed : Bool) (w : Nat) (x : BitVec w) (bit : Nat) (h : w ≤ bit) :
    mask w bit = .terminate ∧ bitSet signed x bit = .terminate ∧
    bitReset signed x bit = .terminate ∧ bitFlip signed x bit = .terminate ∧
    bitTest signed x bit = .terminate := by
  have : mask w bit = .terminate := by unfold mask; rw [if_neg (by omega)]
  unfold bitSet bitReset bitFlip bitTest
  rw [this]
  exact ⟨rfl, rfl, rfl, rfl, rfl⟩

/-- What was set tests as set, what was reset tests as reset, flipping flips the test, and tests
of other bits are unchanged. -/
theorem c39_test_after (signed : Bool) (w : Nat) (x : BitVec w) (bit k : Nat) (h : bit < w)
    (hk : k < w) :
    ((bitSet signed x bit).bind fun y => bitTest signed y k) =
      .ok (if k = bit then true else x.getLsbD k) ∧
    ((bitReset signed x bit).bind fun y => bitTest signed y k) =
      .ok (if k = bit then false else x.getLsbD k) ∧
    ((bitFlip signed x bit).bind fun y => bitTest signed y k) =
      .ok (if k = bit then !x.getLsbD k else x.getLsbD k) := by
  obtain ⟨y, hy, by'⟩ := c39_bit_set signed w x bit h
  obtain ⟨z, hz, bz⟩ := c39_bit_reset signed w x bit h
  obtain ⟨u, hu, bu⟩ := c39_bit_flip signed w x bit h
  rw [hy, hz, hu]
  simp only [Res.bind_ok]
  rw [c39_bit_test signed w y k hk, c39_bit_test signed w z k hk, c39_bit_test signed w u k hk,
    by' k hk, bz k hk, bu k hk]
  exact ⟨rfl, rfl, rfl⟩

/-- Flipping twice restores the value. -/
theorem c39_flip_flip (signed : Bool) (w : Nat) (x : BitVec w) (bit : Nat) (h : bit < w) :
    ((bitFlip signed x bit).bind fun y => bitFlip signed y bit) = .ok x := by
  obtain ⟨u, hu, bu⟩ := c39_bit_flip signed w x bit h
  rw [hu]
  simp only [Res.bind_ok]
  obtain ⟨v, hv, bv⟩ := c39_bit_flip signed w u bit h
  rw [hv]
  congr 1
  apply BitVec.eq_of_getLsbD_eq
  intro i hi
  rw [bv i hi, bu i hi]
  split <;> simp

example : bitSet true (5#8) 7 = .ok (-123#8) ∧ bitReset true (-1#16) 15 = .ok (32767#16) ∧
    bitTest true (-128#8) 7 = .ok true ∧ bitFlip false (255#8) 0 = .ok (254#8) ∧
    mask 64 63 = .ok (BitVec.ofNat 64 (2 ^ 63)) ∧ mask 8 8 = .terminate := by
  decide +kernel

end Gul14.BitManip
