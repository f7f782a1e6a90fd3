import Verif.Ieee.Error

/-!
# The alternative that a converting constructor or assignment of variant takes (C104)

Sizes of types as on 64-bit Unix systems with a signed char.
-/
namespace Gul14.Spec.Choice
open Gul14.Ieee

/-- The arithmetic types. -/
inductive Arith where
  | bool | char | schar | uchar | wchar | char16 | char32 | short | ushort | int | uint | long | ulong | llong | ullong
  | float | double | ldouble
  deriving DecidableEq, Repr

/-- The least and the greatest value of an integer type. -/
def Arith.bounds : Arith → Option (Int × Int)
  | .bool => some (0, 1)
  | .char | .schar => some (-2 ^ 7, 2 ^ 7 - 1)
  | .uchar => some (0, 2 ^ 8 - 1)
  | .short => some (-2 ^ 15, 2 ^ 15 - 1)
  | .ushort | .char16 => some (0, 2 ^ 16 - 1)
  | .int | .wchar => some (-2 ^ 31, 2 ^ 31 - 1)
  | .uint | .char32 => some (0, 2 ^ 32 - 1)
  | .long | .llong => some (-2 ^ 63, 2 ^ 63 - 1)
  | .ulong | .ullong => some (0, 2 ^ 64 - 1)
  | .float | .double | .ldouble => none

/-- The format of a floating-point type (not used for integer types). -/
def Arith.format : Arith → Format
  | .float => binary32
  | .double => binary64
  | _ => extended

/-- `x` is one of the (finite) values of the type. -/
def Arith.Has (t : Arith) (x : ℚ) : Prop :=
  match t.bounds with
  | some (lo, hi) => ∃ n : Int, x = n ∧ lo ≤ n ∧ n ≤ hi
  | none => t.format.Rep x

/-- Both are integer types, or both are floating-point types. -/
def SameKind (a t : Arith) : Prop := a.bounds.isSome = t.bounds.isSome

/-- A type that can take over all values of `a`: it is of the same kind and has all these values; only a bool becomes
a bool. -/
def Fits (a t : Arith) : Prop := SameKind a t ∧ (∀ x, a.Has x → t.Has x) ∧ (t = .bool → a = .bool)

/-- Promotions, [conv.prom] and [conv.fpprom]: float becomes double; bool and the types of characters and short integers
become int if int has all their values, otherwise unsigned int. -/
def Promotes (a t : Arith) : Prop :=
  (a = .float ∧ t = .double) ∨
  (a ∈ [.bool, .char, .schar, .uchar, .short, .ushort, .wchar, .char16, .char32] ∧
    (t = .int ∧ Fits a .int ∨ t = .uint ∧ Fits a .uint ∧ ¬ Fits a .int))

/-- `t` is better than `t'` for the numbers of type `a`: the type itself is better than all others, and the type to which
it is promoted is better than all but the type itself. -/
def Better (a t t' : Arith) : Prop := t' ≠ a ∧ (t = a ∨ Promotes a t ∧ ¬ Promotes a t')

end Gul14.Spec.Choice

namespace Gul14.Var
open Gul14.Ieee Gul14.Spec.Choice

/-- An alternative: an arithmetic type or another one. -/
inductive Ty where
  | arith (t : Arith)
  | other (k : Nat)
  deriving DecidableEq, Repr

/-- Ranks of implicit conversion sequences, [over.ics.scs] and [over.ics.rank], with user-defined conversions as the
last one.  The rules that compare conversions of the same rank (references, pointers to derived classes) are left out:
such conversions count as equally good. -/
inductive Rank where
  | exact | promotion | conversion | user
  deriving DecidableEq, Repr

def Rank.toNat : Rank → Nat
  | .exact => 0
  | .promotion => 1
  | .conversion => 2
  | .user => 3

/-- The type to which a type is promoted, [conv.prom] and [conv.fpprom]. -/
def promoted : Arith → Option Arith
  | .bool | .char | .schar | .uchar | .short | .ushort | .char16 | .wchar => some .int
  | .char32 => some .uint
  | .float => some .double
  | _ => none

/-- The rank of the conversion between arithmetic types. -/
def rank (a t : Arith) : Rank :=
  if a = t then .exact else if promoted a = some t then .promotion else .conversion

/-- Order of the floating-point types. -/
def floatLevel : Arith → Nat
  | .float => 1
  | .double => 2
  | .ldouble => 3
  | _ => 0

/-- Narrowing conversions of expressions that are not constant, [dcl.init.list]/7 of C++14: between an integer and a
floating-point type (either way), to a smaller floating-point type, to an integer type that cannot represent all
values. -/
def narrowing (a t : Arith) : Bool :=
  match a.bounds, t.bounds with
  | some (lo, hi), some (lo', hi') => decide (¬ (lo' ≤ lo ∧ hi ≤ hi'))
  | some _, none => true
  | none, some _ => true
  | none, none => decide (floatLevel t < floatLevel a)

/-- What is known about the argument of type `Arg`: an arithmetic type (with the class types that can be implicitly
constructed from it), or another type with its conversions to arithmetic types that are not narrowing, and to others. -/
inductive Arg where
  | arith (a : Arith) (toOther : Nat → Bool)
  | other (toArith : Arith → Option Rank) (toOther : Nat → Option Rank)

/-- overload_leaf, variant.h:1418-1462, for the alternative `t`: the rank of the conversion if there is a function for
it that can be called with the argument. -/
def leaf (arg : Arg) (t : Ty) : Option Rank :=
  match arg, t with
  | .arith a _, .arith t =>
      if t = .bool then (if a = .bool then some (rank a t) else none)
      else if narrowing a t then none else some (rank a t)
  | .arith _ f, .other k => if f k then some .user else none
  | .other f _, .arith t => if t = .bool then none else f t
  | .other _ f, .other k => f k

/-- Whether `i` is the best function: it can be called, and its conversion is better than those of all others. -/
def isBest (arg : Arg) (ts : List Ty) (i : Nat) : Bool :=
  match ts[i]?.bind (leaf arg) with
  | none => false
  | some r => (List.range ts.length).all fun j =>
      j == i || (match ts[j]?.bind (leaf arg) with
        | none => true
        | some r' => decide (r.toNat < r'.toNat))

/-- best_match, variant.h:1464-1481: overload resolution; `none` if no function can be called or if the call is
ambiguous, which means that there is no such constructor (variant.h:1518-1530) or assignment (1599-1613). -/
def bestMatch (arg : Arg) (ts : List Ty) : Option Nat := (List.range ts.length).find? (isBest arg ts)

/-! ### Proofs -/

theorem rep_mono {f g : Format} (hp : f.p ≤ g.p) (h1 : g.emin ≤ f.emin) (h2 : f.emax ≤ g.emax) {x : ℚ} (h : f.Rep x) :
    g.Rep x := by
  obtain ⟨m, e, rfl, hm, he1, he2⟩ := h
  exact ⟨m, e, rfl, lt_of_lt_of_le hm (pow_le_pow_right₀ (by norm_num) hp), by omega, by omega⟩

theorem rep_not {f g : Format} (hp : 1 ≤ f.p) (he : f.emin ≤ f.emax) (h : g.max < f.max) : ¬ ∀ x, f.Rep x → g.Rep x := by
  intro hc
  have h1 : f.Rep f.max := grid_rep f he (grid_max f hp he) (by
    rw [abs_of_nonneg]
    unfold Format.max
    have : (1 : ℚ) ≤ 2 ^ f.p := one_le_pow₀ (by norm_num)
    have := zpow2_pos f.emax
    apply mul_nonneg <;> linarith)
  have := rep_le_max g (hc _ h1)
  have := le_abs_self f.max
  linarith

theorem int_mono {lo hi lo' hi' : Int} (hne : lo ≤ hi) :
    (∀ x : ℚ, (∃ n : Int, x = n ∧ lo ≤ n ∧ n ≤ hi) → ∃ n : Int, x = n ∧ lo' ≤ n ∧ n ≤ hi') ↔ lo' ≤ lo ∧ hi ≤ hi' := by
  constructor
  · intro h
    obtain ⟨n, e, h1, h2⟩ := h lo ⟨lo, rfl, le_refl _, hne⟩
    obtain ⟨m, e', h3, h4⟩ := h hi ⟨hi, rfl, hne, le_refl _⟩
    have e : lo = n := by exact_mod_cast e
    have e' : hi = m := by exact_mod_cast e'
    omega
  · rintro ⟨h1, h2⟩ x ⟨n, e, h3, h4⟩
    exact ⟨n, e, by omega, by omega⟩

theorem bounds_ne (t : Arith) {lo hi : Int} (h : t.bounds = some (lo, hi)) : lo ≤ hi := by
  cases t <;> simp [Arith.bounds] at h <;> omega

/-- A conversion is not narrowing if and only if the kind of number and all values are kept. -/
theorem narrowing_iff (a t : Arith) : narrowing a t = false ↔ SameKind a t ∧ ∀ x, a.Has x → t.Has x := by
  unfold narrowing SameKind Arith.Has
  cases ha : a.bounds with
  | some p =>
    obtain ⟨lo, hi⟩ := p
    cases ht : t.bounds with
    | some q =>
      obtain ⟨lo', hi'⟩ := q
      simp only [Option.isSome_some, true_and]
      rw [int_mono (bounds_ne a ha)]
      simp
    | none => simp
  | none =>
    cases ht : t.bounds with
    | some q => simp
    | none =>
      simp only [Option.isSome_none, true_and, decide_eq_false_iff_not, not_lt]
      have n1 : ¬ ∀ x, binary64.Rep x → binary32.Rep x := rep_not (by decide) (by decide) (by decide +kernel)
      have n2 : ¬ ∀ x, extended.Rep x → binary32.Rep x := rep_not (by decide) (by decide) (by decide +kernel)
      have n3 : ¬ ∀ x, extended.Rep x → binary64.Rep x := rep_not (by decide) (by decide) (by decide +kernel)
      have p1 : ∀ x, binary32.Rep x → binary64.Rep x := fun x => rep_mono (by decide) (by decide) (by decide)
      have p2 : ∀ x, binary32.Rep x → extended.Rep x := fun x => rep_mono (by decide) (by decide) (by decide)
      have p3 : ∀ x, binary64.Rep x → extended.Rep x := fun x => rep_mono (by decide) (by decide) (by decide)
      cases a <;> simp [Arith.bounds] at ha <;> cases t <;> simp [Arith.bounds] at ht <;>
        simp only [floatLevel, Arith.format] <;> first
          | exact ⟨fun _ x h => h, fun _ => by decide⟩
          | exact ⟨fun _ => p1, fun _ => by decide⟩
          | exact ⟨fun _ => p2, fun _ => by decide⟩
          | exact ⟨fun _ => p3, fun _ => by decide⟩
          | exact ⟨fun h => absurd h (by decide), fun h => absurd h n1⟩
          | exact ⟨fun h => absurd h (by decide), fun h => absurd h n2⟩
          | exact ⟨fun h => absurd h (by decide), fun h => absurd h n3⟩

theorem leaf_arith (a : Arith) (f : Nat → Bool) (t : Arith) :
    leaf (.arith a f) (.arith t) = some (rank a t) ∧ Fits a t ∨ leaf (.arith a f) (.arith t) = none ∧ ¬ Fits a t := by
  have hn := narrowing_iff a t
  unfold leaf Fits
  by_cases hb : t = .bool
  · by_cases ha : a = .bool
    · left
      subst hb ha
      exact ⟨by simp, rfl, fun x h => h, fun _ => rfl⟩
    · right
      exact ⟨by simp [hb, ha], fun h => ha (h.2.2 hb)⟩
  · cases h : narrowing a t
    · left
      obtain ⟨h1, h2⟩ := hn.mp h
      exact ⟨by simp [hb, h], h1, h2, fun e => absurd e hb⟩
    · right
      refine ⟨by simp [hb, h], fun hc => ?_⟩
      rw [hn.mpr ⟨hc.1, hc.2.1⟩] at h
      cases h

theorem isBest_iff (arg : Arg) (ts : List Ty) (i : Nat) :
    isBest arg ts i = true ↔ ∃ t r, ts[i]? = some t ∧ leaf arg t = some r ∧
      ∀ (j : Nat) (t' : Ty) (r' : Rank), j ≠ i → ts[j]? = some t' → leaf arg t' = some r' → r.toNat < r'.toNat := by
  unfold isBest
  constructor
  · intro h
    cases hi : ts[i]? with
    | none => rw [hi] at h; simp at h
    | some t =>
      rw [hi] at h
      simp only [Option.bind_some] at h
      cases hr : leaf arg t with
      | none => rw [hr] at h; cases h
      | some r =>
        rw [hr] at h
        refine ⟨t, r, rfl, hr, fun j t' r' hne hj hr' => ?_⟩
        simp only [List.all_eq_true, List.mem_range] at h
        have := h j (List.getElem?_eq_some_iff.mp hj).1
        rw [hj] at this
        simp only [Option.bind_some, hr'] at this
        simpa [hne] using this
  · rintro ⟨t, r, hi, hr, h⟩
    rw [hi]
    simp only [Option.bind_some, hr, List.all_eq_true, List.mem_range]
    intro j hj
    by_cases hne : j = i
    · simp [hne]
    · cases hj' : ts[j]? with
      | none => simp
      | some t' =>
        simp only [Option.bind_some]
        cases hr' : leaf arg t' with
        | none => simp
        | some r' => simp [h j t' r' hne hj' hr']

theorem bestMatch_iff (arg : Arg) (ts : List Ty) (i : Nat) :
    bestMatch arg ts = some i ↔ isBest arg ts i = true := by
  unfold bestMatch
  constructor
  · intro h
    exact List.find?_some h
  · intro h
    obtain ⟨t, r, hi, hr, hall⟩ := (isBest_iff arg ts i).mp h
    have hlt := (List.getElem?_eq_some_iff.mp hi).1
    cases hf : (List.range ts.length).find? (isBest arg ts) with
    | none =>
      have := List.find?_eq_none.mp hf i (List.mem_range.mpr hlt)
      exact absurd h this
    | some k =>
      have hk := List.find?_some hf
      obtain ⟨t', r', hi', hr', hall'⟩ := (isBest_iff arg ts k).mp hk
      by_cases e : k = i
      · rw [e]
      · have h1 := hall k t' r' e hi' hr'
        have h2 := hall' i t r (Ne.symm e) hi hr
        omega

/-- **C104.**  A number is only stored in an arithmetic alternative of the same kind that has all values of its type:
the value never changes.  Only a bool is stored as a bool. -/
theorem c104_value (a : Arith) (f : Nat → Bool) (ts : List Ty) (i : Nat) (t : Arith)
    (h : bestMatch (.arith a f) ts = some i) (ht : ts[i]? = some (.arith t)) : Fits a t := by
  obtain ⟨t', r, h1, h2, -⟩ := (isBest_iff _ _ _).mp ((bestMatch_iff _ _ _).mp h)
  rw [ht] at h1
  cases h1
  rcases leaf_arith a f t with ⟨-, h3⟩ | ⟨h3, -⟩
  · exact h3
  · rw [h3] at h2; cases h2

/-- **C104.**  Nothing but a bool (no pointer and no object) is stored as a bool. -/
theorem c104_bool (arg : Arg) (ts : List Ty) (i : Nat) (h : bestMatch arg ts = some i)
    (ht : ts[i]? = some (.arith .bool)) : ∃ f, arg = .arith .bool f := by
  obtain ⟨t', r, h1, h2, -⟩ := (isBest_iff _ _ _).mp ((bestMatch_iff _ _ _).mp h)
  rw [ht] at h1
  cases h1
  cases arg with
  | arith a f =>
    by_cases ha : a = .bool
    · exact ⟨f, by rw [ha]⟩
    · simp [leaf, ha] at h2
  | other f g => simp [leaf] at h2

theorem fits_iff (a t : Arith) : Fits a t ↔ narrowing a t = false ∧ (t = .bool → a = .bool) := by
  rw [narrowing_iff]
  exact and_assoc.symm

theorem promoted_iff (a t : Arith) : promoted a = some t ↔ Promotes a t := by
  unfold Promotes
  rw [fits_iff, fits_iff]
  revert a t
  have h : ∀ a t : Arith, promoted a = some t ↔ (a = .float ∧ t = .double) ∨
      (a ∈ [Arith.bool, .char, .schar, .uchar, .short, .ushort, .wchar, .char16, .char32] ∧
        (t = .int ∧ (narrowing a .int = false ∧ (Arith.int = .bool → a = .bool)) ∨
          t = .uint ∧ (narrowing a .uint = false ∧ (Arith.uint = .bool → a = .bool)) ∧
            ¬ (narrowing a .int = false ∧ (Arith.int = .bool → a = .bool)))) := by
    intro a t
    cases a <;> cases t <;> decide
  exact h

theorem better_iff (a t t' : Arith) : Better a t t' ↔ (rank a t).toNat < (rank a t').toNat := by
  unfold Better rank
  rw [← promoted_iff, ← promoted_iff]
  by_cases h2 : a = t'
  · subst h2
    simp [Rank.toNat]
  · by_cases h1 : a = t
    · subst h1
      have : ¬ t' = a := fun e => h2 e.symm
      simp only [this, if_true, if_neg h2, ne_eq, not_false_iff, true_or, and_self, true_iff]
      split <;> decide
    · have h1' : ¬ t = a := fun e => h1 e.symm
      have h2' : ¬ t' = a := fun e => h2 e.symm
      simp only [if_neg h1, if_neg h2, h1', h2', ne_eq, not_false_iff, true_and, false_or]
      generalize h3 : decide (promoted a = some t) = x
      generalize h4 : decide (promoted a = some t') = y
      have e3 : (promoted a = some t) = (x = true) := by rw [← h3, decide_eq_true_eq]
      have e4 : (promoted a = some t') = (y = true) := by rw [← h4, decide_eq_true_eq]
      simp only [e3, e4]
      cases x <;> cases y <;> decide

theorem rank_lt (a t : Arith) : (rank a t).toNat < 3 := by
  unfold rank
  split
  · decide
  · split <;> decide

/-- **C104.**  Which alternative a number takes: a fitting arithmetic one that is better than all other fitting ones (the
type itself before the one to which it is promoted, and this before all others), or, if no arithmetic alternative fits,
the only class that can be constructed from it. -/
theorem c104_choice (a : Arith) (f : Nat → Bool) (ts : List Ty) (i : Nat) :
    bestMatch (.arith a f) ts = some i ↔
      (∃ t, ts[i]? = some (.arith t) ∧ Fits a t ∧
        ∀ (j : Nat) (t' : Arith), j ≠ i → ts[j]? = some (.arith t') → Fits a t' → Better a t t') ∨
      (∃ k, ts[i]? = some (.other k) ∧ f k = true ∧ (∀ (j : Nat) (t' : Arith), ts[j]? = some (.arith t') → ¬ Fits a t') ∧
        ∀ (j k' : Nat), j ≠ i → ts[j]? = some (.other k') → f k' = false) := by
  rw [bestMatch_iff, isBest_iff]
  have hle := rank_lt a
  constructor
  · rintro ⟨t, r, h1, h2, h3⟩
    cases t with
    | arith t =>
      left
      rcases leaf_arith a f t with ⟨e, hf⟩ | ⟨e, -⟩
      · rw [e] at h2
        cases h2
        refine ⟨t, h1, hf, fun j t' hj ht' hf' => ?_⟩
        rcases leaf_arith a f t' with ⟨e', -⟩ | ⟨-, n⟩
        · have := h3 j _ _ hj ht' e'
          rwa [better_iff]
        · exact absurd hf' n
      · rw [e] at h2; cases h2
    | other k =>
      right
      by_cases hk : f k = true
      · simp only [leaf, hk, if_true, Option.some.injEq] at h2
        subst h2
        refine ⟨k, h1, hk, fun j t' ht' hf' => ?_, fun j k' hj hk' => ?_⟩
        · rcases leaf_arith a f t' with ⟨e', -⟩ | ⟨-, n⟩
          · have hj : j ≠ i := by rintro rfl; rw [h1] at ht'; cases ht'
            have := h3 j _ _ hj ht' e'
            have := hle t'
            simp [Rank.toNat] at *
            omega
          · exact n hf'
        · by_contra hc
          have hc : f k' = true := by simpa using hc
          have := h3 j _ .user hj hk' (by simp [leaf, hc])
          omega
      · simp [leaf, hk] at h2
  · rintro (⟨t, h1, hf, h3⟩ | ⟨k, h1, hk, h3, h4⟩)
    · rcases leaf_arith a f t with ⟨e, -⟩ | ⟨-, n⟩
      · refine ⟨_, _, h1, e, fun j t' r' hj ht' hr' => ?_⟩
        cases t' with
        | arith t' =>
          rcases leaf_arith a f t' with ⟨e', hf'⟩ | ⟨e', -⟩
          · rw [e'] at hr'
            cases hr'
            exact (better_iff _ _ _).mp (h3 j t' hj ht' hf')
          · rw [e'] at hr'; cases hr'
        | other k =>
          simp only [leaf] at hr'
          split at hr'
          · cases hr'
            exact hle t
          · cases hr'
      · exact absurd hf n
    · refine ⟨_, .user, h1, by simp [leaf, hk], fun j t' r' hj ht' hr' => ?_⟩
      cases t' with
      | arith t' =>
        rcases leaf_arith a f t' with ⟨e', hf'⟩ | ⟨e', -⟩
        · exact absurd hf' (h3 j t' ht')
        · rw [e'] at hr'; cases hr'
      | other k' =>
        simp [leaf, h4 j k' hj ht'] at hr'

/-- **C104.**  If the type of the number is one of the alternatives, once, the number is stored there. -/
theorem c104_same (a : Arith) (f : Nat → Bool) (ts : List Ty) (i : Nat) (hi : ts[i]? = some (.arith a))
    (hu : ∀ j : Nat, ts[j]? = some (.arith a) → j = i) : bestMatch (.arith a f) ts = some i := by
  rw [c104_choice]
  left
  refine ⟨a, hi, ⟨rfl, fun x h => h, fun h => h⟩, fun j t' hj ht' _ => ?_⟩
  have : t' ≠ a := fun e => hj (hu j (by rw [ht', e]))
  exact ⟨this, .inl rfl⟩

/-- **C104.**  An object of a class takes the alternative that is of exactly its type, if there is only one, whatever the other
alternatives to which it can be converted are. -/
theorem c104_object (f : Arith → Option Rank) (g : Nat → Option Rank) (ts : List Ty) (i k : Nat)
    (hi : ts[i]? = some (.other k)) (hr : g k = some .exact) (h1 : ∀ (j k' : Nat), j ≠ i → ts[j]? = some (.other k') → g k' ≠ some .exact)
    (h2 : ∀ t, f t ≠ some .exact) : bestMatch (.other f g) ts = some i := by
  rw [bestMatch_iff, isBest_iff]
  refine ⟨_, .exact, hi, hr, fun j t' r' hj ht' hr' => ?_⟩
  have key : r' ≠ .exact := by
    rintro rfl
    cases t' with
    | arith t =>
      simp only [leaf] at hr'
      split at hr'
      · cases hr'
      · exact h2 t hr'
    | other k' => exact h1 j k' hj ht' hr'
  cases r' <;> simp [Rank.toNat] at key ⊢

/-! ### Examples -/

/-- int in variant<bool, double, long, std::string>: the long. -/
example : bestMatch (.arith .int fun _ => false) [.arith .bool, .arith .double, .arith .long, .other 0] = some 2 := by
  decide +kernel
/-- int in variant<double, float>: not possible. -/
example : bestMatch (.arith .int fun _ => false) [.arith .double, .arith .float] = none := by decide +kernel
/-- int in variant<long, long long>: ambiguous. -/
example : bestMatch (.arith .int fun _ => false) [.arith .long, .arith .llong] = none := by decide +kernel
/-- char in variant<long, int, short>: int, by promotion. -/
example : bestMatch (.arith .char fun _ => false) [.arith .long, .arith .int, .arith .short] = some 1 := by decide +kernel
/-- A string literal in variant<bool, std::string>: the string. -/
example : bestMatch (.other (fun t => if t = .bool then some .conversion else none) (fun _ => some .user))
    [.arith .bool, .other 0] = some 1 := by decide +kernel

end Gul14.Var
