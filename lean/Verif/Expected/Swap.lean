import Verif.Expected.Base

/-!
# C133: which objects can be swapped, and when swap is noexcept

The type traits that decide it (expected.h:252-313, variant.h:228-268, optional.h:128-136) are modelled as what the
compiler does with them: name lookup, argument-dependent lookup and overload resolution for `swap(a, b)`.
-/
namespace Gul14.Swap

/-! ## Types -/

/-- A move operation or a function: `none` if it does not exist, `some true` if it is noexcept. -/
abbrev Fn? := Option Bool

/-- An object type.  `own`: its namespace or class has a swap() for this type (a function, a friend or a template like
`swap(unique_ptr<T>&, unique_ptr<T>&)`), which overload resolution prefers to the general template.  `std`: namespace std
is associated with the type, because it is a class of the standard library, derived from one (like an exception class) or
a template with a type of the standard library as an argument. -/
structure ObjTy where
  moveCtor : Fn?
  moveAssign : Fn?
  own : Fn?
  std : Bool
  deriving DecidableEq, Repr

/-- A type. -/
inductive Ty where
  | void
  | obj (o : ObjTy)
  | arr (elem : Ty) (n : Nat)
  deriving DecidableEq, Repr

/-- std::is_move_constructible, is_nothrow_move_constructible, is_move_assignable and is_nothrow_move_assignable; arrays and
void are neither.  No code in /repo. -/
def Ty.mc : Ty → Bool
  | .obj o => o.moveCtor.isSome
  | _ => false
@[inherit_doc Ty.mc] def Ty.nmc : Ty → Bool
  | .obj o => o.moveCtor == some true
  | _ => false
@[inherit_doc Ty.mc] def Ty.ma : Ty → Bool
  | .obj o => o.moveAssign.isSome
  | _ => false
@[inherit_doc Ty.mc] def Ty.nma : Ty → Bool
  | .obj o => o.moveAssign == some true
  | _ => false

/-- Namespace std is associated with the type: that of an array is the one of its elements. -/
def Ty.inStd : Ty → Bool
  | .void => false
  | .obj o => o.std
  | .arr e _ => e.inStd

/-! ## Specification -/
namespace Spec

/-- Swappable, as in the standard (C++17, [swappable.requirements]): objects with a swap() of their own or that can be moved,
and arrays of such objects. -/
def Swappable : Ty → Prop
  | .void => False
  | .obj o => o.own ≠ none ∨ (o.moveCtor ≠ none ∧ o.moveAssign ≠ none)
  | .arr e _ => Swappable e

/-- ... without exceptions -/
def NothrowSwappable : Ty → Prop
  | .void => False
  | .obj o => o.own = some true ∨ (o.own = none ∧ o.moveCtor = some true ∧ o.moveAssign = some true)
  | .arr e _ => NothrowSwappable e

/-- expected<T, E>::swap() takes part in overload resolution (C++23, [expected.object.swap] and [expected.void.swap]). -/
def HasSwap (T E : Ty) : Prop :=
  Swappable E ∧ E.mc = true ∧ (T = .void ∨ (Swappable T ∧ T.mc = true ∧ (T.nmc = true ∨ E.nmc = true)))

/-- The type is one of namespace std (or associated with it) and relies on std::swap. -/
def ReliesOnStd : Ty → Prop
  | .void => False
  | .obj o => o.std = true ∧ o.own = none
  | .arr e _ => e.inStd = true

end Spec
open Gul14.Swap.Spec

/-! ## Overload resolution for `swap(a, b)` -/

/-- The namespace where the unqualified name is looked up: swap_adl_tests (expected.h:253-258) or one with
`using std::swap;` (variant.h:236, optional.h:129). -/
inductive Ns where
  | tag | std
  deriving DecidableEq, Repr

/-- A function called swap. -/
inductive Fn where
  /-- `template <class T> swap(T&, T&)` of swap_adl_tests (expected.h:257) or std -/
  | generic (ns : Ns)
  /-- `template <class T, size_t N> swap(T(&)[N], T(&)[N])` of swap_adl_tests (expected.h:258) or std -/
  | array (ns : Ns)
  /-- the one of the type -/
  | own
  deriving DecidableEq, Repr

/-- The better of two viable functions: not a template, or the more specialized template.  The templates of swap_adl_tests
and std have the same parameters, so none of them is better.  Language semantics. -/
def better : Fn → Fn → Bool
  | .own, .generic _ => true
  | .own, .array _ => true
  | .array _, .generic _ => true
  | _, _ => false

/-- Overload resolution: the function that is better than all others; none if the call is ambiguous or there is no function. -/
def resolve (l : List Fn) : Option Fn := l.find? fun f => l.all fun g => f == g || better f g

/-- The viable functions for `swap(declval<T&>(), declval<T&>())`: those of the namespace, and by argument-dependent lookup
those of std (if associated) and the one of the type.  The templates of std exist only for types that can be moved, and for
arrays of elements that can be swapped (`elemOk`); those of swap_adl_tests are not constrained.  There is no `void&`. -/
def candidates (ns : Ns) (T : Ty) (elemOk : Bool) : List Fn :=
  let std := ns == .std || T.inStd
  match T with
  | .void => []
  | .obj o =>
    (if ns == .tag then [.generic .tag] else []) ++ (if std && T.mc && T.ma then [.generic .std] else []) ++
      (if o.own.isSome then [.own] else [])
  | .arr _ _ =>
    (if ns == .tag then [.generic .tag, .array .tag] else []) ++ (if std && elemOk then [.array .std] else [])

/-- `swap(a, b)` after `using std::swap;`. -/
def stdCall : Ty → Option Fn
  | .void => none
  | .obj o => resolve (candidates .std (.obj o) false)
  | .arr e n => resolve (candidates .std (.arr e n) (stdCall e).isSome)

/-- This call is noexcept: std::swap is if the moves are, that for arrays if swapping the elements is. -/
def stdCallNoexcept : Ty → Bool
  | .void => false
  | .obj o =>
    match stdCall (.obj o) with
    | some .own => o.own == some true
    | some _ => o.moveCtor == some true && o.moveAssign == some true
    | none => false
  | .arr e n => (stdCall (.arr e n)).isSome && stdCallNoexcept e

/-! ## expected.h -/

/-- `swap(a, b)` in namespace swap_adl_tests, expected.h:264, 270. -/
def tagCall (T : Ty) : Option Fn :=
  match T with
  | .arr e _ => resolve (candidates .tag T (stdCall e).isSome)
  | _ => resolve (candidates .tag T false)

/-- can_swap<T, T>(0), expected.h:262-266. -/
def canSwap (T : Ty) : Bool := (tagCall T).isSome

/-- uses_std<T, T>(0), expected.h:268-271: the function is one that returns `tag`. -/
def usesStd (T : Ty) : Bool := tagCall T == some (.generic .tag) || tagCall T == some (.array .tag)

/-- is_std_swap_noexcept, expected.h:273-280. -/
def isStdSwapNoexcept : Ty → Bool
  | .arr e _ => isStdSwapNoexcept e
  | T => T.nmc && T.nma

/-- is_adl_swap_noexcept, expected.h:265-266, 282-284. -/
def isAdlSwapNoexcept (T : Ty) : Bool :=
  match tagCall T, T with
  | some .own, .obj o => o.own == some true
  | some (.generic .std), _ => T.nmc && T.nma
  | some (.array .std), .arr e _ => stdCallNoexcept e
  | _, _ => false

/-- is_swappable<T>, expected.h:287-303. -/
def isSwappable : Ty → Bool
  | .arr e n => canSwap (.arr e n) && (!usesStd (.arr e n) || isSwappable e)
  | T => canSwap T && (!usesStd T || (T.ma && T.mc))

/-- is_nothrow_swappable<T>, expected.h:305-313. -/
def isNothrowSwappable (T : Ty) : Bool :=
  isSwappable T && ((usesStd T && isStdSwapNoexcept T) || (!usesStd T && isAdlSwapNoexcept T))

/-- The condition of expected<T, E>::swap(), expected.h:1815-1819. -/
def memberAvailable (T E : Ty) : Bool := isSwappable T && isSwappable E && (T.nmc || E.nmc)

/-- The noexcept clause of expected<T, E>::swap(), expected.h:1820-1824. -/
def memberNoexcept (T E : Ty) : Bool := T.nmc && isNothrowSwappable T && E.nmc && isNothrowSwappable E

/-- The condition of swap(expected<T, E>&, expected<T, E>&), expected.h:2212-2216. -/
def freeAvailable (T E : Ty) : Bool := (T == .void || T.mc) && isSwappable T && E.mc && isSwappable E

/-- The type unexpected<E> of err(), expected.h:148-177, 1184: it moves like `E` and has no swap() of its own. -/
def unexpected (E : Ty) : Ty :=
  .obj ⟨if E.mc then some E.nmc else none, if E.ma then some E.nma else none, none, E.inStd⟩

/-- What the body of expected<T, E>::swap() does with the values and errors. -/
inductive Op where
  /-- `using std::swap; swap(x, y)` for two values (or errors, which are of type unexpected<E>) -/
  | swap (T : Ty)
  /-- construction by a move -/
  | ctor (T : Ty)
  /-- move assignment -/
  | assign (T : Ty)
  deriving DecidableEq, Repr

/-- The operation compiles. -/
def Op.compiles : Op → Bool
  | .swap T => (stdCall T).isSome
  | .ctor T => T.mc
  | .assign T => T.ma

/-- The operation cannot throw. -/
def Op.nothrow : Op → Bool
  | .swap T => stdCallNoexcept T
  | .ctor T => T.nmc
  | .assign T => T.nma

/-- swap_where_only_one_has_value_and_t_is_not_void, expected.h:1757-1812: the operations in the three overloads, with
those in the handlers. -/
def swapOneOps (T E : Ty) : List Op :=
  if T.nmc then
    if E.nmc then [.ctor T, .ctor (unexpected E), .ctor T]
    else [.ctor T, .ctor (unexpected E), .ctor T, .assign T]
  else [.ctor (unexpected E), .ctor T, .ctor (unexpected E), .assign (unexpected E)]

/-- The operations of expected<T, E>::swap() for objects with or without a value, expected.h:1735-1753, 1825-1834. -/
def swapOps (T E : Ty) : Bool → Bool → List Op
  | true, true => if T = .void then [] else [.swap T]
  | false, false => [.swap (unexpected E)]
  | _, _ => if T = .void then [.ctor (unexpected E)] else swapOneOps T E

/-- `a.swap(b)` compiles: the function is there and so are all the operations in its body. -/
def memberCompiles (T E : Ty) : Bool :=
  memberAvailable T E && [true, false].all fun a => [true, false].all fun b => (swapOps T E a b).all (·.compiles)

/-- `swap(a, b)` with the function of expected.h:2217-2220 compiles; its noexcept clause asks for the member. -/
def freeCompiles (T E : Ty) : Bool := freeAvailable T E && memberCompiles T E

/-! ## variant.h and optional.h -/

/-- detail_variant::all, variant.h:228-230: the sequence (true, Bs...) is the sequence (Bs..., true). -/
def all (bs : List Bool) : Bool := decide (true :: bs = bs ++ [true])

/-- detail_variant::is_swappable, variant.h:238-251. -/
def variantIsSwappable (T : Ty) : Bool := (stdCall T).isSome

/-- detail_variant::is_nothrow_swappable, variant.h:253-268. -/
def variantIsNothrowSwappable (T : Ty) : Bool := if variantIsSwappable T then stdCallNoexcept T else false

/-- The condition of variant<Ts...>::swap(), variant.h:1667-1674, and of the free function (1900-1903). -/
def variantAvailable (Ts : List Ty) : Bool := all (true :: Ts.map fun T => T.mc && variantIsSwappable T)

/-- The noexcept clause of variant<Ts...>::swap(), variant.h:1675-1677. -/
def variantNoexcept (Ts : List Ty) : Bool := all (Ts.map fun T => T.nmc && variantIsNothrowSwappable T)

/-- The noexcept clause of optional<T>::swap(), optional.h:128-136, 415-416; `none`: it does not compile. -/
def optionalNoexcept (T : Ty) : Option Bool :=
  if (stdCall T).isSome then some (T.nmc && stdCallNoexcept T) else none

/-! ## Proofs -/

theorem resolve_nil : resolve [] = none := rfl

theorem stdCall_obj (o : ObjTy) : stdCall (.obj o) =
    if o.own.isSome then some .own else if o.moveCtor.isSome && o.moveAssign.isSome then some (.generic .std) else none := by
  obtain ⟨mc, ma, own, s⟩ := o
  cases mc <;> cases ma <;> cases own <;> cases s <;> rfl

theorem stdCall_arr (e : Ty) (n : Nat) :
    stdCall (.arr e n) = if (stdCall e).isSome then some (.array .std) else none := by
  rw [stdCall]
  cases (stdCall e).isSome <;> rfl

theorem stdCall_iff (T : Ty) : (stdCall T).isSome = true ↔ Swappable T := by
  induction T with
  | void => simp [stdCall, Swappable]
  | obj o =>
    rw [stdCall_obj]
    obtain ⟨mc, ma, own, s⟩ := o
    cases mc <;> cases ma <;> cases own <;> simp [Swappable]
  | arr e n ih =>
    rw [stdCall_arr, Swappable, ← ih]
    cases (stdCall e).isSome <;> simp

theorem nothrow_swappable {T : Ty} (h : NothrowSwappable T) : Swappable T := by
  induction T with
  | void => exact h
  | obj o => rcases h with h | ⟨_, h1, h2⟩ <;> simp [Swappable, *]
  | arr e n ih => exact ih h

theorem stdCallNoexcept_iff (T : Ty) : stdCallNoexcept T = true ↔ NothrowSwappable T := by
  induction T with
  | void => simp [stdCallNoexcept, NothrowSwappable]
  | obj o =>
    rw [stdCallNoexcept, stdCall_obj]
    obtain ⟨mc, ma, own, s⟩ := o
    rcases mc with _ | _ | _ <;> rcases ma with _ | _ | _ <;> rcases own with _ | _ | _ <;> simp [NothrowSwappable]
  | arr e n ih =>
    rw [stdCallNoexcept, Bool.and_eq_true, ih, stdCall_iff, NothrowSwappable, Swappable]
    exact ⟨fun h => h.2, fun h => ⟨nothrow_swappable h, h⟩⟩

theorem tagCall_obj (o : ObjTy) : tagCall (.obj o) =
    if o.own.isSome then some .own
    else if o.std && o.moveCtor.isSome && o.moveAssign.isSome then none else some (.generic .tag) := by
  obtain ⟨mc, ma, own, s⟩ := o
  cases mc <;> cases ma <;> cases own <;> cases s <;> rfl

theorem tagCall_arr (e : Ty) (n : Nat) : tagCall (.arr e n) =
    if e.inStd && (stdCall e).isSome then none else some (.array .tag) := by
  have : (Ty.arr e n).inStd = e.inStd := rfl
  simp only [tagCall, candidates, this]
  cases e.inStd <;> cases (stdCall e).isSome <;> rfl

theorem reliesOnStd_elem {e : Ty} {n : Nat} (h : ¬ ReliesOnStd (.arr e n)) : ¬ ReliesOnStd e := by
  cases e with
  | void => exact id
  | obj o => exact fun h' => h h'.1
  | arr e n => exact h

theorem isSwappable_iff (T : Ty) : isSwappable T = true ↔ Swappable T ∧ ¬ ReliesOnStd T := by
  induction T with
  | void => simp [isSwappable, canSwap, tagCall, candidates, resolve_nil, Swappable]
  | obj o =>
    simp only [isSwappable, canSwap, usesStd, tagCall_obj]
    obtain ⟨mc, ma, own, s⟩ := o
    cases mc <;> cases ma <;> cases own <;> cases s <;> simp [Swappable, ReliesOnStd, Ty.ma, Ty.mc]
  | arr e n ih =>
    simp only [isSwappable, canSwap, usesStd, tagCall_arr, Swappable]
    by_cases hs : Swappable e
    · have h1 := (stdCall_iff e).2 hs
      cases hst : e.inStd
      · have : ¬ ReliesOnStd (.arr e n) := by simp [ReliesOnStd, hst]
        have h2 := ih.2 ⟨hs, reliesOnStd_elem this⟩
        simp [this, h2, hs]
      · simp [ReliesOnStd, hst, h1]
    · have h1 : (stdCall e).isSome = false := by
        cases h : (stdCall e).isSome
        · rfl
        · exact absurd ((stdCall_iff e).1 h) hs
      have h2 : isSwappable e = false := by
        cases h : isSwappable e
        · rfl
        · exact absurd (ih.1 h).1 hs
      simp [h1, h2, hs]

theorem all_iff (bs : List Bool) : all bs = true ↔ ∀ b ∈ bs, b = true := by
  unfold all
  rw [decide_eq_true_iff]
  induction bs with
  | nil => simp
  | cons b bs ih =>
    simp only [List.cons_append, List.cons.injEq, List.forall_mem_cons]
    constructor
    · rintro ⟨h, h'⟩; subst h; exact ⟨rfl, ih.1 h'⟩
    · rintro ⟨h, h'⟩; subst h; exact ⟨rfl, ih.2 h'⟩

theorem unexpected_mc (E : Ty) : (unexpected E).mc = E.mc := by
  unfold unexpected; cases E.mc <;> rfl

theorem unexpected_ma (E : Ty) : (unexpected E).ma = E.ma := by
  unfold unexpected; cases h : E.ma <;> simp [Ty.ma]

theorem nmc_mc {T : Ty} (h : T.nmc = true) : T.mc = true := by
  cases T <;> simp_all [Ty.nmc, Ty.mc]

theorem nma_ma {T : Ty} (h : T.nma = true) : T.ma = true := by
  cases T <;> simp_all [Ty.nma, Ty.ma]

theorem unexpected_nmc (E : Ty) : (unexpected E).nmc = E.nmc := by
  unfold unexpected
  cases h : E.nmc
  · cases E.mc <;> rfl
  · rw [nmc_mc h]; rfl

theorem unexpected_nma (E : Ty) : (unexpected E).nma = E.nma := by
  unfold unexpected
  cases h : E.nma
  · cases E.ma <;> simp [Ty.nma]
  · rw [nma_ma h]; simp [Ty.nma]

theorem unexpected_swap (E : Ty) : (stdCall (unexpected E)).isSome = (E.mc && E.ma) := by
  unfold unexpected
  rw [stdCall_obj]
  cases E.mc <;> cases E.ma <;> rfl

theorem unexpected_swap_noexcept (E : Ty) : stdCallNoexcept (unexpected E) = (E.nmc && E.nma) := by
  rw [Bool.eq_iff_iff, stdCallNoexcept_iff]
  have h1 := unexpected_nmc E
  have h2 := unexpected_nma E
  revert h1 h2
  unfold unexpected
  simp only [NothrowSwappable, Ty.nmc, Ty.nma]
  intro h1 h2
  rw [Bool.and_eq_true, ← h1, ← h2]
  simp

/-! ## C133 -/

/-- Variant and optional: is_swappable and is_nothrow_swappable are those of the standard, for all types; a variant has swap()
if and only if all alternatives can be moved and swapped; it is noexcept if and only if both cannot throw for any of them.
The same holds for the noexcept of optional, and its swap() compiles if and only if the values can be swapped. -/
theorem c133_variant (T : Ty) (Ts : List Ty) :
    (variantIsSwappable T = true ↔ Swappable T) ∧
    (variantIsNothrowSwappable T = true ↔ NothrowSwappable T) ∧
    (variantAvailable Ts = true ↔ ∀ t ∈ Ts, t.mc = true ∧ Swappable t) ∧
    (variantNoexcept Ts = true ↔ ∀ t ∈ Ts, t.nmc = true ∧ NothrowSwappable t) ∧
    (optionalNoexcept T ≠ none ↔ Swappable T) ∧
    (optionalNoexcept T = some true ↔ T.nmc = true ∧ NothrowSwappable T) := by
  have h1 : ∀ T, variantIsSwappable T = true ↔ Swappable T := stdCall_iff
  have h2 : ∀ T, variantIsNothrowSwappable T = true ↔ NothrowSwappable T := by
    intro T
    unfold variantIsNothrowSwappable
    by_cases h : Swappable T
    · rw [if_pos ((h1 T).2 h), stdCallNoexcept_iff]
    · rw [if_neg (fun h' => h ((h1 T).1 h'))]
      exact ⟨fun h' => by simp at h', fun h' => absurd (nothrow_swappable h') h⟩
  refine ⟨h1 T, h2 T, ?_, ?_, ?_, ?_⟩
  · simp [variantAvailable, all_iff, h1]
  · simp [variantNoexcept, all_iff, h2]
  · unfold optionalNoexcept
    rw [← stdCall_iff]
    cases (stdCall T).isSome <;> simp
  · unfold optionalNoexcept
    rw [← stdCallNoexcept_iff]
    by_cases h : (stdCall T).isSome = true
    · simp [h]
    · have : stdCallNoexcept T ≠ true := fun h' => h ((stdCall_iff T).2 (nothrow_swappable ((stdCallNoexcept_iff T).1 h')))
      simp [h, this]

/-- The trait that expected uses is true exactly for the swappable types that do not rely on std::swap through an
association with namespace std.  So it never claims too much.  What is missing are these types: see
`c133_std_types_violated`. -/
theorem c133_expected_trait_partial (T : Ty) : isSwappable T = true ↔ Swappable T ∧ ¬ ReliesOnStd T :=
  isSwappable_iff T

/-- ... and that it cannot throw is claimed exactly if it is so, for all types other than arrays. -/
theorem c133_expected_nothrow_trait_partial (o : ObjTy) :
    isNothrowSwappable (.obj o) = true ↔ NothrowSwappable (.obj o) ∧ ¬ ReliesOnStd (.obj o) := by
  simp only [isNothrowSwappable, isSwappable, canSwap, usesStd, isAdlSwapNoexcept, isStdSwapNoexcept, tagCall_obj]
  obtain ⟨mc, ma, own, s⟩ := o
  rcases mc with _ | _ | _ <;> rcases ma with _ | _ | _ <;> rcases own with _ | _ | _ <;> cases s <;>
    simp [NothrowSwappable, ReliesOnStd, Ty.mc, Ty.ma, Ty.nmc, Ty.nma]

/-- For arrays it is claimed although swapping the elements can throw, if the element type has a swap() of its own. -/
theorem c133_array_violated (o : ObjTy) (n : Nat) (h1 : o.moveCtor = some true) (h2 : o.moveAssign = some true)
    (h3 : o.own = some false) (h4 : o.std = false) :
    isNothrowSwappable (.arr (.obj o) n) = true ∧ ¬ NothrowSwappable (.arr (.obj o) n) := by
  obtain ⟨mc, ma, own, s⟩ := o
  subst h1 h2 h3 h4
  exact ⟨rfl, by simp [NothrowSwappable]⟩

/-- expected<T, E>::swap() is there if and only if both types can be swapped, neither relies on std::swap through an association
with namespace std, and one of them can be moved without exceptions. -/
theorem c133_member_partial (T E : Ty) : memberAvailable T E = true ↔
    (Swappable T ∧ ¬ ReliesOnStd T) ∧ (Swappable E ∧ ¬ ReliesOnStd E) ∧ (T.nmc = true ∨ E.nmc = true) := by
  simp [memberAvailable, isSwappable_iff, and_assoc]

/-- A call that compiles is one that the standard allows as well. -/
theorem c133_member_sound (T E : Ty) (h : memberCompiles T E = true) : HasSwap T E := by
  unfold memberCompiles at h
  rw [Bool.and_eq_true] at h
  obtain ⟨hT, hE, hn⟩ := (c133_member_partial T E).1 h.1
  have hv : T ≠ .void := by rintro rfl; exact hT.1
  have h' := h.2
  simp only [List.all_cons, List.all_nil, Bool.and_true, Bool.and_eq_true, swapOps, if_neg hv] at h'
  have he : E.mc = true := by
    have := h'.2.2
    simp only [Op.compiles, unexpected_swap, Bool.and_eq_true] at this
    exact this.1
  refine ⟨hE.1, he, .inr ⟨hT.1, ?_, hn⟩⟩
  have := h'.1.2
  unfold swapOneOps at this
  split at this
  · next h => exact nmc_mc h
  · simp only [List.all_cons, Op.compiles, Bool.and_eq_true] at this
    exact this.2.1

/-- swap() compiles for all types that can be moved (constructed and assigned), without exceptions for the construction of
one of them, and do not rely on std::swap through an association with namespace std; so does `swap(a, b)`. -/
theorem c133_compiles_partial (T E : Ty) (hT : T.mc = true ∧ T.ma = true) (hE : E.mc = true ∧ E.ma = true)
    (hn : T.nmc = true ∨ E.nmc = true) (hsT : ¬ ReliesOnStd T) (hsE : ¬ ReliesOnStd E) :
    memberCompiles T E = true ∧ freeCompiles T E = true := by
  have sw : ∀ X : Ty, X.mc = true ∧ X.ma = true → Swappable X := by
    rintro (_ | o | _) ⟨h1, h2⟩
    · simp [Ty.mc] at h1
    · simp only [Ty.mc, Ty.ma] at h1 h2
      exact .inr ⟨fun h => by simp [h] at h1, fun h => by simp [h] at h2⟩
    · simp [Ty.mc] at h1
  have hv : T ≠ .void := by rintro rfl; simp [Ty.mc] at hT
  have hm : memberAvailable T E = true := (c133_member_partial T E).2 ⟨⟨sw T hT, hsT⟩, ⟨sw E hE, hsE⟩, hn⟩
  have key : memberCompiles T E = true := by
    unfold memberCompiles
    rw [hm]
    have h3 := (stdCall_iff T).2 (sw T hT)
    have h4 : (swapOneOps T E).all (·.compiles) = true := by
      unfold swapOneOps
      split
      · split <;> simp [Op.compiles, unexpected_mc, hT, hE]
      · simp [Op.compiles, unexpected_mc, unexpected_ma, hT, hE]
    have h5 : (Op.swap T).compiles = true := h3
    have h6 : (Op.swap (unexpected E)).compiles = true := by simp [Op.compiles, unexpected_swap, hE]
    simp only [List.all_cons, List.all_nil, Bool.and_true, swapOps, if_neg hv, h4, h5, h6]
  refine ⟨key, ?_⟩
  unfold freeCompiles freeAvailable
  rw [key, hT.1, hE.1, (isSwappable_iff T).2 ⟨sw T hT, hsT⟩, (isSwappable_iff E).2 ⟨sw E hE, hsE⟩]
  simp

/-- If swap() is declared noexcept and the move assignment of the errors cannot throw, nothing in it throws, whatever the two
objects hold. -/
theorem c133_noexcept_partial (T E : Ty) (h : memberNoexcept T E = true) (hE : E.nma = true) (a b : Bool) :
    ∀ op ∈ swapOps T E a b, op.nothrow = true := by
  simp only [memberNoexcept, Bool.and_eq_true] at h
  obtain ⟨⟨⟨h1, h2⟩, h3⟩, _⟩ := h
  have hT : ∃ o, T = .obj o := by
    cases T with
    | obj o => exact ⟨o, rfl⟩
    | void => simp [Ty.nmc] at h1
    | arr e n => simp [Ty.nmc] at h1
  obtain ⟨o, rfl⟩ := hT
  have hs := (stdCallNoexcept_iff _).2 ((c133_expected_nothrow_trait_partial o).1 h2).1
  have hv : Ty.obj o ≠ .void := by simp
  have h4 : ∀ op ∈ swapOneOps (.obj o) E, op.nothrow = true := by
    rw [swapOneOps, if_pos h1, if_pos h3]
    simp [Op.nothrow, h1, unexpected_nmc, h3]
  cases a <;> cases b <;> simp only [swapOps, if_neg hv]
  · simp [Op.nothrow, unexpected_swap_noexcept, h3, hE]
  · exact h4
  · exact h4
  · simp [Op.nothrow, hs]

/-- What in swap() can throw, for all contents of the two objects: with two values, the swap of the values; with two errors,
their move constructor and move assignment; with one of each, the move constructors. -/
theorem c133_throws_exactly (T E : Ty) (hT : T ≠ .void) (a b : Bool) :
    (∀ op ∈ swapOps T E a b, op.nothrow = true) ↔
      if a = true ∧ b = true then NothrowSwappable T
      else if a = false ∧ b = false then E.nmc = true ∧ E.nma = true
      else T.nmc = true ∧ E.nmc = true := by
  have h4 : (∀ op ∈ swapOneOps T E, op.nothrow = true) ↔ T.nmc = true ∧ E.nmc = true := by
    unfold swapOneOps
    cases h1 : T.nmc <;> cases h2 : E.nmc <;> simp [Op.nothrow, h1, unexpected_nmc, h2]
  cases a <;> cases b <;> simp only [swapOps, if_neg hT]
  · simp [Op.nothrow, unexpected_swap_noexcept]
  · simpa using h4
  · simpa using h4
  · simp [Op.nothrow, stdCallNoexcept_iff]

/-- The general claim is wrong.  For an error type with a swap() of its own that is noexcept (and with a move constructor that
is), swap() is declared noexcept; but two errors are swapped with std::swap of unexpected<E>, not with the swap() of `E`, so
that the move assignment is called.  If that throws, the program ends. -/
theorem c133_noexcept_violated {V W : Type} (T : Ty) (o : ObjTy) (hT : T.nmc = true ∧ isNothrowSwappable T = true)
    (h1 : o.moveCtor = some true) (h2 : o.moveAssign = some false) (h3 : o.own = some true)
    (tr : Exp.Tr) (htr : tr.eMove = true ∧ tr.eMoveAssign = false) (mvT : V → V) (mvE : W → W) (s : Exp.Store V W)
    (i j : Nat) (e e' : W) (l : V × W) (hi : s i = some ⟨false, .err e⟩) (hj : s j = some ⟨false, .err e'⟩) (hij : i ≠ j) :
    memberNoexcept T (.obj o) = true ∧ NothrowSwappable (.obj o) ∧
    (∃ op ∈ swapOps T (.obj o) false false, op.nothrow = false) ∧
    LM.noexcept (Exp.swapBody tr mvT mvE i j) ⟨some 0, l⟩ s 0 = .terminate := by
  refine ⟨?_, .inl h3, ?_, ?_⟩
  · have : isNothrowSwappable (.obj o) = true :=
      (c133_expected_nothrow_trait_partial o).2 ⟨.inl h3, fun h => by have := h.2; simp [h3] at this⟩
    have h5 : (Ty.obj o).nmc = true := by simp [Ty.nmc, h1]
    simp [memberNoexcept, hT, this, h5]
  · refine ⟨_, List.mem_singleton.2 rfl, ?_⟩
    simp [Op.nothrow, unexpected_swap_noexcept, Ty.nmc, Ty.nma, h1, h2]
  · simp [LM.noexcept, Exp.swapBody, Exp.has, Exp.get, hi, hj, Exp.swapErrs, Exp.takeErr, Exp.err, htr,
      Exp.errAssignMove, Exp.errAssign, Exp.elemIf_apply, Exp.setCell, Exp.Store.set, hij.symm]

/-- The errors are never swapped with the swap() of the error type. -/
theorem c133_own_swap_violated (T E : Ty) : swapOps T E false false = [.swap (unexpected E)] ∧
    stdCall (unexpected E) ≠ some .own := by
  refine ⟨rfl, ?_⟩
  unfold unexpected
  rw [stdCall_obj]
  simp only [Option.isSome_none, Bool.false_eq_true, if_false]
  split <;> simp

/-- If one of the types is associated with namespace std and has no swap() of its own, like std::error_code, durations or classes
derived from std::runtime_error, there is no swap() of expected<T, E>, although the types can be swapped and moved. -/
theorem c133_std_types_violated (T : Ty) (o : ObjTy) (h1 : o.moveCtor = some true) (h2 : o.moveAssign ≠ none)
    (h3 : o.own = none) (h4 : o.std = true) :
    memberAvailable T (.obj o) = false ∧ memberAvailable (.obj o) T = false ∧ freeAvailable T (.obj o) = false ∧
    freeAvailable (.obj o) T = false ∧
    (Swappable T ∧ T.mc = true → HasSwap T (.obj o) ∧ HasSwap (.obj o) T) := by
  have hs : isSwappable (.obj o) = false := by
    cases h : isSwappable (.obj o)
    · rfl
    · exact absurd ⟨h4, h3⟩ ((isSwappable_iff _).1 h).2
  have hw : Swappable (.obj o) := .inr ⟨by simp [h1], h2⟩
  have hm : (Ty.obj o).mc = true := by simp [Ty.mc, h1]
  have hn : (Ty.obj o).nmc = true := by simp [Ty.nmc, h1]
  refine ⟨by simp [memberAvailable, hs], by simp [memberAvailable, hs], by simp [freeAvailable, hs],
    by simp [freeAvailable, hs], fun ⟨h, h'⟩ => ⟨⟨hw, hm, .inr ⟨h, h', .inr hn⟩⟩, ⟨h, h', .inr ⟨hw, hm, .inl hn⟩⟩⟩⟩

/-- There is no swap() of expected<void, E>, for any error type. -/
theorem c133_void_violated (E : Ty) : memberAvailable .void E = false ∧ freeAvailable .void E = false ∧
    (Swappable E ∧ E.mc = true → HasSwap .void E) := by
  have : isSwappable .void = false := rfl
  exact ⟨by simp [memberAvailable, this], by simp [freeAvailable, this], fun h => ⟨h.1, h.2, .inl rfl⟩⟩

/-- swap() is there, but does not compile, for error types with a swap() of their own that cannot be moved; and so is
`swap(a, b)` for types that are both moved with possible exceptions, although std::swap could be used. -/
theorem c133_hard_error_violated :
    (∀ (T : Ty) (o : ObjTy), T.nmc = true → isSwappable T = true → o.own ≠ none → o.moveCtor = none →
      memberAvailable T (.obj o) = true ∧ memberCompiles T (.obj o) = false ∧ ¬ HasSwap T (.obj o)) ∧
    ∀ T E : Ty, T.mc = true → E.mc = true → T.nmc = false → E.nmc = false → isSwappable T = true → isSwappable E = true →
      freeAvailable T E = true ∧ freeCompiles T E = false := by
  constructor
  · intro T o h1 h2 h3 h4
    have hn : ¬ HasSwap T (.obj o) := fun h => by simpa [Ty.mc, h4] using h.2.1
    have hs : isSwappable (.obj o) = true := (isSwappable_iff _).2 ⟨.inl h3, fun h => h3 h.2⟩
    refine ⟨by simp [memberAvailable, h1, h2, hs], ?_, hn⟩
    cases h : memberCompiles T (.obj o)
    · rfl
    · exact absurd (c133_member_sound _ _ h) hn
  · intro T E h1 h2 h3 h4 h5 h6
    exact ⟨by simp [freeAvailable, h1, h2, h5, h6], by simp [freeCompiles, memberCompiles, memberAvailable, h3, h4]⟩

/-! ## Examples -/

/-- int, std::string, std::error_code, a class with a throwing move assignment and a noexcept swap(). -/
def int : Ty := .obj ⟨some true, some true, none, false⟩
@[inherit_doc int] def string : Ty := .obj ⟨some true, some true, some true, true⟩
@[inherit_doc int] def errorCode : Ty := .obj ⟨some true, some true, none, true⟩
@[inherit_doc int] def handle : Ty := .obj ⟨some true, some false, some true, false⟩

example : memberCompiles int string = true ∧ memberCompiles int errorCode = false ∧ memberCompiles int handle = true ∧
    memberNoexcept int string = true ∧ memberNoexcept int handle = true := by decide +kernel
example : variantAvailable [int, errorCode, string] = true ∧ variantNoexcept [int, errorCode, string] = true ∧
    variantNoexcept [int, .obj ⟨some true, some false, none, false⟩] = false := by decide +kernel
example : Swappable (.arr string 3) ∧ ReliesOnStd errorCode ∧ ¬ ReliesOnStd string ∧ HasSwap int errorCode := by
  simp [Swappable, ReliesOnStd, HasSwap, string, errorCode, int, Ty.mc, Ty.nmc]

end Gul14.Swap
