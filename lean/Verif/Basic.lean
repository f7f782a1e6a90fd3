/-
Shared vocabulary of the model: outcomes of C++ calls, byte strings, `std::size_t`.
-/

namespace Gul14

/-- Exceptions thrown by the modelled code (only the class matters, not the text). The language and
library classes of the `throw` expressions in the cited functions of every model; `badAccess` is
bad_optional_access (optional.h:159-166), bad_expected_access (expected.h:1126-1156) and
bad_variant_access (variant.h:49-56). This is C++ semantics; there is no code in /repo for it. -/
inductive Exc where
  | outOfRange | lengthError | runtimeError | logicError | invalidArgument | badAccess
  | user (n : Nat)
  deriving DecidableEq, Repr

/-- Outcome of a C++ call: a value, an exception, `std::terminate` (an exception leaving a `noexcept`
function), undefined behaviour, or a loop that has not ended within the number of iterations granted by
the model (theorems show that this does not occur). C++ semantics; no code in /repo. -/
inductive Res (α : Type _) where
  | ok (a : α)
  | throw (e : Exc)
  | terminate
  | ub
  | diverge
  deriving DecidableEq, Repr

namespace Res

/-- Sequencing: an abnormal outcome ends the computation. C++ semantics; no code in /repo. -/
def bind {α β : Type _} : Res α → (α → Res β) → Res β
  | ok a, f => f a
  | throw e, _ => throw e
  | terminate, _ => terminate
  | ub, _ => ub
  | diverge, _ => diverge

/-- A value computed from the result of a call. C++ semantics; no code in /repo. -/
def map {α β : Type _} (f : α → β) : Res α → Res β
  | ok a => ok (f a)
  | throw e => throw e
  | terminate => terminate
  | ub => ub
  | diverge => diverge

instance : Monad Res where
  pure := ok
  bind := bind

@[simp] theorem bind_ok {α β : Type _} (a : α) (f : α → Res β) : (ok a).bind f = f a := rfl
@[simp] theorem bind_throw {α β : Type _} (e) (f : α → Res β) : (throw e).bind f = throw e := rfl
@[simp] theorem bind_terminate {α β : Type _} (f : α → Res β) :
    (terminate).bind f = terminate := rfl
@[simp] theorem bind_ub {α β : Type _} (f : α → Res β) : (ub).bind f = ub := rfl
@[simp] theorem bind_diverge {α β : Type _} (f : α → Res β) :
    (diverge).bind f = diverge := rfl
@[simp] theorem ok_bind {α β : Type _} (a : α) (f : α → Res β) : (ok a >>= f) = f a := rfl
@[simp] theorem throw_bind {α β : Type _} (e) (f : α → Res β) :
    ((throw e : Res α) >>= f) = throw e := rfl
@[simp] theorem ub_bind {α β : Type _} (f : α → Res β) : ((ub : Res α) >>= f) = ub := rfl
@[simp] theorem terminate_bind {α β : Type _} (f : α → Res β) :
    ((terminate : Res α) >>= f) = terminate := rfl
@[simp] theorem diverge_bind {α β : Type _} (f : α → Res β) :
    ((diverge : Res α) >>= f) = diverge := rfl
@[simp] theorem pure_eq {α : Type _} (a : α) : (pure a : Res α) = ok a := rfl
@[simp] theorem map_ok {α β : Type _} (f : α → β) (a : α) : (ok a).map f = ok (f a) := rfl
@[simp] theorem map_throw {α β : Type _} (f : α → β) (e) : (throw e).map f = throw e := rfl
@[simp] theorem map_ub {α β : Type _} (f : α → β) : (ub).map f = ub := rfl
@[simp] theorem map_terminate {α β : Type _} (f : α → β) :
    (terminate).map f = terminate := rfl

/-- A C++ function declared `noexcept`: an escaping exception terminates the program. C++ semantics; no
code in /repo, used for the functions that are declared noexcept there. -/
def noexcept {α : Type _} : Res α → Res α
  | throw _ => terminate
  | r => r

@[simp] theorem noexcept_ok {α : Type _} (a : α) : (ok a).noexcept = ok a := rfl
@[simp] theorem noexcept_throw {α : Type _} (e) : (throw e : Res α).noexcept = terminate := rfl
@[simp] theorem noexcept_ub {α : Type _} : (ub : Res α).noexcept = ub := rfl

end Res

/-- A byte string (`std::string`, content of a `gul14::string_view`). Used for string_view.h:114-390 and
std::string. -/
abbrev Str := List UInt8

/-- Number of values of `std::size_t` on the modelled platform. 64-bit platform: an assumption, no code
in /repo. -/
def sizeMod : Nat := 2 ^ 64

/-- `std::string::npos`, `string_view::npos` (string_view.h:129): `size_type(-1)`. -/
def npos : Nat := 2 ^ 64 - 1

/-- Writes an ASCII literal as a byte string (used in examples only). Not part of the model; no code in
/repo. -/
def bytes (s : String) : Str := s.toList.map (fun c => UInt8.ofNat c.toNat)

end Gul14
