import Verif.Hexdump.Props

/-!
# C139: which calls of hexdump compile, and what they dump, hexdump.h:56-241

Arguments are lvalues or temporaries of pointer, iterator, array and other class types; what matters about a type is recorded in it.
Memory consists of blocks; pointers and iterators are positions in a block.
-/
namespace Gul14.Hexdump.Calls
open Gul14.Hexdump Gul14.Spec Gul14.Spec.Dump

/-- Element types: char, other integers of a size in bytes, bool, enumerations of a size in bytes, and all others. -/
inductive Elem where
  | char
  | int (size : Nat)
  | bool
  | enum (size : Nat)
  | other
  deriving DecidableEq

/-- sizeof. -/
def Elem.size : Elem → Nat
  | .char => 1
  | .int n => n
  | .bool => 1
  | .enum n => n
  | .other => 0

inductive Cat where
  | input | output | forward
  deriving DecidableEq

/-- A class that is an iterator: its value_type (`none` if std::iterator_traits knows nothing about it), its category (forward and better
in one), and whether the operators `*` and `++` are members. -/
structure Cls where
  name : Nat
  value : Option Elem
  cat : Cat
  deref : Bool
  incr : Bool
  deriving DecidableEq

inductive It where
  | ptr (e : Elem) (const : Bool)
  | cls (c : Cls)
  deriving DecidableEq

/-- Types of arguments.  Other classes: the types of cbegin() and cend() if there are such members, and whether the class converts to
string_view. -/
inductive Ty where
  | it (i : It)
  | array (e : Elem) (const : Bool) (n : Nat)
  | obj (name : Nat) (cbegin cend : Option It) (text : Bool)
  deriving DecidableEq

/-- Values: a position in a block, or the content of a container or string. -/
inductive Val where
  | pos (block off : Nat)
  | data (xs : List Int)

abbrev Mem := Nat → List Int

/-- std::is_integral. -/
def integral : Elem → Bool
  | .other => false
  | .enum _ => false
  | _ => true

/-- std::iterator_traits<T>::value_type. -/
def valueType : It → Option Elem
  | .ptr e _ => some e
  | .cls c => c.value

/-- IsHexDumpIterator, hexdump.h:86-109: the specialization for classes (pointers have no member operators) and that for pointers. -/
def isIterator : It → Bool
  | .cls c => (match c.value with | some e => integral e | none => false) && decide (c.cat ≠ .input) && c.deref && c.incr
  | .ptr e _ => integral e

/-- ... for any type: arrays and other classes fail in std::iterator_traits. -/
def isIteratorT : Ty → Bool
  | .it i => isIterator i
  | _ => false

/-- IsHexDumpContainer, hexdump.h:65-77. -/
def isContainer : Ty → Bool
  | .obj _ (some b) (some _) _ => match valueType b with | some e => integral e | none => false
  | _ => false

/-- Conversion of arrays to pointers in the deduction for parameters by value. -/
def decay : Ty → Ty
  | .array e c _ => .it (.ptr e c)
  | t => t

/-- Conversion to string_view. -/
def toView : Ty → Bool
  | .it (.ptr .char _) => true
  | .array .char _ _ => true
  | .obj _ _ _ t => t
  | _ => false

/-- std::make_unsigned is not defined for bool (hexdump.h:146-151). -/
def hasUnsigned (i : It) : Bool :=
  match valueType i with
  | some .bool => false
  | some .other => false
  | some _ => true
  | none => false

/-- The range between two positions; it has to be one. -/
def range (mem : Mem) : Val → Val → Res (List Int)
  | .pos b o, .pos b' o' => if b = b' ∧ o ≤ o' ∧ o' ≤ (mem b).length then .ok (((mem b).drop o).take (o' - o)) else .ub
  | _, _ => .ub

/-- The characters of a string_view made from an argument: up to the null character for positions. -/
def text (mem : Mem) : Val → Res Str
  | .data xs => .ok (xs.map fun x => UInt8.ofNat (x % 256).toNat)
  | .pos b o => if 0 ∈ (mem b).drop o then .ok ((((mem b).drop o).takeWhile (· ≠ 0)).map fun x => UInt8.ofNat (x % 256).toNat) else .ub

/-- The body, detail::hexdump_stream, hexdump.h:122-175: both iterators are of one type that IsHexDumpIterator accepts; `none`: error. -/
def body (b e : It) (xs : Res (List Int)) (prompt : Res Str) : Option (Res Str) :=
  if b = e ∧ isIterator b = true ∧ hasUnsigned b = true then
    some (xs.bind fun xs => prompt.bind fun p => hexdump (((valueType b).map Elem.size).getD 0) xs p)
  else none

/-- The overload for iterators, hexdump.h:218-224, with `prompt` given or not. -/
def viaRange (mem : Mem) (ta tb : Ty) (va vb : Val) (prompt : Res Str) : Option (Res Str) :=
  if decay ta = decay tb ∧ isIteratorT (decay ta) = true then
    match decay ta with
    | .it i => body i i (range mem va vb) prompt
    | _ => none
  else none

/-- The overload for containers, hexdump.h:235-241. -/
def viaContainer (ta : Ty) (va : Val) (prompt : Res Str) : Option (Res Str) :=
  match ta, va with
  | .obj n (some b) (some e) t, .data xs => if isContainer (.obj n (some b) (some e) t) then body b e (.ok xs) prompt else none
  | _, _ => none

/-- hexdump(a), hexdump.h:235-241. -/
def call1 (ta : Ty) (va : Val) : Option (Res Str) := viaContainer ta va (.ok [])

/-- hexdump(a, b): the overload for iterators if both are of one iterator type, hexdump.h:218-224, or that for containers with a prompt,
235-241.  No type is accepted by both. -/
def call2 (mem : Mem) (ta tb : Ty) (va vb : Val) : Option (Res Str) :=
  if decay ta = decay tb ∧ isIteratorT (decay ta) = true then viaRange mem ta tb va vb (.ok [])
  else if isContainer ta && toView tb then viaContainer ta va (text mem vb) else none

/-- hexdump(a, b, c), hexdump.h:218-224. -/
def call3 (mem : Mem) (ta tb tc : Ty) (va vb vc : Val) : Option (Res Str) :=
  if toView tc then viaRange mem ta tb va vb (text mem vc) else none

/-! ## Specification -/

/-- Integers of one to eight bytes; bool is an integral type too. -/
def Integer : Elem → Nat → Prop
  | .char, n => n = 1
  | .int k, n => n = k ∧ 1 ≤ k ∧ k ≤ 8
  | _, _ => False

/-- ... of any size. -/
def IsInt (e : Elem) : Prop := e = .char ∨ ∃ k, e = .int k

/-- What can be a prompt: literals, pointers to characters, strings. -/
inductive IsText : Ty → Prop
  | literal (c n) : IsText (.array .char c n)
  | ptr (c) : IsText (.it (.ptr .char c))
  | string (n b e) : IsText (.obj n b e true)

/-- A forward iterator with elements `e`, as the documentation requires. -/
inductive Forward : It → Elem → Prop
  | ptr (e c) : Forward (.ptr e c) e
  | cls (c e) : c.value = some e → c.cat = .forward → Forward (.cls c) e

/-- The operators are members. -/
def Members : It → Prop
  | .ptr _ _ => True
  | .cls c => c.deref = true ∧ c.incr = true

/-- Output iterators have no integers as values. -/
def Sane : It → Prop
  | .cls c => c.cat = .output → ∀ e, c.value = some e → e = .other
  | _ => True

/-! ## Proofs -/

theorem toView_iff (t : Ty) : toView t = true ↔ IsText t := by
  constructor
  · intro h
    cases t with
    | it i =>
      cases i with
      | ptr e c => cases e <;> first | exact .ptr c | simp [toView] at h
      | cls c => simp [toView] at h
    | array e c n => cases e <;> first | exact .literal c n | simp [toView] at h
    | obj n b e t => simp only [toView] at h; subst h; exact .string n b e
  · intro h; cases h <;> rfl

theorem iterator_of {i : It} {e : Elem} {n : Nat} (hf : Forward i e) (hm : Members i) (hi : Integer e n) :
    isIterator i = true ∧ hasUnsigned i = true ∧ valueType i = some e ∧ e.size = n ∧ 1 ≤ n ∧ n ≤ 8 := by
  have hint : integral e = true ∧ e.size = n ∧ 1 ≤ n ∧ n ≤ 8 ∧ e ≠ .bool ∧ e ≠ .other := by
    cases e with
    | char => simp only [Integer] at hi; subst hi; simp [integral, Elem.size]
    | int k => obtain ⟨rfl, h1, h2⟩ := hi; simp [integral, Elem.size, h1, h2]
    | bool => exact hi.elim
    | enum => exact hi.elim
    | other => exact hi.elim
  obtain ⟨h1, h2, h3, h4, h5, h6⟩ := hint
  have hu : ∀ i, valueType i = some e → hasUnsigned i = true := by
    intro i hv
    unfold hasUnsigned
    rw [hv]
    cases e <;> simp_all
  cases hf with
  | ptr c => exact ⟨h1, hu _ rfl, rfl, h2, h3, h4⟩
  | cls c _ hv hc =>
    refine ⟨?_, hu _ hv, hv, h2, h3, h4⟩
    simp [isIterator, hv, h1, hc, hm.1, hm.2]

/-- C139: two forward iterators (or pointers, or arrays that become pointers) of one type to integers dump what is between them, with or
without a prompt. -/
theorem c139_range_partial (mem : Mem) (ta tb tc : Ty) (i : It) (e : Elem) (size : Nat) (b o o' : Nat) (vc : Val) (p : Str)
    (ha : decay ta = .it i) (hb : decay tb = .it i) (hf : Forward i e) (hm : Members i) (hi : Integer e size)
    (h1 : o ≤ o') (h2 : o' ≤ (mem b).length) (hc : IsText tc) (hp : text mem vc = .ok p) :
    (∃ r, call2 mem ta tb (.pos b o) (.pos b o') = some (.ok r) ∧ IsDump size [] (((mem b).drop o).take (o' - o)) r) ∧
    (∃ r, call3 mem ta tb tc (.pos b o) (.pos b o') vc = some (.ok r) ∧ IsDump size p (((mem b).drop o).take (o' - o)) r) := by
  obtain ⟨k1, k2, k3, k4, k5, k6⟩ := iterator_of hf hm hi
  have key : ∀ q, ∃ r, viaRange mem ta tb (.pos b o) (.pos b o') (.ok q) = some (.ok r) ∧
      IsDump size q (((mem b).drop o).take (o' - o)) r := by
    intro q
    obtain ⟨r, hr, hd⟩ := c22_hexdump size k5 k6 (((mem b).drop o).take (o' - o)) q
    refine ⟨r, ?_, hd⟩
    unfold viaRange
    rw [if_pos ⟨by rw [ha, hb], by rw [ha]; exact k1⟩, ha]
    simp only
    unfold body
    rw [if_pos ⟨rfl, k1, k2⟩, range, if_pos ⟨rfl, h1, h2⟩, k3]
    show some (hexdump e.size _ q) = _
    rw [k4, hr]
  constructor
  · unfold call2
    rw [if_pos ⟨by rw [ha, hb], by rw [ha]; exact k1⟩]
    exact key []
  · unfold call3
    rw [if_pos ((toView_iff tc).2 hc), hp]
    exact key p

/-- Containers with cbegin() and cend() of such a type dump their elements, with or without a prompt. -/
theorem c139_container_partial (mem : Mem) (n : Nat) (t : Bool) (i : It) (tb : Ty) (e : Elem) (size : Nat) (xs : List Int) (vb : Val) (p : Str)
    (hf : Forward i e) (hm : Members i) (hi : Integer e size) (hb : IsText tb) (hp : text mem vb = .ok p) :
    (∃ r, call1 (.obj n (some i) (some i) t) (.data xs) = some (.ok r) ∧ IsDump size [] xs r) ∧
    (∃ r, call2 mem (.obj n (some i) (some i) t) tb (.data xs) vb = some (.ok r) ∧ IsDump size p xs r) := by
  obtain ⟨k1, k2, k3, k4, k5, k6⟩ := iterator_of hf hm hi
  have hcont : isContainer (.obj n (some i) (some i) t) = true := by
    cases e with
    | bool => exact hi.elim
    | enum => exact hi.elim
    | other => exact hi.elim
    | char => simp [isContainer, k3, integral]
    | int k => simp [isContainer, k3, integral]
  have key : ∀ q, ∃ r, viaContainer (.obj n (some i) (some i) t) (.data xs) (.ok q) = some (.ok r) ∧ IsDump size q xs r := by
    intro q
    obtain ⟨r, hr, hd⟩ := c22_hexdump size k5 k6 xs q
    refine ⟨r, ?_, hd⟩
    simp only [viaContainer, hcont, if_true]
    unfold body
    rw [if_pos ⟨rfl, k1, k2⟩, k3]
    show some (hexdump e.size xs q) = _
    rw [k4, hr]
  refine ⟨key [], ?_⟩
  unfold call2
  rw [if_neg (by simp [decay, isIteratorT]), hcont, (toView_iff tb).2 hb, hp]
  exact key p

theorem accepted {b e : It} {xs : Res (List Int)} {q : Res Str} {r : Res Str} (h : body b e xs q = some r) (hs : Sane b) :
    b = e ∧ ∃ el, Forward b el ∧ IsInt el := by
  unfold body at h
  split at h
  · rename_i hc
    obtain ⟨h1, h2, h3⟩ := hc
    refine ⟨h1, ?_⟩
    have hb : ∃ el, valueType b = some el ∧ integral el = true := by
      cases b with
      | ptr e' c => exact ⟨e', rfl, h2⟩
      | cls c =>
        simp only [isIterator, Bool.and_eq_true] at h2
        have h4 := h2.1.1.1
        cases hv : c.value with
        | none => rw [hv] at h4; cases h4
        | some el => rw [hv] at h4; exact ⟨el, hv, h4⟩
    obtain ⟨el, e1, e2⟩ := hb
    have e3 : IsInt el := by
      unfold hasUnsigned at h3
      rw [e1] at h3
      cases el with
      | char => exact .inl rfl
      | int k => exact .inr ⟨k, rfl⟩
      | bool => cases h3
      | enum => cases e2
      | other => cases e2
    refine ⟨el, ?_, e3⟩
    cases b with
    | ptr e' c =>
      cases e1
      exact .ptr _ _
    | cls c =>
      refine .cls c el e1 ?_
      simp only [isIterator, Bool.and_eq_true, decide_eq_true_eq] at h2
      cases hc : c.cat with
      | forward => rfl
      | input => exact absurd hc h2.1.1.2
      | output =>
        have := hs hc el e1
        subst this
        rcases e3 with e3 | ⟨k, e3⟩ <;> cases e3
  · cases h

/-- Nothing else compiles: a call with two arguments is a range of two forward iterators of one type, or a container of such elements and a
text. -/
theorem c139_only (mem : Mem) (ta tb : Ty) (va vb : Val) (r : Res Str) (h : call2 mem ta tb va vb = some r)
    (hs : ∀ i, decay ta = .it i → Sane i) (hsc : ∀ n i e t, ta = .obj n (some i) e t → Sane i) :
    (∃ i e, decay ta = .it i ∧ decay tb = .it i ∧ Forward i e ∧ IsInt e) ∨
    (∃ n i t e, ta = .obj n (some i) (some i) t ∧ Forward i e ∧ IsInt e ∧ IsText tb) := by
  unfold call2 at h
  split at h
  · rename_i hc
    left
    unfold viaRange at h
    rw [if_pos hc] at h
    split at h
    · rename_i i hi
      obtain ⟨-, e, he⟩ := accepted h (hs i hi)
      exact ⟨i, e, hi, by rw [← hc.1, hi], he⟩
    · cases h
  · split at h
    · rename_i hc
      simp only [Bool.and_eq_true] at hc
      right
      unfold viaContainer at h
      split at h
      · split at h
        · obtain ⟨rfl, el, h1, h2⟩ := accepted h (hsc _ _ _ _ rfl)
          exact ⟨_, _, _, el, rfl, h1, h2, (toView_iff tb).1 hc.2⟩
        · cases h
      · cases h
    · cases h

/-- bool is an integral type, but ranges and containers of it cannot be dumped. -/
theorem c139_bool_violated (mem : Mem) (i : It) (hf : Forward i .bool) (n : Nat) (t : Bool) (va vb : Val) (prompt : Res Str) :
    integral .bool = true ∧ viaRange mem (.it i) (.it i) va vb prompt = none ∧ call1 (.obj n (some i) (some i) t) va = none := by
  have hv : valueType i = some .bool := by cases hf <;> [rfl; assumption]
  have hu : hasUnsigned i = false := by simp [hasUnsigned, hv]
  refine ⟨rfl, ?_, ?_⟩
  · unfold viaRange
    split
    · simp [decay, body, hu]
    · rfl
  · cases va with
    | pos => rfl
    | data xs =>
      show (if _ then _ else _) = _
      split
      · simp [body, hu]
      · rfl

/-- Forward iterators whose operator `*` or `++` is not a member are not accepted. -/
theorem c139_member_violated (mem : Mem) (c : Cls) (h : c.deref = false ∨ c.incr = false) (va vb : Val) (prompt : Res Str) :
    viaRange mem (.it (.cls c)) (.it (.cls c)) va vb prompt = none := by
  unfold viaRange
  rw [if_neg]
  rintro ⟨-, hc⟩
  simp only [decay, isIteratorT, isIterator, Bool.and_eq_true] at hc
  rcases h with h | h
  · rw [h] at hc; simp at hc
  · rw [h] at hc; simp at hc

/-- A string literal with a prompt, hexdump("text", "prompt"), compiles as a range from one literal to the other: the behaviour is undefined. -/
theorem c139_literal_violated (mem : Mem) (n m b b' : Nat) (hb : b ≠ b') :
    call2 mem (.array .char true n) (.array .char true m) (.pos b 0) (.pos b' 0) = some .ub := by
  unfold call2
  rw [if_pos ⟨rfl, rfl⟩]
  unfold viaRange
  rw [if_pos ⟨rfl, rfl⟩]
  simp only [decay]
  unfold body
  rw [if_pos ⟨rfl, rfl, rfl⟩, range, if_neg (fun h => hb h.1)]
  rfl

/-! ## Examples -/

/-- std::vector<int>::const_iterator and std::vector<int>. -/
def vecIt : It := .cls ⟨0, some (.int 4), .forward, true, true⟩
def vec : Ty := .obj 0 (some vecIt) (some vecIt) false
/-- std::string. -/
def str : Ty := .obj 1 (some (.cls ⟨1, some .char, .forward, true, true⟩)) (some (.cls ⟨1, some .char, .forward, true, true⟩)) true
def mem0 : Mem := fun b => if b = 0 then [104, 105, 0] else [112, 0]

example : Forward vecIt (.int 4) ∧ Members vecIt ∧ Integer (.int 4) 4 ∧ Sane vecIt := ⟨.cls _ _ rfl rfl, ⟨rfl, rfl⟩, ⟨rfl, by decide, by decide⟩, by simp [Sane, vecIt]⟩
example : (call2 mem0 vec (.array .char true 2) (.data [1, -1]) (.pos 1 0)).isSome = true := by decide +kernel
example : (call2 mem0 str str (.data [104]) (.data [112])).isSome = true := by decide +kernel
example : call2 mem0 (.it vecIt) vec (.pos 0 0) (.data []) = none := by decide +kernel
example : call1 (.array .char true 3) (.pos 0 0) = none := by decide +kernel
example : (call3 mem0 (.array .char true 3) (.it (.ptr .char true)) str (.pos 0 0) (.pos 0 2) (.data [112])).isSome = true := by decide +kernel

end Gul14.Hexdump.Calls
