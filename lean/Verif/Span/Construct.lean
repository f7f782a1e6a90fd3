import Verif.Span.Props

/-!
# Construction of spans (C105)
-/
namespace Gul14.Spec.SpanConv

/-- The type of an element: an object type with its qualifiers. Qualifiers inside the type (pointers to
const) count as part of the object type. The element types that the constraints of span.h:205-283
compare. -/
structure Elem where
  base : Nat
  cst : Bool
  vol : Bool
  deriving DecidableEq, Repr

/-- The same object type, and no qualifier is lost. -/
def Elem.Compatible (from_ to_ : Elem) : Prop :=
  from_.base = to_.base ∧ (from_.cst = true → to_.cst = true) ∧ (from_.vol = true → to_.vol = true)

end Gul14.Spec.SpanConv

namespace Gul14.Spans
open Gul14.Spec.SpanConv

/-- Whether `from_ (*)[]` converts to `to_ (*)[]` (is_container_element_type_compatible, span.h:141-150, and 278-279): a
qualification conversion. -/
def Elem.conv (from_ to_ : Elem) : Bool :=
  (from_.base == to_.base) && (!from_.cst || to_.cst) && (!from_.vol || to_.vol)

/-- What a span can be made from: an array, a std::array, an object of another class with data() and
size() (which is not a span), or a span. `cst` says whether the object is const, `tmp` whether it is a
temporary. The `n` elements begin at `p` in the memory. data() gives pointers to `e` for objects that
are not const, and to `ec` for const ones. The arguments of the constructors of span.h:205-283. -/
inductive Src where
  | array (e : Elem) (p n : Nat)
  | stdArray (e : Elem) (cst tmp : Bool) (p n : Nat)
  | object (e ec : Elem) (cst tmp : Bool) (p n : Nat)
  | span (e : Elem) (s : Span)

/-- The constructors, span.h:222-283. -/
inductive Ctor where
  | array | stdArray | stdArrayC | object | objectC | span
  deriving DecidableEq, Repr

/-- Whether a span of this extent can be made from `n` elements: `E == dynamic_extent || N == E`. -/
def extentOk (ext : Option Nat) (n : Nat) : Bool :=
  match ext with
  | none => true
  | some k => n == k

/-- The constructors that can be called for span<t, ext>, and the span they make.
* span(element_type (&arr)[N]), span.h:222-230: the reference binds to arrays of elements with fewer qualifiers.
* span(std::array<value_type, N>&), span.h:232-241, where value_type has no qualifiers (span.h:189).
* span(const std::array<value_type, N>&), span.h:243-252.
* span(Container&), span.h:254-264: Container is deduced as a const type for const objects; temporaries do not bind.
* span(const Container&), span.h:266-276.
* span(const span<OtherElementType, OtherExtent>&), span.h:281-290, and the copy constructor, 279. -/
def construct (t : Elem) (ext : Option Nat) : Ctor → Src → Option Span
  | .array, .array e p n =>
      if extentOk ext n && Elem.conv e t && Elem.conv t t then some (make ext p n) else none
  | .stdArray, .stdArray e cst tmp p n =>
      if e = ⟨t.base, false, false⟩ ∧ cst = false ∧ tmp = false then
        if extentOk ext n && Elem.conv e t then some (make ext p n) else none
      else none
  | .stdArrayC, .stdArray e _ _ p n =>
      if e = ⟨t.base, false, false⟩ then
        if extentOk ext n && Elem.conv { e with cst := true } t then some (make ext p n) else none
      else none
  | .object, .object e ec cst tmp p n =>
      if tmp = true ∧ cst = false then none
      else if ext = none ∧ Elem.conv (if cst then ec else e) t then some (make ext p n) else none
  | .objectC, .object _ ec _ _ p n =>
      if ext = none ∧ Elem.conv ec t then some (make ext p n) else none
  | .span, .span e s =>
      if (ext = s.extent ∨ ext = none) ∧ Elem.conv e t then some (make ext s.ptr s.size) else none
  | _, _ => none

/-- span(first, last), span.h:216-219: the difference of the pointers. -/
def fromPointers (ext : Option Nat) (first last : Nat) : Span := make ext first (last - first)

/-- span(), span.h:204-208: only for a dynamic extent and the extent 0; the pointer is null (here: position 0). -/
def empty? (ext : Option Nat) : Option Span := if ext = none ∨ ext = some 0 then some ⟨ext, 0, 0⟩ else none

/-! ### Specification -/

/-- The elements of the source and where they are. -/
def Src.start : Src → Nat
  | .array _ p _ | .stdArray _ _ _ p _ | .object _ _ _ _ p _ => p
  | .span _ s => s.ptr

def Src.count : Src → Nat
  | .array _ _ n | .stdArray _ _ _ _ n | .object _ _ _ _ _ n => n
  | .span _ s => s.size

def Src.elements {α : Type} (mem : List α) (s : Src) : List α := (mem.drop s.start).take s.count

/-- The type as which the elements can be used through the source: elements of a const or temporary std::array are const;
data() of temporaries is that of const objects. -/
def Src.elem : Src → Elem
  | .array e _ _ => e
  | .stdArray e cst tmp _ _ => { e with cst := e.cst || cst || tmp }
  | .object e ec cst tmp _ _ => if cst || tmp then ec else e
  | .span e _ => e

/-- The number of elements as far as it is part of the type. -/
def Src.static : Src → Option Nat
  | .array _ _ n | .stdArray _ _ _ _ n => some n
  | .object .. => none
  | .span _ s => s.extent

/-- data() of a const object does not give more rights than that of an object that is not const. -/
def Src.Normal : Src → Prop
  | .object e ec _ _ _ _ => e.Compatible ec
  | _ => True

theorem conv_iff (a b : Elem) : Elem.conv a b = true ↔ a.Compatible b := by
  obtain ⟨ab, ac, av⟩ := a
  obtain ⟨bb, bc, bv⟩ := b
  unfold Elem.conv Elem.Compatible
  cases ac <;> cases av <;> cases bc <;> cases bv <;> simp

theorem extentOk_iff (ext : Option Nat) (n : Nat) : extentOk ext n = true ↔ ext = none ∨ ext = some n := by
  cases ext with
  | none => simp [extentOk]
  | some k =>
    simp only [extentOk, beq_iff_eq, reduceCtorEq, false_or, Option.some.injEq]
    exact eq_comm

/-- What is common to all constructors. -/
theorem construct_spec {t : Elem} {ext : Option Nat} {c : Ctor} {src : Src} {s : Span}
    (h : construct t ext c src = some s) :
    (s = make ext src.start src.count) ∧ (ext = none ∨ ext = src.static) ∧ (ext = none ∨ ext = some src.count) ∧
    (src.Normal → src.elem.Compatible t) := by
  cases c <;> cases src <;> simp only [construct, reduceCtorEq] at h
  case array.array e p n =>
    split at h
    · rename_i hc
      simp only [Bool.and_eq_true] at hc
      have he := (extentOk_iff _ _).mp hc.1.1
      cases h
      exact ⟨rfl, by simpa [Src.static] using he, by simpa [Src.count] using he, fun _ => (conv_iff _ _).mp hc.1.2⟩
    · cases h
  case stdArray.stdArray e cst tmp p n =>
    split at h
    · rename_i hb
      split at h
      · rename_i hc
        simp only [Bool.and_eq_true] at hc
        have he := (extentOk_iff _ _).mp hc.1
        cases h
        refine ⟨rfl, by simpa [Src.static] using he, by simpa [Src.count] using he, fun _ => ?_⟩
        have := (conv_iff _ _).mp hc.2
        simpa [Src.elem, hb.2.1, hb.2.2] using this
      · cases h
    · cases h
  case stdArrayC.stdArray e cst tmp p n =>
    split at h
    · split at h
      · rename_i hc
        simp only [Bool.and_eq_true] at hc
        have he := (extentOk_iff _ _).mp hc.1
        cases h
        refine ⟨rfl, by simpa [Src.static] using he, by simpa [Src.count] using he, fun _ => ?_⟩
        have := (conv_iff _ _).mp hc.2
        exact ⟨this.1, fun _ => this.2.1 rfl, this.2.2⟩
      · cases h
    · cases h
  case object.object e ec cst tmp p n =>
    by_cases hb : tmp = true ∧ cst = false
    · rw [if_pos hb] at h; cases h
    · rw [if_neg hb] at h
      by_cases hc : ext = none ∧ Elem.conv (if cst then ec else e) t = true
      · rw [if_pos hc] at h
        cases h
        refine ⟨rfl, .inl hc.1, .inl hc.1, fun _ => ?_⟩
        have h2 := (conv_iff _ _).mp hc.2
        have : (cst || tmp) = cst := by cases cst <;> cases tmp <;> simp_all
        simp only [Src.elem, this]
        exact h2
      · rw [if_neg hc] at h; cases h
  case objectC.object e ec cst tmp p n =>
    split at h
    · rename_i hc
      cases h
      refine ⟨rfl, .inl hc.1, .inl hc.1, fun hn => ?_⟩
      have h2 := (conv_iff _ _).mp hc.2
      simp only [Src.elem]
      split
      · exact h2
      · exact ⟨hn.1.trans h2.1, fun x => h2.2.1 (hn.2.1 x), fun x => h2.2.2 (hn.2.2 x)⟩
    · cases h
  case span.span e s' =>
    split at h
    · rename_i hc
      cases h
      refine ⟨rfl, ?_, ?_, fun _ => (conv_iff _ _).mp hc.2⟩
      · rcases hc.1 with h1 | h1
        · exact .inr h1
        · exact .inl h1
      · rcases hc.1 with h1 | h1
        · cases hs : s'.extent with
          | none => left; rw [h1, hs]
          | some k => right; simp [h1, hs, Src.count, Span.size]
        · exact .inl h1
    · cases h

/-- **C105.**  A span shows exactly the elements of what it is made from, whichever constructor is taken; no element is
copied: it refers to the same places. -/
theorem c105_elements {α : Type} (mem : List α) (t : Elem) (ext : Option Nat) (c : Ctor) (src : Src) (s : Span)
    (h : construct t ext c src = some s) (hv : src.start + src.count ≤ mem.length) (hm : mem.length < dynamicExtent) :
    Valid mem s ∧ s.ptr = src.start ∧ s.size = src.count ∧ iterate mem s = .ok (src.elements mem) := by
  obtain ⟨rfl, -, he, -⟩ := construct_spec h
  have h1 := size_make ext src.start src.count he
  have hV : Valid mem (make ext src.start src.count) := ⟨by rw [h1]; exact hv, hm⟩
  refine ⟨hV, rfl, h1, ?_⟩
  rw [(c33_access mem _ hV).2.2.2, view_make mem ext _ _ he]
  rfl

/-- **C105.**  A static extent always is the number of elements, known from the type of the source. -/
theorem c105_extent (t : Elem) (k : Nat) (c : Ctor) (src : Src) (s : Span) (h : construct t (some k) c src = some s) :
    src.static = some k ∧ src.count = k := by
  obtain ⟨-, h1, h2, -⟩ := construct_spec h
  simp only [reduceCtorEq, false_or, Option.some.injEq] at h1 h2
  exact ⟨h1.symm, h2.symm⟩

/-- **C105.**  No constructor gives rights that the source does not give: const and volatile are never lost, and the type
of the elements is never changed. -/
theorem c105_const (t : Elem) (ext : Option Nat) (c : Ctor) (src : Src) (s : Span)
    (h : construct t ext c src = some s) (hn : src.Normal) : src.elem.Compatible t :=
  (construct_spec h).2.2.2 hn

/-- Like std::span: a span can be made if the types of the elements are compatible, and the extent is dynamic or that of
the type of the source. -/
def Wanted (t : Elem) (ext : Option Nat) (src : Src) : Prop :=
  src.elem.Compatible t ∧ (ext = none ∨ ext = src.static)

/-- **C105** (part).  Every such span can be made, except from a std::array whose element type is itself const or
volatile. -/
theorem c105_complete_partial (t : Elem) (ext : Option Nat) (src : Src) (hn : src.Normal)
    (hstd : ∀ e cst tmp p n, src = .stdArray e cst tmp p n → e.cst = false ∧ e.vol = false) :
    (∃ c s, construct t ext c src = some s) ↔ Wanted t ext src := by
  constructor
  · rintro ⟨c, s, h⟩
    obtain ⟨-, h1, -, h2⟩ := construct_spec h
    exact ⟨h2 hn, h1⟩
  · rintro ⟨h1, h2⟩
    cases src with
    | array e p n =>
      have h2 : ext = none ∨ ext = some n := h2
      have := (extentOk_iff ext n).mpr h2
      have h3 := (conv_iff e t).mpr h1
      have h4 : Elem.conv t t = true := (conv_iff t t).mpr ⟨rfl, id, id⟩
      exact ⟨.array, make ext p n, by simp [construct, this, h3, h4]⟩
    | stdArray e cst tmp p n =>
      have h2 : ext = none ∨ ext = some n := h2
      have hx := (extentOk_iff ext n).mpr h2
      obtain ⟨h3, h4⟩ := hstd e cst tmp p n rfl
      obtain ⟨b, ec, ev⟩ := e
      simp only at h3 h4
      subst h3 h4
      obtain ⟨hb, hc, -⟩ := h1
      simp only [Src.elem, Bool.false_or] at hb hc
      by_cases hct : (cst || tmp) = true
      · have htc := hc hct
        refine ⟨.stdArrayC, make ext p n, ?_⟩
        have : Elem.conv ⟨b, true, false⟩ t = true := (conv_iff _ _).mpr ⟨hb, fun _ => htc, by simp⟩
        simp [construct, hb, hx, hb ▸ this]
      · have h5 : cst = false ∧ tmp = false := by simpa using hct
        refine ⟨.stdArray, make ext p n, ?_⟩
        have : Elem.conv ⟨b, false, false⟩ t = true := (conv_iff _ _).mpr ⟨hb, by simp, by simp⟩
        simp [construct, hb, hx, hb ▸ this, h5]
    | object e ec cst tmp p n =>
      have hd : ext = none := by simpa [Src.static] using h2
      subst hd
      by_cases hct : (cst || tmp) = true
      · refine ⟨.objectC, make none p n, ?_⟩
        have h6 : ec.Compatible t := by simpa [Src.elem, hct] using h1
        simp [construct, (conv_iff _ _).mpr h6]
      · have h5 : cst = false ∧ tmp = false := by simpa using hct
        refine ⟨.object, make none p n, ?_⟩
        have h6 : e.Compatible t := by simpa [Src.elem, h5] using h1
        simp [construct, (conv_iff _ _).mpr h6, h5]
    | span e s =>
      refine ⟨.span, make ext s.ptr s.size, ?_⟩
      have h2 : ext = none ∨ ext = s.extent := h2
      have h7 : ext = s.extent ∨ ext = none := h2.symm
      have h8 : Elem.conv e t = true := (conv_iff _ _).mpr h1
      simp [construct, h7, h8]

/-- **C105.**  From a `std::array<const int, 3>` no span can be made: span<const int> expects a std::array<int, N>. -/
theorem c105_complete_violated (t : Elem) (ext : Option Nat) (b : Nat) (vol cst tmp : Bool) (p n : Nat) (c : Ctor) :
    construct t ext c (.stdArray ⟨b, true, vol⟩ cst tmp p n) = none ∧
    Wanted ⟨b, true, vol⟩ (some n) (.stdArray ⟨b, true, vol⟩ cst tmp p n) := by
  refine ⟨?_, ⟨rfl, fun _ => rfl, id⟩, .inr rfl⟩
  cases c <;> simp [construct]

/-- **C105.**  The constructors for one source agree: whichever is taken, the span is the same. -/
theorem c105_unique (t : Elem) (ext : Option Nat) (c c' : Ctor) (src : Src) (s s' : Span)
    (h : construct t ext c src = some s) (h' : construct t ext c' src = some s') : s = s' := by
  rw [(construct_spec h).1, (construct_spec h').1]

/-- **C105.**  Made from two pointers, a span of dynamic extent shows the elements between them; without arguments there is
an empty span, only for a dynamic extent and for the extent 0. -/
theorem c105_pointers {α : Type} (mem : List α) (first last : Nat) (ext : Option Nat) (h : first ≤ last)
    (hl : last ≤ mem.length) (hm : mem.length < dynamicExtent) (he : ext = none ∨ ext = some (last - first)) :
    iterate mem (fromPointers ext first last) = .ok ((mem.take last).drop first) ∧
    (∀ e s, empty? e = some s → s.size = 0) ∧ (∀ e, (empty? e).isSome = true ↔ e = none ∨ e = some 0) := by
  refine ⟨?_, ?_, ?_⟩
  · have h1 := size_make ext first (last - first) he
    have hV : Valid mem (make ext first (last - first)) := ⟨by rw [h1]; simp only [make]; omega, hm⟩
    unfold fromPointers
    rw [(c33_access mem _ hV).2.2.2, view_make mem ext _ _ he, List.drop_take]
  · intro e s hs
    unfold empty? at hs
    split at hs
    · rename_i h0
      cases hs
      rcases h0 with rfl | rfl <;> rfl
    · cases hs
  · intro e
    unfold empty?
    split <;> simp_all

/-! ### Examples -/

/-- A span<const int> of three elements from an array of int. -/
example : construct ⟨0, true, false⟩ (some 3) .array (.array ⟨0, false, false⟩ 2 3) = some ⟨some 3, 2, 3⟩ := by
  decide +kernel
/-- No span<int> from a const std::array<int, 3>. -/
example : ∀ c, construct ⟨0, false, false⟩ none c (.stdArray ⟨0, false, false⟩ true false 2 3) = none := by
  intro c; cases c <;> rfl
/-- A span<int, dynamic_extent> does not become a span<int, 3>, whatever its size. -/
example : ∀ c, construct ⟨0, false, false⟩ (some 3) c (.span ⟨0, false, false⟩ ⟨none, 2, 3⟩) = none := by
  intro c; cases c <;> rfl
/-- From a temporary vector only a span<const int>. -/
example : construct ⟨0, true, false⟩ none .objectC (.object ⟨0, false, false⟩ ⟨0, true, false⟩ false true 2 3) =
    some ⟨none, 2, 3⟩ := by decide +kernel
example : ∀ c, construct ⟨0, false, false⟩ none c (.object ⟨0, false, false⟩ ⟨0, true, false⟩ false true 2 3) = none := by
  intro c; cases c <;> rfl

end Gul14.Spans
