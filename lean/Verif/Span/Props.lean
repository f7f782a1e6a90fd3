import Verif.Basic
import Mathlib.Order.Defs.LinearOrder
import Mathlib.Order.Nat

/-!
# span (include/gul14/span.h): model, specification, properties

The elements live in an array, modelled as a list; a pointer is an index into it (one past the end
included), and forming any other pointer or reading past the end is undefined behaviour.
-/
namespace Gul14.Spec

/-- Lexicographic order: a proper prefix comes first, otherwise the first difference decides. -/
def SeqLt {α : Type} (lt : α → α → Prop) (a b : List α) : Prop :=
  (∃ y r, b = a ++ y :: r) ∨
  ∃ p x y r s, a = p ++ x :: r ∧ b = p ++ y :: s ∧ lt x y

end Gul14.Spec

namespace Gul14.Spans
open Spec

/-- dynamic_extent: the largest std::size_t. span.h:49. -/
def dynamicExtent : Nat := sizeMod - 1

/-- A span: extent (`none` for dynamic_extent) and storage, span.h:56-77.  With a static extent the
size is the extent. -/
structure Span where
  extent : Option Nat
  ptr : Nat
  dynSize : Nat
  deriving DecidableEq, Repr

/-- size(), span.h:353. -/
def Span.size (s : Span) : Nat := s.extent.getD s.dynSize

/-- A difference of two std::size_t values. -/
def subSize (a b : Nat) : Nat := (a + sizeMod - b) % sizeMod

section
variable {α : Type}

/-- Pointer arithmetic within the array. -/
def advance (mem : List α) (p n : Nat) : Res Nat := if p + n ≤ mem.length then .ok (p + n) else .ub

/-- span(ptr, count) of the given extent, span.h:211-214: a static extent ignores the count. -/
def make (extent : Option Nat) (p count : Nat) : Span := ⟨extent, p, count⟩

/-- first<Count>(), span.h:300-304. -/
def firstS (s : Span) (count : Nat) : Span := make (some count) s.ptr count

/-- last<Count>(), span.h:307-311. -/
def lastS (mem : List α) (s : Span) (count : Nat) : Res Span :=
  (advance mem s.ptr (subSize s.size count)).map fun p => make (some count) p count

/-- subspan<Offset, Count>(), span.h:313-327; the result type is subspan_return_t. -/
def subspanS (mem : List α) (s : Span) (offset : Nat) (count : Nat := dynamicExtent) : Res Span :=
  (advance mem s.ptr offset).map fun p =>
    make (if count ≠ dynamicExtent then some count else s.extent.map (subSize · offset)) p
      (if count ≠ dynamicExtent then count else subSize s.size offset)

/-- first(count), span.h:330-334. -/
def first (s : Span) (count : Nat) : Span := make none s.ptr count

/-- last(count), span.h:337-341. -/
def last (mem : List α) (s : Span) (count : Nat) : Res Span :=
  (advance mem s.ptr (subSize s.size count)).map fun p => make none p count

/-- subspan(offset, count = dynamic_extent), span.h:344-349. -/
def subspan (mem : List α) (s : Span) (offset : Nat) (count : Nat := dynamicExtent) : Res Span :=
  (advance mem s.ptr offset).map fun p =>
    make none p (if count = dynamicExtent then subSize s.size offset else count)

/-- Reading through a pointer. -/
def deref (mem : List α) (p : Nat) : Res α :=
  match mem[p]? with
  | some x => .ok x
  | none => .ub

/-- operator[], span.h:369-372; also get<N>, span.h:543-547. -/
def at' (mem : List α) (s : Span) (idx : Nat) : Res α := deref mem (s.ptr + idx)

/-- front(), span.h:375-378. -/
def front (mem : List α) (s : Span) : Res α := deref mem s.ptr

/-- back(), span.h:381-384. -/
def back (mem : List α) (s : Span) : Res α :=
  (advance mem s.ptr (subSize s.size 1)).bind (deref mem)

/-- The elements visited by iterating from begin() to end(), span.h:391-394. -/
def iterFrom (mem : List α) (p : Nat) : Nat → Res (List α)
  | 0 => .ok []
  | n + 1 => (deref mem p).bind fun x => (iterFrom mem (p + 1) n).map (x :: ·)

def iterate (mem : List α) (s : Span) : Res (List α) := iterFrom mem s.ptr s.size

/-- Assignment through operator[], `s[idx] = v`. -/
def write (mem : List α) (s : Span) (idx : Nat) (v : α) : Res (List α) :=
  if s.ptr + idx < mem.length then .ok (mem.set (s.ptr + idx) v) else .ub

variable [LinearOrder α]

/-- The loop of operator==, span.h:449-453; `n` iterations remain. -/
def eqLoop (ml mr : List α) (l r : Span) (i : Nat) : Nat → Res Bool
  | 0 => .ok true
  | n + 1 =>
      (at' ml l i).bind fun x => (at' mr r i).bind fun y =>
      if x ≠ y then .ok false else eqLoop ml mr l r (i + 1) n

/-- operator==, span.h:442-456. -/
def eq (ml mr : List α) (l r : Span) : Res Bool :=
  if l.size ≠ r.size then .ok false else eqLoop ml mr l r 0 l.size

/-- operator!=, span.h:458-462. -/
def ne (ml mr : List α) (l r : Span) : Res Bool := (eq ml mr l r).map (!·)

/-- The loop of operator<, span.h:470-477, and the final comparison. -/
def ltLoop (ml mr : List α) (l r : Span) (i : Nat) : Nat → Res Bool
  | 0 => .ok (decide (l.size < r.size))
  | n + 1 =>
      (at' ml l i).bind fun x => (at' mr r i).bind fun y =>
      if x < y then .ok true
      else if x > y then .ok false
      else ltLoop ml mr l r (i + 1) n

/-- operator<, span.h:464-479. -/
def lt (ml mr : List α) (l r : Span) : Res Bool :=
  ltLoop ml mr l r 0 (if l.size < r.size then l.size else r.size)

/-- operator<=, span.h:481-485. -/
def le (ml mr : List α) (l r : Span) : Res Bool := (lt mr ml r l).map (!·)
/-- operator>, span.h:487-491. -/
def gt (ml mr : List α) (l r : Span) : Res Bool := lt mr ml r l
/-- operator>=, span.h:493-497. -/
def ge (ml mr : List α) (l r : Span) : Res Bool := (lt ml mr l r).map (!·)

end

/-- as_bytes, span.h:509-516 (as_writable_bytes, 526-534, has the same storage), for elements of
`width` bytes; pointers into the byte representation are byte offsets. -/
def asBytes (width : Nat) (s : Span) : Span :=
  make (s.extent.map (· * width)) (s.ptr * width) (s.size * width % sizeMod)

/-! ## Specification -/

section
variable {α : Type}

/-- The span refers to elements of the array. -/
def Valid (mem : List α) (s : Span) : Prop :=
  s.ptr + s.size ≤ mem.length ∧ mem.length < dynamicExtent

/-- The elements a span shows. -/
def view (mem : List α) (s : Span) : List α := (mem.drop s.ptr).take s.size

theorem view_length {mem : List α} {s : Span} (h : Valid mem s) :
    (view mem s).length = s.size := by
  unfold view; rw [List.length_take, List.length_drop]; have := h.1; omega

theorem subSize_eq {a b : Nat} (h : b ≤ a) (ha : a < sizeMod) : subSize a b = a - b := by
  unfold subSize
  have : a + sizeMod - b = (a - b) + sizeMod := by omega
  rw [this, Nat.add_mod_right, Nat.mod_eq_of_lt (by omega)]

theorem advance_ok {mem : List α} {p n : Nat} (h : p + n ≤ mem.length) :
    advance mem p n = .ok (p + n) := by unfold advance; rw [if_pos h]

theorem size_lt {mem : List α} {s : Span} (h : Valid mem s) : s.size < sizeMod - 1 := by
  have := h.1; have := h.2; unfold dynamicExtent at this; omega

theorem view_make (mem : List α) (e : Option Nat) (p n : Nat) (he : e = none ∨ e = some n) :
    view mem (make e p n) = (mem.drop p).take n := by
  unfold view make Span.size
  rcases he with rfl | rfl <;> rfl

theorem size_make (e : Option Nat) (p n : Nat) (he : e = none ∨ e = some n) :
    (make e p n).size = n := by
  unfold make Span.size
  rcases he with rfl | rfl <;> rfl

/-- first: the first `n` elements. -/
theorem c33_first (mem : List α) (s : Span) (h : Valid mem s) (n : Nat) (hn : n ≤ s.size) :
    (view mem (first s n) = (view mem s).take n ∧ Valid mem (first s n)) ∧
    (view mem (firstS s n) = (view mem s).take n ∧ Valid mem (firstS s n)) := by
  have e : (mem.drop s.ptr).take n = (view mem s).take n := by
    unfold view; rw [List.take_take]; congr 1; omega
  have h1 := h.1
  have h2 := h.2
  refine ⟨⟨?_, ?_, h2⟩, ?_, ?_, h2⟩
  · unfold first; rw [view_make _ _ _ _ (.inl rfl), e]
  · unfold first; rw [size_make _ _ _ (.inl rfl)]; simp only [make]; omega
  · unfold firstS; rw [view_make _ _ _ _ (.inr rfl), e]
  · unfold firstS; rw [size_make _ _ _ (.inr rfl)]; simp only [make]; omega

/-- last: the last `n` elements. -/
theorem c33_last (mem : List α) (s : Span) (h : Valid mem s) (n : Nat) (hn : n ≤ s.size) :
    ∃ t t', last mem s n = .ok t ∧ lastS mem s n = .ok t' ∧
      view mem t = (view mem s).drop (s.size - n) ∧ Valid mem t ∧
      view mem t' = (view mem s).drop (s.size - n) ∧ Valid mem t' := by
  have h1 := h.1
  have h2 := h.2
  have hsz := size_lt h
  have e : (mem.drop (s.ptr + (s.size - n))).take n = (view mem s).drop (s.size - n) := by
    unfold view
    rw [List.drop_take, List.drop_drop]
    congr 1
    omega
  refine ⟨make none (s.ptr + (s.size - n)) n, make (some n) (s.ptr + (s.size - n)) n,
    ?_, ?_, ?_, ⟨?_, h2⟩, ?_, ?_, h2⟩
  · unfold last advance; rw [subSize_eq hn (by omega), if_pos (by omega)]; rfl
  · unfold lastS advance; rw [subSize_eq hn (by omega), if_pos (by omega)]; rfl
  · rw [view_make _ _ _ _ (.inl rfl), e]
  · rw [size_make _ _ _ (.inl rfl)]; simp only [make]; omega
  · rw [view_make _ _ _ _ (.inr rfl), e]
  · rw [size_make _ _ _ (.inr rfl)]; simp only [make]; omega

/-- subspan with a count: `count` elements from `offset`. -/
theorem c33_subspan (mem : List α) (s : Span) (h : Valid mem s) (offset count : Nat)
    (ho : offset + count ≤ s.size) :
    ∃ t t', subspan mem s offset count = .ok t ∧ subspanS mem s offset count = .ok t' ∧
      view mem t = ((view mem s).drop offset).take count ∧ Valid mem t ∧ t.size = count ∧
      view mem t' = ((view mem s).drop offset).take count ∧ Valid mem t' ∧ t'.size = count := by
  have h1 := h.1
  have h2 := h.2
  have hsz := size_lt h
  have hc : count ≠ dynamicExtent := by omega
  have e : (mem.drop (s.ptr + offset)).take count = ((view mem s).drop offset).take count := by
    unfold view
    rw [List.drop_take, List.drop_drop, List.take_take]
    congr 1
    omega
  refine ⟨make none (s.ptr + offset) count, make (some count) (s.ptr + offset) count,
    ?_, ?_, ?_, ⟨?_, h2⟩, ?_, ?_, ⟨?_, h2⟩, ?_⟩
  · unfold subspan; rw [advance_ok (by omega), if_neg hc]; rfl
  · unfold subspanS; rw [advance_ok (by omega), if_pos hc, if_pos hc]; rfl
  · rw [view_make _ _ _ _ (.inl rfl), e]
  · rw [size_make _ _ _ (.inl rfl)]; simp only [make]; omega
  · exact size_make _ _ _ (.inl rfl)
  · rw [view_make _ _ _ _ (.inr rfl), e]
  · rw [size_make _ _ _ (.inr rfl)]; simp only [make]; omega
  · exact size_make _ _ _ (.inr rfl)

/-- subspan without a count: all elements from `offset`. -/
theorem c33_subspan_rest (mem : List α) (s : Span) (h : Valid mem s) (offset : Nat)
    (ho : offset ≤ s.size) :
    ∃ t t', subspan mem s offset = .ok t ∧ subspanS mem s offset = .ok t' ∧
      view mem t = (view mem s).drop offset ∧ Valid mem t ∧
      view mem t' = (view mem s).drop offset ∧ Valid mem t' := by
  have h1 := h.1
  have h2 := h.2
  have hsz := size_lt h
  have e : (mem.drop (s.ptr + offset)).take (s.size - offset) = (view mem s).drop offset := by
    unfold view; rw [List.drop_take, List.drop_drop]
  have hext : s.extent.map (subSize · offset) = none ∨
      s.extent.map (subSize · offset) = some (s.size - offset) := by
    unfold Span.size at *
    cases he : s.extent with
    | none => exact .inl rfl
    | some n =>
      right
      rw [he] at ho hsz
      simp only [Option.getD_some] at ho hsz ⊢
      simp [subSize_eq ho (by omega)]
  refine ⟨make none (s.ptr + offset) (s.size - offset),
    make (s.extent.map (subSize · offset)) (s.ptr + offset) (s.size - offset),
    ?_, ?_, ?_, ⟨?_, h2⟩, ?_, ?_, h2⟩
  · unfold subspan; rw [advance_ok (by omega), subSize_eq ho (by omega), if_pos rfl]; rfl
  · unfold subspanS
    rw [advance_ok (by omega), subSize_eq ho (by omega), if_neg (by simp), if_neg (by simp)]; rfl
  · rw [view_make _ _ _ _ (.inl rfl), e]
  · rw [size_make _ _ _ (.inl rfl)]; simp only [make]; omega
  · rw [view_make _ _ _ _ hext, e]
  · rw [size_make _ _ _ hext]; simp only [make]; omega

/-- Slices of slices are slices of the original. -/
theorem c33_compose (mem : List α) (s : Span) (h : Valid mem s) (o c o' c' : Nat)
    (h1 : o + c ≤ s.size) (h2 : o' + c' ≤ c) :
    ((subspan mem s o c).bind fun t => subspan mem t o' c') = subspan mem s (o + o') c' := by
  obtain ⟨t, -, ht, -, -, vt, st, -⟩ := c33_subspan mem s h o c h1
  have hsz := size_lt h
  have hv := h.1
  have hc : c ≠ dynamicExtent := by unfold dynamicExtent; omega
  have hc' : c' ≠ dynamicExtent := by unfold dynamicExtent; omega
  have e : t = make none (s.ptr + o) c := by
    unfold subspan at ht
    rw [advance_ok (by omega), if_neg hc] at ht
    simp only [Res.map_ok, Res.ok.injEq] at ht
    exact ht.symm
  rw [ht]
  simp only [Res.bind_ok]
  unfold subspan
  rw [e, advance_ok (by simp only [make]; omega), advance_ok (by omega), if_neg hc']
  simp [make, Nat.add_assoc, hc']

/-- operator[], front, back, get and iteration show the viewed elements. -/
theorem c33_access (mem : List α) (s : Span) (h : Valid mem s) :
    (∀ i x, (view mem s)[i]? = some x → at' mem s i = .ok x) ∧
    (∀ x, (view mem s).head? = some x → front mem s = .ok x) ∧
    (∀ x, (view mem s).getLast? = some x → back mem s = .ok x) ∧
    iterate mem s = .ok (view mem s) := by
  have h1 := h.1
  have hsz := size_lt h
  have hget : ∀ i x, (view mem s)[i]? = some x → mem[s.ptr + i]? = some x ∧ i < s.size := by
    intro i x hx
    unfold view at hx
    have hi : i < s.size := by
      have := List.getElem?_eq_some_iff.1 hx
      obtain ⟨hl, -⟩ := this
      rw [List.length_take] at hl
      omega
    rw [List.getElem?_take_of_lt hi, List.getElem?_drop] at hx
    exact ⟨hx, hi⟩
  have hat : ∀ i x, (view mem s)[i]? = some x → at' mem s i = .ok x := by
    intro i x hx
    unfold at' deref
    rw [(hget i x hx).1]
  refine ⟨hat, ?_, ?_, ?_⟩
  · intro x hx
    rw [List.head?_eq_getElem?] at hx
    exact hat 0 x hx
  · intro x hx
    rw [List.getLast?_eq_getElem?, view_length h] at hx
    obtain ⟨hm, hi⟩ := hget _ x hx
    unfold back advance
    rw [subSize_eq (by omega) (by omega), if_pos (by omega)]
    simp only [Res.bind_ok]
    unfold deref
    rw [hm]
  · have : ∀ n p, p + n ≤ mem.length → iterFrom mem p n = .ok ((mem.drop p).take n) := by
      intro n
      induction n with
      | zero => intro p _; rfl
      | succ n ih =>
        intro p hp
        have hlt : p < mem.length := by omega
        unfold iterFrom deref
        rw [List.getElem?_eq_getElem hlt]
        simp only [Res.bind_ok]
        rw [ih (p + 1) (by omega), List.drop_eq_getElem_cons hlt]
        rfl
    exact this _ _ h1

/-- Writing through a span changes exactly that element, for this and for every other span on the
same array. -/
theorem c33_write (mem : List α) (s : Span) (h : Valid mem s) (i : Nat) (hi : i < s.size) (v : α) :
    ∃ mem', write mem s i v = .ok mem' ∧ mem'.length = mem.length ∧
      view mem' s = (view mem s).set i v ∧
      ∀ t, Valid mem t → ∀ j, j < t.size →
        (view mem' t)[j]? = if t.ptr + j = s.ptr + i then some v else (view mem t)[j]? := by
  have h1 := h.1
  refine ⟨mem.set (s.ptr + i) v, by unfold write; rw [if_pos (by omega)], by simp, ?_, ?_⟩
  · unfold view
    rw [List.drop_set, if_neg (by omega), List.take_set]
    congr 1
    omega
  · intro t ht j hj
    unfold view
    rw [List.getElem?_take_of_lt hj, List.getElem?_take_of_lt hj, List.getElem?_drop,
      List.getElem?_drop]
    by_cases he : t.ptr + j = s.ptr + i
    · rw [if_pos he, he, List.getElem?_set_self (by omega)]
    · rw [if_neg he, List.getElem?_set_ne (by omega)]

/-- as_bytes shows the byte representation of the elements. -/
theorem c33_as_bytes (mem : List α) (s : Span) (h : Valid mem s) (width : Nat)
    (repr : α → List UInt8) (hw : ∀ x, (repr x).length = width)
    (hlen : mem.length * width < dynamicExtent) :
    view (mem.flatMap repr) (asBytes width s) = (view mem s).flatMap repr ∧
    Valid (mem.flatMap repr) (asBytes width s) ∧ (asBytes width s).size = s.size * width := by
  have h1 := h.1
  have hflat : ∀ l : List α, (l.flatMap repr).length = l.length * width := by
    intro l
    induction l with
    | nil => simp
    | cons x r ih =>
      rw [List.flatMap_cons, List.length_append, ih, hw, List.length_cons, Nat.succ_mul]; omega
  have hdrop : ∀ (l : List α) n, (l.flatMap repr).drop (n * width) = (l.drop n).flatMap repr := by
    intro l
    induction l with
    | nil => intro n; simp
    | cons x r ih =>
      intro n
      cases n with
      | zero => simp
      | succ n =>
        rw [List.flatMap_cons, Nat.succ_mul, Nat.add_comm, List.drop_append,
          List.drop_eq_nil_of_le (by rw [hw]; omega), List.nil_append, hw, Nat.add_sub_cancel_left,
          ih n, List.drop_succ_cons]
  have htake : ∀ (l : List α) n, (l.flatMap repr).take (n * width) = (l.take n).flatMap repr := by
    intro l
    induction l with
    | nil => intro n; simp
    | cons x r ih =>
      intro n
      cases n with
      | zero => simp
      | succ n =>
        rw [List.flatMap_cons, Nat.succ_mul, Nat.add_comm, List.take_append,
          List.take_of_length_le (l := repr x) (by rw [hw]; omega), hw, Nat.add_sub_cancel_left,
          ih n, List.take_succ_cons, List.flatMap_cons]
  have hle : s.size * width ≤ mem.length * width := Nat.mul_le_mul_right _ (by omega)
  have hmod : s.size * width % sizeMod = s.size * width :=
    Nat.mod_eq_of_lt (by unfold dynamicExtent at hlen; omega)
  have hext : s.extent.map (· * width) = none ∨ s.extent.map (· * width) = some (s.size * width) := by
    unfold Span.size
    cases s.extent with
    | none => exact .inl rfl
    | some n => exact .inr rfl
  unfold asBytes
  rw [hmod]
  refine ⟨?_, ⟨?_, by rw [hflat]; exact hlen⟩, size_make _ _ _ hext⟩
  · rw [view_make _ _ _ _ hext, hdrop, htake]; rfl
  · rw [size_make _ _ _ hext, hflat]
    simp only [make]
    rw [← Nat.add_mul]
    exact Nat.mul_le_mul_right _ h1

variable [LinearOrder α]

omit [LinearOrder α] in
theorem getElem_view {mem : List α} {s : Span} (h : Valid mem s) {i : Nat} (hi : i < s.size) :
    at' mem s i = .ok ((view mem s)[i]'(by rw [view_length h]; exact hi)) :=
  (c33_access mem s h).1 i _ (List.getElem?_eq_getElem _)

theorem eqLoop_spec {ml mr : List α} {l r : Span} (hl : Valid ml l) (hr : Valid mr r)
    (hs : l.size = r.size) : ∀ n i, i + n = l.size →
    eqLoop ml mr l r i n = .ok (decide ((view ml l).drop i = (view mr r).drop i)) := by
  have ll := view_length hl
  have lr := view_length hr
  intro n
  induction n with
  | zero =>
    intro i hi
    unfold eqLoop
    rw [List.drop_eq_nil_of_le (by omega), List.drop_eq_nil_of_le (by omega)]
    simp
  | succ n ih =>
    intro i hi
    unfold eqLoop
    rw [getElem_view hl (by omega), getElem_view hr (by omega)]
    simp only [Res.bind_ok]
    rw [List.drop_eq_getElem_cons (l := view ml l) (i := i) (by omega),
      List.drop_eq_getElem_cons (l := view mr r) (i := i) (by omega)]
    by_cases he : (view ml l)[i]'(by omega) = (view mr r)[i]'(by omega)
    · rw [if_neg (by simp [he]), ih (i + 1) (by omega)]
      rw [he]
      congr 1
      rw [decide_eq_decide, List.cons.injEq]
      simp
    · rw [if_pos he]
      congr 1
      symm
      rw [decide_eq_false_iff_not, List.cons.injEq]
      exact fun h => he h.1

/-- operator== and operator!= compare the viewed elements. -/
theorem c33_eq (ml mr : List α) (l r : Span) (hl : Valid ml l) (hr : Valid mr r) :
    eq ml mr l r = .ok (decide (view ml l = view mr r)) ∧
    ne ml mr l r = .ok (decide (view ml l ≠ view mr r)) := by
  have h : eq ml mr l r = .ok (decide (view ml l = view mr r)) := by
    unfold eq
    by_cases hs : l.size = r.size
    · rw [if_neg (by simp [hs]), eqLoop_spec hl hr hs _ 0 (by omega)]
      simp
    · rw [if_pos hs]
      have : view ml l ≠ view mr r := by
        intro he
        have := congrArg List.length he
        rw [view_length hl, view_length hr] at this
        exact hs this
      simp [this]
  refine ⟨h, ?_⟩
  unfold ne
  rw [h]
  simp

theorem SeqLt_cons_same (x : α) (a b : List α) :
    SeqLt (· < ·) (x :: a) (x :: b) ↔ SeqLt (· < ·) a b := by
  constructor
  · rintro (⟨y, r, h⟩ | ⟨p, u, v, r, s, h1, h2, hlt⟩)
    · rw [List.cons_append, List.cons.injEq] at h
      exact .inl ⟨y, r, h.2⟩
    · cases p with
      | nil =>
        simp only [List.nil_append, List.cons.injEq] at h1 h2
        rw [← h1.1, ← h2.1] at hlt
        exact absurd hlt (lt_irrefl x)
      | cons z p =>
        simp only [List.cons_append, List.cons.injEq] at h1 h2
        exact .inr ⟨p, u, v, r, s, h1.2, h2.2, hlt⟩
  · rintro (⟨y, r, h⟩ | ⟨p, u, v, r, s, h1, h2, hlt⟩)
    · exact .inl ⟨y, r, by rw [h]; rfl⟩
    · exact .inr ⟨x :: p, u, v, r, s, by rw [h1]; rfl, by rw [h2]; rfl, hlt⟩

theorem SeqLt_cons_lt {x y : α} (h : x < y) (a b : List α) : SeqLt (· < ·) (x :: a) (y :: b) :=
  .inr ⟨[], x, y, a, b, rfl, rfl, h⟩

theorem not_SeqLt_cons_gt {x y : α} (h : y < x) (a b : List α) :
    ¬ SeqLt (· < ·) (x :: a) (y :: b) := by
  rintro (⟨z, r, hb⟩ | ⟨p, u, v, r, s, h1, h2, hlt⟩)
  · rw [List.cons_append, List.cons.injEq] at hb
    rw [hb.1] at h
    exact lt_irrefl _ h
  · cases p with
    | nil =>
      simp only [List.nil_append, List.cons.injEq] at h1 h2
      rw [← h1.1, ← h2.1] at hlt
      exact lt_irrefl _ (lt_trans h hlt)
    | cons z p =>
      simp only [List.cons_append, List.cons.injEq] at h1 h2
      rw [h1.1, h2.1] at h
      exact lt_irrefl _ h

theorem SeqLt_nil (b : List α) : SeqLt (· < ·) [] b ↔ b ≠ [] := by
  constructor
  · rintro (⟨y, r, h⟩ | ⟨p, u, v, r, s, h1, h2, hlt⟩)
    · rw [h]; simp
    · simp at h1
  · intro h
    cases b with
    | nil => exact absurd rfl h
    | cons y r => exact .inl ⟨y, r, rfl⟩

theorem not_SeqLt_nil (a : List α) : ¬ SeqLt (· < ·) a [] := by
  rintro (⟨y, r, h⟩ | ⟨p, u, v, r, s, h1, h2, hlt⟩)
  · have := congrArg List.length h; simp at this
  · have := congrArg List.length h2; simp at this

theorem ltLoop_spec {ml mr : List α} {l r : Span} (hl : Valid ml l) (hr : Valid mr r) :
    ∀ n i, i + n = min l.size r.size →
    ∃ b, ltLoop ml mr l r i n = .ok b ∧
      (b = true ↔ SeqLt (· < ·) ((view ml l).drop i) ((view mr r).drop i)) := by
  have ll := view_length hl
  have lr := view_length hr
  intro n
  induction n with
  | zero =>
    intro i hi
    refine ⟨_, rfl, ?_⟩
    rw [decide_eq_true_eq]
    by_cases hlt : l.size < r.size
    · simp only [hlt, true_iff]
      rw [List.drop_eq_nil_of_le (by omega), SeqLt_nil]
      intro h
      have := congrArg List.length h
      rw [List.length_drop] at this
      simp at this
      omega
    · simp only [hlt, false_iff]
      rw [List.drop_eq_nil_of_le (as := view mr r) (by omega)]
      exact not_SeqLt_nil _
  | succ n ih =>
    intro i hi
    unfold ltLoop
    rw [getElem_view hl (by omega), getElem_view hr (by omega)]
    simp only [Res.bind_ok]
    rw [List.drop_eq_getElem_cons (l := view ml l) (i := i) (by omega),
      List.drop_eq_getElem_cons (l := view mr r) (i := i) (by omega)]
    generalize hx : (view ml l)[i]'(by omega) = x
    generalize hy : (view mr r)[i]'(by omega) = y
    rcases lt_trichotomy x y with h | h | h
    · rw [if_pos h]
      exact ⟨true, rfl, by simp [SeqLt_cons_lt h]⟩
    · subst h
      rw [if_neg (lt_irrefl x), if_neg (lt_irrefl x)]
      obtain ⟨b, hb1, hb2⟩ := ih (i + 1) (by omega)
      exact ⟨b, hb1, by rw [hb2, SeqLt_cons_same]⟩
    · rw [if_neg (not_lt_of_gt h), if_pos h]
      exact ⟨false, rfl, by simp [not_SeqLt_cons_gt h]⟩

/-- The order operators are the lexicographic order of the viewed elements. -/
theorem c33_order (ml mr : List α) (l r : Span) (hl : Valid ml l) (hr : Valid mr r) :
    ∃ a b c d, lt ml mr l r = .ok a ∧ gt ml mr l r = .ok b ∧ le ml mr l r = .ok c ∧
      ge ml mr l r = .ok d ∧
      (a = true ↔ SeqLt (· < ·) (view ml l) (view mr r)) ∧
      (b = true ↔ SeqLt (· < ·) (view mr r) (view ml l)) ∧
      (c = true ↔ ¬ SeqLt (· < ·) (view mr r) (view ml l)) ∧
      (d = true ↔ ¬ SeqLt (· < ·) (view ml l) (view mr r)) := by
  have key : ∀ (ml mr : List α) (l r : Span), Valid ml l → Valid mr r →
      ∃ a, lt ml mr l r = .ok a ∧ (a = true ↔ SeqLt (· < ·) (view ml l) (view mr r)) := by
    intro ml mr l r hl hr
    have hmin : (if l.size < r.size then l.size else r.size) = min l.size r.size := by
      split <;> omega
    obtain ⟨b, h1, h2⟩ := ltLoop_spec hl hr (min l.size r.size) 0 (by omega)
    exact ⟨b, by unfold lt; rw [hmin, h1], by simpa using h2⟩
  obtain ⟨a, ha, ha'⟩ := key ml mr l r hl hr
  obtain ⟨b, hb, hb'⟩ := key mr ml r l hr hl
  refine ⟨a, b, !b, !a, ha, hb, ?_, ?_, ha', hb', ?_, ?_⟩
  · unfold le; rw [hb]; rfl
  · unfold ge; rw [ha]; rfl
  · rw [← hb']; simp
  · rw [← ha']; simp

/-- The lexicographic order is total: exactly one of less, equal and greater holds. -/
theorem c33_total (a b : List α) :
    (SeqLt (· < ·) a b ∨ a = b ∨ SeqLt (· < ·) b a) ∧
    ¬ (SeqLt (· < ·) a b ∧ SeqLt (· < ·) b a) ∧ ¬ SeqLt (· < ·) a a := by
  induction a generalizing b with
  | nil =>
    refine ⟨?_, ?_, not_SeqLt_nil _⟩
    · rw [SeqLt_nil]
      by_cases h : b = []
      · exact .inr (.inl h.symm)
      · exact .inl h
    · rintro ⟨-, h⟩; exact not_SeqLt_nil _ h
  | cons x a ih =>
    refine ⟨?_, ?_, ?_⟩
    · cases b with
      | nil => right; right; rw [SeqLt_nil]; simp
      | cons y b =>
        rcases lt_trichotomy x y with h | h | h
        · exact .inl (SeqLt_cons_lt h _ _)
        · subst h
          rw [SeqLt_cons_same, SeqLt_cons_same, List.cons.injEq]
          have := (ih b).1
          simpa using this
        · exact .inr (.inr (SeqLt_cons_lt h _ _))
    · cases b with
      | nil => rintro ⟨h, -⟩; exact not_SeqLt_nil _ h
      | cons y b =>
        rintro ⟨h1, h2⟩
        rcases lt_trichotomy x y with h | h | h
        · exact not_SeqLt_cons_gt h _ _ h2
        · subst h
          rw [SeqLt_cons_same] at h1 h2
          exact (ih b).2.1 ⟨h1, h2⟩
        · exact not_SeqLt_cons_gt h _ _ h1
    · rw [SeqLt_cons_same]; exact (ih []).2.2

end

example : Valid [1, 2, 3, 4, 5] ⟨none, 1, 3⟩ ∧ view [1, 2, 3, 4, 5] ⟨none, 1, 3⟩ = [2, 3, 4] ∧
    (∃ t, last [1, 2, 3, 4, 5] ⟨none, 1, 3⟩ 2 = .ok t ∧ view [1, 2, 3, 4, 5] t = [3, 4]) ∧
    lt [1, 2, 3] [1, 3] ⟨none, 0, 3⟩ ⟨some 2, 0, 9⟩ = .ok true ∧
    subspan [1, 2, 3] ⟨none, 0, 3⟩ 4 = .ub := by
  refine ⟨⟨by decide, by decide +kernel⟩, by decide, ⟨⟨none, 2, 2⟩, by decide +kernel, by decide⟩, ?_, ?_⟩ <;>
    decide +kernel

end Gul14.Spans
