import Verif.Basic

/-!
# Going through a container with its iterators

Each container of the library has eight functions that return iterators: begin, end, cbegin, cend, rbegin, rend, crbegin
and crend.  Here they are described by their declarations (may they be called for a constant container, what type of
iterator do they return), the positions at which their iterators start, and what an access through the iterator needs in
order to compile.  `α` is the type of the elements.
-/
namespace Gul14.Containers.Traversal

variable {α : Type}

/-- A reference or pointer type: to an element that may be changed, or to a constant one. -/
inductive Ref where
  | mutable | constant
  deriving DecidableEq, Repr

/-- `T&` converts to `const T&`, but not the other way round. C++ standard, [conv.qual]; no code in /repo. -/
def Ref.convertsTo : Ref → Ref → Bool
  | .constant, .mutable => false
  | _, _ => true

/-- An iterator type: what its operator* returns and what std::iterator_traits says about it (`reference`). -/
structure IterType where
  deref : Ref
  traits : Ref
  deriving DecidableEq, Repr

/-- A pointer as iterator: iterator_traits is right. C++ standard, [iterator.traits]; no code in /repo.  The iterators of
std::vector and std::array (SlidingBuffer.h:1080-1086) are like this. -/
def pointerTo (r : Ref) : IterType := ⟨r, r⟩

/-- SlidingBufferIterator: operator* returns `const_reference` for a constant buffer (SlidingBuffer.h:753-758), but the
member type `reference` is `value_type&` in both cases (SlidingBuffer.h:662). -/
def slidingIterator (r : Ref) : IterType := ⟨r, .mutable⟩

/-- The iterator that a function returns: an iterator of the container, or std::reverse_iterator of one. -/
inductive Iter where
  | forward (t : IterType)
  | reverse (t : IterType)
  deriving DecidableEq, Repr

/-- What `*it` gives, `none` if it does not compile.  operator* of std::reverse_iterator is declared to return
`iterator_traits<It>::reference` and returns `*tmp` for an iterator of the container. C++ standard, [reverse.iter.op.star]
(C++14: 24.5.1.3.4); no code in /repo. -/
def Iter.access : Iter → Option Ref
  | .forward t => some t.deref
  | .reverse t => if t.deref.convertsTo t.traits then some t.traits else none

/-- One declaration of a function: is it a const member function, and the type that it returns. -/
structure Decl where
  constMember : Bool
  result : Iter
  deriving DecidableEq, Repr

/-- The four pairs of functions: begin/end, cbegin/cend, rbegin/rend, crbegin/crend. -/
inductive Way where
  | plain | c | r | cr
  deriving DecidableEq, Repr

/-- The containers of the library.  For a span, the type of the elements may be const. -/
inductive Container where
  | smallVector | slidingBuffer | slidingBufferExposed | stringView
  | span (elements : Ref)
  deriving DecidableEq, Repr

/-- The declarations of the first function of each pair:
SmallVector.h:527, 536, 551, 581, 1049 with the types of 293-307; SlidingBuffer.h:846, 852, 862, 901, 911 with 202-208;
SlidingBuffer.h:1121, 1130, 1141, 1202, 1215 with 1080-1086; string_view.h:153-158 with 123-126; span.h:391, 397, 403, 415
with 195-198. -/
def firstDecls : Container → Way → List Decl
  | .smallVector, .plain =>
      [⟨false, .forward (pointerTo .mutable)⟩, ⟨true, .forward (pointerTo .constant)⟩]
  | .smallVector, .c => [⟨true, .forward (pointerTo .constant)⟩]
  | .smallVector, .r => [⟨false, .reverse (pointerTo .mutable)⟩]
  | .smallVector, .cr => [⟨false, .reverse (pointerTo .constant)⟩]
  | .slidingBuffer, .plain =>
      [⟨false, .forward (slidingIterator .mutable)⟩, ⟨true, .forward (slidingIterator .constant)⟩]
  | .slidingBuffer, .c => [⟨true, .forward (slidingIterator .constant)⟩]
  | .slidingBuffer, .r => [⟨false, .reverse (slidingIterator .mutable)⟩]
  | .slidingBuffer, .cr => [⟨true, .reverse (slidingIterator .constant)⟩]
  | .slidingBufferExposed, .plain =>
      [⟨false, .forward (pointerTo .mutable)⟩, ⟨true, .forward (pointerTo .constant)⟩]
  | .slidingBufferExposed, .c => [⟨true, .forward (pointerTo .constant)⟩]
  | .slidingBufferExposed, .r => [⟨false, .reverse (pointerTo .mutable)⟩]
  | .slidingBufferExposed, .cr => [⟨true, .reverse (pointerTo .constant)⟩]
  | .stringView, .plain => [⟨true, .forward (pointerTo .constant)⟩]
  | .stringView, .c => [⟨true, .forward (pointerTo .constant)⟩]
  | .stringView, .r => [⟨true, .reverse (pointerTo .constant)⟩]
  | .stringView, .cr => [⟨true, .reverse (pointerTo .constant)⟩]
  | .span e, .plain => [⟨true, .forward (pointerTo e)⟩]
  | .span _, .c => [⟨true, .forward (pointerTo .constant)⟩]
  | .span e, .r => [⟨true, .reverse (pointerTo e)⟩]
  | .span _, .cr => [⟨true, .reverse (pointerTo .constant)⟩]

/-- The declarations of the second function of each pair:
SmallVector.h:692, 701, 560, 592, 1059; SlidingBuffer.h:873, 879, 891, 923, 935; SlidingBuffer.h:1166, 1175, 1186, 1225,
1236; string_view.h:155-160; span.h:394, 400, 409, 421. -/
def lastDecls : Container → Way → List Decl
  | .smallVector, .plain =>
      [⟨false, .forward (pointerTo .mutable)⟩, ⟨true, .forward (pointerTo .constant)⟩]
  | .smallVector, .c => [⟨true, .forward (pointerTo .constant)⟩]
  | .smallVector, .r => [⟨false, .reverse (pointerTo .mutable)⟩]
  | .smallVector, .cr => [⟨false, .reverse (pointerTo .constant)⟩]
  | .slidingBuffer, .plain =>
      [⟨false, .forward (slidingIterator .mutable)⟩, ⟨true, .forward (slidingIterator .constant)⟩]
  | .slidingBuffer, .c => [⟨true, .forward (slidingIterator .constant)⟩]
  | .slidingBuffer, .r => [⟨false, .reverse (slidingIterator .mutable)⟩]
  | .slidingBuffer, .cr => [⟨true, .reverse (slidingIterator .constant)⟩]
  | .slidingBufferExposed, .plain =>
      [⟨false, .forward (pointerTo .mutable)⟩, ⟨true, .forward (pointerTo .constant)⟩]
  | .slidingBufferExposed, .c => [⟨true, .forward (pointerTo .constant)⟩]
  | .slidingBufferExposed, .r => [⟨false, .reverse (pointerTo .mutable)⟩]
  | .slidingBufferExposed, .cr => [⟨true, .reverse (pointerTo .constant)⟩]
  | .stringView, .plain => [⟨true, .forward (pointerTo .constant)⟩]
  | .stringView, .c => [⟨true, .forward (pointerTo .constant)⟩]
  | .stringView, .r => [⟨true, .reverse (pointerTo .constant)⟩]
  | .stringView, .cr => [⟨true, .reverse (pointerTo .constant)⟩]
  | .span e, .plain => [⟨true, .forward (pointerTo e)⟩]
  | .span _, .c => [⟨true, .forward (pointerTo .constant)⟩]
  | .span e, .r => [⟨true, .reverse (pointerTo e)⟩]
  | .span _, .cr => [⟨true, .reverse (pointerTo .constant)⟩]

/-- Overload resolution for a call without arguments: a function that is not const can be called for an object that is
not constant, and is then the better match. C++ standard, [over.match.funcs]; no code in /repo. -/
def resolve (ds : List Decl) (constObject : Bool) : Option Iter :=
  if constObject then (ds.find? (·.constMember)).map (·.result)
  else ((ds.find? (fun d => !d.constMember)).or (ds.find? (·.constMember))).map (·.result)

/-- What happens when a program goes through a container: it does not compile, or it sees elements, through references of
a kind; or it does something undefined. -/
inductive Outcome (α : Type) where
  | rejected
  | ran (r : Ref) (seen : Res (List α))

/-- The loop `for (auto it = first; it != last; ++it) use(*it)` over positions; going backwards, an iterator with the
position i stands for the element i - 1 and `++` decreases the position (std::reverse_iterator). -/
def loop (mem : List α) (backwards : Bool) : Nat → Nat → Nat → Res (List α)
  | 0, _, _ => .diverge
  | fuel + 1, it, last =>
      if it = last then .ok []
      else if backwards then
        match it with
        | 0 => .ub
        | i + 1 => match mem[i]? with
          | none => .ub
          | some x => (loop mem backwards fuel i last).map (x :: ·)
      else match mem[it]? with
        | none => .ub
        | some x => (loop mem backwards fuel (it + 1) last).map (x :: ·)

/-- The position at which the iterator of the first function starts; `b` and `e` are the positions of begin() and end():
SmallVector.h:529, 538, 553, 583, 1051; SlidingBuffer.h:848, 854, 864, 903, 913, 1204, 1217; string_view.h:153-158;
span.h:391, 397, 405, 417. -/
def firstPos (b e : Nat) : Way → Nat
  | .plain => b
  | .c => b
  | .r => e
  | .cr => e

/-- The position of the iterator of the second function: SmallVector.h:694, 703, 562, 594, 1061; SlidingBuffer.h:875, 881,
893, 925, 937, 1227, 1238; string_view.h:155-160; span.h:394, 400, 411, 423. -/
def lastPos (b e : Nat) : Way → Nat
  | .plain => e
  | .c => e
  | .r => b
  | .cr => b

/-- A loop over a container with one of the four pairs of functions.  `mem` is what its iterators point into (the elements
in logical order, for a SlidingBufferExposed the underlying container), `b` and `e` the positions of begin() and end(). -/
def traverse (k : Container) (constObject : Bool) (w : Way) (mem : List α) (b e : Nat) : Outcome α :=
  match resolve (firstDecls k w) constObject, resolve (lastDecls k w) constObject with
  | some it, some it' =>
      if it ≠ it' then .rejected
      else match it.access with
        | none => .rejected
        | some r =>
            let backwards := match it with
              | .forward _ => false
              | .reverse _ => true
            .ran r (loop mem backwards (mem.length + 1) (firstPos b e w) (lastPos b e w))
  | _, _ => .rejected

/-! ## Specification -/
namespace Spec

/-- Are the elements that one sees constant? With the functions that have a `c` in front, always.  With the others, if the
container is constant and owns its elements, or if it is a view of constant elements. -/
def sees : Container → Bool → Way → Ref
  | _, _, .c => .constant
  | _, _, .cr => .constant
  | .stringView, _, _ => .constant
  | .span e, _, _ => e
  | _, constObject, _ => if constObject then .constant else .mutable

/-- The elements from begin() to end(), in the order of the traversal. -/
def order (w : Way) (range : List α) : List α :=
  match w with
  | .plain => range
  | .c => range
  | .r => range.reverse
  | .cr => range.reverse

/-- The documented behaviour. -/
def Works (k : Container) (constObject : Bool) (w : Way) : Prop :=
  ∀ (α : Type) (mem : List α) (b e : Nat), b ≤ e → e ≤ mem.length →
    traverse k constObject w mem b e = .ran (sees k constObject w) (.ok (order w ((mem.take e).drop b)))

/-- The program does not compile, whatever is in the container. -/
def Rejected (k : Container) (constObject : Bool) (w : Way) : Prop :=
  ∀ (α : Type) (mem : List α) (b e : Nat), traverse k constObject w mem b e = .rejected

end Spec

open Spec

/-! ## Lemmas -/

theorem loop_forward (mem : List α) : ∀ (n fuel b e : Nat), e - b = n → b ≤ e → e ≤ mem.length → n < fuel →
    loop mem false fuel b e = .ok ((mem.take e).drop b) := by
  intro n
  induction n with
  | zero =>
      intro fuel b e hn hbe he hf
      have : b = e := by omega
      subst this
      obtain ⟨f, rfl⟩ : ∃ f, fuel = f + 1 := ⟨fuel - 1, by omega⟩
      simp [loop]
  | succ n ih =>
      intro fuel b e hn hbe he hf
      obtain ⟨f, rfl⟩ : ∃ f, fuel = f + 1 := ⟨fuel - 1, by omega⟩
      have hb : b < mem.length := by omega
      have hne : ¬ b = e := by omega
      have hg : mem[b]? = some mem[b] := List.getElem?_eq_getElem hb
      simp only [loop, hne, if_false, Bool.false_eq_true, hg]
      rw [ih f (b + 1) e (by omega) (by omega) he (by omega)]
      have hlt : b < (mem.take e).length := by simp; omega
      rw [List.drop_eq_getElem_cons hlt]
      simp [Res.map]

theorem loop_backward (mem : List α) : ∀ (n fuel b e : Nat), e - b = n → b ≤ e → e ≤ mem.length → n < fuel →
    loop mem true fuel e b = .ok ((mem.take e).drop b).reverse := by
  intro n
  induction n with
  | zero =>
      intro fuel b e hn hbe he hf
      have : b = e := by omega
      subst this
      obtain ⟨f, rfl⟩ : ∃ f, fuel = f + 1 := ⟨fuel - 1, by omega⟩
      simp [loop]
  | succ n ih =>
      intro fuel b e hn hbe he hf
      obtain ⟨f, rfl⟩ : ∃ f, fuel = f + 1 := ⟨fuel - 1, by omega⟩
      obtain ⟨i, rfl⟩ : ∃ i, e = i + 1 := ⟨e - 1, by omega⟩
      have hi : i < mem.length := by omega
      have hne : ¬ i + 1 = b := by omega
      have hg : mem[i]? = some mem[i] := List.getElem?_eq_getElem hi
      simp only [loop, hne, if_false, if_true, hg]
      rw [ih f b i (by omega) (by omega) (by omega) (by omega)]
      have ht : mem.take (i + 1) = mem.take i ++ [mem[i]] := by
        rw [List.take_succ, hg]; rfl
      have hl : b ≤ (mem.take i).length := by simp; omega
      rw [ht, List.drop_append_of_le_length hl]
      simp [Res.map]

/-! ## Theorems -/

/-- **C129**, forwards: every container, constant or not, can be gone through with begin() and end() and with cbegin() and
cend(); one sees the elements from begin() to end() in their order, constant ones where they should be. -/
theorem c129_forward (k : Container) (constObject : Bool) :
    Works k constObject .plain ∧ Works k constObject .c := by
  constructor <;> intro α mem b e hbe he <;>
    have h := loop_forward mem (e - b) (mem.length + 1) b e rfl hbe he (by omega) <;>
    cases k <;> cases constObject <;>
    simp [traverse, firstDecls, lastDecls, resolve, Iter.access, pointerTo, slidingIterator, firstPos, lastPos, h, sees,
      order]

/-- **C129**, views: a string_view or a span can be gone through in both directions and with all functions, also if it is
a constant. -/
theorem c129_views (k : Container) (hk : k = .stringView ∨ ∃ e, k = .span e) (constObject : Bool) (w : Way) :
    Works k constObject w := by
  intro α mem b e hbe he
  have h := loop_forward mem (e - b) (mem.length + 1) b e rfl hbe he (by omega)
  have h' := loop_backward mem (e - b) (mem.length + 1) b e rfl hbe he (by omega)
  rcases hk with rfl | ⟨r, rfl⟩
  · cases constObject <;> cases w <;>
      simp [traverse, firstDecls, lastDecls, resolve, Iter.access, pointerTo, firstPos, lastPos, h, h', sees, order,
        Ref.convertsTo]
  · cases r <;> cases constObject <;> cases w <;>
      simp [traverse, firstDecls, lastDecls, resolve, Iter.access, pointerTo, firstPos, lastPos, h, h', sees, order,
        Ref.convertsTo]

/-- **C129**, backwards, partial: rbegin() and rend() work for every container that is not constant; crbegin() and crend()
work for a SmallVector that is not constant and for every SlidingBufferExposed.  Missing: rbegin() for constant containers
(`c129_reverse_const_violated`), crbegin() for constant SmallVectors (`c129_small_vector_violated`) and for sliding
buffers (`c129_sliding_buffer_violated`). -/
theorem c129_reverse_partial :
    (∀ k, Works k false .r) ∧
    Works .smallVector false .cr ∧
    (∀ constObject, Works .slidingBufferExposed constObject .cr) := by
  refine ⟨?_, ?_, ?_⟩
  · intro k α mem b e hbe he
    have h' := loop_backward mem (e - b) (mem.length + 1) b e rfl hbe he (by omega)
    rcases k with _ | _ | _ | _ | r
    all_goals try cases r
    all_goals
      simp [traverse, firstDecls, lastDecls, resolve, Iter.access, pointerTo, slidingIterator, firstPos, lastPos, h', sees,
        order, Ref.convertsTo]
  · intro α mem b e hbe he
    have h' := loop_backward mem (e - b) (mem.length + 1) b e rfl hbe he (by omega)
    simp [traverse, firstDecls, lastDecls, resolve, Iter.access, pointerTo, firstPos, lastPos, h', sees, order,
      Ref.convertsTo]
  · intro c α mem b e hbe he
    have h' := loop_backward mem (e - b) (mem.length + 1) b e rfl hbe he (by omega)
    cases c <;>
      simp [traverse, firstDecls, lastDecls, resolve, Iter.access, pointerTo, firstPos, lastPos, h', sees, order,
        Ref.convertsTo]

/-- **C129** is violated: a constant SmallVector, SlidingBuffer or SlidingBufferExposed cannot be gone through with
rbegin() and rend(); these functions are only declared for containers that are not constant. -/
theorem c129_reverse_const_violated :
    Rejected .smallVector true .r ∧ Rejected .slidingBuffer true .r ∧ Rejected .slidingBufferExposed true .r :=
  ⟨fun _ _ _ _ => rfl, fun _ _ _ _ => rfl, fun _ _ _ _ => rfl⟩

/-- **C129** is violated: a constant SmallVector cannot be gone through with crbegin() and crend() either, so there is no
way to go through it backwards with its own functions. -/
theorem c129_small_vector_violated : Rejected .smallVector true .cr :=
  fun _ _ _ _ => rfl

/-- **C129** is violated: a SlidingBuffer, constant or not, cannot be gone through with crbegin() and crend().  The
functions can be called, but the iterator that they return cannot be dereferenced. -/
theorem c129_sliding_buffer_violated (constObject : Bool) : Rejected .slidingBuffer constObject .cr := by
  intro α mem b e
  cases constObject <;> rfl

/-- The ways that work are exactly those of `c129_forward`, `c129_views` and `c129_reverse_partial`: each of the forty-eight
combinations either works or does not compile, and six do not compile. -/
theorem c129_all_partial (k : Container) (constObject : Bool) (w : Way) :
    (Rejected k constObject w ∧
        ((w = .r ∧ constObject = true ∧ (k = .smallVector ∨ k = .slidingBuffer ∨ k = .slidingBufferExposed)) ∨
         (w = .cr ∧ (k = .slidingBuffer ∨ k = .smallVector ∧ constObject = true))))
      ∨ Works k constObject w := by
  cases w with
  | plain => exact .inr (c129_forward k constObject).1
  | c => exact .inr (c129_forward k constObject).2
  | r =>
      cases constObject with
      | false => exact .inr (c129_reverse_partial.1 k)
      | true =>
          cases k with
          | smallVector => exact .inl ⟨c129_reverse_const_violated.1, by simp⟩
          | slidingBuffer => exact .inl ⟨c129_reverse_const_violated.2.1, by simp⟩
          | slidingBufferExposed => exact .inl ⟨c129_reverse_const_violated.2.2, by simp⟩
          | stringView => exact .inr (c129_views _ (.inl rfl) _ _)
          | span e => exact .inr (c129_views _ (.inr ⟨e, rfl⟩) _ _)
  | cr =>
      cases k with
      | smallVector =>
          cases constObject with
          | false => exact .inr c129_reverse_partial.2.1
          | true => exact .inl ⟨c129_small_vector_violated, by simp⟩
      | slidingBuffer => exact .inl ⟨c129_sliding_buffer_violated constObject, by simp⟩
      | slidingBufferExposed => exact .inr (c129_reverse_partial.2.2 constObject)
      | stringView => exact .inr (c129_views _ (.inl rfl) _ _)
      | span e => exact .inr (c129_views _ (.inr ⟨e, rfl⟩) _ _)

/-! ## Examples -/

/-- A range in the middle of five cells, backwards through a SlidingBufferExposed. -/
example : traverse .slidingBufferExposed true .cr [1, 2, 3, 4, 5] 1 4 = .ran .constant (.ok [4, 3, 2]) := by rfl

example : traverse .smallVector false .r [1, 2, 3] 0 3 = .ran .mutable (.ok [3, 2, 1]) := by rfl

example : 1 ≤ 4 ∧ 4 ≤ [1, 2, 3, 4, 5].length := by decide

end Gul14.Containers.Traversal
