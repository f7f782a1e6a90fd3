import Verif.Strings.Props

/-!
# Memory and length limit of join (C142)

The result string with its capacity and a count of the buffers it has asked for.  `maxSize` is
std::string::max_size(), `room` the capacity of an empty string, and `grow` how the library enlarges a
buffer: all three are parameters.
-/
namespace Gul14.Strings.JoinMem
open Gul14.SV

/-- What the standard library decides: no code in /repo. -/
structure Lib where
  maxSize : Nat
  room : Nat
  grow : Nat → Nat → Nat

/-- A std::string: its characters, its capacity, and how many buffers it has allocated so far. The
local variable `result`, join_split.h:261. -/
structure Buf where
  content : Str
  capacity : Nat
  allocs : Nat
  deriving DecidableEq, Repr

/-- std::string::reserve(n) (C++ standard), called at join_split.h:276. -/
def reserve (l : Lib) (n : Nat) (b : Buf) : Res Buf :=
  if l.maxSize < n then .throw .lengthError
  else if n ≤ b.capacity then .ok b
  else .ok { b with capacity := l.grow b.capacity n, allocs := b.allocs + 1 }

/-- std::string::append and operator+= (C++ standard), called at join_split.h:278, 283 and 284. -/
def append (l : Lib) (t : Str) (b : Buf) : Res Buf :=
  if l.maxSize < b.content.length + t.length then .throw .lengthError
  else if b.content.length + t.length ≤ b.capacity then .ok { b with content := b.content ++ t }
  else .ok { content := b.content ++ t, capacity := l.grow b.capacity (b.content.length + t.length),
             allocs := b.allocs + 1 }

/-- The first loop of join, join_split.h:269-273: `num_strings` and `len`, both std::size_t. -/
def measure : List Str → Nat → Nat → Nat × Nat
  | [], num, len => (num, len)
  | p :: ps, num, len => measure ps ((num + 1) % sizeMod) ((len + p.length) % sizeMod)

/-- join_split.h:266-274: the length to reserve, in std::size_t arithmetic. -/
def reserved (parts : List Str) (glue : Str) : Nat :=
  let m := measure parts 0 0
  (m.2 + (m.1 + sizeMod - 1) % sizeMod * glue.length) % sizeMod

/-- The second loop of join, join_split.h:280-285. -/
def tail (l : Lib) (glue : Str) : List Str → Buf → Res Buf
  | [], b => .ok b
  | q :: qs, b => (append l glue b).bind fun b => (append l q b).bind fun b => tail l glue qs b

/-- join(begin, end, glue), join_split.h:257-288, for a range that can be walked through twice. -/
def join (l : Lib) (parts : List Str) (glue : Str) : Res Buf :=
  match parts with
  | [] => .ok ⟨[], l.room, 0⟩
  | p :: ps =>
    (reserve l (reserved parts glue) ⟨[], l.room, 0⟩).bind fun b =>
      (append l p b).bind fun b => tail l glue ps b

/-- What the second loop adds. -/
def added (glue : Str) (ps : List Str) : Str := (ps.map (glue ++ ·)).flatten

theorem intercalate_cons (glue p : Str) (ps : List Str) :
    List.intercalate glue (p :: ps) = p ++ added glue ps := by
  rw [← c01_join]
  unfold Strings.join
  simp only
  have : ∀ (ps : List Str) (acc : Str),
      ps.foldl (fun result q => result ++ glue ++ q) acc = acc ++ added glue ps := by
    intro ps
    induction ps with
    | nil => simp [added]
    | cons q qs ih => intro acc; rw [List.foldl_cons, ih]; simp [added]
  exact this ps p

theorem measure_spec (parts : List Str) : ∀ num len,
    (measure parts num len).1 % sizeMod = (num + parts.length) % sizeMod ∧
    (measure parts num len).2 % sizeMod = (len + parts.flatten.length) % sizeMod := by
  induction parts with
  | nil => intro num len; simp [measure]
  | cons p ps ih =>
    intro num len
    obtain ⟨h1, h2⟩ := ih ((num + 1) % sizeMod) ((len + p.length) % sizeMod)
    unfold measure
    rw [h1, h2]
    constructor
    · rw [Nat.mod_add_mod, List.length_cons]; congr 1; omega
    · rw [Nat.mod_add_mod, List.flatten_cons, List.length_append]; congr 1; omega

theorem added_length (glue : Str) (ps : List Str) :
    (added glue ps).length = ps.length * glue.length + ps.flatten.length := by
  induction ps with
  | nil => simp [added]
  | cons q qs ih =>
    have : added glue (q :: qs) = glue ++ q ++ added glue qs := by simp [added]
    rw [this, List.length_append, List.length_append, ih, List.length_cons, List.flatten_cons,
      List.length_append, Nat.succ_mul]
    omega

theorem reserved_spec (p : Str) (ps : List Str) (glue : Str) :
    reserved (p :: ps) glue = (List.intercalate glue (p :: ps)).length % sizeMod := by
  obtain ⟨h1, h2⟩ := measure_spec (p :: ps) 0 0
  have hs : (1 : Nat) ≤ sizeMod := by decide
  unfold reserved
  simp only
  have h3 : ((measure (p :: ps) 0 0).1 + sizeMod - 1) % sizeMod = ps.length % sizeMod := by
    rw [Nat.add_sub_assoc hs, ← Nat.mod_add_mod, h1, Nat.mod_add_mod, List.length_cons]
    have : 0 + (ps.length + 1) + (sizeMod - 1) = ps.length + sizeMod := by omega
    rw [this, Nat.add_mod_right]
  rw [h3, ← Nat.mod_add_mod, h2, Nat.mod_add_mod, Nat.add_mod, Nat.mod_mul_mod, ← Nat.add_mod,
    intercalate_cons, List.length_append, added_length, List.flatten_cons, List.length_append]
  have : 0 + (p.length + ps.flatten.length) + ps.length * glue.length =
      p.length + (ps.length * glue.length + ps.flatten.length) := by omega
  rw [this]

theorem append_cases (l : Lib) (t : Str) (b : Buf) :
    (append l t b = .throw .lengthError ∧ l.maxSize < b.content.length + t.length) ∨
    ∃ b', append l t b = .ok b' ∧ b'.content = b.content ++ t ∧ b'.content.length ≤ l.maxSize := by
  unfold append
  by_cases h : l.maxSize < b.content.length + t.length
  · exact .inl ⟨if_pos h, h⟩
  · rw [if_neg h]
    refine .inr ?_
    split
    · exact ⟨_, rfl, rfl, by simp only [List.length_append]; omega⟩
    · exact ⟨_, rfl, rfl, by simp only [List.length_append]; omega⟩

theorem append_fits (l : Lib) (t : Str) (b : Buf) (h1 : b.content.length + t.length ≤ l.maxSize)
    (h2 : b.content.length + t.length ≤ b.capacity) :
    append l t b = .ok { b with content := b.content ++ t } := by
  unfold append
  rw [if_neg (by omega), if_pos h2]

theorem tail_fits (l : Lib) (glue : Str) (ps : List Str) : ∀ b : Buf,
    b.content.length + (added glue ps).length ≤ l.maxSize →
    b.content.length + (added glue ps).length ≤ b.capacity →
    tail l glue ps b = .ok { b with content := b.content ++ added glue ps } := by
  induction ps with
  | nil => intro b _ _; simp [tail, added]
  | cons q qs ih =>
    intro b h1 h2
    have ha : added glue (q :: qs) = glue ++ q ++ added glue qs := by simp [added]
    rw [ha] at h1 h2 ⊢
    simp only [List.length_append] at h1 h2
    unfold tail
    rw [append_fits l glue b (by omega) (by omega), Res.bind_ok,
      append_fits l q _ (by simp only [List.length_append]; omega)
        (by simp only [List.length_append]; omega), Res.bind_ok,
      ih _ (by simp only [List.length_append]; omega) (by simp only [List.length_append]; omega)]
    simp

theorem tail_cases (l : Lib) (glue : Str) (ps : List Str) : ∀ b : Buf,
    b.content.length ≤ l.maxSize →
    tail l glue ps b = .throw .lengthError ∨
    ∃ b', tail l glue ps b = .ok b' ∧ b'.content = b.content ++ added glue ps ∧
      b'.content.length ≤ l.maxSize := by
  induction ps with
  | nil => intro b h; exact .inr ⟨b, rfl, by simp [added], h⟩
  | cons q qs ih =>
    intro b h
    have ha : added glue (q :: qs) = glue ++ q ++ added glue qs := by simp [added]
    unfold tail
    rcases append_cases l glue b with ⟨h1, _⟩ | ⟨b1, h1, h2, h3⟩
    · exact .inl (by rw [h1]; rfl)
    · rw [h1, Res.bind_ok]
      rcases append_cases l q b1 with ⟨h4, _⟩ | ⟨b2, h4, h5, h6⟩
      · exact .inl (by rw [h4]; rfl)
      · rw [h4, Res.bind_ok]
        rcases ih b2 h6 with h7 | ⟨b3, h7, h8, h9⟩
        · exact .inl h7
        · exact .inr ⟨b3, h7, by rw [h8, h5, h2, ha]; simp, h9⟩

/-- If the joined text is not longer than max_size(), join returns it, and it has allocated memory
once, or not at all if the text has room in an empty string. -/
theorem c142_one_allocation (l : Lib) (hl : l.maxSize < 18446744073709551616)
    (hg : ∀ c n, n ≤ l.grow c n) (parts : List Str) (glue : Str)
    (h : (List.intercalate glue parts).length ≤ l.maxSize) :
    ∃ b, join l parts glue = .ok b ∧ b.content = List.intercalate glue parts ∧
      b.allocs = if (List.intercalate glue parts).length ≤ l.room then 0 else 1 := by
  cases parts with
  | nil => exact ⟨_, rfl, by simp, by simp⟩
  | cons p ps =>
    have hr := reserved_spec p ps glue
    have hs : sizeMod = 18446744073709551616 := by decide
    rw [Nat.mod_eq_of_lt (by omega)] at hr
    have hlen : (List.intercalate glue (p :: ps)).length = p.length + (added glue ps).length := by
      rw [intercalate_cons, List.length_append]
    unfold join
    simp only
    rw [hr]
    unfold reserve
    rw [if_neg (by omega)]
    simp only
    by_cases hc : (List.intercalate glue (p :: ps)).length ≤ l.room
    · rw [if_pos hc, if_pos hc, Res.bind_ok,
        append_fits l p _ (by simp only [List.length_nil]; omega)
          (by simp only [List.length_nil]; omega), Res.bind_ok,
        tail_fits l glue ps _ (by simp only [List.nil_append]; omega)
          (by simp only [List.nil_append]; omega)]
      exact ⟨_, rfl, by simp [intercalate_cons], rfl⟩
    · have := hg l.room (List.intercalate glue (p :: ps)).length
      rw [if_neg hc, if_neg hc, Res.bind_ok,
        append_fits l p _ (by simp only [List.length_nil]; omega)
          (by simp only [List.length_nil]; omega), Res.bind_ok,
        tail_fits l glue ps _ (by simp only [List.nil_append]; omega)
          (by simp only [List.nil_append]; omega)]
      exact ⟨_, rfl, by simp [intercalate_cons], rfl⟩

/-- If the joined text is longer than max_size(), join throws std::length_error, even where the sum of
the lengths does not fit into std::size_t. -/
theorem c142_too_long (l : Lib) (parts : List Str) (glue : Str)
    (h : l.maxSize < (List.intercalate glue parts).length) :
    join l parts glue = .throw .lengthError := by
  cases parts with
  | nil => simp at h
  | cons p ps =>
    rw [intercalate_cons] at h
    unfold join
    simp only
    unfold reserve
    have key : ∀ b : Buf, b.content = [] →
        ((append l p b).bind fun b => tail l glue ps b) = .throw .lengthError := by
      intro b hb
      rcases append_cases l p b with ⟨h1, _⟩ | ⟨b1, h1, h2, h3⟩
      · rw [h1]; rfl
      · rw [h1, Res.bind_ok]
        rcases tail_cases l glue ps b1 h3 with h4 | ⟨b2, h4, h5, h6⟩
        · exact h4
        · rw [h5, h2, hb, List.nil_append] at h6
          omega
    split
    · rfl
    · split
      · exact key _ rfl
      · exact key _ rfl

/-! ### Examples -/

/-- The library of GCC (for the examples): 15 characters of room, doubling of capacities. -/
def gcc : Lib := ⟨9223372036854775807, 15, fun c n => max n (2 * c)⟩

example : gcc.maxSize < 18446744073709551616 ∧ ∀ c n, n ≤ gcc.grow c n :=
  ⟨by decide, fun _ _ => Nat.le_max_left _ _⟩
example : join gcc [bytes "a", bytes "b"] (bytes ", ") = .ok ⟨bytes "a, b", 15, 0⟩ := by
  decide +kernel
example : join gcc [bytes "Hello beautiful", bytes "world", []] (bytes " ") =
    .ok ⟨bytes "Hello beautiful world ", 30, 1⟩ := by decide +kernel
example : join ⟨8, 3, fun _ n => n⟩ [bytes "abc", bytes "def"] (bytes "---") = .throw .lengthError := by
  decide +kernel

end Gul14.Strings.JoinMem
