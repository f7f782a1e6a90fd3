import Verif.Strings.JoinMemory

/-!
# Memory and length limit of cat and repeat (C144)

The string with its capacity and its count of allocations, and the parameters of the standard library,
are those of `Strings/JoinMemory.lean`.  The pieces are the texts that the arguments of cat stand for.
-/
namespace Gul14.Text.CatMem
open Gul14.SV
open Gul14.Strings.JoinMem (Lib Buf reserve append append_cases append_fits)

/-- A default-constructed std::string. The local variables at cat.cc:30, 39 and 49, string_util.cc:35. -/
def fresh (l : Lib) : Buf := ⟨[], l.room, 0⟩

/-- std::string(s): a string made from a text (C++ standard), called at cat.h:100. -/
def construct (l : Lib) (s : Str) : Res Buf :=
  if l.maxSize < s.length then .throw .lengthError
  else if s.length ≤ l.room then .ok ⟨s, l.room, 0⟩
  else .ok ⟨s, l.grow l.room s.length, 1⟩

/-- cat(s1, s2), cat.cc:28-35. -/
def cat2 (l : Lib) (s1 s2 : Str) : Res Buf :=
  (reserve l ((s1.length + s2.length) % sizeMod) (fresh l)).bind fun b =>
    (append l s1 b).bind fun b => append l s2 b

/-- cat(s1, s2, s3), cat.cc:37-45. -/
def cat3 (l : Lib) (s1 s2 s3 : Str) : Res Buf :=
  (reserve l (((s1.length + s2.length) % sizeMod + s3.length) % sizeMod) (fresh l)).bind fun b =>
    (append l s1 b).bind fun b => (append l s2 b).bind fun b => append l s3 b

/-- The first loop of cat(initializer_list), cat.cc:51-53. -/
def sumSizes : List Str → Nat → Nat
  | [], len => len
  | p :: ps, len => sumSizes ps ((len + p.length) % sizeMod)

/-- The second loop, cat.cc:57-58. -/
def appendAll (l : Lib) : List Str → Buf → Res Buf
  | [], b => .ok b
  | p :: ps, b => (append l p b).bind fun b => appendAll l ps b

/-- cat(initializer_list), cat.cc:47-61. -/
def catList (l : Lib) (pieces : List Str) : Res Buf :=
  (reserve l (sumSizes pieces 0) (fresh l)).bind fun b => appendAll l pieces b

/-- The overloads of cat by the number of arguments, cat.h:97-120. -/
def cat (l : Lib) : List Str → Res Buf
  | [] => .ok (fresh l)
  | [s] => construct l s
  | [s1, s2] => cat2 l s1 s2
  | [s1, s2, s3] => cat3 l s1 s2 s3
  | pieces => catList l pieces

/-- The loop of repeat, string_util.cc:38-39. -/
def repeatLoop (l : Lib) (str : Str) : Nat → Buf → Res Buf
  | 0, b => .ok b
  | n + 1, b => (append l str b).bind fun b => repeatLoop l str n b

/-- repeat(str, n), string_util.cc:33-42. -/
def repeat_ (l : Lib) (str : Str) (n : Nat) : Res Buf :=
  (reserve l (str.length * n % sizeMod) (fresh l)).bind fun b => repeatLoop l str n b

/-! ### Lemmas -/

theorem appendAll_fits (l : Lib) (ps : List Str) : ∀ b : Buf,
    b.content.length + ps.flatten.length ≤ l.maxSize →
    b.content.length + ps.flatten.length ≤ b.capacity →
    appendAll l ps b = .ok { b with content := b.content ++ ps.flatten } := by
  induction ps with
  | nil => intro b _ _; simp [appendAll]
  | cons p ps ih =>
    intro b h1 h2
    simp only [List.flatten_cons, List.length_append] at h1 h2
    unfold appendAll
    rw [append_fits l p b (by omega) (by omega), Res.bind_ok,
      ih _ (by simp only [List.length_append]; omega) (by simp only [List.length_append]; omega)]
    simp

theorem appendAll_cases (l : Lib) (ps : List Str) : ∀ b : Buf, b.content.length ≤ l.maxSize →
    appendAll l ps b = .throw .lengthError ∨
    ∃ b', appendAll l ps b = .ok b' ∧ b'.content = b.content ++ ps.flatten ∧
      b'.content.length ≤ l.maxSize := by
  induction ps with
  | nil => intro b h; exact .inr ⟨b, rfl, by simp, h⟩
  | cons p ps ih =>
    intro b h
    unfold appendAll
    rcases append_cases l p b with ⟨h1, _⟩ | ⟨b1, h1, h2, h3⟩
    · exact .inl (by rw [h1]; rfl)
    · rw [h1, Res.bind_ok]
      rcases ih b1 h3 with h4 | ⟨b2, h4, h5, h6⟩
      · exact .inl h4
      · exact .inr ⟨b2, h4, by rw [h5, h2]; simp, h6⟩

/-- Reserving `total % 2^64` characters and appending pieces of together `total` characters. -/
theorem filled (l : Lib) (hl : l.maxSize < 18446744073709551616) (hg : ∀ c n, n ≤ l.grow c n)
    (ps : List Str) (total : Nat) (ht : total = ps.flatten.length) (h : total ≤ l.maxSize) :
    ∃ b, ((reserve l (total % sizeMod) (fresh l)).bind fun b => appendAll l ps b) = .ok b ∧
      b.content = ps.flatten ∧ b.allocs = if total ≤ l.room then 0 else 1 := by
  have hs : sizeMod = 18446744073709551616 := by decide
  rw [Nat.mod_eq_of_lt (by omega)]
  unfold reserve fresh
  rw [if_neg (by omega)]
  simp only
  by_cases hc : total ≤ l.room
  · rw [if_pos hc, if_pos hc, Res.bind_ok,
      appendAll_fits l ps _ (by simp only [List.length_nil]; omega)
        (by simp only [List.length_nil]; omega)]
    exact ⟨_, rfl, by simp, rfl⟩
  · have := hg l.room total
    rw [if_neg hc, if_neg hc, Res.bind_ok,
      appendAll_fits l ps _ (by simp only [List.length_nil]; omega)
        (by simp only [List.length_nil]; omega)]
    exact ⟨_, rfl, by simp, rfl⟩

theorem overfilled (l : Lib) (ps : List Str) (n : Nat) (h : l.maxSize < ps.flatten.length) :
    ((reserve l n (fresh l)).bind fun b => appendAll l ps b) = .throw .lengthError := by
  have key : ∀ b : Buf, b.content = [] → appendAll l ps b = .throw .lengthError := by
    intro b hb
    rcases appendAll_cases l ps b (by simp [hb]) with h1 | ⟨b', _, h2, h3⟩
    · exact h1
    · rw [h2, hb, List.nil_append] at h3
      omega
  unfold reserve
  split
  · rfl
  · split
    · exact key _ rfl
    · exact key _ rfl

theorem sumSizes_spec (ps : List Str) : ∀ len, len < sizeMod →
    sumSizes ps len = (len + ps.flatten.length) % sizeMod := by
  induction ps with
  | nil => intro len h; simp [sumSizes, Nat.mod_eq_of_lt h]
  | cons p ps ih =>
    intro len h
    unfold sumSizes
    rw [ih _ (Nat.mod_lt _ (by decide)), Nat.mod_add_mod, List.flatten_cons, List.length_append,
      Nat.add_assoc]

theorem bind_ok_right (r : Res Buf) : (r.bind fun b => .ok b) = r := by cases r <;> rfl

theorem cat2_eq (l : Lib) (s1 s2 : Str) : cat2 l s1 s2 =
    ((reserve l ([s1, s2].flatten.length % sizeMod) (fresh l)).bind fun b =>
      appendAll l [s1, s2] b) := by
  simp [cat2, appendAll, bind_ok_right]

theorem cat3_eq (l : Lib) (s1 s2 s3 : Str) : cat3 l s1 s2 s3 =
    ((reserve l ([s1, s2, s3].flatten.length % sizeMod) (fresh l)).bind fun b =>
      appendAll l [s1, s2, s3] b) := by
  have : [s1, s2, s3].flatten.length = s1.length + s2.length + s3.length := by
    simp [Nat.add_assoc]
  rw [this]
  unfold cat3
  rw [Nat.mod_add_mod]
  simp [appendAll, bind_ok_right]

theorem catList_eq (l : Lib) (ps : List Str) : catList l ps =
    ((reserve l (ps.flatten.length % sizeMod) (fresh l)).bind fun b => appendAll l ps b) := by
  unfold catList
  rw [sumSizes_spec ps 0 (by decide), Nat.zero_add]

theorem repeatLoop_eq (l : Lib) (str : Str) (n : Nat) : ∀ b,
    repeatLoop l str n b = appendAll l (List.replicate n str) b := by
  induction n with
  | zero => intro b; rfl
  | succ n ih => intro b; simp [repeatLoop, List.replicate_succ, appendAll, ih]

theorem replicate_length (str : Str) (n : Nat) :
    str.length * n = (List.replicate n str).flatten.length := by
  induction n with
  | zero => simp
  | succ n ih => rw [List.replicate_succ, List.flatten_cons, List.length_append, ← ih, Nat.mul_succ]; omega

/-! ### Theorems -/

/-- If the pieces together are not longer than max_size(), cat returns them one behind the other, and it
has allocated memory once, or not at all if the text has room in an empty string. -/
theorem c144_cat (l : Lib) (hl : l.maxSize < 18446744073709551616) (hg : ∀ c n, n ≤ l.grow c n)
    (pieces : List Str) (h : pieces.flatten.length ≤ l.maxSize) :
    ∃ b, cat l pieces = .ok b ∧ b.content = pieces.flatten ∧
      b.allocs = if pieces.flatten.length ≤ l.room then 0 else 1 := by
  match pieces, h with
  | [], _ => exact ⟨_, rfl, rfl, by simp [fresh]⟩
  | [s], h =>
    simp only [List.flatten_cons, List.flatten_nil, List.append_nil] at h ⊢
    simp only [cat, construct]
    rw [if_neg (by omega)]
    by_cases hc : s.length ≤ l.room
    · rw [if_pos hc, if_pos hc]; exact ⟨_, rfl, rfl, rfl⟩
    · rw [if_neg hc, if_neg hc]; exact ⟨_, rfl, rfl, rfl⟩
  | [s1, s2], h =>
    simp only [cat]; rw [cat2_eq]; exact filled l hl hg _ _ rfl h
  | [s1, s2, s3], h =>
    simp only [cat]; rw [cat3_eq]; exact filled l hl hg _ _ rfl h
  | s1 :: s2 :: s3 :: s4 :: ss, h =>
    simp only [cat]; rw [catList_eq]; exact filled l hl hg _ _ rfl h

/-- If the pieces together are longer than max_size(), cat throws std::length_error, even where the sum
of the lengths does not fit into std::size_t. -/
theorem c144_cat_too_long (l : Lib) (pieces : List Str) (h : l.maxSize < pieces.flatten.length) :
    cat l pieces = .throw .lengthError := by
  match pieces, h with
  | [], h => simp at h
  | [s], h =>
    simp only [List.flatten_cons, List.flatten_nil, List.append_nil] at h
    simp only [cat, construct]
    rw [if_pos h]
  | [s1, s2], h => simp only [cat]; rw [cat2_eq]; exact overfilled l _ _ h
  | [s1, s2, s3], h => simp only [cat]; rw [cat3_eq]; exact overfilled l _ _ h
  | s1 :: s2 :: s3 :: s4 :: ss, h => simp only [cat]; rw [catList_eq]; exact overfilled l _ _ h

/-- repeat likewise: one allocation at most for any number of repetitions. -/
theorem c144_repeat (l : Lib) (hl : l.maxSize < 18446744073709551616) (hg : ∀ c n, n ≤ l.grow c n)
    (str : Str) (n : Nat) (h : str.length * n ≤ l.maxSize) :
    ∃ b, repeat_ l str n = .ok b ∧ b.content = (List.replicate n str).flatten ∧
      b.allocs = if str.length * n ≤ l.room then 0 else 1 := by
  unfold repeat_
  simp only [repeatLoop_eq]
  exact filled l hl hg _ _ (replicate_length str n) h

/-- If the result is too long, repeat throws std::length_error, even where the product does not fit into
std::size_t. -/
theorem c144_repeat_too_long (l : Lib) (str : Str) (n : Nat) (h : l.maxSize < str.length * n) :
    repeat_ l str n = .throw .lengthError := by
  unfold repeat_
  simp only [repeatLoop_eq]
  exact overfilled l _ _ (by rw [← replicate_length]; exact h)

/-! ### Examples -/

/-- The library of GCC (for the examples): 15 characters of room, doubling of capacities. -/
def gcc : Lib := ⟨9223372036854775807, 15, fun c n => max n (2 * c)⟩

example : gcc.maxSize < 18446744073709551616 ∧ ∀ c n, n ≤ gcc.grow c n :=
  ⟨by decide, fun _ _ => Nat.le_max_left _ _⟩
example : cat gcc [[65], [66, 67], [], [68]] = .ok ⟨[65, 66, 67, 68], 15, 0⟩ := by decide +kernel
example : repeat_ gcc [65, 66] 9 =
    .ok ⟨[65, 66, 65, 66, 65, 66, 65, 66, 65, 66, 65, 66, 65, 66, 65, 66, 65, 66], 30, 1⟩ := by
  decide +kernel
/-- 2 * 2^63 characters: the product is 0 in std::size_t. -/
example : gcc.maxSize < [65, 66].length * 9223372036854775808 := by decide

end Gul14.Text.CatMem
