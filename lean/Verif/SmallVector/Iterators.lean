import Verif.Basic

/-!
# SmallVector: ranges given by two iterators

The constructor, assign and insert of SmallVector take "an input iterator type" (SmallVector.h:356, 449, 836).  They go
through the range twice: std::distance counts the elements (SmallVector.h:1325, 854), then they are copied.  Iterators
are modelled by what they do; `σ` is what the iterators of a range share, for instance a stream.  A cell of memory
without an object is `none`.
-/
namespace Gul14.SmallVector.Iterators

variable {α σ ι : Type}

/-- What the code does with iterators: `it != last`, `*it` and `++it`. -/
structure Kind (α σ ι : Type) where
  atEnd : ι → σ → Bool
  deref : ι → σ → Option α
  inc : ι → σ → ι × σ

/-- Iterators into the memory of a container: positions; `last` is the end of the range. -/
def positions (mem : List α) (last : Nat) : Kind α Unit Nat where
  atEnd := fun i _ => i == last
  deref := fun i _ => mem[i]?
  inc := fun i _ => (i + 1, ())

/-- std::istream_iterator: holds the value that was read last, or is the end-of-stream iterator; `++` reads the next
value.  What is shared is the values that have not been read. C++ standard, [istream.iterator]; no code in /repo. -/
def istream : Kind α (List α) (Option α) where
  atEnd := fun it _ => it.isNone
  deref := fun it _ => it
  inc := fun _ s => (s.head?, s.tail)

/-- std::istreambuf_iterator: holds nothing; at the end if there are no more characters. C++ standard,
[istreambuf.iterator]; no code in /repo. -/
def istreambuf : Kind α (List α) Unit where
  atEnd := fun _ s => s.isEmpty
  deref := fun _ s => s.head?
  inc := fun _ s => ((), s.tail)

/-- std::distance(first, last) for input iterators, SmallVector.h:1325 and 854: a copy of `first` is incremented until
it is `last`.  (For random access iterators the difference, which is the same.) -/
def distance (k : Kind α σ ι) : Nat → ι → σ → Nat → Res (Nat × σ)
  | 0, _, _, _ => .diverge
  | fuel + 1, it, s, n =>
      if k.atEnd it s then .ok (n, s)
      else distance k fuel (k.inc it s).1 (k.inc it s).2 (n + 1)

/-- The loop of copy_range_into_uninitialized_cells, SmallVector.h:1252-1256.  Constructors of the elements do not
throw here. -/
def copyCells (k : Kind α σ ι) : Nat → ι → σ → Nat → List (Option α) → Res (List (Option α) × σ)
  | 0, _, _, _, _ => .diverge
  | fuel + 1, it, s, pos, cells =>
      if k.atEnd it s then .ok (cells, s)
      else match k.deref it s with
        | none => .ub
        | some x =>
            if pos < cells.length then
              copyCells k fuel (k.inc it s).1 (k.inc it s).2 (pos + 1) (cells.set pos (some x))
            else .ub

/-- fill_empty_vector_with_copied_range, SmallVector.h:1322-1330, for an empty vector with the given capacity; the
cells up to size_ afterwards.  Called by the constructor (364-369) and by assign (461-467). -/
def fill (k : Kind α σ ι) (fuel capacity : Nat) (first : ι) (s : σ) : Res (List (Option α) × σ) :=
  (distance k fuel first s 0).bind fun (n, s) =>
    let capacity := if n > capacity then n else capacity
    (copyCells k fuel first s 0 (List.replicate capacity none)).map fun (cells, s) => (cells.take n, s)

/-- Reading the elements of the vector: undefined if a cell below size_ holds no object. -/
def contents : List (Option α) → Res (List α)
  | [] => .ok []
  | none :: _ => .ub
  | some x :: r => (contents r).map (x :: ·)

/-! ## What has to compile -/

/-- Iterator categories. -/
inductive Category where
  | input | forward | bidirectional | randomAccess
  deriving DecidableEq, Repr

/-- The members with a range. -/
inductive Member where
  | constructor | assign | insert
  deriving DecidableEq, Repr

/-- Whether a call compiles.  All need `ValueType{ *it }` (SmallVector.h:1254), which must not be a narrowing
conversion; insert needs `first + num_assignable` (864), which only random access iterators have. -/
def Member.compiles (c : Category) (narrowing : Bool) : Member → Bool
  | .constructor | .assign => !narrowing
  | .insert => !narrowing && c == .randomAccess

/-! ## Lemmas -/

theorem distance_positions (mem : List α) (last : Nat) :
    ∀ (fuel i n : Nat), i ≤ last → last - i < fuel →
      distance (positions mem last) fuel i () n = .ok (n + (last - i), ()) := by
  intro fuel
  induction fuel with
  | zero => intro i n h1 h2; omega
  | succ fuel ih =>
    intro i n h1 h2
    by_cases h : i = last
    · subst h; simp [distance, positions]
    · have := ih (i + 1) (n + 1) (by omega) (by omega)
      simp only [distance, positions, beq_iff_eq, if_neg h]
      simp only [positions] at this
      rw [this]
      congr 2
      omega

theorem copy_positions (mem : List α) (last : Nat) (hl : last ≤ mem.length) :
    ∀ (fuel i : Nat) (done rest : List (Option α)), i ≤ last → last - i < fuel → last - i ≤ rest.length →
      copyCells (positions mem last) fuel i () done.length (done ++ rest) =
        .ok (done ++ ((mem.drop i).take (last - i)).map some ++ rest.drop (last - i), ()) := by
  intro fuel
  induction fuel with
  | zero => intro i done rest h1 h2; omega
  | succ fuel ih =>
    intro i done rest h1 h2 h3
    by_cases h : i = last
    · subst h; simp [copyCells, positions]
    · have hlt : i < mem.length := by omega
      have e : last - i = (last - (i + 1)) + 1 := by omega
      obtain ⟨r, rs, rfl⟩ : ∃ r rs, rest = r :: rs := by
        cases rest with
        | nil => simp at h3; omega
        | cons r rs => exact ⟨r, rs, rfl⟩
      have hset : (done ++ r :: rs).set done.length (some mem[i]) = (done ++ [some mem[i]]) ++ rs := by simp
      have hd : done.length < (done ++ r :: rs).length := by simp
      have := ih (i + 1) (done ++ [some mem[i]]) rs (by omega) (by omega) (by simp at h3; omega)
      simp only [positions] at this
      simp only [copyCells, positions, beq_iff_eq, if_neg h, List.getElem?_eq_getElem hlt, if_pos hd, hset]
      rw [e, List.drop_eq_getElem_cons hlt, List.take_succ_cons, List.map_cons, List.drop_succ_cons]
      simp only [List.length_append, List.length_singleton] at this
      rw [this]
      simp

theorem contents_map (l : List α) : contents (l.map some) = .ok l := by
  induction l with
  | nil => rfl
  | cons x r ih => simp [contents, ih, Res.map]

theorem distance_istream (l : List α) :
    ∀ (fuel n : Nat) (c : Option α), (c = none → l = []) → l.length + 1 < fuel →
      distance istream fuel c l n = .ok (n + (if c.isSome then l.length + 1 else 0), []) := by
  induction l with
  | nil =>
    intro fuel n c _ hf
    obtain ⟨fuel, rfl⟩ : ∃ f, fuel = f + 2 := ⟨fuel - 2, by simp at hf; omega⟩
    cases c <;> simp [distance, istream]
  | cons x l ih =>
    intro fuel n c hc hf
    obtain ⟨fuel, rfl⟩ : ∃ f, fuel = f + 1 := ⟨fuel - 1, by simp at hf; omega⟩
    cases c with
    | none => exact absurd (hc rfl) (by simp)
    | some y =>
      have := ih fuel (n + 1) (some x) (by simp) (by simp at hf; omega)
      have hs : distance istream (fuel + 1) (some y) (x :: l) n = distance istream fuel (some x) l (n + 1) := rfl
      rw [hs, this]
      simp only [Option.isSome_some, if_true, List.length_cons]
      have e : n + 1 + (l.length + 1) = n + (l.length + 1 + 1) := by omega
      rw [e]

theorem distance_istreambuf (l : List α) :
    ∀ (fuel n : Nat), l.length < fuel → distance istreambuf fuel () l n = .ok (n + l.length, []) := by
  induction l with
  | nil =>
    intro fuel n hf
    obtain ⟨fuel, rfl⟩ : ∃ f, fuel = f + 1 := ⟨fuel - 1, by simp at hf; omega⟩
    simp [distance, istreambuf]
  | cons x l ih =>
    intro fuel n hf
    obtain ⟨fuel, rfl⟩ : ∃ f, fuel = f + 1 := ⟨fuel - 1, by simp at hf; omega⟩
    have := ih fuel (n + 1) (by simp at hf; omega)
    have hs : distance istreambuf (fuel + 1) () (x :: l) n = distance istreambuf fuel () l (n + 1) := rfl
    have e : n + 1 + l.length = n + (l.length + 1) := by omega
    rw [hs, this, e, List.length_cons]

/-! ## The property -/

/-- Construction from, and assignment of, a range of a container (any container, whatever is before and after the
range): the vector holds copies of the elements of the range, all of them and in this order. -/
theorem c127_container_range (pre r post : List α) (capacity fuel : Nat) (hf : r.length < fuel) :
    ∃ cells, fill (positions (pre ++ r ++ post) (pre.length + r.length)) fuel capacity pre.length () =
        .ok (cells, ()) ∧ contents cells = .ok r := by
  refine ⟨r.map some, ?_, contents_map r⟩
  unfold fill
  rw [distance_positions _ _ _ _ _ (by omega) (by omega)]
  simp only [Res.bind, Nat.zero_add]
  have hn : pre.length + r.length - pre.length = r.length := by omega
  rw [hn]
  have hcap : r.length ≤ (if r.length > capacity then r.length else capacity) := by split <;> omega
  generalize (if r.length > capacity then r.length else capacity) = cap at hcap ⊢
  have h := copy_positions (pre ++ r ++ post) (pre.length + r.length) (by simp) fuel pre.length []
    (List.replicate cap none) (by omega) (by omega) (by rw [hn]; simpa using hcap)
  simp only [List.length_nil, List.nil_append] at h
  rw [h, hn]
  simp [Res.map]

/-- Violated: with std::istream_iterator and at least two values, size() is the number of values, but only the first
is there; the other elements are memory in which no object was created, and reading them is undefined. -/
theorem c127_istream_violated (x y : α) (l : List α) (capacity fuel : Nat) (hf : l.length + 2 < fuel) :
    ∃ cells, fill istream fuel capacity (some x) (y :: l) = .ok (cells, []) ∧
      cells.length = (x :: y :: l).length ∧ cells = some x :: List.replicate (l.length + 1) none ∧
      contents cells = .ub := by
  refine ⟨some x :: List.replicate (l.length + 1) none, ?_, by simp, rfl, ?_⟩
  · unfold fill
    rw [distance_istream (y :: l) fuel 0 (some x) (by simp) (by simp; omega)]
    simp only [Res.bind, Option.isSome_some, if_true, List.length_cons, Nat.zero_add]
    have hcap : l.length + 1 + 1 ≤ (if l.length + 1 + 1 > capacity then l.length + 1 + 1 else capacity) := by
      split <;> omega
    generalize (if l.length + 1 + 1 > capacity then l.length + 1 + 1 else capacity) = cap at hcap ⊢
    obtain ⟨cap, rfl⟩ : ∃ c, cap = c + 1 := ⟨cap - 1, by omega⟩
    obtain ⟨fuel, rfl⟩ : ∃ f, fuel = f + 2 := ⟨fuel - 2, by omega⟩
    have hs : copyCells istream (fuel + 2) (some x) [] 0 (List.replicate (cap + 1) none) =
        .ok (some x :: List.replicate cap none, []) := by
      simp [copyCells, istream, List.replicate_succ]
    have e : min (l.length + 1) cap = l.length + 1 := by omega
    rw [hs]
    simp only [Res.map, List.take_succ_cons, List.take_replicate, e]
  · rw [List.replicate_succ]
    simp [contents, Res.map]

/-- Violated: with std::istreambuf_iterator and at least one character, size() is the number of characters, and no
element is there. -/
theorem c127_istreambuf_violated (x : α) (l : List α) (capacity fuel : Nat) (hf : l.length + 1 < fuel) :
    ∃ cells, fill istreambuf fuel capacity () (x :: l) = .ok (cells, []) ∧
      cells = List.replicate (x :: l).length none ∧ contents cells = .ub := by
  refine ⟨List.replicate (x :: l).length none, ?_, rfl, rfl⟩
  unfold fill
  rw [distance_istreambuf (x :: l) fuel 0 (by simp; omega)]
  simp only [Res.bind, Nat.zero_add]
  obtain ⟨fuel, rfl⟩ : ∃ f, fuel = f + 1 := ⟨fuel - 1, by omega⟩
  have hcap : (x :: l).length ≤ (if (x :: l).length > capacity then (x :: l).length else capacity) := by
    split <;> omega
  generalize (if (x :: l).length > capacity then (x :: l).length else capacity) = cap at hcap ⊢
  simp only [copyCells, istreambuf, List.isEmpty_nil, if_true, Res.map]
  rw [List.take_replicate, Nat.min_eq_left hcap]

/-- What is left for single-pass iterators: a range without values, and with std::istream_iterator a range with one
value, are copied correctly. -/
theorem c127_single_pass_partial (x : α) (capacity fuel : Nat) (hf : 2 < fuel) :
    fill istream fuel capacity none ([] : List α) = .ok ([], []) ∧
    fill istream fuel capacity (some x) [] = .ok ([some x], []) ∧
    fill istreambuf fuel capacity () ([] : List α) = .ok ([], []) := by
  obtain ⟨fuel, rfl⟩ : ∃ f, fuel = f + 3 := ⟨fuel - 3, by omega⟩
  refine ⟨by simp [fill, distance, copyCells, istream, Res.bind, Res.map], ?_,
    by simp [fill, distance, copyCells, istreambuf, Res.bind, Res.map]⟩
  have hd : distance istream (fuel + 3) (some x) [] 0 = .ok (1, []) := rfl
  unfold fill
  rw [hd]
  simp only [Res.bind]
  have hcap : 1 ≤ (if 1 > capacity then 1 else capacity) := by split <;> omega
  generalize (if 1 > capacity then 1 else capacity) = cap at hcap ⊢
  obtain ⟨cap, rfl⟩ : ∃ c, cap = c + 1 := ⟨cap - 1, by omega⟩
  simp [copyCells, istream, List.replicate_succ, Res.map]

/-- The constructor and assign can be instantiated for all categories of iterators, if the elements do not have to be
narrowed. -/
theorem c127_compiles (c : Category) :
    Member.constructor.compiles c false = true ∧ Member.assign.compiles c false = true ∧
    Member.insert.compiles .randomAccess false = true := ⟨rfl, rfl, rfl⟩

/-- Violated: insert can only be instantiated for random access iterators: not for those of std::list, std::set or
std::map, or for input iterators. -/
theorem c127_insert_violated (c : Category) (h : c ≠ .randomAccess) (narrowing : Bool) :
    Member.insert.compiles c narrowing = false := by
  cases c <;> simp_all [Member.compiles]

/-! ## Examples -/

example : fill (positions [9, 1, 2, 3, 9] 4) 9 2 1 () = .ok ([some 1, some 2, some 3], ()) := by decide +kernel
example : contents [some 1, some 2, some 3] = .ok [1, 2, 3] := by decide +kernel
example : fill istream 9 2 (some 1) [2, 3] = .ok ([some 1, none, none], []) := by decide +kernel
example : fill istreambuf 9 8 () [1, 2, 3] = .ok ([none, none, none], []) := by decide +kernel

end Gul14.SmallVector.Iterators
