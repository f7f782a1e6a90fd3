import Verif.Hexdump.Model

/-!
# The helper objects of hexdump_stream for temporaries, hexdump.h:256-376 and 451-463

The object owns the container and holds iterators into it, so that copying and moving it must renew
the iterators.  Objects live in numbered slots; an iterator is the address of a container and a
position; reading through an iterator of a container that no longer exists, or that has fewer
elements, is undefined.
-/
namespace Gul14.Hexdump

/-- Where a container lives: inside a helper object, or in the temporary of the caller's expression.
Objects and their lifetimes are language semantics; no code in /repo. -/
inductive Addr where
  | slot (i : Nat)
  | temp
  deriving DecidableEq, Repr

/-- The iterators that hexdump.h:256-376 works on. -/
structure Iter where
  owner : Addr
  idx : Nat
  deriving DecidableEq, Repr

/-- Members of HexdumpParameterForward, hexdump.h:258-266. -/
structure Forward where
  begin_ : Iter
  end_ : Iter
  prompt : Str
  cont : List Int

/-- The containers and parameter objects of hexdump.h:256-376. -/
abbrev Slots := Nat → Option Forward

/-- The containers and parameter objects of hexdump.h:256-376. -/
def Slots.set (s : Slots) (i : Nat) (o : Option Forward) : Slots := fun k => if k = i then o else s k

/-- regenerate_iterators, hexdump.h:368-376 (container mode), for the object in slot `i`. -/
def regenerate (i : Nat) (f : Forward) : Forward :=
  { f with begin_ := ⟨.slot i, 0⟩, end_ := ⟨.slot i, f.cont.length⟩ }

/-- What moving from a container and a prompt leaves behind (anything). -/
structure Leaves where
  cont : List Int → List Int
  prompt : Str → Str

/-- hexdump_stream(ContainerT&&), hexdump.h:451-463, with the constructor 279-288. -/
def Forward.create (i : Nat) (cont : List Int) (prompt : Str) : Forward :=
  regenerate i ⟨⟨.temp, 0⟩, ⟨.temp, 0⟩, prompt, cont⟩

/-- Copy assignment, hexdump.h:307-320. -/
def copyAssign (s : Slots) (i j : Nat) (other : Forward) : Slots :=
  if i = j then s
  else s.set i (some (regenerate i ⟨other.begin_, other.end_, other.prompt, other.cont⟩))

/-- Move assignment, hexdump.h:326-339. -/
def moveAssign (l : Leaves) (s : Slots) (i j : Nat) (other : Forward) : Slots :=
  if i = j then s
  else
    let s := s.set i (some (regenerate i ⟨other.begin_, other.end_, other.prompt, other.cont⟩))
    s.set j (some { other with prompt := l.prompt other.prompt, cont := l.cont other.cont })

/-- The overloads of hexdump.h:256-376. -/
inductive FOp where
  | create (i : Nat) (cont : List Int) (prompt : Str)
  | copyCtor (i j : Nat)
  | moveCtor (i j : Nat)
  | copyAssign (i j : Nat)
  | moveAssign (i j : Nat)
  | destroy (i : Nat)

/-- One operation; the copy and move constructors (hexdump.h:294, 300-303) default-construct and
assign.  Using objects that do not exist is undefined. -/
def fstep (l : Leaves) (s : Slots) : FOp → Res Slots
  | .create i cont prompt => match s i with
    | none => .ok (s.set i (some (Forward.create i cont prompt)))
    | some _ => .ub
  | .copyCtor i j => match s i, s j with
    | none, some o => .ok (copyAssign s i j o)
    | _, _ => .ub
  | .moveCtor i j => match s i, s j with
    | none, some o => .ok (moveAssign l s i j o)
    | _, _ => .ub
  | .copyAssign i j => match s i, s j with
    | some _, some o => .ok (copyAssign s i j o)
    | _, _ => .ub
  | .moveAssign i j => match s i, s j with
    | some _, some o => .ok (moveAssign l s i j o)
    | _, _ => .ub
  | .destroy i => match s i with
    | some _ => .ok (s.set i none)
    | none => .ub

/-- The overloads of hexdump.h:256-376. -/
def frun (l : Leaves) (s : Slots) : List FOp → Res Slots
  | [] => .ok s
  | op :: ops => (fstep l s op).bind fun s => frun l s ops

/-- The elements between two iterators. The iterators that hexdump.h:256-376 works on. -/
def range (s : Slots) (b e : Iter) : Res (List Int) :=
  match b.owner with
  | .temp => .ub
  | .slot k => match s k with
    | none => .ub
    | some f =>
        if e.owner = b.owner ∧ b.idx ≤ e.idx ∧ e.idx ≤ f.cont.length then
          .ok ((f.cont.drop b.idx).take (e.idx - b.idx))
        else .ub

/-- operator<<, hexdump.h:351-355. -/
def print (size : Nat) (s : Slots) (i : Nat) (dest : Stream) : Res Stream :=
  match s i with
  | none => .ub
  | some f => (range s f.begin_ f.end_).bind fun data => hexdumpStream size dest data f.prompt

end Gul14.Hexdump

namespace Gul14.Spec.Forward
open Gul14.Hexdump (FOp)

/-- What an object stands for: data and prompt, or nothing definite (moved-from). -/
abbrev Meaning := Option (List Int × Str)

/-- The objects of the program and what they stand for. -/
abbrev Ledger := Nat → Option Meaning

def Ledger.set (l : Ledger) (i : Nat) (m : Option Meaning) : Ledger := fun k => if k = i then m else l k

/-- The program uses only objects that exist and creates only objects that do not exist. -/
def Wf (l : Ledger) : FOp → Prop
  | .create i _ _ => l i = none
  | .copyCtor i j | .moveCtor i j => l i = none ∧ l j ≠ none
  | .copyAssign i j | .moveAssign i j => l i ≠ none ∧ l j ≠ none
  | .destroy i => l i ≠ none

def next (l : Ledger) : FOp → Ledger
  | .create i cont prompt => l.set i (some (some (cont, prompt)))
  | .copyCtor i j | .copyAssign i j => l.set i (l j)
  | .moveCtor i j | .moveAssign i j => if i = j then l else (l.set i (l j)).set j (some none)
  | .destroy i => l.set i none

def after (l : Ledger) : List FOp → Ledger
  | [] => l
  | op :: ops => after (next l op) ops

def WfAll (l : Ledger) : List FOp → Prop
  | [] => True
  | op :: ops => Wf l op ∧ WfAll (next l op) ops

end Gul14.Spec.Forward

namespace Gul14.Hexdump
open Gul14.Spec.Forward

/-- Every object that stands for something holds it and iterators to its own container. -/
def FRel (s : Slots) (l : Ledger) : Prop :=
  ∀ i, match l i with
    | none => s i = none
    | some none => ∃ f, s i = some f
    | some (some (xs, p)) => s i = some ⟨⟨.slot i, 0⟩, ⟨.slot i, xs.length⟩, p, xs⟩

theorem frel_none {s : Slots} {l : Ledger} (h : FRel s l) {i : Nat} (hi : l i = none) :
    s i = none := by
  have := h i; rw [hi] at this; exact this

theorem frel_some {s : Slots} {l : Ledger} (h : FRel s l) {i : Nat} (hi : l i ≠ none) :
    ∃ f, s i = some f := by
  have := h i
  match hl : l i with
  | .none => exact absurd hl hi
  | .some (.none) => rw [hl] at this; exact this
  | .some (.some (xs, p)) => rw [hl] at this; exact ⟨_, this⟩

theorem frel_copy {s : Slots} {l : Ledger} (h : FRel s l) {i j : Nat} (hij : i ≠ j) {o : Forward}
    (hj : s j = .some o) :
    FRel (s.set i (.some (regenerate i ⟨o.begin_, o.end_, o.prompt, o.cont⟩))) (l.set i (l j)) := by
  intro k
  by_cases hk : k = i
  · subst hk
    simp only [Ledger.set, Slots.set, if_true]
    have := h j
    match hl : l j with
    | .none => rw [hl] at this; simp only [hj] at this; cases this
    | .some (.none) => exact ⟨_, rfl⟩
    | .some (.some (xs, p)) =>
        rw [hl] at this
        simp only [hj] at this
        cases this
        rfl
  · simp only [Ledger.set, Slots.set, hk, if_false]
    exact h k

theorem frel_step (lv : Leaves) {s : Slots} {l : Ledger} (h : FRel s l) (op : FOp) (hw : Wf l op) :
    ∃ t, fstep lv s op = .ok t ∧ FRel t (next l op) := by
  have hmove : ∀ i j o, i ≠ j → s j = some o → FRel (moveAssign lv s i j o) (next l (.moveAssign i j)) := by
    intro i j o hij hj
    simp only [moveAssign, next, hij, if_false]
    have h1 := frel_copy h hij hj
    intro k
    by_cases hk : k = j
    · subst hk
      simp [Ledger.set, Slots.set]
    · have := h1 k
      simp only [Ledger.set, Slots.set, hk, if_false] at this ⊢
      exact this
  cases op with
  | create i cont prompt =>
      refine ⟨s.set i (some (Forward.create i cont prompt)), by simp only [fstep, frel_none h hw], ?_⟩
      intro k
      by_cases hk : k = i
      · subst hk; simp [next, Ledger.set, Slots.set, Forward.create, regenerate]
      · simp only [next, Ledger.set, Slots.set, hk, if_false]; exact h k
  | copyCtor i j =>
      obtain ⟨o, hj⟩ := frel_some h (i := j) hw.2
      have hij : i ≠ j := by rintro rfl; exact hw.2 hw.1
      refine ⟨copyAssign s i j o, by simp only [fstep, frel_none h hw.1, hj], ?_⟩
      simp only [copyAssign, hij, if_false]
      exact frel_copy h hij hj
  | moveCtor i j =>
      obtain ⟨o, hj⟩ := frel_some h (i := j) hw.2
      have hij : i ≠ j := by rintro rfl; exact hw.2 hw.1
      exact ⟨moveAssign lv s i j o, by simp only [fstep, frel_none h hw.1, hj], hmove i j o hij hj⟩
  | copyAssign i j =>
      obtain ⟨p, hi⟩ := frel_some h (i := i) hw.1
      obtain ⟨o, hj⟩ := frel_some h (i := j) hw.2
      refine ⟨copyAssign s i j o, by simp only [fstep, hi, hj], ?_⟩
      by_cases hij : i = j
      · subst hij
        simp only [copyAssign, if_true, next]
        intro k
        by_cases hk : k = i
        · subst hk; simpa [Ledger.set] using h k
        · simp only [Ledger.set, hk, if_false]; exact h k
      · simp only [copyAssign, hij, if_false]
        exact frel_copy h hij hj
  | moveAssign i j =>
      obtain ⟨p, hi⟩ := frel_some h (i := i) hw.1
      obtain ⟨o, hj⟩ := frel_some h (i := j) hw.2
      refine ⟨moveAssign lv s i j o, by simp only [fstep, hi, hj], ?_⟩
      by_cases hij : i = j
      · subst hij
        simp only [moveAssign, if_true, next]
        exact h
      · exact hmove i j o hij hj
  | destroy i =>
      obtain ⟨o, hi⟩ := frel_some h (i := i) hw
      refine ⟨s.set i none, by simp only [fstep, hi], ?_⟩
      intro k
      by_cases hk : k = i
      · subst hk; simp [next, Ledger.set, Slots.set]
      · simp only [next, Ledger.set, Slots.set, hk, if_false]; exact h k

theorem frel_run (lv : Leaves) (ops : List FOp) : ∀ {s : Slots} {l : Ledger}, FRel s l →
    WfAll l ops → ∃ t, frun lv s ops = .ok t ∧ FRel t (after l ops) := by
  induction ops with
  | nil => intro s l h _; exact ⟨s, rfl, h⟩
  | cons op ops ih =>
      intro s l h hw
      obtain ⟨t, h1, h2⟩ := frel_step lv h op hw.1
      obtain ⟨u, h3, h4⟩ := ih h2 hw.2
      exact ⟨u, by simp [frun, h1, h3], h4⟩

/-- After any history of creating, copying, moving, assigning and destroying helper objects, writing
an object that has not been moved from to a stream dumps the data and prompt of the hexdump_stream
call it stems from, even if the temporary and all other objects are gone. -/
theorem c69_forward (lv : Leaves) (ops : List FOp) (hw : WfAll (fun _ => none) ops) :
    ∃ s, frun lv (fun _ => none) ops = .ok s ∧
      ∀ i xs p, after (fun _ => none) ops i = some (some (xs, p)) →
        ∀ size dest, print size s i dest = hexdumpStream size dest xs p := by
  obtain ⟨s, h1, h2⟩ := frel_run lv ops (s := fun _ => none) (l := fun _ => none)
    (fun i => rfl) hw
  refine ⟨s, h1, ?_⟩
  intro i xs p hi size dest
  have h3 := h2 i
  rw [hi] at h3
  simp only at h3
  simp [print, h3, range]

/-- The object is created, copied, the original is overwritten by another one and destroyed, the copy
is moved: the third object stands for the data. -/
example : WfAll (fun _ => none) [.create 0 [1, 2] [], .copyCtor 1 0, .create 2 [7] [],
      .moveAssign 0 2, .destroy 0, .moveCtor 3 1, .destroy 1] ∧
    after (fun _ => none) [.create 0 [1, 2] [], .copyCtor 1 0, .create 2 [7] [],
      .moveAssign 0 2, .destroy 0, .moveCtor 3 1, .destroy 1] 3 = some (some ([1, 2], [])) := by
  constructor
  · simp [WfAll, Wf, next, Ledger.set]
  · rfl

end Gul14.Hexdump
