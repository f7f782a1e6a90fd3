import Verif.Strings.Props

/-!
# split at a regular expression (C86)

The regular expression is a parameter: `Regex` is what std::regex_search finds in the text.  Its
contract (`Spec.Rx.Finds`) is the one of the C++ standard: the leftmost match that the flags permit.
-/
namespace Gul14.Strings

/-- A match: the positions of its first character and behind its last one. One match of std::regex, no
code in /repo. -/
structure Hit where
  first : Nat
  last : Nat
  deriving DecidableEq, Repr

/-- std::regex_search in the text from a position on, with the flags match_not_null and
match_continuous. std::regex as an arbitrary matcher, no code in /repo. -/
abbrev Regex := Nat → Bool → Bool → Option Hit

/-- std::cregex_iterator::operator++ as defined in the C++ standard, [re.regiter.incr].
std::sregex_iterator, no code in /repo. -/
def nextHit (rx : Regex) (n : Nat) (m : Hit) : Option Hit :=
  if m.first = m.last then
    if m.last = n then none
    else match rx m.last true true with
      | some h => some h
      | none => rx (m.last + 1) false false
  else rx m.last false false

/-- join_split.h:196-197: insert the suffix of the previous match. -/
def insertSuffix (text : Str) (acc : List Str) : Option Hit → Res (List Str)
  | none => .ub
  | some m => (rawView text m.last (text.length - m.last)).bind fun t => .ok (acc ++ [t])

/-- The for loop and what follows it, join_split.h:187-197; `from_` is the end of the match before
`parts` (the beginning of its prefix). -/
def splitRxLoop (rx : Regex) (text : Str) :
    Nat → Nat → Option Hit → Option Hit → List Str → Res (List Str)
  | 0, _, _, _, _ => .diverge
  | _ + 1, _, none, previous, acc => insertSuffix text acc previous
  | fuel + 1, from_, some m, previous, acc =>
    if previous = some m ∧ ¬ m.last - m.first ≠ 0 then insertSuffix text acc previous
    else (rawView text from_ (m.first - from_)).bind fun t =>
      splitRxLoop rx text fuel m.last (nextHit rx text.length m) (some m) (acc ++ [t])

/-- split(text, regex), join_split.h:171-201. -/
def splitRx (rx : Regex) (text : Str) : Res (List Str) :=
  match rx 0 false false with
  | none => .ok [text]
  | some m => splitRxLoop rx text (2 * text.length + 3) 0 (some m) none []

end Gul14.Strings

namespace Gul14.Spec.Rx
open Strings (Regex Hit)

/-- The characters of `text` from position `a` to position `b`. -/
def slice (text : Str) (a b : Nat) : Str := (text.drop a).take (b - a)

/-- Where the regular expression matches in a text of length `n`: `L a b` says that the characters
from `a` to `b` are a match.  Such a match counts for a search from `start` with the two flags. -/
def Candidate (L : Nat → Nat → Prop) (n start : Nat) (notNull continuous : Bool) (a b : Nat) : Prop :=
  L a b ∧ start ≤ a ∧ a ≤ b ∧ b ≤ n ∧ (notNull = true → a < b) ∧ (continuous = true → a = start)

/-- std::regex_search finds a match, and a leftmost one, if there is any. -/
def Finds (L : Nat → Nat → Prop) (n : Nat) (rx : Regex) : Prop :=
  ∀ start nn co, match rx start nn co with
    | some m => Candidate L n start nn co m.first m.last ∧
        ∀ a b, Candidate L n start nn co a b → m.first ≤ a
    | none => ∀ a b, ¬ Candidate L n start nn co a b

/-- A match that can be the next delimiter: it begins at `start` or later; directly behind an empty
delimiter (`e`), it is not the same empty one. -/
def Delimiter (L : Nat → Nat → Prop) (n : Nat) (e : Prop) (start a b : Nat) : Prop :=
  L a b ∧ start ≤ a ∧ a ≤ b ∧ b ≤ n ∧ (e → start < b)

/-- `Cut L text e start parts`: cutting the text behind `start` at the leftmost delimiter and going
on behind it in the same way gives `parts`. -/
inductive Cut (L : Nat → Nat → Prop) (text : Str) : Prop → Nat → List Str → Prop
  | last (e : Prop) (start : Nat) : (∀ a b, ¬ Delimiter L text.length e start a b) →
      Cut L text e start [text.drop start]
  | cut (e : Prop) (start a b : Nat) (parts : List Str) : Delimiter L text.length e start a b →
      (∀ a' b', Delimiter L text.length e start a' b' → a ≤ a') →
      Cut L text (a = b) b parts → Cut L text e start (slice text start a :: parts)

/-- The parts with the delimiters between them. -/
def weave : List Str → List Str → Str
  | p :: ps, d :: ds => p ++ d ++ weave ps ds
  | ps, _ => ps.flatten

end Gul14.Spec.Rx

namespace Gul14.Strings
open Spec.Rx Spec

theorem nextHit_spec {L : Nat → Nat → Prop} {n : Nat} {rx : Regex} (h : Finds L n rx) (m : Hit) :
    match nextHit rx n m with
    | some m' => Delimiter L n (m.first = m.last) m.last m'.first m'.last ∧
        ∀ a b, Delimiter L n (m.first = m.last) m.last a b → m'.first ≤ a
    | none => ∀ a b, ¬ Delimiter L n (m.first = m.last) m.last a b := by
  unfold nextHit
  by_cases he : m.first = m.last
  · simp only [he, if_true]
    by_cases hn : m.last = n
    · simp only [hn, if_true]
      rintro a b ⟨_, h2, h3, h4, h5⟩
      have := h5 trivial
      omega
    · simp only [hn, if_false]
      have h1 := h m.last true true
      cases hr : rx m.last true true with
      | some m' =>
        rw [hr] at h1
        simp only at h1 ⊢
        obtain ⟨⟨h2, h3, h4, h5, h6, h7⟩, h8⟩ := h1
        have h6 := h6 rfl
        have h7 := h7 rfl
        refine ⟨⟨h2, h3, h4, h5, fun _ => by omega⟩, ?_⟩
        rintro a b ⟨_, hb, _⟩
        omega
      | none =>
        rw [hr] at h1
        simp only at h1 ⊢
        have h2 := h (m.last + 1) false false
        have key : ∀ a b, Delimiter L n True m.last a b → Candidate L n (m.last + 1) false false a b := by
          rintro a b ⟨d1, d2, d3, d4, d5⟩
          have d5 := d5 trivial
          refine ⟨d1, ?_, d3, d4, by simp, by simp⟩
          by_cases ha : a = m.last
          · exact (h1 a b ⟨d1, d2, d3, d4, fun _ => by omega, fun _ => ha⟩).elim
          · omega
        cases hr2 : rx (m.last + 1) false false with
        | some m' =>
          rw [hr2] at h2
          simp only at h2 ⊢
          obtain ⟨⟨c1, c2, c3, c4, _, _⟩, c7⟩ := h2
          exact ⟨⟨c1, by omega, c3, c4, fun _ => by omega⟩, fun a b hd => c7 a b (key a b hd)⟩
        | none =>
          rw [hr2] at h2
          simp only at h2 ⊢
          exact fun a b hd => h2 a b (key a b hd)
  · simp only [he, if_false]
    have h2 := h m.last false false
    have key : ∀ a b, Delimiter L n False m.last a b → Candidate L n m.last false false a b := by
      rintro a b ⟨d1, d2, d3, d4, _⟩
      exact ⟨d1, d2, d3, d4, by simp, by simp⟩
    cases hr2 : rx m.last false false with
    | some m' =>
      rw [hr2] at h2
      simp only at h2 ⊢
      obtain ⟨⟨c1, c2, c3, c4, _, _⟩, c7⟩ := h2
      exact ⟨⟨c1, by omega, c3, c4, fun h => h.elim⟩, fun a b hd => c7 a b (key a b hd)⟩
    | none =>
      rw [hr2] at h2
      simp only at h2 ⊢
      exact fun a b hd => h2 a b (key a b hd)

theorem rxView {s : Str} {a n : Nat} (h : a + n ≤ s.length) :
    rawView s a n = .ok ((s.drop a).take n) := by simp [rawView, h]

/-- The loop after the match `p`. -/
theorem splitRxLoop_spec {L : Nat → Nat → Prop} {text : Str} {rx : Regex}
    (h : Finds L text.length rx) : ∀ (fuel : Nat) (p : Hit) (acc : List Str),
    p.first ≤ p.last → p.last ≤ text.length →
    2 * (text.length - p.last) + (if p.first = p.last then 0 else 1) < fuel →
    ∃ parts, splitRxLoop rx text fuel p.last (nextHit rx text.length p) (some p) acc =
      .ok (acc ++ parts) ∧ Cut L text (p.first = p.last) p.last parts := by
  intro fuel
  induction fuel with
  | zero => intro p acc _ _ hf; omega
  | succ fuel ih =>
    intro p acc h1 h2 hf
    have hs := nextHit_spec h p
    cases hn : nextHit rx text.length p with
    | none =>
      rw [hn] at hs
      refine ⟨[text.drop p.last], ?_, .last _ _ hs⟩
      simp [splitRxLoop, insertSuffix, rxView (s := text) (a := p.last) (n := text.length - p.last)
        (by omega), Res.bind]
      rw [List.take_of_length_le (by simp)]
    | some m =>
      rw [hn] at hs
      simp only at hs
      obtain ⟨⟨d1, d2, d3, d4, d5⟩, d6⟩ := hs
      have hne : ¬ (some p = some m ∧ ¬ m.last - m.first ≠ 0) := by
        rintro ⟨hp, h0⟩
        cases hp
        have : p.first = p.last := by omega
        have := d5 this
        omega
      obtain ⟨parts, e1, e2⟩ := ih m (acc ++ [(text.drop p.last).take (m.first - p.last)]) d3 d4 (by
        split at hf
        · rename_i he
          have := d5 he
          split <;> omega
        · split <;> omega)
      refine ⟨slice text p.last m.first :: parts, ?_, ?_⟩
      · unfold splitRxLoop
        rw [if_neg hne, rxView (by omega)]
        simp only [Res.bind]
        rw [e1]
        simp [slice]
      · exact .cut _ _ _ _ _ ⟨d1, d2, d3, d4, d5⟩ d6 e2

/-- For every text and every regular expression, split terminates without exception or undefined
behaviour, and its result is the text cut at the leftmost match, then at the leftmost match behind
that, and so on. -/
theorem c86_split {L : Nat → Nat → Prop} {text : Str} {rx : Regex} (h : Finds L text.length rx) :
    ∃ parts, splitRx rx text = .ok parts ∧ Cut L text False 0 parts := by
  unfold splitRx
  have h0 := h 0 false false
  have key : ∀ a b, Delimiter L text.length False 0 a b → Candidate L text.length 0 false false a b := by
    rintro a b ⟨d1, d2, d3, d4, _⟩
    exact ⟨d1, d2, d3, d4, by simp, by simp⟩
  cases hr : rx 0 false false with
  | none =>
    rw [hr] at h0
    simp only at h0 ⊢
    have := Cut.last (L := L) (text := text) False 0 (fun a b hd => h0 a b (key a b hd))
    exact ⟨[text], rfl, by simpa using this⟩
  | some m =>
    rw [hr] at h0
    simp only at h0 ⊢
    obtain ⟨⟨c1, c2, c3, c4, _, _⟩, c7⟩ := h0
    obtain ⟨parts, e1, e2⟩ := splitRxLoop_spec h (2 * text.length + 2) m
      ([] ++ [(text.drop 0).take (m.first - 0)]) c3 c4 (by split <;> omega)
    refine ⟨slice text 0 m.first :: parts, ?_, ?_⟩
    · unfold splitRxLoop
      rw [if_neg (by simp), rxView (by omega)]
      simp only [Res.bind]
      rw [e1]
      simp [slice]
    · exact .cut _ _ _ _ _ ⟨c1, c2, c3, c4, fun h => h.elim⟩ (fun a b hd => c7 a b (key a b hd)) e2

theorem drop_slice {text : Str} {a b : Nat} (h : a ≤ b) :
    text.drop a = slice text a b ++ text.drop b := by
  unfold slice
  have : b = a + (b - a) := by omega
  conv => rhs; rw [show text.drop b = (text.drop a).drop (b - a) by rw [List.drop_drop]; congr 1]
  rw [List.take_append_drop]

/-- The parts are what remains between the delimiters: there is one more of them, and putting matches
of the regular expression between them restores the text. -/
theorem c86_weave {L : Nat → Nat → Prop} {text : Str} {rx : Regex} (h : Finds L text.length rx)
    {parts : List Str} (hp : splitRx rx text = .ok parts) :
    ∃ delims : List (Nat × Nat), parts.length = delims.length + 1 ∧
      (∀ d ∈ delims, L d.1 d.2 ∧ d.1 ≤ d.2 ∧ d.2 ≤ text.length) ∧
      weave parts (delims.map fun d => slice text d.1 d.2) = text := by
  obtain ⟨parts', h1, h2⟩ := c86_split h
  rw [h1] at hp
  cases hp
  have key : ∀ {e : Prop} {start : Nat} {parts : List Str}, Cut L text e start parts →
      ∃ delims : List (Nat × Nat), parts.length = delims.length + 1 ∧
      (∀ d ∈ delims, L d.1 d.2 ∧ d.1 ≤ d.2 ∧ d.2 ≤ text.length) ∧
      weave parts (delims.map fun d => slice text d.1 d.2) = text.drop start := by
    intro e start parts hc
    induction hc with
    | last e start _ => exact ⟨[], by simp, by simp, by simp [weave]⟩
    | cut e start a b parts hd _ _ ih =>
      obtain ⟨ds, i1, i2, i3⟩ := ih
      obtain ⟨d1, d2, d3, d4, _⟩ := hd
      refine ⟨(a, b) :: ds, by simp [i1], ?_, ?_⟩
      · intro d hm
        rcases List.mem_cons.mp hm with rfl | hm
        · exact ⟨d1, d3, d4⟩
        · exact i2 d hm
      · simp only [List.map_cons, weave, i3]
        rw [drop_slice d2, drop_slice (text := text) d3, List.append_assoc]
  simpa using key h2

/-- No part contains a non-empty match: `start` is where the part begins in the text. -/
theorem c86_no_delimiter {L : Nat → Nat → Prop} {text : Str} {rx : Regex}
    (h : Finds L text.length rx) {parts : List Str} (hp : splitRx rx text = .ok parts) :
    ∃ starts : List Nat, starts.length = parts.length ∧
      ∀ x ∈ starts.zip parts, x.1 + x.2.length ≤ text.length ∧
        x.2 = slice text x.1 (x.1 + x.2.length) ∧
        ∀ a b, x.1 ≤ a → a < b → b ≤ x.1 + x.2.length → ¬ L a b := by
  obtain ⟨parts', h1, h2⟩ := c86_split h
  rw [h1] at hp
  cases hp
  have key : ∀ {e : Prop} {start : Nat} {parts : List Str}, Cut L text e start parts →
      start ≤ text.length → ∃ starts : List Nat, starts.length = parts.length ∧
      ∀ x ∈ starts.zip parts, x.1 + x.2.length ≤ text.length ∧
        x.2 = slice text x.1 (x.1 + x.2.length) ∧
        ∀ a b, x.1 ≤ a → a < b → b ≤ x.1 + x.2.length → ¬ L a b := by
    intro e start parts hc
    induction hc with
    | last e start hn =>
      intro hs
      refine ⟨[start], rfl, ?_⟩
      intro x hx
      simp only [List.zip_cons_cons, List.zip_nil_right, List.mem_singleton] at hx
      subst hx
      simp only [List.length_drop]
      refine ⟨by omega, ?_, ?_⟩
      · unfold slice
        rw [List.take_of_length_le]
        simp
      · intro a b h1 h2 h3 hL
        exact hn a b ⟨hL, h1, by omega, by omega, fun _ => by omega⟩
    | cut e start a b parts hd hm _ ih =>
      intro hs
      obtain ⟨d1, d2, d3, d4, d5⟩ := hd
      obtain ⟨ss, i1, i2⟩ := ih d4
      refine ⟨start :: ss, by simp [i1], ?_⟩
      intro x hx
      simp only [List.zip_cons_cons, List.mem_cons] at hx
      rcases hx with rfl | hx
      · have hl : (slice text start a).length = a - start := by
          simp [slice]; omega
        simp only [hl]
        refine ⟨by omega, ?_, ?_⟩
        · congr 1; omega
        · intro a' b' h1 h2 h3 hL
          have := hm a' b' ⟨hL, h1, by omega, by omega, fun _ => by omega⟩
          omega
      · exact i2 x hx
  exact key h2 (by omega)

/-- Splitting at a regular expression that matches exactly the occurrences of a non-empty string is
splitting at this string. -/
theorem c86_literal {text d : Str} {rx : Regex} (hd : d ≠ []) (hmax : text.length < npos)
    (h : Finds (fun a b => slice text a b = d) text.length rx) :
    splitRx rx text = split text d := by
  obtain ⟨parts, h1, h2⟩ := c86_split h
  rw [h1]
  symm
  rw [c02_split_cuts text d hd hmax]
  have hdl : 0 < d.length := List.length_pos_iff.mpr hd
  have hocc : ∀ {s i : Nat}, OccursAt (text.drop s) d i →
      s + i + d.length ≤ text.length ∧ slice text (s + i) (s + i + d.length) = d := by
    rintro s i ⟨x, y, hxy, hxl⟩
    have hl := congrArg List.length hxy
    simp only [List.length_drop, List.length_append] at hl
    refine ⟨by omega, ?_⟩
    unfold slice
    rw [← List.drop_drop, hxy]
    subst hxl
    simp
  have key : ∀ {e : Prop} {start : Nat} {parts : List Str},
      Cut (fun a b => slice text a b = d) text e start parts → start ≤ text.length →
      Cuts d (text.drop start) parts := by
    intro e start parts hc
    induction hc with
    | last e start hn =>
      intro hs
      refine .last _ (fun i ho => ?_)
      obtain ⟨o1, o2⟩ := hocc ho
      exact hn (start + i) (start + i + d.length) ⟨o2, by omega, by omega, o1, fun _ => by omega⟩
    | cut e start a b parts hd hm _ ih =>
      intro hs
      obtain ⟨d1, d2, d3, d4, d5⟩ := hd
      have hsplit : text.drop start = slice text start a ++ d ++ text.drop b := by
        rw [drop_slice d2, drop_slice (text := text) d3]
        rw [d1, List.append_assoc]
      rw [hsplit]
      refine .cut _ _ _ ?_ (ih d4)
      intro i ho
      rw [← hsplit] at ho
      obtain ⟨o1, o2⟩ := hocc ho
      have := hm (start + i) (start + i + d.length) ⟨o2, by omega, by omega, o1, fun _ => by omega⟩
      have hl : (slice text start a).length = a - start := by simp [slice]; omega
      omega
  simpa using key h2 (by omega)

/-! ### Examples -/

/-- The regular expression `x*` on the text "ax". -/
def starX : Regex := fun start nn co =>
  if start ≤ 1 ∧ !nn ∧ start = 0 then some ⟨0, 0⟩
  else if start ≤ 1 ∧ (start = 1 ∨ !co) then some ⟨1, 2⟩
  else if start = 2 ∧ !nn then some ⟨2, 2⟩ else none

example : splitRx starX (bytes "ax") = .ok [[], bytes "a", [], []] := by decide +kernel

example : Finds (fun a b => (a, b) = (0, 0) ∨ (a, b) = (1, 2) ∨ (a, b) = (1, 1) ∨ (a, b) = (2, 2)) 2
    starX := by
  intro start nn co
  unfold starX Candidate
  have h : start = 0 ∨ start = 1 ∨ start = 2 ∨ 2 < start := by omega
  rcases h with rfl | rfl | rfl | h
  iterate 3 cases nn <;> cases co <;> simp <;> first | omega | (intros; omega) | skip
  have h1 : ¬ start ≤ 1 := by omega
  have h2 : ¬ start = 2 := by omega
  simp only [h1, h2, false_and, if_false, Bool.false_eq_true]
  rintro a b ⟨_, _⟩
  omega

end Gul14.Strings
