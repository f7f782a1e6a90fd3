import Verif.Strings.Regex

/-!
# split and tokenize with containers and inserters of your own (C141)

The container and everything else the inserter works on is a state of an arbitrary type.  One call of
the inserter changes this state and then returns or throws.
-/
namespace Gul14.Strings.Ins
open Gul14.SV

/-- `insert_fct(container, part)`: the state behind the call, and the exception if it throws. The
template parameter ContainerInsertFct, join_split.h:122 and 172, tokenize.h:115. -/
abbrev Inserter (σ : Type) := σ → Str → σ × Option Exc

/-- `insert_fct(result, part); ...`: an exception leaves split or tokenize at once. C++ semantics; the
calls at join_split.h:139, 143, 183, 192 and 197, tokenize.h:134 and 140. -/
def call {σ : Type} (ins : Inserter σ) (c : σ) (part : Str) (rest : σ → Res (σ × Option Exc)) :
    Res (σ × Option Exc) :=
  match ins c part with
  | (c, none) => rest c
  | (c, some e) => .ok (c, some e)

/-- The for(;;) loop of split and the last insertion, join_split.h:134-144. -/
def splitLoop {σ : Type} (ins : Inserter σ) (text delim : Str) :
    Nat → Nat → Nat → σ → Res (σ × Option Exc)
  | 0, _, _, _ => .diverge
  | fuel + 1, search, push, c =>
      let hit := find text delim search
      if hit = npos then
        (substr text push npos).bind fun t => call ins c t fun c => .ok (c, none)
      else
        let hitLen := (hit + sizeMod - push) % sizeMod
        (substr text push hitLen).bind fun t => call ins c t fun c =>
          splitLoop ins text delim fuel (search + max (delim.length + hitLen) 1)
            (push + (delim.length + hitLen)) c

/-- split<StringContainer>(text, delimiter, insert_fct), join_split.h:121-145; `empty` is
`StringContainer{ }`. split_sv, 225-232, forwards to it. -/
def split {σ : Type} (ins : Inserter σ) (empty : σ) (text delim : Str) : Res (σ × Option Exc) :=
  splitLoop ins text delim (text.length + 2) 0 0 empty

/-- join_split.h:196-197: insert the suffix of the previous match. -/
def insertSuffix {σ : Type} (ins : Inserter σ) (text : Str) (c : σ) : Option Hit → Res (σ × Option Exc)
  | none => .ub
  | some m => (rawView text m.last (text.length - m.last)).bind fun t =>
      call ins c t fun c => .ok (c, none)

/-- The for loop over the matches and what follows it, join_split.h:187-197. -/
def splitRxLoop {σ : Type} (ins : Inserter σ) (rx : Regex) (text : Str) :
    Nat → Nat → Option Hit → Option Hit → σ → Res (σ × Option Exc)
  | 0, _, _, _, _ => .diverge
  | _ + 1, _, none, previous, c => insertSuffix ins text c previous
  | fuel + 1, from_, some m, previous, c =>
    if previous = some m ∧ ¬ m.last - m.first ≠ 0 then insertSuffix ins text c previous
    else (rawView text from_ (m.first - from_)).bind fun t => call ins c t fun c =>
      splitRxLoop ins rx text fuel m.last (nextHit rx text.length m) (some m) c

/-- split<StringContainer>(text, regex, insert_fct), join_split.h:171-201. -/
def splitRx {σ : Type} (ins : Inserter σ) (empty : σ) (rx : Regex) (text : Str) :
    Res (σ × Option Exc) :=
  match rx 0 false false with
  | none => call ins empty text fun c => .ok (c, none)
  | some m => splitRxLoop ins rx text (2 * text.length + 3) 0 (some m) none empty

/-- Loop of tokenize, tokenize.h:125-145. -/
def tokenizeLoop {σ : Type} (ins : Inserter σ) (s delims : Str) :
    Nat → Nat → σ → Res (σ × Option Exc)
  | 0, _, _ => .diverge
  | fuel + 1, tokenEnd, c =>
      let start := findFirstNotOf s delims tokenEnd
      if start = npos then .ok (c, none)
      else
        let stop := findFirstOf s delims start
        if stop = npos then
          (rawView s start (sizeSub s.length start)).bind fun t => call ins c t fun c => .ok (c, none)
        else
          (rawView s start (sizeSub stop start)).bind fun t => call ins c t fun c =>
            tokenizeLoop ins s delims fuel stop c

/-- tokenize<StringContainer>(str, delimiters, insert_fct), tokenize.h:114-146; tokenize_sv,
168-175, forwards to it. -/
def tokenize {σ : Type} (ins : Inserter σ) (empty : σ) (s delims : Str) : Res (σ × Option Exc) :=
  tokenizeLoop ins s delims (s.length + 1) 0 empty

/-- A container type as far as the default inserter asks: the member functions emplace_back and
emplace that it has. The detection of string_util.h:45-50. -/
structure Members (σ : Type) where
  emplaceBack : Option (Inserter σ)
  emplace : Option (Inserter σ)

/-- detail::emplace_back(container, element), string_util.h:52-66; `none`: the call does not
compile. -/
def defaultInserter {σ : Type} (m : Members σ) : Option (Inserter σ) :=
  match m.emplaceBack with
  | some f => some f
  | none => m.emplace

/-- The members of std::vector, std::list, std::deque and SmallVector: emplace_back adds an element
behind the others; emplace, which takes a position first, cannot be called with an element alone. The
containers named in join_split.h:74-76; the C++ standard. -/
def vectorLike : Members (List Str) := ⟨some fun c p => (c ++ [p], none), none⟩

/-- The members of std::queue, as in the example at join_split.h:102-108. The C++ standard. -/
def queueLike : Members (List Str) := ⟨none, some fun c p => (c ++ [p], none)⟩

/-- The members of std::set and std::unordered_set: emplace adds an element that is not there yet; the
order of the list has no meaning. The C++ standard; no code in /repo. -/
def setLike : Members (List Str) := ⟨none, some fun c p => (if p ∈ c then c else p :: c, none)⟩

end Gul14.Strings.Ins

namespace Gul14.Spec.Ins
open Strings.Ins (Inserter)

/-- `Feed ins c parts c' e`: the inserter is called once for each part, in their order, on what the
call before has left, beginning with `c`.  If it throws, that is the end.  `c'` is the state afterwards
and `e` the exception, if any. -/
inductive Feed {σ : Type} (ins : Inserter σ) : σ → List Str → σ → Option Exc → Prop
  | done (c : σ) : Feed ins c [] c none
  | next {c c₁ c' : σ} {p : Str} {ps : List Str} {e : Option Exc} :
      ins c p = (c₁, none) → Feed ins c₁ ps c' e → Feed ins c (p :: ps) c' e
  | throws {c c' : σ} {p : Str} {ps : List Str} {x : Exc} :
      ins c p = (c', some x) → Feed ins c (p :: ps) c' (some x)

end Gul14.Spec.Ins

namespace Gul14.Strings.Ins
open Gul14.SV Spec Spec.Ins Spec.Rx

variable {σ : Type}

/-- One call and a rest that feeds the further parts. -/
theorem call_feed (ins : Inserter σ) (c : σ) (p : Str) (ps : List Str)
    (rest : σ → Res (σ × Option Exc))
    (h : ∀ c, ∃ r, rest c = .ok r ∧ Feed ins c ps r.1 r.2) :
    ∃ r, call ins c p rest = .ok r ∧ Feed ins c (p :: ps) r.1 r.2 := by
  unfold call
  rcases hi : ins c p with ⟨c₁, _ | x⟩
  · obtain ⟨r, h1, h2⟩ := h c₁
    exact ⟨r, h1, .next hi h2⟩
  · exact ⟨_, rfl, .throws hi⟩

theorem call_last (ins : Inserter σ) (c : σ) (p : Str) :
    ∃ r, (call ins c p fun c => .ok (c, none)) = .ok r ∧ Feed ins c [p] r.1 r.2 :=
  call_feed ins c p [] _ fun c => ⟨_, rfl, .done c⟩

theorem splitLoop_feed (ins : Inserter σ) (text delim : Str) (fuel : Nat) :
    ∀ (search push : Nat) (acc out : List Str),
      Strings.splitLoop text delim fuel search push acc = .ok out →
      ∃ ps, out = acc ++ ps ∧
        ∀ c, ∃ r, splitLoop ins text delim fuel search push c = .ok r ∧ Feed ins c ps r.1 r.2 := by
  induction fuel with
  | zero => intro _ _ _ _ h; cases h
  | succ fuel ih =>
    intro search push acc out h
    unfold Strings.splitLoop at h
    unfold splitLoop
    simp only at h ⊢
    by_cases hh : find text delim search = npos
    · rw [if_pos hh] at h
      simp only [if_pos hh]
      cases hs : substr text push npos with
      | ok t =>
        rw [hs] at h
        simp only [Res.bind_ok, Res.ok.injEq] at h
        exact ⟨[t], h.symm, fun c => call_last ins c t⟩
      | throw e => rw [hs] at h; cases h
      | terminate => rw [hs] at h; cases h
      | ub => rw [hs] at h; cases h
      | diverge => rw [hs] at h; cases h
    · rw [if_neg hh] at h
      simp only [if_neg hh]
      cases hs : substr text push ((find text delim search + sizeMod - push) % sizeMod) with
      | ok t =>
        rw [hs] at h
        simp only [Res.bind_ok] at h ⊢
        obtain ⟨ps, h1, h2⟩ := ih _ _ _ _ h
        exact ⟨t :: ps, by simp [h1], fun c => call_feed ins c t ps _ h2⟩
      | throw e => rw [hs] at h; cases h
      | terminate => rw [hs] at h; cases h
      | ub => rw [hs] at h; cases h
      | diverge => rw [hs] at h; cases h

theorem split_feed (ins : Inserter σ) (empty : σ) (text delim : Str) (parts : List Str)
    (h : Strings.split text delim = .ok parts) :
    ∃ c e, split ins empty text delim = .ok (c, e) ∧ Feed ins empty parts c e := by
  obtain ⟨ps, h1, h2⟩ := splitLoop_feed ins text delim _ _ _ _ _ h
  obtain ⟨r, h3, h4⟩ := h2 empty
  rw [List.nil_append] at h1
  subst h1
  exact ⟨r.1, r.2, h3, h4⟩

theorem tokenizeLoop_feed (ins : Inserter σ) (s delims : Str) (fuel : Nat) :
    ∀ (stop : Nat) (acc out : List Str),
      Strings.tokenizeLoop s delims fuel stop acc = .ok out →
      ∃ ps, out = acc ++ ps ∧
        ∀ c, ∃ r, tokenizeLoop ins s delims fuel stop c = .ok r ∧ Feed ins c ps r.1 r.2 := by
  induction fuel with
  | zero => intro _ _ _ h; cases h
  | succ fuel ih =>
    intro stop acc out h
    unfold Strings.tokenizeLoop at h
    unfold tokenizeLoop
    simp only at h ⊢
    by_cases h0 : findFirstNotOf s delims stop = npos
    · rw [if_pos h0] at h
      simp only [if_pos h0]
      cases h
      exact ⟨[], by simp, fun c => ⟨_, rfl, .done c⟩⟩
    · rw [if_neg h0] at h
      simp only [if_neg h0]
      by_cases h1 : findFirstOf s delims (findFirstNotOf s delims stop) = npos
      · rw [if_pos h1] at h
        simp only [if_pos h1]
        cases hs : rawView s (findFirstNotOf s delims stop)
            (sizeSub s.length (findFirstNotOf s delims stop)) with
        | ok t =>
          rw [hs] at h
          simp only [Res.bind_ok, Res.ok.injEq] at h
          exact ⟨[t], h.symm, fun c => call_last ins c t⟩
        | throw e => rw [hs] at h; cases h
        | terminate => rw [hs] at h; cases h
        | ub => rw [hs] at h; cases h
        | diverge => rw [hs] at h; cases h
      · rw [if_neg h1] at h
        simp only [if_neg h1]
        cases hs : rawView s (findFirstNotOf s delims stop)
            (sizeSub (findFirstOf s delims (findFirstNotOf s delims stop))
              (findFirstNotOf s delims stop)) with
        | ok t =>
          rw [hs] at h
          simp only [Res.bind_ok] at h ⊢
          obtain ⟨ps, h2, h3⟩ := ih _ _ _ h
          exact ⟨t :: ps, by simp [h2], fun c => call_feed ins c t ps _ h3⟩
        | throw e => rw [hs] at h; cases h
        | terminate => rw [hs] at h; cases h
        | ub => rw [hs] at h; cases h
        | diverge => rw [hs] at h; cases h

theorem insertSuffix_feed (ins : Inserter σ) (text : Str) (acc out : List Str) (m : Option Hit)
    (h : Strings.insertSuffix text acc m = .ok out) :
    ∃ ps, out = acc ++ ps ∧ ∀ c, ∃ r, insertSuffix ins text c m = .ok r ∧ Feed ins c ps r.1 r.2 := by
  cases m with
  | none => cases h
  | some m =>
    simp only [Strings.insertSuffix] at h
    simp only [insertSuffix]
    cases hs : rawView text m.last (text.length - m.last) with
    | ok t =>
      rw [hs] at h
      simp only [Res.bind_ok, Res.ok.injEq] at h
      exact ⟨[t], h.symm, fun c => call_last ins c t⟩
    | throw e => rw [hs] at h; cases h
    | terminate => rw [hs] at h; cases h
    | ub => rw [hs] at h; cases h
    | diverge => rw [hs] at h; cases h

theorem splitRxLoop_feed (ins : Inserter σ) (rx : Regex) (text : Str) (fuel : Nat) :
    ∀ (from_ : Nat) (m previous : Option Hit) (acc out : List Str),
      Strings.splitRxLoop rx text fuel from_ m previous acc = .ok out →
      ∃ ps, out = acc ++ ps ∧
        ∀ c, ∃ r, splitRxLoop ins rx text fuel from_ m previous c = .ok r ∧
          Feed ins c ps r.1 r.2 := by
  induction fuel with
  | zero => intro _ _ _ _ _ h; simp [Strings.splitRxLoop] at h
  | succ fuel ih =>
    intro from_ m previous acc out h
    cases m with
    | none =>
      simp only [Strings.splitRxLoop] at h
      simp only [splitRxLoop]
      exact insertSuffix_feed ins text acc out previous h
    | some m =>
      unfold Strings.splitRxLoop at h
      unfold splitRxLoop
      by_cases hp : previous = some m ∧ ¬ m.last - m.first ≠ 0
      · rw [if_pos hp] at h
        simp only [if_pos hp]
        exact insertSuffix_feed ins text acc out previous h
      · rw [if_neg hp] at h
        simp only [if_neg hp]
        cases hs : rawView text from_ (m.first - from_) with
        | ok t =>
          rw [hs] at h
          simp only [Res.bind_ok] at h ⊢
          obtain ⟨ps, h2, h3⟩ := ih _ _ _ _ _ h
          exact ⟨t :: ps, by simp [h2], fun c => call_feed ins c t ps _ h3⟩
        | throw e => rw [hs] at h; cases h
        | terminate => rw [hs] at h; cases h
        | ub => rw [hs] at h; cases h
        | diverge => rw [hs] at h; cases h

/-- What the inserter leaves behind is determined by the parts. -/
theorem Feed.unique {ins : Inserter σ} {c : σ} {ps : List Str} {c₁ : σ} {e₁ : Option Exc}
    (h₁ : Feed ins c ps c₁ e₁) : ∀ {c₂ : σ} {e₂ : Option Exc}, Feed ins c ps c₂ e₂ →
      c₁ = c₂ ∧ e₁ = e₂ := by
  induction h₁ with
  | done c => intro _ _ h₂; cases h₂; exact ⟨rfl, rfl⟩
  | next hi _ ih =>
    intro _ _ h₂
    cases h₂ with
    | next hj h => rw [hi] at hj; cases hj; exact ih h
    | throws hj => rw [hi] at hj; cases hj
  | throws hi =>
    intro _ _ h₂
    cases h₂ with
    | next hj h => rw [hi] at hj; cases hj
    | throws hj => rw [hi] at hj; cases hj; exact ⟨rfl, rfl⟩

/-- split(text, delimiter, inserter) with a non-empty delimiter: the inserter gets the parts between
the leftmost occurrences of the delimiter, once each and in order, beginning with the empty container,
until it throws. -/
theorem c141_split (ins : Inserter σ) (empty : σ) (text delim : Str) (hd : delim ≠ [])
    (hmax : text.length < npos) (c : σ) (e : Option Exc) :
    split ins empty text delim = .ok (c, e) ↔
      ∃ parts, Cuts delim text parts ∧ Feed ins empty parts c e := by
  obtain ⟨parts, h1, _, _⟩ := c01_split_join text delim hmax
  obtain ⟨c', e', h2, h3⟩ := split_feed ins empty text delim parts h1
  constructor
  · intro h
    rw [h2] at h
    cases h
    exact ⟨parts, (c02_split_cuts text delim hd hmax parts).1 h1, h3⟩
  · rintro ⟨ps, hc, hf⟩
    have := (c02_split_cuts text delim hd hmax ps).2 hc
    rw [h1] at this
    cases this
    obtain ⟨rfl, rfl⟩ := Feed.unique h3 hf
    exact h2

/-- With the empty delimiter, the inserter gets an empty part, the single characters and an empty
part. -/
theorem c141_split_empty_delimiter (ins : Inserter σ) (empty : σ) (text : Str)
    (hmax : text.length < npos) (c : σ) (e : Option Exc) :
    split ins empty text [] = .ok (c, e) ↔
      Feed ins empty ([] :: text.map (fun c => [c]) ++ [[]]) c e := by
  obtain ⟨c', e', h2, h3⟩ := split_feed ins empty text [] _ (c02_split_empty_delimiter text hmax)
  constructor
  · intro h; rw [h2] at h; cases h; exact h3
  · intro hf
    obtain ⟨rfl, rfl⟩ := Feed.unique h3 hf
    exact h2

/-- tokenize(text, delimiters, inserter): the inserter gets the maximal runs of other characters, once
each and in order, until it throws. -/
theorem c141_tokenize (ins : Inserter σ) (empty : σ) (s delims : Str) (hmax : s.length < npos)
    (c : σ) (e : Option Exc) :
    tokenize ins empty s delims = .ok (c, e) ↔
      ∃ ts, Tokens delims s ts ∧ Feed ins empty ts c e := by
  obtain ⟨ts, h1, ht⟩ := c03_tokenize_total s delims hmax
  obtain ⟨ps, h2, h3⟩ := tokenizeLoop_feed ins s delims _ _ _ _ h1
  obtain ⟨⟨c', e'⟩, h4, h5⟩ := h3 empty
  rw [List.nil_append] at h2
  subst h2
  constructor
  · intro h
    unfold tokenize at h
    rw [h4] at h
    cases h
    exact ⟨ts, ht, h5⟩
  · rintro ⟨us, hc, hf⟩
    have := (c03_tokenize s delims hmax us).2 hc
    rw [h1] at this
    cases this
    obtain ⟨rfl, rfl⟩ := Feed.unique h5 hf
    exact h4

/-- split(text, regex, inserter): the inserter gets the pieces between the successive leftmost
matches (the same ones as without an inserter), once each and in order, until it throws. -/
theorem c141_split_regex {L : Nat → Nat → Prop} {text : Str} {rx : Regex}
    (h : Finds L text.length rx) (ins : Inserter σ) (empty : σ) :
    ∃ parts c e, splitRx ins empty rx text = .ok (c, e) ∧ Strings.splitRx rx text = .ok parts ∧
      Cut L text False 0 parts ∧ Feed ins empty parts c e := by
  obtain ⟨parts, h1, hc⟩ := c86_split h
  have h0 := h1
  unfold Strings.splitRx at h1
  unfold splitRx
  cases hr : rx 0 false false with
  | none =>
    rw [hr] at h1
    simp only [Res.ok.injEq] at h1
    subst h1
    obtain ⟨⟨c, e⟩, h2, h3⟩ := call_last ins empty text
    exact ⟨_, c, e, h2, h0, hc, h3⟩
  | some m =>
    rw [hr] at h1
    obtain ⟨ps, h2, h3⟩ := splitRxLoop_feed ins rx text _ _ _ _ _ _ h1
    obtain ⟨⟨c, e⟩, h4, h5⟩ := h3 empty
    rw [List.nil_append] at h2
    subst h2
    exact ⟨_, c, e, h4, h0, hc, h5⟩

/-- The default inserter appends to containers with emplace_back and to a queue: they hold the parts
in order. -/
theorem c141_sequences (m : Members (List Str)) (hm : m = vectorLike ∨ m = queueLike) :
    ∃ ins, defaultInserter m = some ins ∧
      ∀ parts c e, Feed ins [] parts c e ↔ c = parts ∧ e = none := by
  refine ⟨fun c p => (c ++ [p], none), by rcases hm with rfl | rfl <;> rfl, ?_⟩
  have key : ∀ (parts acc : List Str),
      Feed (fun c p => (c ++ [p], none)) acc parts (acc ++ parts) none := by
    intro parts
    induction parts with
    | nil => intro acc; rw [List.append_nil]; exact .done acc
    | cons p ps ih =>
      intro acc
      refine .next rfl ?_
      have := ih (acc ++ [p])
      simpa using this
  intro parts c e
  constructor
  · intro hf
    obtain ⟨h1, h2⟩ := Feed.unique hf (key parts [])
    exact ⟨by simpa using h1, h2⟩
  · rintro ⟨rfl, rfl⟩
    simpa using key c []

/-- A set filled by the default inserter contains exactly the parts, each of them once. -/
theorem c141_set :
    ∃ ins, defaultInserter setLike = some ins ∧
      ∀ parts c e, Feed ins [] parts c e → e = none ∧ c.Nodup ∧ ∀ p, p ∈ c ↔ p ∈ parts := by
  refine ⟨fun c p => (if p ∈ c then c else p :: c, none), rfl, ?_⟩
  have key : ∀ (parts acc c : List Str) (e : Option Exc),
      Feed (fun c p => (if p ∈ c then c else p :: c, none)) acc parts c e → acc.Nodup →
      e = none ∧ c.Nodup ∧ ∀ p, p ∈ c ↔ p ∈ acc ∨ p ∈ parts := by
    intro parts
    induction parts with
    | nil => intro acc c e hf hn; cases hf; exact ⟨rfl, hn, by simp⟩
    | cons q qs ih =>
      intro acc c e hf hn
      cases hf with
      | next hi hf =>
        cases hi
        by_cases hq : q ∈ acc
        · simp only [if_pos hq] at hf
          obtain ⟨h1, h2, h3⟩ := ih _ _ _ hf hn
          refine ⟨h1, h2, fun p => ?_⟩
          rw [h3, List.mem_cons]
          constructor
          · rintro (h | h)
            · exact .inl h
            · exact .inr (.inr h)
          · rintro (h | rfl | h)
            · exact .inl h
            · exact .inl hq
            · exact .inr h
        · simp only [if_neg hq] at hf
          obtain ⟨h1, h2, h3⟩ := ih _ _ _ hf (List.nodup_cons.2 ⟨hq, hn⟩)
          refine ⟨h1, h2, fun p => ?_⟩
          rw [h3, List.mem_cons, List.mem_cons]
          rw [← or_assoc, or_comm (a := p = q)]
      | throws hi => cases hi
  intro parts c e hf
  obtain ⟨h1, h2, h3⟩ := key parts [] c e hf List.nodup_nil
  exact ⟨h1, h2, fun p => by simp [h3]⟩

/-! ### Examples -/

/-- An inserter that refuses empty parts (an example; no code in /repo). -/
def refuseEmpty : Inserter (List Str) := fun c p =>
  if p = [] then (c, some .invalidArgument) else (c ++ [p], none)

example : split refuseEmpty [] (bytes "a,b,,c") (bytes ",") =
    .ok ([bytes "a", bytes "b"], some .invalidArgument) := by decide +kernel
example : split refuseEmpty [] (bytes "a,b") (bytes ",") = .ok ([bytes "a", bytes "b"], none) := by
  decide +kernel
example : tokenize refuseEmpty [] (bytes "a,b,,c") (bytes ",") =
    .ok ([bytes "a", bytes "b", bytes "c"], none) := by decide +kernel
example : (defaultInserter setLike).map (fun ins => split ins [] (bytes "a.b.a") (bytes ".")) =
    some (.ok ([bytes "b", bytes "a"], none)) := by decide +kernel
example : split (fun n p => (n + p.length, none)) 0 (bytes "ab--c") (bytes "--") =
    .ok (3, none) := by decide +kernel
example : splitRx refuseEmpty [] starX (bytes "ax") = .ok ([], some .invalidArgument) := by
  decide +kernel

end Gul14.Strings.Ins
