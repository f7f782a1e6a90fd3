import Verif.Strings.Props

/-!
# C110: where the views point that split_sv, tokenize_sv and the trim functions return

In Verif/Strings/Model.lean the results are strings of characters.  Here they are views, that is, positions:
into the text that was passed, or into a string literal of the library.
-/
namespace Gul14.Strings.Views
open Gul14.SV Gul14.Strings

/-- What a pointer points into: the characters passed by the caller or the literal "" of trim.cc:39, 56,
71. -/
inductive Base where
  | text
  | literal
  deriving DecidableEq, Repr

/-- A string_view: pointer and length, string_view.h:370-371. -/
structure View where
  base : Base
  off : Nat
  len : Nat
  deriving DecidableEq, Repr

/-- The characters that a view shows. -/
def View.chars (text : Str) (v : View) : Str := match v.base with
  | .text => (text.drop v.off).take v.len
  | .literal => []

/-- substr of the view of the whole text, string_view.h:214-220. -/
def substrView (text : Str) (pos n : Nat) : Res View :=
  if pos > text.length then .throw .outOfRange
  else
    let n := if n = npos ∨ (pos + n) % sizeMod > text.length then text.length - pos else n
    if pos + n ≤ text.length then .ok ⟨.text, pos, n⟩ else .ub

/-- `string_view{ str.data() + start, len }`, tokenize.h:134, 140. -/
def rawViewAt (text : Str) (start len : Nat) : Res View :=
  if start + len ≤ text.length then .ok ⟨.text, start, len⟩ else .ub

/-- The loop of split, join_split.h:134-143. -/
def splitLoop (text delim : Str) : Nat → Nat → Nat → List View → Res (List View)
  | 0, _, _, _ => .diverge
  | fuel + 1, search, push, acc =>
      let hit := find text delim search
      if hit = npos then
        (substrView text push npos).bind fun t => .ok (acc ++ [t])
      else
        let hitLen := (hit + sizeMod - push) % sizeMod
        (substrView text push hitLen).bind fun t =>
          splitLoop text delim fuel (search + max (delim.length + hitLen) 1)
            (push + (delim.length + hitLen)) (acc ++ [t])

/-- split_sv, join_split.h:225-232. -/
def splitSv (text delim : Str) : Res (List View) := splitLoop text delim (text.length + 2) 0 0 []

/-- Loop of tokenize, tokenize.h:125-143. -/
def tokenizeLoop (s delims : Str) : Nat → Nat → List View → Res (List View)
  | 0, _, _ => .diverge
  | fuel + 1, tokenEnd, tokens =>
      let start := findFirstNotOf s delims tokenEnd
      if start = npos then .ok tokens
      else
        let stop := findFirstOf s delims start
        if stop = npos then
          (rawViewAt s start (sizeSub s.length start)).bind fun t => .ok (tokens ++ [t])
        else
          (rawViewAt s start (sizeSub stop start)).bind fun t =>
            tokenizeLoop s delims fuel stop (tokens ++ [t])

/-- tokenize_sv, tokenize.h:168-175. -/
def tokenizeSv (s delims : Str) : Res (List View) := tokenizeLoop s delims (s.length + 1) 0 []

/-- trim_sv, trim.cc:34-44. -/
def trimSv (s ws : Str) : Res View :=
  let lpos := findFirstNotOf s ws 0
  if lpos = npos then .ok ⟨.literal, 0, 0⟩
  else
    let rpos := findLastNotOf s ws npos
    substrView s lpos ((rpos + sizeMod - lpos + 1) % sizeMod)

/-- trim_left_sv, trim.cc:51-59. -/
def trimLeftSv (s ws : Str) : Res View :=
  let pos := findFirstNotOf s ws 0
  if pos = npos then .ok ⟨.literal, 0, 0⟩ else substrView s pos npos

/-- trim_right_sv, trim.cc:66-74. -/
def trimRightSv (s ws : Str) : Res View :=
  let pos := findLastNotOf s ws npos
  if pos = npos then .ok ⟨.literal, 0, 0⟩ else substrView s 0 ((pos + 1) % sizeMod)

/-! ### Specification -/

/-- The view shows characters of the text, in place. -/
def Inside (text : Str) (v : View) : Prop := v.base = .text ∧ v.off + v.len ≤ text.length

/-- From position `p` on the text consists of the views, with the delimiter between one and the next. -/
def Tiled (text delim : Str) : Nat → List View → Prop
  | _, [] => False
  | p, [v] => v.base = .text ∧ v.off = p ∧ p + v.len = text.length
  | p, v :: vs => v.base = .text ∧ v.off = p ∧ p + v.len + delim.length ≤ text.length ∧
      (text.drop (p + v.len)).take delim.length = delim ∧ Tiled text delim (p + v.len + delim.length) vs

/-- From position `p` on the views follow each other; each of them is not empty and ends at the end of the
text or at a delimiter. -/
def Ordered (text delims : Str) : Nat → List View → Prop
  | _, [] => True
  | p, v :: vs => v.base = .text ∧ p ≤ v.off ∧ 0 < v.len ∧ v.off + v.len ≤ text.length ∧
      (∀ c, text[v.off + v.len]? = some c → c ∈ delims) ∧ Ordered text delims (v.off + v.len) vs

/-! ### Proofs -/

theorem substrView_chars (text : Str) (pos n : Nat) :
    (substrView text pos n).map (View.chars text) = substr text pos n := by
  simp only [substrView, substr]
  split
  · rfl
  · split <;> split <;> rfl

theorem rawViewAt_chars (text : Str) (start len : Nat) :
    (rawViewAt text start len).map (View.chars text) = rawView text start len := by
  simp only [rawViewAt, rawView]
  split <;> rfl

theorem bind_of_map {α β : Type} {r : Res α} {r' : Res β} {f : α → β} (h : r.map f = r') {g : α → Res γ} {g' : β → Res γ'}
    {k : γ → γ'} (hg : ∀ a, (g a).map k = g' (f a)) : (r.bind g).map k = r'.bind g' := by
  subst h
  cases r with
  | ok a => exact hg a
  | _ => rfl

theorem splitLoop_chars (text delim : Str) (fuel search push : Nat) (acc : List View) :
    (splitLoop text delim fuel search push acc).map (·.map (View.chars text)) =
      Strings.splitLoop text delim fuel search push (acc.map (View.chars text)) := by
  induction fuel generalizing search push acc with
  | zero => rfl
  | succ fuel ih =>
      simp only [splitLoop, Strings.splitLoop]
      split
      · exact bind_of_map (substrView_chars _ _ _) (fun a => by simp [Res.map])
      · exact bind_of_map (substrView_chars _ _ _) (fun a => by rw [ih]; simp)

theorem tokenizeLoop_chars (text delim : Str) (fuel p : Nat) (acc : List View) :
    (tokenizeLoop text delim fuel p acc).map (·.map (View.chars text)) =
      Strings.tokenizeLoop text delim fuel p (acc.map (View.chars text)) := by
  induction fuel generalizing p acc with
  | zero => rfl
  | succ fuel ih =>
      simp only [tokenizeLoop, Strings.tokenizeLoop]
      split
      · rfl
      · split
        · exact bind_of_map (rawViewAt_chars _ _ _) (fun a => by simp [Res.map])
        · exact bind_of_map (rawViewAt_chars _ _ _) (fun a => by rw [ih]; simp)

theorem Tiled.cons {text delim : Str} {p : Nat} {v : View} {vs : List View} (h1 : v.base = .text) (h2 : v.off = p)
    (h3 : p + v.len + delim.length ≤ text.length) (h4 : (text.drop (p + v.len)).take delim.length = delim)
    (h5 : Tiled text delim (p + v.len + delim.length) vs) : Tiled text delim p (v :: vs) := by
  cases vs with
  | nil => exact h5.elim
  | cons w ws => exact ⟨h1, h2, h3, h4, h5⟩

theorem substrView_ok (s : Str) (pos n : Nat) (h : pos + n ≤ s.length) (hmax : s.length < npos) :
    substrView s pos n = .ok ⟨.text, pos, n⟩ := by
  have := sizeMod_eq
  unfold substrView
  rw [if_neg (by omega)]
  rw [Nat.mod_eq_of_lt (by omega)]
  have : ¬ (n = npos ∨ pos + n > s.length) := by omega
  simp [this, h]

theorem substrView_npos (s : Str) (pos : Nat) (h : pos ≤ s.length) :
    substrView s pos npos = .ok ⟨.text, pos, s.length - pos⟩ := by
  unfold substrView
  rw [if_neg (by omega)]
  simp only [true_or, if_true]
  rw [if_pos (by omega)]

theorem splitLoop_tiled (text delim : Str) (hmax : text.length < npos) (fuel search push : Nat) (acc out : List View)
    (hp : push ≤ search) (hl : push ≤ text.length) (h : splitLoop text delim fuel search push acc = .ok out) :
    ∃ vs, out = acc ++ vs ∧ Tiled text delim push vs := by
  induction fuel generalizing search push acc with
  | zero => cases h
  | succ fuel ih =>
      simp only [splitLoop] at h
      rcases find_first text delim search hmax with ⟨h1, _⟩ | ⟨h1, ⟨h2, h3⟩, _⟩
      · rw [if_pos h1, substrView_npos _ _ hl] at h
        cases h
        exact ⟨_, rfl, rfl, rfl, by show push + (text.length - push) = text.length; omega⟩
      · rw [if_neg h1] at h
        generalize find text delim search = hit at *
        rw [occursAt_iff] at h3
        have hdl : hit + delim.length ≤ text.length := by
          have := h3.2.length_le
          rw [List.length_drop] at this
          have := h3.1
          omega
        have hm := sizeMod_eq
        have he : (hit + sizeMod - push) % sizeMod = hit - push := by
          rw [show hit + sizeMod - push = hit - push + sizeMod by omega, Nat.add_mod_right, Nat.mod_eq_of_lt (by omega)]
        rw [he, substrView_ok _ _ _ (by omega) hmax] at h
        obtain ⟨vs, hv, ht⟩ := ih _ _ _ (by omega) (by omega) h
        refine ⟨⟨.text, push, hit - push⟩ :: vs, by rw [hv]; simp, Tiled.cons rfl rfl ?_ ?_ ?_⟩
        · show push + (hit - push) + delim.length ≤ text.length
          omega
        · show (text.drop (push + (hit - push))).take delim.length = delim
          rw [show push + (hit - push) = hit by omega]; exact (List.prefix_iff_eq_take.mp h3.2).symm
        · show Tiled text delim (push + (hit - push) + delim.length) vs
          rw [show push + (hit - push) + delim.length = push + (delim.length + (hit - push)) by omega]; exact ht

theorem tokenizeLoop_ordered (s d : Str) (hmax : s.length < npos) (fuel p : Nat) (acc out : List View)
    (h : tokenizeLoop s d fuel p acc = .ok out) : ∃ vs, out = acc ++ vs ∧ Ordered s d p vs := by
  induction fuel generalizing p acc with
  | zero => cases h
  | succ fuel ih =>
      have hsz : s.length < sizeMod := Nat.lt_trans hmax (by decide)
      simp only [tokenizeLoop] at h
      rcases findFirstNotOf_first s d p hmax with ⟨h1, h2⟩ | ⟨h1, ⟨h2, h3⟩, h4⟩
      · rw [if_pos h1] at h; cases h; exact ⟨[], by simp, trivial⟩
      · rw [if_neg h1] at h
        generalize hst : findFirstNotOf s d p = st at *
        obtain ⟨c0, hc0, hc0d⟩ := h3
        have hstl : st < s.length := (List.getElem?_eq_some_iff.mp hc0).1
        rcases findFirstOf_first s d st hmax with ⟨g1, g2⟩ | ⟨g1, ⟨g2, g3⟩, g4⟩
        · rw [if_pos g1, sizeSub_eq (by omega) hsz] at h
          unfold rawViewAt at h
          rw [if_pos (by omega)] at h
          cases h
          refine ⟨_, rfl, rfl, h2, by show 0 < s.length - st; omega, by show st + (s.length - st) ≤ _; omega, ?_, trivial⟩
          intro c hc
          have : s[st + (s.length - st)]? = some c := hc
          rw [show st + (s.length - st) = s.length by omega, List.getElem?_eq_none (Nat.le_refl _)] at this
          cases this
        · rw [if_neg g1] at h
          generalize hen : findFirstOf s d st = en at *
          obtain ⟨c1, hc1, hc1d⟩ := g3
          have henl : en < s.length := (List.getElem?_eq_some_iff.mp hc1).1
          have hlt : st < en := by
            rcases Nat.lt_or_ge st en with h | h
            · exact h
            · have : st = en := by omega
              subst this
              rw [hc0] at hc1
              cases hc1
              exact absurd hc1d hc0d
          rw [sizeSub_eq (by omega) (by omega)] at h
          unfold rawViewAt at h
          rw [if_pos (by omega)] at h
          obtain ⟨vs, hv, ht⟩ := ih _ _ h
          refine ⟨⟨.text, st, en - st⟩ :: vs, by rw [hv]; simp, rfl, h2, by show 0 < en - st; omega,
            by show st + (en - st) ≤ _; omega, ?_, ?_⟩
          · intro c hc
            have : s[st + (en - st)]? = some c := hc
            rw [show st + (en - st) = en by omega, hc1] at this
            cases this; exact hc1d
          · show Ordered s d (st + (en - st)) vs
            rw [show st + (en - st) = en by omega]; exact ht

theorem map_ok_iff {α β : Type} {r : Res α} {f : α → β} {b : β} : r.map f = .ok b ↔ ∃ a, r = .ok a ∧ f a = b := by
  cases r <;> simp [Res.map]

/-- **C110.**  split_sv returns views of the text itself: they and the delimiters between them make up the whole
text, without gaps and overlaps, and they show what split returns. -/
theorem c110_split_sv (text delim : Str) (hmax : text.length < npos) :
    ∃ vs, splitSv text delim = .ok vs ∧ Tiled text delim 0 vs ∧
      split text delim = .ok (vs.map (View.chars text)) := by
  have h := splitLoop_chars text delim (text.length + 2) 0 0 []
  obtain ⟨ps, hps, _⟩ := c01_split_join text delim hmax
  have hps' : Strings.splitLoop text delim (text.length + 2) 0 0 ([].map (View.chars text)) = .ok ps := hps
  rw [hps', map_ok_iff] at h
  obtain ⟨vs, h1, h2⟩ := h
  obtain ⟨vs', h3, h4⟩ := splitLoop_tiled text delim hmax _ 0 0 [] vs (Nat.le_refl 0) (Nat.zero_le _) h1
  rw [List.nil_append] at h3
  subst h3
  exact ⟨vs, h1, h4, by rw [hps, h2]⟩

/-- **C110.**  tokenize_sv returns views of the text itself, in their order and without overlaps; they show what
tokenize returns. -/
theorem c110_tokenize_sv (s delims : Str) (hmax : s.length < npos) :
    ∃ vs, tokenizeSv s delims = .ok vs ∧ Ordered s delims 0 vs ∧
      tokenize s delims = .ok (vs.map (View.chars s)) := by
  have h := tokenizeLoop_chars s delims (s.length + 1) 0 []
  obtain ⟨ps, hps, _⟩ := c03_tokenize_total s delims hmax
  have hps' : Strings.tokenizeLoop s delims (s.length + 1) 0 ([].map (View.chars s)) = .ok ps := hps
  rw [hps', map_ok_iff] at h
  obtain ⟨vs, h1, h2⟩ := h
  obtain ⟨vs', h3, h4⟩ := tokenizeLoop_ordered s delims hmax _ 0 [] vs h1
  rw [List.nil_append] at h3
  subst h3
  exact ⟨vs, h1, h4, by rw [hps, h2]⟩

theorem substrView_eq {s : Str} {pos n : Nat} {v : View} (h : substrView s pos n = .ok v) :
    Inside s v ∧ v.off = pos := by
  simp only [substrView] at h
  generalize (if n = npos ∨ (pos + n) % sizeMod > s.length then s.length - pos else n) = m at h
  by_cases h1 : pos > s.length
  · rw [if_pos h1] at h; cases h
  · rw [if_neg h1] at h
    by_cases h2 : pos + m ≤ s.length
    · rw [if_pos h2] at h; cases h; exact ⟨⟨rfl, h2⟩, rfl⟩
    · rw [if_neg h2] at h; cases h

theorem trimSv_chars (s ws : Str) : (trimSv s ws).map (View.chars s) = Strings.trimSv s ws := by
  simp only [trimSv, Strings.trimSv]
  split
  · rfl
  · exact substrView_chars _ _ _

theorem trimLeftSv_chars (s ws : Str) : (trimLeftSv s ws).map (View.chars s) = trimLeft s ws := by
  simp only [trimLeftSv, trimLeft]
  split
  · rfl
  · exact substrView_chars _ _ _

theorem trimRightSv_chars (s ws : Str) : (trimRightSv s ws).map (View.chars s) = trimRight s ws := by
  simp only [trimRightSv, trimRight]
  split
  · rfl
  · exact substrView_chars _ _ _

/-- **C110** (part).  If a character is left, the views returned by trim_sv, trim_left_sv and trim_right_sv point
into the text and show what trim, trim_left and trim_right return.  If none is left, they do not point into the
text (`c110_trim_sv_violated`). -/
theorem c110_trim_sv_partial (s ws : Str) (hmax : s.length < npos) (hc : ∃ c ∈ s, c ∉ ws) :
    (∃ v, trimSv s ws = .ok v ∧ Inside s v ∧ trim s ws = .ok (v.chars s)) ∧
    (∃ v, trimLeftSv s ws = .ok v ∧ Inside s v ∧ v.off + v.len = s.length ∧ trimLeft s ws = .ok (v.chars s)) ∧
    (∃ v, trimRightSv s ws = .ok v ∧ Inside s v ∧ v.off = 0 ∧ trimRight s ws = .ok (v.chars s)) := by
  obtain ⟨c, hcs, hcw⟩ := hc
  have hf : findFirstNotOf s ws 0 ≠ npos := by
    rcases findFirstNotOf_split s ws hmax with ⟨_, h⟩ | ⟨a, c, t, _, h, h', _⟩
    · exact absurd (h c hcs) hcw
    · rw [h]; exact h'
  have hg : findLastNotOf s ws npos ≠ npos := by
    rcases findLastNotOf_split s ws hmax with ⟨_, h⟩ | ⟨a, c, t, _, h, h', _⟩
    · exact absurd (h c hcs) hcw
    · rw [h]; exact h'
  refine ⟨?_, ?_, ?_⟩
  · obtain ⟨r, hr, _⟩ := c06_trim s ws hmax
    have h : (trimSv s ws).map (View.chars s) = .ok r := (trimSv_chars s ws).trans hr
    obtain ⟨v, h1, h2⟩ := map_ok_iff.mp h
    refine ⟨v, h1, ?_, by rw [hr, h2]⟩
    simp only [trimSv] at h1
    rw [if_neg hf] at h1
    exact (substrView_eq h1).1
  · obtain ⟨r, hr, _⟩ := c06_trim_left s ws hmax
    have h : (trimLeftSv s ws).map (View.chars s) = .ok r := (trimLeftSv_chars s ws).trans hr
    obtain ⟨v, h1, h2⟩ := map_ok_iff.mp h
    refine ⟨v, h1, ?_, ?_, by rw [hr, h2]⟩ <;>
      (simp only [trimLeftSv] at h1; rw [if_neg hf] at h1)
    · exact (substrView_eq h1).1
    · unfold substrView at h1
      split at h1
      · cases h1
      · simp only [true_or, if_true] at h1
        split at h1
        · cases h1; show findFirstNotOf s ws 0 + (s.length - findFirstNotOf s ws 0) = s.length; omega
        · cases h1
  · obtain ⟨r, hr, _⟩ := c06_trim_right s ws hmax
    have h : (trimRightSv s ws).map (View.chars s) = .ok r := (trimRightSv_chars s ws).trans hr
    obtain ⟨v, h1, h2⟩ := map_ok_iff.mp h
    refine ⟨v, h1, ?_, ?_, by rw [hr, h2]⟩ <;>
      (simp only [trimRightSv] at h1; rw [if_neg hg] at h1)
    · exact (substrView_eq h1).1
    · exact (substrView_eq h1).2

/-- **C110 is violated** by the trim functions: "returns a trimmed string_view that points into the input string",
trim.h:73.  For every text that consists of whitespace only, or is empty, the view points into a string literal. -/
theorem c110_trim_sv_violated (s ws : Str) (hmax : s.length < npos) (hc : ∀ c ∈ s, c ∈ ws) :
    (∃ v, trimSv s ws = .ok v ∧ ¬ Inside s v) ∧ (∃ v, trimLeftSv s ws = .ok v ∧ ¬ Inside s v) ∧
    (∃ v, trimRightSv s ws = .ok v ∧ ¬ Inside s v) := by
  have hf : findFirstNotOf s ws 0 = npos := by
    rcases findFirstNotOf_split s ws hmax with ⟨h, _⟩ | ⟨a, c, t, h1, _, _, h2, _⟩
    · exact h
    · exact absurd (hc c (by rw [h1]; simp)) h2
  have hg : findLastNotOf s ws npos = npos := by
    rcases findLastNotOf_split s ws hmax with ⟨h, _⟩ | ⟨a, c, t, h1, _, _, h2, _⟩
    · exact h
    · exact absurd (hc c (by rw [h1]; simp)) h2
  refine ⟨⟨⟨.literal, 0, 0⟩, ?_, ?_⟩, ⟨⟨.literal, 0, 0⟩, ?_, ?_⟩, ⟨⟨.literal, 0, 0⟩, ?_, ?_⟩⟩
  · simp only [trimSv]; rw [if_pos hf]
  · rintro ⟨h, _⟩; cases h
  · simp only [trimLeftSv]; rw [if_pos hf]
  · rintro ⟨h, _⟩; cases h
  · simp only [trimRightSv]; rw [if_pos hg]
  · rintro ⟨h, _⟩; cases h

/-! ### Examples -/

/-- "a,,b" at ",": three views, the second of them empty and between the commas. -/
example : splitSv [97, 44, 44, 98] [44] = .ok [⟨.text, 0, 1⟩, ⟨.text, 2, 0⟩, ⟨.text, 3, 1⟩] := by decide +kernel

/-- An empty delimiter: an empty view, one for each character, nothing left. -/
example : splitSv [97, 98] [] = .ok [⟨.text, 0, 0⟩, ⟨.text, 0, 1⟩, ⟨.text, 1, 1⟩, ⟨.text, 2, 0⟩] := by decide +kernel

example : tokenizeSv [32, 97, 98, 32, 32, 99] [32] = .ok [⟨.text, 1, 2⟩, ⟨.text, 5, 1⟩] := by decide +kernel

/-- " a " and "  ". -/
example : (∃ c ∈ ([32, 97, 32] : Str), c ∉ ([32] : Str)) ∧ trimSv [32, 97, 32] [32] = .ok ⟨.text, 1, 1⟩ ∧
    (∀ c ∈ ([32, 32] : Str), c ∈ ([32] : Str)) ∧ trimSv [32, 32] [32] = .ok ⟨.literal, 0, 0⟩ := by decide +kernel

end Gul14.Strings.Views
