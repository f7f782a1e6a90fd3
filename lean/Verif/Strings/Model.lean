import Verif.StringView.Model

/-!
Model of the string functions in join_split.h, tokenize.h, replace.cc, trim.cc.

`std::string::find`, `erase` and `insert` have the meaning of the C++ standard; `find` is the
one of string_view (same contract).  Sums of positions inside a string do not wrap because
they are bounded by the string length; they are written without modulus.
-/

namespace Gul14.Strings
open Gul14.SV

/-! ### join_split.h -/

/-- The for(;;) loop of split, join_split.h:134-143; `fuel` bounds the number of iterations
(theorem `c01_split_join` shows that the bound suffices). -/
def splitLoop (text delim : Str) : Nat → Nat → Nat → List Str → Res (List Str)
  | 0, _, _, _ => .diverge
  | fuel + 1, search, push, acc =>
      let hit := find text delim search
      if hit = npos then
        (substr text push npos).bind fun t => .ok (acc ++ [t])
      else
        let hitLen := (hit + sizeMod - push) % sizeMod
        (substr text push hitLen).bind fun t =>
          splitLoop text delim fuel (search + max (delim.length + hitLen) 1)
            (push + (delim.length + hitLen)) (acc ++ [t])

/-- split(text, delimiter), join_split.h:121-145 (the inserter appends to the container;
split_sv, 225-232, is the same function). -/
def split (text delim : Str) : Res (List Str) :=
  splitLoop text delim (text.length + 2) 0 0 []

/-- join(begin, end, glue), join_split.h:257-288 (the pre-computed length only reserves
memory; it is modelled in JoinMemory.lean); join(parts, glue), 319-324, forwards to it. -/
def join (parts : List Str) (glue : Str) : Str :=
  match parts with
  | [] => []
  | p :: ps => ps.foldl (fun result q => result ++ glue ++ q) p

/-! ### tokenize.h -/

/-- `string_view{ str.data() + start, len }`: a view made from a raw pointer and a length; a
view reaching past the end of the string counts as `ub`. -/
def rawView (s : Str) (start len : Nat) : Res Str :=
  if start + len ≤ s.length then .ok ((s.drop start).take len) else .ub

/-- Loop of tokenize, tokenize.h:125-143. -/
def tokenizeLoop (s delims : Str) : Nat → Nat → List Str → Res (List Str)
  | 0, _, _ => .diverge
  | fuel + 1, tokenEnd, tokens =>
      let start := findFirstNotOf s delims tokenEnd
      if start = npos then .ok tokens
      else
        let stop := findFirstOf s delims start
        if stop = npos then
          (rawView s start (sizeSub s.length start)).bind fun t => .ok (tokens ++ [t])
        else
          (rawView s start (sizeSub stop start)).bind fun t =>
            tokenizeLoop s delims fuel stop (tokens ++ [t])

/-- tokenize(str, delimiters), tokenize.h:114-146 (tokenize_sv, 168-175, is the same). -/
def tokenize (s delims : Str) : Res (List Str) := tokenizeLoop s delims (s.length + 1) 0 []

/-! ### replace.cc -/

/-- Loop of replace, replace.cc:39-47 with the final append. -/
def replaceLoop (h needle hammer : Str) : Nat → Nat → Nat → Str → Res Str
  | 0, _, _, _ => .diverge
  | fuel + 1, pos, last, result =>
      let pos := find h needle pos
      if pos = npos then
        (rawView h last (sizeSub h.length last)).bind fun t => .ok (result ++ t)
      else
        (rawView h last (sizeSub pos last)).bind fun t =>
          let pos := pos + needle.length
          replaceLoop h needle hammer fuel pos pos (result ++ t ++ hammer)

/-- replace(haystack, needle, hammer), replace.cc:29-51. -/
def replace (h needle hammer : Str) : Res Str :=
  if needle = [] then .ok h
  else replaceLoop h needle hammer (h.length + 1) 0 0 []

/-- std::string::erase(pos, n). std::string::erase, replace.cc:60. -/
def strErase (s : Str) (pos n : Nat) : Res Str :=
  if pos > s.length then .throw .outOfRange else .ok (s.take pos ++ s.drop (pos + n))

/-- std::string::insert(pos, data, n). std::string::insert, replace.cc:61. -/
def strInsert (s : Str) (pos : Nat) (t : Str) : Res Str :=
  if pos > s.length then .throw .outOfRange else .ok (s.take pos ++ t ++ s.drop pos)

/-- Loop of replace_inplace, replace.cc:58-63.  Simplification: needle and hammer are values,
i.e. they do not alias the haystack being modified. -/
def replaceInplaceLoop (needle hammer : Str) : Nat → Str → Nat → Res Str
  | 0, _, _ => .diverge
  | fuel + 1, h, pos =>
      if pos = npos then .ok h
      else
        (strErase h pos needle.length).bind fun h1 =>
        (strInsert h1 pos hammer).bind fun h2 =>
          replaceInplaceLoop needle hammer fuel h2 (find h2 needle (pos + hammer.length))

/-- replace_inplace(haystack, needle, hammer), replace.cc:53-65: the new haystack. -/
def replaceInplace (h needle hammer : Str) : Res Str :=
  if needle = [] then .ok h
  else replaceInplaceLoop needle hammer (h.length + 1) h (find h needle 0)

/-! ### trim.cc -/

/-- trim_sv, trim.cc:34-44; `rpos - lpos + 1` in size_t. -/
def trimSv (s ws : Str) : Res Str :=
  let lpos := findFirstNotOf s ws 0
  if lpos = npos then .ok []
  else
    let rpos := findLastNotOf s ws npos
    substr s lpos ((rpos + sizeMod - lpos + 1) % sizeMod)

/-- trim, trim.cc:29-32. -/
def trim (s ws : Str) : Res Str := trimSv s ws

/-- trim_left_sv, trim.cc:51-59 (trim_left, 46-49, copies its result). -/
def trimLeft (s ws : Str) : Res Str :=
  let pos := findFirstNotOf s ws 0
  if pos = npos then .ok [] else substr s pos npos

/-- trim_right_sv, trim.cc:66-74 (trim_right, 61-64, copies its result). -/
def trimRight (s ws : Str) : Res Str :=
  let pos := findLastNotOf s ws npos
  if pos = npos then .ok [] else substr s 0 ((pos + 1) % sizeMod)

end Gul14.Strings
