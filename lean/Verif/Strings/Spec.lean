import Verif.StringView.Spec

/-! Independent specifications of cutting, replacing, tokenizing and trimming. -/

namespace Gul14.Spec

/-- `Cuts d text parts`: cutting `text` at the leftmost occurrence of `d`, then cutting the
rest in the same way, gives `parts`. -/
inductive Cuts (d : Str) : Str → List Str → Prop
  | last (text : Str) : (∀ i, ¬ OccursAt text d i) → Cuts d text [text]
  | cut (a rest : Str) (ps : List Str) :
      (∀ i, OccursAt (a ++ d ++ rest) d i → a.length ≤ i) →
      Cuts d rest ps → Cuts d (a ++ d ++ rest) (a :: ps)

/-- `Replaced n k h r`: replacing the leftmost occurrence of `n` in `h` by `k` and going on
behind it in the same way gives `r`. -/
inductive Replaced (n k : Str) : Str → Str → Prop
  | done (h : Str) : (∀ i, ¬ OccursAt h n i) → Replaced n k h h
  | step (a rest r : Str) :
      (∀ i, OccursAt (a ++ n ++ rest) n i → a.length ≤ i) →
      Replaced n k rest r → Replaced n k (a ++ n ++ rest) (a ++ k ++ r)

/-- `Tokens d s ts`: `ts` are the maximal non-empty runs of characters of `s` that are not
in `d`, in order. -/
inductive Tokens (d : Str) : Str → List Str → Prop
  | none (s : Str) : (∀ c ∈ s, c ∈ d) → Tokens d s []
  | token (a t rest : Str) (ts : List Str) :
      (∀ c ∈ a, c ∈ d) → t ≠ [] → (∀ c ∈ t, c ∉ d) →
      (∀ c, rest.head? = some c → c ∈ d) →
      Tokens d rest ts → Tokens d (a ++ t ++ rest) (t :: ts)

/-- `r` is `s` without its longest prefix of characters from `ws`. -/
def TrimmedLeft (ws s r : Str) : Prop :=
  ∃ a, s = a ++ r ∧ (∀ c ∈ a, c ∈ ws) ∧ (∀ c, r.head? = some c → c ∉ ws)

/-- `r` is `s` without its longest suffix of characters from `ws`. -/
def TrimmedRight (ws s r : Str) : Prop :=
  ∃ b, s = r ++ b ∧ (∀ c ∈ b, c ∈ ws) ∧ (∀ c, r.getLast? = some c → c ∉ ws)

/-- `r` is `s` without its outer characters from `ws` on both sides. -/
def Trimmed (ws s r : Str) : Prop :=
  ∃ a b, s = a ++ r ++ b ∧ (∀ c ∈ a, c ∈ ws) ∧ (∀ c ∈ b, c ∈ ws) ∧
    (∀ c, r.head? = some c → c ∉ ws) ∧ (∀ c, r.getLast? = some c → c ∉ ws)

end Gul14.Spec
