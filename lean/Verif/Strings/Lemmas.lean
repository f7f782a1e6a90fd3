import Verif.Strings.Model
import Verif.Strings.Spec
import Verif.StringView.Lemmas

namespace Gul14.Strings
open Gul14.SV Gul14.Spec

theorem sizeMod_eq : sizeMod = npos + 1 := by decide

theorem substr_ok (s : Str) (pos n : Nat) (h : pos + n ≤ s.length) (hmax : s.length < npos) :
    substr s pos n = .ok ((s.drop pos).take n) := by
  have := sizeMod_eq
  unfold substr
  rw [if_neg (by omega)]
  rw [Nat.mod_eq_of_lt (by omega)]
  have : ¬ (n = npos ∨ pos + n > s.length) := by omega
  simp [this, h]

theorem take_drop_all {α : Type} (s : List α) (p : Nat) :
    List.take (s.length - p) (s.drop p) = s.drop p :=
  List.take_of_length_le (by simp)

theorem substr_npos (s : Str) (pos : Nat) (h : pos ≤ s.length) :
    substr s pos npos = .ok (s.drop pos) := by
  unfold substr
  rw [if_neg (by omega)]
  simp only [true_or, if_true]
  rw [if_pos (by omega), take_drop_all]

theorem rawView_ok (s : Str) (pos n : Nat) (h : pos + n ≤ s.length) :
    rawView s pos n = .ok ((s.drop pos).take n) := by
  simp [rawView, h]

theorem occ_drop (text d : Str) (p i : Nat) (hp : p ≤ text.length) :
    OccursAt (text.drop p) d i ↔ OccursAt text d (p + i) := by
  rw [occursAt_iff, occursAt_iff, List.drop_drop, List.length_drop]
  constructor <;> rintro ⟨h1, h2⟩ <;> exact ⟨by omega, h2⟩

/-- The two outcomes of a search starting at `p`, told on the remaining text. -/
theorem find_drop_cases (text d : Str) (p : Nat) (hp : p ≤ text.length) (hmax : text.length < npos) :
    (find text d p = npos ∧ ∀ i, ¬ OccursAt (text.drop p) d i) ∨
    (∃ a rest, find text d p = p + a.length ∧ p + a.length ≠ npos ∧
      text.drop p = a ++ d ++ rest ∧ ∀ i, OccursAt (text.drop p) d i → a.length ≤ i) := by
  rcases find_first text d p hmax with ⟨h1, h2⟩ | ⟨h1, ⟨h2, h3⟩, h4⟩
  · left
    refine ⟨h1, fun i hi => h2 (p + i) ⟨by omega, ?_⟩⟩
    rwa [occ_drop _ _ _ _ hp] at hi
  · right
    obtain ⟨q, hq⟩ : ∃ q, find text d p = p + q := ⟨find text d p - p, by omega⟩
    rw [hq] at h1 h3 h4
    rw [← occ_drop _ _ _ _ hp] at h3
    obtain ⟨a, b, hab, hal⟩ := h3
    refine ⟨a, b, by rw [hq, hal], by rw [hal]; exact h1, hab, fun i hi => ?_⟩
    have := h4 (p + i) ⟨by omega, by rwa [occ_drop _ _ _ _ hp] at hi⟩
    omega

theorem join_eq_intercalate (parts : List Str) (glue : Str) :
    join parts glue = List.intercalate glue parts := by
  cases parts with
  | nil => rfl
  | cons p ps =>
    have key : ∀ (ps : List Str) (acc : Str),
        ps.foldl (fun result q => result ++ glue ++ q) acc
          = acc ++ (ps.map (fun q => glue ++ q)).flatten := by
      intro ps
      induction ps with
      | nil => simp
      | cons q ps ih => intro acc; rw [List.foldl_cons, ih]; simp
    have key2 : ∀ (ps : List Str) (p : Str), List.intercalate glue (p :: ps)
          = p ++ (ps.map (fun q => glue ++ q)).flatten := by
      intro ps
      induction ps with
      | nil => simp [List.intercalate]
      | cons q ps ih =>
        intro p
        have := ih q
        simp only [List.intercalate, List.intersperse] at this ⊢
        simp [this]
    simp only [join, key, key2]

theorem intercalate_cons (glue p : Str) (ps : List Str) (h : ps ≠ []) :
    List.intercalate glue (p :: ps) = p ++ glue ++ List.intercalate glue ps := by
  cases ps with
  | nil => exact absurd rfl h
  | cons q ps => simp [List.intercalate, List.intersperse]

theorem cuts_ne_nil {d text : Str} {ps} (h : Cuts d text ps) : ps ≠ [] := by
  cases h <;> simp

theorem cuts_intercalate {d text : Str} {ps} (h : Cuts d text ps) :
    List.intercalate d ps = text := by
  induction h with
  | last text _ => simp [List.intercalate]
  | cut a rest ps _ hc ih => rw [intercalate_cons _ _ _ (cuts_ne_nil hc), ih]

theorem cuts_unique {d text : Str} {ps qs} (hp : Cuts d text ps) (hq : Cuts d text qs) :
    ps = qs := by
  induction hp generalizing qs with
  | last text hn =>
    cases hq with
    | last => rfl
    | cut a rest ps' hm hc => exact absurd ⟨a, rest, rfl, rfl⟩ (hn a.length)
  | cut a rest ps hm hc ih =>
    generalize ht : a ++ d ++ rest = t at hq
    cases hq with
    | last _ hn => subst ht; exact absurd ⟨a, rest, rfl, rfl⟩ (hn a.length)
    | cut a' rest' ps' hm' hc' =>
      have h1 : a.length ≤ a'.length := hm _ ⟨a', rest', ht, rfl⟩
      have h2 : a'.length ≤ a.length := hm' _ ⟨a, rest, ht.symm, rfl⟩
      have h3 : a.length = a'.length := by omega
      rw [List.append_assoc, List.append_assoc] at ht
      obtain ⟨rfl, h4⟩ := List.append_inj ht h3
      have h5 := List.append_cancel_left h4
      subst h5
      rw [ih hc']

theorem splitLoop_cuts (text d : Str) (hd : d ≠ []) (hmax : text.length < npos) (fuel p : Nat)
    (hp : p ≤ text.length) (hf : text.length - p + 1 ≤ fuel) (acc : List Str) :
    ∃ ps, splitLoop text d fuel p p acc = .ok (acc ++ ps) ∧ Cuts d (text.drop p) ps := by
  have hsz := sizeMod_eq
  have hdl : 0 < d.length := List.length_pos_iff.mpr hd
  induction fuel generalizing p acc with
  | zero => omega
  | succ fuel ih =>
    unfold splitLoop
    rcases find_drop_cases text d p hp hmax with ⟨h1, h2⟩ | ⟨a, rest, h1, h2, h3, h4⟩
    · simp only [h1, if_true, substr_npos text p hp, Res.bind_ok]
      exact ⟨[text.drop p], rfl, .last _ h2⟩
    · have hlen : text.length = p + a.length + d.length + rest.length := by
        have := congrArg List.length h3
        simp at this; omega
      have hhl : (p + a.length + sizeMod - p) % sizeMod = a.length := by
        rw [show p + a.length + sizeMod - p = a.length + sizeMod by omega, Nat.add_mod_right,
          Nat.mod_eq_of_lt (by omega)]
      simp only [h1, h2, if_false, hhl]
      rw [substr_ok text p a.length (by omega) hmax]
      have ht : (text.drop p).take a.length = a := by rw [h3]; simp
      have hm : max (d.length + a.length) 1 = d.length + a.length := by omega
      simp only [Res.bind_ok, ht, hm]
      obtain ⟨ps, e1, e2⟩ := ih (p + (d.length + a.length)) (by omega) (by omega) (acc ++ [a])
      refine ⟨a :: ps, by rw [e1]; simp, ?_⟩
      have hr : text.drop (p + (d.length + a.length)) = rest := by
        rw [← List.drop_drop, h3, Nat.add_comm d.length, ← List.drop_drop]; simp
      rw [hr] at e2
      rw [h3]
      exact .cut a rest ps (by rw [← h3]; exact h4) e2

theorem find_empty (text : Str) (p : Nat) : find text [] p = if p > text.length then npos else p := by
  unfold find findM; simp; split <;> rfl

theorem splitLoop_empty (text : Str) (hmax : text.length < npos) (fuel p : Nat)
    (hp : p ≤ text.length) (hf : text.length - p + 1 ≤ fuel) (acc : List Str) :
    splitLoop text [] fuel (p + 1) p acc
      = .ok (acc ++ ((text.drop p).map (fun c => [c]) ++ [[]])) := by
  have hsz := sizeMod_eq
  induction fuel generalizing p acc with
  | zero => omega
  | succ fuel ih =>
    unfold splitLoop
    rw [find_empty]
    by_cases h : p + 1 > text.length
    · have : p = text.length := by omega
      subst this
      simp only [if_pos h, if_true, substr_npos text _ hp]
      simp
    · have hlt : p < text.length := by omega
      have hhl : (p + 1 + sizeMod - p) % sizeMod = 1 := by
        rw [show p + 1 + sizeMod - p = 1 + sizeMod by omega, Nat.add_mod_right]
        decide
      have hne : p + 1 ≠ npos := by omega
      simp only [if_neg h, hne, if_false, hhl]
      rw [substr_ok text p 1 (by omega) hmax]
      simp only [Res.bind_ok, List.length_nil, Nat.zero_add, Nat.max_self]
      rw [ih (p + 1) (by omega) (by omega)]
      have h3 : text.drop p = text[p] :: text.drop (p + 1) := by simp
      have h4 : (text.drop p).take 1 = [text[p]] := by rw [h3]; rfl
      rw [h4, h3]; simp only [List.map_cons, List.append_assoc, List.cons_append, List.nil_append]

theorem split_empty (text : Str) (hmax : text.length < npos) :
    split text [] = .ok ([] :: text.map (fun c => [c]) ++ [[]]) := by
  have hsz := sizeMod_eq
  unfold split splitLoop
  have hhl : (0 + sizeMod - 0) % sizeMod = 0 := by decide
  have hne : (0 : Nat) ≠ npos := by decide
  rw [find_empty]
  simp only [Nat.not_lt_zero, gt_iff_lt, if_false, hne, hhl]
  rw [substr_ok text 0 0 (by omega) hmax]
  simp only [Res.bind_ok, List.length_nil, Nat.add_zero]
  have := splitLoop_empty text hmax (text.length + 1) 0 (by omega) (by omega) [[]]
  simp at this ⊢
  exact this

/-! ### replace -/

theorem replaced_unique {n k h : Str} {r s} (hr : Replaced n k h r) (hs : Replaced n k h s) :
    r = s := by
  induction hr generalizing s with
  | done h hn =>
    cases hs with
    | done => rfl
    | step a rest r' hm hc => exact absurd ⟨a, rest, rfl, rfl⟩ (hn a.length)
  | step a rest r hm hc ih =>
    generalize ht : a ++ n ++ rest = t at hs
    cases hs with
    | done _ hn => subst ht; exact absurd ⟨a, rest, rfl, rfl⟩ (hn a.length)
    | step a' rest' r' hm' hc' =>
      have h1 : a.length ≤ a'.length := hm _ ⟨a', rest', ht, rfl⟩
      have h2 : a'.length ≤ a.length := hm' _ ⟨a, rest, ht.symm, rfl⟩
      have h3 : a.length = a'.length := by omega
      rw [List.append_assoc, List.append_assoc] at ht
      obtain ⟨rfl, h4⟩ := List.append_inj ht h3
      have h5 := List.append_cancel_left h4
      subst h5
      rw [ih hc']

theorem replaced_of_cuts {n k h : Str} {ps} (hc : Cuts n h ps) :
    Replaced n k h (List.intercalate k ps) := by
  induction hc with
  | last text hn => simpa [List.intercalate] using Replaced.done text hn
  | cut a rest ps hm hc ih =>
    rw [intercalate_cons _ _ _ (cuts_ne_nil hc)]
    exact .step a rest _ hm ih

theorem replaceLoop_spec (h n k : Str) (hn : n ≠ []) (hmax : h.length < npos) (fuel p : Nat)
    (hp : p ≤ h.length) (hf : h.length - p + 1 ≤ fuel) (acc : Str) :
    ∃ r, replaceLoop h n k fuel p p acc = .ok (acc ++ r) ∧ Replaced n k (h.drop p) r := by
  have hdl : 0 < n.length := List.length_pos_iff.mpr hn
  induction fuel generalizing p acc with
  | zero => omega
  | succ fuel ih =>
    unfold replaceLoop
    rcases find_drop_cases h n p hp hmax with ⟨h1, h2⟩ | ⟨a, rest, h1, h2, h3, h4⟩
    · simp only [h1, if_true]
      rw [sizeSub_eq hp (Nat.lt_trans hmax (by decide)), rawView_ok _ _ _ (by omega)]
      refine ⟨h.drop p, ?_, .done _ h2⟩
      simp [take_drop_all]
    · have hlen : h.length = p + a.length + n.length + rest.length := by
        have := congrArg List.length h3
        simp at this; omega
      simp only [h1, h2, if_false]
      have hsz : h.length < sizeMod := Nat.lt_trans hmax (by decide)
      rw [sizeSub_eq (by omega) (by omega), rawView_ok _ _ _ (by omega)]
      have ht : (h.drop p).take (p + a.length - p) = a := by
        rw [h3, show p + a.length - p = a.length by omega]; simp
      simp only [Res.bind_ok, ht]
      obtain ⟨r, e1, e2⟩ := ih (p + a.length + n.length) (by omega) (by omega) (acc ++ a ++ k)
      refine ⟨a ++ k ++ r, by rw [e1]; simp, ?_⟩
      have hr : h.drop (p + a.length + n.length) = rest := by
        rw [← List.drop_drop, ← List.drop_drop, h3]; simp
      rw [hr] at e2
      rw [h3]
      exact .step a rest r (by rw [← h3]; exact h4) e2

theorem replaceInplaceLoop_spec (n k : Str) (hn : n ≠ []) (fuel : Nat) (done rest : Str)
    (hf : rest.length + 1 ≤ fuel)
    (hmax : done.length + rest.length + rest.length * k.length < npos) :
    ∃ r, replaceInplaceLoop n k fuel (done ++ rest) (find (done ++ rest) n done.length)
        = .ok (done ++ r) ∧ Replaced n k rest r := by
  have hdl : 0 < n.length := List.length_pos_iff.mpr hn
  induction fuel generalizing done rest with
  | zero => omega
  | succ fuel ih =>
    unfold replaceInplaceLoop
    have hd : (done ++ rest).drop done.length = rest := by simp
    have hl : (done ++ rest).length < npos := by
      rw [List.length_append]
      exact Nat.lt_of_le_of_lt (Nat.le_add_right _ _) hmax
    rcases find_drop_cases (done ++ rest) n done.length (by simp) hl with
      ⟨h1, h2⟩ | ⟨a, rest', h1, h2, h3, h4⟩
    · rw [hd] at h2
      rw [if_pos h1]
      exact ⟨rest, rfl, .done _ h2⟩
    · rw [hd] at h3 h4
      rw [if_neg (by rw [h1]; exact h2), h1]
      subst h3
      have he : strErase (done ++ (a ++ n ++ rest')) (done.length + a.length) n.length
          = .ok (done ++ a ++ rest') := by
        unfold strErase
        rw [if_neg (by simp)]
        congr 1
        have e1 : done ++ (a ++ n ++ rest') = (done ++ a) ++ (n ++ rest') := by simp
        rw [e1, ← List.length_append]
        rw [List.take_left, ← List.drop_drop, List.drop_left, List.drop_left]
      have hi : strInsert (done ++ a ++ rest') (done.length + a.length) k
          = .ok ((done ++ a ++ k) ++ rest') := by
        unfold strInsert
        rw [if_neg (by simp)]
        rw [← List.length_append, List.take_left, List.drop_left]
      rw [he]
      simp only [Res.bind_ok]
      rw [hi]
      simp only [Res.bind_ok]
      have hpos : done.length + a.length + k.length = (done ++ a ++ k).length := by simp; omega
      rw [hpos]
      obtain ⟨r, e1, e2⟩ := ih (done ++ a ++ k) rest'
        (by simp only [List.length_append] at hf; omega)
        (by
          simp only [List.length_append] at hmax ⊢
          have hmul : (a.length + n.length + rest'.length) * k.length
              ≥ k.length + rest'.length * k.length := by
            have : a.length + n.length + rest'.length
                = (a.length + (n.length - 1)) + 1 + rest'.length := by omega
            rw [this, Nat.add_mul, Nat.add_mul]
            omega
          omega)
      refine ⟨a ++ k ++ r, by rw [e1]; simp, ?_⟩
      exact .step a rest' r h4 e2

/-! ### tokenize -/

theorem tokens_unique {d s : Str} {ts us} (ht : Tokens d s ts) (hu : Tokens d s us) : ts = us := by
  induction ht generalizing us with
  | none s h =>
    cases hu with
    | none => rfl
    | token a t rest ts h1 h2 h3 h4 h5 =>
      obtain ⟨c, t', rfl⟩ := List.exists_cons_of_ne_nil h2
      exact absurd (h c (by simp)) (h3 c (by simp))
  | token a t rest ts h1 h2 h3 h4 h5 ih =>
    generalize hs : a ++ t ++ rest = s at hu
    cases hu with
    | none _ h =>
      obtain ⟨c, t', rfl⟩ := List.exists_cons_of_ne_nil h2
      subst hs
      exact absurd (h c (by simp)) (h3 c (by simp))
    | token a' t' rest' ts' h1' h2' h3' h4' h5' =>
      have key : ∀ (a a' u u' : Str), a ++ u = a' ++ u' → (∀ c ∈ a, c ∈ d) → (∀ c ∈ a', c ∈ d) →
          (∀ c, u.head? = some c → c ∉ d) → (∀ c, u'.head? = some c → c ∉ d) → a = a' ∧ u = u' := by
        intro a
        induction a with
        | nil =>
          intro a' u u' h g1 g2 g3 g4
          cases a' with
          | nil => exact ⟨rfl, by simpa using h⟩
          | cons c a' =>
            simp at h; subst h
            exact absurd (g2 c (by simp)) (g3 c (by simp))
        | cons c a iha =>
          intro a' u u' h g1 g2 g3 g4
          cases a' with
          | nil =>
            simp at h; subst h
            exact absurd (g1 c (by simp)) (g4 c (by simp))
          | cons c' a' =>
            simp at h
            obtain ⟨e1, e2⟩ := iha a' u u' h.2 (fun c hc => g1 c (by simp [hc]))
              (fun c hc => g2 c (by simp [hc])) g3 g4
            exact ⟨by rw [h.1, e1], e2⟩
      have key2 : ∀ (a a' u u' : Str), a ++ u = a' ++ u' → (∀ c ∈ a, c ∉ d) → (∀ c ∈ a', c ∉ d) →
          (∀ c, u.head? = some c → c ∈ d) → (∀ c, u'.head? = some c → c ∈ d) → a = a' ∧ u = u' := by
        intro a
        induction a with
        | nil =>
          intro a' u u' h g1 g2 g3 g4
          cases a' with
          | nil => exact ⟨rfl, by simpa using h⟩
          | cons c a' =>
            simp at h; subst h
            exact absurd (g3 c (by simp)) (g2 c (by simp))
        | cons c a iha =>
          intro a' u u' h g1 g2 g3 g4
          cases a' with
          | nil =>
            simp at h; subst h
            exact absurd (g4 c (by simp)) (g1 c (by simp))
          | cons c' a' =>
            simp at h
            obtain ⟨e1, e2⟩ := iha a' u u' h.2 (fun c hc => g1 c (by simp [hc]))
              (fun c hc => g2 c (by simp [hc])) g3 g4
            exact ⟨by rw [h.1, e1], e2⟩
      have hd : ∀ (t rest : Str), t ≠ [] → (∀ c ∈ t, c ∉ d) →
          ∀ c, (t ++ rest).head? = some c → c ∉ d := by
        intro t rest g1 g2 c hc
        cases t with
        | nil => exact absurd rfl g1
        | cons x t => simp at hc; subst hc; exact g2 _ (by simp)
      rw [List.append_assoc, List.append_assoc] at hs
      obtain ⟨rfl, e2⟩ := key a a' _ _ hs h1 h1' (hd t rest h2 h3) (hd t' rest' h2' h3')
      obtain ⟨rfl, rfl⟩ := key2 t t' _ _ e2 h3 h3' h4 h4'
      rw [ih h5']

/-- Characters of `s` from index `p` up to the least index ≥ p with property `P`. -/
theorem take_mem_index {s : Str} {p n : Nat} {c : UInt8} (h : c ∈ (s.drop p).take n) :
    ∃ i, p ≤ i ∧ i < p + n ∧ s[i]? = some c := by
  obtain ⟨i, hi⟩ := List.mem_iff_getElem?.mp h
  rw [List.getElem?_take] at hi
  split at hi
  · rw [List.getElem?_drop] at hi
    exact ⟨p + i, by omega, by omega, hi⟩
  · simp at hi

theorem tokenizeLoop_spec (s d : Str) (hmax : s.length < npos) (fuel p : Nat)
    (hp : p ≤ s.length) (hf : s.length - p + 1 ≤ fuel) (acc : List Str) :
    ∃ ts, tokenizeLoop s d fuel p acc = .ok (acc ++ ts) ∧ Tokens d (s.drop p) ts := by
  induction fuel generalizing p acc with
  | zero => omega
  | succ fuel ih =>
    unfold tokenizeLoop
    rcases findFirstNotOf_first s d p hmax with ⟨h1, h2⟩ | ⟨h1, ⟨h2, h3⟩, h4⟩
    · simp only [h1, if_true]
      refine ⟨[], by simp, .none _ ?_⟩
      intro c hc
      obtain ⟨i, hi1, -, hi2⟩ := take_mem_index (n := s.length) (s := s) (p := p) (c := c)
        (by rw [List.take_of_length_le (by simp)]; exact hc)
      rcases Decidable.em (c ∈ d) with h | h
      · exact h
      · exact absurd ⟨hi1, c, hi2, h⟩ (h2 i)
    · generalize hst : findFirstNotOf s d p = st at *
      obtain ⟨c0, hc0, hc0d⟩ := h3
      have hstl : st < s.length := by
        rw [List.getElem?_eq_some_iff] at hc0; exact hc0.1
      have hpre : ∀ c ∈ (s.drop p).take (st - p), c ∈ d := by
        intro c hc
        obtain ⟨i, hi1, hi2, hi3⟩ := take_mem_index hc
        rcases Decidable.em (c ∈ d) with h | h
        · exact h
        · have := h4 i ⟨hi1, c, hi3, h⟩; omega
      have hsplit : s.drop p = (s.drop p).take (st - p) ++ s.drop st := by
        conv => lhs; rw [← List.take_append_drop (st - p) (s.drop p)]
        rw [List.drop_drop, show p + (st - p) = st by omega]
      simp only [h1, if_false]
      rcases findFirstOf_first s d st hmax with ⟨g1, g2⟩ | ⟨g1, ⟨g2, g3⟩, g4⟩
      · simp only [g1, if_true]
        rw [sizeSub_eq (by omega) (Nat.lt_trans hmax (by decide)), rawView_ok _ _ _ (by omega)]
        refine ⟨[s.drop st], by simp [take_drop_all], ?_⟩
        rw [hsplit]
        have := Tokens.token (d := d) ((s.drop p).take (st - p)) (s.drop st) [] [] hpre
          (by intro h; have := congrArg List.length h; simp at this; omega)
          (by
            intro c hc hcd
            obtain ⟨i, hi1, -, hi2⟩ := take_mem_index (n := s.length) (s := s) (p := st) (c := c)
              (by rw [List.take_of_length_le (by simp)]; exact hc)
            exact g2 i ⟨hi1, c, hi2, hcd⟩)
          (by simp) (.none _ (by simp))
        simpa using this
      · generalize hen : findFirstOf s d st = en at *
        simp only [g1, if_false]
        obtain ⟨c1, hc1, hc1d⟩ := g3
        have henl : en < s.length := by
          rw [List.getElem?_eq_some_iff] at hc1; exact hc1.1
        have hlt : st < en := by
          rcases Nat.lt_or_ge st en with h | h
          · exact h
          · have : st = en := by omega
            subst this
            rw [hc0] at hc1
            simp at hc1; subst hc1
            exact absurd hc1d hc0d
        have hsz : s.length < sizeMod := Nat.lt_trans hmax (by decide)
        rw [sizeSub_eq (by omega) (by omega), rawView_ok _ _ _ (by omega)]
        simp only [Res.bind_ok]
        obtain ⟨ts, e1, e2⟩ := ih en (by omega) (by omega) (acc ++ [(s.drop st).take (en - st)])
        refine ⟨(s.drop st).take (en - st) :: ts, by rw [e1]; simp, ?_⟩
        have hsplit2 : s.drop st = (s.drop st).take (en - st) ++ s.drop en := by
          conv => lhs; rw [← List.take_append_drop (en - st) (s.drop st)]
          rw [List.drop_drop, show st + (en - st) = en by omega]
        have := Tokens.token (d := d) ((s.drop p).take (st - p)) ((s.drop st).take (en - st))
          (s.drop en) ts hpre
          (by intro h; have := congrArg List.length h; simp at this; omega)
          (by
            intro c hc hcd
            obtain ⟨i, hi1, hi2, hi3⟩ := take_mem_index hc
            have := g4 i ⟨hi1, c, hi3, hcd⟩; omega)
          (by
            intro c hc
            rw [List.head?_drop, hc1] at hc
            simp at hc; subst hc; exact hc1d) e2
        rw [List.append_assoc, ← hsplit2, ← hsplit] at this
        exact this

/-! ### trim -/

theorem findFirstNotOf_split (s ws : Str) (hmax : s.length < npos) :
    (findFirstNotOf s ws 0 = npos ∧ ∀ c ∈ s, c ∈ ws) ∨
    (∃ a c t, s = a ++ c :: t ∧ findFirstNotOf s ws 0 = a.length ∧ a.length ≠ npos ∧ c ∉ ws ∧
      ∀ x ∈ a, x ∈ ws) := by
  rcases findFirstNotOf_first s ws 0 hmax with ⟨h1, h2⟩ | ⟨h1, ⟨-, c, h2, h3⟩, h4⟩
  · left
    refine ⟨h1, fun c hc => ?_⟩
    obtain ⟨i, hi⟩ := List.mem_iff_getElem?.mp hc
    rcases Decidable.em (c ∈ ws) with h | h
    · exact h
    · exact absurd ⟨Nat.zero_le _, c, hi, h⟩ (h2 i)
  · right
    generalize findFirstNotOf s ws 0 = p at *
    obtain ⟨hl, he⟩ := List.getElem?_eq_some_iff.mp h2
    refine ⟨s.take p, c, s.drop (p + 1), ?_, ?_, ?_, h3, ?_⟩
    · rw [← he]; simp
    · simp; omega
    · simp; omega
    · intro x hx
      have hx' : x ∈ (s.drop 0).take p := by simpa using hx
      obtain ⟨i, -, hi2, hi3⟩ := take_mem_index hx'
      rcases Decidable.em (x ∈ ws) with h | h
      · exact h
      · have := h4 i ⟨Nat.zero_le _, x, hi3, h⟩; omega

theorem findLastNotOf_split (s ws : Str) (hmax : s.length < npos) :
    (findLastNotOf s ws npos = npos ∧ ∀ c ∈ s, c ∈ ws) ∨
    (∃ a c t, s = a ++ c :: t ∧ findLastNotOf s ws npos = a.length ∧ a.length ≠ npos ∧ c ∉ ws ∧
      ∀ x ∈ t, x ∈ ws) := by
  rcases findLastNotOf_last s ws npos hmax with ⟨h1, h2⟩ | ⟨h1, ⟨-, c, h2, h3⟩, h4⟩
  · left
    refine ⟨h1, fun c hc => ?_⟩
    obtain ⟨i, hi⟩ := List.mem_iff_getElem?.mp hc
    have hil : i < s.length := (List.getElem?_eq_some_iff.mp hi).1
    rcases Decidable.em (c ∈ ws) with h | h
    · exact h
    · exact absurd ⟨by omega, c, hi, h⟩ (h2 i)
  · right
    generalize findLastNotOf s ws npos = p at *
    obtain ⟨hl, he⟩ := List.getElem?_eq_some_iff.mp h2
    refine ⟨s.take p, c, s.drop (p + 1), ?_, ?_, ?_, h3, ?_⟩
    · rw [← he]; simp
    · simp; omega
    · simp; omega
    · intro x hx
      obtain ⟨i, hi1, -, hi3⟩ := take_mem_index (n := s.length) (s := s) (p := p + 1) (c := x)
        (by rw [List.take_of_length_le (by simp)]; exact hx)
      have hil : i < s.length := (List.getElem?_eq_some_iff.mp hi3).1
      rcases Decidable.em (x ∈ ws) with h | h
      · exact h
      · have := h4 i ⟨by omega, x, hi3, h⟩; omega

theorem trimLeft_spec (s ws : Str) (hmax : s.length < npos) :
    ∃ r, trimLeft s ws = .ok r ∧ TrimmedLeft ws s r := by
  unfold trimLeft
  rcases findFirstNotOf_split s ws hmax with ⟨h1, h2⟩ | ⟨a, c, t, h1, h2, h3, h4, h5⟩
  · simp only [h1, if_true]
    exact ⟨[], rfl, s, by simp, h2, by simp⟩
  · simp only [h2, if_neg h3]
    rw [substr_npos _ _ (by rw [h1]; simp)]
    refine ⟨_, rfl, a, ?_, h5, ?_⟩
    · rw [h1]; simp
    · rw [h1]; simp; exact h4

theorem trimRight_spec (s ws : Str) (hmax : s.length < npos) :
    ∃ r, trimRight s ws = .ok r ∧ TrimmedRight ws s r := by
  have hsz := sizeMod_eq
  unfold trimRight
  rcases findLastNotOf_split s ws hmax with ⟨h1, h2⟩ | ⟨a, c, t, h1, h2, h3, h4, h5⟩
  · simp only [h1, if_true]
    exact ⟨[], rfl, s, by simp, h2, by simp⟩
  · have hl : s.length = a.length + t.length + 1 := by rw [h1]; simp; omega
    simp only [h2, if_neg h3]
    rw [Nat.mod_eq_of_lt (by omega), substr_ok _ _ _ (by omega) hmax]
    have e : (s.drop 0).take (a.length + 1) = a ++ [c] := by
      rw [h1]; simp [List.take_append]; exact List.take_of_length_le (by omega)
    rw [e]
    refine ⟨_, rfl, t, ?_, h5, ?_⟩
    · rw [h1]; simp
    · simp; exact h4

theorem trimSv_spec (s ws : Str) (hmax : s.length < npos) :
    ∃ r, trimSv s ws = .ok r ∧ Trimmed ws s r := by
  have hsz := sizeMod_eq
  unfold trimSv
  rcases findFirstNotOf_split s ws hmax with ⟨h1, h2⟩ | ⟨a, c, t, h1, h2, h3, h4, h5⟩
  · simp only [h1, if_true]
    exact ⟨[], rfl, s, [], by simp, h2, by simp, by simp, by simp⟩
  · rcases findLastNotOf_split s ws hmax with ⟨g1, g2⟩ | ⟨a', c', t', g1, g2, g3, g4, g5⟩
    · exact absurd (g2 c (by rw [h1]; simp)) h4
    · simp only [h2, if_neg h3, g2]
      have hl : s.length = a.length + t.length + 1 := by rw [h1]; simp; omega
      have hl' : s.length = a'.length + t'.length + 1 := by rw [g1]; simp; omega
      -- the first non-ws character is not behind the last one
      have hle : a.length ≤ a'.length := by
        rcases Nat.lt_or_ge a'.length a.length with h | h
        · exfalso
          have e1 : s[a'.length]? = some c' := by rw [g1]; simp
          rw [h1, List.getElem?_append_left h] at e1
          exact g4 (h5 c' (List.mem_of_getElem? e1))
        · exact h
      rw [show a'.length + sizeMod - a.length + 1 = (a'.length - a.length + 1) + sizeMod by omega,
        Nat.add_mod_right, Nat.mod_eq_of_lt (by omega), substr_ok _ _ _ (by omega) hmax]
      refine ⟨_, rfl, a, t', ?_, h5, g5, ?_, ?_⟩
      · have e1 : s.take a.length = a := by rw [h1]; simp
        have e2 : s.drop (a'.length + 1) = t' := by
          rw [g1, ← List.drop_drop]; simp
        conv => lhs; rw [← List.take_append_drop a.length s, e1,
          ← List.take_append_drop (a'.length - a.length + 1) (s.drop a.length), List.drop_drop,
          show a.length + (a'.length - a.length + 1) = a'.length + 1 by omega, e2]
        simp
      · intro x hx
        rw [List.head?_take, List.head?_drop] at hx
        simp [h1] at hx
        subst hx; exact h4
      · intro x hx
        rw [List.getLast?_take, List.getElem?_drop] at hx
        simp only [Nat.add_one_ne_zero, if_false, Nat.add_sub_cancel] at hx
        rw [show a.length + (a'.length - a.length) = a'.length by omega, g1] at hx
        simp at hx
        subst hx; exact g4

end Gul14.Strings
