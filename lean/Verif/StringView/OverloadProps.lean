import Verif.StringView.Overloads
import Verif.StringView.Props

/-! Property theorems about string_view and C strings, characters and `std::string`: C96. -/

namespace Gul14.Spec

/-- The pointer `p` points to a C string with the characters `s`: they are not zero and a zero
character follows.  Whatever comes after it is no part of the string. -/
def IsCString (p : Option Str) (s : Str) : Prop :=
  (∀ c ∈ s, c ≠ 0) ∧ ∃ rest, p = some (s ++ 0 :: rest)

/-- The pointer `p` points to (at least) the characters `s`. -/
def PointsTo (p : Option Str) (s : Str) : Prop := ∃ rest, p = some (s ++ rest)

/-- The six comparisons of `a` with `b` have a result, and it is that of the order of strings. -/
def Compares (eq ne lt gt le ge : Res Bool) (a b : Str) : Prop :=
  ∃ e n l g k m : Bool, eq = .ok e ∧ ne = .ok n ∧ lt = .ok l ∧ gt = .ok g ∧ le = .ok k ∧
    ge = .ok m ∧ (e = true ↔ a = b) ∧ (n = true ↔ a ≠ b) ∧ (l = true ↔ LexLt a b) ∧
    (g = true ↔ LexLt b a) ∧ (k = true ↔ LexLt a b ∨ a = b) ∧ (m = true ↔ LexLt b a ∨ a = b)

/-- `r` is a comparison result for `a` and `b`: negative, zero or positive as `a` comes before,
is or comes after `b`. -/
def ThreeWay (r : Res Int) (a b : Str) : Prop :=
  ∃ c, r = .ok c ∧ (c < 0 ↔ LexLt a b) ∧ (c = 0 ↔ a = b) ∧ (c > 0 ↔ LexLt b a)

end Gul14.Spec

namespace Gul14.SV
open Gul14.Spec

theorem lengthLoop_ok (s rest : Str) (hs : ∀ c ∈ s, c ≠ 0) (k : Nat) :
    ∀ fuel, k ≤ s.length → s.length - k < fuel →
      lengthLoop (s ++ 0 :: rest) fuel k = .ok s.length := by
  intro fuel
  induction fuel generalizing k with
  | zero => omega
  | succ f ih =>
    intro hk hf
    rw [lengthLoop]
    rcases Nat.lt_or_ge k s.length with h | h
    · have : (s ++ 0 :: rest)[k]? = some s[k] := by simp [List.getElem?_append, h]
      rw [this]
      simp only
      rw [if_pos (hs _ (List.getElem_mem h))]
      exact ih (k + 1) h (by omega)
    · have hk' : k = s.length := by omega
      subst hk'
      simp

theorem lengthLoop_ub (m : Str) (hm : ∀ c ∈ m, c ≠ 0) :
    ∀ fuel k, k ≤ m.length → m.length - k < fuel → lengthLoop m fuel k = .ub := by
  intro fuel
  induction fuel with
  | zero => intro k _ _; omega
  | succ f ih =>
    intro k hk hf
    rw [lengthLoop]
    rcases Nat.lt_or_ge k m.length with h | h
    · rw [List.getElem?_eq_getElem h]
      simp only
      rw [if_pos (hm _ (List.getElem_mem h))]
      exact ih (k + 1) h (by omega)
    · rw [List.getElem?_eq_none h]

theorem viewC_ok {p : Ptr} {s : Str} (h : IsCString p s) : viewC p = .ok s := by
  obtain ⟨hs, rest, rfl⟩ := h
  rw [viewC, length, lengthLoop_ok s rest hs 0 _ (by omega) (by simp; omega), Res.ok_bind, viewN]
  simp

theorem viewN_ok {p : Ptr} {s : Str} (h : PointsTo p s) : viewN p s.length = .ok s := by
  obtain ⟨rest, rfl⟩ := h
  simp [viewN]

theorem viewS_ok (s : Str) : viewS s = .ok s := by simp [viewS, viewN]

theorem viewChar_ok (c : UInt8) : viewChar c = .ok [c] := by simp [viewChar, viewN]

theorem fromOpt_compare (a b : Str) : ThreeWay (fromOpt (compare a b)) a b := by
  obtain ⟨c, h, h1, h2, h3⟩ := c09_compare a b
  exact ⟨c, by rw [h]; rfl, h1, h2, h3⟩

theorem compares (a b : Str) : Compares (fromOpt (opEq a b)) (fromOpt (opNe a b))
    (fromOpt (opLt a b)) (fromOpt (opGt a b)) (fromOpt (opLe a b)) (fromOpt (opGe a b)) a b := by
  obtain ⟨⟨e, he⟩, ⟨n, hn⟩, ⟨l, hl⟩, ⟨g, hg⟩, ⟨k, hk⟩, ⟨m, hm⟩⟩ := c09_operators_defined a b
  have := c09_operators a b
  simp only [he, hn, hl, hg, hk, hm, Option.some.injEq] at this ⊢
  exact ⟨e, n, l, g, k, m, rfl, rfl, rfl, rfl, rfl, rfl, this⟩

theorem occursAt_char (h : Str) (c : UInt8) (i : Nat) :
    OccursAt h [c] i ↔ CharAt h (· = c) i := by
  constructor
  · rintro ⟨a, b, rfl, rfl⟩
    exact ⟨c, by simp, rfl⟩
  · rintro ⟨_, hi, rfl⟩
    obtain ⟨hlt, hc⟩ := List.getElem?_eq_some_iff.1 hi
    refine ⟨h.take i, h.drop (i + 1), ?_, by simp; omega⟩
    rw [← hc]
    simp

theorem _root_.Gul14.Spec.IsFirst.congr {P Q : Nat → Prop} (h : ∀ i, P i ↔ Q i) {r : Nat} (hp : IsFirst P r) :
    IsFirst Q r := by
  have : P = Q := funext fun i => propext (h i)
  exact this ▸ hp

theorem _root_.Gul14.Spec.IsLast.congr {P Q : Nat → Prop} (h : ∀ i, P i ↔ Q i) {r : Nat} (hp : IsLast P r) :
    IsLast Q r := by
  have : P = Q := funext fun i => propext (h i)
  exact this ▸ hp

/-! ## C96: C strings, characters and std::string as operands -/

/-- A view made from a C string shows the characters before the terminating zero, whatever
follows it in memory; nothing past the zero is read (the memory may end there).  With a zero
nowhere in the block, or a null pointer, the constructor is undefined. -/
theorem c96_cstring (p : Ptr) :
    (∀ s, IsCString p s → viewC p = .ok s) ∧
    ((∀ m, p = some m → (0 : UInt8) ∉ m) → viewC p = .ub) := by
  refine ⟨fun s h => viewC_ok h, fun h => ?_⟩
  rw [viewC]
  cases p with
  | none => rfl
  | some m =>
    have hm : ∀ c ∈ m, c ≠ 0 := fun c hc h0 => h m rfl (h0 ▸ hc)
    rw [length, lengthLoop_ub m hm _ 0 (by omega) (by omega)]
    rfl

/-- A pointer with a length and a `std::string` are viewed in their whole length, zero
characters included. -/
theorem c96_views (s rest : Str) :
    viewN (some (s ++ rest)) s.length = .ok s ∧ viewS s = .ok s ∧ viewDefault = .ok [] :=
  ⟨viewN_ok ⟨rest, rfl⟩, viewS_ok s, rfl⟩

/-- The searches for a C string are the searches for its characters. -/
theorem c96_search_cstring (h s : Str) (p : Ptr) (pos : Nat) (hp : IsCString p s)
    (hmax : h.length < npos) :
    (∃ r, findC h p pos = .ok r ∧ IsFirst (fun i => pos ≤ i ∧ OccursAt h s i) r) ∧
    (∃ r, rfindC h p pos = .ok r ∧ IsLast (fun i => i ≤ pos ∧ OccursAt h s i) r) ∧
    (∃ r, findFirstOfC h p pos = .ok r ∧
      IsFirst (fun i => pos ≤ i ∧ CharAt h (fun c => c ∈ s) i) r) ∧
    (∃ r, findLastOfC h p pos = .ok r ∧
      IsLast (fun i => i ≤ pos ∧ CharAt h (fun c => c ∈ s) i) r) ∧
    (∃ r, findFirstNotOfC h p pos = .ok r ∧
      IsFirst (fun i => pos ≤ i ∧ CharAt h (fun c => c ∉ s) i) r) ∧
    (∃ r, findLastNotOfC h p pos = .ok r ∧
      IsLast (fun i => i ≤ pos ∧ CharAt h (fun c => c ∉ s) i) r) := by
  simp only [findC, rfindC, findFirstOfC, findLastOfC, findFirstNotOfC, findLastNotOfC,
    viewC_ok hp, Res.ok_bind]
  exact ⟨⟨_, rfl, c07_find h s pos hmax⟩, ⟨_, rfl, c07_rfind h s pos hmax⟩,
    ⟨_, rfl, c07_find_first_of h s pos hmax⟩, ⟨_, rfl, c07_find_last_of h s pos hmax⟩,
    ⟨_, rfl, c07_find_first_not_of h s pos hmax⟩, ⟨_, rfl, c07_find_last_not_of h s pos hmax⟩⟩

/-- The searches for the first `n` characters at a pointer; these may contain zeros. -/
theorem c96_search_pointer (h s : Str) (p : Ptr) (pos : Nat) (hp : PointsTo p s)
    (hmax : h.length < npos) :
    (∃ r, findN h p pos s.length = .ok r ∧ IsFirst (fun i => pos ≤ i ∧ OccursAt h s i) r) ∧
    (∃ r, rfindN h p pos s.length = .ok r ∧ IsLast (fun i => i ≤ pos ∧ OccursAt h s i) r) ∧
    (∃ r, findFirstOfN h p pos s.length = .ok r ∧
      IsFirst (fun i => pos ≤ i ∧ CharAt h (fun c => c ∈ s) i) r) ∧
    (∃ r, findLastOfN h p pos s.length = .ok r ∧
      IsLast (fun i => i ≤ pos ∧ CharAt h (fun c => c ∈ s) i) r) ∧
    (∃ r, findFirstNotOfN h p pos s.length = .ok r ∧
      IsFirst (fun i => pos ≤ i ∧ CharAt h (fun c => c ∉ s) i) r) ∧
    (∃ r, findLastNotOfN h p pos s.length = .ok r ∧
      IsLast (fun i => i ≤ pos ∧ CharAt h (fun c => c ∉ s) i) r) := by
  simp only [findN, rfindN, findFirstOfN, findLastOfN, findFirstNotOfN, findLastNotOfN,
    viewN_ok hp, Res.ok_bind]
  exact ⟨⟨_, rfl, c07_find h s pos hmax⟩, ⟨_, rfl, c07_rfind h s pos hmax⟩,
    ⟨_, rfl, c07_find_first_of h s pos hmax⟩, ⟨_, rfl, c07_find_last_of h s pos hmax⟩,
    ⟨_, rfl, c07_find_first_not_of h s pos hmax⟩, ⟨_, rfl, c07_find_last_not_of h s pos hmax⟩⟩

/-- The searches for a character (zero or not), or for another one than it. -/
theorem c96_search_char (h : Str) (c : UInt8) (pos : Nat) (hmax : h.length < npos) :
    (∃ r, findChar h c pos = .ok r ∧ IsFirst (fun i => pos ≤ i ∧ CharAt h (· = c) i) r) ∧
    (∃ r, rfindChar h c pos = .ok r ∧ IsLast (fun i => i ≤ pos ∧ CharAt h (· = c) i) r) ∧
    (∃ r, findFirstOfChar h c pos = .ok r ∧
      IsFirst (fun i => pos ≤ i ∧ CharAt h (· = c) i) r) ∧
    (∃ r, findLastOfChar h c pos = .ok r ∧ IsLast (fun i => i ≤ pos ∧ CharAt h (· = c) i) r) ∧
    (∃ r, findFirstNotOfChar h c pos = .ok r ∧
      IsFirst (fun i => pos ≤ i ∧ CharAt h (· ≠ c) i) r) ∧
    (∃ r, findLastNotOfChar h c pos = .ok r ∧
      IsLast (fun i => i ≤ pos ∧ CharAt h (· ≠ c) i) r) := by
  have hin : (fun d => d ∈ [c]) = (fun d : UInt8 => d = c) := by funext d; simp
  have hnin : (fun d => d ∉ [c]) = (fun d : UInt8 => d ≠ c) := by funext d; simp
  simp only [findChar, rfindChar, findFirstOfChar, findLastOfChar, findFirstNotOfChar,
    findLastNotOfChar, viewChar_ok, Res.ok_bind]
  have h3 := c07_find_first_of h [c] pos hmax
  have h4 := c07_find_last_of h [c] pos hmax
  have h5 := c07_find_first_not_of h [c] pos hmax
  have h6 := c07_find_last_not_of h [c] pos hmax
  rw [hin] at h3 h4
  rw [hnin] at h5 h6
  exact ⟨⟨_, rfl, (c07_find h [c] pos hmax).congr fun i => by rw [occursAt_char]⟩,
    ⟨_, rfl, (c07_rfind h [c] pos hmax).congr fun i => by rw [occursAt_char]⟩,
    ⟨_, rfl, h3⟩, ⟨_, rfl, h4⟩, ⟨_, rfl, h5⟩, ⟨_, rfl, h6⟩⟩

/-- Without a position the searches range over the whole view, forwards from its beginning and
backwards from its end. -/
theorem c96_search_whole (h s : Str) (p : Ptr) (hp : IsCString p s) (hmax : h.length < npos) :
    (∃ r, findC h p = .ok r ∧ IsFirst (OccursAt h s) r) ∧
    (∃ r, rfindC h p = .ok r ∧ IsLast (OccursAt h s) r) ∧
    (∃ r, findFirstOfC h p = .ok r ∧ IsFirst (CharAt h (fun c => c ∈ s)) r) ∧
    (∃ r, findLastOfC h p = .ok r ∧ IsLast (CharAt h (fun c => c ∈ s)) r) ∧
    (∃ r, findFirstNotOfC h p = .ok r ∧ IsFirst (CharAt h (fun c => c ∉ s)) r) ∧
    (∃ r, findLastNotOfC h p = .ok r ∧ IsLast (CharAt h (fun c => c ∉ s)) r) := by
  have hocc : ∀ i, OccursAt h s i → i ≤ npos := by
    rintro i ⟨a, b, rfl, rfl⟩
    simp only [List.length_append] at hmax
    omega
  have hchar : ∀ (P : UInt8 → Prop) i, CharAt h P i → i ≤ npos := by
    rintro P i ⟨c, hc, -⟩
    have := (List.getElem?_eq_some_iff.1 hc).1
    omega
  obtain ⟨⟨r1, e1, h1⟩, -, ⟨r3, e3, h3⟩, -, ⟨r5, e5, h5⟩, -⟩ :=
    c96_search_cstring h s p 0 hp hmax
  obtain ⟨-, ⟨r2, e2, h2⟩, -, ⟨r4, e4, h4⟩, -, ⟨r6, e6, h6⟩⟩ :=
    c96_search_cstring h s p npos hp hmax
  exact ⟨⟨r1, e1, h1.congr fun i => ⟨fun x => x.2, fun x => ⟨by omega, x⟩⟩⟩,
    ⟨r2, e2, h2.congr fun i => ⟨fun x => x.2, fun x => ⟨hocc i x, x⟩⟩⟩,
    ⟨r3, e3, h3.congr fun i => ⟨fun x => x.2, fun x => ⟨by omega, x⟩⟩⟩,
    ⟨r4, e4, h4.congr fun i => ⟨fun x => x.2, fun x => ⟨hchar _ i x, x⟩⟩⟩,
    ⟨r5, e5, h5.congr fun i => ⟨fun x => x.2, fun x => ⟨by omega, x⟩⟩⟩,
    ⟨r6, e6, h6.congr fun i => ⟨fun x => x.2, fun x => ⟨hchar _ i x, x⟩⟩⟩⟩

/-- The same for a single character. -/
theorem c96_search_whole_char (h : Str) (c : UInt8) (hmax : h.length < npos) :
    (∃ r, findChar h c = .ok r ∧ IsFirst (CharAt h (· = c)) r) ∧
    (∃ r, rfindChar h c = .ok r ∧ IsLast (CharAt h (· = c)) r) ∧
    (∃ r, findFirstOfChar h c = .ok r ∧ IsFirst (CharAt h (· = c)) r) ∧
    (∃ r, findLastOfChar h c = .ok r ∧ IsLast (CharAt h (· = c)) r) ∧
    (∃ r, findFirstNotOfChar h c = .ok r ∧ IsFirst (CharAt h (· ≠ c)) r) ∧
    (∃ r, findLastNotOfChar h c = .ok r ∧ IsLast (CharAt h (· ≠ c)) r) := by
  have hchar : ∀ (P : UInt8 → Prop) i, CharAt h P i → i ≤ npos := by
    rintro P i ⟨c, hc, -⟩
    have := (List.getElem?_eq_some_iff.1 hc).1
    omega
  obtain ⟨⟨r1, e1, h1⟩, -, ⟨r3, e3, h3⟩, -, ⟨r5, e5, h5⟩, -⟩ := c96_search_char h c 0 hmax
  obtain ⟨-, ⟨r2, e2, h2⟩, -, ⟨r4, e4, h4⟩, -, ⟨r6, e6, h6⟩⟩ := c96_search_char h c npos hmax
  exact ⟨⟨r1, e1, h1.congr fun i => ⟨fun x => x.2, fun x => ⟨by omega, x⟩⟩⟩,
    ⟨r2, e2, h2.congr fun i => ⟨fun x => x.2, fun x => ⟨hchar _ i x, x⟩⟩⟩,
    ⟨r3, e3, h3.congr fun i => ⟨fun x => x.2, fun x => ⟨by omega, x⟩⟩⟩,
    ⟨r4, e4, h4.congr fun i => ⟨fun x => x.2, fun x => ⟨hchar _ i x, x⟩⟩⟩,
    ⟨r5, e5, h5.congr fun i => ⟨fun x => x.2, fun x => ⟨by omega, x⟩⟩⟩,
    ⟨r6, e6, h6.congr fun i => ⟨fun x => x.2, fun x => ⟨hchar _ i x, x⟩⟩⟩⟩

/-- `compare` with a C string, whole or for the part `[pos, pos + n)` of the view, and with the
first characters at a pointer. -/
theorem c96_compare (a s t : Str) (p q : Ptr) (pos n : Nat) (hp : IsCString p s)
    (hq : PointsTo q t) (hmax : a.length < npos) (hpos : pos ≤ a.length)
    (hn : n = npos ∨ pos + n < sizeMod) :
    ThreeWay (compareC a p) a s ∧
    ThreeWay (compareSubC a pos n p) ((a.drop pos).take n) s ∧
    ThreeWay (compareSubN a pos n q t.length) ((a.drop pos).take n) t := by
  have hsub : substr a pos n = .ok ((a.drop pos).take n) := by
    rw [substr, if_neg (by omega)]
    by_cases h : n = npos ∨ (pos + n) % sizeMod > a.length
    · simp only [if_pos h]
      rw [if_pos (by omega), List.take_of_length_le (i := a.length - pos) (by simp),
        List.take_of_length_le]
      simp only [List.length_drop]
      rcases h with h | h
      · omega
      · rcases hn with hn | hn
        · omega
        · rw [Nat.mod_eq_of_lt hn] at h
          omega
    · simp only [if_neg h]
      rcases hn with hn | hn
      · omega
      · rw [Nat.mod_eq_of_lt hn] at h
        rw [if_pos (by omega)]
  refine ⟨?_, ?_, ?_⟩
  · rw [compareC, viewC_ok hp, Res.ok_bind]; exact fromOpt_compare _ _
  · rw [compareSubC, hsub, viewC_ok hp, Res.ok_bind, Res.ok_bind]; exact fromOpt_compare _ _
  · rw [compareSubN, hsub, viewN_ok hq, Res.ok_bind, Res.ok_bind]; exact fromOpt_compare _ _

/-- The comparison of a part throws out_of_range exactly if it begins past the end. -/
theorem c96_compare_throws (a s t : Str) (p q : Ptr) (pos n : Nat) (hp : IsCString p s)
    (hq : PointsTo q t) :
    (compareSubC a pos n p = .throw .outOfRange ↔ a.length < pos) ∧
    (compareSubN a pos n q t.length = .throw .outOfRange ↔ a.length < pos) := by
  have key : ∀ v : Str, ((substr a pos n >>= fun b => fromOpt (compare b v)) =
      .throw .outOfRange ↔ a.length < pos) := by
    intro v
    rw [substr]
    by_cases h : a.length < pos
    · rw [if_pos h]; simp only [h, iff_true]; rfl
    · rw [if_neg h]
      simp only [h, iff_false]
      generalize (if n = npos ∨ (pos + n) % sizeMod > a.length then a.length - pos else n) = k
      split
      · rw [Res.ok_bind]
        obtain ⟨c, hc, -⟩ := fromOpt_compare (List.take k (List.drop pos a)) v
        rw [hc]; simp
      · exact fun h => by cases h
  refine ⟨?_, ?_⟩
  · rw [compareSubC]; simp only [viewC_ok hp, Res.ok_bind]; exact key s
  · rw [compareSubN]; simp only [viewN_ok hq, Res.ok_bind]; exact key t

/-- The comparison operators with a `std::string` on either side. -/
theorem c96_operators_string (a b : Str) :
    Compares (eqVS a b) (neVS a b) (ltVS a b) (gtVS a b) (leVS a b) (geVS a b) a b ∧
    Compares (eqSV a b) (neSV a b) (ltSV a b) (gtSV a b) (leSV a b) (geSV a b) a b := by
  simp only [eqVS, neVS, ltVS, gtVS, leVS, geVS, eqSV, neSV, ltSV, gtSV, leSV, geSV, viewS_ok,
    Res.ok_bind]
  exact ⟨compares a b, compares a b⟩

/-- The comparison operators with a C string on either side. -/
theorem c96_operators_cstring (a s : Str) (p : Ptr) (hp : IsCString p s) :
    Compares (eqVC a p) (neVC a p) (ltVC a p) (gtVC a p) (leVC a p) (geVC a p) a s ∧
    Compares (eqCV p a) (neCV p a) (ltCV p a) (gtCV p a) (leCV p a) (geCV p a) s a := by
  simp only [eqVC, neVC, ltVC, gtVC, leVC, geVC, eqCV, neCV, ltCV, gtCV, leCV, geCV, viewC_ok hp,
    Res.ok_bind]
  exact ⟨compares a s, compares s a⟩

theorem readRange_ok (v : View) (h : v.Valid) :
    ∀ n i, i + n ≤ v.len → readRange v i n = .ok ((v.mem.drop (v.off + i)).take n) := by
  intro n
  induction n with
  | zero => intro i _; simp [readRange]
  | succ n ih =>
    intro i hi
    have hlt : v.off + i < v.mem.length := by unfold View.Valid at h; omega
    rw [readRange, View.read]
    rw [List.getElem?_eq_getElem hlt]
    simp only [Res.ok_bind]
    rw [ih (i + 1) (by omega), Res.ok_bind, List.drop_eq_getElem_cons hlt]
    simp [Nat.add_assoc]

/-- Conversion to `std::string`, `+=` and both `+` read the viewed characters, no others, and
put them where they are written: after the left string, before the right one. -/
theorem c96_string (v : View) (s : Str) (h : v.Valid) :
    v.toStr = .ok v.chars ∧ appendView s v = .ok (s ++ v.chars) ∧
    plusSV s v = .ok (s ++ v.chars) ∧ plusVS v s = .ok (v.chars ++ s) := by
  have hr : readRange v 0 v.len = .ok v.chars := by
    rw [readRange_ok v h v.len 0 (by omega)]; rfl
  simp only [View.toStr, plusSV, appendView, plusVS, hr, Res.ok_bind, stdInsert, List.take_zero,
    List.drop_zero, List.nil_append, and_self]

/-- A string that went through a view comes back unchanged, and concatenation with views is
associative. -/
theorem c96_string_round_trip (s a b : Str) :
    (⟨s ++ [0], 0, s.length⟩ : View).toStr = .ok s ∧
    (plusSV a ⟨s ++ [0], 0, s.length⟩ >>= fun x => plusSV x ⟨b ++ [0], 0, b.length⟩) =
      (plusVS ⟨s ++ [0], 0, s.length⟩ b >>= fun x => plusSV a ⟨x ++ [0], 0, x.length⟩) := by
  have hv : ∀ t : Str, (⟨t ++ [0], 0, t.length⟩ : View).Valid := by
    intro t; simp [View.Valid]
  have hc : ∀ t : Str, (⟨t ++ [0], 0, t.length⟩ : View).chars = t := by
    intro t; simp [View.chars]
  refine ⟨by rw [(c96_string _ s (hv s)).1, hc], ?_⟩
  rw [(c96_string _ a (hv s)).2.2.1, (c96_string _ b (hv s)).2.2.2, Res.ok_bind, Res.ok_bind,
    (c96_string _ _ (hv b)).2.2.1, (c96_string _ a (hv _)).2.2.1, hc, hc, hc, List.append_assoc]

/-- `swap` exchanges two views. -/
theorem c96_swap (v w : View) : v.swap w = (w, v) := rfl

-- The hypotheses are met: a C string in a larger block, a zero inside a `std::string`.
example : IsCString (some [97, 98, 0, 99]) [97, 98] ∧ PointsTo (some [97, 0, 98]) [97, 0] :=
  ⟨⟨by decide, [99], rfl⟩, ⟨[98], rfl⟩⟩
example : viewC (some [97, 98, 0, 99]) = .ok [97, 98] ∧ viewC (some [97]) = .ub ∧
    findC (bytes "abcabc") (some [99, 97, 0]) = .ok 2 ∧
    rfindChar (bytes "abcabc") 98 = .ok 4 ∧
    eqVS [97, 0] [97, 0] = .ok true ∧ eqVC [97, 0] (some [97, 0]) = .ok false ∧
    compareSubC (bytes "xab") 1 5 (some [97, 98, 0]) = .ok 0 := by decide +kernel
example : (⟨bytes "abcd", 1, 2⟩ : View).Valid ∧
    plusVS ⟨bytes "abcd", 1, 2⟩ (bytes "x") = .ok (bytes "bcx") := by decide +kernel

end Gul14.SV
