import Verif.StringView.Props

/-!
# type_name, include/gul14/type_name.h

The compiler-generated signature `__PRETTY_FUNCTION__` is an arbitrary string here; the properties
say for which forms of it the result is the spelling of the type.
-/
namespace Gul14.TypeName
open SV Gul14.Spec

/-- type_name for GCC and Clang, type_name.h:91-104, on the signature `sig`.  The result is the
view, so that staying inside the signature is part of the statement; `+ 3` and the subtractions are
size_t arithmetic. -/
def typeName (sig : Str) : View :=
  let s : View := ⟨sig, 0, sig.length⟩
  let startIdx := (find s.chars (bytes " = ") 0 + 3) % sizeMod
  let s := s.removePrefix startIdx
  let colonIdx := find s.chars (bytes ";") 0
  let suffLength := if colonIdx ≠ npos then (s.len + sizeMod - colonIdx) % sizeMod else 1
  s.removeSuffix suffLength

/-- Loop of the MSVC branch, type_name.h:111-116: from `endIdx` down to 1, the last '>' cuts. -/
def msvcLoop (s : View) : Nat → Res View
  | 0 => .ok s
  | k + 1 => (s.read (k + 1)).bind fun c =>
      if c ≠ 62 then msvcLoop s k
      else .ok (s.removeSuffix (s.len - (k + 1)))

/-- type_name for MSVC, type_name.h:106-117. -/
def typeNameMsvc (sig : Str) : Res View :=
  let s : View := ⟨sig, 0, sig.length⟩
  let startIdx := (find s.chars (bytes "gul14::type_name<") 0 + 17) % sizeMod
  let s := s.removePrefix startIdx
  msvcLoop s ((s.len + sizeMod - 1) % sizeMod)

/-- A least index is unique. -/
theorem isFirst_unique {P : Nat → Prop} {r k : Nat} (h : IsFirst P r) (hk : P k) (hkn : k ≠ npos)
    (hmin : ∀ i, P i → k ≤ i) : r = k := by
  rcases h with ⟨_, h⟩ | ⟨_, h1, h2⟩
  · exact absurd hk (h k)
  · have := h2 k hk
    have := hmin r h1
    omega

theorem find_eq {h s : Str} {k : Nat} (hmax : h.length < npos) (hk : OccursAt h s k)
    (hmin : ∀ i, i < k → ¬ OccursAt h s i) : find h s 0 = k := by
  have hkn : k ≠ npos := by
    obtain ⟨a, b, h1, h2⟩ := hk
    have : h.length = a.length + s.length + b.length := by rw [h1]; simp; omega
    omega
  refine isFirst_unique (c07_find h s 0 hmax) ⟨Nat.zero_le _, hk⟩ hkn ?_
  rintro i ⟨_, hi⟩
  rcases Nat.lt_or_ge i k with hlt | hge
  · exact absurd hi (hmin i hlt)
  · exact hge

theorem whole_chars (sig : Str) : (⟨sig, 0, sig.length⟩ : View).chars = sig := by
  simp [View.chars]

theorem whole_valid (sig : Str) : (⟨sig, 0, sig.length⟩ : View).Valid := by
  simp [View.Valid]

/-- For every signature of the form `… = T]` (Clang, and GCC without further parameters) or
`… = T; …` (GCC with further aliases) whose first " = " is the one before the type, and every
spelling `T` of a type without ';', the result is exactly `T`, a view into the signature.
Missing from the full claim: spellings that contain a ';', see `c64_semicolon_violated`. -/
theorem c64_type_name_partial (pre T rest : Str) (sig : Str)
    (hsig : sig = pre ++ bytes " = " ++ T ++ rest)
    (hrest : rest = bytes "]" ∨ ∃ r, rest = bytes ";" ++ r)
    (hfirst : ∀ i, i < pre.length → ¬ OccursAt sig (bytes " = ") i)
    (hT : (59 : UInt8) ∉ T) (hmax : sig.length < npos) :
    (typeName sig).Valid ∧ (typeName sig).mem = sig ∧ (typeName sig).chars = T := by
  have h3 : (bytes " = ").length = 3 := by decide
  have hocc : OccursAt sig (bytes " = ") pre.length :=
    ⟨pre, T ++ rest, by rw [hsig]; simp, rfl⟩
  have hfind : find sig (bytes " = ") 0 = pre.length := find_eq hmax hocc hfirst
  have hlen : sig.length = pre.length + 3 + T.length + rest.length := by
    rw [hsig]; simp [h3]; omega
  have hnpos : npos + 1 = sizeMod := by decide
  have hmod : (pre.length + 3) % sizeMod = pre.length + 3 := Nat.mod_eq_of_lt (by omega)
  obtain ⟨hv1, hc1⟩ := c08_remove_prefix ⟨sig, 0, sig.length⟩ (pre.length + 3) (whole_valid sig)
  rw [whole_chars] at hc1
  have hdrop : sig.drop (pre.length + 3) = T ++ rest := by
    rw [hsig, List.append_assoc, show pre.length + 3 = (pre ++ bytes " = ").length by simp [h3],
      List.drop_left]
  rw [hdrop] at hc1
  unfold typeName
  simp only [whole_chars, hfind, hmod, hc1]
  generalize hw : (⟨sig, 0, sig.length⟩ : View).removePrefix (pre.length + 3) = w at *
  have hwlen : w.len = T.length + rest.length := by
    rw [← hw]; simp only [View.removePrefix]; split <;> omega
  have hwmem : w.mem = sig := by rw [← hw]; rfl
  have hclen : w.chars.length = T.length + rest.length := by rw [hc1]; simp
  rcases hrest with hr | ⟨r, hr⟩
  · have hnone : find (T ++ rest) (bytes ";") 0 = npos := by
      rcases c07_find (T ++ rest) (bytes ";") 0 (by simp; omega) with ⟨h1, _⟩ | ⟨_, ⟨_, a, b, h4, _⟩, _⟩
      · exact h1
      · exfalso
        have : (59 : UInt8) ∈ T ++ rest := by
          rw [h4, show bytes ";" = [59] by decide]; simp
        rw [hr, List.mem_append] at this
        rcases this with h | h
        · exact hT h
        · revert h; decide
    obtain ⟨hv2, hc2⟩ := c08_remove_suffix w 1 hv1
    simp only [hnone, ne_eq, not_true_eq_false, if_false]
    refine ⟨hv2, hwmem, ?_⟩
    rw [hc2, hclen, hc1, hr]
    simp [show (bytes "]").length = 1 by decide]
  · have hr1 : rest.length = 1 + r.length := by rw [hr]; simp [show (bytes ";").length = 1 by decide]
    have hone : find (T ++ rest) (bytes ";") 0 = T.length := by
      refine find_eq (by simp; omega) ⟨T, r, by rw [hr]; simp, rfl⟩ ?_
      rintro i hi ⟨a, b, h4, h5⟩
      have h6 : (T ++ rest)[i]? = some 59 := by
        rw [h4, show bytes ";" = [59] by decide, ← h5]; simp
      rw [List.getElem?_append_left hi] at h6
      exact hT (List.mem_of_getElem? h6)
    have hne : T.length ≠ npos := by omega
    obtain ⟨hv2, hc2⟩ := c08_remove_suffix w (w.len - T.length) hv1
    have hsub : (w.len + sizeMod - T.length) % sizeMod = w.len - T.length := by
      rw [show w.len + sizeMod - T.length = (w.len - T.length) + sizeMod by omega,
        Nat.add_mod_right, Nat.mod_eq_of_lt (by omega)]
    simp only [hone, ne_eq, hne, not_false_eq_true, if_true, hsub]
    refine ⟨hv2, hwmem, ?_⟩
    rw [hc2, hclen, hc1, hwlen, show T.length + rest.length - (T.length + rest.length - T.length) = T.length by omega]
    simp

/-- The signatures GCC and Clang generate satisfy the hypotheses. -/
example : ∃ pre T rest sig : Str, sig = pre ++ bytes " = " ++ T ++ rest ∧
    (rest = bytes "]" ∨ ∃ r, rest = bytes ";" ++ r) ∧
    (∀ i, i < pre.length → ¬ OccursAt sig (bytes " = ") i) ∧ (59 : UInt8) ∉ T ∧
    sig = bytes "f() [with T = int*; string_view = x]" ∧ T = bytes "int*" := by
  refine ⟨bytes "f() [with T", bytes "int*", bytes "; string_view = x]", _, rfl,
    Or.inr ⟨bytes " string_view = x]", by decide⟩, ?_, by decide, by decide +kernel, rfl⟩
  intro i hi hocc
  have hf : find (bytes "f() [with T = int*; string_view = x]") (bytes " = ") 0 = 11 := by
    decide +kernel
  have h1 := c07_find (bytes "f() [with T = int*; string_view = x]") (bytes " = ") 0
    (by decide +kernel)
  rw [hf] at h1
  rcases h1 with ⟨h2, _⟩ | ⟨_, _, h2⟩
  · revert h2; decide +kernel
  · have h3 : (bytes "f() [with T").length = 11 := by decide
    have := h2 i ⟨Nat.zero_le _, by
      rwa [show bytes "f() [with T" ++ bytes " = " ++ bytes "int*" ++ bytes "; string_view = x]" =
        bytes "f() [with T = int*; string_view = x]" by decide +kernel] at hocc⟩
    omega

/-- A spelling that contains a ';' is cut: GCC writes a local class of a function template
`f<U>` as `f() [with U = int; …]::L`.  Here type_name gives `f() [with U = int`. -/
theorem c64_semicolon_violated :
    ∃ pre T sig : Str, sig = pre ++ bytes " = " ++ T ++ bytes "]" ∧
      find sig (bytes " = ") 0 = pre.length ∧ (typeName sig).chars ≠ T := by
  refine ⟨bytes "type_name() [with T", bytes "f() [with U = int; V = char]::L", _, rfl, ?_, ?_⟩
  · decide +kernel
  · decide +kernel

/-! ### MSVC -/

theorem read_eq (v : View) (h : v.Valid) (i : Nat) (hi : i < v.len) :
    ∃ c, v.chars[i]? = some c ∧ v.read i = .ok c := by
  simp only [View.Valid, View.chars, View.read] at *
  have hb : v.off + i < v.mem.length := by omega
  refine ⟨v.mem[v.off + i], ?_, ?_⟩
  · rw [List.getElem?_take_of_lt hi, List.getElem?_drop, List.getElem?_eq_getElem hb]
  · rw [List.getElem?_eq_getElem hb]

theorem msvcLoop_eq (v : View) (h : v.Valid) (p : Nat) (hp : 1 ≤ p)
    (hgt : v.chars[p]? = some 62) : ∀ k, p ≤ k → k < v.len →
    (∀ i, p < i → i ≤ k → v.chars[i]? ≠ some 62) →
    msvcLoop v k = .ok (v.removeSuffix (v.len - p)) := by
  intro k
  induction k with
  | zero => intro h1; omega
  | succ k ih =>
      intro h1 h2 h3
      obtain ⟨c, hc, hr⟩ := read_eq v h (k + 1) h2
      simp only [msvcLoop, hr, Res.bind_ok]
      by_cases heq : k + 1 = p
      · rw [heq, hgt] at hc
        cases hc
        simp [heq]
      · have hne : c ≠ 62 := by
          rintro rfl
          exact h3 (k + 1) (by omega) (Nat.le_refl _) hc
        rw [if_pos hne]
        exact ih (by omega) (by omega) (fun i h4 h5 => h3 i h4 (by omega))

/-- MSVC: for every signature of the form `…gul14::type_name<T>rest` where `rest` (such as `(void)`)
contains no '>' and `T` is not empty, the result is exactly `T`. -/
theorem c64_type_name_msvc (pre T rest : Str) (sig : Str)
    (hsig : sig = pre ++ bytes "gul14::type_name<" ++ T ++ bytes ">" ++ rest)
    (hfirst : ∀ i, i < pre.length → ¬ OccursAt sig (bytes "gul14::type_name<") i)
    (hT : T ≠ []) (hrest : (62 : UInt8) ∉ rest) (hmax : sig.length < npos) :
    ∃ v : View, typeNameMsvc sig = .ok v ∧ v.Valid ∧ v.mem = sig ∧ v.chars = T := by
  have h17 : (bytes "gul14::type_name<").length = 17 := by decide
  have h1b : bytes ">" = [62] := by decide
  have hocc : OccursAt sig (bytes "gul14::type_name<") pre.length :=
    ⟨pre, T ++ bytes ">" ++ rest, by rw [hsig]; simp, rfl⟩
  have hfind : find sig (bytes "gul14::type_name<") 0 = pre.length := find_eq hmax hocc hfirst
  have hlen : sig.length = pre.length + 17 + T.length + 1 + rest.length := by
    rw [hsig]; simp [h17, h1b]; omega
  have hnpos : npos + 1 = sizeMod := by decide
  have hmod : (pre.length + 17) % sizeMod = pre.length + 17 := Nat.mod_eq_of_lt (by omega)
  obtain ⟨hv1, hc1⟩ := c08_remove_prefix ⟨sig, 0, sig.length⟩ (pre.length + 17) (whole_valid sig)
  rw [whole_chars] at hc1
  have hdrop : sig.drop (pre.length + 17) = T ++ (bytes ">" ++ rest) := by
    rw [hsig, List.append_assoc, List.append_assoc,
      show pre.length + 17 = (pre ++ bytes "gul14::type_name<").length by simp [h17], List.drop_left]
  rw [hdrop] at hc1
  unfold typeNameMsvc
  simp only [whole_chars, hfind, hmod]
  generalize hw : (⟨sig, 0, sig.length⟩ : View).removePrefix (pre.length + 17) = w at *
  have hwlen : w.len = T.length + 1 + rest.length := by
    rw [← hw]; simp only [View.removePrefix]; split <;> omega
  have hwmem : w.mem = sig := by rw [← hw]; rfl
  have hTpos : 1 ≤ T.length := by
    cases T with
    | nil => exact absurd rfl hT
    | cons _ _ => simp
  have hsub : (w.len + sizeMod - 1) % sizeMod = w.len - 1 := by
    rw [show w.len + sizeMod - 1 = (w.len - 1) + sizeMod by omega, Nat.add_mod_right,
      Nat.mod_eq_of_lt (by omega)]
  rw [hsub]
  have hloop := msvcLoop_eq w hv1 T.length hTpos (by rw [hc1, h1b]; simp) (w.len - 1) (by omega)
    (by omega) (by
      intro i h4 _ h6
      rw [hc1, h1b, List.getElem?_append_right (by omega)] at h6
      rw [show i - T.length = (i - T.length - 1) + 1 by omega] at h6
      simp only [List.singleton_append, List.getElem?_cons_succ] at h6
      exact hrest (List.mem_of_getElem? h6))
  refine ⟨_, hloop, ?_⟩
  obtain ⟨hv2, hc2⟩ := c08_remove_suffix w (w.len - T.length) hv1
  refine ⟨hv2, hwmem, ?_⟩
  rw [hc2, hc1]
  simp only [List.length_append, h1b, List.length_singleton, hwlen]
  rw [show T.length + (1 + rest.length) - (T.length + 1 + rest.length - T.length) = T.length by omega]
  simp

example : ∃ sig T : Str, T = bytes "class std::vector<int>" ∧
    sig = bytes "x __cdecl " ++ bytes "gul14::type_name<" ++ T ++ bytes ">" ++ bytes "(void)" ∧
    (62 : UInt8) ∉ bytes "(void)" ∧
    (typeNameMsvc sig).map View.chars = .ok T :=
  ⟨_, _, rfl, rfl, by decide, by decide +kernel⟩

end Gul14.TypeName
