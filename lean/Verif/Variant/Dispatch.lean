import Verif.Variant.Access
import Mathlib.Data.List.Forall2

/-!
# C131: which calls of visit compile, and the two ways to find the visitor's overload

The switch is used with all compilers except that of Microsoft, which uses tables of function pointers.
-/
namespace Gul14.Var.Dispatch

variable {V R : Type}

/-! ## Specification -/
namespace Spec

/-- One alternative for each variant: `is` are the numbers of the alternatives, `sizes` how many the variants have. -/
def Combination (sizes is : List Nat) : Prop := List.Forall₂ (· < ·) is sizes

/-- The visitor can be called with every combination of alternatives, and all calls have the same type.  `call` gives the
type of a call, or `none` if the visitor cannot be called. -/
def Exhaustive {T : Type} (call : List Nat → Option T) (sizes : List Nat) : Prop :=
  ∃ t, ∀ is, Combination sizes is → call is = some t

end Spec
open Gul14.Var.Dispatch.Spec

/-! ## What is instantiated -/

/-- The cases GUL14_DISPATCH(B + 0) to GUL14_DISPATCH(B + 31) of the switch, variant.h:525-573, for those with
`I < size`; for the others dispatcher<false, R, ...> is instantiated, whose function does not call the visitor
(variant.h:492-501).  `step` is what one case instantiates. -/
def cases (size B : Nat) (step : Nat → List (List Nat)) : List (List Nat) :=
  (List.range 32).flatMap fun k => if B + k < size then step (B + k) else []

/-- The switch of dispatcher<true, R, ITs...>::dispatch<B> and its default, variant.h:532-575.  `fuel` bounds the depth of
the template recursion. -/
def switch (size : Nat) (step : Nat → List (List Nat)) : Nat → Nat → List (List Nat)
  | 0, _ => []
  | fuel + 1, B => cases size B step ++ (if B + 32 < size then switch size step fuel (B + 32) else [])

/-- The calls of the visitor that dispatcher<true, R, ITs...>::dispatch instantiates, variant.h:512-578: the numbers of the
alternatives for each call.  `visited` are those of the variants that have been visited. -/
def switchCalls : List Nat → List Nat → List (List Nat)
  | [], visited => [visited]
  | n :: sizes, visited => switch n (fun i => switchCalls sizes (visited ++ [i])) (n + 1) 0

/-- make_fmatrix and make_fmatrix_impl::impl, variant.h:676-709: an array of arrays of ... of pointers to functions; a
pointer is given by the numbers of the alternatives. -/
inductive Table where
  | fn (is : List Nat)
  | arr (rows : List Table)

/-- make_fmatrix_impl::impl(Is, Ls...), variant.h:689-702. -/
def matrix : List Nat → List Nat → Table
  | [], is => .fn is
  | n :: sizes, is => .arr ((List.range n).map fun j => matrix sizes (is ++ [j]))

/-- The calls of the visitor that the functions in a table contain, variant.h:679-687. -/
def tableCalls : List Nat → List Nat → List (List Nat)
  | [], is => [is]
  | n :: sizes, is => (List.range n).flatMap fun j => tableCalls sizes (is ++ [j])

/-- dispatch_result_t, variant.h:460-463: the type of the call with the first alternatives. -/
def resultType {T : Type} (call : List Nat → Option T) (sizes : List Nat) : Option T := call (sizes.map fun _ => 0)

/-- visit compiles: dispatch_result_t exists, and every instantiated call exists (visit_exhaustiveness_check,
variant.h:845-857) and has this type (visit_return_type_check, variant.h:473-486). -/
def compiles {T : Type} [DecidableEq T] (call : List Nat → Option T) (sizes : List Nat) (calls : List (List Nat)) : Bool :=
  match resultType call sizes with
  | none => false
  | some t => calls.all fun is => call is == some t

/-! ## Finding the function in a table -/

/-- base::at(elems, is...), variant.h:658-667; outside of an array, or with a wrong number of indices, it is `none`. -/
def Table.at : Table → List Nat → Option (List Nat)
  | .fn is, [] => some is
  | .arr rows, i :: is => match rows[i]? with
      | some t => t.at is
      | none => none
  | _, _ => none

/-- visit(visitor, vs...) with tables, variant.h:781-799 and 1878-1899. -/
def visitTable (f : List (Nat × V) → Res R) (vs : List (Cfg × Obj V)) : Res R := do
  if vs.any fun v => valueless v.1 v.2 then .throw .badAccess else pure ()
  match (matrix (vs.map (·.1.length)) []).at (vs.map fun v => index v.1 v.2) with
  | some is => (altValues (is.zip (vs.map (·.2)))).bind f
  | none => .ub

/-- make_fdiagonal, variant.h:711-739: the function for each alternative. -/
def diagonal (size : Nat) : Table := .arr ((List.range size).map fun i => .fn [i])

/-- visit_value_at(index, op, lhs, rhs) with tables, variant.h:817-833. -/
def visitValueAtTable (c : Cfg) (i : Nat) (f : Nat → V → V → R) (l r : Obj V) : Res R :=
  match (diagonal c.length).at [i] with
  | some [i] => do
    let a ← altValue i l
    let b ← altValue i r
    pure (f i a b)
  | _ => .ub

/-! ## Lemmas -/

theorem mem_switch {size : Nat} {step : Nat → List (List Nat)} {x : List Nat} (fuel B : Nat) (hf : size ≤ B + 32 * fuel) :
    x ∈ switch size step fuel B ↔ ∃ i, B ≤ i ∧ i < size ∧ x ∈ step i := by
  induction fuel generalizing B with
  | zero =>
      simp only [switch, List.not_mem_nil, false_iff]
      rintro ⟨i, h1, h2, -⟩
      omega
  | succ fuel ih =>
      have hc : x ∈ cases size B step ↔ ∃ i, B ≤ i ∧ i < B + 32 ∧ i < size ∧ x ∈ step i := by
        simp only [cases, List.mem_flatMap, List.mem_range]
        constructor
        · rintro ⟨k, hk, h⟩
          split at h
          · exact ⟨B + k, by omega, by omega, by assumption, h⟩
          · cases h
        · rintro ⟨i, h1, h2, h3, h4⟩
          refine ⟨i - B, by omega, ?_⟩
          rw [show B + (i - B) = i by omega, if_pos h3]
          exact h4
      simp only [switch, List.mem_append, hc]
      constructor
      · rintro (⟨i, h1, -, h3, h4⟩ | h)
        · exact ⟨i, h1, h3, h4⟩
        · split at h
          · obtain ⟨i, h1, h2, h3⟩ := (ih (B + 32) (by omega)).mp h
            exact ⟨i, by omega, h2, h3⟩
          · cases h
      · rintro ⟨i, h1, h2, h3⟩
        by_cases hi : i < B + 32
        · exact .inl ⟨i, h1, hi, h2, h3⟩
        · refine .inr ?_
          rw [if_pos (by omega)]
          exact (ih (B + 32) (by omega)).mpr ⟨i, by omega, h2, h3⟩

theorem mem_switchCalls {x : List Nat} (sizes visited : List Nat) :
    x ∈ switchCalls sizes visited ↔ ∃ is, Combination sizes is ∧ x = visited ++ is := by
  induction sizes generalizing visited with
  | nil =>
      simp only [switchCalls, List.mem_singleton, Combination]
      constructor
      · rintro rfl; exact ⟨[], List.Forall₂.nil, by simp⟩
      · rintro ⟨is, h, rfl⟩; cases h; simp
  | cons n sizes ih =>
      rw [switchCalls, mem_switch _ _ (by omega)]
      constructor
      · rintro ⟨i, -, hi, h⟩
        obtain ⟨is, h1, rfl⟩ := (ih _).mp h
        exact ⟨i :: is, List.Forall₂.cons hi h1, by simp⟩
      · rintro ⟨is, h, rfl⟩
        cases h with
        | cons hi h => exact ⟨_, Nat.zero_le _, hi, (ih _).mpr ⟨_, h, by simp⟩⟩

theorem mem_tableCalls {x : List Nat} (sizes visited : List Nat) :
    x ∈ tableCalls sizes visited ↔ ∃ is, Combination sizes is ∧ x = visited ++ is := by
  induction sizes generalizing visited with
  | nil =>
      simp only [tableCalls, List.mem_singleton, Combination]
      constructor
      · rintro rfl; exact ⟨[], List.Forall₂.nil, by simp⟩
      · rintro ⟨is, h, rfl⟩; cases h; simp
  | cons n sizes ih =>
      simp only [tableCalls, List.mem_flatMap, List.mem_range]
      constructor
      · rintro ⟨i, hi, h⟩
        obtain ⟨is, h1, rfl⟩ := (ih _).mp h
        exact ⟨i :: is, List.Forall₂.cons hi h1, by simp⟩
      · rintro ⟨is, h, rfl⟩
        cases h with
        | cons hi h => exact ⟨_, hi, (ih _).mpr ⟨_, h, by simp⟩⟩

theorem firsts {sizes : List Nat} (h : ∀ n ∈ sizes, 0 < n) : Combination sizes (sizes.map fun _ => 0) := by
  induction sizes with
  | nil => exact List.Forall₂.nil
  | cons n r ih => exact List.Forall₂.cons (h n (by simp)) (ih fun m hm => h m (by simp [hm]))

theorem compiles_iff {T : Type} [DecidableEq T] (call : List Nat → Option T) (sizes : List Nat) (calls : List (List Nat))
    (hs : ∀ n ∈ sizes, 0 < n) (hc : ∀ is, is ∈ calls ↔ Combination sizes is) :
    compiles call sizes calls = true ↔ Exhaustive call sizes := by
  unfold compiles resultType
  constructor
  · intro h
    rcases h0 : call (sizes.map fun _ => 0) with _ | t <;> rw [h0] at h
    · cases h
    · refine ⟨t, fun is hi => ?_⟩
      have := List.all_eq_true.mp h is ((hc is).mpr hi)
      simpa using this
  · rintro ⟨t, h⟩
    rw [h _ (firsts hs)]
    simp only [List.all_eq_true]
    intro is hi
    simp [h is ((hc is).mp hi)]

theorem matrix_at (sizes visited is : List Nat) :
    (matrix sizes visited).at is = if List.Forall₂ (· < ·) is sizes then some (visited ++ is) else none := by
  induction sizes generalizing visited is with
  | nil => cases is <;> simp [matrix, Table.at]
  | cons n sizes ih =>
      cases is with
      | nil => simp [matrix, Table.at]
      | cons i is =>
          simp only [matrix, Table.at, List.getElem?_map, List.forall₂_cons]
          by_cases hi : i < n
          · rw [List.getElem?_range hi]
            simp [ih, hi]
          · rw [List.getElem?_eq_none (by simp; omega)]
            simp [hi]

/-! ## Theorems -/

/-- **C131**: a call of visit compiles exactly if the visitor can be called with every combination of alternatives and all
these calls have the same type — for any number of variants with any number of alternatives, both with the switch and with
the tables. -/
theorem c131_compiles {T : Type} [DecidableEq T] (call : List Nat → Option T) (sizes : List Nat) (hs : ∀ n ∈ sizes, 0 < n) :
    (compiles call sizes (switchCalls sizes []) = true ↔ Exhaustive call sizes) ∧
    (compiles call sizes (tableCalls sizes []) = true ↔ Exhaustive call sizes) :=
  ⟨compiles_iff call sizes _ hs fun is => by simp [mem_switchCalls],
   compiles_iff call sizes _ hs fun is => by simp [mem_tableCalls]⟩

/-- The functions of a table are found: for every combination of alternatives the one that was made for it.  No element
outside of an array is used. -/
theorem c131_table (sizes is : List Nat) (h : Combination sizes is) : (matrix sizes []).at is = some is := by
  rw [matrix_at, if_pos (show List.Forall₂ (· < ·) is sizes from h)]
  simp

/-- **C131**: visit with tables does the same as visit with the switch, for all variants in all states. -/
theorem c131_same (f : List (Nat × V) → Res R) (vs : List (Cfg × Obj V)) (h : ∀ p ∈ vs, Consistent p.1 p.2) :
    visitTable f vs = visit f vs := by
  have hl : ∀ p ∈ vs, valueless p.1 p.2 = true ↔ p.2.mem = none := by
    intro p hp
    rcases consistent_cases (h p hp) with ⟨h1, _, h2⟩ | ⟨i, v, h1, _, _, h2, _⟩
    · simp [h1, h2]
    · simp [h1, h2]
  rcases c84_visit f vs h with ⟨⟨p, hp, hm⟩, he⟩ | ⟨xs, hx, he⟩
  · have : (vs.any fun v => valueless v.1 v.2) = true := List.any_eq_true.mpr ⟨p, hp, (hl p hp).mpr hm⟩
    rw [he]
    simp [visitTable, this]
  · rw [he]
    have hany : (vs.any fun v => valueless v.1 v.2) = false := by
      rw [List.any_eq_false]
      intro p hp hv
      have hm := (hl p hp).mp hv
      have : p.2.mem ∈ xs.map some := by rw [← hx]; exact List.mem_map_of_mem hp
      rw [hm] at this
      simp at this
    have hat : ∀ (vs : List (Cfg × Obj V)) (xs : List (Nat × V)), (∀ p ∈ vs, Consistent p.1 p.2) →
        vs.map (fun p => p.2.mem) = xs.map some →
        List.Forall₂ (· < ·) (vs.map fun v => index v.1 v.2) (vs.map (·.1.length)) ∧
        altValues ((vs.map fun v => index v.1 v.2).zip (vs.map (·.2))) = .ok xs := by
      intro vs
      induction vs with
      | nil =>
          intro xs _ hx
          cases xs with
          | nil => exact ⟨List.Forall₂.nil, rfl⟩
          | cons _ _ => simp at hx
      | cons p vs ih =>
          intro xs h hx
          cases xs with
          | nil => simp at hx
          | cons x xs =>
              simp only [List.map_cons, List.cons.injEq] at hx
              obtain ⟨i1, i2⟩ := ih xs (fun q hq => h q (by simp [hq])) hx.2
              rcases consistent_cases (h p (by simp)) with ⟨h1, _⟩ | ⟨i, v, h1, h2, h3, _⟩
              · rw [h1] at hx; cases hx.1
              · refine ⟨?_, ?_⟩
                · simp only [List.map_cons]
                  exact List.Forall₂.cons (by rw [h3]; exact h2) i1
                · rw [h1] at hx
                  simp only [List.map_cons, List.zip_cons_cons, altValues, altValue, h1, h3, i2]
                  cases hx.1
                  simp
    obtain ⟨h1, h2⟩ := hat vs xs h hx
    simp only [visitTable, hany, Bool.false_eq_true, if_false, Res.pure_eq, Res.ok_bind]
    rw [matrix_at, if_pos h1]
    simp only [List.nil_append]
    rw [h2]
    rfl

/-- **C131**: comparison with tables: the operation on the two values of the alternative that both variants contain, and it
is what the switch gives. -/
theorem c131_compare (c : Cfg) (i : Nat) (hi : i < c.length) (f : Nat → V → V → R) (l r : Obj V) :
    visitValueAtTable c i f l r = visitValueAt c i f l r ∧
    (∀ a b, l.mem = some (i, a) → r.mem = some (i, b) → visitValueAtTable c i f l r = .ok (f i a b)) := by
  have : visitValueAtTable c i f l r = visitValueAt c i f l r := by
    unfold visitValueAtTable visitValueAt
    rw [dispatch_ok hi]
    have : (diagonal c.length).at [i] = some [i] := by
      simp [diagonal, Table.at, List.getElem?_range hi]
    rw [this]
  refine ⟨this, fun a b ha hb => ?_⟩
  rw [this]
  exact visitValueAt_ok hi ha hb f

/-! ## Examples -/

/-- The visitor takes (int, int), (int, string) and (double, int), but not (double, string). -/
def someCall : List Nat → Option Nat := fun is => if is = [1, 1] then none else some 7

example : compiles someCall [2, 2] (switchCalls [2, 2] []) = false := by decide +kernel
example : compiles someCall [2, 1] (switchCalls [2, 1] []) = true := by decide +kernel
/-- Another type for the last of 40 alternatives, which is in the second switch. -/
example : compiles (fun is => some (if is = [39] then 1 else 0)) [40] (switchCalls [40] []) = false := by decide +kernel
example : compiles (fun is => some (if is = [40] then 1 else 0)) [40] (switchCalls [40] []) = true := by decide +kernel
example : (matrix [2, 3] []).at [1, 2] = some [1, 2] := by decide +kernel
example : (matrix [2, 3] []).at [2, 1] = none := by decide +kernel
example : Combination [2, 3] [1, 2] := List.Forall₂.cons (by decide) (List.Forall₂.cons (by decide) List.Forall₂.nil)

end Gul14.Var.Dispatch
