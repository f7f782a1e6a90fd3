import Verif.Variant.Props
import Verif.Optional.Compare

/-! # Access, visitation, comparison and hash of variants (C83, C84, C85) -/
namespace Gul14.Var

variable {V R : Type}

/-! ## Model -/

/-- find_index<T, Ts...>(), variant.h:327-343, with the types given by numbers; `none` is not_found,
`some none` is ambiguous. -/
def findLoop (t : Nat) : List Nat → Nat → Option Nat → Option (Option Nat)
  | [], _, r => r.map some
  | u :: us, i, r =>
    if u = t then (if r ≠ none then some none else findLoop t us (i + 1) (some i))
    else findLoop t us (i + 1) r

/-- variant.h:327-343. -/
def findIndex (t : Nat) (ts : List Nat) : Option (Option Nat) := findLoop t ts 0 none

/-- holds_alternative<I>(v), variant.h:1688-1691. -/
def holdsAlternative (c : Cfg) (i : Nat) (o : Obj V) : Bool := index c o == i

/-- The value of alternative `i`, which has to be alive (get_alt<I>(v).value, variant.h:420-443). -/
def altValue (i : Nat) (o : Obj V) : Res V :=
  match o.mem with
  | some (k, v) => if k = i then .ok v else .ub
  | none => .ub

/-- get<I>(v), variant.h:1699-1738. -/
def getAt (c : Cfg) (i : Nat) (o : Obj V) : Res V := do
  if holdsAlternative c i o then pure () else .throw .badAccess
  altValue i o

/-- get_if<I>(v), variant.h:1761-1793: the value pointed to, or null. -/
def getIf (c : Cfg) (i : Nat) : Option (Obj V) → Res (Option V)
  | none => .ok none
  | some o => if holdsAlternative c i o then (altValue i o).map some else .ok none

/-- The alternatives with the given numbers, forwarded to the visitor
(get_alt<Is>(vs).value..., variant.h:584-592). -/
def altValues : List (Nat × Obj V) → Res (List (Nat × V))
  | [] => .ok []
  | (i, o) :: ps => do
    let v ← altValue i o
    let vs ← altValues ps
    pure ((i, v) :: vs)

/-- dispatcher::dispatch, variant.h:484-592: the switch over the index of the first variant that has
not been visited yet (32 cases, then the default), then the other variants; in the end the visitor
is called with the alternatives found.  `visited`: their numbers. -/
def dispatch (f : List (Nat × V) → Res R) :
    List (Cfg × Obj V) → List (Nat × Obj V) → Res R
  | [], visited => do
    let args ← altValues visited
    f args
  | (c, o) :: vs, visited =>
    match dispatchAt c.length (c.length + 1) 0 (index c o) with
    | some i => dispatch f vs (visited ++ [(i, o)])
    | none => .ub

/-- visit(visitor, vs...), variant.h:1878-1899.  The argument of the visitor tells which overload is
called with which values. -/
def visit (f : List (Nat × V) → Res R) (vs : List (Cfg × Obj V)) : Res R := do
  if vs.any fun v => valueless v.1 v.2 then .throw .badAccess else pure ()
  dispatch f vs []

/-- visit_value_at(index, op, lhs, rhs), variant.h:890-897 (dispatch_at, 601-651). -/
def visitValueAt (c : Cfg) (i : Nat) (f : Nat → V → V → R) (l r : Obj V) : Res R :=
  match dispatchAt c.length (c.length + 1) 0 i with
  | some i => do
    let a ← altValue i l
    let b ← altValue i r
    pure (f i a b)
  | none => .ub

variable (c : Cfg) (cmp : Nat → Opt.Cmp V)

/-- operator==, variant.h:1811-1819. -/
def opEq (l r : Obj V) : Res Bool :=
  if index c l ≠ index c r then .ok false
  else if valueless c l then .ok true
  else visitValueAt c (index c l) (fun i => (cmp i).eq) l r

/-- operator!=, variant.h:1821-1829. -/
def opNe (l r : Obj V) : Res Bool :=
  if index c l ≠ index c r then .ok true
  else if valueless c l then .ok false
  else visitValueAt c (index c l) (fun i => (cmp i).ne) l r

/-- operator<, variant.h:1831-1841. -/
def opLt (l r : Obj V) : Res Bool :=
  if valueless c r then .ok false
  else if valueless c l then .ok true
  else if index c l < index c r then .ok true
  else if index c l > index c r then .ok false
  else visitValueAt c (index c l) (fun i => (cmp i).lt) l r

/-- operator>, variant.h:1843-1853. -/
def opGt (l r : Obj V) : Res Bool :=
  if valueless c l then .ok false
  else if valueless c r then .ok true
  else if index c l > index c r then .ok true
  else if index c l < index c r then .ok false
  else visitValueAt c (index c l) (fun i => (cmp i).gt) l r

/-- operator<=, variant.h:1855-1865. -/
def opLe (l r : Obj V) : Res Bool :=
  if valueless c l then .ok true
  else if valueless c r then .ok false
  else if index c l < index c r then .ok true
  else if index c l > index c r then .ok false
  else visitValueAt c (index c l) (fun i => (cmp i).le) l r

/-- operator>=, variant.h:1867-1877. -/
def opGe (l r : Obj V) : Res Bool :=
  if valueless c r then .ok true
  else if valueless c l then .ok false
  else if index c l > index c r then .ok true
  else if index c l < index c r then .ok false
  else visitValueAt c (index c l) (fun i => (cmp i).ge) l r

/-- The comparison operators of monostate, utility.h:71-77. -/
def monostateCmp : Opt.Cmp Unit :=
  ⟨fun _ _ => true, fun _ _ => false, fun _ _ => false, fun _ _ => false, fun _ _ => true,
    fun _ _ => true⟩

/-- hash_combine, variant.h:1963-1965. -/
def hashCombine (lhs rhs : UInt64) : UInt64 :=
  lhs ^^^ (rhs + (0x9e3779b9 : UInt64) + (lhs <<< (6 : UInt64)) + (lhs >>> (2 : UInt64)))

/-- std::hash of a variant, variant.h:1947-1960; `h i` is the hash of alternative `i`, `hs` that of
std::size_t. -/
def hash (h : Nat → V → UInt64) (hs : UInt64 → UInt64) (o : Obj V) : Res UInt64 := do
  let r ← if valueless c o then .ok 299792458
    else match dispatchAt c.length (c.length + 1) 0 (index c o) with
      | some i => (altValue i o).map (h i)
      | none => .ub
  pure (hashCombine r (hs (UInt64.ofNat (index c o))))

end Gul14.Var

namespace Gul14.Spec.Vari
variable {V : Type}

/-- The order of variants: valueless first, then by the number of the alternative, then by value. -/
inductive Before (lt : Nat → V → V → Prop) : Content V → Content V → Prop where
  | valueless (p : Nat × V) : Before lt none (some p)
  | alternative (i j : Nat) (v w : V) : i < j → Before lt (some (i, v)) (some (j, w))
  | value (i : Nat) (v w : V) : lt i v w → Before lt (some (i, v)) (some (i, w))

/-- The six operators of a type are those of an order with `less`. -/
structure Operators (c : Opt.Cmp V) (less : V → V → Prop) : Prop where
  eq : ∀ a b, c.eq a b = true ↔ a = b
  ne : ∀ a b, c.ne a b = true ↔ a ≠ b
  lt : ∀ a b, c.lt a b = true ↔ less a b
  gt : ∀ a b, c.gt a b = true ↔ less b a
  le : ∀ a b, c.le a b = true ↔ less a b ∨ a = b
  ge : ∀ a b, c.ge a b = true ↔ less b a ∨ a = b

/-- `r` is the answer to the question `p`. -/
def Answers (r : Res Bool) (p : Prop) : Prop := ∃ b, r = .ok b ∧ (b = true ↔ p)

end Gul14.Spec.Vari

namespace Gul14.Var
open Spec.Vari
variable {V R : Type} {c : Cfg}

/-! ## Access -/

theorem findLoop_eq (t : Nat) (ts : List Nat) : ∀ (i : Nat) (r : Option Nat) (j : Nat),
    findLoop t ts i r = some (some j) ↔
      (r = some j ∧ t ∉ ts) ∨
      (r = none ∧ ∃ k, ts[k]? = some t ∧ j = i + k ∧ ∀ k', ts[k']? = some t → k' = k) := by
  induction ts with
  | nil =>
    intro i r j
    cases r <;> simp [findLoop]
  | cons u us ih =>
    intro i r j
    unfold findLoop
    by_cases hu : u = t
    · subst hu
      simp only [if_true]
      cases r with
      | some x => simp
      | none =>
        simp only [ne_eq, not_true_eq_false, if_false]
        rw [ih]
        constructor
        · rintro (⟨h1, h2⟩ | ⟨h1, _⟩)
          · refine .inr ⟨by simp, 0, by simp, by have := Option.some.inj h1; omega, ?_⟩
            intro k' hk'
            cases k' with
            | zero => rfl
            | succ k' =>
              simp only [List.getElem?_cons_succ] at hk'
              exact (h2 (List.mem_of_getElem? hk')).elim
          · cases h1
        · rintro (⟨h1, _⟩ | ⟨_, k, h1, h2, h3⟩)
          · cases h1
          · have h0 : 0 = k := h3 0 (by simp)
            subst h0
            refine .inl ⟨by rw [h2]; simp, ?_⟩
            intro hm
            obtain ⟨k', hk', he⟩ := List.getElem_of_mem hm
            have := h3 (k' + 1) (by simp [List.getElem?_eq_getElem hk', he])
            omega
    · simp only [hu, if_false]
      rw [ih]
      have hut : t ≠ u := fun h => hu h.symm
      constructor
      · rintro (⟨h1, h2⟩ | ⟨h1, k, h2, h3, h4⟩)
        · exact .inl ⟨h1, by simp [hut, h2]⟩
        · refine .inr ⟨h1, k + 1, by simpa using h2, by omega, ?_⟩
          intro k' hk'
          cases k' with
          | zero => simp at hk'; exact (hu hk').elim
          | succ k' => rw [h4 k' (by simpa using hk')]
      · rintro (⟨h1, h2⟩ | ⟨h1, k, h2, h3, h4⟩)
        · simp only [List.mem_cons, not_or] at h2
          exact .inl ⟨h1, h2.2⟩
        · cases k with
          | zero => simp at h2; exact (hu h2).elim
          | succ k =>
            refine .inr ⟨h1, k, by simpa using h2, by omega, ?_⟩
            intro k' hk'
            have := h4 (k' + 1) (by simpa using hk')
            omega

/-- Access by type is access by the number of the only alternative of that type, and is not offered
(does not compile) if there is none or more than one. -/
theorem c84_by_type (t : Nat) (ts : List Nat) (j : Nat) :
    findIndex t ts = some (some j) ↔ ts[j]? = some t ∧ ∀ k, ts[k]? = some t → k = j := by
  unfold findIndex
  rw [findLoop_eq]
  constructor
  · rintro (⟨h, _⟩ | ⟨_, k, h1, h2, h3⟩)
    · cases h
    · have : j = k := by omega
      subst this; exact ⟨h1, h3⟩
  · rintro ⟨h1, h2⟩
    exact .inr ⟨rfl, j, h1, by omega, h2⟩

theorem consistent_cases {o : Obj V} (h : Consistent c o) :
    (o.mem = none ∧ index c o = npos ∧ valueless c o = true) ∨
    ∃ i v, o.mem = some (i, v) ∧ i < c.length ∧ index c o = i ∧ valueless c o = false ∧ i ≠ npos := by
  unfold Consistent at h
  cases hm : o.mem with
  | none => rw [hm] at h; exact .inl ⟨rfl, h⟩
  | some p =>
    obtain ⟨i, v⟩ := p
    rw [hm] at h
    exact .inr ⟨i, v, rfl, h⟩

/-- get, get_if and holds_alternative tell whether a variant holds the alternative `i`; if so, get
and get_if yield its value, otherwise get throws bad_variant_access and get_if yields null.  None of
them touches an alternative that is not alive. -/
theorem c84_access {o : Obj V} (h : Consistent c o) (i : Nat) (hi : i < c.length)
    (hb : c.length < 2 ^ 32 - 1) :
    (∀ v, o.mem = some (i, v) → holdsAlternative c i o = true ∧ getAt c i o = .ok v ∧
      getIf c i (some o) = .ok (some v)) ∧
    ((∀ v, o.mem ≠ some (i, v)) → holdsAlternative c i o = false ∧
      getAt c i o = .throw .badAccess ∧ getIf c i (some o) = .ok none) ∧
    getIf c i (none : Option (Obj V)) = .ok none := by
  have hnp := (index_bound hb hi).2.2
  refine ⟨?_, ?_, rfl⟩
  · intro v hv
    rcases consistent_cases h with ⟨h1, _⟩ | ⟨i', v', h1, h2, h3, _⟩
    · rw [h1] at hv; cases hv
    · rw [h1] at hv
      cases hv
      have hh : holdsAlternative c i o = true := by simp [holdsAlternative, h3]
      refine ⟨hh, ?_, ?_⟩
      · simp [getAt, hh, altValue, h1]
      · simp [getIf, hh, altValue, h1, Res.map]
  · intro hv
    have hne : index c o ≠ i := by
      rcases consistent_cases h with ⟨h1, h2, _⟩ | ⟨i', v', h1, h2, h3, _⟩
      · rw [h2]; exact fun h => hnp h.symm
      · rw [h3]; rintro rfl; exact hv v' h1
    have hh : holdsAlternative c i o = false := by simp [holdsAlternative, hne]
    exact ⟨hh, by simp [getAt, hh], by simp [getIf, hh]⟩

theorem dispatch_ok {c : Cfg} {i : Nat} (h : i < c.length) :
    dispatchAt c.length (c.length + 1) 0 i = some i :=
  dispatchAt_eq c.length i h _ 0 (by omega) (by omega)

theorem dispatch_all (f : List (Nat × V) → Res R) : ∀ (vs : List (Cfg × Obj V))
    (done : List (Nat × Obj V)) (xs ys : List (Nat × V)),
    done.map (fun p => p.2.mem) = xs.map some →
    (∀ (p : Nat × Obj V), p ∈ done → ∃ v, p.2.mem = some (p.1, v)) →
    vs.map (fun p => p.2.mem) = ys.map some → (∀ p ∈ vs, Consistent p.1 p.2) →
    dispatch f vs done = f (xs ++ ys) := by
  intro vs
  induction vs with
  | nil =>
    intro done xs ys h1 h2 h3 _
    have hys : ys = [] := by
      cases ys with
      | nil => rfl
      | cons _ _ => simp at h3
    subst hys
    unfold dispatch
    have : ∀ (done : List (Nat × Obj V)) (xs : List (Nat × V)),
        done.map (fun p => p.2.mem) = xs.map some →
        (∀ (p : Nat × Obj V), p ∈ done → ∃ v, p.2.mem = some (p.1, v)) →
        altValues done = .ok xs := by
      intro done
      induction done with
      | nil =>
        intro xs h1 _
        cases xs with
        | nil => rfl
        | cons _ _ => simp at h1
      | cons p done ih =>
        intro xs h1 h2
        cases xs with
        | nil => simp at h1
        | cons x xs =>
          simp only [List.map_cons, List.cons.injEq] at h1
          obtain ⟨v, hv⟩ := h2 p (by simp)
          rw [hv] at h1
          have hx : x = (p.1, v) := (Option.some.inj h1.1).symm
          obtain ⟨pi, po⟩ := p
          simp only at hv hx
          unfold altValues
          rw [ih xs h1.2 (fun q hq => h2 q (by simp [hq]))]
          simp [altValue, hv, hx]
    rw [this done xs h1 h2]
    simp
  | cons p vs ih =>
    intro done xs ys h1 h2 h3 hc
    obtain ⟨c, o⟩ := p
    cases ys with
    | nil => simp at h3
    | cons y ys =>
      simp only [List.map_cons, List.cons.injEq] at h3
      obtain ⟨i, v⟩ := y
      have hcons := hc (c, o) (by simp)
      rcases consistent_cases hcons with ⟨h4, _⟩ | ⟨i', v', h4, h5, h6, _⟩
      · simp only at h4; rw [h4] at h3; cases h3.1
      · simp only at h4 h5 h6
        rw [h4] at h3
        cases h3.1
        unfold dispatch
        rw [h6, dispatch_ok h5]
        simp only
        rw [ih (done ++ [(i, o)]) (xs ++ [(i, v)]) ys (by simp [h1, h4]) ?_ h3.2
          (fun q hq => hc q (by simp [hq]))]
        · simp
        · intro q hq
          rcases List.mem_append.mp hq with hq | hq
          · exact h2 q hq
          · simp only [List.mem_singleton] at hq
            subst hq
            exact ⟨v, h4⟩

/-- visit with any number of variants, each with any number of alternatives (so also with more than
the 32 that one switch covers): if one of them is valueless, bad_variant_access is thrown and the
visitor is not called; otherwise the result is that of one call of the visitor with the contained
alternatives, in order. -/
theorem c84_visit (f : List (Nat × V) → Res R) (vs : List (Cfg × Obj V))
    (h : ∀ p ∈ vs, Consistent p.1 p.2) :
    ((∃ p ∈ vs, p.2.mem = none) ∧ visit f vs = .throw .badAccess) ∨
    (∃ xs, vs.map (fun p => p.2.mem) = xs.map some ∧ visit f vs = f xs) := by
  by_cases hv : ∃ p ∈ vs, p.2.mem = none
  · left
    refine ⟨hv, ?_⟩
    obtain ⟨p, hp, hm⟩ := hv
    have : (vs.any fun v => valueless v.1 v.2) = true := by
      rw [List.any_eq_true]
      refine ⟨p, hp, ?_⟩
      rcases consistent_cases (h p hp) with ⟨_, _, h2⟩ | ⟨i, v, h1, _⟩
      · exact h2
      · rw [hm] at h1; cases h1
    simp [visit, this]
  · right
    have hex : ∃ xs : List (Nat × V), vs.map (fun p => p.2.mem) = xs.map some := by
      clear h
      induction vs with
      | nil => exact ⟨[], rfl⟩
      | cons p vs ih =>
        obtain ⟨xs, hx⟩ := ih (fun ⟨q, hq, hm⟩ => hv ⟨q, by simp [hq], hm⟩)
        cases hp : p.2.mem with
        | none => exact (hv ⟨p, by simp, hp⟩).elim
        | some x => exact ⟨x :: xs, by simp [hp, hx]⟩
    obtain ⟨xs, hx⟩ := hex
    refine ⟨xs, hx, ?_⟩
    have : (vs.any fun v => valueless v.1 v.2) = false := by
      rw [List.any_eq_false]
      intro p hp
      rcases consistent_cases (h p hp) with ⟨h1, _⟩ | ⟨i, v, _, _, _, h2, _⟩
      · exact (hv ⟨p, hp, h1⟩).elim
      · rw [h2]; simp
    simp only [visit, this, Bool.false_eq_true, if_false, Res.pure_eq, Res.ok_bind]
    exact dispatch_all f vs [] [] xs rfl (by intro p hp; cases hp) hx h

/-! ## Comparison -/

variable {cmp : Nat → Opt.Cmp V} {lt : Nat → V → V → Prop}

theorem visitValueAt_ok {i : Nat} (hi : i < c.length) {l r : Obj V} {a b : V}
    (hl : l.mem = some (i, a)) (hr : r.mem = some (i, b)) (f : Nat → V → V → R) :
    visitValueAt c i f l r = .ok (f i a b) := by
  unfold visitValueAt
  rw [dispatch_ok hi]
  simp [altValue, hl, hr]

theorem before_none {x : Content V} : Before lt x none ↔ False := by
  constructor
  · intro h; cases h
  · exact False.elim
theorem before_valueless {p : Nat × V} : Before lt none (some p) ↔ True :=
  ⟨fun _ => trivial, fun _ => .valueless p⟩
theorem before_some {i j : Nat} {v w : V} :
    Before lt (some (i, v)) (some (j, w)) ↔ i < j ∨ (i = j ∧ lt i v w) := by
  constructor
  · intro h
    cases h with
    | alternative _ _ _ _ h => exact .inl h
    | value _ _ _ h => exact .inr ⟨rfl, h⟩
  · rintro (h | ⟨rfl, h⟩)
    · exact .alternative _ _ _ _ h
    · exact .value _ _ _ h

/-- The six comparison operators of variants agree with the order in which a valueless variant comes
first, then the alternatives in the order in which they are listed, then the values: for every two
variants, without undefined behaviour.  They use the operator of the same name of the alternative. -/
theorem c83_operators (h : ∀ i, Operators (cmp i) (lt i)) {l r : Obj V} (hl : Consistent c l)
    (hr : Consistent c r) :
    Answers (opEq c cmp l r) (l.mem = r.mem) ∧ Answers (opNe c cmp l r) (l.mem ≠ r.mem) ∧
    Answers (opLt c cmp l r) (Before lt l.mem r.mem) ∧
    Answers (opGt c cmp l r) (Before lt r.mem l.mem) ∧
    Answers (opLe c cmp l r) (Before lt l.mem r.mem ∨ l.mem = r.mem) ∧
    Answers (opGe c cmp l r) (Before lt r.mem l.mem ∨ l.mem = r.mem) := by
  unfold Answers opEq opNe opLt opGt opLe opGe
  rcases consistent_cases hl with ⟨hl1, hl2, hl3⟩ | ⟨i, v, hl1, hl2, hl3, hl4, hl5⟩ <;>
  rcases consistent_cases hr with ⟨hr1, hr2, hr3⟩ | ⟨j, w, hr1, hr2, hr3, hr4, hr5⟩
  · simp [hl1, hl2, hl3, hr1, hr2, hr3, before_none]
  · have : npos ≠ j := fun h => hr5 h.symm
    simp [hl1, hl2, hl3, hr1, hr3, hr4, before_none, before_valueless, this]
  · simp [hl1, hl3, hl4, hl5, hr1, hr2, hr3, before_none, before_valueless]
  · by_cases hij : i = j
    · subst hij
      have hv : ∀ f : Nat → V → V → Bool, visitValueAt c i f l r = .ok (f i v w) :=
        visitValueAt_ok hl2 hl1 hr1
      simp only [hl1, hl3, hl4, hr1, hr3, hr4, hv, before_some, ne_eq, not_true_eq_false,
        Bool.false_eq_true, if_false, Nat.lt_irrefl, gt_iff_lt, Res.ok.injEq, exists_eq_left',
        (h i).eq, (h i).ne, (h i).lt, (h i).gt, (h i).le, (h i).ge, true_and, false_or,
        Option.some.injEq, Prod.mk.injEq]
    · have hji : j ≠ i := fun h => hij h.symm
      rcases Nat.lt_or_gt_of_ne hij with hlt | hlt
      · have hn : ¬ j < i := by omega
        simp [hl1, hl3, hl4, hr1, hr3, hr4, hij, hji, hlt, hn, before_some]
      · have hn : ¬ i < j := by omega
        simp [hl1, hl3, hl4, hr1, hr3, hr4, hij, hji, hlt, hn, before_some]

/-- Two variants that hold the same alternative compare as their values do, with each of the six
operators, also if the operators of that type are not those of an order. -/
theorem c83_same_alternative {l r : Obj V} (hl : Consistent c l) (hr : Consistent c r) {i : Nat}
    {v w : V} (h1 : l.mem = some (i, v)) (h2 : r.mem = some (i, w)) :
    opEq c cmp l r = .ok ((cmp i).eq v w) ∧ opNe c cmp l r = .ok ((cmp i).ne v w) ∧
    opLt c cmp l r = .ok ((cmp i).lt v w) ∧ opGt c cmp l r = .ok ((cmp i).gt v w) ∧
    opLe c cmp l r = .ok ((cmp i).le v w) ∧ opGe c cmp l r = .ok ((cmp i).ge v w) := by
  unfold opEq opNe opLt opGt opLe opGe
  rcases consistent_cases hl with ⟨hl1, _⟩ | ⟨i1, v1, hl1, hl2, hl3, hl4, hl5⟩
  · rw [hl1] at h1; cases h1
  rw [hl1] at h1; cases h1
  rcases consistent_cases hr with ⟨hr1, _⟩ | ⟨i2, v2, hr1, hr2, hr3, hr4, hr5⟩
  · rw [hr1] at h2; cases h2
  rw [hr1] at h2; cases h2
  have hv : ∀ f : Nat → V → V → Bool, visitValueAt c i f l r = .ok (f i v w) :=
    visitValueAt_ok hl2 hl1 hr1
  simp only [hl3, hl4, hr3, hr4, hv, ne_eq, not_true_eq_false, Bool.false_eq_true, if_false,
    Nat.lt_irrefl, gt_iff_lt, and_self]

/-- The order of variants is a strict linear order if those of the alternatives are. -/
theorem c83_order_laws (htri : ∀ i a b, lt i a b ∨ a = b ∨ lt i b a) (hirr : ∀ i a, ¬ lt i a a)
    (htr : ∀ i a b d, lt i a b → lt i b d → lt i a d) (x y z : Content V) :
    (Before lt x y ∨ x = y ∨ Before lt y x) ∧ ¬ Before lt x x ∧
    ¬ (Before lt x y ∧ Before lt y x) ∧ (Before lt x y → Before lt y z → Before lt x z) := by
  refine ⟨?_, ?_, ?_, ?_⟩
  · match x, y with
    | none, none => exact .inr (.inl rfl)
    | none, some p => exact .inl (.valueless p)
    | some p, none => exact .inr (.inr (.valueless p))
    | some (i, v), some (j, w) =>
      rcases Nat.lt_trichotomy i j with h | h | h
      · exact .inl (.alternative _ _ _ _ h)
      · subst h
        rcases htri i v w with h | h | h
        · exact .inl (.value _ _ _ h)
        · exact .inr (.inl (by rw [h]))
        · exact .inr (.inr (.value _ _ _ h))
      · exact .inr (.inr (.alternative _ _ _ _ h))
  · match x with
    | none => exact fun h => by cases h
    | some (i, v) =>
      rw [before_some]
      rintro (h | ⟨_, h⟩)
      · omega
      · exact hirr _ _ h
  · match x, y with
    | none, _ => exact fun h => by cases h.2
    | some p, none => exact fun h => by cases h.1
    | some (i, v), some (j, w) =>
      rw [before_some, before_some]
      rintro ⟨h1 | ⟨h1, h2⟩, h3 | ⟨h3, h4⟩⟩
      · omega
      · omega
      · omega
      · subst h1
        exact hirr _ _ (htr _ _ _ _ h2 h4)
  · match x, y, z with
    | x, none, z => intro h; cases h
    | x, some p, none => intro _ h; cases h
    | none, some p, some q => intro _ _; exact .valueless q
    | some (i, v), some (j, w), some (k, u) =>
      rw [before_some, before_some, before_some]
      rintro (h1 | ⟨h1, h2⟩) (h3 | ⟨h3, h4⟩)
      · exact .inl (by omega)
      · exact .inl (by omega)
      · exact .inl (by omega)
      · subst h1
        subst h3
        exact .inr ⟨rfl, htr _ _ _ _ h2 h4⟩

/-- All monostates are equal, and none is less than another. -/
theorem c83_monostate : Operators monostateCmp (fun _ _ => False) := by
  constructor <;> simp [monostateCmp]

/-! ## Hash -/

/-- Variants that compare equal have equal hashes, if equal values of each alternative have. -/
theorem c85_hash (h : Nat → V → UInt64) (hs : UInt64 → UInt64)
    (hh : ∀ i a b, (cmp i).eq a b = true → h i a = h i b) {l r : Obj V} (hl : Consistent c l)
    (hr : Consistent c r) (he : opEq c cmp l r = .ok true) :
    ∃ x, hash c h hs l = .ok x ∧ hash c h hs r = .ok x := by
  unfold opEq at he
  unfold hash
  rcases consistent_cases hl with ⟨hl1, hl2, hl3⟩ | ⟨i, v, hl1, hl2, hl3, hl4, hl5⟩ <;>
  rcases consistent_cases hr with ⟨hr1, hr2, hr3⟩ | ⟨j, w, hr1, hr2, hr3, hr4, hr5⟩
  · simp [hl2, hl3, hr2, hr3]
  · have : npos ≠ j := fun h => hr5 h.symm
    simp [hl2, hr3, this] at he
  · simp [hl3, hr2, hl5] at he
  · by_cases hij : i = j
    · subst hij
      have hv := visitValueAt_ok hl2 hl1 hr1 (fun i => (cmp i).eq)
      simp only [hl3, hr3, hl4, ne_eq, not_true_eq_false, Bool.false_eq_true, if_false, hv,
        Res.ok.injEq] at he
      simp [hl3, hr3, hl4, hr4, dispatch_ok hl2, altValue, hl1, hr1, Res.map, hh i v w he]
    · simp [hl3, hr3, hij] at he

/-! ## Examples -/

/-- Forty alternatives. -/
def forty : Cfg := List.replicate 40 ⟨.trivially, .trivially, .trivially, .trivially, .trivially,
  true, true, true, true, true⟩

example : Consistent forty (⟨35, some (35, 7)⟩ : Obj Nat) := by
  unfold Consistent; decide +kernel
example : visit (fun xs : List (Nat × Nat) => .ok xs)
    [(forty, ⟨35, some (35, 7)⟩), (forty, ⟨2, some (2, 8)⟩)] = .ok [(35, 7), (2, 8)] := by
  decide +kernel
example : visit (fun xs : List (Nat × Nat) => .ok xs)
    [(forty, ⟨35, some (35, 7)⟩), (forty, ⟨255, none⟩)] = .throw .badAccess := by
  decide +kernel
example : findIndex 3 [1, 3, 2] = some (some 1) ∧ findIndex 3 [3, 3] = some none ∧
    findIndex 3 [1] = none := by decide +kernel
example : Operators (⟨(· == ·), (· != ·), (decide <| · < ·), (decide <| · > ·), (decide <| · ≤ ·),
    (decide <| · ≥ ·)⟩ : Opt.Cmp Nat) (· < ·) := by
  constructor <;> intro a b <;> simp
  · exact Nat.le_iff_lt_or_eq
  · rw [eq_comm]; exact Nat.le_iff_lt_or_eq

end Gul14.Var
