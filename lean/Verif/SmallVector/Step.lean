import Verif.SmallVector.Swap
import Verif.SmallVector.Spec

/-! Every call does what the specification says. -/
namespace Gul14.SmallVector
open LM hiding pure bind
open Spec.Sv (Op Shown Vars legal result returns changes alter put room grown splice)
variable {V : Type} {w : Fail V} {s : St V} {t : Traits V} {A : World V}

/-- The call. -/
def run (t : Traits V) : Op V → M V (Option Nat)
  | .new i => do newVec t i; pure none
  | .newN i n => do ctorN t i n; pure none
  | .newNV i n v => do ctorNV t i n (.val v); pure none
  | .newRange i ys => do ctorRange t i ys; pure none
  | .newCopy i j => do ctorCopy t i j; pure none
  | .newMove i j => do ctorMove t i j; pure none
  | .delete i => do dtor i; pure none
  | .clear i => do clear i; pure none
  | .reserve i n => do reserve t i n; pure none
  | .pushBack i rv v => do pushBack t rv i (.val v); pure none
  | .emplaceBack i v => do emplaceBack t i (.val v); pure none
  | .popBack i => do popBack i; pure none
  | .insert i idx rv v => do let k ← insertSingle t rv i idx (.val v); pure (some k)
  | .emplace i idx v => do let k ← emplace t i idx (.val v); pure (some k)
  | .insertN i idx n v => do let k ← insertN t i idx n (.val v); pure (some k)
  | .insertRange i idx ys => do let k ← insertRange t i idx ys; pure (some k)
  | .erase i first last => do let k ← erase t i first last; pure (some k)
  | .resize i n => do resize t i n; pure none
  | .resizeWith i n v => do resizeWith t i n (.val v); pure none
  | .shrinkToFit i => do shrinkToFit t i; pure none
  | .assignN i n v => do assignN t i n (.val v); pure none
  | .assignRange i ys => do assignRange t i ys; pure none
  | .assignInit i ys => do assignInit t i ys; pure none
  | .copyAssign i j => do copyAssign t i j; pure none
  | .moveAssign i j => do moveAssign t i j; pure none
  | .swap i j => do swap t i j; pure none

/-- Calls that leave everything in order also if an element operation or an allocation throws.  The
other calls leak elements or memory (see the theorems with the suffix `_violated`). -/
def Safe (t : Traits V) (B : Vars V) : Op V → Prop
  | .newN _ _ => False
  | .newNV _ _ _ => t.nothrowCopy = true
  | .newRange _ ys => t.nothrowCopy = true ∨ ys.length ≤ t.inCap
  | .newCopy _ j => t.nothrowCopy = true ∨ ∀ y, B j = some y → y.elems.length ≤ t.inCap
  | .insert _ _ _ _ => t.nothrowMoveAssign = true
  | .emplace _ _ _ => t.nothrowMoveAssign = true
  | .insertN _ _ _ _ => ShiftSafe t
  | .insertRange _ _ _ => ShiftSafe t
  | .resizeWith _ _ _ => t.nothrowCopy = true
  | .assignN _ _ _ => t.nothrowCopy = true
  | _ => True

/-- Calls in which an exception ends the program: copy construction and copy assignment are declared
noexcept if copying the elements cannot throw, but allocate memory.  All other calls let exceptions
through. -/
def EndsProgram (t : Traits V) : Op V → Prop
  | .newCopy _ _ => t.nothrowCopy = true
  | .copyAssign _ _ => t.nothrowCopyAssign = true
  | _ => False

/-- The vectors as their users see them. -/
def view (A : World V) : Vars V := fun i => (A i).map fun a => ⟨a.xs, a.cap⟩

theorem view_some {i : Nat} {x : Shown V} (h : view A i = some x) :
    ∃ a, A i = some a ∧ a.xs = x.elems ∧ a.cap = x.cap := by
  unfold view at h
  cases hA : A i with
  | none => rw [hA] at h; cases h
  | some a => rw [hA] at h; cases h; exact ⟨a, rfl, rfl, rfl⟩

theorem view_none {i : Nat} (h : view A i = none) : A i = none := by
  unfold view at h
  cases hA : A i with
  | none => rfl
  | some a => rw [hA] at h; cases h

theorem view_put (A : World V) (i : Nat) (a : Option (AV V)) :
    view (A.set i a) = put (view A) i (a.map fun a => ⟨a.xs, a.cap⟩) := by
  funext k
  simp only [view, World.set, put]
  split <;> rfl

theorem view_modify {i : Nat} {a a' : AV V} {f : Shown V → Shown V} (hi : A i = some a)
    (h : f ⟨a.xs, a.cap⟩ = ⟨a'.xs, a'.cap⟩) : view (A.set i (some a')) = alter (view A) i f := by
  funext k
  simp only [view, World.set, alter, hi, Option.map_some, h]
  split <;> rfl

/-- What is guaranteed after the call `op` returned: the vectors are as specified, and vectors that keep
their capacity keep their memory. -/
def Done (t : Traits V) (A : World V) (op : Op V) (r : Option Nat) (s' : St V) : Prop :=
  r = returns op ∧ ∃ A', Rel t s' A' ∧ view A' = result t.inCap t.dflt (view A) op ∧
    ((∀ i j, op ≠ .newMove i j ∧ op ≠ .moveAssign i j ∧ op ≠ .swap i j) → ∀ i a a', A i = some a → A' i = some a' →
      a'.cap = a.cap → a'.loc = a.loc)

/-- What is guaranteed after the call `op` threw: all vectors are in order, the same vectors exist, and
the others are unchanged. -/
def Thrown (t : Traits V) (A : World V) (op : Op V) (s' : St V) : Prop :=
  ∃ A', Rel t s' A' ∧ (∀ i, A' i = none ↔ A i = none) ∧ (∀ i, i ∉ changes op → A' i = A i)

theorem done_one {op : Op V} {i : Nat} {a a' : AV V} {s' : St V} {f : Shown V → Shown V}
    (hi : A i = some a) (h : Rel t s' (A.set i (some a')))
    (hres : result t.inCap t.dflt (view A) op = alter (view A) i f)
    (hf : f ⟨a.xs, a.cap⟩ = ⟨a'.xs, a'.cap⟩) (hloc : a'.cap = a.cap → a'.loc = a.loc) :
    Done t A op (returns op) s' := by
  refine ⟨rfl, _, h, by rw [hres]; exact view_modify hi hf, ?_⟩
  intro _ k b b' hb hb' hc
  by_cases hk : k = i
  · subst hk
    rw [World.set_same] at hb'
    rw [hi] at hb
    cases hb; cases hb'
    exact hloc hc
  · rw [World.set_other hk, hb] at hb'
    cases hb'; rfl

theorem done_new {op : Op V} {i : Nat} {a' : AV V} {s' : St V}
    (hi : A i = none) (h : Rel t s' (A.set i (some a')))
    (hres : result t.inCap t.dflt (view A) op = put (view A) i (some ⟨a'.xs, a'.cap⟩)) :
    Done t A op (returns op) s' := by
  refine ⟨rfl, _, h, by rw [hres, view_put]; rfl, ?_⟩
  intro _ k b b' hb hb' hc
  by_cases hk : k = i
  · subst hk; rw [hi] at hb; cases hb
  · rw [World.set_other hk, hb] at hb'
    cases hb'; rfl

theorem thrown_one {op : Op V} {i : Nat} {a a' : AV V} {s' : St V} (hi : A i = some a)
    (h : Rel t s' (A.set i (some a'))) (hc : i ∈ changes op) : Thrown t A op s' := by
  refine ⟨_, h, ?_, ?_⟩
  · intro k
    by_cases hk : k = i
    · subst hk; rw [World.set_same, hi]; simp
    · rw [World.set_other hk]
  · intro k hk
    exact World.set_other (fun he => hk (he ▸ hc))

theorem thrown_same {op : Op V} {s' : St V} (h : Rel t s' A) : Thrown t A op s' :=
  ⟨A, h, fun _ => Iff.rfl, fun _ _ => rfl⟩

theorem thrown_two {op : Op V} {i j : Nat} {a b a' b' : AV V} {s' : St V} (hi : A i = some a)
    (hj : A j = some b) (h : Rel t s' ((A.set i (some a')).set j (some b'))) (hci : i ∈ changes op)
    (hcj : j ∈ changes op) : Thrown t A op s' := by
  refine ⟨_, h, ?_, ?_⟩
  · intro k
    by_cases hk : k = j
    · subst hk; rw [World.set_same, hj]; simp
    · rw [World.set_other hk]
      by_cases hk2 : k = i
      · subst hk2; rw [World.set_same, hi]; simp
      · rw [World.set_other hk2]
  · intro k hk
    have h1 : k ≠ j := fun he => hk (he ▸ hcj)
    have h2 : k ≠ i := fun he => hk (he ▸ hci)
    rw [World.set_other h1, World.set_other h2]

theorem wp_then {x : M V Unit} {r : Option Nat} {Q : Option Nat → St V → Prop} {E : St V → Prop} {T : Prop}
    (h : wp x w s (fun _ s' => Q r s') E T) : wp (do x; pure r) w s Q E T :=
  wp_bind (wp_mono h (fun _ _ h => wp_pure h) (fun _ h => h) id)

theorem wp_thenSome {x : M V Nat} {Q : Option Nat → St V → Prop} {E : St V → Prop} {T : Prop}
    (h : wp x w s (fun k s' => Q (some k) s') E T) : wp (do let k ← x; pure (some k)) w s Q E T :=
  wp_bind (wp_mono h (fun _ _ h => wp_pure h) (fun _ h => h) id)

theorem growCap_eq (n : Nat) : growCap n = grown n := rfl

theorem lim_eq : sizeLim = Spec.Sv.maxSize + 1 := by decide

/-- The main step. -/
theorem step (op : Op V) (h : Rel t s A) (hin : t.inCap < sizeLim) (hl : legal (view A) op)
    (hsafe : w.at? ≠ none → Safe t (view A) op) :
    wp (run t op) w s (Done t A op) (fun s' => w.at? ≠ none ∧ Thrown t A op s')
      (w.at? ≠ none ∧ EndsProgram t op) := by
  have hlim := lim_eq
  cases op with
  | new i =>
      have hi := view_none hl
      exact wp_then (wp_newVec h hi hin fun s' h1 => done_new hi h1 rfl)
  | newN i n =>
      have hi := view_none hl.1
      have hw : w.at? = none := by
        cases hw : w.at? with
        | none => rfl
        | some k => exact (hsafe (by rw [hw]; simp)).elim
      refine wp_then (wp_ctorN h hi hin (by have := hl.2; omega) hw fun s' a' h1 h2 h3 => done_new hi h1 ?_)
      rw [h2, h3]; rfl
  | newNV i n v =>
      have hi := view_none hl.1
      refine wp_then (wp_ctorNV h hi hin (by have := hl.2; omega) hsafe
        (fun s' a' h1 h2 h3 => done_new hi h1 ?_) (fun hw s' h1 => ⟨hw, thrown_same h1⟩))
      rw [h2, h3]; rfl
  | newRange i ys =>
      have hi := view_none hl.1
      refine wp_then (wp_ctorRange h hi hin (by have := hl.2; omega) hsafe
        (fun s' a' h1 h2 h3 => done_new hi h1 ?_) (fun hw s' h1 => ⟨hw, thrown_same h1⟩))
      rw [h2, h3]; rfl
  | newCopy i j =>
      have hi := view_none hl.1
      obtain ⟨y, hy⟩ := hl.2
      obtain ⟨b, hj, e1, e2⟩ := view_some hy
      refine wp_then (wp_ctorCopy h hi hj hin
        (fun hw => (hsafe hw).imp id (fun h => by rw [e1]; exact h y hy))
        (fun s' a' h1 h2 h3 => done_new hi h1 ?_) (fun _ hw s' h1 => ⟨hw, thrown_same h1⟩)
        (fun hn hw => ⟨hw, hn⟩))
      rw [h2, h3]
      simp only [result, hy, Option.map_some, e1]
  | newMove i j =>
      have hi := view_none hl.1
      obtain ⟨y, hy⟩ := hl.2
      obtain ⟨b, hj, e1, e2⟩ := view_some hy
      have hij : i ≠ j := by rintro rfl; rw [hi] at hj; cases hj
      refine wp_then (wp_ctorMove h hi hj hin (fun s' h1 => ?_)
        (fun _ hw s' xs h1 h2 h3 => ⟨hw, thrown_one hj h1 (by simp [changes])⟩))
      refine ⟨rfl, _, h1, ?_, fun hne => absurd rfl (hne i j).1⟩
      rw [view_put, view_put]
      simp only [result, hy, Option.map_some, e1, e2]
  | delete i =>
      obtain ⟨x, hx⟩ := hl
      obtain ⟨a, hi, e1, e2⟩ := view_some hx
      refine wp_then (wp_dtor h hi fun s' h1 => ?_)
      refine ⟨rfl, _, h1, by rw [view_put]; rfl, ?_⟩
      intro _ k b b' hb hb' _
      by_cases hk : k = i
      · subst hk; rw [World.set_same] at hb'; cases hb'
      · rw [World.set_other hk, hb] at hb'; cases hb'; rfl
  | clear i =>
      obtain ⟨x, hx⟩ := hl
      obtain ⟨a, hi, e1, e2⟩ := view_some hx
      exact wp_then (wp_clear h hi fun s' h1 _ => done_one hi h1 rfl rfl (fun _ => rfl))
  | reserve i n =>
      obtain ⟨⟨x, hx⟩, hn⟩ := hl
      obtain ⟨a, hi, e1, e2⟩ := view_some hx
      refine wp_then (wp_reserve h hi (by omega) (fun s' a' h1 h2 h3 h4 => done_one hi h1 rfl ?_ ?_)
        (fun hw s' xs h1 h2 h3 => ⟨hw, thrown_one hi h1 (by simp [changes])⟩))
      · rw [h2, h3]
      · intro hc; rw [h4 (by omega)]
  | pushBack i rv v =>
      obtain ⟨x, hx, hlt⟩ := hl
      obtain ⟨a, hi, e1, e2⟩ := view_some hx
      rw [← e1] at hlt
      refine wp_then (wp_pushBack h hi (fun s' a' h1 h2 h3 h4 => done_one hi h1 rfl ?_ ?_)
        (fun hw s' a' h1 h2 h3 => ⟨hw.resolve_right (by omega), thrown_one hi h1 (by simp [changes])⟩))
      · rw [h2, h3]; rfl
      · intro hc
        refine h4 ?_
        rw [h3] at hc
        by_cases hlt2 : a.xs.length < a.cap
        · exact hlt2
        · rw [if_neg hlt2, growCap] at hc
          have := h.lim hi; have := h.len hi; omega
  | emplaceBack i v =>
      obtain ⟨x, hx, hlt⟩ := hl
      obtain ⟨a, hi, e1, e2⟩ := view_some hx
      rw [← e1] at hlt
      refine wp_then (wp_emplaceBack h hi (fun s' a' h1 h2 h3 h4 => done_one hi h1 rfl ?_ ?_)
        (fun hw s' a' h1 h2 h3 => ⟨hw.resolve_right (by omega), thrown_one hi h1 (by simp [changes])⟩))
      · rw [h2, h3]; rfl
      · intro hc
        refine h4 ?_
        rw [h3] at hc
        by_cases hlt2 : a.xs.length < a.cap
        · exact hlt2
        · rw [if_neg hlt2, growCap] at hc
          have := h.lim hi; have := h.len hi; omega
  | popBack i =>
      obtain ⟨x, hx, hne⟩ := hl
      obtain ⟨a, hi, e1, e2⟩ := view_some hx
      rw [← e1] at hne
      exact wp_then (wp_popBack h hi hne fun s' h1 => done_one hi h1 rfl rfl (fun _ => rfl))
  | insert i idx rv v =>
      obtain ⟨x, hx, hidx, hlt⟩ := hl
      obtain ⟨a, hi, e1, e2⟩ := view_some hx
      rw [← e1] at hlt hidx
      refine wp_thenSome (wp_insertSingle h hi hidx hsafe (fun s' a' h1 h2 h3 h4 => done_one hi h1 rfl ?_ ?_)
        (fun hw s' a' h1 h2 => ⟨hw.resolve_right (by omega), thrown_one hi h1 (by simp [changes])⟩))
      · rw [h2, h3]; rfl
      · intro hc
        refine h4 ?_
        rw [h3] at hc
        by_cases hlt2 : a.xs.length < a.cap
        · exact hlt2
        · rw [if_neg hlt2, growCap] at hc
          have := h.lim hi; have := h.len hi; omega
  | emplace i idx v =>
      obtain ⟨x, hx, hidx, hlt⟩ := hl
      obtain ⟨a, hi, e1, e2⟩ := view_some hx
      rw [← e1] at hlt hidx
      refine wp_thenSome (wp_emplace h hi hidx hsafe (fun s' a' h1 h2 h3 h4 => done_one hi h1 rfl ?_ ?_)
        (fun hw s' a' h1 h2 => ⟨hw.resolve_right (by omega), thrown_one hi h1 (by simp [changes])⟩))
      · rw [h2, h3]; rfl
      · intro hc
        refine h4 ?_
        rw [h3] at hc
        by_cases hlt2 : a.xs.length < a.cap
        · exact hlt2
        · rw [if_neg hlt2, growCap] at hc
          have := h.lim hi; have := h.len hi; omega
  | insertN i idx n v =>
      obtain ⟨x, hx, hidx, hlt⟩ := hl
      obtain ⟨a, hi, e1, e2⟩ := view_some hx
      rw [← e1] at hlt hidx
      refine wp_thenSome (wp_insertN h hi hidx (by omega) hsafe
        (fun s' a' h1 h2 h3 h4 => done_one hi h1 rfl ?_ ?_)
        (fun hw s' xs h1 h2 _ => ⟨hw, thrown_one hi h1 (by simp [changes])⟩))
      · rw [h2, h3]; rfl
      · intro hc; exact h4 (by omega)
  | insertRange i idx ys =>
      obtain ⟨x, hx, hidx, hlt⟩ := hl
      obtain ⟨a, hi, e1, e2⟩ := view_some hx
      rw [← e1] at hlt hidx
      refine wp_thenSome (wp_insertRange h hi hidx (by omega) hsafe
        (fun s' a' h1 h2 h3 h4 => done_one hi h1 rfl ?_ ?_)
        (fun hw s' xs h1 h2 _ => ⟨hw, thrown_one hi h1 (by simp [changes])⟩))
      · rw [h2, h3]; rfl
      · intro hc; exact h4 (by omega)
  | erase i first last =>
      obtain ⟨x, hx, h1, h2⟩ := hl
      obtain ⟨a, hi, e1, e2⟩ := view_some hx
      rw [← e1] at h1 h2
      exact wp_thenSome (wp_erase h hi h1 h2 (fun s' h3 => done_one hi h3 rfl rfl (fun _ => rfl))
        (fun hw s' xs h3 _ => ⟨hw, thrown_one hi h3 (by simp [changes])⟩))
  | resize i n =>
      obtain ⟨⟨x, hx⟩, hn⟩ := hl
      obtain ⟨a, hi, e1, e2⟩ := view_some hx
      refine wp_then (wp_resize h hi (by omega) (fun s' a' h1 h2 h3 h4 => done_one hi h1 rfl ?_ ?_)
        (fun hw s' a' h1 h2 h3 => ⟨hw, thrown_one hi h1 (by simp [changes])⟩))
      · rw [h2, h3]
      · intro hc; exact h4 (by omega)
  | resizeWith i n v =>
      obtain ⟨⟨x, hx⟩, hn⟩ := hl
      obtain ⟨a, hi, e1, e2⟩ := view_some hx
      refine wp_then (wp_resizeWith h hi (by omega) hsafe (fun s' a' h1 h2 h3 h4 => done_one hi h1 rfl ?_ ?_)
        (fun hw s' a' h1 h2 h3 => ⟨hw, thrown_one hi h1 (by simp [changes])⟩))
      · rw [h2, h3]
      · intro hc; exact h4 (by omega)
  | shrinkToFit i =>
      obtain ⟨x, hx⟩ := hl
      obtain ⟨a, hi, e1, e2⟩ := view_some hx
      refine wp_then (wp_shrinkToFit h hi (fun s' a' h1 h2 h3 h4 => done_one hi h1 rfl ?_ ?_)
        (fun hw s' xs h1 h2 h3 => ⟨hw, thrown_one hi h1 (by simp [changes])⟩))
      · rw [h2, h3]
      · intro hc; rw [h4 (by omega)]
  | assignN i n v =>
      obtain ⟨⟨x, hx⟩, hn⟩ := hl
      obtain ⟨a, hi, e1, e2⟩ := view_some hx
      refine wp_then (wp_assignN h hi (by omega) hsafe (fun s' a' h1 h2 h3 h4 => done_one hi h1 rfl ?_ ?_)
        (fun hw s' a' h1 => ⟨hw, thrown_one hi h1 (by simp [changes])⟩))
      · rw [h2, h3]
      · intro hc; exact h4 (by omega)
  | assignRange i ys =>
      obtain ⟨⟨x, hx⟩, hn⟩ := hl
      obtain ⟨a, hi, e1, e2⟩ := view_some hx
      refine wp_then (wp_assignRange h hi (by omega) (fun s' a' h1 h2 h3 h4 => done_one hi h1 rfl ?_ ?_)
        (fun hw s' a' h1 => ⟨hw, thrown_one hi h1 (by simp [changes])⟩))
      · rw [h2, h3]
      · intro hc; exact h4 (by omega)
  | assignInit i ys =>
      obtain ⟨⟨x, hx⟩, hn⟩ := hl
      obtain ⟨a, hi, e1, e2⟩ := view_some hx
      refine wp_then (wp_assignRange h hi (by omega) (fun s' a' h1 h2 h3 h4 => done_one hi h1 rfl ?_ ?_)
        (fun hw s' a' h1 => ⟨hw, thrown_one hi h1 (by simp [changes])⟩))
      · rw [h2, h3]
      · intro hc; exact h4 (by omega)
  | copyAssign i j =>
      obtain ⟨⟨x, hx⟩, ⟨y, hy⟩⟩ := hl
      obtain ⟨a, hi, e1, e2⟩ := view_some hx
      obtain ⟨b, hj, e3, e4⟩ := view_some hy
      refine wp_then (wp_copyAssign h hi hj (fun s' a' h1 h2 h3 h4 => ?_)
        (fun _ hw s' a' h1 => ⟨hw, thrown_one hi h1 (by simp [changes])⟩) (fun hn hw => ⟨hw, hn⟩))
      by_cases hij : i = j
      · subst hij
        rw [hi] at hj; cases hj
        rw [if_pos rfl] at h3
        refine done_one (f := id) hi h1 ?_ (by rw [h2, h3]; rfl) (fun _ => h4 (h.len hi))
        simp only [result, if_true]
        funext k
        simp only [alter]
        split
        · rename_i hk; subst hk; simp
        · rfl
      · rw [if_neg hij] at h3
        refine done_one hi h1 (by simp only [result, if_neg hij]; rfl) ?_ (fun hc => h4 (by omega))
        simp only [hy]
        rw [h2, h3, e3]
  | moveAssign i j =>
      obtain ⟨⟨x, hx⟩, ⟨y, hy⟩⟩ := hl
      obtain ⟨a, hi, e1, e2⟩ := view_some hx
      obtain ⟨b, hj, e3, e4⟩ := view_some hy
      refine wp_then (wp_moveAssign h hi hj hin (fun s' h1 => ?_)
        (fun _ hw s' xs _ h1 h2 h3 => ⟨hw, thrown_two hi hj h1 (by simp [changes]) (by simp [changes])⟩))
      refine ⟨rfl, _, h1, ?_, fun hne => absurd rfl (hne i j).2.1⟩
      simp only [result]
      split
      · rfl
      · rw [view_put, view_put]
        simp only [hy, Option.map_some, e3, e4]
  | swap i j =>
      obtain ⟨⟨x, hx⟩, ⟨y, hy⟩⟩ := hl
      obtain ⟨a, hi, e1, e2⟩ := view_some hx
      obtain ⟨b, hj, e3, e4⟩ := view_some hy
      refine wp_then (wp_swap h hi hj (fun s' h1 => ?_)
        (fun hw s' xs ys h1 h2 h3 => ⟨hw, thrown_two hi hj h1 (by simp [changes]) (by simp [changes])⟩))
      refine ⟨rfl, _, h1, ?_, fun hne => absurd rfl (hne i j).2.2⟩
      rw [view_put, view_put]
      simp only [result, hx, hy, Option.map_some, e1, e2, e3, e4]

end Gul14.SmallVector
