import Verif.Basic

/-!
# Lifetime of ConvertingStringView objects (cat.h)

A `ConvertingStringView` holds a `std::string str_` and a `string_view sv_`.  For string-like
arguments `sv_` points into storage of the caller, for characters and numbers it points into the
object's own `str_`.  The copy constructor is the implicit one, which copies both members.
-/
namespace Gul14.CatObjects

/-- Where `sv_` (cat.h:82) points: storage of the caller with the given content (assumed to
outlive all objects), or the buffer of the member `str_` of an object. -/
inductive View where
  | ext (s : Str)
  | buf (obj : Nat)
  deriving DecidableEq

/-- A ConvertingStringView object, cat.h:48-83. -/
structure Obj where
  alive : Bool
  str : Str
  view : View
  deriving DecidableEq

/-- All objects in the order of their construction. The objects of class ConvertingStringView,
cat.h:48-80. -/
abbrev World := List Obj

/-- The constructors and the destructor of ConvertingStringView, cat.h:48-80. -/
inductive Op where
  /-- Construction from std::string, string_view or const char*, cat.h:51-53. -/
  | mkText (s : Str)
  /-- Construction from a character or number, cat.h:55-63; `s` is its rendering. -/
  | mkOwned (s : Str)
  /-- Copy construction from the `i`-th object (implicit). -/
  | copy (i : Nat)
  /-- End of the lifetime of the `i`-th object (implicit destructor). -/
  | destroy (i : Nat)
  deriving DecidableEq

/-- One operation. Using an object that does not exist (any more) is undefined behaviour. Assignment and
move construction are not modelled. cat.h:48-80. -/
def step (w : World) : Op → Res World
  | .mkText s => .ok (w ++ [⟨true, [], .ext s⟩])
  | .mkOwned s => .ok (w ++ [⟨true, s, .buf w.length⟩])
  | .copy i =>
      match w[i]? with
      | some o => if o.alive then .ok (w ++ [⟨true, o.str, o.view⟩]) else .ub
      | none => .ub
  | .destroy i =>
      match w[i]? with
      | some o => if o.alive then .ok (w.set i { o with alive := false }) else .ub
      | none => .ub

/-- cat.h:48-80. -/
def run : World → List Op → Res World
  | w, [] => .ok w
  | w, op :: ops => (step w op).bind fun w => run w ops

/-- operator std::string, cat.h:78: reads the characters behind `sv_`; undefined if the buffer
belongs to a destroyed object. -/
def showObj (w : World) (i : Nat) : Res Str :=
  match w[i]? with
  | some o =>
      if o.alive then
        match o.view with
        | .ext s => .ok s
        | .buf j =>
            match w[j]? with
            | some p => if p.alive then .ok p.str else .ub
            | none => .ub
      else .ub
  | none => .ub

end Gul14.CatObjects

namespace Gul14.Spec
open CatObjects

/-- What a user expects: for each object in the order of construction the text it stands for, and
the object that owns the characters, if any. -/
def meaning : List (Str × Option Nat) → List Op → List (Str × Option Nat)
  | m, [] => m
  | m, .mkText s :: ops => meaning (m ++ [(s, none)]) ops
  | m, .mkOwned s :: ops => meaning (m ++ [(s, some m.length)]) ops
  | m, .copy i :: ops => meaning (m ++ (m[i]?).toList) ops
  | m, .destroy _ :: ops => meaning m ops

end Gul14.Spec

namespace Gul14.CatObjects
open Spec

/-- The invariant that ties objects to their meaning. -/
structure Inv (w : World) (m : List (Str × Option Nat)) : Prop where
  len : w.length = m.length
  ext : ∀ (i : Nat) (s : Str), m[i]? = some (s, none) → ∃ o : Obj, w[i]? = some o ∧ o.view = .ext s
  buf : ∀ (i : Nat) (s : Str) (j : Nat), m[i]? = some (s, some j) →
    ∃ o p : Obj, w[i]? = some o ∧ o.view = .buf j ∧ w[j]? = some p ∧ p.str = s

/-- Objects destroyed by a list of operations. -/
def destroyed (ops : List Op) (i : Nat) : Bool := ops.contains (.destroy i)

theorem inv_append {w : World} {m : List (Str × Option Nat)} {o : Obj} {s : Str}
    {r : Option Nat} (h : Inv w m)
    (hr : (r = none ∧ o.view = .ext s) ∨
      (∃ j, r = some j ∧ o.view = .buf j ∧ ∃ p : Obj, (w ++ [o])[j]? = some p ∧ p.str = s)) :
    Inv (w ++ [o]) (m ++ [(s, r)]) := by
  have up : ∀ (i : Nat) (p : Obj), w[i]? = some p → (w ++ [o])[i]? = some p := by
    intro i p hp
    rw [List.getElem?_append_left (List.getElem?_eq_some_iff.1 hp).1]
    exact hp
  have split : ∀ (i : Nat) (x : Str × Option Nat), (m ++ [(s, r)])[i]? = some x →
      m[i]? = some x ∨ (i = w.length ∧ x = (s, r)) := by
    intro i x hx
    by_cases hi : i < m.length
    · rw [List.getElem?_append_left hi] at hx; exact .inl hx
    · rw [List.getElem?_append_right (by omega)] at hx
      right
      have := (List.getElem?_eq_some_iff.1 hx).1
      simp at this
      have hi' : i - m.length = 0 := by omega
      rw [hi'] at hx
      simp at hx
      exact ⟨by have := h.len; omega, hx.symm⟩
  constructor
  · simp [h.len]
  · intro i t hi
    rcases split i _ hi with hi | ⟨rfl, hx⟩
    · obtain ⟨o', h1, h2⟩ := h.ext i t hi
      exact ⟨o', up _ _ h1, h2⟩
    · simp at hx
      obtain ⟨rfl, rfl⟩ := hx
      rcases hr with ⟨-, hv⟩ | ⟨j, hj, -⟩
      · exact ⟨o, by simp, hv⟩
      · exact absurd hj (by simp)
  · intro i t j hi
    rcases split i _ hi with hi | ⟨rfl, hx⟩
    · obtain ⟨o', p, h1, h2, h3, h4⟩ := h.buf i t j hi
      exact ⟨o', p, up _ _ h1, h2, up _ _ h3, h4⟩
    · simp at hx
      obtain ⟨rfl, rfl⟩ := hx
      rcases hr with ⟨hj, -⟩ | ⟨j', hj, hv, p, hp, hps⟩
      · exact absurd hj (by simp)
      · cases hj
        exact ⟨o, p, by simp, hv, hp, hps⟩

theorem inv_kill {w : World} {m : List (Str × Option Nat)} {i : Nat} {o : Obj} (h : Inv w m) (ho : w[i]? = some o) :
    Inv (w.set i { o with alive := false }) m := by
  have up : ∀ (j : Nat) (p : Obj), w[j]? = some p → ∃ q : Obj, (w.set i { o with alive := false })[j]? = some q ∧
      q.str = p.str ∧ q.view = p.view := by
    intro j p hp
    by_cases hij : i = j
    · subst hij
      rw [ho] at hp; cases hp
      refine ⟨_, List.getElem?_set_self (List.getElem?_eq_some_iff.1 ho).1, rfl, rfl⟩
    · exact ⟨p, by rw [List.getElem?_set_ne hij, hp], rfl, rfl⟩
  constructor
  · simp [h.len]
  · intro j s hj
    obtain ⟨p, h1, h2⟩ := h.ext j s hj
    obtain ⟨q, k1, -, k3⟩ := up _ _ h1
    exact ⟨q, k1, k3.trans h2⟩
  · intro j s r hj
    obtain ⟨p, p', h1, h2, h3, h4⟩ := h.buf j s r hj
    obtain ⟨q, k1, -, k3⟩ := up _ _ h1
    obtain ⟨q', l1, l2, -⟩ := up _ _ h3
    exact ⟨q, q', k1, k3.trans h2, l1, l2.trans h4⟩

theorem inv_run (ops : List Op) : ∀ (w : World) (m : List (Str × Option Nat)) (w' : World), Inv w m → run w ops = .ok w' →
    Inv w' (meaning m ops) := by
  induction ops with
  | nil => intro w m w' h hr; simp [run] at hr; subst hr; exact h
  | cons op ops ih =>
    intro w m w' h hr
    cases op with
    | mkText s =>
      simp only [run, step, Res.bind_ok] at hr
      exact ih _ _ _ (inv_append h (.inl ⟨rfl, rfl⟩)) hr
    | mkOwned s =>
      simp only [run, step, Res.bind_ok] at hr
      refine ih _ _ _ (inv_append h (.inr ⟨m.length, rfl, by rw [h.len], ?_⟩)) hr
      exact ⟨_, by rw [← h.len]; exact List.getElem?_concat_length, rfl⟩
    | copy i =>
      simp only [run, step] at hr
      cases ho : w[i]? with
      | none => rw [ho] at hr; simp at hr
      | some o =>
        rw [ho] at hr
        simp only at hr
        split at hr
        · simp only [Res.bind_ok] at hr
          have hi : i < m.length := by
            rw [← h.len]; exact (List.getElem?_eq_some_iff.1 ho).1
          have hm : m[i]? = some m[i] := List.getElem?_eq_getElem hi
          simp only [meaning, hm, Option.toList_some]
          refine ih _ _ _ ?_ hr
          obtain ⟨⟨s, r⟩, hx⟩ : ∃ x, m[i] = x := ⟨_, rfl⟩
          rw [hx]
          rw [hx] at hm
          cases r with
          | none =>
            obtain ⟨o', h1, h2⟩ := h.ext i s hm
            rw [ho] at h1; cases h1
            exact inv_append h (.inl ⟨rfl, h2⟩)
          | some j =>
            obtain ⟨o', p, h1, h2, h3, h4⟩ := h.buf i s j hm
            rw [ho] at h1; cases h1
            refine inv_append h (.inr ⟨j, rfl, h2, p, ?_, h4⟩)
            rw [List.getElem?_append_left (List.getElem?_eq_some_iff.1 h3).1]
            exact h3
        · simp at hr
    | destroy i =>
      simp only [run, step] at hr
      cases ho : w[i]? with
      | none => rw [ho] at hr; simp at hr
      | some o =>
        rw [ho] at hr
        simp only at hr
        split at hr
        · simp only [Res.bind_ok] at hr
          exact ih _ _ _ (inv_kill h ho) hr
        · simp at hr

theorem alive_run (ops : List Op) : ∀ w w' : World, run w ops = .ok w' →
    (∀ (i : Nat) (o : Obj), w'[i]? = some o → (∃ p : Obj, w[i]? = some p ∧ p.alive = false) → o.alive = false) ∧
    (∀ (i : Nat) (o : Obj), w'[i]? = some o → (∀ p : Obj, w[i]? = some p → p.alive = true) →
      (o.alive = false ↔ destroyed ops i = true)) := by
  induction ops with
  | nil =>
    intro w w' hr
    simp [run] at hr
    subst hr
    refine ⟨?_, ?_⟩
    · rintro i o ho ⟨p, hp, ha⟩; rw [ho] at hp; cases hp; exact ha
    · intro i o ho h; simp [destroyed, h o ho]
  | cons op ops ih =>
    intro w w' hr
    have app : ∀ o : Obj, o.alive = true → run (w ++ [o]) ops = .ok w' →
        (∀ i, destroyed (op :: ops) i = destroyed ops i) →
        (∀ (i : Nat) (o : Obj), w'[i]? = some o → (∃ p : Obj, w[i]? = some p ∧ p.alive = false) → o.alive = false) ∧
        (∀ (i : Nat) (o : Obj), w'[i]? = some o → (∀ p : Obj, w[i]? = some p → p.alive = true) →
          (o.alive = false ↔ destroyed (op :: ops) i = true)) := by
      intro o ho hr hd
      obtain ⟨h1, h2⟩ := ih _ _ hr
      refine ⟨?_, ?_⟩
      · rintro i q hq ⟨p, hp, ha⟩
        refine h1 i q hq ⟨p, ?_, ha⟩
        rw [List.getElem?_append_left (List.getElem?_eq_some_iff.1 hp).1]; exact hp
      · intro i q hq h
        rw [hd]
        refine h2 i q hq ?_
        intro p hp
        by_cases hi : i < w.length
        · rw [List.getElem?_append_left hi] at hp; exact h p hp
        · rw [List.getElem?_append_right (by omega)] at hp
          have := List.mem_of_getElem? hp
          simp at this
          rw [this]; exact ho
    cases op with
    | mkText s =>
      simp only [run, step, Res.bind_ok] at hr
      exact app _ rfl hr (by simp [destroyed])
    | mkOwned s =>
      simp only [run, step, Res.bind_ok] at hr
      exact app _ rfl hr (by simp [destroyed])
    | copy i =>
      simp only [run, step] at hr
      cases ho : w[i]? with
      | none => rw [ho] at hr; simp at hr
      | some o =>
        rw [ho] at hr
        simp only at hr
        split at hr
        · simp only [Res.bind_ok] at hr
          exact app _ rfl hr (by simp [destroyed])
        · simp at hr
    | destroy i =>
      simp only [run, step] at hr
      cases ho : w[i]? with
      | none => rw [ho] at hr; simp at hr
      | some o =>
        rw [ho] at hr
        simp only at hr
        split at hr
        · simp only [Res.bind_ok] at hr
          obtain ⟨h1, h2⟩ := ih _ _ hr
          have hlt := (List.getElem?_eq_some_iff.1 ho).1
          refine ⟨?_, ?_⟩
          · rintro j q hq ⟨p, hp, ha⟩
            by_cases hij : i = j
            · subst hij
              exact h1 i q hq ⟨_, List.getElem?_set_self hlt, rfl⟩
            · exact h1 j q hq ⟨p, by rw [List.getElem?_set_ne hij, hp], ha⟩
          · intro j q hq h
            by_cases hij : i = j
            · subst hij
              have := h1 i q hq ⟨_, List.getElem?_set_self hlt, rfl⟩
              simp [this, destroyed]
            · have e : destroyed (.destroy i :: ops) j = destroyed ops j := by
                simp [destroyed, Ne.symm hij]
              rw [e]
              refine h2 j q hq ?_
              intro p hp
              rw [List.getElem?_set_ne hij] at hp
              exact h p hp
        · simp at hr

/-- What an object shows after any history of constructions, copies and destructions: an object
that goes back to a string argument always shows its text; one that goes back to a character or
number shows it exactly as long as the object that was constructed from the number lives. -/
theorem c65_shows_partial (ops : List Op) (w : World) (h : run [] ops = .ok w) (i : Nat)
    (hi : destroyed ops i = false) (s : Str) (r : Option Nat)
    (hm : (meaning [] ops)[i]? = some (s, r)) :
    showObj w i = match r with
      | none => .ok s
      | some j => if destroyed ops j then .ub else .ok s := by
  have inv := inv_run ops [] [] w ⟨rfl, by simp, by simp⟩ h
  obtain ⟨-, al⟩ := alive_run ops [] w h
  have live : ∀ (j : Nat) (o : Obj), w[j]? = some o → (o.alive = false ↔ destroyed ops j = true) :=
    fun j o ho => al j o ho (by simp)
  have ht : ∀ (j : Nat) (o : Obj), w[j]? = some o → o.alive = !destroyed ops j := by
    intro j o ho
    have := live j o ho
    cases h1 : o.alive <;> cases h2 : destroyed ops j <;> simp_all
  cases r with
  | none =>
    obtain ⟨o, h1, h2⟩ := inv.ext i s hm
    simp [showObj, h1, ht i o h1, hi, h2]
  | some j =>
    obtain ⟨o, p, h1, h2, h3, h4⟩ := inv.buf i s j hm
    simp only [showObj, h1, ht i o h1, hi, h2, h3, ht j p h3, h4]
    cases destroyed ops j <;> simp

/-- The claim is false: a copy of an object made from a number refers to the characters of the
original, so that using it after the original is gone is undefined behaviour. -/
theorem c65_copy_violated :
    ∃ w, run [] [.mkOwned (bytes "42"), .copy 0, .destroy 0] = .ok w ∧
      (∃ o, w[1]? = some o ∧ o.alive = true) ∧ showObj w 1 = .ub :=
  ⟨_, rfl, ⟨_, rfl, rfl⟩, rfl⟩

/-- A history in which the copy is used while the original lives, and one with a string. -/
example : (run [] [.mkOwned (bytes "42"), .copy 0, .copy 1, .destroy 1]).bind (showObj · 2) =
      .ok (bytes "42") ∧
    (run [] [.mkText (bytes "ab"), .copy 0, .destroy 0]).bind (showObj · 1) =
      .ok (bytes "ab") := by decide

end Gul14.CatObjects
