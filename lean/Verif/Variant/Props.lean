import Verif.Variant.Swap

/-! # The variants of a program (C80, C81, C82) -/
namespace Gul14.LM
variable {V σ α β : Type}

/-- The call throws only if an element operation throws. -/
def Quiet (x : LM V σ α) : Prop := ∀ w s n, w.at? = none → ∀ s' n', x w s n ≠ .throw s' n'

theorem quiet_pure (a : α) : Quiet (Pure.pure a : LM V σ α) := by
  intro w s n _ s' n' h; cases h

theorem quiet_error : Quiet (error : LM V σ α) := by
  intro w s n _ s' n' h; cases h

theorem quiet_bind {x : LM V σ α} {f : α → LM V σ β} (hx : Quiet x) (hf : ∀ a, Quiet (f a)) :
    Quiet (x >>= f) := by
  intro w s n hw s' n'
  rw [bind_apply]
  cases h : x w s n with
  | ok a t m => exact hf a w t m hw s' n'
  | throw t m => exact (hx w s n hw _ _ h).elim
  | terminate => simp
  | ub => simp

theorem quiet_onThrow {x : LM V σ α} (hx : Quiet x) (h : LM V σ Unit) : Quiet (onThrow x h) := by
  intro w s n hw s' n'
  unfold onThrow
  cases h : x w s n with
  | throw t m => exact (hx w s n hw _ _ h).elim
  | _ => simp

theorem quiet_noexcept (x : LM V σ α) : Quiet (noexcept x) := by
  intro w s n hw s' n'
  unfold noexcept
  cases h : x w s n <;> simp

theorem quiet_elemIf (b : Bool) (g : σ → σ) (h : V → σ → σ) : Quiet (elemIf b g h) := by
  intro w s n hw s' n'
  cases b <;> simp [elemIf, elem, hw]

theorem quiet_ite {p : Prop} [Decidable p] {x y : LM V σ α} (hx : Quiet x) (hy : Quiet y) :
    Quiet (if p then x else y) := by
  split <;> assumption

end Gul14.LM

namespace Gul14.Var
open Spec.Vari LM

variable {V : Type}

theorem quiet_get (l : Loc) : Quiet (get l : M V (Obj V)) := by
  intro w s n hw s' n'; unfold get; split <;> simp
theorem quiet_put (l : Loc) (o : Obj V) : Quiet (put l o) := by
  intro w s n hw s' n'; simp [put]
theorem quiet_create (l : Loc) (o : Obj V) : Quiet (create l o) := by
  intro w s n hw s' n'; unfold create; split <;> simp
theorem quiet_release (l : Loc) : Quiet (release l : M V Unit) := by
  intro w s n hw s' n'; unfold release; split <;> simp

macro "quiet" : tactic =>
  `(tactic| repeat' (first
    | assumption | apply quiet_get | apply quiet_put | apply quiet_create | apply quiet_release
    | apply quiet_pure | apply quiet_error | apply quiet_noexcept | apply quiet_elemIf
    | refine quiet_bind ?_ (fun _ => ?_) | apply quiet_onThrow | apply quiet_ite | split))

variable (c : Cfg) (mv : V → V)

theorem quiet_setIndex (l : Loc) (i : Nat) : Quiet (setIndex c l i : M V Unit) := by
  unfold setIndex; quiet
theorem quiet_visitAt (i : Nat) : Quiet (visitAt c i : M V Nat) := by unfold visitAt; quiet
theorem quiet_readAlt (l : Loc) (i : Nat) : Quiet (readAlt l i : M V V) := by unfold readAlt; quiet
theorem quiet_fresh (l : Loc) : Quiet (fresh l : M V Unit) := by unfold fresh; quiet
theorem quiet_destroy (l : Loc) : Quiet (destroy c l : M V Unit) := by
  have h1 := fun i => quiet_visitAt (V := V) c i
  have h2 := fun l i => quiet_readAlt (V := V) l i
  unfold destroy; quiet <;> first | apply h1 | apply h2
theorem quiet_constructAlt (l : Loc) (i : Nat) (src : Src V) : Quiet (constructAlt c mv l i src) := by
  have h1 := fun l => quiet_fresh (V := V) l
  have h2 := fun l i => quiet_readAlt (V := V) l i
  cases src <;> unfold constructAlt <;> simp only <;> quiet <;> first | apply h1 | apply h2
theorem quiet_genericConstruct (m : Bool) (l r : Loc) : Quiet (genericConstruct c mv m l r) := by
  have h1 := fun i => quiet_visitAt (V := V) c i
  have h2 := fun l => quiet_destroy (V := V) c l
  have h3 := fun l i src => quiet_constructAlt (V := V) c mv l i src
  have h4 := fun l i => quiet_setIndex (V := V) c l i
  unfold genericConstruct
  refine quiet_bind (h2 _) fun _ => quiet_bind (quiet_get _) fun o => ?_
  exact quiet_ite (quiet_pure _) (quiet_bind (h1 _) fun i => quiet_bind (h3 _ _ _) fun _ =>
    quiet_bind (quiet_get _) fun _ => h4 _ _)
theorem quiet_dtor (l : Loc) : Quiet (dtor c l : M V Unit) := by
  have h2 := fun l => quiet_destroy (V := V) c l
  unfold dtor; quiet; apply h2
theorem quiet_ctorBody (m : Bool) (l r : Loc) : Quiet (ctorBody c mv m l r) :=
  quiet_bind (quiet_create _ _) fun _ => quiet_onThrow (quiet_genericConstruct c mv m l r) _
theorem quiet_ctorMove (l r : Loc) : Quiet (ctorMove c mv l r) := by
  have h := quiet_ctorBody c mv true l r
  unfold ctorMove; quiet
theorem quiet_emplace (l : Loc) (i : Nat) (src : Src V) : Quiet (emplace c mv l i src) :=
  quiet_bind (quiet_destroy c l) fun _ => quiet_bind (quiet_constructAlt c mv l i src) fun _ =>
    quiet_setIndex c l i
theorem quiet_temporary (i : Nat) (src : Src V) : Quiet (temporary c mv i src) := by
  have h2 := fun l i => quiet_readAlt (V := V) l i
  cases src <;> unfold temporary <;> simp only <;> quiet <;> apply h2
theorem quiet_assignValue (l : Loc) (i : Nat) (src : Src V) : Quiet (assignValue c mv l i src) := by
  have h2 := fun l i => quiet_readAlt (V := V) l i
  cases src <;> unfold assignValue <;> simp only <;> quiet <;> apply h2
theorem quiet_assignAlt (l : Loc) (i : Nat) (src : Src V) : Quiet (assignAlt c mv l i src) :=
  quiet_bind (quiet_get _) fun _ => quiet_ite (quiet_assignValue c mv l i src)
    (quiet_ite (quiet_emplace c mv l i src) (quiet_bind (quiet_temporary c mv i src) fun _ =>
      quiet_emplace c mv l i _))
theorem quiet_genericAssign (m : Bool) (l r : Loc) : Quiet (genericAssign c mv m l r) :=
  quiet_bind (quiet_get _) fun _ => quiet_bind (quiet_get _) fun _ => quiet_ite (quiet_pure _)
    (quiet_ite (quiet_destroy c l) (quiet_bind (quiet_visitAt c _) fun _ =>
      quiet_assignAlt c mv l _ _))
theorem quiet_moveNothrow (l : Loc) : Quiet (moveNothrow c l : M V Bool) := by
  unfold moveNothrow; quiet
theorem quiet_swapTmp (l r : Loc) : Quiet (swapTmp c mv l r) :=
  quiet_bind (quiet_ctorMove c mv _ _) fun _ => quiet_bind
    (quiet_onThrow (quiet_bind (quiet_onThrow (quiet_genericConstruct c mv _ _ _) _) fun _ =>
      quiet_genericConstruct c mv _ _ _) _) fun _ => quiet_dtor c _
theorem quiet_swapBody (l r : Loc) : Quiet (swapBody c mv l r) :=
  quiet_bind (quiet_get _) fun _ => quiet_bind (quiet_get _) fun _ => quiet_ite (quiet_pure _)
    (quiet_ite (quiet_bind (quiet_visitAt c _) fun _ => quiet_bind (quiet_readAlt _ _) fun _ =>
        quiet_bind (quiet_readAlt _ _) fun _ => quiet_elemIf _ _ _)
      (quiet_bind (quiet_moveNothrow c _) fun _ => quiet_bind (quiet_moveNothrow c _) fun _ =>
        quiet_ite (quiet_swapTmp c mv _ _) (quiet_swapTmp c mv _ _)))

theorem quiet_exec (op : Op V) : Quiet (exec c mv op) := by
  cases op <;> simp only [exec, ctorAt, ctorCopy, assignCopy, assignMove, assignVal, emplaceVal,
    swap]
  case ctorAt => quiet
  case ctorCopy k j => have h := quiet_ctorBody c mv false (.obj k) (.obj j); quiet
  case ctorMove => apply quiet_ctorMove
  case dtor => apply quiet_dtor
  case assignCopy k j => have h := quiet_genericAssign c mv false (.obj k) (.obj j); quiet
  case assignMove k j => have h := quiet_genericAssign c mv true (.obj k) (.obj j); quiet
  case assignVal k i v nt nta =>
    have h := quiet_assignAlt c mv (.obj k) i (.val v nt nta); quiet
  case emplace => apply quiet_emplace
  case swap k j => have h := quiet_swapBody c mv (.obj k) (.obj j); quiet

/-! ## Histories -/

/-- A history: every operation comes with the element operation that throws in it, if any. -/
abbrev History (V : Type) := List (Op V × Fail V)

inductive Final (σ : Type) where
  | running (s : σ)
  | terminated
  | ub

/-- Runs a history; the program catches the exceptions. -/
def runAll : Store V → History V → Final (Store V)
  | s, [] => .running s
  | s, (op, f) :: h =>
    match exec c mv op f s 0 with
    | .ok _ s' _ => runAll s' h
    | .throw s' _ => runAll s' h
    | .terminate => .terminated
    | .ub => .ub

end Gul14.Var

namespace Gul14.Spec.Vari
open Var (Op Cfg History)
variable {V : Type}

/-- The contents that the specification allows after a history. -/
inductive Reaches (c : Cfg) (mv : V → V) : Contents V → History V → Contents V → Prop where
  | nil (a) : Reaches c mv a [] a
  | done (a op f h a') : Reaches c mv (effect mv a op) h a' → Reaches c mv a ((op, f) :: h) a'
  | thrown (a b op f h a') : f.at? ≠ none → Thrown c a b op → Reaches c mv b h a' →
      Reaches c mv a ((op, f) :: h) a'

/-- The history uses objects that exist at the time and operations that the types offer. -/
def LegalHistory (c : Cfg) (mv : V → V) : Contents V → History V → Prop
  | _, [] => True
  | a, (op, f) :: h => Legal c a op ∧ LegalHistory c mv (effect mv a op) h ∧
      ∀ b, f.at? ≠ none → Thrown c a b op → LegalHistory c mv b h

end Gul14.Spec.Vari

namespace Gul14.Var
open Spec.Vari LM
variable {V : Type} {c : Cfg} {mv : V → V}

/-- The index tells which alternative of the variant is alive; it is variant_npos, and the variant
valueless, if and only if none is. -/
def Consistent (c : Cfg) (o : Obj V) : Prop :=
  match o.mem with
  | some (i, _) => i < c.length ∧ index c o = i ∧ valueless c o = false ∧ i ≠ npos
  | none => index c o = npos ∧ valueless c o = true

theorem run_all (h : WellFormed c mv) (hist : History V) : ∀ s : Store V, Inv c s →
    LegalHistory c mv (abs s) hist →
    ∃ s', runAll c mv s hist = .running s' ∧ Inv c s' ∧ Reaches c mv (abs s) hist (abs s') := by
  induction hist with
  | nil => intro s hs _; exact ⟨s, rfl, hs, .nil _⟩
  | cons x hist ih =>
    obtain ⟨op, f⟩ := x
    intro s hs hl
    have hm := meets (w := f) h hs op hl.1 0
    unfold runAll
    cases he : exec c mv op f s 0 with
    | ok a s' n =>
      rw [he] at hm
      obtain ⟨h1, h2⟩ := hm
      obtain ⟨s'', h3, h4, h5⟩ := ih s' h1 (by rw [h2]; exact hl.2.1)
      exact ⟨s'', h3, h4, .done _ _ _ _ _ (by rw [← h2]; exact h5)⟩
    | throw s' n =>
      rw [he] at hm
      obtain ⟨h1, h2⟩ := hm
      have hf : f.at? ≠ none := fun h0 => quiet_exec c mv op f s 0 h0 _ _ he
      obtain ⟨s'', h3, h4, h5⟩ := ih s' h1 (hl.2.2 _ hf h2)
      exact ⟨s'', h3, h4, .thrown _ _ _ _ _ _ hf h2 h5⟩
    | terminate => rw [he] at hm; exact hm.elim
    | ub => rw [he] at hm; exact hm.elim

/-- Every history of constructions, copies, moves, assignments, emplace, swap and destruction of
variants, for all alternatives with whatever combination of trivial and noexcept operations, and
whichever element operations throw: no undefined behaviour (no alternative is read or destroyed that
is not alive, none is lost without destruction), the program is not ended by an exception, the
contents are those of the specification, and in every variant index() is the number of the one
alternative that is alive, and variant_npos if and only if none is alive and
valueless_by_exception(). -/
theorem c80_history (h : WellFormed c mv) (hist : History V)
    (hl : LegalHistory c mv (fun _ => none) hist) :
    ∃ s', runAll c mv (fun _ => none) hist = .running s' ∧
      Reaches c mv (fun _ => none) hist (fun k => (s' (.obj k)).map Obj.mem) ∧
      s' .tmp = none ∧
      ∀ k o, s' (.obj k) = some o → Consistent c o := by
  obtain ⟨s', h1, h2, h3⟩ := run_all h hist (fun _ => none)
    ⟨rfl, fun k o ho => by cases ho⟩ hl
  refine ⟨s', h1, h3, h2.tmp, ?_⟩
  intro k o ho
  obtain ⟨x, hx, rfl⟩ := h2.obj k o ho
  unfold Consistent
  rw [mk_mem]
  cases x with
  | none => exact ⟨index_none, valueless_none⟩
  | some p =>
    obtain ⟨i, v⟩ := p
    have hi : i < c.length := hx _ rfl
    exact ⟨hi, index_some h hi v, valueless_some h hi v, (index_bound h.bound hi).2.2⟩

/-- After a history in which no element operation throws, no variant is valueless. -/
theorem c80_never_valueless (h : WellFormed c mv) (hist : History V)
    (hn : ∀ x ∈ hist, x.2.at? = none) (hl : LegalHistory c mv (fun _ => none) hist) :
    ∃ s', runAll c mv (fun _ => none) hist = .running s' ∧
      ∀ k o, s' (.obj k) = some o → valueless c o = false := by
  have key : ∀ (hist : History V), (∀ x ∈ hist, x.2.at? = none) → ∀ (a a' : Contents V),
      LegalHistory c mv a hist → (∀ k, a k ≠ some none) → Reaches c mv a hist a' →
      ∀ k, a' k ≠ some none := by
    intro hist hn a a' hl ha hr
    induction hr with
    | nil => exact ha
    | done a op f hist a' _ ih =>
      apply ih (fun x hx => hn x (by simp [hx])) hl.2.1
      have hlg := hl.1
      intro k
      have hset : ∀ (b : Contents V) (j : Nat) (x : Option (Content V)), (∀ k, b k ≠ some none) →
          x ≠ some none → ∀ k, (b.set j x) k ≠ some none := by
        intro b j x hb hx k
        unfold Contents.set
        split
        · exact hx
        · exact hb k
      have hmv : ∀ x : Option (Content V), x ≠ some none → movedFrom mv x ≠ some none := by
        intro x hx
        match x, hx with
        | some (some (i, v)), _ => simp [movedFrom]
        | none, _ => simp [movedFrom]
      cases op <;> simp only [effect]
      case ctorAt => exact hset _ _ _ ha (by simp) k
      case ctorCopy j => exact hset _ _ _ ha (ha _) k
      case ctorMove j => exact hset _ _ _ (hset _ _ _ ha (ha _)) (hmv _ (ha _)) k
      case dtor => exact hset _ _ _ ha (by simp) k
      case assignCopy j => exact hset _ _ _ ha (ha _) k
      case assignMove j => exact hset _ _ _ (hset _ _ _ ha (ha _)) (hmv _ (ha _)) k
      case assignVal => exact hset _ _ _ ha (by simp) k
      case emplace => exact hset _ _ _ ha (by simp) k
      case swap j => exact hset _ _ _ (hset _ _ _ ha (ha _)) (ha _) k
    | thrown a b op f hist a' hf _ _ _ => exact (hf (hn (op, f) (by simp))).elim
  obtain ⟨s', h1, h2, h3⟩ := run_all h hist (fun _ => none)
    ⟨rfl, fun k o ho => by cases ho⟩ hl
  refine ⟨s', h1, ?_⟩
  intro k o ho
  have h4 := key hist hn _ _ hl (by intro k h; cases h) h3 k
  obtain ⟨x, hx, rfl⟩ := h2.obj k o ho
  cases x with
  | none => exact (h4 (by simp [abs, ho, mk])).elim
  | some p =>
    obtain ⟨i, v⟩ := p
    exact valueless_some h (hx _ rfl) v

end Gul14.Var
