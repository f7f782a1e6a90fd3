import Verif.ThreadPool.Live

/-! # Concrete executions

`play` computes an execution from a list of moves; `play_run` says that it is an execution of the transition
system.  With it concrete executions are constructed: examples for the hypotheses of the theorems, and
counterexamples. -/
namespace Gul14.Pool
open Spec.Pool

/-- One move for each kind of step. -/
inductive Move where
  | tick (t : Int)
  | begin (c : Who) (ptr : Bool) (op : Op)
  | body (c : Who)
  | fail (c : Who)
  | notifyOne (c : Who) (w : Nat)
  | notifyNone (c : Who)
  | handleCancel (c : Who) (id : Nat)
  | handleLock (c : Who)
  | handleState (c : Who) (id : Nat)
  | handleCheck (c : Who)
  | handleComplete (c : Who) (id : Nat)
  | handleResult (c : Who) (id : Nat)
  | worker (w : Nat)
  | finish (w : Nat) (o : Outcome)
  | timeout (w : Nat)
  | release (c : Who)
  | dtor (c : Who)

def canCallB (cfg : Cfg) (s : St) : Who → Bool
  | .ext _ => true
  | .task w => decide (w < cfg.threads) && (match s.wpc w with | .exec _ => true | _ => false)

theorem canCall_of {cfg : Cfg} {s : St} {c : Who} (h : canCallB cfg s c = true) : canCall cfg s c := by
  cases c with
  | ext k => trivial
  | task w =>
      simp only [canCallB, Bool.and_eq_true, decide_eq_true_eq] at h
      refine ⟨h.1, ?_⟩
      have h2 := h.2
      cases hp : s.wpc w with
      | exec id => exact ⟨id, rfl⟩
      | _ => rw [hp] at h2; cases h2

def guard (b : Bool) (x : Ev × St) : Option (Ev × St) := if b then some x else none

theorem guard_some {b : Bool} {x y : Ev × St} (h : guard b x = some y) : b = true ∧ y = x := by
  unfold guard at h
  split at h
  · exact ⟨by assumption, (Option.some.inj h).symm⟩
  · cases h

def isExt : Who → Bool
  | .ext _ => true
  | _ => false

/-- The result of a move, if it is possible.  Only callers in `L` are in a call. -/
def exec (cfg : Cfg) (L : List Who) (s : St) : Move → Option (Ev × St)
  | .tick t => some (.tick t, { s with clock := t })
  | .begin c ptr op =>
      guard (decide (c ∈ L) && decide (s.cpc c = .idle) && canCallB cfg s c && !op.handle && (ptr || !isExt c) && (!ptr || !s.dying))
        (.begin c op, s.setC c (.call ptr op))
  | .body c => match s.cpc c with
      | .call ptr op => guard (decide (s.owner = none)) (section_ cfg s c ptr op)
      | _ => none
  | .fail c => match s.cpc c with
      | .call _ op => guard (decide (s.owner = none) && op.allocates) (.failed c op, s.setC c .idle)
      | _ => none
  | .notifyOne c w => match s.cpc c with
      | .notify _ _ => guard (decide (w < cfg.threads) && isSleep (s.wpc w)) (.internal, (s.setW w .want).setC c .idle)
      | _ => none
  | .notifyNone c => match s.cpc c with
      | .notify _ _ => guard ((List.range cfg.threads).all fun w => !isSleep (s.wpc w)) (.internal, s.setC c .idle)
      | _ => none
  | .handleCancel c id =>
      guard (decide (c ∈ L) && s.handle id && decide (s.cpc c = .idle) && canCallB cfg s c)
        (.emptied c id, { s with valid := fun k => if k = id then false else s.valid k }.setC c (.cancelLock id))
  | .handleLock c => match s.cpc c with
      | .cancelLock id => if s.dying then some (.expired c, s.setC c .idle) else some (.internal, s.setC c (.call true (.cancel id)))
      | .stateLock id => if s.dying then some (.expired c, s.setC c .idle) else some (.internal, s.setC c (.call true (.state id)))
      | _ => none
  | .handleState c id =>
      guard (decide (c ∈ L) && s.handle id && decide (s.cpc c = .idle) && canCallB cfg s c)
        (.begin c (.state id), s.setC c (.stateLock id))
  | .handleCheck c => match s.cpc c with
      | .check id => some (.answer c (.state id) (.state (if isComplete s id then .complete else .canceled)), s.setC c .idle)
      | _ => none
  | .handleComplete c id =>
      guard (s.handle id && decide (s.cpc c = .idle) && canCallB cfg s c) (.complete c id (isComplete s id), s)
  | .handleResult c id =>
      if s.valid id then
        guard (s.handle id && decide (s.cpc c = .idle) && canCallB cfg s c && (s.fut id).ready)
          (.result c id (some (s.fut id)), { s with valid := fun k => if k = id then false else s.valid k })
      else guard (s.handle id && decide (s.cpc c = .idle) && canCallB cfg s c) (.result c id none, s)
  | .worker w =>
      if w < cfg.threads then
        match s.wpc w with
        | .want => guard (decide (s.owner = none)) (.internal, { s with owner := some w }.setW w .head)
        | .head =>
            if s.shutdown then some (.internal, { s with owner := none }.setW w .over)
            else if s.pending = [] then some (.internal, { s with owner := none }.setW w (.sleep none))
            else some (.internal, s.setW w (.scan s.clock))
        | .scan now => match pick now s.pending with
            | none => some (.internal, { s with owner := none }.setW w (.sleep (earliest s.pending)))
            | some (t, rest) => some (.started w t.id now, { s with
                owner := none
                pending := rest
                runIds := s.runIds ++ [t.id]
                runNames := s.runNames ++ [t.name] }.setW w (.exec t.id))
        | .done id => guard (decide (s.owner = none)) (.retired w id, { s with
            owner := some w
            runIds := (retire id s.runIds s.runNames).1
            runNames := (retire id s.runIds s.runNames).2 }.setW w .head)
        | _ => none
      else none
  | .finish w o => match s.wpc w with
      | .exec id => guard (decide (w < cfg.threads) && decide (s.cpc (.task w) = .idle))
          (.ended w id o, { s with fut := fun k => if k = id then .done o else s.fut k }.setW w (.done id))
      | _ => none
  | .timeout w => match s.wpc w with
      | .sleep (some d) => guard (decide (w < cfg.threads) && decide (d ≤ s.clock)) (.timeout w, s.setW w .want)
      | _ => none
  | .release c =>
      guard (decide (c ∈ L) && decide (s.cpc c = .idle) && canCallB cfg s c && !s.dying && L.all fun c' => !usesPtr (s.cpc c'))
        (.release c, { s with dying := true }.setC c .dtorLock)
  | .dtor c => match s.cpc c with
      | .dtorLock => guard (decide (s.owner = none)) (.shutdown c, { s with shutdown := true }.setC c .dtorNotify)
      | .dtorNotify => some (.internal, { s with wpc := fun w => wake (s.wpc w) }.setC c .dtorJoin)
      | .dtorJoin =>
          if (List.range cfg.threads).all fun w => decide (s.wpc w = .over) then
            some (.destroyed c, { s with
              destroyed := true
              pending := []
              fut := breakAll s.pending s.fut }.setC c .idle)
          else match c with
            | .task w => guard (decide (w < cfg.threads) && (List.range w).all fun w' => decide (s.wpc w' = .over))
                (.terminate (.task w), s.setC (.task w) .aborted)
            | .ext _ => none
      | _ => none

theorem exec_step {cfg : Cfg} {L : List Who} {s s' : St} {m : Move} {e : Ev} (hL : ∀ c, c ∉ L → s.cpc c = .idle)
    (h : exec cfg L s m = some (e, s')) : Step cfg s e s' := by
  cases m with
  | tick t => cases h; exact .tick s t
  | begin c ptr op =>
      obtain ⟨hb, he⟩ := guard_some h
      cases he
      simp only [Bool.and_eq_true, decide_eq_true_eq, Bool.not_eq_true', Bool.or_eq_true] at hb
      obtain ⟨⟨⟨⟨⟨h1, h2⟩, h3⟩, h4⟩, h5⟩, h6⟩ := hb
      refine .begin s c ptr op h2 (canCall_of h3) h4 ?_ ?_
      · rintro k rfl
        rcases h5 with h5 | h5
        · exact h5
        · cases h5
      · intro hp
        rcases h6 with h6 | h6
        · rw [hp] at h6; cases h6
        · exact h6
  | fail c =>
      simp only [exec] at h
      split at h
      · rename_i ptr op hc
        obtain ⟨hb, he⟩ := guard_some h
        cases he
        simp only [Bool.and_eq_true, decide_eq_true_eq] at hb
        exact .fail s c ptr op hc hb.1 hb.2
      · cases h
  | body c =>
      simp only [exec] at h
      split at h
      · rename_i ptr op hc
        obtain ⟨hb, he⟩ := guard_some h
        have h1 : e = (section_ cfg s c ptr op).1 := by rw [← he]
        have h2 : s' = (section_ cfg s c ptr op).2 := by rw [← he]
        rw [h1, h2]
        exact .body s c ptr op hc (decide_eq_true_eq.mp hb)
      · cases h
  | notifyOne c w =>
      simp only [exec] at h
      split at h
      · rename_i ptr id hc
        obtain ⟨hb, he⟩ := guard_some h
        cases he
        simp only [Bool.and_eq_true, decide_eq_true_eq] at hb
        exact .notifyOne s c ptr id w hc hb.1 hb.2
      · cases h
  | notifyNone c =>
      simp only [exec] at h
      split at h
      · rename_i ptr id hc
        obtain ⟨hb, he⟩ := guard_some h
        cases he
        simp only [List.all_eq_true, List.mem_range, Bool.not_eq_true'] at hb
        exact .notifyNone s c ptr id hc hb
      · cases h
  | handleCancel c id =>
      obtain ⟨hb, he⟩ := guard_some h
      cases he
      simp only [Bool.and_eq_true, decide_eq_true_eq] at hb
      exact .handleCancel s c id hb.1.1.2 hb.1.2 (canCall_of hb.2)
  | handleLock c =>
      simp only [exec] at h
      split at h
      · rename_i id hc
        split at h
        · rename_i hd; cases h; exact .handleCancelThrow s c id hc hd
        · rename_i hd; cases h; exact .handleCancelLock s c id hc (by simpa using hd)
      · rename_i id hc
        split at h
        · rename_i hd; cases h; exact .handleStateThrow s c id hc hd
        · rename_i hd; cases h; exact .handleStateLock s c id hc (by simpa using hd)
      · cases h
  | handleState c id =>
      obtain ⟨hb, he⟩ := guard_some h
      cases he
      simp only [Bool.and_eq_true, decide_eq_true_eq] at hb
      exact .handleState s c id hb.1.1.2 hb.1.2 (canCall_of hb.2)
  | handleCheck c =>
      simp only [exec] at h
      split at h
      · rename_i id hc
        cases h
        exact .handleCheck s c id hc
      · cases h
  | handleComplete c id =>
      obtain ⟨hb, he⟩ := guard_some h
      cases he
      simp only [Bool.and_eq_true, decide_eq_true_eq] at hb
      exact .handleComplete s c id hb.1.1 hb.1.2 (canCall_of hb.2)
  | handleResult c id =>
      simp only [exec] at h
      split at h
      · rename_i hv
        obtain ⟨hb, he⟩ := guard_some h
        cases he
        simp only [Bool.and_eq_true, decide_eq_true_eq] at hb
        exact .handleResult s c id hb.1.1.1 hb.1.1.2 (canCall_of hb.1.2) hv hb.2
      · rename_i hv
        obtain ⟨hb, he⟩ := guard_some h
        cases he
        simp only [Bool.and_eq_true, decide_eq_true_eq] at hb
        exact .handleNoResult s c id hb.1.1 hb.1.2 (canCall_of hb.2) (by simpa using hv)
  | worker w =>
      simp only [exec] at h
      split at h
      · rename_i hw
        split at h
        · rename_i hp
          obtain ⟨hb, he⟩ := guard_some h
          cases he
          exact .lock s w hw hp (decide_eq_true_eq.mp hb)
        · rename_i hp
          split at h
          · rename_i hsd; cases h; exact .leave s w hw hp hsd
          · rename_i hsd
            split at h
            · rename_i hpe; cases h; exact .wait s w hw hp (by simpa using hsd) hpe
            · rename_i hpe; cases h; exact .read s w hw hp (by simpa using hsd) hpe
        · rename_i now hp
          split at h
          · rename_i hpi; cases h; exact .waitUntil s w now hw hp hpi
          · rename_i t rest hpi; cases h; exact .start s w now t rest hw hp hpi
        · rename_i id hp
          obtain ⟨hb, he⟩ := guard_some h
          cases he
          exact .retire s w id hw hp (decide_eq_true_eq.mp hb)
        · cases h
      · cases h
  | finish w o =>
      simp only [exec] at h
      split at h
      · rename_i id hp
        obtain ⟨hb, he⟩ := guard_some h
        cases he
        simp only [Bool.and_eq_true, decide_eq_true_eq] at hb
        exact .finish s w id o hb.1 hp hb.2
      · cases h
  | timeout w =>
      simp only [exec] at h
      split at h
      · rename_i d hp
        obtain ⟨hb, he⟩ := guard_some h
        cases he
        simp only [Bool.and_eq_true, decide_eq_true_eq] at hb
        exact .timeout s w d hb.1 hp hb.2
      · cases h
  | release c =>
      obtain ⟨hb, he⟩ := guard_some h
      cases he
      simp only [Bool.and_eq_true, decide_eq_true_eq, Bool.not_eq_true', List.all_eq_true] at hb
      obtain ⟨⟨⟨⟨h1, h2⟩, h3⟩, h4⟩, h5⟩ := hb
      refine .release s c h2 (canCall_of h3) h4 ?_
      intro c'
      by_cases hc' : c' ∈ L
      · exact h5 c' hc'
      · rw [hL c' hc']; rfl
  | dtor c =>
      simp only [exec] at h
      split at h
      · rename_i hc
        obtain ⟨hb, he⟩ := guard_some h
        cases he
        exact .dtorLock s c hc (decide_eq_true_eq.mp hb)
      · rename_i hc
        cases h
        exact .dtorNotify s c hc
      · rename_i hc
        split at h
        · rename_i ho
          cases h
          simp only [List.all_eq_true, List.mem_range, decide_eq_true_eq] at ho
          exact .dtorJoin s c hc ho
        · split at h
          · rename_i w
            obtain ⟨hb, he⟩ := guard_some h
            cases he
            simp only [Bool.and_eq_true, decide_eq_true_eq, List.all_eq_true, List.mem_range] at hb
            exact .dtorSelf s w hc hb.1 hb.2
          · cases h
      · cases h

theorem step_callers {cfg : Cfg} {s s' : St} {e : Ev} (hs : Step cfg s e s') :
    ∀ c, s.cpc c = .idle → s'.cpc c ≠ .idle → (∃ op, e = .begin c op) ∨ (∃ id, e = .emptied c id) ∨ e = .release c := by
  intro c h1 h2
  have key : ∀ {c' : Who} {p : Cpc}, s'.cpc = (s.setC c' p).cpc → s.cpc c' ≠ .idle → False := by
    intro c' p h3 h4
    rw [h3] at h2
    by_cases hcc : c = c'
    · subst hcc; exact h4 h1
    · rw [setC_other hcc] at h2; exact h2 h1
  have key' : ∀ {c' : Who} {p : Cpc}, s'.cpc = (s.setC c' p).cpc → c = c' := by
    intro c' p h3
    rw [h3] at h2
    by_cases hcc : c = c'
    · exact hcc
    · rw [setC_other hcc] at h2; exact absurd h1 h2
  cases hs with
  | body c' ptr op hc' ho =>
      obtain ⟨p, hp, _⟩ := section_cpc cfg s c' ptr op
      exact (key hp (by rw [hc']; simp)).elim
  | fail c' p o h => exact (key (c' := c') rfl (by rw [h]; simp)).elim
  | begin c' ptr op => have := key' (c' := c') rfl; subst this; exact Or.inl ⟨op, rfl⟩
  | notifyOne c' p i w h => exact (key (c' := c') rfl (by rw [h]; simp)).elim
  | notifyNone c' p i h => exact (key (c' := c') rfl (by rw [h]; simp)).elim
  | handleCancel c' i => have := key' (c' := c') rfl; subst this; exact Or.inr (Or.inl ⟨i, rfl⟩)
  | handleCancelLock c' i h => exact (key (c' := c') rfl (by rw [h]; simp)).elim
  | handleCancelThrow c' i h => exact (key (c' := c') rfl (by rw [h]; simp)).elim
  | handleState c' i => have := key' (c' := c') rfl; subst this; exact Or.inl ⟨_, rfl⟩
  | handleStateLock c' i h => exact (key (c' := c') rfl (by rw [h]; simp)).elim
  | handleStateThrow c' i h => exact (key (c' := c') rfl (by rw [h]; simp)).elim
  | handleCheck c' i h => exact (key (c' := c') rfl (by rw [h]; simp)).elim
  | release c' => have := key' (c' := c') rfl; subst this; exact Or.inr (Or.inr rfl)
  | dtorLock c' h => exact (key (c' := c') rfl (by rw [h]; simp)).elim
  | dtorNotify c' h => exact (key (c' := c') rfl (by rw [h]; simp)).elim
  | dtorJoin c' h => exact (key (c' := c') rfl (by rw [h]; simp)).elim
  | dtorSelf w h => exact (key (c' := .task w) rfl (by rw [h]; simp)).elim
  | _ => exact absurd h1 h2

def allowed (L : List Who) : Ev → Bool
  | .begin c _ | .emptied c _ | .release c => decide (c ∈ L)
  | _ => true

/-- Moves one after the other. -/
def playFrom (cfg : Cfg) (L : List Who) : List Ev → St → List Move → Option (List Ev × St)
  | es, s, [] => some (es, s)
  | es, s, m :: ms => match exec cfg L s m with
    | none => none
    | some (e, s') =>
        if allowed L e then playFrom cfg L (es ++ [e]) s' ms else none

def play (cfg : Cfg) (L : List Who) (ms : List Move) : Option (List Ev × St) :=
  if make cfg.threads cfg.cap = .ok cfg then playFrom cfg L [] init ms else none

theorem playFrom_run {cfg : Cfg} {L : List Who} {ms : List Move} {es es' : List Ev} {s s' : St} (h : Run cfg es s)
    (hL : ∀ c, c ∉ L → s.cpc c = .idle) (hp : playFrom cfg L es s ms = some (es', s')) :
    Run cfg es' s' ∧ ∀ c, c ∉ L → s'.cpc c = .idle := by
  induction ms generalizing es s with
  | nil => cases hp; exact ⟨h, hL⟩
  | cons m ms ih =>
      simp only [playFrom] at hp
      cases hx : exec cfg L s m with
      | none => rw [hx] at hp; cases hp
      | some x =>
          obtain ⟨e, s1⟩ := x
          rw [hx] at hp
          simp only at hp
          split at hp
          · rename_i hc
            have hs := exec_step hL hx
            refine ih (h.step hs) ?_ hp
            intro c hcL
            by_cases h1 : s1.cpc c = .idle
            · exact h1
            · exfalso
              rcases step_callers hs c (hL c hcL) h1 with ⟨op, rfl⟩ | ⟨id, rfl⟩ | rfl <;>
                exact hcL (decide_eq_true_eq.mp hc)
          · cases hp

theorem play_run {cfg : Cfg} {L : List Who} {ms : List Move} {es : List Ev} {s : St}
    (hp : play cfg L ms = some (es, s)) : Run cfg es s ∧ ∀ c, c ∉ L → s.cpc c = .idle := by
  unfold play at hp
  split at hp
  · rename_i hm
    exact playFrom_run (.init hm) (fun _ _ => rfl) hp
  · cases hp

/-- A computed execution with a property that can be evaluated. -/
theorem play_exists {cfg : Cfg} {L : List Who} (ms : List Move) {P : List Ev → St → Prop} [∀ es s, Decidable (P es s)]
    (h : (match play cfg L ms with | some (es, s) => decide (P es s) | none => false) = true) :
    ∃ es s, Run cfg es s ∧ (∀ c, c ∉ L → s.cpc c = .idle) ∧ P es s := by
  split at h
  · rename_i es s hp
    exact ⟨es, s, (play_run hp).1, (play_run hp).2, decide_eq_true_eq.mp h⟩
  · cases h

end Gul14.Pool
