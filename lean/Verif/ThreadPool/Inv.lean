import Verif.ThreadPool.Base

/-! # Invariants: mutex, calls, destruction -/
namespace Gul14.Pool
open Spec.Pool

/-- The worker owns the mutex. -/
def holds : Wpc → Bool
  | .head | .scan _ => true
  | _ => false

theorem wake_holds (p : Wpc) : holds (wake p) = holds p := by cases p <;> rfl
theorem wake_not_sleep (p : Wpc) : isSleep (wake p) = false := by cases p <;> rfl
theorem wake_scan {p : Wpc} {t : Int} : wake p = .scan t ↔ p = .scan t := by cases p <;> simp [wake]
theorem wake_exec {p : Wpc} {i : Nat} : wake p = .exec i ↔ p = .exec i := by cases p <;> simp [wake]
theorem wake_done {p : Wpc} {i : Nat} : wake p = .done i ↔ p = .done i := by cases p <;> simp [wake]
theorem wake_over {p : Wpc} : wake p = .over ↔ p = .over := by cases p <;> simp [wake]

variable {cfg : Cfg} {es : List Ev} {s s' : St} {e : Ev}

/-! ### What a critical section changes -/

section
variable (cfg s) (c : Who) (ptr : Bool) (op : Op)

theorem section_wpc : (section_ cfg s c ptr op).2.wpc = s.wpc := by
  cases op <;> simp only [section_] <;> (repeat' split) <;> rfl
theorem section_owner : (section_ cfg s c ptr op).2.owner = s.owner := by
  cases op <;> simp only [section_] <;> (repeat' split) <;> rfl
theorem section_shutdown : (section_ cfg s c ptr op).2.shutdown = s.shutdown := by
  cases op <;> simp only [section_] <;> (repeat' split) <;> rfl
theorem section_dying : (section_ cfg s c ptr op).2.dying = s.dying := by
  cases op <;> simp only [section_] <;> (repeat' split) <;> rfl
theorem section_destroyed : (section_ cfg s c ptr op).2.destroyed = s.destroyed := by
  cases op <;> simp only [section_] <;> (repeat' split) <;> rfl
theorem section_clock : (section_ cfg s c ptr op).2.clock = s.clock := by
  cases op <;> simp only [section_] <;> (repeat' split) <;> rfl
theorem section_runIds : (section_ cfg s c ptr op).2.runIds = s.runIds := by
  cases op <;> simp only [section_] <;> (repeat' split) <;> rfl
theorem section_runNames : (section_ cfg s c ptr op).2.runNames = s.runNames := by
  cases op <;> simp only [section_] <;> (repeat' split) <;> rfl

/-- Where the caller is afterwards. -/
theorem section_cpc : ∃ p, (section_ cfg s c ptr op).2.cpc = (s.setC c p).cpc ∧
    (p = .idle ∨ (∃ id, p = .notify ptr id ∧ s.dying = false) ∨ ∃ id, p = .check id) := by
  cases op <;> simp only [section_] <;> (repeat' split) <;>
    first
    | exact ⟨.idle, rfl, Or.inl rfl⟩
    | exact ⟨.check _, rfl, Or.inr (Or.inr ⟨_, rfl⟩)⟩
    | exact ⟨.notify ptr _, rfl, Or.inr (Or.inl ⟨_, rfl, by simp_all⟩)⟩
end

/-! ### The mutex -/

structure InvM (cfg : Cfg) (s : St) : Prop where
  out : ∀ w, cfg.threads ≤ w → s.wpc w = .want
  own : ∀ w, holds (s.wpc w) = true ↔ s.owner = some w
  scan : ∀ w now, s.wpc w = .scan now → s.shutdown = false ∧ s.pending ≠ []

theorem InvM.not_holds (h : InvM cfg s) (ho : s.owner = none) (w : Nat) : holds (s.wpc w) = false := by
  cases hh : holds (s.wpc w) with
  | false => rfl
  | true => rw [(h.own w).mp hh] at ho; cases ho

theorem InvM.setW (h : InvM cfg s) {w : Nat} {p : Wpc} {o : Option Nat} (hw : w < cfg.threads)
    (ho : if holds p then o = some w ∧ (s.owner = none ∨ s.owner = some w) else
      o = if holds (s.wpc w) then none else s.owner)
    (hs : s'.wpc = (s.setW w p).wpc) (hso : s'.owner = o)
    (hsc : ∀ k now, s'.wpc k = .scan now → s'.shutdown = false ∧ s'.pending ≠ []) : InvM cfg s' where
  out := by
    intro k hk
    rw [hs, setW_other (by omega)]
    exact h.out k hk
  own := by
    intro k
    rw [hs, hso]
    by_cases hk : k = w
    · subst hk
      rw [setW_same]
      cases hp : holds p with
      | true => rw [hp] at ho; simp at ho; simp [ho.1]
      | false =>
          rw [hp] at ho
          simp only [Bool.false_eq_true, if_false] at ho
          have := h.own k
          cases hq : holds (s.wpc k) <;> rw [hq] at ho this <;> simp at ho <;> simp_all
    · rw [setW_other hk, h.own k]
      cases hp : holds p with
      | true =>
          rw [hp] at ho; simp at ho
          rcases ho with ⟨h1, h2 | h2⟩ <;> rw [h1, h2] <;> simp <;> omega
      | false =>
          rw [hp] at ho
          simp only [Bool.false_eq_true, if_false] at ho
          have h2 := h.own w
          cases hq : holds (s.wpc w) <;> rw [hq] at ho h2 <;> simp at ho h2
          · rw [ho]
          · rw [ho, h2]; simp; omega
  scan := hsc

theorem InvM.congr (h : InvM cfg s) (h1 : s'.wpc = s.wpc) (h2 : s'.owner = s.owner)
    (h3 : s'.shutdown = s.shutdown) (h4 : s'.pending = s.pending) : InvM cfg s' :=
  ⟨by rw [h1]; exact h.out, by rw [h1, h2]; exact h.own, by rw [h1, h3, h4]; exact h.scan⟩

theorem scan_setW {w k : Nat} {p : Wpc} {now : Int} (h : (s.setW w p).wpc k = .scan now)
    (hp : ∀ t, p ≠ .scan t) : s.wpc k = .scan now := by
  by_cases hk : k = w
  · subst hk; rw [setW_same] at h; exact absurd h (hp _)
  · rwa [setW_other hk] at h

theorem scan_holds {w : Nat} {now : Int} (h : s.wpc w = .scan now) : holds (s.wpc w) = true := by rw [h]; rfl

theorem invM_step (h : InvM cfg s) (hs : Step cfg s e s') : InvM cfg s' := by
  cases hs with
  | body c ptr op hc ho =>
      refine ⟨by rw [section_wpc]; exact h.out, by rw [section_wpc, section_owner]; exact h.own, ?_⟩
      intro w now hw
      rw [section_wpc] at hw
      have := h.not_holds ho w
      rw [scan_holds hw] at this
      cases this
  | notifyOne c ptr id w hc hw hsl =>
      refine h.setW (w := w) (p := .want) (o := s.owner) hw ?_ rfl rfl ?_
      · cases hp : s.wpc w <;> simp [hp, isSleep, holds] at hsl ⊢
      · intro k now hk
        exact h.scan k now (scan_setW hk (by simp))
  | lock w hw hp ho =>
      refine h.setW (w := w) (p := .head) (o := some w) hw (by simp [holds, ho]) rfl rfl ?_
      intro k now hk
      exact h.scan k now (scan_setW hk (by simp))
  | leave w hw hp hsd =>
      refine h.setW (w := w) (p := .over) (o := none) hw (by simp [holds, hp]) rfl rfl ?_
      intro k now hk
      exact h.scan k now (scan_setW hk (by simp))
  | wait w hw hp hsd hpe =>
      refine h.setW (w := w) (p := .sleep none) (o := none) hw (by simp [holds, hp]) rfl rfl ?_
      intro k now hk
      exact h.scan k now (scan_setW hk (by simp))
  | read w hw hp hsd hpe =>
      refine h.setW (w := w) (p := .scan s.clock) (o := s.owner) hw ?_ rfl rfl ?_
      · have := (h.own w).mp (by rw [hp]; rfl)
        simp [holds, this]
      · intro k now hk
        exact ⟨hsd, hpe⟩
  | waitUntil w now hw hp hpi =>
      refine h.setW (w := w) (p := .sleep (earliest s.pending)) (o := none) hw (by simp [holds, hp]) rfl rfl ?_
      intro k now hk
      exact h.scan k now (scan_setW hk (by simp))
  | start w now t rest hw hp hpi =>
      refine h.setW (w := w) (p := .exec t.id) (o := none) hw (by simp [holds, hp]) rfl rfl ?_
      intro k now' hk
      by_cases hkw : k = w
      · subst hkw
        have : (Wpc.exec t.id) = .scan now' := by rw [← hk]; exact (setW_same _ _ _).symm
        cases this
      · have hk : s.wpc k = .scan now' := scan_setW hk (by simp)
        have h1 := (h.own k).mp (by rw [hk]; rfl)
        have h2 := (h.own w).mp (by rw [hp]; rfl)
        rw [h1] at h2
        exact absurd (Option.some.inj h2) hkw
  | finish w id o hw hp hc =>
      refine h.setW (w := w) (p := .done id) (o := s.owner) hw (by simp [holds, hp]) rfl rfl ?_
      intro k now hk
      exact h.scan k now (scan_setW hk (by simp))
  | retire w id hw hp ho =>
      refine h.setW (w := w) (p := .head) (o := some w) hw (by simp [holds, ho]) rfl rfl ?_
      intro k now hk
      exact h.scan k now (scan_setW hk (by simp))
  | timeout w d hw hp hd =>
      refine h.setW (w := w) (p := .want) (o := s.owner) hw (by simp [holds, hp]) rfl rfl ?_
      intro k now hk
      exact h.scan k now (scan_setW hk (by simp))
  | spurious w hw hp =>
      refine h.setW (w := w) (p := .want) (o := s.owner) hw ?_ rfl rfl ?_
      · cases hq : s.wpc w <;> simp [hq, isSleep, holds] at hp ⊢
      · intro k now hk
        exact h.scan k now (scan_setW hk (by simp))
  | dtorLock c hc ho =>
      refine ⟨h.out, h.own, ?_⟩
      intro w now hw
      have hw : s.wpc w = .scan now := hw
      have := h.not_holds ho w
      rw [scan_holds hw] at this
      cases this
  | dtorNotify c hc =>
      refine ⟨?_, ?_, ?_⟩
      · intro w hw
        show wake (s.wpc w) = _
        rw [h.out w hw]; rfl
      · intro w
        show holds (wake (s.wpc w)) = true ↔ _
        rw [wake_holds]; exact h.own w
      · intro w now hw
        exact h.scan w now (wake_scan.mp hw)
  | dtorJoin c hc ho =>
      refine ⟨h.out, h.own, ?_⟩
      intro w now hw
      have hw : s.wpc w = .scan now := hw
      rcases Nat.lt_or_ge w cfg.threads with hlt | hge
      · rw [ho w hlt] at hw; cases hw
      · rw [h.out w hge] at hw; cases hw
  | _ => exact h.congr rfl rfl rfl rfl

theorem invM_run (h : Run cfg es s) : InvM cfg s := by
  induction h with
  | init => exact ⟨fun _ _ => rfl, by simp [init, holds], by simp [init]⟩
  | step _ hs ih => exact invM_step ih hs

theorem threads_pos (h : Run cfg es s) : 0 < cfg.threads ∧ 0 < cfg.cap := by
  induction h with
  | init h =>
      simp only [make] at h
      split at h
      · cases h
      · split at h
        · cases h
        · omega
  | step _ _ ih => exact ih

/-! ### Calls and destruction -/

/-- The caller is in the destructor. -/
def inDtor : Cpc → Bool
  | .dtorLock | .dtorNotify | .dtorJoin | .aborted => true
  | _ => false

structure InvC (cfg : Cfg) (es : List Ev) (s : St) : Prop where
  shut : s.shutdown = shut es
  clock : s.clock = clockAfter 0 es
  /-- a task that is in a call is being executed -/
  task : ∀ w, s.cpc (.task w) ≠ .idle → w < cfg.threads ∧ ∃ id, s.wpc w = .exec id
  /-- outside threads call through a shared pointer -/
  ext : ∀ k, (∀ p op, s.cpc (.ext k) = .call p op → p = true) ∧
    ∀ p id, s.cpc (.ext k) = .notify p id → p = true
  ptr : s.dying = true → ∀ c, usesPtr (s.cpc c) = false
  dtor : ∀ c, inDtor (s.cpc c) = true → s.dying = true ∧ s.destroyed = false
  one : ∀ c c', inDtor (s.cpc c) = true → inDtor (s.cpc c') = true → c = c'
  before : ∀ c, s.cpc c = .dtorLock → s.shutdown = false
  after : ∀ c, s.cpc c = .dtorNotify ∨ s.cpc c = .dtorJoin ∨ s.cpc c = .aborted → s.shutdown = true
  shutDying : s.shutdown = true → s.dying = true
  destroyed : s.destroyed = true → s.dying = true ∧ s.shutdown = true ∧ ∀ w, w < cfg.threads → s.wpc w = .over
  over : ∀ w, s.wpc w = .over → s.shutdown = true
  sleep : s.shutdown = true → (∃ w, isSleep (s.wpc w) = true) → ∃ c, s.cpc c = .dtorNotify
  prog : s.dying = true → s.destroyed = false → ∃ c, inDtor (s.cpc c) = true

theorem setC_idle {c : Who} (hi : s.cpc c = .idle) : s.cpc = (s.setC c .idle).cpc := by
  funext k
  by_cases hk : k = c
  · subst hk; rw [setC_same, hi]
  · rw [setC_other hk]

theorem clock_same (h : s.clock = clockAfter 0 es) (he : ∀ t, e ≠ .tick t) :
    s.clock = clockAfter 0 (es ++ [e]) := by
  rw [clockAfter_append, ← h]
  cases e <;> first | rfl | exact absurd rfl (he _)

/-- A step of a caller that is not in the destructor. -/
theorem InvC.setC (h : InvC cfg es s) {c : Who} {p : Cpc} (hc : s'.cpc = (s.setC c p).cpc)
    (hw : s'.wpc = s.wpc) (h1 : s'.shutdown = s.shutdown) (h2 : s'.dying = s.dying)
    (h3 : s'.destroyed = s.destroyed) (h4 : s'.clock = s.clock)
    (he : ∀ c, e ≠ .shutdown c) (ht : ∀ t, e ≠ .tick t)
    (hd : inDtor p = false) (hd' : inDtor (s.cpc c) = false)
    (hcall : p ≠ .idle → s.cpc c ≠ .idle ∨ canCall cfg s c)
    (hp : usesPtr p = true → s.dying = false)
    (hx : ∀ k, c = .ext k → (∀ q op, p = .call q op → q = true) ∧ ∀ q id, p = .notify q id → q = true) :
    InvC cfg (es ++ [e]) s' where
  shut := by rw [h1, shut_neutral he]; exact h.shut
  clock := by rw [h4]; exact clock_same h.clock ht
  task := by
    intro w hne
    rw [hc] at hne
    rw [hw]
    by_cases hk : Who.task w = c
    · subst hk
      rw [setC_same] at hne
      rcases hcall hne with h5 | h5
      · exact h.task w h5
      · exact h5
    · rw [setC_other hk] at hne
      exact h.task w hne
  ext := by
    intro k
    rw [hc]
    by_cases hk : Who.ext k = c
    · subst hk; rw [setC_same]; exact hx k rfl
    · rw [setC_other hk]; exact h.ext k
  ptr := by
    intro hdy k
    rw [h2] at hdy
    rw [hc]
    by_cases hk : k = c
    · subst hk
      rw [setC_same]
      cases hu : usesPtr p with
      | false => rfl
      | true => rw [hp hu] at hdy; cases hdy
    · rw [setC_other hk]; exact h.ptr hdy k
  dtor := by
    intro k hk
    rw [h2, h3]
    rw [hc] at hk
    by_cases hkc : k = c
    · subst hkc; rw [setC_same, hd] at hk; cases hk
    · rw [setC_other hkc] at hk; exact h.dtor k hk
  one := by
    intro k k' hk hk'
    rw [hc] at hk hk'
    have a : k ≠ c := by rintro rfl; rw [setC_same, hd] at hk; cases hk
    have b : k' ≠ c := by rintro rfl; rw [setC_same, hd] at hk'; cases hk'
    rw [setC_other a] at hk
    rw [setC_other b] at hk'
    exact h.one k k' hk hk'
  before := by
    intro k hk
    rw [hc] at hk
    have a : k ≠ c := by rintro rfl; rw [setC_same] at hk; rw [hk] at hd; cases hd
    rw [setC_other a] at hk
    rw [h1]; exact h.before k hk
  after := by
    intro k hk
    rw [hc] at hk
    have a : k ≠ c := by
      rintro rfl
      rw [setC_same] at hk
      rcases hk with hk | hk | hk <;> rw [hk] at hd <;> cases hd
    rw [setC_other a] at hk
    rw [h1]; exact h.after k hk
  shutDying := by rw [h1, h2]; exact h.shutDying
  destroyed := by rw [h1, h2, h3, hw]; exact h.destroyed
  over := by rw [h1, hw]; exact h.over
  sleep := by
    rw [h1, hw, hc]
    intro hs hex
    obtain ⟨k, hk⟩ := h.sleep hs hex
    refine ⟨k, ?_⟩
    have a : k ≠ c := by rintro rfl; rw [hk] at hd'; cases hd'
    rw [setC_other a]; exact hk
  prog := by
    rw [h2, h3, hc]
    intro hs hex
    obtain ⟨k, hk⟩ := h.prog hs hex
    refine ⟨k, ?_⟩
    have a : k ≠ c := by rintro rfl; rw [hk] at hd'; cases hd'
    rw [setC_other a]; exact hk

/-- A step of a worker. -/
theorem InvC.setW (h : InvC cfg es s) {w : Nat} {p : Wpc} (hlt : w < cfg.threads) (hw : s'.wpc = (s.setW w p).wpc)
    (hc : s'.cpc = s.cpc) (h1 : s'.shutdown = s.shutdown) (h2 : s'.dying = s.dying)
    (h3 : s'.destroyed = s.destroyed) (h4 : s'.clock = s.clock)
    (he : ∀ c, e ≠ .shutdown c) (ht : ∀ t, e ≠ .tick t)
    (hn : s.wpc w ≠ .over) (hov : p = .over → s.shutdown = true)
    (hsl : isSleep p = true → s.shutdown = false)
    (hx : (∀ id, s.wpc w ≠ .exec id) ∨ s.cpc (.task w) = .idle) : InvC cfg (es ++ [e]) s' where
  shut := by rw [h1, shut_neutral he]; exact h.shut
  clock := by rw [h4]; exact clock_same h.clock ht
  task := by
    intro k hne
    rw [hc] at hne
    rw [hw]
    obtain ⟨h5, id, h6⟩ := h.task k hne
    refine ⟨h5, id, ?_⟩
    have a : k ≠ w := by
      rintro rfl
      rcases hx with hx | hx
      · exact hx id h6
      · exact hne hx
    rw [setW_other a]; exact h6
  ext := by rw [hc]; exact h.ext
  ptr := by rw [hc, h2]; exact h.ptr
  dtor := by rw [hc, h2, h3]; exact h.dtor
  one := by rw [hc]; exact h.one
  before := by rw [hc, h1]; exact h.before
  after := by rw [hc, h1]; exact h.after
  shutDying := by rw [h1, h2]; exact h.shutDying
  destroyed := by
    rw [h3]
    intro hd
    exact absurd ((h.destroyed hd).2.2 w hlt) hn
  over := by
    intro k hk
    rw [hw] at hk
    rw [h1]
    by_cases hkw : k = w
    · subst hkw; rw [setW_same] at hk; exact hov hk
    · rw [setW_other hkw] at hk; exact h.over k hk
  sleep := by
    rw [h1, hw, hc]
    rintro hs ⟨k, hk⟩
    by_cases hkw : k = w
    · subst hkw; rw [setW_same] at hk; rw [hsl hk] at hs; cases hs
    · rw [setW_other hkw] at hk; exact h.sleep hs ⟨k, hk⟩
  prog := by rw [h2, h3, hc]; exact h.prog

theorem section_ev {c : Who} {ptr : Bool} {op : Op} : (∀ c', (section_ cfg s c ptr op).1 ≠ .shutdown c') ∧
    ∀ t, (section_ cfg s c ptr op).1 ≠ .tick t := by
  cases op <;> simp only [section_] <;> (repeat' split) <;> simp

theorem invC_step (hm : InvM cfg s) (h : InvC cfg es s) (hs : Step cfg s e s') : InvC cfg (es ++ [e]) s' := by
  cases hs with
  | tick t =>
      refine ⟨?_, ?_, h.task, h.ext, h.ptr, h.dtor, h.one, h.before, h.after, h.shutDying, h.destroyed, h.over,
        h.sleep, h.prog⟩
      · rw [shut_neutral (by simp)]; exact h.shut
      · rw [clockAfter_append]; rfl
  | begin c ptr op hi hc hop hext hp =>
      refine h.setC (c := c) (p := .call ptr op) rfl rfl rfl rfl rfl rfl (by simp) (by simp) rfl
        (by rw [hi]; rfl) (fun _ => Or.inr hc) hp ?_
      intro k hk
      refine ⟨?_, by simp⟩
      intro q op' hq
      cases hq
      exact hext k hk
  | body c ptr op hc ho =>
      obtain ⟨p, hp, hp'⟩ := section_cpc cfg s c ptr op
      refine h.setC (c := c) (p := p) hp (section_wpc ..) (section_shutdown ..) (section_dying ..)
        (section_destroyed ..) (section_clock ..) (section_ev).1 (section_ev).2 ?_ (by rw [hc]; rfl)
        (fun _ => Or.inl (by rw [hc]; simp)) ?_ ?_
      · rcases hp' with rfl | ⟨_, rfl, _⟩ | ⟨_, rfl⟩ <;> rfl
      · rcases hp' with rfl | ⟨_, rfl, hd⟩ | ⟨_, rfl⟩
        · simp [usesPtr]
        · intro _; exact hd
        · simp [usesPtr]
      · rintro k rfl
        refine ⟨?_, ?_⟩
        · rcases hp' with rfl | ⟨_, rfl, _⟩ | ⟨_, rfl⟩ <;> simp
        · rcases hp' with rfl | ⟨_, rfl, _⟩ | ⟨_, rfl⟩ <;> simp
          exact (h.ext k).1 ptr op hc
  | fail c ptr op hc ho ha =>
      exact h.setC (c := c) (p := .idle) rfl rfl rfl rfl rfl rfl (by simp) (by simp) rfl
        (by rw [hc]; rfl) (by simp) (by simp [usesPtr]) (by simp)
  | notifyOne c ptr id w hc hw hsl =>
      have hq : s.wpc w ≠ .over ∧ ∀ id, s.wpc w ≠ .exec id := by
        cases hq : s.wpc w <;> simp [hq, isSleep] at hsl ⊢
      have h1 := h.setW (e := .internal) (s' := s.setW w .want) hw rfl rfl rfl rfl rfl rfl (by simp) (by simp)
        hq.1 (by simp) (by simp [isSleep]) (Or.inl hq.2)
      have h2 := h1.setC (e := .internal) (c := c) (p := .idle) (s' := (s.setW w .want).setC c .idle) rfl rfl rfl rfl
        rfl rfl (by simp) (by simp) rfl (by show inDtor (s.cpc c) = false; rw [hc]; rfl) (by simp)
        (by simp [usesPtr]) (by simp)
      refine ⟨?_, ?_, h2.task, h2.ext, h2.ptr, h2.dtor, h2.one, h2.before, h2.after, h2.shutDying, h2.destroyed,
        h2.over, h2.sleep, h2.prog⟩
      · rw [shut_neutral (by simp)]; exact h.shut
      · exact clock_same (s := s) h.clock (by simp)
  | notifyNone c ptr id hc hsl =>
      exact h.setC (c := c) (p := .idle) rfl rfl rfl rfl rfl rfl (by simp) (by simp) rfl
        (by rw [hc]; rfl) (by simp) (by simp [usesPtr]) (by simp)
  | handleCancel c id hk hi hc =>
      exact h.setC (c := c) (p := .cancelLock id) rfl rfl rfl rfl rfl rfl (by simp) (by simp) rfl
        (by rw [hi]; rfl) (fun _ => Or.inr hc) (by simp [usesPtr]) (by simp)
  | handleCancelLock c id hc hd =>
      exact h.setC (c := c) (p := .call true (.cancel id)) rfl rfl rfl rfl rfl rfl (by simp) (by simp) rfl
        (by rw [hc]; rfl) (fun _ => Or.inl (by rw [hc]; simp)) (fun _ => hd) (by simp)
  | handleCancelThrow c id hc hd =>
      exact h.setC (c := c) (p := .idle) rfl rfl rfl rfl rfl rfl (by simp) (by simp) rfl
        (by rw [hc]; rfl) (by simp) (by simp [usesPtr]) (by simp)
  | handleState c id hk hi hc =>
      exact h.setC (c := c) (p := .stateLock id) rfl rfl rfl rfl rfl rfl (by simp) (by simp) rfl
        (by rw [hi]; rfl) (fun _ => Or.inr hc) (by simp [usesPtr]) (by simp)
  | handleStateLock c id hc hd =>
      exact h.setC (c := c) (p := .call true (.state id)) rfl rfl rfl rfl rfl rfl (by simp) (by simp) rfl
        (by rw [hc]; rfl) (fun _ => Or.inl (by rw [hc]; simp)) (fun _ => hd) (by simp)
  | handleStateThrow c id hc hd =>
      exact h.setC (c := c) (p := .idle) rfl rfl rfl rfl rfl rfl (by simp) (by simp) rfl
        (by rw [hc]; rfl) (by simp) (by simp [usesPtr]) (by simp)
  | handleCheck c id hc =>
      exact h.setC (c := c) (p := .idle) rfl rfl rfl rfl rfl rfl (by simp) (by simp) rfl
        (by rw [hc]; rfl) (by simp) (by simp [usesPtr]) (by simp)
  | handleComplete c id hk hi hc =>
      exact h.setC (c := c) (p := .idle) (setC_idle hi) rfl rfl rfl rfl rfl (by simp) (by simp) rfl
        (by rw [hi]; rfl) (by simp) (by simp [usesPtr]) (by simp)
  | handleNoResult c id hk hi hc hv =>
      exact h.setC (c := c) (p := .idle) (setC_idle hi) rfl rfl rfl rfl rfl (by simp) (by simp) rfl
        (by rw [hi]; rfl) (by simp) (by simp [usesPtr]) (by simp)
  | handleResult c id hk hi hc hv hr =>
      exact h.setC (c := c) (p := .idle) (setC_idle hi) rfl rfl rfl rfl rfl (by simp) (by simp) rfl
        (by rw [hi]; rfl) (by simp) (by simp [usesPtr]) (by simp)
  | lock w hw hp ho =>
      exact h.setW (w := w) (p := .head) hw rfl rfl rfl rfl rfl rfl (by simp) (by simp) (by simp [hp])
        (by simp) (by simp [isSleep]) (Or.inl (by simp [hp]))
  | leave w hw hp hsd =>
      exact h.setW (w := w) (p := .over) hw rfl rfl rfl rfl rfl rfl (by simp) (by simp) (by simp [hp])
        (fun _ => hsd) (by simp [isSleep]) (Or.inl (by simp [hp]))
  | wait w hw hp hsd hpe =>
      exact h.setW (w := w) (p := .sleep none) hw rfl rfl rfl rfl rfl rfl (by simp) (by simp) (by simp [hp])
        (by simp) (fun _ => hsd) (Or.inl (by simp [hp]))
  | read w hw hp hsd hpe =>
      exact h.setW (w := w) (p := .scan s.clock) hw rfl rfl rfl rfl rfl rfl (by simp) (by simp) (by simp [hp])
        (by simp) (by simp [isSleep]) (Or.inl (by simp [hp]))
  | waitUntil w now hw hp hpi =>
      exact h.setW (w := w) (p := .sleep (earliest s.pending)) hw rfl rfl rfl rfl rfl rfl (by simp) (by simp)
        (by simp [hp]) (by simp) (fun _ => (hm.scan w now hp).1) (Or.inl (by simp [hp]))
  | start w now t rest hw hp hpi =>
      exact h.setW (w := w) (p := .exec t.id) hw rfl rfl rfl rfl rfl rfl (by simp) (by simp) (by simp [hp])
        (by simp) (by simp [isSleep]) (Or.inl (by simp [hp]))
  | finish w id o hw hp hc =>
      exact h.setW (w := w) (p := .done id) hw rfl rfl rfl rfl rfl rfl (by simp) (by simp) (by simp [hp])
        (by simp) (by simp [isSleep]) (Or.inr hc)
  | retire w id hw hp ho =>
      exact h.setW (w := w) (p := .head) hw rfl rfl rfl rfl rfl rfl (by simp) (by simp) (by simp [hp])
        (by simp) (by simp [isSleep]) (Or.inl (by simp [hp]))
  | timeout w d hw hp hd =>
      exact h.setW (w := w) (p := .want) hw rfl rfl rfl rfl rfl rfl (by simp) (by simp) (by simp [hp])
        (by simp) (by simp [isSleep]) (Or.inl (by simp [hp]))
  | spurious w hw hp =>
      have hq : s.wpc w ≠ .over ∧ ∀ id, s.wpc w ≠ .exec id := by
        cases hq : s.wpc w <;> simp [hq, isSleep] at hp ⊢
      exact h.setW (w := w) (p := .want) hw rfl rfl rfl rfl rfl rfl (by simp) (by simp) hq.1
        (by simp) (by simp [isSleep]) (Or.inl hq.2)
  | release c hi hc hd hu =>
      have hnd : ∀ k, inDtor (s.cpc k) = false := by
        intro k
        cases hk : inDtor (s.cpc k) with
        | false => rfl
        | true => rw [(h.dtor k hk).1] at hd; cases hd
      have hsh : s.shutdown = false := by
        cases hk : s.shutdown with
        | false => rfl
        | true => rw [h.shutDying hk] at hd; cases hd
      have hde : s.destroyed = false := by
        cases hk : s.destroyed with
        | false => rfl
        | true => rw [(h.destroyed hk).1] at hd; cases hd
      have key : ∀ k, (s.setC c .dtorLock).cpc k = if k = c then .dtorLock else s.cpc k := fun _ => rfl
      refine ⟨?_, clock_same (s := s) h.clock (by simp), ?_, ?_, ?_, ?_, ?_, ?_, ?_, ?_, ?_, h.over, ?_, ?_⟩
      · rw [shut_neutral (by simp)]; exact h.shut
      · intro w hne
        have hne : (s.setC c .dtorLock).cpc (.task w) ≠ .idle := hne
        by_cases hk : Who.task w = c
        · subst hk; exact hc
        · rw [setC_other hk] at hne; exact h.task w hne
      · intro k
        show (∀ p op, (s.setC c .dtorLock).cpc (.ext k) = .call p op → p = true) ∧
          ∀ p id, (s.setC c .dtorLock).cpc (.ext k) = .notify p id → p = true
        by_cases hk : Who.ext k = c
        · subst hk; rw [setC_same]; simp
        · rw [setC_other hk]; exact h.ext k
      · intro _ k
        show usesPtr ((s.setC c .dtorLock).cpc k) = false
        by_cases hk : k = c
        · subst hk; rw [setC_same]; rfl
        · rw [setC_other hk]; exact hu k
      · intro k hk
        exact ⟨rfl, hde⟩
      · intro k k' hk hk'
        have hk : inDtor ((s.setC c .dtorLock).cpc k) = true := hk
        have hk' : inDtor ((s.setC c .dtorLock).cpc k') = true := hk'
        have a : k = c := by
          by_cases hkc : k = c
          · exact hkc
          · rw [setC_other hkc, hnd k] at hk; cases hk
        have b : k' = c := by
          by_cases hkc : k' = c
          · exact hkc
          · rw [setC_other hkc, hnd k'] at hk'; cases hk'
        rw [a, b]
      · intro _ _; exact hsh
      · intro k hk
        have hk : (s.setC c .dtorLock).cpc k = .dtorNotify ∨ (s.setC c .dtorLock).cpc k = .dtorJoin ∨
          (s.setC c .dtorLock).cpc k = .aborted := hk
        have := hnd k
        by_cases hkc : k = c
        · subst hkc; rw [setC_same] at hk; simp at hk
        · rw [setC_other hkc] at hk
          rcases hk with hk | hk | hk <;> rw [hk] at this <;> cases this
      · intro _; rfl
      · intro hx
        have hx : s.destroyed = true := hx
        rw [hde] at hx; cases hx
      · intro hx
        have hx : s.shutdown = true := hx
        rw [hsh] at hx; cases hx
      · intro _ _
        exact ⟨c, by show inDtor ((s.setC c .dtorLock).cpc c) = true; rw [setC_same]; rfl⟩
  | dtorLock c hc ho =>
      have hd := h.dtor c (by rw [hc]; rfl)
      have hcc : ∀ k, inDtor (s.cpc k) = true → k = c := fun k hk => h.one k c hk (by rw [hc]; rfl)
      have hcp : ∀ k, k ≠ c → inDtor (s.cpc k) = false := by
        intro k hk
        cases hx : inDtor (s.cpc k) with
        | false => rfl
        | true => exact absurd (hcc k hx) hk
      refine ⟨?_, clock_same (s := s) h.clock (by simp), ?_, ?_, ?_, ?_, ?_, ?_, ?_, ?_, ?_, ?_, ?_, ?_⟩
      · rw [shut_append]; simp [Spec.Pool.shut]; rfl
      · intro w hne
        refine h.task w ?_
        by_cases hk : Who.task w = c
        · rw [hk, hc]; simp
        · have hne : (s.setC c .dtorNotify).cpc (.task w) ≠ .idle := hne
          rwa [setC_other hk] at hne
      · intro k
        show (∀ p op, (s.setC c .dtorNotify).cpc (.ext k) = .call p op → p = true) ∧
          ∀ p id, (s.setC c .dtorNotify).cpc (.ext k) = .notify p id → p = true
        by_cases hk : Who.ext k = c
        · subst hk; rw [setC_same]; simp
        · rw [setC_other hk]; exact h.ext k
      · intro hdy k
        show usesPtr ((s.setC c .dtorNotify).cpc k) = false
        by_cases hk : k = c
        · subst hk; rw [setC_same]; rfl
        · rw [setC_other hk]; exact h.ptr hdy k
      · intro _ _; exact hd
      · intro k k' hk hk'
        have hk : inDtor ((s.setC c .dtorNotify).cpc k) = true := hk
        have hk' : inDtor ((s.setC c .dtorNotify).cpc k') = true := hk'
        have a : k = c := by
          by_cases hkc : k = c
          · exact hkc
          · rw [setC_other hkc, hcp k hkc] at hk; cases hk
        have b : k' = c := by
          by_cases hkc : k' = c
          · exact hkc
          · rw [setC_other hkc, hcp k' hkc] at hk'; cases hk'
        rw [a, b]
      · intro k hk
        have hk : (s.setC c .dtorNotify).cpc k = .dtorLock := hk
        by_cases hkc : k = c
        · subst hkc; rw [setC_same] at hk; cases hk
        · rw [setC_other hkc] at hk
          have := hcp k hkc
          rw [hk] at this; cases this
      · intro _ _; rfl
      · intro _; exact hd.1
      · intro hx
        have hx : s.destroyed = true := hx
        rw [hd.2] at hx; cases hx
      · intro _ _; rfl
      · intro _ _
        exact ⟨c, by show (s.setC c .dtorNotify).cpc c = _; rw [setC_same]⟩
      · intro _ _
        exact ⟨c, by show inDtor ((s.setC c .dtorNotify).cpc c) = true; rw [setC_same]; rfl⟩
  | dtorNotify c hc =>
      have hd := h.dtor c (by rw [hc]; rfl)
      have hsh := h.after c (Or.inl hc)
      have hcc : ∀ k, inDtor (s.cpc k) = true → k = c := fun k hk => h.one k c hk (by rw [hc]; rfl)
      have hcp : ∀ k, k ≠ c → inDtor (s.cpc k) = false := by
        intro k hk
        cases hx : inDtor (s.cpc k) with
        | false => rfl
        | true => exact absurd (hcc k hx) hk
      refine ⟨?_, clock_same (s := s) h.clock (by simp), ?_, ?_, ?_, ?_, ?_, ?_, ?_, ?_, ?_, ?_, ?_, ?_⟩
      · rw [shut_neutral (by simp)]; exact h.shut
      · intro w hne
        have h1 : s.cpc (.task w) ≠ .idle := by
          by_cases hk : Who.task w = c
          · rw [hk, hc]; simp
          · have hne : (s.setC c .dtorJoin).cpc (.task w) ≠ .idle := hne
            rwa [setC_other hk] at hne
        obtain ⟨h2, id, h3⟩ := h.task w h1
        exact ⟨h2, id, wake_exec.mpr h3⟩
      · intro k
        show (∀ p op, (s.setC c .dtorJoin).cpc (.ext k) = .call p op → p = true) ∧
          ∀ p id, (s.setC c .dtorJoin).cpc (.ext k) = .notify p id → p = true
        by_cases hk : Who.ext k = c
        · subst hk; rw [setC_same]; simp
        · rw [setC_other hk]; exact h.ext k
      · intro hdy k
        show usesPtr ((s.setC c .dtorJoin).cpc k) = false
        by_cases hk : k = c
        · subst hk; rw [setC_same]; rfl
        · rw [setC_other hk]; exact h.ptr hdy k
      · intro _ _; exact hd
      · intro k k' hk hk'
        have hk : inDtor ((s.setC c .dtorJoin).cpc k) = true := hk
        have hk' : inDtor ((s.setC c .dtorJoin).cpc k') = true := hk'
        have a : k = c := by
          by_cases hkc : k = c
          · exact hkc
          · rw [setC_other hkc, hcp k hkc] at hk; cases hk
        have b : k' = c := by
          by_cases hkc : k' = c
          · exact hkc
          · rw [setC_other hkc, hcp k' hkc] at hk'; cases hk'
        rw [a, b]
      · intro k hk
        have hk : (s.setC c .dtorJoin).cpc k = .dtorLock := hk
        by_cases hkc : k = c
        · subst hkc; rw [setC_same] at hk; cases hk
        · rw [setC_other hkc] at hk
          have := hcp k hkc
          rw [hk] at this; cases this
      · intro _ _; exact hsh
      · intro _; exact hd.1
      · intro hx
        have hx : s.destroyed = true := hx
        rw [hd.2] at hx; cases hx
      · intro _ _; exact hsh
      · rintro _ ⟨w, hw⟩
        have hw : isSleep (wake (s.wpc w)) = true := hw
        rw [wake_not_sleep] at hw; cases hw
      · intro _ _
        exact ⟨c, by show inDtor ((s.setC c .dtorJoin).cpc c) = true; rw [setC_same]; rfl⟩
  | dtorJoin c hc ho =>
      have hd := h.dtor c (by rw [hc]; rfl)
      have hsh := h.after c (Or.inr (Or.inl hc))
      have hcc : ∀ k, inDtor (s.cpc k) = true → k = c := fun k hk => h.one k c hk (by rw [hc]; rfl)
      have hcp : ∀ k, inDtor ((s.setC c .idle).cpc k) = false := by
        intro k
        by_cases hkc : k = c
        · subst hkc; rw [setC_same]; rfl
        · rw [setC_other hkc]
          cases hx : inDtor (s.cpc k) with
          | false => rfl
          | true => exact absurd (hcc k hx) hkc
      refine ⟨?_, clock_same (s := s) h.clock (by simp), ?_, ?_, ?_, ?_, ?_, ?_, ?_, ?_, ?_, ?_, ?_, ?_⟩
      · rw [shut_neutral (by simp)]; exact h.shut
      · intro w hne
        refine h.task w ?_
        by_cases hk : Who.task w = c
        · rw [hk, hc]; simp
        · have hne : (s.setC c .idle).cpc (.task w) ≠ .idle := hne
          rwa [setC_other hk] at hne
      · intro k
        show (∀ p op, (s.setC c .idle).cpc (.ext k) = .call p op → p = true) ∧
          ∀ p id, (s.setC c .idle).cpc (.ext k) = .notify p id → p = true
        by_cases hk : Who.ext k = c
        · subst hk; rw [setC_same]; simp
        · rw [setC_other hk]; exact h.ext k
      · intro hdy k
        show usesPtr ((s.setC c .idle).cpc k) = false
        by_cases hk : k = c
        · subst hk; rw [setC_same]; rfl
        · rw [setC_other hk]; exact h.ptr hdy k
      · intro k hk
        have hk : inDtor ((s.setC c .idle).cpc k) = true := hk
        rw [hcp k] at hk; cases hk
      · intro k k' hk
        have hk : inDtor ((s.setC c .idle).cpc k) = true := hk
        rw [hcp k] at hk; cases hk
      · intro k hk
        have hk : (s.setC c .idle).cpc k = .dtorLock := hk
        have := hcp k
        rw [hk] at this; cases this
      · intro _ _; exact hsh
      · intro _; exact hd.1
      · intro _
        exact ⟨hd.1, hsh, ho⟩
      · intro _ _; exact hsh
      · rintro _ ⟨w, hw⟩
        have hw : isSleep (s.wpc w) = true := hw
        rcases Nat.lt_or_ge w cfg.threads with hlt | hge
        · rw [ho w hlt] at hw; cases hw
        · rw [hm.out w hge] at hw; cases hw
      · intro _ hx
        cases hx
  | dtorSelf w hc hw ho =>
      have hd := h.dtor (.task w) (by rw [hc]; rfl)
      have hsh := h.after (.task w) (Or.inr (Or.inl hc))
      have hcc : ∀ k, inDtor (s.cpc k) = true → k = .task w := fun k hk => h.one k _ hk (by rw [hc]; rfl)
      have hcp : ∀ k, k ≠ .task w → inDtor (s.cpc k) = false := by
        intro k hk
        cases hx : inDtor (s.cpc k) with
        | false => rfl
        | true => exact absurd (hcc k hx) hk
      refine ⟨?_, clock_same (s := s) h.clock (by simp), ?_, ?_, ?_, ?_, ?_, ?_, ?_, ?_, ?_, ?_, ?_, ?_⟩
      · rw [shut_neutral (by simp)]; exact h.shut
      · intro k hne
        refine h.task k ?_
        by_cases hk : Who.task k = .task w
        · rw [hk, hc]; simp
        · rwa [setC_other hk] at hne
      · intro k
        rw [setC_other (by simp)]
        exact h.ext k
      · intro hdy k
        by_cases hk : k = .task w
        · subst hk; rw [setC_same]; rfl
        · rw [setC_other hk]; exact h.ptr hdy k
      · intro _ _; exact hd
      · intro k k' hk hk'
        have a : k = .task w := by
          by_cases hkc : k = .task w
          · exact hkc
          · rw [setC_other hkc, hcp k hkc] at hk; cases hk
        have b : k' = .task w := by
          by_cases hkc : k' = .task w
          · exact hkc
          · rw [setC_other hkc, hcp k' hkc] at hk'; cases hk'
        rw [a, b]
      · intro k hk
        by_cases hkc : k = .task w
        · subst hkc; rw [setC_same] at hk; cases hk
        · rw [setC_other hkc] at hk
          have := hcp k hkc
          rw [hk] at this; cases this
      · intro _ _; exact hsh
      · intro _; exact hd.1
      · intro hx
        have hx : s.destroyed = true := hx
        rw [hd.2] at hx; cases hx
      · intro _ _; exact hsh
      · intro hs hex
        obtain ⟨k, hk⟩ := h.sleep hs hex
        refine ⟨k, ?_⟩
        rw [setC_other]
        · exact hk
        · rintro rfl; rw [hc] at hk; cases hk
      · intro _ _
        exact ⟨.task w, by rw [setC_same]; rfl⟩

theorem invC_run (h : Run cfg es s) : InvC cfg es s := by
  induction h with
  | init =>
      constructor <;> simp [init, Spec.Pool.shut, clockAfter, inDtor, isSleep]
  | step h hs ih => exact invC_step (invM_run h) ih hs

end Gul14.Pool
