import Verif.ThreadPool.Safety

/-! # C54, C55, C57: wake-ups, progress, destruction -/
namespace Gul14.Pool
open Spec.Pool

variable {cfg : Cfg} {es : List Ev} {s s' : St} {e : Ev}

/-! ### C54: no lost wake-up -/

/-- The worker is neither asleep nor at its end. -/
def awake : Wpc → Bool
  | .sleep _ | .over => false
  | _ => true

/-- A worker is awake, a notification is about to be sent, or a worker sleeps with a deadline that is not
later than the start times of the pending tasks. -/
def Attended (cfg : Cfg) (s : St) : Prop :=
  (∃ w, w < cfg.threads ∧ awake (s.wpc w) = true) ∨ (∃ c p id, s.cpc c = .notify p id) ∨
  ∃ w d, w < cfg.threads ∧ s.wpc w = .sleep (some d) ∧ ∀ t, t ∈ s.pending → d ≤ t.start

theorem attended_step (h : Run cfg es s) (ih : s.shutdown = false → s.pending ≠ [] → Attended cfg s)
    (hs : Step cfg s e s') : s'.shutdown = false → s'.pending ≠ [] → Attended cfg s' := by
  have hC := invC_run h
  have hM := invM_run h
  -- a caller that is not about to notify makes a step
  have keyC : ∀ {c : Who} {p : Cpc}, s'.wpc = s.wpc → s'.cpc = (s.setC c p).cpc → (∀ q id, s.cpc c ≠ .notify q id) →
      (∀ t, t ∈ s'.pending → t ∈ s.pending) → s'.shutdown = s.shutdown →
      s'.shutdown = false → s'.pending ≠ [] → Attended cfg s' := by
    intro c p h1 h2 h3 h4 h5 h6 h7
    have h7' : s.pending ≠ [] := by
      intro h8
      cases hp : s'.pending with
      | nil => exact h7 hp
      | cons t ts =>
          have := h4 t (by rw [hp]; simp)
          rw [h8] at this; cases this
    rcases ih (by rw [← h5]; exact h6) h7' with ⟨w, hw, ha⟩ | ⟨c', q, id, hc'⟩ | ⟨w, d, hw, hsl, hd⟩
    · exact Or.inl ⟨w, hw, by rw [h1]; exact ha⟩
    · refine Or.inr (Or.inl ⟨c', q, id, ?_⟩)
      rw [h2, setC_other]
      · exact hc'
      · rintro rfl; exact h3 q id hc'
    · exact Or.inr (Or.inr ⟨w, d, hw, by rw [h1]; exact hsl, fun t ht => hd t (h4 t ht)⟩)
  -- a worker is awake afterwards
  have keyW : ∀ {w : Nat} {p : Wpc}, w < cfg.threads → s'.wpc w = p → awake p = true →
      s'.shutdown = false → s'.pending ≠ [] → Attended cfg s' := by
    intro w p hw h1 h2 _ _
    exact Or.inl ⟨w, hw, by rw [h1]; exact h2⟩
  cases hs with
  | tick t => exact ih
  | begin c ptr op hi =>
      exact keyC (c := c) (p := .call ptr op) rfl rfl (by rw [hi]; simp) (fun _ h => h) rfl
  | body c ptr op hc ho =>
      intro h1 h2
      by_cases hadd : ∃ name start, op = .add name start
      · obtain ⟨name, start, rfl⟩ := hadd
        by_cases hf : isFull cfg s = true
        · have he : section_ cfg s c ptr (.add name start) = (.full c, s.setC c .idle) := by simp only [section_, if_pos hf]
          exact keyC (c := c) (p := .idle) (by rw [he]; rfl) (by rw [he]) (by rw [hc]; simp) (by rw [he]; exact fun _ h => h)
            (by rw [he]; rfl) h1 h2
        · by_cases hd : s.dying = true
          · have he : section_ cfg s c ptr (.add name start) = (.expired c, s.setC c .idle) := by
              simp only [section_, if_neg hf, if_pos hd]
            exact keyC (c := c) (p := .idle) (by rw [he]; rfl) (by rw [he]) (by rw [hc]; simp) (by rw [he]; exact fun _ h => h)
              (by rw [he]; rfl) h1 h2
          · refine Or.inr (Or.inl ⟨c, ptr, s.nextId, ?_⟩)
            simp only [section_, if_neg hf, if_neg hd]
            exact setC_same _ _ _
      · obtain ⟨p, hp, _⟩ := section_cpc cfg s c ptr op
        refine keyC (c := c) (p := p) (section_wpc ..) hp (by rw [hc]; simp) ?_ (section_shutdown ..) h1 h2
        cases op <;> simp only [section_] <;> (repeat' split) <;> first | exact fun _ h => h | skip
        · exact absurd ⟨_, _, rfl⟩ hadd
        · intro t ht; cases ht
        · intro t ht; exact List.mem_of_mem_eraseP ht
  | fail c ptr op hc ho ha =>
      exact keyC (c := c) (p := .idle) rfl rfl (by rw [hc]; simp) (fun _ h => h) rfl
  | notifyOne c ptr id w hc hw hsl => exact keyW hw (setW_same s w .want) rfl
  | notifyNone c ptr id hc hsl =>
      intro h1 _
      refine Or.inl ⟨0, (threads_pos h).1, ?_⟩
      have h2 := hsl 0 (threads_pos h).1
      have h3 : s.wpc 0 ≠ .over := by
        intro h3
        have := hC.over 0 h3
        have h1 : s.shutdown = false := h1
        rw [h1] at this; cases this
      show awake (s.wpc 0) = true
      cases hq : s.wpc 0 <;> simp_all [isSleep, awake]
  | handleCancel c id hk hi =>
      exact keyC (c := c) (p := .cancelLock id) rfl rfl (by rw [hi]; simp) (fun _ h => h) rfl
  | handleCancelLock c id hc =>
      exact keyC (c := c) (p := .call true (.cancel id)) rfl rfl (by rw [hc]; simp) (fun _ h => h) rfl
  | handleCancelThrow c id hc =>
      exact keyC (c := c) (p := .idle) rfl rfl (by rw [hc]; simp) (fun _ h => h) rfl
  | handleState c id hk hi =>
      exact keyC (c := c) (p := .stateLock id) rfl rfl (by rw [hi]; simp) (fun _ h => h) rfl
  | handleStateLock c id hc =>
      exact keyC (c := c) (p := .call true (.state id)) rfl rfl (by rw [hc]; simp) (fun _ h => h) rfl
  | handleStateThrow c id hc =>
      exact keyC (c := c) (p := .idle) rfl rfl (by rw [hc]; simp) (fun _ h => h) rfl
  | handleCheck c id hc =>
      exact keyC (c := c) (p := .idle) rfl rfl (by rw [hc]; simp) (fun _ h => h) rfl
  | handleComplete => exact ih
  | handleNoResult => exact ih
  | handleResult => exact ih
  | lock w hw hp ho => exact keyW hw (setW_same _ w .head) rfl
  | leave w hw hp hsd =>
      intro h1
      have h1 : s.shutdown = false := h1
      rw [hsd] at h1; cases h1
  | wait w hw hp hsd hpe =>
      intro _ h2
      exact absurd hpe h2
  | read w hw hp hsd hpe => exact keyW hw (setW_same s w (.scan s.clock)) rfl
  | waitUntil w now hw hp hpi =>
      intro _ h2
      obtain ⟨d, h3, h4, _⟩ := earliest_spec (l := s.pending) h2
      exact Or.inr (Or.inr ⟨w, d, hw, by rw [setW_same, h3], h4⟩)
  | start w now t rest hw hp hpi => exact keyW hw (setW_same _ w (.exec t.id)) rfl
  | finish w id o hw hp hc => exact keyW hw (setW_same _ w (.done id)) rfl
  | retire w id hw hp ho => exact keyW hw (setW_same _ w .head) rfl
  | timeout w d hw hp hd => exact keyW hw (setW_same s w .want) rfl
  | spurious w hw hp => exact keyW hw (setW_same s w .want) rfl
  | release c hi hc hd hu =>
      exact keyC (c := c) (p := .dtorLock) rfl rfl (by rw [hi]; simp) (fun _ h => h) rfl
  | dtorLock c hc ho =>
      intro h1; cases h1
  | dtorNotify c hc =>
      intro h1
      have h1 : s.shutdown = false := h1
      rw [hC.after c (Or.inl hc)] at h1; cases h1
  | dtorJoin c hc ho =>
      intro _ h2
      exact absurd rfl h2
  | dtorSelf w hc hw ho =>
      exact keyC (c := .task w) (p := .aborted) rfl rfl (by rw [hc]; simp) (fun _ h => h) rfl

theorem attended (h : Run cfg es s) : s.shutdown = false → s.pending ≠ [] → Attended cfg s := by
  induction h with
  | init => intro _ h; exact absurd rfl h
  | step h hs ih => exact attended_step h ih hs

/-- **C54.**  While shutdown has not been requested and a task is pending, a worker is awake, or a
notification is about to be sent, or a worker sleeps with a deadline that is not later than the start time of
any pending task. -/
theorem c54_no_lost_wakeup (h : Run cfg es s) (hsm : Small es) (hsd : shut es = false) (hq : queue es ≠ []) :
    (∃ w, w < cfg.threads ∧ awake (s.wpc w) = true) ∨ (∃ c p id, s.cpc c = .notify p id) ∨
    ∃ w d, w < cfg.threads ∧ s.wpc w = .sleep (some d) ∧ ∀ t, t ∈ queue es → d ≤ t.start := by
  have hT := invT_run h hsm
  rw [← hT.queue] at hq ⊢
  exact attended h (by rw [(invC_run h).shut]; exact hsd) hq

/-! ### C54, C57: progress -/

/-- Steps of workers, and of calls and destructors in progress: no new calls, no change of the clock, no
spurious wake-ups. -/
def quiet : Ev → Bool
  | .tick _ | .spurious _ | .begin _ _ | .emptied _ _ | .complete _ _ _ | .result _ _ _ | .release _ => false
  | _ => true

def Quiet (cfg : Cfg) (s s' : St) : Prop := ∃ e, Step cfg s e s' ∧ quiet e = true

inductive QuietRun (cfg : Cfg) (s : St) : Nat → St → Prop
  | nil : QuietRun cfg s 0 s
  | step {n : Nat} {s1 s2 : St} (h : QuietRun cfg s n s1) (hq : Quiet cfg s1 s2) : QuietRun cfg s (n + 1) s2

/-- Sum of the first `n` values. -/
def total (f : Nat → Nat) : Nat → Nat
  | 0 => 0
  | n + 1 => total f n + f n

theorem total_congr {f g : Nat → Nat} {n : Nat} (h : ∀ k, k < n → f k = g k) : total f n = total g n := by
  induction n with
  | zero => rfl
  | succ n ih => simp only [total]; rw [ih (fun k hk => h k (by omega)), h n (by omega)]

theorem total_change {f g : Nat → Nat} {i n : Nat} (hi : i < n) (h : ∀ k, k ≠ i → g k = f k) :
    total g n + f i = total f n + g i := by
  induction n with
  | zero => omega
  | succ n ih =>
      simp only [total]
      by_cases hn : n = i
      · subst hn
        have : total g n = total f n := total_congr (fun k hk => h k (by omega))
        omega
      · have h1 := ih (by omega)
        have := h n hn
        omega

theorem total_add_le {f g : Nat → Nat} {n c : Nat} (h : ∀ k, k < n → g k ≤ f k + c) : total g n ≤ total f n + c * n := by
  induction n with
  | zero => simp [total]
  | succ n ih =>
      simp only [total]
      have h1 := ih (fun k hk => h k (by omega))
      have h2 := h n (by omega)
      rw [Nat.mul_succ]; omega

/-- Steps of a worker still to come, apart from those for pending tasks. -/
def wcost (clock : Int) : Wpc → Nat
  | .want => 3
  | .head => 2
  | .scan now => if now = clock then 1 else 5
  | .sleep none => 0
  | .sleep (some d) => if d ≤ clock then 4 else 0
  | .exec _ => 4
  | .done _ => 3
  | .over => 0

/-- Steps of a caller still to come. -/
def ccost (n : Nat) : Cpc → Nat
  | .idle => 0
  | .call _ _ => 13
  | .notify _ _ => 4
  | .cancelLock _ => 14
  | .stateLock _ => 14
  | .check _ => 1
  | .dtorLock => 3 * n + 3
  | .dtorNotify => 3 * n + 2
  | .dtorJoin => 1
  | .aborted => 0

/-- The number of steps that may follow. -/
def budget (cfg : Cfg) (N : Nat) (s : St) : Nat :=
  8 * s.pending.length + total (fun w => wcost s.clock (s.wpc w)) cfg.threads +
  total (fun k => ccost cfg.threads (s.cpc (.ext k))) N + total (fun w => ccost cfg.threads (s.cpc (.task w))) cfg.threads

/-- The callers that can be in a call. -/
def InRange (cfg : Cfg) (N : Nat) : Who → Prop
  | .ext k => k < N
  | .task w => w < cfg.threads

theorem budget_setC {N : Nat} {c : Who} {p : Cpc} (hr : InRange cfg N c) (h2 : s'.wpc = s.wpc)
    (h3 : s'.clock = s.clock) (h4 : s'.cpc = (s.setC c p).cpc) :
    budget cfg N s' + ccost cfg.threads (s.cpc c) + 8 * s.pending.length =
      budget cfg N s + ccost cfg.threads p + 8 * s'.pending.length := by
  unfold budget
  rw [h2, h3, h4]
  cases c with
  | ext k =>
      have h5 := total_change (f := fun k => ccost cfg.threads (s.cpc (.ext k)))
        (g := fun j => ccost cfg.threads ((s.setC (.ext k) p).cpc (.ext j))) (n := N) (i := k) hr
        (fun j hj => by rw [setC_other (by simpa using hj)])
      simp only [setC_same] at h5
      have h6 : total (fun w => ccost cfg.threads ((s.setC (.ext k) p).cpc (.task w))) cfg.threads =
          total (fun w => ccost cfg.threads (s.cpc (.task w))) cfg.threads :=
        total_congr (fun j _ => by rw [setC_other (by simp)])
      omega
  | task w =>
      have h5 := total_change (f := fun k => ccost cfg.threads (s.cpc (.task k)))
        (g := fun j => ccost cfg.threads ((s.setC (.task w) p).cpc (.task j))) (n := cfg.threads) (i := w) hr
        (fun j hj => by rw [setC_other (by simpa using hj)])
      simp only [setC_same] at h5
      have h6 : total (fun k => ccost cfg.threads ((s.setC (.task w) p).cpc (.ext k))) N =
          total (fun k => ccost cfg.threads (s.cpc (.ext k))) N :=
        total_congr (fun j _ => by rw [setC_other (by simp)])
      omega

theorem budget_setW {N w : Nat} {p : Wpc} (hw : w < cfg.threads) (h2 : s'.wpc = (s.setW w p).wpc)
    (h3 : s'.clock = s.clock) (h4 : s'.cpc = s.cpc) :
    budget cfg N s' + wcost s.clock (s.wpc w) + 8 * s.pending.length =
      budget cfg N s + wcost s.clock p + 8 * s'.pending.length := by
  unfold budget
  rw [h2, h3, h4]
  have h5 := total_change (f := fun k => wcost s.clock (s.wpc k))
    (g := fun j => wcost s.clock ((s.setW w p).wpc j)) (n := cfg.threads) (i := w) hw
    (fun j hj => by rw [setW_other hj])
  simp only [setW_same] at h5
  omega

/-- Only finitely many callers have ever been in a call. -/
theorem run_finite (h : Run cfg es s) : ∃ N, ∀ c, s.cpc c ≠ .idle → InRange cfg N c := by
  have hC := invC_run h
  have : ∃ N, ∀ k, N ≤ k → s.cpc (.ext k) = .idle := by
    clear hC
    induction h with
    | init => exact ⟨0, fun _ _ => rfl⟩
    | @step es s s' e h hs ih =>
        obtain ⟨N, hN⟩ := ih
        have key : ∀ c p, s'.cpc = (s.setC c p).cpc → ∃ N, ∀ k, N ≤ k → s'.cpc (.ext k) = .idle := by
          intro c p hc
          rw [hc]
          cases c with
          | ext j =>
              refine ⟨max N (j + 1), fun k hk => ?_⟩
              rw [setC_other (by simp; omega)]
              exact hN k (by omega)
          | task w =>
              refine ⟨N, fun k hk => ?_⟩
              rw [setC_other (by simp)]
              exact hN k hk
        cases hs with
        | body c ptr op hc ho =>
            obtain ⟨p, hp, _⟩ := section_cpc cfg s c ptr op
            exact key c p hp
        | fail => exact key _ _ rfl
        | begin => exact key _ _ rfl
        | notifyOne => exact key _ _ rfl
        | notifyNone => exact key _ _ rfl
        | handleCancel => exact key _ _ rfl
        | handleCancelLock => exact key _ _ rfl
        | handleCancelThrow => exact key _ _ rfl
        | handleState => exact key _ _ rfl
        | handleStateLock => exact key _ _ rfl
        | handleStateThrow => exact key _ _ rfl
        | handleCheck => exact key _ _ rfl
        | release => exact key _ _ rfl
        | dtorLock => exact key _ _ rfl
        | dtorNotify => exact key _ _ rfl
        | dtorJoin => exact key _ _ rfl
        | dtorSelf => exact key _ _ rfl
        | _ => exact ⟨N, hN⟩
  obtain ⟨N, hN⟩ := this
  refine ⟨N, ?_⟩
  intro c hc
  cases c with
  | ext k =>
      show k < N
      rcases Nat.lt_or_ge k N with h1 | h1
      · exact h1
      · exact absurd (hN k h1) hc
  | task w => exact (hC.task w hc).1

/-- A quiet step reduces the budget, and starts no new call. -/
theorem quiet_step {N : Nat} (h : Run cfg es s) (hN : ∀ c, s.cpc c ≠ .idle → InRange cfg N c) (hq : Quiet cfg s s') :
    budget cfg N s' < budget cfg N s ∧ ∀ c, s'.cpc c ≠ .idle → InRange cfg N c := by
  obtain ⟨e, hs, he⟩ := hq
  have hM := invM_run h
  have keyC : ∀ {c : Who} {p : Cpc}, s'.wpc = s.wpc → s'.cpc = (s.setC c p).cpc → s.cpc c ≠ .idle →
      s'.pending = s.pending → s'.clock = s.clock → ccost cfg.threads p < ccost cfg.threads (s.cpc c) →
      budget cfg N s' < budget cfg N s ∧ ∀ c, s'.cpc c ≠ .idle → InRange cfg N c := by
    intro c p h1 h2 h3 h4 h5 h6
    have := budget_setC (hN c h3) h1 h5 h2
    rw [h4] at this
    refine ⟨by omega, ?_⟩
    intro c' hc'
    by_cases hcc : c' = c
    · subst hcc; exact hN c' h3
    · rw [h2, setC_other hcc] at hc'; exact hN c' hc'
  have keyW : ∀ {w : Nat} {p : Wpc}, w < cfg.threads → s'.wpc = (s.setW w p).wpc → s'.cpc = s.cpc →
      s'.clock = s.clock → wcost s.clock p + 8 * s'.pending.length < wcost s.clock (s.wpc w) + 8 * s.pending.length →
      budget cfg N s' < budget cfg N s ∧ ∀ c, s'.cpc c ≠ .idle → InRange cfg N c := by
    intro w p hw h1 h2 h3 h4
    have := budget_setW (N := N) hw h1 h3 h2
    exact ⟨by omega, by rw [h2]; exact hN⟩
  cases hs with
  | tick => cases he
  | begin => cases he
  | body c ptr op hc ho =>
      have hne : s.cpc c ≠ .idle := by rw [hc]; simp
      have hr := hN c hne
      obtain ⟨p, hp, hp'⟩ := section_cpc cfg s c ptr op
      have hlen : (section_ cfg s c ptr op).2.pending.length ≤ s.pending.length + 1 := by
        cases op <;> simp only [section_] <;> (repeat' split) <;> first | exact Nat.le_succ _ | skip
        · show (s.pending ++ [_]).length ≤ _; simp
        · show ([] : List Task).length ≤ _; simp
        · show (s.pending.eraseP _).length ≤ _
          exact Nat.le_succ_of_le List.eraseP_sublist.length_le
      have hb := budget_setC (N := N) hr (section_wpc cfg s c ptr op) (section_clock cfg s c ptr op) hp
      rw [hc] at hb
      have hcp : ccost cfg.threads p ≤ 4 := by
        rcases hp' with rfl | ⟨_, rfl, _⟩ | ⟨_, rfl⟩ <;> simp [ccost]
      have hc13 : ccost cfg.threads (.call ptr op) = 13 := rfl
      refine ⟨by omega, ?_⟩
      intro c' hc'
      by_cases hcc : c' = c
      · subst hcc; exact hr
      · rw [hp, setC_other hcc] at hc'; exact hN c' hc'
  | fail c ptr op hc ho ha =>
      exact keyC (c := c) (p := .idle) rfl rfl (by rw [hc]; simp) rfl rfl (by rw [hc]; simp [ccost])
  | notifyOne c ptr id w hc hw hsl =>
      have hne : s.cpc c ≠ .idle := by rw [hc]; simp
      have h1 := budget_setW (s' := s.setW w .want) (p := .want) (N := N) hw rfl rfl rfl
      have h2 := budget_setC (s := s.setW w .want) (s' := (s.setW w .want).setC c .idle) (p := .idle) (hN c hne) rfl rfl rfl
      have h3 : (s.setW w .want).cpc c = .notify ptr id := hc
      have h4 : (s.setW w .want).pending = s.pending := rfl
      rw [h3] at h2
      have h5 : ((s.setW w .want).setC c .idle).pending = s.pending := rfl
      rw [h4] at h1 h2
      rw [h5] at h2
      simp only [ccost, wcost] at h1 h2
      refine ⟨by omega, ?_⟩
      intro c' hc'
      by_cases hcc : c' = c
      · subst hcc; exact hN c' hne
      · rw [setC_other hcc] at hc'; exact hN c' hc'
  | notifyNone c ptr id hc hsl =>
      exact keyC (c := c) (p := .idle) rfl rfl (by rw [hc]; simp) rfl rfl (by rw [hc]; simp [ccost])
  | handleCancel => cases he
  | handleCancelLock c id hc =>
      exact keyC (c := c) (p := .call true (.cancel id)) rfl rfl (by rw [hc]; simp) rfl rfl (by rw [hc]; simp [ccost])
  | handleCancelThrow c id hc =>
      exact keyC (c := c) (p := .idle) rfl rfl (by rw [hc]; simp) rfl rfl (by rw [hc]; simp [ccost])
  | handleState => cases he
  | handleStateLock c id hc =>
      exact keyC (c := c) (p := .call true (.state id)) rfl rfl (by rw [hc]; simp) rfl rfl (by rw [hc]; simp [ccost])
  | handleStateThrow c id hc =>
      exact keyC (c := c) (p := .idle) rfl rfl (by rw [hc]; simp) rfl rfl (by rw [hc]; simp [ccost])
  | handleCheck c id hc =>
      exact keyC (c := c) (p := .idle) rfl rfl (by rw [hc]; simp) rfl rfl (by rw [hc]; simp [ccost])
  | handleComplete => cases he
  | handleNoResult => cases he
  | handleResult => cases he
  | lock w hw hp ho => exact keyW (p := .head) hw rfl rfl rfl (by rw [hp]; simp [wcost, St.setW])
  | leave w hw hp hsd => exact keyW (p := .over) hw rfl rfl rfl (by rw [hp]; simp [wcost, St.setW])
  | wait w hw hp hsd hpe => exact keyW (p := .sleep none) hw rfl rfl rfl (by rw [hp]; simp [wcost, St.setW])
  | read w hw hp hsd hpe => exact keyW (p := .scan s.clock) hw rfl rfl rfl (by rw [hp]; simp [wcost, St.setW])
  | waitUntil w now hw hp hpi =>
      refine keyW (p := .sleep (earliest s.pending)) hw rfl rfl rfl ?_
      rw [hp]
      obtain ⟨d, h1, h2, x, hx, h3⟩ := earliest_spec (hM.scan w now hp).2
      have h4 := pick_none hpi x hx
      rw [h1]
      simp only [wcost, St.setW]
      by_cases hnow : now = s.clock
      · rw [if_pos hnow, if_neg (by omega)]; omega
      · rw [if_neg hnow]; split <;> omega
  | start w now t rest hw hp hpi =>
      refine keyW (p := .exec t.id) hw rfl rfl rfl ?_
      obtain ⟨a, b, h1, h2, _⟩ := pick_some hpi
      have h3 : s.pending.length = rest.length + 1 := by
        rw [h1, h2]; simp only [List.length_append, List.length_cons]; omega
      rw [hp]
      simp only [wcost, St.setW]
      split <;> omega
  | finish w id o hw hp hc => exact keyW (p := .done id) hw rfl rfl rfl (by rw [hp]; simp [wcost, St.setW])
  | retire w id hw hp ho => exact keyW (p := .head) hw rfl rfl rfl (by rw [hp]; simp [wcost, St.setW])
  | timeout w d hw hp hd => exact keyW (p := .want) hw rfl rfl rfl (by rw [hp]; simp [wcost, St.setW, hd])
  | spurious => cases he
  | release => cases he
  | dtorLock c hc ho =>
      exact keyC (c := c) (p := .dtorNotify) rfl rfl (by rw [hc]; simp) rfl rfl (by rw [hc]; simp [ccost])
  | dtorNotify c hc =>
      have hne : s.cpc c ≠ .idle := by rw [hc]; simp
      have h2 := budget_setC (s := s) (s' := s.setC c .dtorJoin) (p := .dtorJoin) (hN c hne) rfl rfl rfl
      rw [hc] at h2
      simp only [ccost] at h2
      have h3 := total_add_le (f := fun w => wcost s.clock (s.wpc w)) (g := fun w => wcost s.clock (wake (s.wpc w)))
        (n := cfg.threads) (c := 3) (fun k _ => by cases s.wpc k <;> simp [wake, wcost])
      constructor
      · unfold budget at h2 ⊢
        simp only [St.setC] at h2 ⊢
        omega
      · intro c' hc'
        have hc' : (s.setC c .dtorJoin).cpc c' ≠ .idle := hc'
        by_cases hcc : c' = c
        · subst hcc; exact hN c' hne
        · rw [setC_other hcc] at hc'; exact hN c' hc'
  | dtorJoin c hc ho =>
      have hne : s.cpc c ≠ .idle := by rw [hc]; simp
      have h2 := budget_setC (s := s) (s' := s.setC c .idle) (p := .idle) (hN c hne) rfl rfl rfl
      rw [hc] at h2
      simp only [ccost] at h2
      constructor
      · unfold budget at h2 ⊢
        simp only [St.setC, List.length_nil] at h2 ⊢
        omega
      · intro c' hc'
        have hc' : (s.setC c .idle).cpc c' ≠ .idle := hc'
        by_cases hcc : c' = c
        · subst hcc; exact hN c' hne
        · rw [setC_other hcc] at hc'; exact hN c' hc'
  | dtorSelf w hc hw ho =>
      exact keyC (c := .task w) (p := .aborted) rfl rfl (by rw [hc]; simp) rfl rfl (by rw [hc]; simp [ccost])

theorem quietRun_run {n : Nat} (h : Run cfg es s) (hq : QuietRun cfg s n s') :
    ∃ es', Run cfg (es ++ es') s' ∧ ∀ e, e ∈ es' → quiet e = true := by
  induction hq with
  | nil => exact ⟨[], by simpa using h, by simp⟩
  | step _ hq ih =>
      obtain ⟨es', h1, h2⟩ := ih
      obtain ⟨e, hs, he⟩ := hq
      refine ⟨es' ++ [e], by rw [← List.append_assoc]; exact Run.step h1 hs, ?_⟩
      intro x hx
      simp only [List.mem_append, List.mem_singleton] at hx
      rcases hx with hx | rfl
      · exact h2 x hx
      · exact he

/-- **C54, C57.**  Without new calls, changes of the clock and spurious wake-ups, and if task functions return,
only a bounded number of steps is possible. -/
theorem c54_terminates (h : Run cfg es s) : ∃ m, ∀ n s', QuietRun cfg s n s' → n ≤ m := by
  obtain ⟨N, hN⟩ := run_finite h
  refine ⟨budget cfg N s, ?_⟩
  have key : ∀ n s', QuietRun cfg s n s' → n + budget cfg N s' ≤ budget cfg N s ∧ ∀ c, s'.cpc c ≠ .idle → InRange cfg N c := by
    intro n s' hq
    induction hq with
    | nil => exact ⟨by omega, hN⟩
    | step hqr hq ih =>
        obtain ⟨es', hr, _⟩ := quietRun_run h hqr
        have := quiet_step hr ih.2 hq
        exact ⟨by omega, this.2⟩
  intro n s' hq
  have := (key n s' hq).1
  omega

/-- A state in which nothing can happen by itself. -/
theorem stuck_owner (h : Run cfg es s) (hst : ∀ s', ¬ Quiet cfg s s') : s.owner = none := by
  have hM := invM_run h
  cases ho : s.owner with
  | none => rfl
  | some w =>
      exfalso
      have hh := (hM.own w).mpr ho
      have hw : w < cfg.threads := by
        rcases Nat.lt_or_ge w cfg.threads with h1 | h1
        · exact h1
        · rw [hM.out w h1] at hh; cases hh
      cases hp : s.wpc w with
      | head =>
          cases hsd : s.shutdown with
          | true => exact hst _ ⟨_, .leave s w hw hp hsd, rfl⟩
          | false =>
              by_cases hpe : s.pending = []
              · exact hst _ ⟨_, .wait s w hw hp hsd hpe, rfl⟩
              · exact hst _ ⟨_, .read s w hw hp hsd hpe, rfl⟩
      | scan now =>
          cases hpi : pick now s.pending with
          | none => exact hst _ ⟨_, .waitUntil s w now hw hp hpi, rfl⟩
          | some x =>
              obtain ⟨t, rest⟩ := x
              exact hst _ ⟨_, .start s w now t rest hw hp hpi, rfl⟩
      | _ => rw [hp] at hh; cases hh

theorem section_quiet {c : Who} {ptr : Bool} {op : Op} : quiet (section_ cfg s c ptr op).1 = true := by
  cases op <;> simp only [section_] <;> (repeat' split) <;> rfl

theorem stuck_caller (h : Run cfg es s) (hst : ∀ s', ¬ Quiet cfg s s') (c : Who) :
    s.cpc c = .idle ∨ s.cpc c = .dtorJoin ∨ s.cpc c = .aborted := by
  have ho := stuck_owner h hst
  cases hp : s.cpc c with
  | idle => exact Or.inl rfl
  | dtorJoin => exact Or.inr (Or.inl rfl)
  | aborted => exact Or.inr (Or.inr rfl)
  | call ptr op => exact (hst _ ⟨_, .body s c ptr op hp ho, section_quiet⟩).elim
  | notify ptr id =>
      exfalso
      by_cases hex : ∃ w, w < cfg.threads ∧ isSleep (s.wpc w) = true
      · obtain ⟨w, hw, hsl⟩ := hex
        exact hst _ ⟨_, .notifyOne s c ptr id w hp hw hsl, rfl⟩
      · refine hst _ ⟨_, .notifyNone s c ptr id hp ?_, rfl⟩
        intro w hw
        cases hsl : isSleep (s.wpc w) with
        | false => rfl
        | true => exact absurd ⟨w, hw, hsl⟩ hex
  | cancelLock id =>
      cases hd : s.dying with
      | false => exact (hst _ ⟨_, .handleCancelLock s c id hp hd, rfl⟩).elim
      | true => exact (hst _ ⟨_, .handleCancelThrow s c id hp hd, rfl⟩).elim
  | stateLock id =>
      cases hd : s.dying with
      | false => exact (hst _ ⟨_, .handleStateLock s c id hp hd, rfl⟩).elim
      | true => exact (hst _ ⟨_, .handleStateThrow s c id hp hd, rfl⟩).elim
  | check id => exact (hst _ ⟨_, .handleCheck s c id hp, rfl⟩).elim
  | dtorLock => exact (hst _ ⟨_, .dtorLock s c hp ho, rfl⟩).elim
  | dtorNotify => exact (hst _ ⟨_, .dtorNotify s c hp, rfl⟩).elim

theorem stuck_worker (h : Run cfg es s) (hst : ∀ s', ¬ Quiet cfg s s') {w : Nat} (hw : w < cfg.threads) :
    (∃ d, s.wpc w = .sleep d ∧ ∀ t, d = some t → s.clock < t) ∨ s.wpc w = .over ∨
    (∃ id, s.wpc w = .exec id) ∧ (s.cpc (.task w) = .dtorJoin ∨ s.cpc (.task w) = .aborted) := by
  have hM := invM_run h
  have ho := stuck_owner h hst
  have hh := hM.not_holds ho w
  cases hp : s.wpc w with
  | want => exact (hst _ ⟨_, .lock s w hw hp ho, rfl⟩).elim
  | head => rw [hp] at hh; cases hh
  | scan now => rw [hp] at hh; cases hh
  | sleep d =>
      refine Or.inl ⟨d, rfl, ?_⟩
      rintro t rfl
      rcases (by omega : s.clock < t ∨ t ≤ s.clock) with h1 | h1
      · exact h1
      · exact (hst _ ⟨_, .timeout s w t hw hp h1, rfl⟩).elim
  | exec id =>
      refine Or.inr (Or.inr ⟨⟨id, rfl⟩, ?_⟩)
      rcases stuck_caller h hst (.task w) with hc | hc
      · exact (hst _ ⟨_, .finish s w id (.value 0) hw hp hc, rfl⟩).elim
      · exact hc
  | done id => exact (hst _ ⟨_, .retire s w id hw hp ho, rfl⟩).elim
  | over => exact Or.inr (Or.inl rfl)

/-- **C50, C54.**  Every task that is due is executed: when nothing more happens by itself (which is the case
after a bounded number of steps, `c54_terminates`) and shutdown has not been requested, no task is running and
no task that is due is pending. -/
theorem c54_due_tasks_run {n : Nat} (h : Run cfg es s) (hq : QuietRun cfg s n s') (hst : ∀ s2, ¬ Quiet cfg s' s2) :
    ∃ es', Run cfg (es ++ es') s' ∧ (Small (es ++ es') → shut (es ++ es') = false →
      running (es ++ es') = [] ∧ ∀ t, t ∈ queue (es ++ es') → s'.clock < t.start) := by
  obtain ⟨es', hr, _⟩ := quietRun_run h hq
  refine ⟨es', hr, ?_⟩
  intro hsm hsd
  have hT := invT_run hr hsm
  have hC := invC_run hr
  have hsd' : s'.shutdown = false := by rw [hC.shut]; exact hsd
  have hasleep : ∀ w, w < cfg.threads → ∃ d, s'.wpc w = .sleep d ∧ ∀ t, d = some t → s'.clock < t := by
    intro w hw
    rcases stuck_worker hr hst hw with h1 | h1 | ⟨_, h1⟩
    · exact h1
    · rw [hC.over w h1] at hsd'; cases hsd'
    · rw [hC.after (.task w) (Or.inr h1)] at hsd'; cases hsd'
  constructor
  · cases hrun : running (es ++ es') with
    | nil => rfl
    | cons x xs =>
        exfalso
        obtain ⟨w, hw, h1⟩ := ((c50_never_lost hr hsm).2.2.2 x).mp (by rw [hrun]; simp)
        obtain ⟨d, h2, _⟩ := hasleep w hw
        rw [h2] at h1; simp at h1
  · intro t ht
    rw [← hT.queue] at ht
    rcases attended hr hsd' (by intro h0; rw [h0] at ht; cases ht) with ⟨w, hw, ha⟩ | ⟨c, p, id, hc⟩ | ⟨w, d, hw, hsl, hd⟩
    · obtain ⟨d, h2, _⟩ := hasleep w hw
      rw [h2] at ha; cases ha
    · rcases stuck_caller hr hst c with h1 | h1 | h1 <;> rw [h1] at hc <;> cases hc
    · obtain ⟨d', h2, h3⟩ := hasleep w hw
      rw [hsl] at h2
      cases h2
      have := h3 d rfl
      have := hd t ht
      omega

/-! ### C57 -/

/-- **C57.**  After shutdown has been requested, no task is started any more. -/
theorem c57_no_start {a b : List Ev} {c : Who} (h : Run cfg es s) (hes : es = a ++ .shutdown c :: b) :
    startedIds b = [] := by
  cases hb : startedIds b with
  | nil => rfl
  | cons x xs =>
      exfalso
      have hx : ∃ w n, Ev.started w x n ∈ b := by
        clear hes
        induction b with
        | nil => cases hb
        | cons y ys ih =>
            cases y with
            | started w i n =>
                simp only [startedIds, List.cons.injEq] at hb
                exact ⟨w, n, by rw [hb.1]; simp⟩
            | _ =>
                simp only [startedIds] at hb
                obtain ⟨w, n, hm⟩ := ih hb
                exact ⟨w, n, by simp [hm]⟩
      obtain ⟨w, n, hm⟩ := hx
      obtain ⟨p, q, rfl⟩ := List.append_of_mem hm
      obtain ⟨s1, s2, hr, hstep⟩ := run_split h (a := a ++ .shutdown c :: p) (e := .started w x n) (b := q) (by rw [hes]; simp)
      obtain ⟨_, _, _, hsc, _⟩ := started_cases hstep
      have h1 := ((invM_run hr).scan w n hsc).1
      have h2 := (invC_run hr).shut
      rw [h1] at h2
      have : shut (a ++ .shutdown c :: p) = true := by
        clear hes hr h2 hstep h
        induction a with
        | nil => rfl
        | cons y ys ih => cases y <;> simp only [List.cons_append, shut] <;> exact ih
      rw [this] at h2; cases h2

theorem destroyed_cases {c : Who} (hs : Step cfg s (.destroyed c) s') :
    s.cpc c = .dtorJoin ∧ ∀ w, w < cfg.threads → s.wpc w = .over := by
  generalize he : Ev.destroyed c = e at hs
  cases hs with
  | body c ptr op hc ho =>
      exfalso
      cases op <;> simp only [section_] at he <;> (repeat' split at he) <;> cases he
  | dtorJoin c hc ho => cases he; exact ⟨hc, ho⟩
  | _ => cases he

/-- The task has been started. -/
def begun : Fate → Bool
  | .running | .ended _ | .finished _ => true
  | _ => false

theorem next_begun {id : Nat} {f g : Fate} (hn : next id f e = some g)
    (hb : begun f = true ∨ ∃ w n, e = .started w id n) : begun g = true := by
  cases e with
  | started w i n =>
      simp only [next] at hn
      split at hn
      · split at hn
        · cases hn; rfl
        · cases hn
      · rename_i hi
        cases hn
        rcases hb with hb | ⟨w, n, he⟩
        · exact hb
        · cases he; exact absurd rfl hi
  | canceled c j b =>
      have hb : begun f = true := by
        rcases hb with hb | ⟨w, n, he⟩
        · exact hb
        · cases he
      cases b <;> simp only [next] at hn <;> (repeat' split at hn) <;> first | (cases hn; done) | (cases hn; exact hb) | simp_all [begun]
  | _ =>
      have hb : begun f = true := by
        rcases hb with hb | ⟨w, n, he⟩
        · exact hb
        · cases he
      simp only [next] at hn
      first
      | (cases hn; exact hb)
      | ((repeat' split at hn) <;> first | (cases hn; done) | (cases hn; exact hb) | (cases hn; rfl) | (simp_all [begun]))

theorem life_begun {id : Nat} {f g : Fate} (h : lifeFrom id f es = some g)
    (hb : begun f = true ∨ id ∈ startedIds es) : begun g = true := by
  induction es generalizing f with
  | nil =>
      cases h
      rcases hb with hb | hb
      · exact hb
      · cases hb
  | cons y ys ih =>
      simp only [lifeFrom] at h
      cases hn : next id f y with
      | none => rw [hn] at h; cases h
      | some f' =>
          rw [hn] at h
          rcases hb with hb | hb
          · exact ih h (Or.inl (next_begun hn (Or.inl hb)))
          · cases y with
            | started w i n =>
                simp only [startedIds, List.mem_cons] at hb
                rcases hb with rfl | hb
                · exact ih h (Or.inl (next_begun hn (Or.inr ⟨_, _, rfl⟩)))
                · exact ih h (Or.inr hb)
            | _ => exact ih h (Or.inr hb)

/-- **C57.**  The destructor returns only after all workers have ended and all tasks that were started have
finished. -/
theorem c57_joined {c : Who} (h : Run cfg es s) (hsm : Small es) (hs : Step cfg s (.destroyed c) s') :
    (∀ w, w < cfg.threads → s.wpc w = .over) ∧ running es = [] ∧
    ∀ id, id ∈ startedIds es → ∃ o, fate es id = some (.finished o) := by
  have hT := invT_run h hsm
  have hov := (destroyed_cases hs).2
  have hrun : running es = [] := by
    cases hr : running es with
    | nil => rfl
    | cons x xs =>
        exfalso
        obtain ⟨w, hw, h1⟩ := ((c50_never_lost h hsm).2.2.2 x).mp (by rw [hr]; simp)
        rw [hov w hw] at h1; simp at h1
  refine ⟨hov, hrun, ?_⟩
  intro id hid
  obtain ⟨f, hf, hA⟩ := hT.fates id
  have h1 := hT.started id hid
  rw [hf] at h1
  have h2 : id ∉ s.runIds := by rw [hT.running, hrun]; simp
  rw [← listed_iff hT, hf] at h2
  cases f with
  | finished o => exact ⟨o, hf⟩
  | unknown => exact absurd rfl h1.1
  | pending => exact absurd rfl h1.2
  | running => exact absurd rfl h2
  | ended o => exact absurd rfl h2
  | canceled =>
      have := life_begun hf (Or.inr hid)
      cases this

/-- Steps that access the pool object. -/
def touches : Ev → Prop
  | .tick _ | .begin _ (.state _) | .expired _ | .emptied _ _ | .complete _ _ _ | .result _ _ _ => False
  | .answer _ (.state _) _ => False
  | _ => True

/-- **C57.**  After the destruction nobody accesses the pool: the only steps are those of handles that do not
reach the pool (they throw, or use only the future). -/
theorem c57_no_access_after {c : Who} {a b : List Ev} (h : Run cfg es s) (hes : es = a ++ .destroyed c :: b)
    (hs : Step cfg s e s') : ¬ touches e := by
  have hd : s.destroyed = true := by
    clear hs
    induction h generalizing b with
    | init => simp at hes
    | @step es s s' e' h hs ih =>
        rcases List.eq_nil_or_concat b with rfl | ⟨b', x, rfl⟩
        · obtain ⟨h1, h2⟩ := List.append_inj' hes rfl
          have h3 : e' = .destroyed c := by simpa using h2
          subst h3
          generalize he : Ev.destroyed c = e at hs
          cases hs with
          | body c ptr op hc ho =>
              exfalso
              cases op <;> simp only [section_] at he <;> (repeat' split at he) <;> cases he
          | dtorJoin c hc ho => rfl
          | _ => cases he
        · have he' : es ++ [e'] = (a ++ .destroyed c :: b') ++ [x] := by rw [hes]; simp
          have hd := ih (List.append_inj' he' rfl).1
          cases hs with
          | body => rw [section_destroyed]; exact hd
          | dtorJoin => rfl
          | _ => exact hd
  have hC := invC_run h
  obtain ⟨hdy, hsh, hov⟩ := hC.destroyed hd
  have hw : ∀ w p, w < cfg.threads → s.wpc w = p → p = .over := fun w p hw hp => hp ▸ hov w hw
  have htask : ∀ w, s.cpc (.task w) = .idle := by
    intro w
    cases hp : s.cpc (.task w) with
    | idle => rfl
    | _ =>
        obtain ⟨h1, id, h2⟩ := hC.task w (by rw [hp]; simp)
        rw [hov w h1] at h2; cases h2
  have hcall : ∀ c ptr op, s.cpc c ≠ .call ptr op := by
    intro c ptr op hc
    cases c with
    | ext k =>
        have h1 := (hC.ext k).1 ptr op hc
        subst h1
        have := hC.ptr hdy (.ext k)
        rw [hc] at this; cases this
    | task w => rw [htask w] at hc; cases hc
  have hnot : ∀ c ptr id, s.cpc c ≠ .notify ptr id := by
    intro c ptr id hc
    cases c with
    | ext k =>
        have h1 := (hC.ext k).2 ptr id hc
        subst h1
        have := hC.ptr hdy (.ext k)
        rw [hc] at this; cases this
    | task w => rw [htask w] at hc; cases hc
  have hdt : ∀ c, inDtor (s.cpc c) = false := by
    intro c
    cases hx : inDtor (s.cpc c) with
    | false => rfl
    | true => rw [(hC.dtor c hx).2] at hd; cases hd
  cases hs with
  | tick => simp [touches]
  | begin c ptr op hi hc hop hext hp =>
      exfalso
      cases c with
      | ext k => rw [hp (hext k rfl)] at hdy; cases hdy
      | task w =>
          obtain ⟨h1, id, h2⟩ := hc
          rw [hov w h1] at h2; cases h2
  | body c ptr op hc ho => exact absurd hc (hcall _ _ _)
  | fail c ptr op hc ho => exact absurd hc (hcall _ _ _)
  | notifyOne c ptr id w hc => exact absurd hc (hnot _ _ _)
  | notifyNone c ptr id hc => exact absurd hc (hnot _ _ _)
  | handleCancelLock c id hc h2 => rw [h2] at hdy; cases hdy
  | handleStateLock c id hc h2 => rw [h2] at hdy; cases hdy
  | lock w h1 h2 => cases hw w _ h1 h2
  | leave w h1 h2 => cases hw w _ h1 h2
  | wait w h1 h2 => cases hw w _ h1 h2
  | read w h1 h2 => cases hw w _ h1 h2
  | waitUntil w now h1 h2 => cases hw w _ h1 h2
  | start w now t r h1 h2 => cases hw w _ h1 h2
  | finish w id o h1 h2 => cases hw w _ h1 h2
  | retire w id h1 h2 => cases hw w _ h1 h2
  | timeout w d h1 h2 => cases hw w _ h1 h2
  | spurious w h1 h2 => rw [hov w h1] at h2; cases h2
  | release c hi hc h2 => rw [h2] at hdy; cases hdy
  | dtorLock c hc => have := hdt c; rw [hc] at this; cases this
  | dtorNotify c hc => have := hdt c; rw [hc] at this; cases this
  | dtorJoin c hc => have := hdt c; rw [hc] at this; cases this
  | dtorSelf w hc => have := hdt (.task w); rw [hc] at this; cases this
  | _ => simp [touches]

theorem dtor_release (h : Run cfg es s) {c : Who} (hc : inDtor (s.cpc c) = true) : Ev.release c ∈ es := by
  induction h generalizing c with
  | init => cases hc
  | @step es s s' e h hs ih =>
      have key : ∀ {c' : Who} {p : Cpc}, s'.cpc = (s.setC c' p).cpc → (inDtor p = true → inDtor (s.cpc c') = true) →
          Ev.release c ∈ es ++ [e] := by
        intro c' p h1 h2
        rw [h1] at hc
        by_cases hcc : c = c'
        · subst hcc
          rw [setC_same] at hc
          have := ih (h2 hc); simp [this]
        · rw [setC_other hcc] at hc
          have := ih hc; simp [this]
      cases hs with
      | body c' ptr op hc' ho =>
          obtain ⟨p, hp, hp'⟩ := section_cpc cfg s c' ptr op
          refine key hp ?_
          rcases hp' with rfl | ⟨_, rfl, _⟩ | ⟨_, rfl⟩ <;> simp [inDtor]
      | fail => exact key rfl (by simp [inDtor])
      | begin => exact key rfl (by simp [inDtor])
      | notifyOne => exact key rfl (by simp [inDtor])
      | notifyNone => exact key rfl (by simp [inDtor])
      | handleCancel => exact key rfl (by simp [inDtor])
      | handleCancelLock => exact key rfl (by simp [inDtor])
      | handleCancelThrow => exact key rfl (by simp [inDtor])
      | handleState => exact key rfl (by simp [inDtor])
      | handleStateLock => exact key rfl (by simp [inDtor])
      | handleStateThrow => exact key rfl (by simp [inDtor])
      | handleCheck => exact key rfl (by simp [inDtor])
      | release c' hi =>
          by_cases hcc : c = c'
          · subst hcc; simp
          · have hc : inDtor ((s.setC c' .dtorLock).cpc c) = true := hc
            rw [setC_other hcc] at hc
            have := ih hc; simp [this]
      | dtorLock c' h' => exact key (c' := c') rfl (by rw [h']; simp [inDtor])
      | dtorNotify c' h' => exact key (c' := c') rfl (by rw [h']; simp [inDtor])
      | dtorJoin c' h' => exact key (c' := c') rfl (by simp [inDtor])
      | dtorSelf w h' => exact key (c' := .task w) rfl (by rw [h']; simp [inDtor])
      | _ => have := ih hc; simp [this]

theorem release_cases {c : Who} (hs : Step cfg s (.release c) s') : s.dying = false := by
  generalize he : Ev.release c = e at hs
  cases hs with
  | body c ptr op hc ho =>
      exfalso
      cases op <;> simp only [section_] at he <;> (repeat' split at he) <;> cases he
  | release c hi hc hd => exact hd
  | _ => cases he

theorem release_unique (h : Run cfg es s) {c c' : Who} (h1 : Ev.release c ∈ es) (h2 : Ev.release c' ∈ es) : c = c' := by
  induction h with
  | init => cases h1
  | @step es s s' e h hs ih =>
      simp only [List.mem_append, List.mem_singleton] at h1 h2
      have key : ∀ c c', Ev.release c ∈ es → e = Ev.release c' → False := by
        rintro c c' h3 rfl
        have h4 := release_cases hs
        rw [(dying_iff h).mpr ⟨c, h3⟩] at h4; cases h4
      rcases h1 with h1 | h1 <;> rcases h2 with h2 | h2
      · exact ih h1 h2
      · exact (key c c' h1 h2.symm).elim
      · exact (key c' c h2 h1.symm).elim
      · rw [← h1] at h2; cases h2; rfl

theorem aborted_task (h : Run cfg es s) {c : Who} (hc : s.cpc c = .aborted) :
    (∃ w, c = .task w) ∧ Ev.terminate c ∈ es := by
  induction h generalizing c with
  | init => cases hc
  | @step es s s' e h hs ih =>
      have ih' : ∀ {c : Who}, s.cpc c = .aborted → (∃ w, c = .task w) ∧ Ev.terminate c ∈ es ++ [e] := by
        intro c h1
        obtain ⟨h2, h3⟩ := ih h1
        exact ⟨h2, by simp [h3]⟩
      have key : ∀ {c' : Who} {p : Cpc}, s'.cpc = (s.setC c' p).cpc → p ≠ .aborted →
          (∃ w, c = .task w) ∧ Ev.terminate c ∈ es ++ [e] := by
        intro c' p h1 h2
        rw [h1] at hc
        by_cases hcc : c = c'
        · subst hcc
          rw [setC_same] at hc
          exact absurd hc h2
        · rw [setC_other hcc] at hc
          exact ih' hc
      cases hs with
      | body c' ptr op hc' ho =>
          obtain ⟨p, hp, hp'⟩ := section_cpc cfg s c' ptr op
          refine key hp ?_
          rcases hp' with rfl | ⟨_, rfl, _⟩ | ⟨_, rfl⟩ <;> simp
      | fail => exact key rfl (by simp)
      | begin => exact key rfl (by simp)
      | notifyOne => exact key rfl (by simp)
      | notifyNone => exact key rfl (by simp)
      | handleCancel => exact key rfl (by simp)
      | handleCancelLock => exact key rfl (by simp)
      | handleCancelThrow => exact key rfl (by simp)
      | handleState => exact key rfl (by simp)
      | handleStateLock => exact key rfl (by simp)
      | handleStateThrow => exact key rfl (by simp)
      | handleCheck => exact key rfl (by simp)
      | release => exact key rfl (by simp)
      | dtorLock => exact key rfl (by simp)
      | dtorNotify => exact key rfl (by simp)
      | dtorJoin => exact key rfl (by simp)
      | dtorSelf w =>
          by_cases hcc : c = .task w
          · subst hcc; exact ⟨⟨w, rfl⟩, by simp⟩
          · rw [setC_other hcc] at hc
            exact ih' hc
      | _ => exact ih' hc

/-- **C57.**  Once the last shared pointer has been released by a thread that is not one of the workers, the
pool gets destroyed: after a bounded number of steps (`c54_terminates`) nothing more happens by itself, and
then the destructor has returned. -/
theorem c57_drains_partial {n : Nat} {k : Nat} (h : Run cfg es s) (hrel : Ev.release (.ext k) ∈ es)
    (hq : QuietRun cfg s n s') (hst : ∀ s2, ¬ Quiet cfg s' s2) : s'.destroyed = true := by
  obtain ⟨es', hr, _⟩ := quietRun_run h hq
  have hC := invC_run hr
  have hrel' : Ev.release (.ext k) ∈ es ++ es' := by simp [hrel]
  cases hd : s'.destroyed with
  | true => rfl
  | false =>
      exfalso
      obtain ⟨c, hc⟩ := hC.prog ((dying_iff hr).mpr ⟨_, hrel'⟩) hd
      have hck := release_unique hr (dtor_release hr hc) hrel'
      subst hck
      rcases stuck_caller hr hst (.ext k) with h1 | h1 | h1
      · rw [h1] at hc; cases hc
      · refine hst _ ⟨_, .dtorJoin s' (.ext k) h1 ?_, rfl⟩
        intro w hw
        rcases stuck_worker hr hst hw with ⟨d, h2, _⟩ | h2 | ⟨_, h2⟩
        · exfalso
          obtain ⟨c', hc'⟩ := hC.sleep (hC.after (.ext k) (Or.inr (Or.inl h1))) ⟨w, by rw [h2]; rfl⟩
          have := hC.one c' (.ext k) (by rw [hc']; rfl) hc
          subst this
          rw [h1] at hc'; cases hc'
        · exact h2
        · exfalso
          have := hC.one (.task w) (.ext k) (by rcases h2 with h2 | h2 <;> rw [h2] <;> rfl) hc
          cases this
      · obtain ⟨⟨w, h2⟩, _⟩ := aborted_task hr h1
        cases h2

/-- **C57, violated.**  If the last shared pointer is released by a task of the pool, the pool is never
destroyed; instead, after a bounded number of steps, std::terminate is called. -/
theorem c57_self_destruction_violated {w : Nat} (h : Run cfg es s) (hrel : Ev.release (.task w) ∈ es) :
    s.destroyed = false ∧ (∀ n s', QuietRun cfg s n s' → (∀ s2, ¬ Quiet cfg s' s2) →
      ∃ es', Run cfg (es ++ es') s' ∧ Ev.terminate (.task w) ∈ es ++ es') := by
  have key : ∀ {es s}, Run cfg es s → Ev.release (.task w) ∈ es →
      s.destroyed = false := by
    intro es s h hrel
    induction h with
    | init => cases hrel
    | @step es s s' e h hs ih =>
        have hall := h.step hs
        by_cases hmem : Ev.release (.task w) ∈ es
        · have hd := ih hmem
          cases hs with
          | body => rw [section_destroyed]; exact hd
          | dtorJoin c hc ho =>
              exfalso
              have h1 := release_unique h (dtor_release h (c := c) (by rw [hc]; rfl)) hmem
              subst h1
              obtain ⟨h2, id, h3⟩ := (invC_run h).task w (by rw [hc]; simp)
              rw [ho w h2] at h3; cases h3
          | _ => exact hd
        · have : e = .release (.task w) := by
            simp only [List.mem_append, List.mem_singleton] at hrel
            rcases hrel with h1 | h1
            · exact absurd h1 hmem
            · exact h1.symm
          have h2 := hall
          have hdy : s.dying = false := by subst this; exact release_cases hs
          have hnd : s.destroyed = false := by
            cases hx : s.destroyed with
            | false => rfl
            | true => rw [((invC_run h).destroyed hx).1] at hdy; cases hdy
          cases hs with
          | body => rw [section_destroyed]; exact hnd
          | dtorJoin => cases this
          | _ => exact hnd
  refine ⟨key h hrel, ?_⟩
  intro n s' hq hst
  obtain ⟨es', hr, _⟩ := quietRun_run h hq
  refine ⟨es', hr, ?_⟩
  have hrel' : Ev.release (.task w) ∈ es ++ es' := by simp [hrel]
  have hC := invC_run hr
  have hnd := key hr hrel'
  obtain ⟨c, hc⟩ := hC.prog ((dying_iff hr).mpr ⟨_, hrel'⟩) hnd
  have hck := release_unique hr (dtor_release hr hc) hrel'
  subst hck
  rcases stuck_caller hr hst (.task w) with h1 | h1 | h1
  · rw [h1] at hc; cases hc
  · exfalso
    obtain ⟨hw, _⟩ := hC.task w (by rw [h1]; simp)
    refine hst _ ⟨_, .dtorSelf s' w h1 hw ?_, rfl⟩
    intro w' hw'
    rcases stuck_worker hr hst (w := w') (by omega) with ⟨d, h2, _⟩ | h2 | ⟨_, h2⟩
    · exfalso
      obtain ⟨c', hc'⟩ := hC.sleep (hC.after (.task w) (Or.inr (Or.inl h1))) ⟨w', by rw [h2]; rfl⟩
      have := hC.one c' (.task w) (by rw [hc']; rfl) hc
      subst this
      rw [h1] at hc'; cases hc'
    · exact h2
    · exfalso
      have := hC.one (.task w') (.task w) (by rcases h2 with h2 | h2 <;> rw [h2] <;> rfl) hc
      cases this
      omega
  · exact (aborted_task hr h1).2

end Gul14.Pool
