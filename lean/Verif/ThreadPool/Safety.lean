import Verif.ThreadPool.Tasks

/-! # C49 to C53, C56: queue, execution, cancellation, introspection -/
namespace Gul14.Spec.Pool
open Gul14.Pool

/-- The last shared pointer to the pool has been released. -/
def Released (es : List Ev) : Prop := ∃ c, Ev.release c ∈ es

/-- The clock is not set back. -/
def Monotone (es : List Ev) : Prop := ∀ a b, es = a ++ b → clockAfter 0 a ≤ clockAfter 0 es

/-- At all times of the execution all tasks that have been added are due. -/
def AlwaysDue (es : List Ev) : Prop := ∀ a b, es = a ++ b → ∀ t, t ∈ accepted a → t.start ≤ clockAfter 0 a

end Gul14.Spec.Pool

namespace Gul14.Pool
open Spec.Pool

variable {cfg : Cfg} {es : List Ev} {s s' : St} {e : Ev}

theorem mem_of_filter {α : Type} {l : List α} {p : α → Bool} {x : α} (h : x ∈ l.filter p) : x ∈ l :=
  (List.mem_filter.mp h).1
theorem of_filter {α : Type} {l : List α} {p : α → Bool} {x : α} (h : x ∈ l.filter p) : p x = true :=
  (List.mem_filter.mp h).2

/-! ### The queue and the list of running tasks are what the events say -/

theorem InvT.queue (h : InvT es s) : s.pending = queue es := by
  have hn : (accepted es).Nodup := List.Pairwise.of_map Task.id (by intro a b hab h; exact hab (by rw [h])) h.accepted_nodup
  refine filter_of_sublist h.sub hn ?_
  intro t ht
  obtain ⟨f, hf, hA⟩ := h.fates t.id
  rw [decide_eq_true_iff, hf]
  simp only [Option.some.injEq]
  rw [hA.pend]
  constructor
  · intro h1; exact List.mem_map_of_mem h1
  · intro h1
    obtain ⟨t', ht', hid⟩ := List.mem_map.mp h1
    have h2 := h.sub.subset ht'
    have : t' = t := by
      have hnd := h.accepted_nodup
      clear hn hf hA
      generalize accepted es = l at *
      induction l with
      | nil => cases ht
      | cons x xs ih =>
          simp only [List.map_cons, List.nodup_cons] at hnd
          rcases List.mem_cons.mp ht with h3 | h3
          · rcases List.mem_cons.mp h2 with h4 | h4
            · rw [h3, h4]
            · exact absurd (List.mem_map.mpr ⟨t', h4, by rw [← h3]; exact hid⟩) hnd.1
          · rcases List.mem_cons.mp h2 with h4 | h4
            · exact absurd (List.mem_map.mpr ⟨t, h3, by rw [← h4]; exact hid.symm⟩) hnd.1
            · exact ih h3 h4 hnd.2
    rw [← this]; exact ht'

theorem listed_iff (h : InvT es s) (id : Nat) : Listed (fate es id) = true ↔ id ∈ s.runIds := by
  obtain ⟨f, hf, hA⟩ := h.fates id
  rw [h.runMem, hf]
  constructor
  · intro hl
    cases f with
    | running =>
        obtain ⟨w, hw⟩ := hA.exec.mp rfl
        exact ⟨w, by rw [hw]; rfl⟩
    | ended o =>
        obtain ⟨w, hw⟩ := hA.done.mp ⟨o, rfl⟩
        exact ⟨w, by rw [hw]; rfl⟩
    | _ => simp [Listed] at hl
  · rintro ⟨w, hw⟩
    rcases busy_iff.mp hw with h | h
    · rw [hA.exec.mpr ⟨w, h⟩]; rfl
    · obtain ⟨o, ho⟩ := hA.done.mpr ⟨w, h⟩
      rw [ho]; rfl

theorem InvT.running (h : InvT es s) : s.runIds = running es := by
  refine filter_of_sublist h.runSub h.nodup ?_
  intro id _
  exact (listed_iff h id).symm

theorem dying_iff (h : Run cfg es s) : s.dying = true ↔ Released es := by
  induction h with
  | init => simp [init, Released]
  | @step es s s' e h hs ih =>
      have key : s'.dying = s.dying → (∀ c, e ≠ .release c) → (s'.dying = true ↔ Released (es ++ [e])) := by
        intro h1 h2
        rw [h1, ih]
        unfold Released
        constructor
        · rintro ⟨c, hc⟩; exact ⟨c, by simp [hc]⟩
        · rintro ⟨c, hc⟩
          simp only [List.mem_append, List.mem_singleton] at hc
          rcases hc with hc | hc
          · exact ⟨c, hc⟩
          · exact absurd hc.symm (h2 c)
      cases hs with
      | body c ptr op hc ho =>
          refine key (section_dying ..) ?_
          cases op <;> simp only [section_] <;> (repeat' split) <;> simp
      | release c hi hc hd hu =>
          constructor
          · intro _; exact ⟨c, by simp⟩
          · intro _; rfl
      | _ => exact key rfl (by simp)

/-! ### C49 -/

/-- **C49.**  Construction succeeds exactly for 1 to 10000 threads and capacities from 1 to ten million;
otherwise invalid_argument is thrown. -/
theorem c49_constructor (threads cap : Nat) :
    make threads cap = if 1 ≤ threads ∧ threads ≤ 10000 ∧ 1 ≤ cap ∧ cap ≤ 10000000 then .ok ⟨threads, cap⟩
      else .throw .invalidArgument := by
  unfold make
  by_cases h1 : threads = 0 ∨ threads > 10000
  · rw [if_pos h1, if_neg (by omega)]
  · rw [if_neg h1]
    by_cases h2 : cap = 0 ∨ cap > 10000000
    · rw [if_pos h2, if_neg (by omega)]
    · rw [if_neg h2, if_pos (by omega)]

theorem pending_le (h : Run cfg es s) : s.pending.length ≤ cfg.cap := by
  induction h with
  | init => simp [init]
  | @step es s s' e h hs ih =>
      cases hs with
      | body c ptr op hc ho =>
          cases op <;> simp only [section_] <;> (repeat' split) <;> try exact ih
          · rename_i h1 h2
            simp only [isFull, decide_eq_true_eq] at h1
            show (s.pending ++ [_]).length ≤ _
            simp only [List.length_append, List.length_singleton]
            omega
          · show ([] : List Task).length ≤ _
            simp
          · show (s.pending.eraseP _).length ≤ _
            exact Nat.le_trans List.eraseP_sublist.length_le ih
      | start w now t rest hw hp hpi =>
          obtain ⟨a, b, h1, h2, _⟩ := pick_some hpi
          show rest.length ≤ _
          rw [h1] at ih
          rw [h2]
          simp only [List.length_append, List.length_cons] at ih ⊢
          omega
      | dtorJoin c hc ho =>
          show ([] : List Task).length ≤ _
          simp
      | _ => exact ih

/-- **C49.**  At no time are more tasks pending than the capacity. -/
theorem c49_bounded (h : Run cfg es s) (hsm : Small es) : (queue es).length ≤ cfg.cap := by
  rw [← (invT_run h hsm).queue]; exact pending_le h

theorem cpc_other {c c' : Who} {p : Cpc} (h : (s.setC c' p).cpc c ≠ s.cpc c) : c = c' := by
  by_cases hc : c = c'
  · exact hc
  · rw [setC_other hc] at h; exact absurd rfl h

/-- **C49.**  add_task throws runtime_error exactly when the queue is full, and leaves the queue as it is;
otherwise the task is appended to the queue and gets a new id - unless the pool is being destroyed: then
bad_weak_ptr is thrown; or unless memory runs out or the function object throws when it is moved: then this
exception is thrown and the queue is left as it is.  (`hme`: the step is the critical section of this call.) -/
theorem c49_add {c : Who} {ptr : Bool} {name : List UInt8} {start : Int} (h : Run cfg es s)
    (hc : s.cpc c = .call ptr (.add name start)) (hs : Step cfg s e s') (hme : s'.cpc c ≠ s.cpc c)
    (hsm : Small (es ++ [e])) :
    (e = .failed c (.add name start) ∧ queue (es ++ [e]) = queue es) ∨
    ((queue es).length = cfg.cap ∧ e = .full c ∧ queue (es ++ [e]) = queue es) ∨
    ((queue es).length < cfg.cap ∧ Released es ∧ e = .expired c ∧ queue (es ++ [e]) = queue es) ∨
    ((queue es).length < cfg.cap ∧ ¬ Released es ∧ e = .added c ⟨(accepted es).length, name, start⟩ ∧
      queue (es ++ [e]) = queue es ++ [⟨(accepted es).length, name, start⟩]) := by
  have hT := invT_run h (small_of_append hsm)
  have hT' := invT_run (h.step hs) hsm
  have hle := pending_le h
  rw [← hT.queue, ← hT'.queue]
  cases hs with
  | body c' ptr' op hc' ho =>
      obtain ⟨p, hp, _⟩ := section_cpc cfg s c' ptr' op
      rw [hp] at hme
      have := cpc_other hme
      subst this
      rw [hc] at hc'
      cases hc'
      simp only [section_] at hsm ⊢
      split
      · rename_i hf
        simp only [isFull, decide_eq_true_eq] at hf
        exact Or.inr (Or.inl ⟨by omega, rfl, rfl⟩)
      · rename_i hf
        simp only [isFull, decide_eq_true_eq] at hf
        split
        · rename_i hd
          exact Or.inr (Or.inr (Or.inl ⟨by omega, (dying_iff h).mp hd, rfl, rfl⟩))
        · rename_i hd
          have hid : s.nextId = (accepted es).length := by
            rw [if_neg (by simp [isFull]; omega), if_neg hd] at hsm
            unfold Small at hsm
            rw [accepted_append, List.length_append] at hsm
            simp only [accepted, List.length_singleton] at hsm
            rw [hT.nextId, Nat.mod_eq_of_lt (by omega)]
          refine Or.inr (Or.inr (Or.inr ⟨by omega, fun hr => hd ((dying_iff h).mpr hr), ?_, ?_⟩))
          · rw [hid]
          · rw [← hid]; rfl
  | fail c' ptr' op hc' ho ha =>
      have := cpc_other hme
      subst this
      rw [hc] at hc'
      cases hc'
      exact Or.inl ⟨rfl, rfl⟩
  | begin c' _ _ hi => exact absurd (cpc_other hme) (by rintro rfl; rw [hc] at hi; cases hi)
  | notifyOne c' _ _ _ hi => exact absurd (cpc_other (s := s) (p := .idle) hme) (by rintro rfl; rw [hc] at hi; cases hi)
  | notifyNone c' _ _ hi => exact absurd (cpc_other hme) (by rintro rfl; rw [hc] at hi; cases hi)
  | handleCancel c' _ _ hi => exact absurd (cpc_other (s := s) (p := .cancelLock _) hme) (by rintro rfl; rw [hc] at hi; cases hi)
  | handleCancelLock c' _ hi => exact absurd (cpc_other hme) (by rintro rfl; rw [hc] at hi; cases hi)
  | handleCancelThrow c' _ hi => exact absurd (cpc_other hme) (by rintro rfl; rw [hc] at hi; cases hi)
  | handleStateLock c' _ hi => exact absurd (cpc_other hme) (by rintro rfl; rw [hc] at hi; cases hi)
  | handleStateThrow c' _ hi => exact absurd (cpc_other hme) (by rintro rfl; rw [hc] at hi; cases hi)
  | handleState c' _ _ hi => exact absurd (cpc_other hme) (by rintro rfl; rw [hc] at hi; cases hi)
  | handleCheck c' _ hi => exact absurd (cpc_other hme) (by rintro rfl; rw [hc] at hi; cases hi)
  | release c' hi => exact absurd (cpc_other (s := s) (p := .dtorLock) hme) (by rintro rfl; rw [hc] at hi; cases hi)
  | dtorLock c' hi => exact absurd (cpc_other (s := s) (p := .dtorNotify) hme) (by rintro rfl; rw [hc] at hi; cases hi)
  | dtorNotify c' hi => exact absurd (cpc_other (s := s) (p := .dtorJoin) hme) (by rintro rfl; rw [hc] at hi; cases hi)
  | dtorJoin c' hi => exact absurd (cpc_other (s := s) (p := .idle) hme) (by rintro rfl; rw [hc] at hi; cases hi)
  | dtorSelf w hi => exact absurd (cpc_other hme) (by rintro rfl; rw [hc] at hi; cases hi)
  | _ => exact absurd rfl hme

/-! ### C50 -/

/-- **C50.**  Every task lives as it should: it is added once, then either started, ended and retired, or
removed from the queue; nothing else happens to it. -/
theorem c50_life (h : Run cfg es s) (hsm : Small es) (id : Nat) : ∃ f, fate es id = some f := by
  obtain ⟨f, hf, _⟩ := (invT_run h hsm).fates id
  exact ⟨f, hf⟩

/-- **C50.**  No task is started twice, and only accepted tasks are started. -/
theorem c50_at_most_once (h : Run cfg es s) (hsm : Small es) :
    (startedIds es).Nodup ∧ ∀ id, id ∈ startedIds es → id ∈ (accepted es).map Task.id := by
  have hT := invT_run h hsm
  refine ⟨hT.nodup, ?_⟩
  intro id hid
  obtain ⟨f, hf, hA⟩ := hT.fates id
  have := (hT.started id hid).1
  rw [hT.ids, List.mem_range]
  rw [hf] at this
  have h2 := (not_congr hA.fresh).mp (by intro h; rw [h] at this; exact this rfl)
  omega

/-- **C50.**  Tasks are accepted exactly when something has happened to them; the pool holds exactly the
pending tasks in its queue and exactly the running ones in its list of running tasks. -/
theorem c50_never_lost (h : Run cfg es s) (hsm : Small es) :
    (∀ id, id ∈ (accepted es).map Task.id ↔ fate es id ≠ some .unknown) ∧
    s.pending = queue es ∧ s.runIds = running es ∧
    ∀ id, id ∈ running es ↔ ∃ w, w < cfg.threads ∧ (s.wpc w = .exec id ∨ s.wpc w = .done id) := by
  have hT := invT_run h hsm
  refine ⟨?_, hT.queue, hT.running, ?_⟩
  · intro id
    obtain ⟨f, hf, hA⟩ := hT.fates id
    rw [hT.ids, List.mem_range, hf]
    simp only [ne_eq, Option.some.injEq, hA.fresh]
    omega
  · intro id
    rw [← hT.running, hT.runMem]
    constructor
    · rintro ⟨w, hw⟩
      have hw := busy_iff.mp hw
      refine ⟨w, ?_, hw⟩
      rcases Nat.lt_or_ge w cfg.threads with h1 | h1
      · exact h1
      · rw [(invM_run h).out w h1] at hw; simp at hw
    · rintro ⟨w, _, hw⟩; exact ⟨w, busy_iff.mpr hw⟩

/-! ### C51 -/

theorem scan_clock (h : Run cfg es s) {w : Nat} {now : Int} (hp : s.wpc w = .scan now) :
    ∃ a b, es = a ++ b ∧ clockAfter 0 a = now ∧ accepted a = accepted es := by
  induction h with
  | init => cases hp
  | @step es s s' e h hs ih =>
      have ext : (∀ c t, e ≠ .added c t) → (∃ a b, es = a ++ b ∧ clockAfter 0 a = now ∧ accepted a = accepted es) →
          ∃ a b, es ++ [e] = a ++ b ∧ clockAfter 0 a = now ∧ accepted a = accepted (es ++ [e]) := by
        rintro hn ⟨a, b, h1, h2, h3⟩
        exact ⟨a, b ++ [e], by rw [h1, List.append_assoc], h2, by rw [h3, accepted_neutral hn]⟩
      cases hs with
      | body c ptr op hc ho =>
          rw [section_wpc] at hp
          have := ((invM_run h).own w).mp (by rw [hp]; rfl)
          rw [ho] at this; cases this
      | read w' hw hp' hsd hpe =>
          by_cases hk : w = w'
          · subst hk
            rw [setW_same] at hp
            cases hp
            exact ⟨es, _, rfl, (invC_run h).clock.symm, (accepted_neutral (by simp)).symm⟩
          · rw [setW_other hk] at hp; exact ext (by simp) (ih hp)
      | notifyOne => exact ext (by simp) (ih (scan_setW hp (by simp)))
      | lock => exact ext (by simp) (ih (scan_setW (s := s) hp (by simp)))
      | leave => exact ext (by simp) (ih (scan_setW (s := s) hp (by simp)))
      | wait => exact ext (by simp) (ih (scan_setW (s := s) hp (by simp)))
      | waitUntil => exact ext (by simp) (ih (scan_setW (s := s) hp (by simp)))
      | start => exact ext (by simp) (ih (scan_setW (s := s) hp (by simp)))
      | finish => exact ext (by simp) (ih (scan_setW (s := s) hp (by simp)))
      | retire => exact ext (by simp) (ih (scan_setW (s := s) hp (by simp)))
      | timeout => exact ext (by simp) (ih (scan_setW hp (by simp)))
      | spurious => exact ext (by simp) (ih (scan_setW hp (by simp)))
      | dtorNotify => exact ext (by simp) (ih (wake_scan.mp hp))
      | _ => exact ext (by simp) (ih hp)

theorem started_cases {w id : Nat} {now : Int} (hs : Step cfg s (.started w id now) s') :
    ∃ t rest, w < cfg.threads ∧ s.wpc w = .scan now ∧ pick now s.pending = some (t, rest) ∧ t.id = id ∧
      s'.pending = rest ∧ s'.wpc = (s.setW w (.exec t.id)).wpc := by
  generalize he : Ev.started w id now = e at hs
  cases hs with
  | body c ptr op hc ho =>
      exfalso
      cases op <;> simp only [section_] at he <;> (repeat' split at he) <;> cases he
  | start w' now' t rest hw hp hpi =>
      cases he
      exact ⟨t, rest, hw, hp, hpi, rfl, rfl, rfl⟩
  | _ => cases he

/-- **C53.**  A worker starts the first task in the queue that is due at the time it has read from the
clock; it is removed from the queue.  -/
theorem c53_first_due {w id : Nat} {now : Int} (h : Run cfg es s) (hs : Step cfg s (.started w id now) s')
    (hsm : Small es) :
    ∃ a t b, queue es = a ++ t :: b ∧ t.id = id ∧ t.start ≤ now ∧ (∀ x, x ∈ a → now < x.start) ∧
      queue (es ++ [.started w id now]) = a ++ b := by
  have hT := invT_run h hsm
  have hT' := invT_run (h.step hs) (by unfold Small at *; rw [accepted_neutral (by simp)]; exact hsm)
  obtain ⟨t, rest, _, _, hp, hid, hpe, _⟩ := started_cases hs
  obtain ⟨a, b, h1, h2, h3, h4⟩ := pick_some hp
  exact ⟨a, t, b, by rw [← hT.queue, h1], hid, h3, h4, by rw [← hT'.queue, hpe, h2]⟩

/-- Every event is the last one of a shorter execution. -/
theorem run_split (h : Run cfg es s) {a b : List Ev} {e : Ev} (he : es = a ++ e :: b) :
    ∃ s1 s2, Run cfg a s1 ∧ Step cfg s1 e s2 := by
  induction h generalizing b with
  | init => simp at he
  | @step es s s' e' h hs ih =>
      rcases List.eq_nil_or_concat b with rfl | ⟨b', x, rfl⟩
      · obtain ⟨h1, h2⟩ := List.append_inj' he rfl
        have h3 : e' = e := by simpa using h2
        rw [← h1, ← h3]
        exact ⟨_, _, h, hs⟩
      · have he' : es ++ [e'] = (a ++ e :: b') ++ [x] := by rw [he]; simp
        exact ih (List.append_inj' he' rfl).1

theorem small_prefix {a b : List Ev} (h : Small (a ++ b)) : Small a := by
  induction b generalizing a with
  | nil => simpa using h
  | cons x xs ih =>
      have : Small ((a ++ [x]) ++ xs) := by simpa using h
      exact small_of_append (ih this)

theorem accepted_prefix {a b : List Ev} {t : Task} (h : t ∈ accepted a) : t ∈ accepted (a ++ b) := by
  induction a with
  | nil => cases h
  | cons x xs ih =>
      cases x <;> simp only [List.cons_append, accepted] at h ⊢ <;> first | exact ih h | skip
      rcases List.mem_cons.mp h with rfl | h
      · simp
      · simp [ih h]

/-- **C51.**  A task is started only after the clock has shown its start time or a later time: the worker
has read such a time from the clock earlier. -/
theorem c51_not_early {w id : Nat} {now : Int} (h : Run cfg es s) (hsm : Small es)
    (hst : Ev.started w id now ∈ es) :
    ∃ t a b d, t ∈ accepted es ∧ t.id = id ∧ es = a ++ b ++ .started w id now :: d ∧ clockAfter 0 a = now ∧
      t.start ≤ now := by
  obtain ⟨l, d, rfl⟩ := List.append_of_mem hst
  obtain ⟨s1, s2, h1, h2⟩ := run_split h rfl
  obtain ⟨x, t, y, hq, hid, hle, _⟩ := c53_first_due h1 h2 (small_prefix hsm)
  obtain ⟨_, _, _, hp, _⟩ := started_cases h2
  obtain ⟨a, b, hab, hc, _⟩ := scan_clock h1 hp
  refine ⟨t, a, b, d, ?_, hid, by rw [hab], hc, hle⟩
  refine accepted_prefix ?_
  have : t ∈ queue l := by rw [hq]; simp
  exact mem_of_filter this

/-- **C51.**  If the clock is never set back, it shows at least the start time of a task when the task is
started. -/
theorem c51_monotone {w id : Nat} {now : Int} (h : Run cfg es s) (hs : Step cfg s (.started w id now) s')
    (hsm : Small es) (hm : Monotone es) :
    ∃ t, t ∈ accepted es ∧ t.id = id ∧ t.start ≤ s.clock := by
  obtain ⟨x, t, y, hq, hid, hle, _⟩ := c53_first_due h hs hsm
  obtain ⟨_, _, _, hp, _⟩ := started_cases hs
  obtain ⟨a, b, hab, hc, _⟩ := scan_clock h hp
  refine ⟨t, ?_, hid, ?_⟩
  · have : t ∈ queue es := by rw [hq]; simp
    exact mem_of_filter this
  · rw [(invC_run h).clock]
    have := hm a b hab
    omega

/-! ### C52 -/

theorem life_canceled {id : Nat} {f : Fate} (h : lifeFrom id .canceled es = some f) :
    f = .canceled ∧ id ∉ startedIds es := by
  induction es with
  | nil => exact ⟨(Option.some.inj h).symm, by simp [startedIds]⟩
  | cons x xs ih =>
      simp only [lifeFrom] at h
      cases x with
      | added c t =>
          simp only [next] at h
          by_cases ht : t.id = id
          · simp [ht] at h
          · simp only [if_neg ht] at h; exact ih h
      | started w i n =>
          simp only [next] at h
          by_cases ht : i = id
          · simp [ht] at h
          · simp only [if_neg ht] at h
            have := ih h
            exact ⟨this.1, by simp [startedIds, this.2, Ne.symm ht]⟩
      | ended w i o =>
          simp only [next] at h
          by_cases ht : i = id
          · simp [ht] at h
          · simp only [if_neg ht] at h; exact ih h
      | retired w i =>
          simp only [next] at h
          by_cases ht : i = id
          · simp [ht] at h
          · simp only [if_neg ht] at h; exact ih h
      | canceled c i b =>
          cases b with
          | false =>
              simp only [next] at h
              rw [if_neg (by simp)] at h
              exact ih h
          | true =>
              simp only [next] at h
              by_cases ht : i = id
              · simp [ht] at h
              · simp only [if_neg ht] at h; exact ih h
      | cleared c n => simp only [next] at h; exact ih h
      | destroyed c => simp only [next] at h; exact ih h
      | _ => exact ih h

theorem lifeFrom_app (id : Nat) (f : Fate) (a b : List Ev) :
    lifeFrom id f (a ++ b) = (lifeFrom id f a).bind (fun f => lifeFrom id f b) := by
  induction a generalizing f with
  | nil => rfl
  | cons x xs ih =>
      simp only [List.cons_append, lifeFrom]
      cases next id f x with
      | none => rfl
      | some f' => exact ih f'

theorem startedIds_app (a b : List Ev) : startedIds (a ++ b) = startedIds a ++ startedIds b := by
  induction a with
  | nil => rfl
  | cons x xs ih => cases x <;> simp [startedIds, ih]

/-- A task that is removed from the queue has not been started and is never started. -/
theorem removed_final {a b : List Ev} {id : Nat} (h : Run cfg es s) (hsm : Small es) (hab : es = a ++ e :: b)
    (hp : fate a id = some .pending) (hn : fate (a ++ [e]) id = some .canceled) :
    fate es id = some .canceled ∧ id ∉ startedIds es := by
  obtain ⟨f, hf⟩ := c50_life h hsm id
  have hf0 := hf
  have h1 : a ++ e :: b = (a ++ [e]) ++ b := by simp
  rw [hab, h1] at hf
  unfold fate at hf hn
  rw [lifeFrom_app, hn] at hf
  obtain ⟨rfl, h2⟩ := life_canceled hf
  refine ⟨hf0, ?_⟩
  subst hab
  obtain ⟨s1, s2, hr, hstep⟩ := run_split h rfl
  have hT := invT_run hr (small_prefix hsm)
  have hT2 := invT_run (hr.step hstep) (small_prefix (b := b) (by simpa using hsm))
  rw [h1, startedIds_app, List.mem_append]
  rintro (h3 | h3)
  · rw [startedIds_append] at h3
    rcases List.mem_append.mp h3 with h3 | h3
    · exact (hT.started id h3).2 hp
    · cases e with
      | started w i n =>
          simp only [startedIds, List.mem_singleton] at h3
          subst h3
          rw [show lifeFrom id .unknown (a ++ [.started w id n]) = fate (a ++ [.started w id n]) id from rfl, fate_append, hp] at hn
          simp [next] at hn
      | _ => simp [startedIds] at h3
  · exact h2 h3

/-- **C52.**  If cancel() returns true, the task was pending, is removed from the queue, has not been started
and is never started. -/
theorem c52_cancel_true {a b : List Ev} {c : Who} {id : Nat} (h : Run cfg es s) (hsm : Small es)
    (hab : es = a ++ .canceled c id true :: b) :
    id ∈ (queue a).map Task.id ∧ id ∉ (queue (a ++ [.canceled c id true])).map Task.id ∧ id ∉ startedIds es := by
  subst hab
  obtain ⟨s1, s2, hr, hstep⟩ := run_split h rfl
  have hT := invT_run hr (small_prefix hsm)
  have hsm2 : Small (a ++ [.canceled c id true]) := small_prefix (b := b) (by simpa using hsm)
  have hT2 := invT_run (hr.step hstep) hsm2
  obtain ⟨f, hf, hA⟩ := hT.fates id
  obtain ⟨f2, hf2, hA2⟩ := hT2.fates id
  have hpen : f = .pending ∧ f2 = .canceled := by
    rw [fate_append, hf] at hf2
    simp only [Option.bind_some, next, if_true] at hf2
    split at hf2
    · rename_i h1; exact ⟨h1, (Option.some.inj hf2).symm⟩
    · cases hf2
  obtain ⟨rfl, rfl⟩ := hpen
  refine ⟨?_, ?_, (removed_final h hsm rfl hf hf2).2⟩
  · rw [← hT.queue]; exact hA.pend.mp rfl
  · rw [← hT2.queue, ← hA2.pend]; simp

theorem canceled_cases {c : Who} {id : Nat} {b : Bool} (hs : Step cfg s (.canceled c id b) s') :
    s'.wpc = s.wpc ∧ s'.runIds = s.runIds ∧ s'.runNames = s.runNames := by
  generalize he : Ev.canceled c id b = e at hs
  cases hs with
  | body c ptr op hc ho => exact ⟨section_wpc .., section_runIds .., section_runNames ..⟩
  | _ => cases he

theorem cleared_cases {c : Who} {n : Nat} (hs : Step cfg s (.cleared c n) s') :
    s'.wpc = s.wpc ∧ s'.runIds = s.runIds ∧ s'.runNames = s.runNames ∧ n = s.pending.length ∧ s'.pending = [] := by
  generalize he : Ev.cleared c n = e at hs
  cases hs with
  | body c ptr op hc ho =>
      refine ⟨section_wpc .., section_runIds .., section_runNames .., ?_⟩
      cases op <;> simp only [section_] at he ⊢ <;> (repeat' split at he) <;> cases he
      exact ⟨rfl, rfl⟩
  | _ => cases he

/-- **C52.**  If cancel() returns false, the task is not pending, and nothing changes. -/
theorem c52_cancel_false {c : Who} {id : Nat} (h : Run cfg es s) (hsm : Small es)
    (hs : Step cfg s (.canceled c id false) s') :
    id ∉ (queue es).map Task.id ∧ queue (es ++ [.canceled c id false]) = queue es ∧
      running (es ++ [.canceled c id false]) = running es := by
  have hsm2 : Small (es ++ [.canceled c id false]) := by unfold Small at *; rw [accepted_neutral (by simp)]; exact hsm
  have hT := invT_run h hsm
  have hT2 := invT_run (h.step hs) hsm2
  have hfate : ∀ k, fate (es ++ [.canceled c id false]) k = fate es k := by
    intro k
    obtain ⟨f, hf, hA⟩ := hT2.fates k
    rw [hf]
    obtain ⟨f0, hf0, hA0⟩ := hT.fates k
    rw [fate_append, hf0] at hf
    simp only [Option.bind_some, next] at hf
    split at hf
    · cases hf
    · rw [hf0]; exact hf.symm
  refine ⟨?_, ?_, ?_⟩
  · obtain ⟨f2, hf2, hA2⟩ := hT2.fates id
    obtain ⟨f0, hf0, hA0⟩ := hT.fates id
    rw [fate_append, hf0] at hf2
    simp only [Option.bind_some, next, true_and] at hf2
    split at hf2
    · cases hf2
    · rename_i hne
      rw [← hT.queue, ← hA0.pend]; exact hne
  · unfold queue
    rw [accepted_neutral (by simp)]
    simp only [hfate]
  · rw [← hT.running, ← hT2.running]
    exact (canceled_cases hs).2.1

/-- **C52.**  Cancellation does not affect running tasks. -/
theorem c52_running_unaffected (h : Run cfg es s) (hsm : Small es) {c : Who} {n id : Nat} {b : Bool}
    (he : e = .canceled c id b ∨ e = .cleared c n) (hs : Step cfg s e s') :
    s'.wpc = s.wpc ∧ running (es ++ [e]) = running es := by
  have hsm2 : Small (es ++ [e]) := by
    unfold Small at *
    rw [accepted_neutral (by rcases he with rfl | rfl <;> simp)]; exact hsm
  have hT := invT_run h hsm
  have hT2 := invT_run (h.step hs) hsm2
  rw [← hT.running, ← hT2.running]
  rcases he with rfl | rfl
  · have := canceled_cases hs; exact ⟨this.1, this.2.1⟩
  · have := cleared_cases hs; exact ⟨this.1, this.2.1⟩

/-- **C52.**  cancel_pending_tasks() empties the queue and returns the number of tasks it has removed; none
of them has been started or is ever started. -/
theorem c52_cancel_all {a b : List Ev} {c : Who} {n : Nat} (h : Run cfg es s) (hsm : Small es)
    (hab : es = a ++ .cleared c n :: b) :
    n = (queue a).length ∧ queue (a ++ [.cleared c n]) = [] ∧ ∀ t, t ∈ queue a → t.id ∉ startedIds es := by
  subst hab
  obtain ⟨s1, s2, hr, hstep⟩ := run_split h rfl
  have hT := invT_run hr (small_prefix hsm)
  have hsm2 : Small (a ++ [.cleared c n]) := small_prefix (b := b) (by simpa using hsm)
  have hT2 := invT_run (hr.step hstep) hsm2
  have hc := cleared_cases hstep
  refine ⟨by rw [← hT.queue]; exact hc.2.2.2.1, by rw [← hT2.queue]; exact hc.2.2.2.2, ?_⟩
  intro t ht
  have hp : fate a t.id = some .pending := by
    have := of_filter ht
    exact decide_eq_true_iff.mp this
  exact (removed_final h hsm rfl hp (by rw [fate_append, hp]; rfl)).2

/-! ### C53 -/

theorem always_prefix {x : Ev} (h : AlwaysDue (es ++ [x])) : AlwaysDue es := by
  intro a b hab t ht
  exact h a (b ++ [x]) (by rw [hab, List.append_assoc]) t ht

/-- **C53.**  If all tasks are always due (as they are if no start time is given, or if the start time is not
later than the time of the call and the clock is not set back), tasks are started in the
order in which they were added, whatever the number of threads. -/
theorem c53_order (h : Run cfg es s) (hsm : Small es) (hd : AlwaysDue es) :
    (startedIds es).Pairwise (· < ·) ∧ (startedIds es).Sublist ((accepted es).map Task.id) := by
  have key : (startedIds es).Pairwise (· < ·) ∧ ∀ id t, id ∈ startedIds es → t ∈ queue es → id < t.id := by
    induction h with
    | init => simp [startedIds]
    | @step es s s' e h hs ih =>
        obtain ⟨ih1, ih2⟩ := ih (small_of_append hsm) (always_prefix hd)
        have hT := invT_run h (small_of_append hsm)
        have hT2 := invT_run (h.step hs) hsm
        by_cases hst : ∃ w i n, e = .started w i n
        · obtain ⟨w, i, n, rfl⟩ := hst
          obtain ⟨a, t, b, hq, rfl, hle, hfirst, hq2⟩ := c53_first_due h hs (small_of_append hsm)
          obtain ⟨_, _, _, hp, _⟩ := started_cases hs
          obtain ⟨p, r, hpr, hck, hacc⟩ := scan_clock h hp
          have ha : a = [] := by
            cases a with
            | nil => rfl
            | cons x xs =>
                have h1 := hfirst x (by simp)
                have hx : x ∈ queue es := by rw [hq]; simp
                have h2 := hd p (r ++ [_]) (by rw [hpr, List.append_assoc]) x (by rw [hacc]; exact mem_of_filter hx)
                omega
          subst ha
          have hsorted : ((queue es).map Task.id).Pairwise (· < ·) := by
            rw [← hT.queue]
            refine List.Pairwise.sublist (hT.sub.map Task.id) ?_
            rw [hT.ids]; exact List.pairwise_lt_range
          rw [hq] at hsorted
          simp only [List.nil_append, List.map_cons, List.pairwise_cons] at hsorted
          rw [startedIds_append]
          constructor
          · rw [List.pairwise_append]
            refine ⟨ih1, by simp [startedIds], ?_⟩
            intro x hx y hy
            have : y = t.id := by simpa [startedIds] using hy
            subst this
            exact ih2 x t hx (by rw [hq]; simp)
          · intro id t' hid ht'
            rw [hq2] at ht'
            have ht'' : t' ∈ b := by simpa using ht'
            rcases List.mem_append.mp hid with hid | hid
            · exact ih2 id t' hid (by rw [hq]; simp [ht''])
            · have : id = t.id := by simpa [startedIds] using hid
              subst this
              exact hsorted.1 _ (List.mem_map_of_mem ht'')
        · have hne : ∀ w i n, e ≠ .started w i n := fun w i n he => hst ⟨w, i, n, he⟩
          rw [startedIds_neutral hne]
          refine ⟨ih1, ?_⟩
          intro id t hid ht
          by_cases htq : t ∈ queue es
          · exact ih2 id t hid htq
          · -- a new task
            have hnew : ∃ c, e = .added c t := by
              have ht1 := mem_of_filter ht
              have ht2 : fate (es ++ [e]) t.id = some .pending := by
                have h := of_filter ht
                exact decide_eq_true_iff.mp h
              rw [accepted_append] at ht1
              rcases List.mem_append.mp ht1 with ht1 | ht1
              · exfalso
                apply htq
                refine List.mem_filter.mpr ⟨ht1, decide_eq_true_iff.mpr ?_⟩
                obtain ⟨f, hf, hA⟩ := hT.fates t.id
                rw [fate_append, hf] at ht2
                rw [hf]
                have hunk : f ≠ .unknown := by
                  intro hu
                  have := hA.fresh.mp hu
                  have := hT.id_lt ht1
                  omega
                cases e <;> simp only [Option.bind_some, next] at ht2 <;>
                  first
                  | exact ht2
                  | (split at ht2 <;> first | (split at ht2 <;> simp_all) | simp_all)
                  | skip
                all_goals
                  rename_i bb
                  cases bb <;> simp only [next] at ht2 <;> (repeat' split at ht2) <;> simp_all
              · cases e with
                | added c t' =>
                    simp only [accepted, List.mem_singleton] at ht1
                    exact ⟨c, by rw [ht1]⟩
                | _ => simp [accepted] at ht1
            obtain ⟨c, rfl⟩ := hnew
            have h1 := (c50_at_most_once h (small_of_append hsm)).2 id hid
            rw [hT.ids, List.mem_range] at h1
            have h2 := hT2.ids
            rw [accepted_append] at h2
            simp only [accepted, List.map_append, List.map_cons, List.map_nil, List.length_append,
              List.length_singleton, List.range_succ] at h2
            have h3 := (List.append_inj' h2 rfl).2
            have : t.id = (accepted es).length := by simpa using h3
            omega
  refine ⟨key.1, ?_⟩
  have hsub := (c50_at_most_once h hsm).2
  rw [(invT_run h hsm).ids] at hsub ⊢
  have : ∀ (n : Nat) (l : List Nat), l.Pairwise (· < ·) → (∀ x, x ∈ l → x ∈ List.range n) → l.Sublist (List.range n) := by
    intro n
    induction n with
    | zero =>
        intro l _ hl
        cases l with
        | nil => simp
        | cons x xs => have := hl x (by simp); simp at this
    | succ n ih =>
        intro l hp hl
        rw [List.range_succ]
        rcases List.eq_nil_or_concat l with rfl | ⟨l', x, rfl⟩
        · simp
        · rw [List.concat_eq_append] at *
          rw [List.pairwise_append] at hp
          by_cases hx : x = n
          · subst hx
            refine List.Sublist.append (ih l' hp.1 ?_) (List.Sublist.refl _)
            intro y hy
            exact List.mem_range.mpr (hp.2.2 y hy x (by simp))
          · have hxn : x < n := by
              have := List.mem_range.mp (hl x (by simp)); omega
            refine List.Sublist.trans (ih (l' ++ [x]) ?_ ?_) (List.sublist_append_left _ _)
            · exact List.pairwise_append.mpr hp
            · intro y hy
              rcases List.mem_append.mp hy with hy | hy
              · have := hp.2.2 y hy x (by simp)
                exact List.mem_range.mpr (by omega)
              · have : y = x := by simpa using hy
                subst this; exact List.mem_range.mpr hxn
  exact this _ _ key.1 hsub

theorem life_running {id : Nat} {f : Fate} (h : lifeFrom id .running es = some f) (hf : f ≠ .running) :
    ∃ w o, Ev.ended w id o ∈ es := by
  induction es with
  | nil => exact absurd (Option.some.inj h).symm hf
  | cons x xs ih =>
      simp only [lifeFrom] at h
      by_cases hx : ∃ w o, x = .ended w id o
      · obtain ⟨w, o, rfl⟩ := hx
        exact ⟨w, o, by simp⟩
      · have hnext : next id .running x = some .running ∨ next id .running x = none := by
          cases x with
          | ended w i o =>
              simp only [next]
              rw [if_neg]
              · exact Or.inl rfl
              · rintro rfl; exact hx ⟨w, o, rfl⟩
          | canceled c i b => cases b <;> simp only [next] <;> (repeat' split) <;> simp_all
          | _ => simp only [next] <;> (repeat' split) <;> simp_all
        rcases hnext with hn | hn
        · rw [hn] at h
          obtain ⟨w, o, hm⟩ := ih h
          exact ⟨w, o, by simp [hm]⟩
        · rw [hn] at h; cases h

/-- **C53.**  A pool with one thread is a serial queue: a task is started only after the functions of all
tasks that were started before have returned. -/
theorem c53_serial {a b d : List Ev} {w w' i j : Nat} {n m : Int} (h : Run cfg es s) (hsm : Small es)
    (h1 : cfg.threads = 1) (hes : es = a ++ .started w i n :: b ++ .started w' j m :: d) :
    ∃ v o, Ev.ended v i o ∈ b := by
  subst hes
  obtain ⟨s1, s2, hr, hstep⟩ := run_split h rfl
  obtain ⟨t, _, hw, hsc, _⟩ := started_cases hstep
  have hsm1 : Small (a ++ .started w i n :: b) := small_prefix hsm
  have hT := invT_run hr hsm1
  obtain ⟨f, hf, hA⟩ := hT.fates i
  have hne : f ≠ .running := by
    intro hfr
    obtain ⟨k, hk⟩ := hA.exec.mp hfr
    have : k = w' := by
      rcases Nat.lt_or_ge k cfg.threads with hlt | hge
      · omega
      · rw [(invM_run hr).out k hge] at hk; cases hk
    subst this
    rw [hsc] at hk; cases hk
  have h2 : a ++ .started w i n :: b = (a ++ [.started w i n]) ++ b := by simp
  obtain ⟨t1, t2, hr0, hstep0⟩ := run_split hr rfl
  have hsm0 : Small (a ++ [.started w i n]) := small_prefix (b := b) (by rw [← h2]; exact hsm1)
  have hfr : fate (a ++ [.started w i n]) i = some .running := by
    obtain ⟨f0, hf0⟩ := c50_life (hr0.step hstep0) hsm0 i
    rw [hf0]
    rw [fate_append] at hf0
    cases hfa : fate a i with
    | none => rw [hfa] at hf0; cases hf0
    | some g =>
        rw [hfa] at hf0
        simp only [Option.bind_some, next, if_true] at hf0
        split at hf0
        · exact hf0.symm
        · cases hf0
  rw [h2] at hf
  unfold fate at hf hfr
  rw [lifeFrom_app, hfr] at hf
  exact life_running hf hne

/-! ### C56 -/

theorem answer_cases {c : Who} {op : Op} {r : Ans} (hs : Step cfg s (.answer c op r) s') :
    (op = .countPending ∧ r = .num s.pending.length) ∨ (op = .pendingNames ∧ r = .names (s.pending.map Task.name)) ∨
    (op = .runningNames ∧ r = .names s.runNames) ∨ (op = .isFull ∧ r = .flag (isFull cfg s)) ∨
    (op = .isIdle ∧ r = .flag (s.pending.isEmpty && s.runIds.isEmpty)) ∨ (op = .isShutdown ∧ r = .flag s.shutdown) ∨
    ∃ id, op = .state id := by
  generalize he : Ev.answer c op r = e at hs
  cases hs with
  | body c ptr op hc ho =>
      cases op <;> simp only [section_] at he ⊢ <;> (repeat' split at he) <;> cases he <;> simp
  | handleCheck c id h => cases he; simp
  | _ => cases he

/-- **C56.**  At the moment of the call, count_pending, get_pending_task_names, get_running_task_names, is_full,
is_idle and is_shutdown_requested report what the history says: the tasks that are pending, in the order in
which they were added; the names of the running tasks, each the one the task was added with, in the order in
which they were started; whether as many tasks are pending as the queue can hold; whether none is pending or
running; and whether the destructor has requested the shutdown. -/
theorem c56_answers {c : Who} {op : Op} {r : Ans} (h : Run cfg es s) (hsm : Small es)
    (hs : Step cfg s (.answer c op r) s') (hop : op.handle = false) : Reports cfg.cap es op r := by
  have hT := invT_run h hsm
  rcases answer_cases hs with ⟨rfl, rfl⟩ | ⟨rfl, rfl⟩ | ⟨rfl, rfl⟩ | ⟨rfl, rfl⟩ | ⟨rfl, rfl⟩ | ⟨rfl, rfl⟩ | ⟨id, rfl⟩
  · show _ = _; rw [hT.queue]
  · show _ = _; rw [hT.queue]
  · obtain ⟨l, h1, h2, h3⟩ := hT.runs
    exact ⟨l, by rw [← hT.running, h1], h3, by rw [h2]⟩
  · show _ = _
    rw [← hT.queue]
    unfold isFull
    congr 1
    have := pending_le h
    simp only [decide_eq_decide]
    omega
  · show _ = _
    rw [← hT.queue, ← hT.running]
    cases s.pending <;> cases s.runIds <;> rfl
  · show _ = _; rw [(invC_run h).shut]
  · cases hop

theorem length_le_of_inj {n : Nat} {l : List Nat} {f : Nat → Option Nat} (hn : l.Nodup)
    (h : ∀ x, x ∈ l → ∃ w, w < n ∧ f w = some x) : l.length ≤ n := by
  induction n generalizing l f with
  | zero =>
      cases l with
      | nil => simp
      | cons x xs => obtain ⟨w, hw, _⟩ := h x (by simp); omega
  | succ n ih =>
      cases hf : f n with
      | none =>
          have := ih hn (f := f) (fun x hx => by
            obtain ⟨w, hw, hx'⟩ := h x hx
            refine ⟨w, ?_, hx'⟩
            rcases Nat.lt_or_ge w n with h1 | h1
            · exact h1
            · have : w = n := by omega
              subst this; rw [hf] at hx'; cases hx')
          omega
      | some y =>
          have h1 := ih (l := l.erase y) (f := f) (hn.erase y) (fun x hx => by
            have hx1 := (hn.mem_erase_iff).mp hx
            obtain ⟨w, hw, hx'⟩ := h x hx1.2
            refine ⟨w, ?_, hx'⟩
            rcases Nat.lt_or_ge w n with h1 | h1
            · exact h1
            · have : w = n := by omega
              subst this
              rw [hf] at hx'
              exact absurd (Option.some.inj hx').symm hx1.1)
          have h2 : l.length ≤ (l.erase y).length + 1 := by
            rw [List.length_erase]; split <;> omega
          omega

/-- **C56.**  No more tasks are running than there are threads; no task is both pending and running; all ids
are different. -/
theorem c56_consistent (h : Run cfg es s) (hsm : Small es) :
    (running es).length ≤ cfg.threads ∧ (running es).Nodup ∧
    (∀ id, id ∈ running es → id ∉ (queue es).map Task.id) ∧ ((accepted es).map Task.id).Nodup := by
  have hT := invT_run h hsm
  have hn : (running es).Nodup := by rw [← hT.running]; exact hT.runSub.nodup hT.nodup
  refine ⟨?_, hn, ?_, hT.accepted_nodup⟩
  · refine length_le_of_inj (f := fun w => busyId (s.wpc w)) hn ?_
    intro id hid
    obtain ⟨w, hw, h1⟩ := ((c50_never_lost h hsm).2.2.2 id).mp hid
    exact ⟨w, hw, busy_iff.mpr h1⟩
  · intro id hid hq
    have h1 := of_filter hid
    rw [← hT.queue] at hq
    obtain ⟨f, hf, hA⟩ := hT.fates id
    rw [hA.pend.mpr hq] at hf
    rw [hf] at h1
    cases h1

end Gul14.Pool
