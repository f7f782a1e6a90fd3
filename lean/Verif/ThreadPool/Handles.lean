import Verif.ThreadPool.Exec

namespace Gul14.Spec.Pool
open Gul14.Pool

/-- The documented meaning of the state of a task. -/
def truth : Fate → Option TaskState
  | .unknown => none
  | .pending => some .pending
  | .running | .ended _ => some .running
  | .finished _ => some .complete
  | .canceled => some .canceled

/-- The results that were delivered by the handle of task `id`. -/
def delivered (id : Nat) : List Ev → List Fut
  | [] => []
  | .result _ i (some r) :: es => if i = id then r :: delivered id es else delivered id es
  | _ :: es => delivered id es

end Gul14.Spec.Pool

/-! # C58, C70: task handles -/
namespace Gul14.Pool
open Spec.Pool

variable {cfg : Cfg} {es : List Ev} {s s' : St} {e : Ev}

/-- The task whose handle a caller uses. -/
def handleId : Cpc → Option Nat
  | .call _ (.cancel id) | .call _ (.state id) | .cancelLock id | .stateLock id | .check id => some id
  | _ => none

structure InvH (es : List Ev) (s : St) : Prop where
  handle : ∀ id, s.handle id = decide (id < (accepted es).length)
  valid : ∀ id, s.valid id = (s.handle id && !consumed id es)
  fresh : ∀ id, consumed id es = true → id < (accepted es).length
  call : ∀ c id, handleId (s.cpc c) = some id → id < (accepted es).length
  check : ∀ c id, s.cpc c = .check id → (∃ o, fate es id = some (.finished o)) ∨ fate es id = some .canceled

/-- Finished and canceled tasks stay so. -/
theorem next_final {id : Nat} {f : Fate} (hf : (∃ o, f = .finished o) ∨ f = .canceled) {g : Fate}
    (hn : next id f e = some g) : g = f := by
  cases e with
  | canceled c i b =>
      rcases hf with ⟨o, rfl⟩ | rfl <;> cases b <;> simp [next] at hn <;> (try split at hn) <;> simp_all
  | added c t => rcases hf with ⟨o, rfl⟩ | rfl <;> simp [next] at hn <;> (try split at hn) <;> simp_all
  | started w i n => rcases hf with ⟨o, rfl⟩ | rfl <;> simp [next] at hn <;> (try split at hn) <;> simp_all
  | ended w i o' => rcases hf with ⟨o, rfl⟩ | rfl <;> simp [next] at hn <;> (try split at hn) <;> simp_all
  | retired w i => rcases hf with ⟨o, rfl⟩ | rfl <;> simp [next] at hn <;> (try split at hn) <;> simp_all
  | cleared c n => rcases hf with ⟨o, rfl⟩ | rfl <;> simp [next] at hn <;> (try split at hn) <;> simp_all
  | destroyed c => rcases hf with ⟨o, rfl⟩ | rfl <;> simp [next] at hn <;> (try split at hn) <;> simp_all
  | _ => exact (Option.some.inj hn).symm

theorem fate_final {id : Nat} {f : Fate} (hf : (∃ o, f = .finished o) ∨ f = .canceled)
    (h1 : fate es id = some f) (h2 : ∃ g, fate (es ++ [e]) id = some g) : fate (es ++ [e]) id = some f := by
  obtain ⟨g, hg⟩ := h2
  have hg' := hg
  rw [fate_append, h1] at hg
  rw [hg', next_final hf hg]

theorem invH_step (h : Run cfg es s) (hs : Step cfg s e s') (hsm : Small (es ++ [e])) (ih : InvH es s) :
    InvH (es ++ [e]) s' := by
  have hT := invT_run h (small_of_append hsm)
  have hT' := invT_run (h.step hs) hsm
  have hck : ∀ id, ((∃ o, fate es id = some (.finished o)) ∨ fate es id = some .canceled) →
      (∃ o, fate (es ++ [e]) id = some (.finished o)) ∨ fate (es ++ [e]) id = some .canceled := by
    rintro id (⟨o, ho⟩ | ho)
    · exact Or.inl ⟨o, fate_final (Or.inl ⟨o, rfl⟩) ho (by obtain ⟨f, hf, _⟩ := hT'.fates id; exact ⟨f, hf⟩)⟩
    · exact Or.inr (fate_final (Or.inr rfl) ho (by obtain ⟨f, hf, _⟩ := hT'.fates id; exact ⟨f, hf⟩))
  have hlen : (accepted es).length ≤ (accepted (es ++ [e])).length := by
    rw [accepted_append, List.length_append]; omega
  -- steps that do not use handles
  have key : s'.handle = s.handle → s'.valid = s.valid → (∀ c t, e ≠ .added c t) → (∀ id, consumed id [e] = false) →
      (∀ c id, handleId (s'.cpc c) = some id → id < (accepted es).length) →
      (∀ c id, s'.cpc c = .check id → (∃ o, fate es id = some (.finished o)) ∨ fate es id = some .canceled) →
      InvH (es ++ [e]) s' := by
    intro h1 h2 h3 h4 h5 h6
    have ha := accepted_neutral (es := es) h3
    refine ⟨?_, ?_, ?_, ?_, ?_⟩
    · intro id; rw [h1, ha]; exact ih.handle id
    · intro id; rw [h1, h2, consumed_append, h4, Bool.or_false]; exact ih.valid id
    · intro id; rw [ha, consumed_append, h4, Bool.or_false]; exact ih.fresh id
    · intro c id; rw [ha]; exact h5 c id
    · intro c id hc; exact hck id (h6 c id hc)
  have keyC : ∀ {c : Who} {p : Cpc}, s'.cpc = (s.setC c p).cpc → s'.handle = s.handle → s'.valid = s.valid →
      (∀ c t, e ≠ .added c t) → (∀ id, consumed id [e] = false) →
      (∀ id, handleId p = some id → id < (accepted es).length) → (∀ id, p ≠ .check id) → InvH (es ++ [e]) s' := by
    intro c p h0 h1 h2 h3 h4 h5 h6
    refine key h1 h2 h3 h4 ?_ ?_
    · intro c' id
      rw [h0]
      by_cases hcc : c' = c
      · subst hcc; rw [setC_same]; exact h5 id
      · rw [setC_other hcc]; exact ih.call c' id
    · intro c' id
      rw [h0]
      by_cases hcc : c' = c
      · subst hcc; rw [setC_same]; intro h7; exact absurd h7 (h6 id)
      · rw [setC_other hcc]; exact ih.check c' id
  have keyS : s'.cpc = s.cpc → s'.handle = s.handle → s'.valid = s.valid →
      (∀ c t, e ≠ .added c t) → (∀ id, consumed id [e] = false) → InvH (es ++ [e]) s' := by
    intro h0 h1 h2 h3 h4
    exact key h1 h2 h3 h4 (by rw [h0]; exact ih.call) (by rw [h0]; exact ih.check)
  cases hs with
  | tick t => exact keyS rfl rfl rfl (by simp) (fun _ => rfl)
  | begin c ptr op hi hcc hop =>
      refine keyC (c := c) (p := .call ptr op) rfl rfl rfl (by simp) (fun _ => rfl) ?_ (by simp)
      intro id hid
      cases op <;> simp [handleId, Op.handle] at hid hop
  | fail c ptr op hc ho ha =>
      exact keyC (c := c) (p := .idle) rfl rfl rfl (by simp) (fun _ => rfl) (by simp [handleId]) (by simp)
  | body c ptr op hc ho =>
      cases op with
      | add name start =>
          by_cases hf : isFull cfg s = true
          · have he : section_ cfg s c ptr (.add name start) = (.full c, s.setC c .idle) := by simp only [section_, if_pos hf]
            rw [he] at keyC ⊢
            exact keyC (c := c) (p := .idle) rfl rfl rfl (by simp) (fun _ => rfl) (by simp [handleId]) (by simp)
          · by_cases hd : s.dying = true
            · have he : section_ cfg s c ptr (.add name start) = (.expired c, s.setC c .idle) := by
                simp only [section_, if_neg hf, if_pos hd]
              rw [he] at keyC ⊢
              exact keyC (c := c) (p := .idle) rfl rfl rfl (by simp) (fun _ => rfl) (by simp [handleId]) (by simp)
            · simp only [section_, if_neg hf, if_neg hd] at hsm hT' hck hlen ⊢
              have hN : s.nextId = (accepted es).length := by
                rw [hT.nextId]
                unfold Small at hsm
                rw [accepted_append, List.length_append] at hsm
                simp only [accepted, List.length_singleton] at hsm
                exact Nat.mod_eq_of_lt (by omega)
              have hl : (accepted (es ++ [.added c ⟨s.nextId, name, start⟩])).length = (accepted es).length + 1 := by
                rw [accepted_append, List.length_append]; rfl
              refine ⟨?_, ?_, ?_, ?_, ?_⟩
              · intro id
                rw [hl]
                show (if id = s.nextId then true else s.handle id) = _
                rw [hN, ih.handle id]
                by_cases h1 : id = (accepted es).length
                · rw [if_pos h1]; simp; omega
                · rw [if_neg h1]; simp; omega
              · intro id
                show (if id = s.nextId then true else s.valid id) = ((if id = s.nextId then true else s.handle id) && _)
                rw [consumed_append]
                by_cases h1 : id = s.nextId
                · rw [if_pos h1, if_pos h1]
                  cases h2 : consumed id es with
                  | false => rfl
                  | true => have := ih.fresh id h2; omega
                · rw [if_neg h1, if_neg h1, ih.valid id]; simp [consumed]
              · intro id h1
                rw [consumed_append] at h1
                simp only [consumed, Bool.or_false] at h1
                rw [hl]; have := ih.fresh id h1; omega
              · intro c' id h1
                rw [hl]
                by_cases hcc : c' = c
                · subst hcc; rw [setC_same] at h1; cases h1
                · rw [setC_other hcc] at h1; have := ih.call c' id h1; omega
              · intro c' id h1
                by_cases hcc : c' = c
                · subst hcc; rw [setC_same] at h1; cases h1
                · rw [setC_other hcc] at h1; exact hck id (ih.check c' id h1)
      | state id =>
          have hid := ih.call c id (by rw [hc]; rfl)
          by_cases h1 : s.runIds.contains id = true
          · have he : section_ cfg s c ptr (.state id) = (.answer c (.state id) (.state .running), s.setC c .idle) := by
              simp only [section_, if_pos h1]
            rw [he] at keyC ⊢
            exact keyC (c := c) (p := .idle) rfl rfl rfl (by simp) (fun _ => rfl) (by simp [handleId]) (by simp)
          · by_cases h2 : s.pending.any (·.id == id) = true
            · have he : section_ cfg s c ptr (.state id) = (.answer c (.state id) (.state .pending), s.setC c .idle) := by
                simp only [section_, if_neg h1, if_pos h2]
              rw [he] at keyC ⊢
              exact keyC (c := c) (p := .idle) rfl rfl rfl (by simp) (fun _ => rfl) (by simp [handleId]) (by simp)
            · have he : section_ cfg s c ptr (.state id) = (.internal, s.setC c (.check id)) := by
                simp only [section_, if_neg h1, if_neg h2]
              rw [he] at key ⊢
              refine key rfl rfl (by simp) (fun _ => rfl) ?_ ?_
              · intro c' i
                by_cases hcc : c' = c
                · subst hcc; show handleId ((s.setC c' _).cpc c') = _ → _; rw [setC_same]; intro h3; cases h3; exact hid
                · show handleId ((s.setC c _).cpc c') = _ → _; rw [setC_other hcc]; exact ih.call c' i
              · intro c' i
                by_cases hcc : c' = c
                · subst hcc
                  show (s.setC c' _).cpc c' = _ → _
                  rw [setC_same]; intro h3; cases h3
                  obtain ⟨f, hf, hA⟩ := hT.fates id
                  cases f with
                  | unknown => have := hA.fresh.mp rfl; omega
                  | pending =>
                      exfalso
                      apply h2
                      have := hA.pend.mp rfl
                      obtain ⟨t, ht, hti⟩ := List.mem_map.mp this
                      exact List.any_eq_true.mpr ⟨t, ht, by simpa using hti⟩
                  | running =>
                      exfalso
                      apply h1
                      obtain ⟨w, hw⟩ := hA.exec.mp rfl
                      exact List.contains_iff_mem.mpr ((hT.runMem id).mpr ⟨w, by rw [hw]; rfl⟩)
                  | ended o =>
                      exfalso
                      apply h1
                      obtain ⟨w, hw⟩ := hA.done.mp ⟨o, rfl⟩
                      exact List.contains_iff_mem.mpr ((hT.runMem id).mpr ⟨w, by rw [hw]; rfl⟩)
                  | finished o => exact Or.inl ⟨o, hf⟩
                  | canceled => exact Or.inr hf
                · show (s.setC c _).cpc c' = _ → _; rw [setC_other hcc]; exact ih.check c' i
      | cancel id =>
          simp only [section_] at keyC ⊢
          split at keyC
          · rename_i h1
            rw [if_pos h1]
            exact keyC (c := c) (p := .idle) rfl rfl rfl (by simp) (fun _ => rfl) (by simp [handleId]) (by simp)
          · rename_i h1
            rw [if_neg h1]
            exact keyC (c := c) (p := .idle) rfl rfl rfl (by simp) (fun _ => rfl) (by simp [handleId]) (by simp)
      | _ => exact keyC (c := c) (p := .idle) rfl rfl rfl (by simp [section_]) (fun _ => rfl) (by simp [handleId]) (by simp)
  | notifyOne c ptr id w hc hw hsl =>
      exact keyC (c := c) (p := .idle) rfl rfl rfl (by simp) (fun _ => rfl) (by simp [handleId]) (by simp)
  | notifyNone c ptr id hc hsl =>
      exact keyC (c := c) (p := .idle) rfl rfl rfl (by simp) (fun _ => rfl) (by simp [handleId]) (by simp)
  | handleCancel c id hk hi =>
      have hid : id < (accepted es).length := by
        have := ih.handle id; rw [hk] at this; exact decide_eq_true_eq.mp this.symm
      have ha : accepted (es ++ [.emptied c id]) = accepted es := accepted_neutral (by simp)
      have hcs : ∀ i, consumed i (es ++ [.emptied c id]) = (consumed i es || (id == i)) := by
        intro i; rw [consumed_append]; simp [consumed]
      refine ⟨?_, ?_, ?_, ?_, ?_⟩
      · intro i; rw [ha]; exact ih.handle i
      · intro i
        rw [hcs]
        show (if i = id then false else s.valid i) = (s.handle i && _)
        by_cases h1 : i = id
        · subst h1; simp
        · have : (id == i) = false := by simpa using Ne.symm h1
          rw [if_neg h1, ih.valid i, this, Bool.or_false]
      · intro i h1
        rw [hcs] at h1
        rw [ha]
        simp only [Bool.or_eq_true, beq_iff_eq] at h1
        rcases h1 with h1 | rfl
        · exact ih.fresh i h1
        · exact hid
      · intro c' i h1
        rw [ha]
        by_cases hcc : c' = c
        · subst hcc; rw [setC_same] at h1; cases h1; exact hid
        · rw [setC_other hcc] at h1; exact ih.call c' i h1
      · intro c' i h1
        by_cases hcc : c' = c
        · subst hcc; rw [setC_same] at h1; cases h1
        · rw [setC_other hcc] at h1; exact hck i (ih.check c' i h1)
  | handleCancelLock c id hc =>
      refine keyC (c := c) (p := .call true (.cancel id)) rfl rfl rfl (by simp) (fun _ => rfl) ?_ (by simp)
      intro i hi; cases hi; exact ih.call c id (by rw [hc]; rfl)
  | handleCancelThrow c id hc =>
      exact keyC (c := c) (p := .idle) rfl rfl rfl (by simp) (fun _ => rfl) (by simp [handleId]) (by simp)
  | handleState c id hk hi =>
      refine keyC (c := c) (p := .stateLock id) rfl rfl rfl (by simp) (fun _ => rfl) ?_ (by simp)
      intro i hi; cases hi
      have := ih.handle id; rw [hk] at this; exact decide_eq_true_eq.mp this.symm
  | handleStateLock c id hc =>
      refine keyC (c := c) (p := .call true (.state id)) rfl rfl rfl (by simp) (fun _ => rfl) ?_ (by simp)
      intro i hi; cases hi; exact ih.call c id (by rw [hc]; rfl)
  | handleStateThrow c id hc =>
      exact keyC (c := c) (p := .idle) rfl rfl rfl (by simp) (fun _ => rfl) (by simp [handleId]) (by simp)
  | handleCheck c id hc =>
      exact keyC (c := c) (p := .idle) rfl rfl rfl (by simp) (fun _ => rfl) (by simp [handleId]) (by simp)
  | handleComplete => exact keyS rfl rfl rfl (by simp) (fun _ => rfl)
  | handleNoResult => exact keyS rfl rfl rfl (by simp) (fun _ => rfl)
  | handleResult c id hk hi hcc hv hr =>
      have hid : id < (accepted es).length := by
        have := ih.handle id; rw [hk] at this; exact decide_eq_true_eq.mp this.symm
      have ha : accepted (es ++ [.result c id (some (s.fut id))]) = accepted es := accepted_neutral (by simp)
      have hcs : ∀ i, consumed i (es ++ [.result c id (some (s.fut id))]) = (consumed i es || (id == i)) := by
        intro i; rw [consumed_append]; simp [consumed]
      refine ⟨?_, ?_, ?_, ?_, ?_⟩
      · intro i; rw [ha]; exact ih.handle i
      · intro i
        rw [hcs]
        show (if i = id then false else s.valid i) = (s.handle i && _)
        by_cases h1 : i = id
        · subst h1; simp
        · have : (id == i) = false := by simpa using Ne.symm h1
          rw [if_neg h1, ih.valid i, this, Bool.or_false]
      · intro i h1
        rw [hcs] at h1
        rw [ha]
        simp only [Bool.or_eq_true, beq_iff_eq] at h1
        rcases h1 with h1 | rfl
        · exact ih.fresh i h1
        · exact hid
      · intro c' i h1
        rw [ha]; exact ih.call c' i h1
      · intro c' i h1
        exact hck i (ih.check c' i h1)
  | lock w hw hp ho => exact keyS rfl rfl rfl (by simp) (fun _ => rfl)
  | leave w hw hp hsd => exact keyS rfl rfl rfl (by simp) (fun _ => rfl)
  | wait w hw hp hsd hpe => exact keyS rfl rfl rfl (by simp) (fun _ => rfl)
  | read w hw hp hsd hpe => exact keyS rfl rfl rfl (by simp) (fun _ => rfl)
  | waitUntil w now hw hp hpi => exact keyS rfl rfl rfl (by simp) (fun _ => rfl)
  | start w now t rest hw hp hpi => exact keyS rfl rfl rfl (by simp) (fun _ => rfl)
  | finish w id o hw hp hc => exact keyS rfl rfl rfl (by simp) (fun _ => rfl)
  | retire w id hw hp ho => exact keyS rfl rfl rfl (by simp) (fun _ => rfl)
  | timeout w d hw hp hd => exact keyS rfl rfl rfl (by simp) (fun _ => rfl)
  | spurious w hw hp => exact keyS rfl rfl rfl (by simp) (fun _ => rfl)
  | release c hi hc hd hu =>
      exact keyC (c := c) (p := .dtorLock) rfl rfl rfl (by simp) (fun _ => rfl) (by simp [handleId]) (by simp)
  | dtorLock c hc ho =>
      exact keyC (c := c) (p := .dtorNotify) rfl rfl rfl (by simp) (fun _ => rfl) (by simp [handleId]) (by simp)
  | dtorNotify c hc =>
      exact keyC (c := c) (p := .dtorJoin) rfl rfl rfl (by simp) (fun _ => rfl) (by simp [handleId]) (by simp)
  | dtorJoin c hc ho =>
      exact keyC (c := c) (p := .idle) rfl rfl rfl (by simp) (fun _ => rfl) (by simp [handleId]) (by simp)
  | dtorSelf w hc hw ho =>
      exact keyC (c := .task w) (p := .aborted) rfl rfl rfl (by simp) (fun _ => rfl) (by simp [handleId]) (by simp)

theorem invH_run (h : Run cfg es s) (hsm : Small es) : InvH es s := by
  induction h with
  | init =>
      refine ⟨fun _ => rfl, fun _ => rfl, ?_, ?_, ?_⟩
      · intro _ h; cases h
      · intro _ _ h; cases h
      · intro _ _ h; cases h
  | step h hs ih => exact invH_step h hs hsm (ih (small_of_append hsm))

/-! ### What the functions of a handle report -/

theorem ready_iff (f : Fate) : (promised f).ready = (match f with | .unknown | .pending | .running => false | _ => true) := by
  cases f <;> rfl

/-- **C58.**  TaskHandle::is_complete() is true exactly if the task has finished or has been removed from the
queue, and its future has not been given away by cancel() or get_result(). -/
theorem c58_is_complete {c : Who} {id : Nat} {b : Bool} (h : Run cfg es s) (hsm : Small es)
    (hs : Step cfg s (.complete c id b) s') :
    b = true ↔ consumed id es = false ∧
      ((∃ o, fate es id = some (.ended o)) ∨ (∃ o, fate es id = some (.finished o)) ∨ fate es id = some .canceled) := by
  have hT := invT_run h hsm
  have hH := invH_run h hsm
  have hb : b = isComplete s id ∧ s.handle id = true := by
    generalize he : Ev.complete c id b = e at hs
    cases hs with
    | body c ptr op hc ho =>
        exfalso
        cases op <;> simp only [section_] at he <;> (repeat' split at he) <;> cases he
    | handleComplete c i hk => cases he; exact ⟨rfl, hk⟩
    | _ => cases he
  obtain ⟨f, hf, hA⟩ := hT.fates id
  rw [hb.1, isComplete, hH.valid id, hb.2, hA.fut, ready_iff, hf]
  cases f <;> simp

/-- **C58, partial.**  As long as cancel() and get_result() have not been called on the handle, and the task
has not been removed by cancel_pending_tasks() or the destruction of the pool, is_complete() is true exactly
if the task function has returned or thrown.  If the task was removed from the queue through its handle,
is_complete() is false.  Missing: the other histories, see the `_violated` theorems. -/
theorem c58_is_complete_partial {c : Who} {id : Nat} {b : Bool} (h : Run cfg es s) (hsm : Small es)
    (hs : Step cfg s (.complete c id b) s') :
    (consumed id es = false → fate es id ≠ some .canceled →
      (b = true ↔ (∃ o, fate es id = some (.ended o)) ∨ (∃ o, fate es id = some (.finished o)))) ∧
    (consumed id es = true → fate es id = some .canceled → b = false) := by
  have h1 := c58_is_complete h hsm hs
  constructor
  · intro h2 h3
    rw [h1, h2]
    simp [h3]
  · intro h2 h3
    cases b with
    | false => rfl
    | true => rw [(h1.mp rfl).1] at h2; cases h2

theorem state_cases {c : Who} {id : Nat} {r : Ans} (hs : Step cfg s (.answer c (.state id) r) s') :
    (r = .state .running ∧ id ∈ s.runIds) ∨ (r = .state .pending ∧ id ∈ s.pending.map Task.id) ∨
    (r = .state (if isComplete s id then .complete else .canceled) ∧ s.cpc c = .check id) := by
  generalize he : Ev.answer c (.state id) r = e at hs
  cases hs with
  | body c' ptr op hc ho =>
      cases op with
      | state i =>
          simp only [section_] at he
          split at he
          · rename_i h1
            cases he; exact Or.inl ⟨rfl, List.contains_iff_mem.mp h1⟩
          · split at he
            · rename_i h1
              cases he
              obtain ⟨t, ht, hti⟩ := List.any_eq_true.mp h1
              exact Or.inr (Or.inl ⟨rfl, List.mem_map.mpr ⟨t, ht, by simpa using hti⟩⟩)
            · cases he
      | _ => simp only [section_] at he <;> (repeat' split at he) <;> cases he
  | handleCheck c i hc => cases he; exact Or.inr (Or.inr ⟨rfl, hc⟩)
  | _ => cases he

/-- **C58.**  What TaskHandle::get_state() reports. -/
theorem c58_get_state {c : Who} {id : Nat} {r : Ans} (h : Run cfg es s) (hsm : Small es)
    (hs : Step cfg s (.answer c (.state id) r) s') :
    ∃ f, fate es id = some f ∧ r = .state (match f with
      | .pending => .pending
      | .running | .ended _ => .running
      | _ => if consumed id es then .canceled else .complete) := by
  have hT := invT_run h hsm
  have hH := invH_run h hsm
  obtain ⟨f, hf, hA⟩ := hT.fates id
  refine ⟨f, hf, ?_⟩
  rcases state_cases hs with ⟨rfl, h1⟩ | ⟨rfl, h1⟩ | ⟨rfl, h1⟩
  · rw [← listed_iff hT, hf] at h1
    cases f <;> simp_all [Listed]
  · rw [hA.pend.mpr h1]
  · have hid := hH.call c id (by rw [h1]; rfl)
    have hh : s.handle id = true := by rw [hH.handle id]; exact decide_eq_true hid
    have hfin := hH.check c id h1
    rw [hf] at hfin
    have hv : isComplete s id = !consumed id es := by
      rw [isComplete, hH.valid id, hh, hA.fut]
      rcases hfin with ⟨o, h2⟩ | h2 <;> cases h2 <;> simp [promised, Fut.ready]
    rw [hv]
    rcases hfin with ⟨o, h2⟩ | h2 <;> cases h2 <;> cases consumed id es <;> rfl

/-- **C58, partial.**  get_state() reports what has happened to the task, unless the result has been fetched or
cancel() was called on a running or finished task (then a finished task is reported as canceled), or the task
was removed by cancel_pending_tasks() (then it is reported as complete); see the `_violated` theorems. -/
theorem c58_get_state_partial {c : Who} {id : Nat} {r : Ans} (h : Run cfg es s) (hsm : Small es)
    (hs : Step cfg s (.answer c (.state id) r) s')
    (h1 : ∀ o, fate es id = some (.finished o) → consumed id es = false)
    (h2 : fate es id = some .canceled → consumed id es = true) :
    ∃ f t, fate es id = some f ∧ truth f = some t ∧ r = .state t := by
  obtain ⟨f, hf, hr⟩ := c58_get_state h hsm hs
  have hT := invT_run h hsm
  have hH := invH_run h hsm
  cases f with
  | unknown =>
      exfalso
      obtain ⟨f, hf', hA⟩ := hT.fates id
      rw [hf] at hf'; cases hf'
      have hge := hA.fresh.mp rfl
      rcases state_cases hs with ⟨_, h3⟩ | ⟨_, h3⟩ | ⟨_, h3⟩
      · rw [← listed_iff hT, hf] at h3; cases h3
      · have := hA.pend.mpr h3; cases this
      · have := hH.call c id (by rw [h3]; rfl); omega
  | pending => exact ⟨_, _, hf, rfl, hr⟩
  | running => exact ⟨_, _, hf, rfl, hr⟩
  | ended o => exact ⟨_, _, hf, rfl, hr⟩
  | finished o =>
      refine ⟨_, _, hf, rfl, ?_⟩
      rw [hr, h1 o hf]; rfl
  | canceled =>
      refine ⟨_, _, hf, rfl, ?_⟩
      rw [hr, h2 hf]; rfl

theorem result_cases {c : Who} {id : Nat} {r : Option Fut} (hs : Step cfg s (.result c id r) s') :
    s.handle id = true ∧ ((r = none ∧ s.valid id = false) ∨ (r = some (s.fut id) ∧ s.valid id = true ∧ (s.fut id).ready = true)) := by
  generalize he : Ev.result c id r = e at hs
  cases hs with
  | body c ptr op hc ho =>
      exfalso
      cases op <;> simp only [section_] at he <;> (repeat' split at he) <;> cases he
  | handleNoResult c i hk hi hcc hv => cases he; exact ⟨hk, Or.inl ⟨rfl, hv⟩⟩
  | handleResult c i hk hi hcc hv hr => cases he; exact ⟨hk, Or.inr ⟨rfl, hv, hr⟩⟩
  | _ => cases he

/-- **C58, C70.**  get_result() returns the value of its own task, or rethrows its exception, after the task
function has ended; it throws broken_promise if the task was removed from the queue, and logic_error exactly
if cancel() or get_result() was called on the handle before. -/
theorem c70_get_result {c : Who} {id : Nat} {r : Option Fut} (h : Run cfg es s) (hsm : Small es)
    (hs : Step cfg s (.result c id r) s') :
    (r = none ↔ consumed id es = true) ∧
    (∀ o, r = some (.done o) → fate es id = some (.ended o) ∨ fate es id = some (.finished o)) ∧
    (r = some .broken → fate es id = some .canceled) ∧ r ≠ some .waiting := by
  have hT := invT_run h hsm
  have hH := invH_run h hsm
  obtain ⟨hh, hr⟩ := result_cases hs
  obtain ⟨f, hf, hA⟩ := hT.fates id
  have hv := hH.valid id
  rw [hh, Bool.true_and] at hv
  rw [hA.fut] at hr
  rcases hr with ⟨rfl, h1⟩ | ⟨rfl, h1, h2⟩
  · rw [h1] at hv
    refine ⟨?_, by simp, by simp, by simp⟩
    simpa using hv
  · rw [h1] at hv
    refine ⟨?_, ?_, ?_, ?_⟩
    · simp; cases hc : consumed id es
      · rfl
      · rw [hc] at hv; cases hv
    · intro o ho
      rw [hf]
      cases f <;> simp_all [promised]
    · intro ho
      rw [hf]
      cases f <;> simp_all [promised]
    · intro ho
      cases f <;> simp_all [promised, Fut.ready]

theorem delivered_append (id : Nat) (es : List Ev) (e : Ev) :
    delivered id (es ++ [e]) = delivered id es ++ delivered id [e] := by
  induction es with
  | nil => simp [delivered]
  | cons x xs ih =>
      cases x with
      | result c i r =>
          cases r with
          | none => simp [delivered, ih]
          | some r => simp only [List.cons_append, delivered, ih]; split <;> simp
      | _ => simp [delivered, ih]

/-- **C70.**  The result of a task is delivered at most once. -/
theorem c70_at_most_once (h : Run cfg es s) (hsm : Small es) (id : Nat) :
    (delivered id es).length ≤ 1 ∧ (delivered id es ≠ [] → consumed id es = true) := by
  induction h with
  | init => simp [delivered]
  | @step es s s' e h hs ih =>
      have ih := ih (small_of_append hsm)
      rw [delivered_append, consumed_append]
      have key : delivered id [e] = [] → (delivered id es ++ delivered id [e]).length ≤ 1 ∧
          (delivered id es ++ delivered id [e] ≠ [] → (consumed id es || consumed id [e]) = true) := by
        intro h0
        rw [h0, List.append_nil]
        exact ⟨ih.1, fun h1 => by rw [ih.2 h1]; rfl⟩
      cases e with
      | result c i r =>
          cases r with
          | none => exact key rfl
          | some r =>
              by_cases hi : i = id
              · subst hi
                have h1 := (c70_get_result h (small_of_append hsm) hs).1
                have h2 : delivered i es = [] := by
                  cases hd : delivered i es with
                  | nil => rfl
                  | cons a b =>
                      have := ih.2 (by rw [hd]; simp)
                      rw [← h1] at this; cases this
                rw [h2]
                simp [delivered, consumed]
              · exact key (by simp [delivered, hi])
      | _ => exact key rfl

/-- **C70.**  A finished task's result can be fetched at once: if the function has ended and the future has not
been given away, get_result() does not block, and delivers the outcome. -/
theorem c70_available {c : Who} {id : Nat} {o : Outcome} (h : Run cfg es s) (hsm : Small es)
    (hf : fate es id = some (.ended o) ∨ fate es id = some (.finished o)) (hc : consumed id es = false)
    (hi : s.cpc c = .idle) (hcc : canCall cfg s c) : ∃ s', Step cfg s (.result c id (some (.done o))) s' := by
  have hT := invT_run h hsm
  have hH := invH_run h hsm
  obtain ⟨f, hf', hA⟩ := hT.fates id
  rw [hf'] at hf
  have hlt : id < (accepted es).length := by
    have := not_congr hA.fresh
    have h1 : f ≠ .unknown := by rcases hf with h1 | h1 <;> cases h1 <;> simp
    have := this.mp h1
    omega
  have hh : s.handle id = true := by rw [hH.handle id]; exact decide_eq_true hlt
  have hv : s.valid id = true := by rw [hH.valid id, hh, hc]; rfl
  have hfu : s.fut id = .done o := by rw [hA.fut]; rcases hf with h1 | h1 <;> cases h1 <;> rfl
  have := Step.handleResult s c id hh hi hcc hv (by rw [hfu]; rfl) (cfg := cfg)
  rw [hfu] at this
  exact ⟨_, this⟩

end Gul14.Pool
