import Verif.ThreadPool.Handles

/-! # C55: work conservation -/
namespace Gul14.Pool
open Spec.Pool

variable {cfg : Cfg} {es : List Ev} {s s' : St} {e : Ev}

/-- The worker is going to look at the queue without executing anything before. -/
def looks : Wpc → Bool
  | .want | .head | .scan _ | .done _ => true
  | _ => false

/-- The number of workers that are going to look at the queue. -/
def lookers (cfg : Cfg) (s : St) : Nat := total (fun w => if looks (s.wpc w) then 1 else 0) cfg.threads

theorem lookers_setW {w : Nat} {p : Wpc} (hw : w < cfg.threads) (h : s'.wpc = (s.setW w p).wpc) :
    lookers cfg s' + (if looks (s.wpc w) then 1 else 0) = lookers cfg s + (if looks p then 1 else 0) := by
  have h5 := total_change (f := fun k => if looks (s.wpc k) then 1 else 0)
    (g := fun j => if looks ((s.setW w p).wpc j) then 1 else 0) (n := cfg.threads) (i := w) hw
    (fun j hj => by rw [setW_other hj])
  simp only [setW_same] at h5
  unfold lookers
  rw [h]
  exact h5

theorem total_pos {f : Nat → Nat} {n : Nat} (h : 0 < total f n) : ∃ k, k < n ∧ 0 < f k := by
  induction n with
  | zero => simp [total] at h
  | succ n ih =>
      simp only [total] at h
      by_cases h1 : 0 < total f n
      · obtain ⟨k, hk, h2⟩ := ih h1; exact ⟨k, by omega, h2⟩
      · exact ⟨n, by omega, by omega⟩

/-- If a worker is asleep, every pending task has a worker that is going to look at the queue, or a
notification in progress. -/
def Served (cfg : Cfg) (s : St) : Prop :=
  (∃ w, w < cfg.threads ∧ isSleep (s.wpc w) = true) →
  ∃ L : List Who, L.Nodup ∧ (∀ c, c ∈ L → ∃ p id, s.cpc c = .notify p id) ∧ s.pending.length ≤ lookers cfg s + L.length

theorem served_step (h : Run cfg es s) (hsm : Small (es ++ [e])) (hd : AlwaysDue (es ++ [e]))
    (ih : s.shutdown = false → Served cfg s) (hs : Step cfg s e s') : s'.shutdown = false → Served cfg s' := by
  have hC := invC_run h
  have hM := invM_run h
  have hT := invT_run h (small_of_append hsm)
  -- a caller that is not about to notify
  have keyC : ∀ {c : Who} {p : Cpc}, s'.wpc = s.wpc → s'.cpc = (s.setC c p).cpc → (∀ q id, s.cpc c ≠ .notify q id) →
      s'.pending.length ≤ s.pending.length → s'.shutdown = s.shutdown → s'.shutdown = false → Served cfg s' := by
    intro c p h1 h2 h3 h4 h5 h6 hsl
    rw [h1] at hsl
    obtain ⟨L, hn, hL, hlen⟩ := ih (by rw [← h5]; exact h6) hsl
    refine ⟨L, hn, ?_, ?_⟩
    · intro c' hc'
      obtain ⟨q, id, hq⟩ := hL c' hc'
      refine ⟨q, id, ?_⟩
      rw [h2, setC_other]
      · exact hq
      · rintro rfl; exact h3 q id hq
    · have : lookers cfg s' = lookers cfg s := by unfold lookers; rw [h1]
      omega
  -- a worker that was not asleep and is not asleep afterwards, or is woken
  have keyW : ∀ {w : Nat} {p : Wpc}, w < cfg.threads → s'.wpc = (s.setW w p).wpc → s'.cpc = s.cpc → isSleep p = false →
      s'.pending.length + (if looks (s.wpc w) then 1 else 0) ≤ s.pending.length + (if looks p then 1 else 0) →
      s'.shutdown = s.shutdown → s'.shutdown = false → Served cfg s' := by
    intro w p hw h1 h2 h3 h4 h5 h6 hsl
    have hsl' : ∃ w, w < cfg.threads ∧ isSleep (s.wpc w) = true := by
      obtain ⟨k, hk, hks⟩ := hsl
      rw [h1] at hks
      by_cases hkw : k = w
      · subst hkw; rw [setW_same, h3] at hks; cases hks
      · rw [setW_other hkw] at hks; exact ⟨k, hk, hks⟩
    obtain ⟨L, hn, hL, hlen⟩ := ih (by rw [← h5]; exact h6) hsl'
    refine ⟨L, hn, ?_, ?_⟩
    · rw [h2]; exact hL
    · have := lookers_setW hw h1
      omega
  have keyS : s'.wpc = s.wpc → s'.cpc = s.cpc → s'.pending = s.pending → s'.shutdown = s.shutdown → s'.shutdown = false → Served cfg s' := by
    intro h1 h2 h3 h4 h5 hsl
    rw [h1] at hsl
    obtain ⟨L, hn, hL, hlen⟩ := ih (by rw [← h4]; exact h5) hsl
    refine ⟨L, hn, by rw [h2]; exact hL, ?_⟩
    have : lookers cfg s' = lookers cfg s := by unfold lookers; rw [h1]
    rw [h3, this]; exact hlen
  cases hs with
  | tick t => exact keyS rfl rfl rfl rfl
  | begin c ptr op hi =>
      exact keyC (c := c) (p := .call ptr op) rfl rfl (by rw [hi]; simp) (Nat.le_refl _) rfl
  | fail c ptr op hc ho ha =>
      exact keyC (c := c) (p := .idle) rfl rfl (by rw [hc]; simp) (Nat.le_refl _) rfl
  | body c ptr op hc ho =>
      by_cases hadd : ∃ name start, op = .add name start
      · obtain ⟨name, start, rfl⟩ := hadd
        by_cases hf : isFull cfg s = true
        · have he : section_ cfg s c ptr (.add name start) = (.full c, s.setC c .idle) := by simp only [section_, if_pos hf]
          rw [he] at keyC ⊢
          exact keyC (c := c) (p := .idle) rfl rfl (by rw [hc]; simp) (Nat.le_refl _) rfl
        · by_cases hdy : s.dying = true
          · have he : section_ cfg s c ptr (.add name start) = (.expired c, s.setC c .idle) := by
              simp only [section_, if_neg hf, if_pos hdy]
            rw [he] at keyC ⊢
            exact keyC (c := c) (p := .idle) rfl rfl (by rw [hc]; simp) (Nat.le_refl _) rfl
          · simp only [section_, if_neg hf, if_neg hdy]
            intro h1 hsl
            obtain ⟨L, hn, hL, hlen⟩ := ih h1 hsl
            have hcL : c ∉ L := by
              intro hcL
              obtain ⟨q, id, hq⟩ := hL c hcL
              rw [hc] at hq; cases hq
            refine ⟨c :: L, List.nodup_cons.mpr ⟨hcL, hn⟩, ?_, ?_⟩
            · intro c' hc'
              rcases List.mem_cons.mp hc' with rfl | hc'
              · exact ⟨ptr, s.nextId, setC_same _ _ _⟩
              · obtain ⟨q, id, hq⟩ := hL c' hc'
                refine ⟨q, id, ?_⟩
                rw [setC_other]
                · exact hq
                · intro h9; rw [h9] at hc'; exact hcL hc'
            · show (s.pending ++ [_]).length ≤ lookers cfg s + (c :: L).length
              simp only [List.length_append, List.length_cons, List.length_nil]
              omega
      · obtain ⟨p, hp, _⟩ := section_cpc cfg s c ptr op
        refine keyC (c := c) (p := p) (section_wpc ..) hp (by rw [hc]; simp) ?_ (section_shutdown ..)
        cases op <;> simp only [section_] <;> (repeat' split) <;> first | exact Nat.le_refl _ | skip
        · exact absurd ⟨_, _, rfl⟩ hadd
        · exact Nat.zero_le _
        · exact List.eraseP_sublist.length_le
  | notifyOne c ptr id w hc hw hsl =>
      intro h1 _
      obtain ⟨L, hn, hL, hlen⟩ := ih h1 ⟨w, hw, hsl⟩
      refine ⟨L.erase c, hn.erase c, ?_, ?_⟩
      · intro c' hc'
        have hne : c' ≠ c := by
          rintro rfl
          exact (List.Nodup.not_mem_erase hn) hc'
        obtain ⟨q, i, hq⟩ := hL c' (List.mem_of_mem_erase hc')
        exact ⟨q, i, by rw [setC_other hne]; exact hq⟩
      · have h2 := lookers_setW (s := s) (s' := (s.setW w .want).setC c .idle) (p := .want) hw rfl
        have h3 : looks (s.wpc w) = false := by
          cases hp : s.wpc w <;> rw [hp] at hsl <;> simp_all [isSleep, looks]
        rw [h3] at h2
        have h4 : L.length ≤ (L.erase c).length + 1 := by rw [List.length_erase]; split <;> omega
        have h5 : looks .want = true := rfl
        rw [h5] at h2
        simp only [if_true] at h2
        have h6 : ((s.setW w .want).setC c .idle).pending = s.pending := rfl
        rw [h6]
        simp at h2
        omega
  | notifyNone c ptr id hc hsl =>
      intro _ hex
      obtain ⟨w, hw, hx⟩ := hex
      have hx : isSleep (s.wpc w) = true := hx
      rw [hsl w hw] at hx; cases hx
  | handleCancel c id hk hi =>
      exact keyC (c := c) (p := .cancelLock id) rfl rfl (by rw [hi]; simp) (Nat.le_refl _) rfl
  | handleCancelLock c id hc =>
      exact keyC (c := c) (p := .call true (.cancel id)) rfl rfl (by rw [hc]; simp) (Nat.le_refl _) rfl
  | handleCancelThrow c id hc =>
      exact keyC (c := c) (p := .idle) rfl rfl (by rw [hc]; simp) (Nat.le_refl _) rfl
  | handleState c id hk hi =>
      exact keyC (c := c) (p := .stateLock id) rfl rfl (by rw [hi]; simp) (Nat.le_refl _) rfl
  | handleStateLock c id hc =>
      exact keyC (c := c) (p := .call true (.state id)) rfl rfl (by rw [hc]; simp) (Nat.le_refl _) rfl
  | handleStateThrow c id hc =>
      exact keyC (c := c) (p := .idle) rfl rfl (by rw [hc]; simp) (Nat.le_refl _) rfl
  | handleCheck c id hc =>
      exact keyC (c := c) (p := .idle) rfl rfl (by rw [hc]; simp) (Nat.le_refl _) rfl
  | handleComplete => exact keyS rfl rfl rfl rfl
  | handleNoResult => exact keyS rfl rfl rfl rfl
  | handleResult => exact keyS rfl rfl rfl rfl
  | lock w hw hp ho => exact keyW (p := .head) hw rfl rfl rfl (by rw [hp]; exact Nat.le_refl _) rfl
  | leave w hw hp hsd =>
      intro h1
      have h1 : s.shutdown = false := h1
      rw [hsd] at h1; cases h1
  | wait w hw hp hsd hpe =>
      intro _ _
      exact ⟨[], List.nodup_nil, by simp, by show s.pending.length ≤ _; rw [hpe]; simp⟩
  | read w hw hp hsd hpe => exact keyW (p := .scan s.clock) hw rfl rfl rfl (by rw [hp]; exact Nat.le_refl _) rfl
  | waitUntil w now hw hp hpi =>
      exfalso
      obtain ⟨a, b, hab, hck, hacc⟩ := scan_clock h hp
      cases hpe : s.pending with
      | nil => exact (hM.scan w now hp).2 hpe
      | cons t ts =>
          have h1 := pick_none hpi t (by rw [hpe]; simp)
          have h2 : t ∈ accepted es := hT.sub.subset (by rw [hpe]; simp)
          have h3 := hd a (b ++ [.internal]) (by rw [hab]; simp) t (by rw [hacc]; exact h2)
          omega
  | start w now t rest hw hp hpi =>
      refine keyW (p := .exec t.id) hw rfl rfl rfl ?_ rfl
      obtain ⟨a, b, h1, h2, _⟩ := pick_some hpi
      have h3 : s.pending.length = rest.length + 1 := by
        rw [h1, h2]; simp only [List.length_append, List.length_cons]; omega
      rw [hp]
      show rest.length + 1 ≤ s.pending.length + 0
      omega
  | finish w id o hw hp hc => exact keyW (p := .done id) hw rfl rfl rfl (by rw [hp]; exact Nat.le_succ _) rfl
  | retire w id hw hp ho => exact keyW (p := .head) hw rfl rfl rfl (by rw [hp]; exact Nat.le_refl _) rfl
  | timeout w d hw hp hd => exact keyW (p := .want) hw rfl rfl rfl (by rw [hp]; exact Nat.le_succ _) rfl
  | spurious w hw hp =>
      refine keyW (p := .want) hw rfl rfl rfl ?_ rfl
      show s.pending.length + _ ≤ s.pending.length + 1
      split <;> omega
  | release c hi hc hd hu =>
      exact keyC (c := c) (p := .dtorLock) rfl rfl (by rw [hi]; simp) (Nat.le_refl _) rfl
  | dtorLock c hc ho => intro h1; cases h1
  | dtorNotify c hc =>
      intro h1
      have h1 : s.shutdown = false := h1
      rw [hC.after c (Or.inl hc)] at h1; cases h1
  | dtorJoin c hc ho =>
      intro h1
      have h1 : s.shutdown = false := h1
      rw [hC.after c (Or.inr (Or.inl hc))] at h1; cases h1
  | dtorSelf w hc hw ho =>
      exact keyC (c := .task w) (p := .aborted) rfl rfl (by rw [hc]; simp) (Nat.le_refl _) rfl

theorem served (h : Run cfg es s) (hsm : Small es) (hd : AlwaysDue es) : s.shutdown = false → Served cfg s := by
  induction h with
  | init => intro _ _; exact ⟨[], List.nodup_nil, by simp, Nat.zero_le _⟩
  | step h hs ih => exact served_step h hsm hd (ih (small_of_append hsm) (always_prefix hd)) hs

/-- **C55, partial.**  If there are no delayed tasks: as long as shutdown has not been requested and a worker is
asleep, the number of pending tasks is at most the number of workers that are going to look at the queue plus
the number of notifications in progress.  Missing: delayed tasks, see `c55_delayed_violated`. -/
theorem c55_count_partial (h : Run cfg es s) (hsm : Small es) (hd : AlwaysDue es) (hsd : shut es = false)
    {w : Nat} (hw : w < cfg.threads) (hsl : isSleep (s.wpc w) = true) :
    ∃ L : List Who, L.Nodup ∧ (∀ c, c ∈ L → ∃ p id, s.cpc c = .notify p id) ∧
      (queue es).length ≤ total (fun w => if looks (s.wpc w) then 1 else 0) cfg.threads + L.length := by
  have hC := invC_run h
  rw [← (invT_run h hsm).queue]
  exact served h hsm hd (by rw [hC.shut]; exact hsd) ⟨w, hw, hsl⟩

/-- **C55, partial.**  If there are no delayed tasks: while a task is pending and a worker is asleep, a worker is
going to look at the queue without executing a task before, or a notification is in progress. -/
theorem c55_work_conserving_partial (h : Run cfg es s) (hsm : Small es) (hd : AlwaysDue es) (hsd : shut es = false)
    (hq : queue es ≠ []) {w : Nat} (hw : w < cfg.threads) (hsl : isSleep (s.wpc w) = true) :
    (∃ k, k < cfg.threads ∧ looks (s.wpc k) = true) ∨ ∃ c p id, s.cpc c = .notify p id := by
  obtain ⟨L, _, hL, hlen⟩ := c55_count_partial h hsm hd hsd hw hsl
  have hpos : 0 < (queue es).length := by
    cases hx : queue es with
    | nil => exact absurd hx hq
    | cons a b => simp
  cases L with
  | nil =>
      simp only [List.length_nil, Nat.add_zero] at hlen
      obtain ⟨k, hk, h1⟩ := total_pos (by omega : 0 < total (fun w => if looks (s.wpc w) then 1 else 0) cfg.threads)
      refine Or.inl ⟨k, hk, ?_⟩
      cases hx : looks (s.wpc k) with
      | true => rfl
      | false => simp [hx] at h1
  | cons c L =>
      obtain ⟨p, id, hc⟩ := hL c (by simp)
      exact Or.inr ⟨c, p, id, hc⟩

end Gul14.Pool
