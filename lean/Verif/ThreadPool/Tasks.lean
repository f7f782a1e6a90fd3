import Verif.ThreadPool.Inv

/-! # Invariant: what has happened to the tasks -/
namespace Gul14.Pool
open Spec.Pool

variable {cfg : Cfg} {es : List Ev} {s s' : St} {e : Ev}

/-- The task a worker is busy with. -/
def busyId : Wpc → Option Nat
  | .exec id | .done id => some id
  | _ => none

theorem wake_busy (p : Wpc) : busyId (wake p) = busyId p := by cases p <;> rfl

/-- The state of the pool agrees with the fate of a task. -/
structure Agrees (N : Nat) (s : St) (id : Nat) (f : Fate) : Prop where
  fresh : f = .unknown ↔ N ≤ id
  pend : f = .pending ↔ id ∈ s.pending.map Task.id
  exec : f = .running ↔ ∃ w, s.wpc w = .exec id
  done : (∃ o, f = .ended o) ↔ ∃ w, s.wpc w = .done id
  fut : s.fut id = promised f

structure InvT (es : List Ev) (s : St) : Prop where
  nextId : s.nextId = (accepted es).length % 2 ^ 64
  ids : (accepted es).map Task.id = List.range (accepted es).length
  sub : s.pending.Sublist (accepted es)
  fates : ∀ id, ∃ f, fate es id = some f ∧ Agrees (accepted es).length s id f
  uniq : ∀ w w' id, busyId (s.wpc w) = some id → busyId (s.wpc w') = some id → w = w'
  runs : ∃ l : List Task, s.runIds = l.map Task.id ∧ s.runNames = l.map Task.name ∧ ∀ t, t ∈ l → t ∈ accepted es
  runSub : s.runIds.Sublist (startedIds es)
  runMem : ∀ id, id ∈ s.runIds ↔ ∃ w, busyId (s.wpc w) = some id
  started : ∀ id, id ∈ startedIds es → fate es id ≠ some .unknown ∧ fate es id ≠ some .pending
  nodup : (startedIds es).Nodup

theorem Agrees.congr {N : Nat} {id : Nat} {f : Fate} (h : Agrees N s id f)
    (hp : id ∈ s'.pending.map Task.id ↔ id ∈ s.pending.map Task.id)
    (he : ∀ w, s'.wpc w = .exec id ↔ s.wpc w = .exec id) (hd : ∀ w, s'.wpc w = .done id ↔ s.wpc w = .done id)
    (hf : s'.fut id = s.fut id) : Agrees N s' id f :=
  ⟨h.fresh, by rw [hp]; exact h.pend, by rw [h.exec]; exact exists_congr (fun w => (he w).symm),
    by rw [h.done]; exact exists_congr (fun w => (hd w).symm), by rw [hf]; exact h.fut⟩

theorem busy_iff {p : Wpc} {id : Nat} : busyId p = some id ↔ p = .exec id ∨ p = .done id := by
  cases p <;> simp [busyId]

/-- Steps that do not concern tasks. -/
theorem InvT.neutral (h : InvT es s) (hn : neutral e = true) (h1 : s'.pending = s.pending)
    (h2 : s'.runIds = s.runIds) (h3 : s'.runNames = s.runNames) (h4 : s'.nextId = s.nextId) (h5 : s'.fut = s.fut)
    (he : ∀ w id, s'.wpc w = .exec id ↔ s.wpc w = .exec id)
    (hd : ∀ w id, s'.wpc w = .done id ↔ s.wpc w = .done id) : InvT (es ++ [e]) s' := by
  have ha : accepted (es ++ [e]) = accepted es := accepted_neutral (by rintro c t rfl; cases hn)
  have hst : startedIds (es ++ [e]) = startedIds es := startedIds_neutral (by rintro c t _ rfl; cases hn)
  have hb : ∀ w id, busyId (s'.wpc w) = some id ↔ busyId (s.wpc w) = some id := by
    intro w id
    rw [busy_iff, busy_iff, he, hd]
  refine ⟨by rw [h4, ha]; exact h.nextId, by rw [ha]; exact h.ids, by rw [h1, ha]; exact h.sub, ?_, ?_, ?_, ?_, ?_, ?_, ?_⟩
  · intro id
    obtain ⟨f, hf, hA⟩ := h.fates id
    refine ⟨f, by rw [fate_neutral hn]; exact hf, ?_⟩
    rw [ha]
    exact hA.congr (by rw [h1]) (fun w => he w id) (fun w => hd w id) (by rw [h5])
  · intro w w' id hw hw'
    exact h.uniq w w' id ((hb w id).mp hw) ((hb w' id).mp hw')
  · rw [h2, h3, ha]; exact h.runs
  · rw [h2, hst]; exact h.runSub
  · intro id
    rw [h2, h.runMem id]
    exact exists_congr (fun w => (hb w id).symm)
  · intro id hid
    rw [hst] at hid
    rw [fate_neutral hn]; exact h.started id hid
  · rw [hst]; exact h.nodup

theorem InvT.accepted_nodup (h : InvT es s) : ((accepted es).map Task.id).Nodup := by
  rw [h.ids]; exact List.nodup_range

theorem InvT.pending_nodup (h : InvT es s) : (s.pending.map Task.id).Nodup :=
  (h.sub.map Task.id).nodup h.accepted_nodup

theorem InvT.id_lt (h : InvT es s) {t : Task} (ht : t ∈ accepted es) : t.id < (accepted es).length := by
  have : t.id ∈ (accepted es).map Task.id := List.mem_map_of_mem ht
  rw [h.ids] at this
  exact List.mem_range.mp this

theorem setW_exec {w k : Nat} {p : Wpc} {id : Nat} (h1 : ∀ id, s.wpc w ≠ .exec id) (h2 : ∀ id, p ≠ .exec id) :
    (s.setW w p).wpc k = .exec id ↔ s.wpc k = .exec id := by
  by_cases hk : k = w
  · subst hk; rw [setW_same]; simp [h1, h2]
  · rw [setW_other hk]

theorem setW_done {w k : Nat} {p : Wpc} {id : Nat} (h1 : ∀ id, s.wpc w ≠ .done id) (h2 : ∀ id, p ≠ .done id) :
    (s.setW w p).wpc k = .done id ↔ s.wpc k = .done id := by
  by_cases hk : k = w
  · subst hk; rw [setW_same]; simp [h1, h2]
  · rw [setW_other hk]

/-- Removing pending tasks. -/
theorem InvT.remove (h : InvT es s) {P : Nat → Prop} (hacc : accepted (es ++ [e]) = accepted es)
    (hst : startedIds (es ++ [e]) = startedIds es) (h4 : s'.nextId = s.nextId) (hw : s'.wpc = s.wpc)
    (h2 : s'.runIds = s.runIds) (h3 : s'.runNames = s.runNames)
    (hsub : s'.pending.Sublist s.pending)
    (hmem : ∀ id, id ∈ s'.pending.map Task.id ↔ id ∈ s.pending.map Task.id ∧ ¬ P id)
    (hP : ∀ id, P id → id ∈ s.pending.map Task.id)
    (hfut : ∀ id, (P id → s'.fut id = .broken) ∧ (¬ P id → s'.fut id = s.fut id))
    (hnext : ∀ id f, fate es id = some f → (f = .pending ↔ id ∈ s.pending.map Task.id) →
      (P id → next id f e = some .canceled) ∧ (¬ P id → next id f e = some f)) : InvT (es ++ [e]) s' := by
  have hfate : ∀ id, (P id → fate (es ++ [e]) id = some .canceled) ∧ (¬ P id → fate (es ++ [e]) id = fate es id) := by
    intro id
    obtain ⟨f, hf, hA⟩ := h.fates id
    rw [fate_append, hf]
    exact hnext id f hf hA.pend
  refine ⟨by rw [h4, hacc]; exact h.nextId, by rw [hacc]; exact h.ids, by rw [hacc]; exact hsub.trans h.sub, ?_, ?_, ?_, ?_, ?_, ?_, ?_⟩
  · intro id
    obtain ⟨f, hf, hA⟩ := h.fates id
    by_cases hp : P id
    · refine ⟨.canceled, (hfate id).1 hp, ?_⟩
      have hfp : f = .pending := hA.pend.mpr (hP id hp)
      subst hfp
      refine ⟨?_, ?_, ?_, ?_, ?_⟩
      · rw [hacc, ← hA.fresh]; simp
      · rw [hmem]; simp [hp]
      · rw [hw, ← hA.exec]; simp
      · rw [hw, ← hA.done]; simp
      · rw [(hfut id).1 hp]; rfl
    · refine ⟨f, by rw [(hfate id).2 hp]; exact hf, ?_⟩
      rw [hacc]
      exact hA.congr (by rw [hmem]; simp [hp]) (fun w => by rw [hw]) (fun w => by rw [hw]) ((hfut id).2 hp)
  · rw [hw]; exact h.uniq
  · rw [h2, h3, hacc]; exact h.runs
  · rw [h2, hst]; exact h.runSub
  · rw [h2, hw]; exact h.runMem
  · intro id hid
    rw [hst] at hid
    by_cases hp : P id
    · rw [(hfate id).1 hp]; simp
    · rw [(hfate id).2 hp]; exact h.started id hid
  · rw [hst]; exact h.nodup

theorem InvT.clear (h : InvT es s) (hacc : accepted (es ++ [e]) = accepted es)
    (hst : startedIds (es ++ [e]) = startedIds es) (h4 : s'.nextId = s.nextId) (hw : s'.wpc = s.wpc)
    (h2 : s'.runIds = s.runIds) (h3 : s'.runNames = s.runNames) (hp : s'.pending = [])
    (hf : s'.fut = breakAll s.pending s.fut)
    (hn : ∀ id f, next id f e = if f = .pending then some .canceled else some f) : InvT (es ++ [e]) s' := by
  refine h.remove (P := fun id => id ∈ s.pending.map Task.id) hacc hst h4 hw h2 h3 (by rw [hp]; exact List.nil_sublist _)
    ?_ (fun _ h => h) ?_ ?_
  · intro id; rw [hp]; simp
  · intro id
    rw [hf]
    unfold breakAll
    exact ⟨fun h => by rw [if_pos h], fun h => by rw [if_neg h]⟩
  · intro id f _ hpd
    rw [hn, ← hpd]
    exact ⟨fun h => by rw [if_pos h], fun h => by rw [if_neg h]⟩

theorem mem_ids {l : List Task} {id : Nat} : l.any (·.id == id) = true ↔ id ∈ l.map Task.id := by
  simp [List.any_eq_true, List.mem_map]

theorem eraseP_ids {l : List Task} {id : Nat} (hn : (l.map Task.id).Nodup) (k : Nat) :
    k ∈ (l.eraseP (·.id == id)).map Task.id ↔ k ∈ l.map Task.id ∧ ¬ k = id := by
  induction l with
  | nil => simp
  | cons x xs ih =>
      simp only [List.map_cons, List.nodup_cons] at hn
      by_cases hx : x.id = id
      · rw [List.eraseP_cons_of_pos (by simp [hx])]
        simp only [List.map_cons, List.mem_cons]
        constructor
        · intro hk
          refine ⟨Or.inr hk, ?_⟩
          rintro rfl
          rw [hx] at hn
          exact hn.1 hk
        · rintro ⟨h | h, hne⟩
          · exact absurd (h.trans hx) hne
          · exact h
      · rw [List.eraseP_cons_of_neg (by simp [hx])]
        simp only [List.map_cons, List.mem_cons]
        rw [ih hn.2]
        constructor
        · rintro (h | ⟨h, h'⟩)
          · exact ⟨Or.inl h, by rw [h]; exact hx⟩
          · exact ⟨Or.inr h, h'⟩
        · rintro ⟨h | h, h'⟩
          · exact Or.inl h
          · exact Or.inr ⟨h, h'⟩

/-- add_task. -/
theorem InvT.add (h : InvT es s) {c : Who} {t : Task} (hsm : Small (es ++ [.added c t])) (hid : t.id = s.nextId)
    (h1 : s'.pending = s.pending ++ [t]) (h4 : s'.nextId = (s.nextId + 1) % 2 ^ 64)
    (h5 : s'.fut = fun k => if k = s.nextId then .waiting else s.fut k) (hw : s'.wpc = s.wpc)
    (h2 : s'.runIds = s.runIds) (h3 : s'.runNames = s.runNames) : InvT (es ++ [.added c t]) s' := by
  have hacc : accepted (es ++ [.added c t]) = accepted es ++ [t] := by rw [accepted_append]; rfl
  have hst : startedIds (es ++ [.added c t]) = startedIds es := startedIds_neutral (by simp)
  have hlen : (accepted (es ++ [.added c t])).length = (accepted es).length + 1 := by rw [hacc]; simp
  have hlt : (accepted es).length < 2 ^ 64 := by
    unfold Small at hsm
    rw [hlen] at hsm; omega
  have hN : s.nextId = (accepted es).length := by rw [h.nextId, Nat.mod_eq_of_lt hlt]
  have hunk : fate es t.id = some .unknown := by
    obtain ⟨f, hf, hA⟩ := h.fates t.id
    rw [hf, hA.fresh.mpr (by omega)]
  have hfate : ∀ id, fate (es ++ [.added c t]) id = if t.id = id then some .pending else fate es id := by
    intro id
    rw [fate_append]
    by_cases hi : t.id = id
    · subst hi; rw [hunk]; simp [next]
    · simp only [if_neg hi]
      cases hf : fate es id with
      | none => rfl
      | some f => simp [next, hi]
  refine ⟨?_, ?_, ?_, ?_, ?_, ?_, ?_, ?_, ?_, ?_⟩
  · rw [h4, hlen, hN]
  · rw [hlen, hacc, List.map_append, h.ids, List.range_succ]
    simp [hid, hN]
  · rw [h1, hacc]; exact List.Sublist.append h.sub (List.Sublist.refl _)
  · intro id
    rw [hfate, hlen]
    obtain ⟨f, hf, hA⟩ := h.fates id
    by_cases hi : t.id = id
    · subst hi
      have hfu : f = .unknown := hA.fresh.mpr (by omega)
      subst hfu
      refine ⟨.pending, by simp, ?_, ?_, ?_, ?_, ?_⟩
      · simp; omega
      · rw [h1]; simp
      · rw [hw, ← hA.exec]; simp
      · rw [hw, ← hA.done]; simp
      · rw [h5]; simp [hid, promised]
    · refine ⟨f, by rw [if_neg hi]; exact hf, ?_⟩
      have hA' : Agrees (accepted es).length s' id f :=
        hA.congr (by rw [h1]; simp; exact fun h => absurd h.symm hi) (fun w => by rw [hw]) (fun w => by rw [hw])
          (by rw [h5]; simp only; rw [if_neg (by omega)])
      refine ⟨?_, hA'.pend, hA'.exec, hA'.done, hA'.fut⟩
      rw [hA'.fresh]; omega
  · rw [hw]; exact h.uniq
  · rw [h2, h3, hacc]
    obtain ⟨l, a, b, d⟩ := h.runs
    exact ⟨l, a, b, fun t ht => by simp [d t ht]⟩
  · rw [h2, hst]; exact h.runSub
  · rw [h2, hw]; exact h.runMem
  · intro id hm
    rw [hst] at hm
    have := h.started id hm
    rw [hfate]
    rw [if_neg]
    · exact this
    · rintro rfl; exact this.1 hunk
  · rw [hst]; exact h.nodup

/-- A worker starts a task. -/
theorem InvT.start (h : InvT es s) {w : Nat} {now : Int} {t : Task} {a b : List Task} (hp : s.wpc w = .scan now)
    (hpe : s.pending = a ++ t :: b) (h1 : s'.pending = a ++ b) (h4 : s'.nextId = s.nextId) (h5 : s'.fut = s.fut)
    (hw : s'.wpc = (s.setW w (.exec t.id)).wpc) (h2 : s'.runIds = s.runIds ++ [t.id])
    (h3 : s'.runNames = s.runNames ++ [t.name]) : InvT (es ++ [.started w t.id now]) s' := by
  have hacc : accepted (es ++ [.started w t.id now]) = accepted es := accepted_neutral (by simp)
  have hst : startedIds (es ++ [.started w t.id now]) = startedIds es ++ [t.id] := by rw [startedIds_append]; rfl
  have htm : t.id ∈ s.pending.map Task.id := by rw [hpe]; simp
  have hpen : fate es t.id = some .pending := by
    obtain ⟨f, hf, hA⟩ := h.fates t.id
    rw [hf, hA.pend.mpr htm]
  obtain ⟨f0, hf0, hA0⟩ := h.fates t.id
  have hf0' : f0 = .pending := by rw [hpen] at hf0; exact (Option.some.inj hf0).symm
  subst hf0'
  have hnx : ∀ k, s.wpc k ≠ .exec t.id := by
    intro k hk
    have := hA0.exec.mpr ⟨k, hk⟩
    cases this
  have hnd : ∀ k, s.wpc k ≠ .done t.id := by
    intro k hk
    obtain ⟨o, ho⟩ := hA0.done.mpr ⟨k, hk⟩
    cases ho
  have hfate : ∀ id, fate (es ++ [.started w t.id now]) id = if t.id = id then some .running else fate es id := by
    intro id
    rw [fate_append]
    by_cases hi : t.id = id
    · subst hi; rw [hpen]; simp [next]
    · simp only [if_neg hi]
      cases hf : fate es id with
      | none => rfl
      | some f => simp [next, hi]
  have hnod := h.pending_nodup
  rw [hpe] at hnod
  simp only [List.map_append, List.map_cons] at hnod
  have hta : t.id ∉ (a ++ b).map Task.id := by
    have h6 := (List.nodup_append.mp hnod)
    have h7 := List.nodup_cons.mp h6.2.1
    rw [List.map_append, List.mem_append]
    rintro (h8 | h8)
    · exact h6.2.2 _ h8 t.id (by simp) rfl
    · exact h7.1 h8
  have hbusy : ∀ k id, busyId (s'.wpc k) = some id ↔ (k = w ∧ id = t.id) ∨ busyId (s.wpc k) = some id := by
    intro k id
    rw [hw]
    by_cases hk : k = w
    · subst hk; rw [setW_same, hp]; simp [busyId]; exact eq_comm
    · rw [setW_other hk]; simp [hk]
  refine ⟨by rw [h4, hacc]; exact h.nextId, by rw [hacc]; exact h.ids, ?_, ?_, ?_, ?_, ?_, ?_, ?_, ?_⟩
  · rw [h1, hacc]
    refine List.Sublist.trans ?_ h.sub
    rw [hpe]
    exact List.Sublist.append (List.Sublist.refl _) (List.sublist_cons_self _ _)
  · intro id
    rw [hfate, hacc]
    obtain ⟨f, hf, hA⟩ := h.fates id
    by_cases hi : t.id = id
    · subst hi
      rw [hf] at hpen
      cases hpen
      refine ⟨.running, by simp, ?_, ?_, ?_, ?_, ?_⟩
      · rw [← hA.fresh]; simp
      · rw [h1]; simp only [reduceCtorEq, false_iff]; exact hta
      · simp only [true_iff]
        exact ⟨w, by rw [hw, setW_same]⟩
      · simp only [reduceCtorEq, exists_false, false_iff]
        rintro ⟨k, hk⟩
        rw [hw] at hk
        by_cases hkw : k = w
        · subst hkw; rw [setW_same] at hk; cases hk
        · rw [setW_other hkw] at hk; exact hnd k hk
      · rw [h5, hA.fut]; rfl
    · refine ⟨f, by rw [if_neg hi]; exact hf, ?_⟩
      refine hA.congr ?_ ?_ ?_ (by rw [h5])
      · rw [h1, hpe]
        simp only [List.map_append, List.map_cons, List.mem_append, List.mem_cons]
        constructor
        · rintro (h | h)
          · exact Or.inl h
          · exact Or.inr (Or.inr h)
        · rintro (h | h | h)
          · exact Or.inl h
          · exact absurd h.symm hi
          · exact Or.inr h
      · intro k
        rw [hw]
        by_cases hkw : k = w
        · subst hkw; rw [setW_same, hp]; simp [hi]
        · rw [setW_other hkw]
      · intro k
        rw [hw]
        by_cases hkw : k = w
        · subst hkw; rw [setW_same, hp]; simp
        · rw [setW_other hkw]
  · intro k k' id hk hk'
    rw [hbusy] at hk hk'
    rcases hk with ⟨rfl, rfl⟩ | hk
    · rcases hk' with ⟨rfl, _⟩ | hk'
      · rfl
      · rcases busy_iff.mp hk' with h | h
        · exact absurd h (hnx _)
        · exact absurd h (hnd _)
    · rcases hk' with ⟨rfl, rfl⟩ | hk'
      · rcases busy_iff.mp hk with h | h
        · exact absurd h (hnx _)
        · exact absurd h (hnd _)
      · exact h.uniq k k' id hk hk'
  · obtain ⟨l, x, y, z⟩ := h.runs
    refine ⟨l ++ [t], by rw [h2, x]; simp, by rw [h3, y]; simp, ?_⟩
    intro t' ht'
    rw [hacc]
    rcases List.mem_append.mp ht' with ht' | ht'
    · exact z t' ht'
    · have : t' = t := by simpa using ht'
      subst this
      exact h.sub.subset (by rw [hpe]; simp)
  · rw [h2, hst]; exact List.Sublist.append h.runSub (List.Sublist.refl _)
  · intro id
    rw [h2]
    simp only [List.mem_append, List.mem_singleton, h.runMem id]
    constructor
    · rintro (⟨k, hk⟩ | hi)
      · exact ⟨k, (hbusy k id).mpr (Or.inr hk)⟩
      · exact ⟨w, (hbusy w id).mpr (Or.inl ⟨rfl, hi⟩)⟩
    · rintro ⟨k, hk⟩
      rcases (hbusy k id).mp hk with ⟨_, hi⟩ | hk
      · exact Or.inr hi
      · exact Or.inl ⟨k, hk⟩
  · intro id hm
    rw [hfate]
    by_cases hi : t.id = id
    · simp [hi]
    · rw [if_neg hi]
      rw [hst] at hm
      rcases List.mem_append.mp hm with hm | hm
      · exact h.started id hm
      · exact absurd (by simpa using hm) (Ne.symm hi)
  · rw [hst, List.nodup_append]
    refine ⟨h.nodup, by simp, ?_⟩
    intro x hx y hy hxy
    have hy : y = t.id := by simpa using hy
    subst hy
    subst hxy
    exact (h.started _ hx).2 hpen

/-- The function of a task returns. -/
theorem InvT.finish (h : InvT es s) {w id : Nat} {o : Outcome} (hp : s.wpc w = .exec id)
    (h1 : s'.pending = s.pending) (h4 : s'.nextId = s.nextId)
    (h5 : s'.fut = fun k => if k = id then .done o else s.fut k)
    (hw : s'.wpc = (s.setW w (.done id)).wpc) (h2 : s'.runIds = s.runIds) (h3 : s'.runNames = s.runNames) :
    InvT (es ++ [.ended w id o]) s' := by
  have hacc : accepted (es ++ [.ended w id o]) = accepted es := accepted_neutral (by simp)
  have hst : startedIds (es ++ [.ended w id o]) = startedIds es := startedIds_neutral (by simp)
  have hrun : fate es id = some .running := by
    obtain ⟨f, hf, hA⟩ := h.fates id
    rw [hf, hA.exec.mpr ⟨w, hp⟩]
  have hfate : ∀ k, fate (es ++ [.ended w id o]) k = if id = k then some (.ended o) else fate es k := by
    intro k
    rw [fate_append]
    by_cases hi : id = k
    · subst hi; rw [hrun]; simp [next]
    · simp only [if_neg hi]
      cases hf : fate es k with
      | none => rfl
      | some f => simp [next, hi]
  have hbusy : ∀ k i, busyId (s'.wpc k) = some i ↔ busyId (s.wpc k) = some i := by
    intro k i
    rw [hw]
    by_cases hk : k = w
    · subst hk; rw [setW_same, hp]; rfl
    · rw [setW_other hk]
  refine ⟨by rw [h4, hacc]; exact h.nextId, by rw [hacc]; exact h.ids, by rw [h1, hacc]; exact h.sub, ?_, ?_, ?_, ?_, ?_, ?_, ?_⟩
  · intro k
    rw [hfate, hacc]
    obtain ⟨f, hf, hA⟩ := h.fates k
    by_cases hi : id = k
    · subst hi
      rw [hf] at hrun
      cases hrun
      refine ⟨.ended o, by simp, ?_, ?_, ?_, ?_, ?_⟩
      · rw [← hA.fresh]; simp
      · rw [h1, ← hA.pend]; simp
      · simp only [reduceCtorEq, false_iff]
        rintro ⟨k, hk⟩
        rw [hw] at hk
        by_cases hkw : k = w
        · subst hkw; rw [setW_same] at hk; cases hk
        · rw [setW_other hkw] at hk
          exact hkw (h.uniq k w id (by rw [hk]; rfl) (by rw [hp]; rfl))
      · constructor
        · rintro _; exact ⟨w, by rw [hw, setW_same]⟩
        · rintro _; exact ⟨o, rfl⟩
      · rw [h5]; simp [promised]
    · refine ⟨f, by rw [if_neg hi]; exact hf, ?_⟩
      refine hA.congr (by rw [h1]) ?_ ?_ (by rw [h5]; simp only; rw [if_neg (Ne.symm hi)])
      · intro x
        rw [hw]
        by_cases hkw : x = w
        · subst hkw; rw [setW_same, hp]; simp [hi]
        · rw [setW_other hkw]
      · intro x
        rw [hw]
        by_cases hkw : x = w
        · subst hkw; rw [setW_same, hp]; simp [hi]
        · rw [setW_other hkw]
  · intro k k' i hk hk'
    exact h.uniq k k' i ((hbusy _ _).mp hk) ((hbusy _ _).mp hk')
  · rw [h2, h3, hacc]; exact h.runs
  · rw [h2, hst]; exact h.runSub
  · intro i
    rw [h2, h.runMem i]
    exact exists_congr (fun k => (hbusy k i).symm)
  · intro i hm
    rw [hst] at hm
    rw [hfate]
    by_cases hi : id = i
    · simp [hi]
    · rw [if_neg hi]; exact h.started i hm
  · rw [hst]; exact h.nodup

/-- The worker removes the task from the list of running tasks. -/
theorem InvT.retire (h : InvT es s) {w id : Nat} (hp : s.wpc w = .done id)
    (h1 : s'.pending = s.pending) (h4 : s'.nextId = s.nextId) (h5 : s'.fut = s.fut)
    (hw : s'.wpc = (s.setW w .head).wpc) (h2 : s'.runIds = (Pool.retire id s.runIds s.runNames).1)
    (h3 : s'.runNames = (Pool.retire id s.runIds s.runNames).2) : InvT (es ++ [.retired w id]) s' := by
  have hacc : accepted (es ++ [.retired w id]) = accepted es := accepted_neutral (by simp)
  have hst : startedIds (es ++ [.retired w id]) = startedIds es := startedIds_neutral (by simp)
  obtain ⟨f0, hf0, hA0⟩ := h.fates id
  obtain ⟨o, rfl⟩ := hA0.done.mpr ⟨w, hp⟩
  have hfate : ∀ k, fate (es ++ [.retired w id]) k = if id = k then some (.finished o) else fate es k := by
    intro k
    rw [fate_append]
    by_cases hi : id = k
    · subst hi; rw [hf0]; simp [next]
    · simp only [if_neg hi]
      cases hf : fate es k with
      | none => rfl
      | some f => simp [next, hi]
  have hbusy : ∀ k i, busyId (s'.wpc k) = some i ↔ k ≠ w ∧ busyId (s.wpc k) = some i := by
    intro k i
    rw [hw]
    by_cases hk : k = w
    · subst hk; rw [setW_same]; simp [busyId]
    · rw [setW_other hk]; simp [hk]
  have huniq := h.uniq
  have hmem : id ∈ s.runIds := (h.runMem id).mpr ⟨w, by rw [hp]; rfl⟩
  obtain ⟨l, hl1, hl2, hl3⟩ := h.runs
  obtain ⟨a, t, b, hl, hti, hta, hret⟩ := retire_spec (l := l) (id := id) (by rw [← hl1]; exact hmem)
  rw [← hl1, ← hl2] at hret
  have hri : s'.runIds = (a ++ b).map Task.id := by rw [h2, hret]
  have hrn : s'.runNames = (a ++ b).map Task.name := by rw [h3, hret]
  have hsub : s'.runIds.Sublist s.runIds := by
    rw [hri, hl1, hl]
    refine List.Sublist.map _ ?_
    exact List.Sublist.append (List.Sublist.refl _) (List.sublist_cons_self _ _)
  have hnod : s.runIds.Nodup := h.runSub.nodup h.nodup
  refine ⟨by rw [h4, hacc]; exact h.nextId, by rw [hacc]; exact h.ids, by rw [h1, hacc]; exact h.sub, ?_, ?_, ?_, ?_, ?_, ?_, ?_⟩
  · intro k
    rw [hfate, hacc]
    obtain ⟨f, hf, hA⟩ := h.fates k
    by_cases hi : id = k
    · subst hi
      rw [hf] at hf0
      cases hf0
      refine ⟨.finished o, by simp, ?_, ?_, ?_, ?_, ?_⟩
      · rw [← hA.fresh]; simp
      · rw [h1, ← hA.pend]; simp
      · simp only [reduceCtorEq, false_iff]
        rintro ⟨k, hk⟩
        rw [hw] at hk
        by_cases hkw : k = w
        · subst hkw; rw [setW_same] at hk; cases hk
        · rw [setW_other hkw] at hk
          exact hkw (h.uniq k w id (by rw [hk]; rfl) (by rw [hp]; rfl))
      · simp only [reduceCtorEq, exists_false, false_iff]
        rintro ⟨k, hk⟩
        rw [hw] at hk
        by_cases hkw : k = w
        · subst hkw; rw [setW_same] at hk; cases hk
        · rw [setW_other hkw] at hk
          exact hkw (h.uniq k w id (by rw [hk]; rfl) (by rw [hp]; rfl))
      · rw [h5, hA.fut]; rfl
    · refine ⟨f, by rw [if_neg hi]; exact hf, ?_⟩
      refine hA.congr (by rw [h1]) ?_ ?_ (by rw [h5])
      · intro x
        rw [hw]
        by_cases hkw : x = w
        · subst hkw; rw [setW_same, hp]; simp
        · rw [setW_other hkw]
      · intro x
        rw [hw]
        by_cases hkw : x = w
        · subst hkw; rw [setW_same, hp]; simp [hi]
        · rw [setW_other hkw]
  · intro k k' i hk hk'
    exact h.uniq k k' i ((hbusy _ _).mp hk).2 ((hbusy _ _).mp hk').2
  · refine ⟨a ++ b, hri, hrn, ?_⟩
    intro t' ht'
    rw [hacc]
    refine hl3 t' ?_
    rw [hl]
    rcases List.mem_append.mp ht' with h | h <;> simp [h]
  · rw [hst]; exact hsub.trans h.runSub
  · intro i
    rw [exists_congr (fun k => hbusy k i)]
    rw [hri]
    have hm := h.runMem i
    rw [hl1, hl] at hm
    rw [hl1, hl] at hnod
    simp only [List.map_append, List.map_cons, List.mem_append, List.mem_cons] at hm hnod ⊢
    have h6 := List.nodup_append.mp hnod
    have h7 := List.nodup_cons.mp h6.2.1
    constructor
    · intro hi
      have hne : i ≠ id := by
        rintro rfl
        rcases hi with hi | hi
        · exact hta hi
        · exact h7.1 (by rw [hti]; exact hi)
      obtain ⟨k, hk⟩ := hm.mp (by rcases hi with hi | hi <;> simp [hi])
      refine ⟨k, ?_, hk⟩
      rintro rfl
      rw [hp] at hk
      exact hne (Option.some.inj hk).symm
    · rintro ⟨k, hkw, hk⟩
      rcases hm.mpr ⟨k, hk⟩ with h | h | h
      · exact Or.inl h
      · exfalso
        rw [h, hti] at hk
        exact hkw (huniq k w id hk (by rw [hp]; rfl))
      · exact Or.inr h
  · intro i hm
    rw [hst] at hm
    rw [hfate]
    by_cases hi : id = i
    · simp [hi]
    · rw [if_neg hi]; exact h.started i hm
  · rw [hst]; exact h.nodup

theorem invT_step (hm : InvM cfg s) (h : InvT es s) (hsm : Small (es ++ [e])) (hs : Step cfg s e s') :
    InvT (es ++ [e]) s' := by
  cases hs with
  | body c ptr op hc ho =>
      cases op with
      | add name start =>
          simp only [section_] at hsm ⊢
          split
          · exact h.neutral rfl rfl rfl rfl rfl rfl (fun _ _ => Iff.rfl) (fun _ _ => Iff.rfl)
          · split
            · exact h.neutral rfl rfl rfl rfl rfl rfl (fun _ _ => Iff.rfl) (fun _ _ => Iff.rfl)
            · rename_i h1 h2
              rw [if_neg h1, if_neg h2] at hsm
              exact h.add hsm rfl rfl rfl rfl rfl rfl rfl
      | cancelAll =>
          exact h.clear (accepted_neutral (by simp [section_])) (startedIds_neutral (by simp [section_])) rfl rfl rfl rfl rfl rfl
            (fun _ _ => rfl)
      | cancel id =>
          simp only [section_] at hsm ⊢
          split
          · rename_i hany
            have hin := mem_ids.mp hany
            refine h.remove (P := fun k => k = id) (accepted_neutral (by simp)) (startedIds_neutral (by simp)) rfl rfl rfl rfl
              List.eraseP_sublist (eraseP_ids h.pending_nodup) ?_ ?_ ?_
            · rintro k rfl; exact hin
            · intro k
              constructor
              · rintro rfl
                show (if k = k then Fut.broken else s.fut k) = .broken
                rw [if_pos rfl]
              · intro hk
                show (if k = id then Fut.broken else s.fut k) = _
                rw [if_neg hk]
            · intro k f _ hpd
              simp only [next]
              constructor
              · rintro rfl; simp [hpd.mpr hin]
              · intro hk; simp [Ne.symm hk]
          · rename_i hany
            have hnin : id ∉ s.pending.map Task.id := fun hx => hany (mem_ids.mpr hx)
            refine h.remove (P := fun _ => False) (accepted_neutral (by simp)) (startedIds_neutral (by simp)) rfl rfl rfl rfl
              (List.Sublist.refl _) (fun k => by simp [St.setC]) (by simp) (fun k => by simp [St.setC]) ?_
            intro k f _ hpd
            refine ⟨False.elim, fun _ => ?_⟩
            simp only [next]
            rw [if_neg]
            rintro ⟨rfl, hf⟩
            exact hnin (hpd.mp hf)
      | state id =>
          simp only [section_]
          split
          · exact h.neutral rfl rfl rfl rfl rfl rfl (fun _ _ => Iff.rfl) (fun _ _ => Iff.rfl)
          · split <;> exact h.neutral rfl rfl rfl rfl rfl rfl (fun _ _ => Iff.rfl) (fun _ _ => Iff.rfl)
      | _ => exact h.neutral rfl rfl rfl rfl rfl rfl (fun _ _ => Iff.rfl) (fun _ _ => Iff.rfl)
  | notifyOne c ptr id w hc hw hsl =>
      have hq : (∀ id, s.wpc w ≠ .exec id) ∧ ∀ id, s.wpc w ≠ .done id := by
        cases hq : s.wpc w <;> simp [hq, isSleep] at hsl ⊢
      exact h.neutral rfl rfl rfl rfl rfl rfl (fun _ _ => setW_exec hq.1 (by simp)) (fun _ _ => setW_done hq.2 (by simp))
  | lock w hw hp ho =>
      exact h.neutral rfl rfl rfl rfl rfl rfl (fun _ _ => setW_exec (by simp [hp]) (by simp))
        (fun _ _ => setW_done (by simp [hp]) (by simp))
  | leave w hw hp hsd =>
      exact h.neutral rfl rfl rfl rfl rfl rfl (fun _ _ => setW_exec (by simp [hp]) (by simp))
        (fun _ _ => setW_done (by simp [hp]) (by simp))
  | wait w hw hp hsd hpe =>
      exact h.neutral rfl rfl rfl rfl rfl rfl (fun _ _ => setW_exec (by simp [hp]) (by simp))
        (fun _ _ => setW_done (by simp [hp]) (by simp))
  | read w hw hp hsd hpe =>
      exact h.neutral rfl rfl rfl rfl rfl rfl (fun _ _ => setW_exec (by simp [hp]) (by simp))
        (fun _ _ => setW_done (by simp [hp]) (by simp))
  | waitUntil w now hw hp hpi =>
      exact h.neutral rfl rfl rfl rfl rfl rfl (fun _ _ => setW_exec (by simp [hp]) (by simp))
        (fun _ _ => setW_done (by simp [hp]) (by simp))
  | start w now t rest hw hp hpi =>
      obtain ⟨a, b, h1, h2, _⟩ := pick_some hpi
      exact h.start hp h1 h2 rfl rfl rfl rfl rfl
  | finish w id o hw hp hc => exact h.finish hp rfl rfl rfl rfl rfl rfl
  | retire w id hw hp ho => exact h.retire hp rfl rfl rfl rfl rfl rfl
  | timeout w d hw hp hd =>
      exact h.neutral rfl rfl rfl rfl rfl rfl (fun _ _ => setW_exec (by simp [hp]) (by simp))
        (fun _ _ => setW_done (by simp [hp]) (by simp))
  | spurious w hw hp =>
      have hq : (∀ id, s.wpc w ≠ .exec id) ∧ ∀ id, s.wpc w ≠ .done id := by
        cases hq : s.wpc w <;> simp [hq, isSleep] at hp ⊢
      exact h.neutral rfl rfl rfl rfl rfl rfl (fun _ _ => setW_exec hq.1 (by simp)) (fun _ _ => setW_done hq.2 (by simp))
  | dtorNotify c hc => exact h.neutral rfl rfl rfl rfl rfl rfl (fun _ _ => wake_exec) (fun _ _ => wake_done)
  | dtorJoin c hc ho =>
      exact h.clear (accepted_neutral (by simp)) (startedIds_neutral (by simp)) rfl rfl rfl rfl rfl rfl (fun _ _ => rfl)
  | _ => exact h.neutral rfl rfl rfl rfl rfl rfl (fun _ _ => Iff.rfl) (fun _ _ => Iff.rfl)

theorem invT_init : InvT [] init where
  nextId := rfl
  ids := rfl
  sub := List.Sublist.refl _
  fates := fun id => ⟨.unknown, rfl, by simp [accepted], by simp [init], by simp [init], by simp [init], rfl⟩
  uniq := by simp [init, busyId]
  runs := ⟨[], rfl, rfl, by simp⟩
  runSub := List.Sublist.refl _
  runMem := by simp [init, busyId]
  started := by simp [startedIds]
  nodup := by simp [startedIds]

theorem invT_run (h : Run cfg es s) (hsm : Small es) : InvT es s := by
  induction h with
  | init => exact invT_init
  | step h hs ih => exact invT_step (invM_run h) (ih (small_of_append hsm)) hsm hs

end Gul14.Pool
