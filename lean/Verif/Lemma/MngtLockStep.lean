import Verif.Lemma.MngtLock

/-! Every step keeps the accounts of the management lock. -/

namespace Verif.MngtLock

open Verif.AsyncLock (Waiter collect readers writers)

/-- Closes the equations of credits. -/
macro "cr" : tactic => `(tactic| first
  | (simp [Task.c, Pc.c, Pc.l, Pc.r, Pc.w, Pc.pend, *]; done)
  | (simp [Task.c, Pc.c, Pc.l, Pc.r, Pc.w, Pc.pend, *]; omega)
  | (simp [Task.c, Pc.c, Pc.l, Pc.r, Pc.w, Pc.pend, *]; split <;> simp <;> omega)
  | (intro k; simp [Task.c, Pc.c, Pc.l, Pc.r, Pc.w, Pc.pend, *]; done)
  | (intro k; simp [Task.c, Pc.c, Pc.l, Pc.r, Pc.w, Pc.pend, *]; omega)
  | (intro k; simp [Task.c, Pc.c, Pc.l, Pc.r, Pc.w, Pc.pend, *]; split <;> simp <;> omega)
  | (intro h; simp [Pc.needs, *] at h; done)
  | (intro h; simp [Pc.needs, *] at h ⊢; omega))

theorem inv_get {s : St} (v : Inv s) (i : Nat) (t : Task) (ht : s.tasks[i]? = some t) (hd : t.dn = 0)
    (hp : t.pc = .idle) (h : 0 < s.cref) : Inv (s.get i t) := by
  obtain ⟨a, o⟩ := v
  unfold St.get
  rw [touch_id o h]
  dsimp only
  by_cases f : s.cFrz = true
  · rw [if_pos f]; exact ⟨a, o⟩
  · rw [if_neg f]
    have f : s.cFrz = false := by simpa using f
    refine set_spec (acc_cref a (s.cref + 1)) (ok_incC o f) i t _ ht hd ?_ ?_ ?_ ?_ ?_ ?_ ?_ <;>
      first | (simp [hp, Pc.stops]; done) | cr

theorem inv_put {s : St} (v : Inv s) (i : Nat) (t : Task) (ht : s.tasks[i]? = some t) (hd : t.dn = 0)
    (hp : t.pc = .idle) (h : 1 ≤ t.own) : Inv (s.touch.decC.setT i { t with own := t.own - 1 }) := by
  obtain ⟨a, o⟩ := v
  have hc : 0 < s.cref := by have := cref_ge a (Int.le_refl 0) ht; have := task_c_pos h; omega
  rw [touch_id o hc]
  have ht' : s.decC.tasks[i]? = some t := by rw [(decC_keeps s).1]; exact ht
  refine set_spec (acc_decC a hc) (ok_decC o hc) i t _ ht' hd ?_ ?_ ?_ ?_ ?_ ?_ ?_ <;>
      first | (simp [hp, Pc.stops]; done) | cr

theorem acc_use {s : St} {h : Cr} (a : Acc s h) (w : Waiter) : Acc { s with used := s.used ++ [w.id] }
    { h with k := fun k => h.k k + (if w.id = k then 1 else 0) } := by
  obtain ⟨a1, a2, a3, a4, a5, a6⟩ := a
  refine ⟨a1, a2, a3, a4, a5, ?_⟩
  intro k
  have := a6 k
  simp only [sumT, List.count_append, List.count_singleton] at this ⊢
  by_cases e : w.id = k
  · simp [e]; omega
  · simp [e]; omega

theorem ok_use {s : St} (o : Ok s) (w : Waiter) (h : w.id ∉ s.used) : Ok { s with used := s.used ++ [w.id] } := by
  obtain ⟨o1, o2, o3, o4, o5, o6, o7, o8, o9, o10, o11, o12, o13⟩ := o
  refine ⟨o1, o2, o3, ?_, o5, o6, o7, o8, o9, o10, o11, o12, o13⟩
  rw [List.nodup_append]
  refine ⟨o4, by simp, ?_⟩
  intro x hx y hy e
  simp at hy
  subst hy
  subst e
  exact h hx

theorem inv_call0 {s : St} (v : Inv s) (i : Nat) (t : Task) (w : Waiter) (tr : Bool) (ht : s.tasks[i]? = some t)
    (hd : t.dn = 0) (hp : t.pc = .idle) (h : 1 ≤ t.own) (hu : w.id ∉ s.used) : Inv (s.call0 i t w tr) := by
  obtain ⟨a, o⟩ := v
  have hc : 0 < s.cref := by have := cref_ge a (Int.le_refl 0) ht; have := task_c_pos h; omega
  unfold St.call0
  rw [touch_id o hc]
  dsimp only
  have A := acc_use a w
  have O := ok_use o w hu
  by_cases f : s.cFrz = true
  · rw [if_pos f]
    refine ⟨acc_conv (acc_tell A w false) rfl rfl rfl rfl ?_, ok_tell O w false⟩
    intro k; simp
  · rw [if_neg f]
    have f : s.cFrz = false := by simpa using f
    refine set_spec (acc_cref A (s.cref + 1)) (ok_incC O f) i t _ ht hd ?_ ?_ ?_ ?_ ?_ ?_ ?_
    all_goals cases tr
    all_goals first | (simp [Pc.stops]; done) | (simp [Pc.needs]; omega) | cr

theorem inv_call1 {s : St} (v : Inv s) (i : Nat) (t : Task) (w : Waiter) (tr : Bool) (ht : s.tasks[i]? = some t)
    (hd : t.dn = 0) (hp : t.pc = (if tr then .t1 w else .lk1 w)) : Inv (s.call1 i t w tr) := by
  obtain ⟨a, o⟩ := v
  have hn : 1 ≤ t.own := (o.tasks i t ht).1 (by rw [hp]; cases tr <;> rfl)
  have hc : 0 < s.cref := by have := cref_ge a (Int.le_refl 0) ht; have := task_c_pos hn; omega
  unfold St.call1
  rw [touch_id o hc]
  dsimp only
  by_cases f : s.lFrz = true
  · rw [if_pos f]
    have ht' : (s.decC.tell w false).tasks[i]? = some t := by
      show s.decC.tasks[i]? = _; rw [(decC_keeps s).1]; exact ht
    refine set_spec (acc_tell (acc_decC a hc) w false) (ok_tell (ok_decC o hc) w false) i t _ ht' hd ?_ ?_ ?_ ?_ ?_ ?_ ?_
    all_goals cases tr
    all_goals first | (simp [Pc.stops]; done) | (simp [Pc.needs]; done) | cr
  · rw [if_neg f]
    have f : s.lFrz = false := by simpa using f
    refine set_spec (acc_lock a (s.lref + 1)) (ok_incL o f) i t _ ht hd ?_ ?_ ?_ ?_ ?_ ?_ ?_
    all_goals cases tr
    all_goals first | (simp [Pc.stops]; done) | (simp [Pc.needs]; omega) | cr

theorem inv_nm {s : St} (v : Inv s) (i : Nat) (t : Task) (w : Waiter) (ht : s.tasks[i]? = some t)
    (hd : t.dn = 0) (hp : t.pc = .nm w) : Inv (s.lockNm i t w) := by
  obtain ⟨a, o⟩ := v
  have hn : 1 ≤ t.own := (o.tasks i t ht).1 (by rw [hp]; rfl)
  have hc : 0 < s.cref := by have := cref_ge a (Int.le_refl 0) ht; have := task_c_pos hn; omega
  unfold St.lockNm
  rw [touch_id o hc]
  have ht' : (s.decC.tell w false).tasks[i]? = some t := by
    show s.decC.tasks[i]? = _; rw [(decC_keeps s).1]; exact ht
  refine set_spec (acc_tell (acc_decC a hc) w false) (ok_tell (ok_decC o hc) w false) i t _ ht' hd ?_ ?_ ?_ ?_ ?_ ?_ ?_
  all_goals first | (simp [Pc.stops]; done) | (simp [Pc.needs]; done) | cr

theorem inv_lock3 {s : St} (v : Inv s) (i : Nat) (t : Task) (ht : s.tasks[i]? = some t)
    (hd : t.dn = 0) (hp : t.pc = .lk3 ∨ t.pc = .tEnd) : Inv (s.touch.decL i { t with pc := .idle }) := by
  obtain ⟨a, o⟩ := v
  have hn : 1 ≤ t.own := (o.tasks i t ht).1 (by rcases hp with hp | hp <;> rw [hp] <;> rfl)
  have hc : 0 < s.cref := by have := cref_ge a (Int.le_refl 0) ht; have := task_c_pos hn; omega
  have hl : 0 < s.lref := by
    have := lref_ge a (Int.le_refl 0) ht
    rcases hp with hp | hp <;> rw [hp] at this <;> exact this
  rw [touch_id o hc]
  rcases hp with hp | hp
  · refine decL_spec a o i t _ ht hl hd hd rfl hn ?_ ?_ ?_ ?_ ?_
    all_goals cr
  · refine decL_spec a o i t _ ht hl hd hd rfl hn ?_ ?_ ?_ ?_ ?_
    all_goals cr

theorem not_dead {s : St} (o : Ok s) (hl : 0 < s.lref) : s.dead = false := by
  cases h : s.dead
  · rfl
  · have := (o.dead h).2.1; omega

theorem acc_q {s : St} {h : Cr} (a : Acc s h) (w : Waiter) : Acc { s with q := s.q ++ [w] }
    { h with c := h.c - 1, k := fun k => h.k k - (if w.id = k then 1 else 0) } := by
  obtain ⟨a1, a2, a3, a4, a5, a6⟩ := a
  refine ⟨?_, a2, a3, a4, a5, ?_⟩
  · simp only [sumT, List.length_append, List.length_singleton] at a1 ⊢
    omega
  · intro k
    have := a6 k
    simp only [sumT, cnt_append, cnt_one] at this ⊢
    split <;> omega

theorem ok_q {s : St} (o : Ok s) (w : Waiter) (h : s.dead = false) : Ok { s with q := s.q ++ [w] } := by
  obtain ⟨o1, o2, o3, o4, o5, o6, o7, o8, o9, o10, o11, o12, o13⟩ := o
  refine ⟨o1, o2, o3, o4, o5, o6, o7, o8, o9, o10, ?_, o12, o13⟩
  intro g
  simp only [h] at g
  cases g

theorem acc_grant {s : St} {h : Cr} (a : Acc s h) (w : Waiter) : Acc { s with grant := s.grant ++ [w] }
    { h with c := h.c - 1, k := fun k => h.k k - (if w.id = k then 1 else 0),
             r := h.r - (if w.write then 0 else 1), w := h.w - (if w.write then 1 else 0) } := by
  obtain ⟨a1, a2, a3, a4, a5, a6⟩ := a
  refine ⟨?_, a2, ?_, ?_, a5, ?_⟩
  · simp only [sumT, List.length_append, List.length_singleton] at a1 ⊢
    omega
  · simp only [sumT, Verif.AsyncLock.readers_append, readers_one] at a3 ⊢
    split <;> omega
  · simp only [sumT, Verif.AsyncLock.writers_append, writers_one] at a4 ⊢
    split <;> omega
  · intro k
    have := a6 k
    simp only [sumT, cnt_append, cnt_one] at this ⊢
    split <;> omega

theorem ok_grant {s : St} (o : Ok s) (l : List Waiter) : Ok { s with grant := l } := by
  obtain ⟨o1, o2, o3, o4, o5, o6, o7, o8, o9, o10, o11, o12, o13⟩ := o
  exact ⟨o1, o2, o3, o4, o5, o6, o7, o8, o9, o10, o11, o12, o13⟩

theorem acc_ungrant {s : St} {h : Cr} (a : Acc s h) (w : Waiter) (hw : w ∈ s.grant) :
    Acc { s with grant := s.grant.erase w }
    { h with c := h.c + 1, k := fun k => h.k k + (if w.id = k then 1 else 0),
             r := h.r + (if w.write then 0 else 1), w := h.w + (if w.write then 1 else 0) } := by
  obtain ⟨a1, a2, a3, a4, a5, a6⟩ := a
  refine ⟨?_, a2, ?_, ?_, a5, ?_⟩
  · have := len_erase _ _ hw
    simp only [sumT] at a1 ⊢
    omega
  · have := Verif.AsyncLock.readers_erase _ _ hw
    simp only [sumT] at a3 ⊢
    by_cases e : w.write = true
    · rw [if_pos e] at this ⊢; omega
    · rw [if_neg e] at this ⊢; omega
  · have := Verif.AsyncLock.writers_erase _ _ hw
    simp only [sumT] at a4 ⊢
    by_cases e : w.write = true
    · rw [if_pos e] at this ⊢; omega
    · rw [if_neg e] at this ⊢; omega
  · intro k
    have g := a6 k
    have := cnt_erase k _ _ hw
    simp only [sumT] at g ⊢
    by_cases e : w.id = k
    · rw [if_pos e] at this ⊢; omega
    · rw [if_neg e] at this ⊢; omega

theorem acc_held {s : St} {h : Cr} (a : Acc s h) (w : Waiter) : Acc { s with held := s.held ++ [w] }
    { h with c := h.c - 1, r := h.r - (if w.write then 0 else 1), w := h.w - (if w.write then 1 else 0) } := by
  obtain ⟨a1, a2, a3, a4, a5, a6⟩ := a
  refine ⟨?_, a2, ?_, ?_, a5, a6⟩
  · simp only [sumT, List.length_append, List.length_singleton] at a1 ⊢
    omega
  · simp only [sumT, Verif.AsyncLock.readers_append, readers_one] at a3 ⊢
    split <;> omega
  · simp only [sumT, Verif.AsyncLock.writers_append, writers_one] at a4 ⊢
    split <;> omega

theorem ok_held {s : St} (o : Ok s) (l : List Waiter) : Ok { s with held := l } := by
  obtain ⟨o1, o2, o3, o4, o5, o6, o7, o8, o9, o10, o11, o12, o13⟩ := o
  exact ⟨o1, o2, o3, o4, o5, o6, o7, o8, o9, o10, o11, o12, o13⟩

theorem acc_unheld {s : St} {h : Cr} (a : Acc s h) (w : Waiter) (hw : w ∈ s.held) :
    Acc { s with held := s.held.erase w }
    { h with c := h.c + 1, r := h.r + (if w.write then 0 else 1), w := h.w + (if w.write then 1 else 0) } := by
  obtain ⟨a1, a2, a3, a4, a5, a6⟩ := a
  refine ⟨?_, a2, ?_, ?_, a5, a6⟩
  · have := len_erase _ _ hw
    simp only [sumT] at a1 ⊢
    omega
  · have := Verif.AsyncLock.readers_erase _ _ hw
    simp only [sumT] at a3 ⊢
    by_cases e : w.write = true
    · rw [if_pos e] at this ⊢; omega
    · rw [if_neg e] at this ⊢; omega
  · have := Verif.AsyncLock.writers_erase _ _ hw
    simp only [sumT] at a4 ⊢
    by_cases e : w.write = true
    · rw [if_pos e] at this ⊢; omega
    · rw [if_neg e] at this ⊢; omega

theorem inv_lock2 {s : St} (v : Inv s) (i : Nat) (t : Task) (w : Waiter) (ok : Bool) (ht : s.tasks[i]? = some t)
    (hd : t.dn = 0) (hp : t.pc = .lk2 w) : Inv (s.lock2 i t w ok) := by
  obtain ⟨a, o⟩ := v
  have hn : 1 ≤ t.own := (o.tasks i t ht).1 (by rw [hp]; rfl)
  have hc : 0 < s.cref := by have := cref_ge a (Int.le_refl 0) ht; have := task_c_pos hn; omega
  have hl : 0 < s.lref := by
    have := lref_ge a (Int.le_refl 0) ht
    rw [hp] at this; exact this
  unfold St.lock2
  rw [touch_id o hc]
  dsimp only
  rw [useL_id (not_dead o hl)]
  cases ok
  · rw [if_neg (by simp)]
    refine decL_spec a o i t _ ht hl hd hd rfl hn ?_ ?_ ?_ ?_ ?_
    all_goals cr
  · rw [if_pos rfl]
    by_cases f : s.free w = true
    · rw [if_pos f]
      obtain ⟨b1, b2, b3, b4, b5, b6⟩ := take_spec a o w f
      have e : s.grant = (s.take w).grant := by unfold St.take; split <;> rfl
      rw [e]
      refine set_spec (acc_grant b1 w) (ok_grant b2 _) i t _ (by show (s.take w).tasks[i]? = _; rw [b3]; exact ht) hd
        ?_ ?_ ?_ ?_ ?_ ?_ ?_
      all_goals first | (simp [Pc.stops]; done) | (simp [Pc.needs]; omega) | cr
    · rw [if_neg f]
      refine set_spec (acc_q a w) (ok_q o w (not_dead o hl)) i t _ ht hd ?_ ?_ ?_ ?_ ?_ ?_ ?_
      all_goals first | (simp [Pc.stops]; done) | (simp [Pc.needs]; omega) | cr

theorem inv_try2 {s : St} (v : Inv s) (i : Nat) (t : Task) (w : Waiter) (ht : s.tasks[i]? = some t)
    (hd : t.dn = 0) (hp : t.pc = .t2 w) : Inv (s.try2 i t w) := by
  obtain ⟨a, o⟩ := v
  have hn : 1 ≤ t.own := (o.tasks i t ht).1 (by rw [hp]; rfl)
  have hc : 0 < s.cref := by have := cref_ge a (Int.le_refl 0) ht; have := task_c_pos hn; omega
  have hl : 0 < s.lref := by
    have := lref_ge a (Int.le_refl 0) ht
    rw [hp] at this; exact this
  unfold St.try2
  rw [touch_id o hc, useL_id (not_dead o hl)]
  dsimp only
  by_cases f : s.free w = true
  · rw [if_pos f]
    obtain ⟨b1, b2, b3, b4, b5, b6⟩ := take_spec a o w f
    refine set_spec b1 b2 i t _ (by rw [b3]; exact ht) hd ?_ ?_ ?_ ?_ ?_ ?_ ?_
    all_goals first | (simp [Pc.stops]; done) | (simp [Pc.needs]; omega) | cr
  · rw [if_neg f]
    have ht' : (s.decC.tell w false).tasks[i]? = some t := by
      show s.decC.tasks[i]? = _; rw [(decC_keeps s).1]; exact ht
    refine set_spec (acc_tell (acc_decC a hc) w false) (ok_tell (ok_decC o hc) w false) i t _ ht' hd ?_ ?_ ?_ ?_ ?_ ?_ ?_
    all_goals first | (simp [Pc.stops]; done) | (simp [Pc.needs]; omega) | cr

theorem acc_leak {s : St} {h : Cr} (a : Acc s h) : Acc { s with leaked := s.leaked + 1 } { h with c := h.c - 1 } := by
  obtain ⟨a1, a2, a3, a4, a5, a6⟩ := a
  refine ⟨?_, a2, a3, a4, a5, a6⟩
  simp only [sumT] at a1 ⊢
  omega

theorem ok_leak {s : St} (o : Ok s) (n : Nat) : Ok { s with leaked := n } := by
  obtain ⟨o1, o2, o3, o4, o5, o6, o7, o8, o9, o10, o11, o12, o13⟩ := o
  exact ⟨o1, o2, o3, o4, o5, o6, o7, o8, o9, o10, o11, o12, o13⟩

theorem inv_try3 {s : St} (v : Inv s) (i : Nat) (t : Task) (w : Waiter) (ht : s.tasks[i]? = some t)
    (hd : t.dn = 0) (hp : t.pc = .t3 w) : Inv (s.try3 i t w) := by
  obtain ⟨a, o⟩ := v
  have hn : 1 ≤ t.own := (o.tasks i t ht).1 (by rw [hp]; rfl)
  have hc : 0 < s.cref := by have := cref_ge a (Int.le_refl 0) ht; have := task_c_pos hn; omega
  have hh : s.has w := by
    have h1 := sum_ge s.tasks (fun t => t.pc.r) i t ht
    have h2 := sum_ge s.tasks (fun t => t.pc.w) i t ht
    have h3 := a.rd
    have h4 := a.wr
    simp only [sumT, hp, Pc.r, Pc.w] at h1 h2 h3 h4
    unfold St.has
    cases hw : w.write
    · simp [hw] at h1 ⊢; omega
    · simp [hw] at h2 ⊢; omega
  unfold St.try3
  rw [touch_id o hc]
  dsimp only
  by_cases f : s.stopping = true
  · rw [if_pos f]
    obtain ⟨b1, b2, b3, b4, b5, b6⟩ := unlockL_spec a o w hh
    refine set_spec (acc_tell (acc_leak b1) w false) (ok_tell (ok_leak b2 _) w false) i t _
      (by show (s.unlockL w).tasks[i]? = _; rw [b5]; exact ht) hd ?_ ?_ ?_ ?_ ?_ ?_ ?_
    all_goals first | (simp [Pc.stops]; done) | (simp [Pc.needs]; omega) | cr
  · rw [if_neg f]
    refine set_spec (acc_tell (acc_held a w) w true) (ok_tell (ok_held o _) w true) i t _ ht hd ?_ ?_ ?_ ?_ ?_ ?_ ?_
    all_goals first | (simp [Pc.stops]; done) | (simp [Pc.needs]; omega) | cr

theorem len_pos {l : List Waiter} {w : Waiter} (h : w ∈ l) : 0 < l.length := List.length_pos_of_mem h

theorem inv_done {s : St} (v : Inv s) (w : Waiter) (hw : w ∈ s.grant) : Inv (s.done w) := by
  obtain ⟨a, o⟩ := v
  have hc : 0 < s.cref := by have h1 := a.c; have h2 := len_pos hw; have h3 : ({} : Cr).c = 0 := rfl; omega
  have hh : s.has w := by
    have h1 := Verif.AsyncLock.readers_erase _ _ hw
    have h2 := Verif.AsyncLock.writers_erase _ _ hw
    have h3 := a.rd
    have h4 := a.wr
    unfold St.has
    cases e : w.write
    · simp [e] at h1 h3 ⊢; omega
    · simp [e] at h2 h4 ⊢; omega
  unfold St.done
  rw [touch_id o hc]
  dsimp only
  have A := acc_ungrant a w hw
  have O := ok_grant o (s.grant.erase w)
  by_cases f : s.stopping = true
  · rw [if_pos f]
    obtain ⟨b1, b2, b3, b4, b5, b6⟩ := unlockL_spec A O w hh
    have hc' : 0 < (St.unlockL { s with grant := s.grant.erase w } w).cref := by rw [b4]; exact hc
    refine ⟨acc_conv (acc_tell (acc_decC b1 hc') w false) ?_ ?_ ?_ ?_ ?_, ok_tell (ok_decC b2 hc') w false⟩
    all_goals simp
  · rw [if_neg f]
    refine ⟨acc_conv (acc_tell (acc_held A w) w true) ?_ ?_ ?_ ?_ ?_, ok_tell (ok_held O _) w true⟩
    all_goals simp

theorem inv_failed {s : St} (v : Inv s) (w : Waiter) (hw : w ∈ s.fail) : Inv (s.failed w) := by
  obtain ⟨a, o⟩ := v
  have hc : 0 < s.cref := by have h1 := a.c; have h2 := len_pos hw; have h3 : ({} : Cr).c = 0 := rfl; omega
  unfold St.failed
  rw [touch_id o hc]
  have A : Acc { s with fail := s.fail.erase w } { c := 1, k := fun k => (if w.id = k then 1 else 0) } := by
    obtain ⟨a1, a2, a3, a4, a5, a6⟩ := a
    refine ⟨?_, a2, a3, a4, a5, ?_⟩
    · have := len_erase _ _ hw
      simp only [sumT] at a1 ⊢
      omega
    · intro k
      have g := a6 k
      have := cnt_erase k _ _ hw
      simp only [sumT] at g ⊢
      by_cases e : w.id = k
      · rw [if_pos e] at this ⊢; omega
      · rw [if_neg e] at this ⊢; omega
  have O : Ok { s with fail := s.fail.erase w } := by
    obtain ⟨o1, o2, o3, o4, o5, o6, o7, o8, o9, o10, o11, o12, o13⟩ := o
    exact ⟨o1, o2, o3, o4, o5, o6, o7, o8, o9, o10, o11, o12, o13⟩
  refine ⟨acc_conv (acc_tell (acc_decC A hc) w false) ?_ ?_ ?_ ?_ ?_, ok_tell (ok_decC O hc) w false⟩
  all_goals simp

theorem inv_unlock {s : St} (v : Inv s) (i : Nat) (t : Task) (w : Waiter) (ht : s.tasks[i]? = some t)
    (hd : t.dn = 0) (hp : t.pc = .idle) (hw : w ∈ s.held) : Inv (s.unlock i t w) := by
  obtain ⟨a, o⟩ := v
  have hc : 0 < s.cref := by have h1 := a.c; have h2 := len_pos hw; have h3 : ({} : Cr).c = 0 := rfl; omega
  have hh : s.has w := by
    have h1 := Verif.AsyncLock.readers_erase _ _ hw
    have h2 := Verif.AsyncLock.writers_erase _ _ hw
    have h3 := a.rd
    have h4 := a.wr
    unfold St.has
    cases e : w.write
    · simp [e] at h1 h3 ⊢; omega
    · simp [e] at h2 h4 ⊢; omega
  unfold St.unlock
  rw [touch_id o hc]
  obtain ⟨b1, b2, b3, b4, b5, b6⟩ := unlockL_spec (acc_unheld a w hw) (ok_held o _) w hh
  refine set_spec b1 b2 i t _ (by rw [b5]; exact ht) hd ?_ ?_ ?_ ?_ ?_ ?_ ?_
  all_goals first | (simp [Pc.stops]; done) | (simp [Pc.needs]; done) | cr

theorem inv_unl {s : St} (v : Inv s) (i : Nat) (t : Task) (ht : s.tasks[i]? = some t)
    (hd : t.dn = 0) (hp : t.pc = .unl) : Inv (s.touch.decC.setT i { t with pc := .idle }) := by
  obtain ⟨a, o⟩ := v
  have hc : 0 < s.cref := by
    have := cref_ge a (Int.le_refl 0) ht
    simp only [Task.c, hp, Pc.c] at this
    omega
  rw [touch_id o hc]
  have ht' : s.decC.tasks[i]? = some t := by rw [(decC_keeps s).1]; exact ht
  refine set_spec (acc_decC a hc) (ok_decC o hc) i t _ ht' hd ?_ ?_ ?_ ?_ ?_ ?_ ?_
  all_goals first | (simp [Pc.stops]; done) | (simp [Pc.needs]; done) | cr

theorem get_set {l : List Task} {i j : Nat} {t t' u : Task} (ht : l[i]? = some t)
    (hu : (l.set i t')[j]? = some u) : (i = j ∧ u = t') ∨ (i ≠ j ∧ l[j]? = some u) := by
  have hi : i < l.length := by rw [List.getElem?_eq_some_iff] at ht; exact ht.1
  rw [List.getElem?_set] at hu
  by_cases e : i = j
  · rw [if_pos e, if_pos (by omega)] at hu
    cases hu
    exact Or.inl ⟨e, rfl⟩
  · rw [if_neg e] at hu
    exact Or.inr ⟨e, hu⟩

theorem inv_task {s : St} (v : Inv s) : Inv { s with tasks := s.tasks ++ [⟨0, .idle, 0⟩] } := by
  obtain ⟨⟨a1, a2, a3, a4, a5, a6⟩, o1, o2, o3, o4, o5, o6, o7, o8, o9, o10, o11, o12, o13⟩ := v
  have S : ∀ f : Task → Nat, f ⟨0, .idle, 0⟩ = 0 →
      sumT { s with tasks := s.tasks ++ [⟨0, .idle, 0⟩] } f = sumT s f := by
    intro f h
    simp [sumT, h]
  refine ⟨⟨?_, ?_, ?_, ?_, a5, ?_⟩, o1, o2, o3, o4, o5, o6, o7, o8, o9, o10, o11, ?_, ?_⟩
  · rw [S _ rfl]; exact a1
  · rw [S _ rfl]; exact a2
  · rw [S _ rfl]; exact a3
  · rw [S _ rfl]; exact a4
  · intro k; rw [S _ rfl]; exact a6 k
  · rw [S _ rfl]; exact o12
  · intro j u hu
    simp only [List.getElem?_append] at hu
    split at hu
    · exact o13 j u hu
    · have : u = ⟨0, .idle, 0⟩ := by
        rw [List.getElem?_singleton] at hu
        split at hu
        · cases hu; rfl
        · cases hu
      subst this
      refine ⟨?_, ?_, ?_, ?_, ?_, ?_⟩ <;> intro h <;> simp [Pc.needs, Pc.stops] at h

theorem base_of_stop {s : St} (v : Inv s) {i : Nat} {t : Task} (ht : s.tasks[i]? = some t)
    (h : t.pc.stops = true) : 0 < s.cref := by
  have := cref_ge v.1 (Int.le_refl 0) ht
  have := ((v.2.tasks i t ht).2.1 h).2
  omega

theorem inv_stop {s : St} (v : Inv s) (i : Nat) (t : Task) (w : Waiter) (ht : s.tasks[i]? = some t)
    (hd : t.dn = 0) (hp : t.pc = .idle) (hw : w ∈ s.held) (hs : s.stopping = false) :
    Inv ({ s.touch with stopping := true }.setT i { t with pc := .stop0 }) := by
  have hc : 0 < s.cref := by
    have h1 := v.1.c; have h2 := len_pos hw; have h3 : ({} : Cr).c = 0 := rfl; omega
  obtain ⟨a, o⟩ := v
  rw [touch_id o hc]
  have A : Acc { s with stopping := true } {} := by
    obtain ⟨a1, a2, a3, a4, a5, a6⟩ := a
    exact ⟨a1, a2, a3, a4, a5, a6⟩
  have no : ∀ (j : Nat) (u : Task), s.tasks[j]? = some u → u.pc.stops = false := by
    intro j u hu
    cases e : u.pc.stops
    · rfl
    · have := ((o.tasks j u hu).2.1 e).1
      rw [hs] at this
      cases this
  have z : sumT s (fun t => b2n t.pc.stops) = 0 := by
    unfold sumT
    rw [List.sum_eq_zero_iff_forall_eq_nat]
    intro x hx
    obtain ⟨u, hu, rfl⟩ := List.mem_map.mp hx
    obtain ⟨j, hj, he⟩ := List.mem_iff_getElem.mp hu
    have := no j u (by rw [List.getElem?_eq_some_iff]; exact ⟨hj, he⟩)
    simp [this, b2n]
  refine ⟨acc_setT A i t _ ht _ ?_ ?_ ?_ ?_ ?_, ?_⟩
  · cr
  · cr
  · cr
  · cr
  · cr
  obtain ⟨o1, o2, o3, o4, o5, o6, o7, o8, o9, o10, o11, o12, o13⟩ := o
  have L := o8 hs
  refine ⟨o1, o2, o3, o4, o5, o6, o7, ?_, o9, o10, o11, ?_, ?_⟩
  · intro h; cases h
  · have := sum_set s.tasks (fun t => b2n t.pc.stops) i t { t with pc := .stop0 } ht
    simp only [sumT, St.setT] at z this ⊢
    simp only [b2n, Pc.stops, if_true] at this z ⊢
    omega
  · intro j u hu
    rcases get_set ht hu with ⟨-, rfl⟩ | ⟨-, hu⟩
    · refine ⟨?_, fun _ => ⟨rfl, L.1⟩, fun _ => ⟨L.2.1, L.2.2⟩, ?_, ?_, fun h => (h hd).elim⟩
      · intro h; simp [Pc.needs] at h
      · intro h; simp at h
      · intro h; simp at h
    · obtain ⟨g1, g2, g3, g4, g5, g6⟩ := o13 j u hu
      exact ⟨g1, fun h => ⟨rfl, (g2 h).2⟩, g3, g4, g5, g6⟩

/-- The stopping task goes on: a change of the flags, seen from the tasks. -/
theorem stop_tasks {s s' : St} (v : Inv s) (i : Nat) (t t' : Task) (ht : s.tasks[i]? = some t)
    (hs : t.pc.stops = true) (e : s'.tasks = s.tasks.set i t')
    (hl : s'.lref = s.lref) (hf : s.lFrz = true → s'.lFrz = true)
    (h1 : t'.pc.needs = true → 1 ≤ t'.own)
    (h2 : t'.pc.stops = true → s'.stopping = true ∧ s'.base = 1)
    (h3 : t'.pc = .stop0 → s'.lFrz = false ∧ s'.inList = true)
    (h4 : t'.pc = .stop2 → s'.lFrz = true ∧ s'.cFrz = false)
    (h5 : t'.pc = .stop4 → s'.inList = false)
    (h6 : t'.dn ≠ 0 → (1 ≤ t'.own ∨ t'.pc = .stop2) ∧ s'.lFrz = true ∧ s'.lref = 0) :
    sumT s' (fun t => b2n t.pc.stops) ≤ 1 ∧
    ∀ (i : Nat) (t : Task), s'.tasks[i]? = some t →
    (t.pc.needs = true → 1 ≤ t.own) ∧
    (t.pc.stops = true → s'.stopping = true ∧ s'.base = 1) ∧
    (t.pc = .stop0 → s'.lFrz = false ∧ s'.inList = true) ∧
    (t.pc = .stop2 → s'.lFrz = true ∧ s'.cFrz = false) ∧
    (t.pc = .stop4 → s'.inList = false) ∧
    (t.dn ≠ 0 → (1 ≤ t.own ∨ t.pc = .stop2) ∧ s'.lFrz = true ∧ s'.lref = 0) := by
  constructor
  · have := sum_set s.tasks (fun t => b2n t.pc.stops) i t t' ht
    have o := v.2.stops
    simp only [sumT] at o ⊢
    rw [e]
    have : b2n t'.pc.stops ≤ b2n t.pc.stops := by
      unfold b2n; rw [hs]; simp; split <;> omega
    omega
  · intro j u hu
    rw [e] at hu
    rcases get_set ht hu with ⟨-, rfl⟩ | ⟨n, hu⟩
    · exact ⟨h1, h2, h3, h4, h5, h6⟩
    · obtain ⟨g1, g2, g3, g4, g5, g6⟩ := v.2.tasks j u hu
      have ns : ∀ p : Pc, p.stops = true → u.pc = p → False := by
        intro p hp hu'
        exact n (one_stop v.2 ht hu hs (by rw [hu']; exact hp))
      refine ⟨g1, fun h => (ns _ h rfl).elim, fun h => (ns _ rfl h).elim, fun h => (ns _ rfl h).elim,
        fun h => (ns _ rfl h).elim, fun h => ⟨(g6 h).1, hf (g6 h).2.1, by rw [hl]; exact (g6 h).2.2⟩⟩

theorem inv_stopErr {s : St} (v : Inv s) (i : Nat) (t : Task) (ht : s.tasks[i]? = some t)
    (hd : t.dn = 0) (hp : t.pc = .stop0) :
    Inv ({ s.touch with stopping := false }.setT i { t with pc := .idle }) := by
  have hs : t.pc.stops = true := by rw [hp]; rfl
  have hc := base_of_stop v ht hs
  have T := stop_tasks (s' := ({ s with stopping := false } : St).setT i { t with pc := .idle }) v i t
    { t with pc := .idle } ht hs rfl rfl id
  obtain ⟨a, o⟩ := v
  rw [touch_id o hc]
  have hb := (o.tasks i t ht).2.1 hs
  have h0 := (o.tasks i t ht).2.2.1 hp
  have A : Acc { s with stopping := false } {} := by
    obtain ⟨a1, a2, a3, a4, a5, a6⟩ := a
    exact ⟨a1, a2, a3, a4, a5, a6⟩
  refine ⟨acc_setT A i t _ ht _ ?_ ?_ ?_ ?_ ?_, ?_⟩
  · cr
  · cr
  · cr
  · cr
  · cr
  obtain ⟨T1, T2⟩ := T (by simp [Pc.needs]) (by simp [Pc.stops]) (by simp) (by simp) (by simp)
    (fun h => (h hd).elim)
  obtain ⟨o1, o2, o3, o4, o5, o6, o7, o8, o9, o10, o11, o12, o13⟩ := o
  exact ⟨o1, o2, o3, o4, o5, o6, o7, fun _ => ⟨hb.2, h0.1, h0.2⟩, o9, o10, o11, T1, T2⟩

theorem inv_off {s : St} (v : Inv s) (i : Nat) (t : Task) (ht : s.tasks[i]? = some t)
    (hd : t.dn = 0) (hp : t.pc = .stop3) :
    Inv ({ s.touch with inList := false }.setT i { t with pc := .stop4 }) := by
  have hs : t.pc.stops = true := by rw [hp]; rfl
  have hc := base_of_stop v ht hs
  have T := stop_tasks (s' := ({ s with inList := false } : St).setT i { t with pc := .stop4 }) v i t
    { t with pc := .stop4 } ht hs rfl rfl id
  obtain ⟨a, o⟩ := v
  rw [touch_id o hc]
  have hb := (o.tasks i t ht).2.1 hs
  have A : Acc { s with inList := false } {} := by
    obtain ⟨a1, a2, a3, a4, a5, a6⟩ := a
    exact ⟨a1, a2, a3, a4, a5, a6⟩
  refine ⟨acc_setT A i t _ ht _ ?_ ?_ ?_ ?_ ?_, ?_⟩
  · cr
  · cr
  · cr
  · cr
  · cr
  obtain ⟨T1, T2⟩ := T (by simp [Pc.needs]) (fun _ => hb) (by simp) (by simp) (fun _ => rfl)
    (fun h => (h hd).elim)
  obtain ⟨o1, o2, o3, o4, o5, o6, o7, o8, o9, o10, o11, o12, o13⟩ := o
  refine ⟨o1, o2, o3, o4, o5, o6, o7, ?_, fun h => (by cases h), o10, o11, T1, T2⟩
  intro h
  have := hb.1
  rw [show s.stopping = false from h] at this
  cases this

theorem inv_stop4 {s : St} (v : Inv s) (i : Nat) (t : Task) (ht : s.tasks[i]? = some t)
    (hd : t.dn = 0) (hp : t.pc = .stop4) :
    Inv ({ s.touch.decC with base := s.base - 1 }.setT i { t with pc := .idle }) := by
  have hs : t.pc.stops = true := by rw [hp]; rfl
  have hc := base_of_stop v ht hs
  obtain ⟨k1, k2, k3, k4, k5, k6, k7, k8⟩ := decC_keeps s
  have T := stop_tasks (s' := ({ s.decC with base := s.base - 1 } : St).setT i { t with pc := .idle }) v i t
    { t with pc := .idle } ht hs (by simp only [St.setT]; rw [k1]) k5 (by simp only [St.setT]; rw [k6]; exact id)
  obtain ⟨a, o⟩ := v
  rw [touch_id o hc]
  have hb := (o.tasks i t ht).2.1 hs
  have hi := (o.tasks i t ht).2.2.2.2.1 hp
  have ht' : s.decC.tasks[i]? = some t := by rw [k1]; exact ht
  have A : Acc { s.decC with base := s.base - 1 } {} := by
    obtain ⟨a1, a2, a3, a4, a5, a6⟩ := acc_decC a hc
    refine ⟨?_, a2, a3, a4, a5, a6⟩
    rw [k4] at a1
    simp only [sumT] at a1 ⊢
    omega
  refine ⟨acc_setT A i t _ ht' _ ?_ ?_ ?_ ?_ ?_, ?_⟩
  · cr
  · cr
  · cr
  · cr
  · cr
  obtain ⟨T1, T2⟩ := T (by simp [Pc.needs]) (by simp [Pc.stops]) (by simp) (by simp) (by simp)
    (fun h => (h hd).elim)
  obtain ⟨o1, o2, o3, o4, o5, o6, o7, o8, o9, o10, o11, o12, o13⟩ := ok_decC o hc
  refine ⟨o1, o2, o3, o4, o5, o6, o7, ?_, ?_, o10, o11, T1, T2⟩
  · intro h
    have h : s.decC.stopping = false := h
    rw [k7, hb.1] at h
    cases h
  · intro h
    have h : s.decC.inList = true := h
    rw [k8, hi] at h
    cases h

theorem inv_remove1 {s : St} (v : Inv s) (i : Nat) (t : Task) (ht : s.tasks[i]? = some t)
    (hd : t.dn = 0) (hp : t.pc = .stop0) : Inv (s.remove1 i t) := by
  have hs : t.pc.stops = true := by rw [hp]; rfl
  have hc := base_of_stop v ht hs
  have hb := (v.2.tasks i t ht).2.1 hs
  have h0 := (v.2.tasks i t ht).2.2.1 hp
  have hlf : s.lFrz = true → False := by intro h; rw [h0.1] at h; exact Bool.noConfusion h
  have hcf : s.cFrz = false := by
    cases e : s.cFrz
    · rfl
    · exact (hlf (v.2.frz e).1).elim
  have hlc : s.lCb = false := by
    cases e : s.lCb
    · rfl
    · exact (hlf (v.2.lcb e).1).elim
  have hdd : s.dead = false := by
    cases e : s.dead
    · rfl
    · exact (hlf (v.2.dead e).1).elim
  unfold St.remove1
  rw [touch_id v.2 hc]
  dsimp only
  rw [if_neg (by simp [hcf, hlc])]
  by_cases z : s.lref = 0
  · rw [if_pos z]
    have T := stop_tasks (s' := ({ s with cref := s.cref + 1, lFrz := true } : St).setT i
      { t with pc := .stop2, dn := 1 }) v i t { t with pc := .stop2, dn := 1 } ht hs rfl rfl (fun _ => rfl)
      (by simp [Pc.needs]) (fun _ => hb) (by simp) (fun _ => ⟨rfl, hcf⟩) (by simp) (fun _ => ⟨Or.inr rfl, rfl, z⟩)
    obtain ⟨a, o⟩ := v
    have A : Acc { s with cref := s.cref + 1, lFrz := true } { c := 1 } := by
      obtain ⟨a1, a2, a3, a4, a5, a6⟩ := a
      refine ⟨?_, a2, a3, a4, a5, a6⟩
      simp only [sumT] at a1 ⊢
      omega
    refine ⟨acc_setT A i t _ ht _ ?_ ?_ ?_ ?_ ?_, ?_⟩
    · cr
    · cr
    · cr
    · cr
    · cr
    obtain ⟨o1, o2, o3, o4, o5, o6, o7, o8, o9, o10, o11, o12, o13⟩ := ok_incC o hcf
    refine ⟨o1, o2, o3, o4, o5, o6, fun h => ⟨rfl, (o7 h).2⟩, ?_, o9, fun h => ⟨rfl, (o10 h).2⟩,
      fun h => ⟨rfl, (o11 h).2⟩, T.1, T.2⟩
    intro h
    rw [show s.stopping = false from h] at hb
    exact Bool.noConfusion hb.1
  · rw [if_neg z]
    have T := stop_tasks (s' := ({ s with cref := s.cref + 1, lFrz := true, lCb := true } : St).setT i
      { t with pc := .stop2 }) v i t { t with pc := .stop2 } ht hs rfl rfl (fun _ => rfl)
      (by simp [Pc.needs]) (fun _ => hb) (by simp) (fun _ => ⟨rfl, hcf⟩) (by simp) (fun h => (h hd).elim)
    obtain ⟨a, o⟩ := v
    have A : Acc { s with cref := s.cref + 1, lFrz := true, lCb := true } {} := by
      obtain ⟨a1, a2, a3, a4, a5, a6⟩ := a
      refine ⟨?_, a2, a3, a4, a5, a6⟩
      simp only [sumT, hlc, b2n, if_true, Bool.false_eq_true, if_false] at a1 ⊢
      omega
    refine ⟨acc_setT A i t _ ht _ ?_ ?_ ?_ ?_ ?_, ?_⟩
    · cr
    · cr
    · cr
    · cr
    · cr
    obtain ⟨o1, o2, o3, o4, o5, o6, o7, o8, o9, o10, o11, o12, o13⟩ := ok_incC o hcf
    refine ⟨o1, o2, o3, o4, o5, o6, fun h => ⟨rfl, (o7 h).2⟩, ?_, o9, fun h => ⟨rfl, Nat.pos_of_ne_zero z⟩,
      fun h => ⟨rfl, (o11 h).2⟩, T.1, T.2⟩
    intro h
    rw [show s.stopping = false from h] at hb
    exact Bool.noConfusion hb.1

theorem inv_remove2 {s : St} (v : Inv s) (i : Nat) (t : Task) (ht : s.tasks[i]? = some t)
    (hd : t.dn = 0) (hp : t.pc = .stop2) : Inv (s.remove2 i t) := by
  have hs : t.pc.stops = true := by rw [hp]; rfl
  have hc := base_of_stop v ht hs
  have hb := (v.2.tasks i t ht).2.1 hs
  have h2 := (v.2.tasks i t ht).2.2.2.1 hp
  have hcc : s.cCb = false := by
    cases e : s.cCb
    · rfl
    · have := (v.2.cb e).2
      rw [h2.2] at this
      cases this
  unfold St.remove2
  rw [touch_id v.2 hc]
  dsimp only
  rw [if_neg (by simp [hcc]), if_neg (by omega)]
  have T := stop_tasks (s' := ({ s with cFrz := true, cCb := true } : St).setT i
      { t with pc := .stop3 }) v i t { t with pc := .stop3 } ht hs rfl rfl id
      (by simp [Pc.needs]) (fun _ => hb) (by simp) (by simp) (by simp) (fun h => (h hd).elim)
  obtain ⟨a, o⟩ := v
  have A : Acc { s with cFrz := true, cCb := true } {} := by
    obtain ⟨a1, a2, a3, a4, a5, a6⟩ := a
    exact ⟨a1, a2, a3, a4, a5, a6⟩
  refine ⟨acc_setT A i t _ ht _ ?_ ?_ ?_ ?_ ?_, ?_⟩
  · cr
  · cr
  · cr
  · cr
  · cr
  obtain ⟨o1, o2, o3, o4, o5, o6, o7, o8, o9, o10, o11, o12, o13⟩ := o
  exact ⟨o1, o2, o3, o4, fun h => ⟨(o5 h).1, rfl⟩, fun _ => ⟨hc, rfl⟩, fun _ => ⟨h2.1, Or.inl rfl⟩, o8, o9, o10,
    o11, T.1, T.2⟩

/-- A task in the callback of `refcnt.lock` goes on. -/
theorem dn_spec {s : St} {h h' : Cr} (a : Acc s h) (o : Ok s) (i : Nat) (t : Task) (n : Nat)
    (ht : s.tasks[i]? = some t) (hd : t.dn ≠ 0) (ec : h'.c + ({ t with dn := n } : Task).c = h.c + t.c)
    (el : h'.l = h.l) (er : h'.r = h.r) (ew : h'.w = h.w) (ek : ∀ k, h'.k k = h.k k) :
    Acc (s.setT i { t with dn := n }) h' ∧ Ok (s.setT i { t with dn := n }) := by
  obtain ⟨g1, g2, g3, g4, g5, g6⟩ := o.tasks i t ht
  refine ⟨acc_setT a i t _ ht h' ec (by simp only; omega) (by simp only; omega) (by simp only; omega)
    (fun k => by have := ek k; simp only; omega), ok_setT o i t _ ht g1 id id id g5 (fun _ => g6 hd)⟩

theorem inv_dn1 {s : St} (v : Inv s) (i : Nat) (t : Task) (ht : s.tasks[i]? = some t) (hd : t.dn = 1) :
    Inv ({ s.touch with fail := s.fail ++ s.q, q := [], dead := true }.setT i { t with dn := 2 }) := by
  obtain ⟨a, o⟩ := v
  have hc : 0 < s.cref := by
    have := cref_ge a (Int.le_refl 0) ht
    simp [Task.c, hd] at this
    omega
  have g := (o.tasks i t ht).2.2.2.2.2 (by omega)
  rw [touch_id o hc]
  have A : Acc { s with fail := s.fail ++ s.q, q := [], dead := true } {} := by
    obtain ⟨a1, a2, a3, a4, a5, a6⟩ := a
    refine ⟨?_, a2, a3, a4, a5, ?_⟩
    · simp only [sumT, List.length_append, List.length_nil] at a1 ⊢
      omega
    · intro k
      have := a6 k
      have z : cnt k [] = 0 := rfl
      simp only [sumT, cnt_append, z] at this ⊢
      omega
  have O : Ok { s with fail := s.fail ++ s.q, q := [], dead := true } := by
    obtain ⟨o1, o2, o3, o4, o5, o6, o7, o8, o9, o10, o11, o12, o13⟩ := o
    exact ⟨o1, o2, o3, o4, o5, o6, o7, o8, o9, o10, fun _ => ⟨g.2.1, g.2.2, rfl⟩, o12, o13⟩
  refine dn_spec A O i t 2 ht (by omega) ?_ rfl rfl rfl (fun _ => rfl)
  simp [Task.c, hd]

theorem inv_dn2 {s : St} (v : Inv s) (i : Nat) (t : Task) (ht : s.tasks[i]? = some t) (hd : t.dn = 2) :
    Inv (s.touch.decC.setT i { t with dn := 3 }) := by
  obtain ⟨a, o⟩ := v
  have hc : 0 < s.cref := by
    have := cref_ge a (Int.le_refl 0) ht
    simp [Task.c, hd] at this
    omega
  rw [touch_id o hc]
  have ht' : s.decC.tasks[i]? = some t := by rw [(decC_keeps s).1]; exact ht
  refine dn_spec (acc_decC a hc) (ok_decC o hc) i t 3 ht' (by omega) ?_ rfl rfl rfl (fun _ => rfl)
  simp [Task.c, hd]
  omega

theorem inv_dn3 {s : St} (v : Inv s) (i : Nat) (t : Task) (ht : s.tasks[i]? = some t) (hd : t.dn = 3) :
    Inv (s.touch.setT i { t with dn := 0 }) := by
  have g := (v.2.tasks i t ht).2.2.2.2.2 (by omega)
  have hc : 0 < s.cref := by
    rcases g.1 with g | g
    · have := cref_ge v.1 (Int.le_refl 0) ht
      have := task_c_pos g
      omega
    · exact base_of_stop v ht (by rw [g]; rfl)
  obtain ⟨a, o⟩ := v
  rw [touch_id o hc]
  refine dn_spec a o i t 0 ht (by omega) ?_ rfl rfl rfl (fun _ => rfl)
  simp [Task.c, hd]

theorem inv_step {s s' : St} (v : Inv s) (h : Step s s') : Inv s' := by
  cases h with
  | task => exact inv_task v
  | get i t ht hd hp h =>
    refine inv_get v i t ht hd hp ?_
    have := cref_ge v.1 (Int.le_refl 0) ht; have := task_c_pos h; omega
  | name i t ht hd hp h =>
    refine inv_get v i t ht hd hp ?_
    have := cref_ge v.1 (Int.le_refl 0) ht; have := v.2.list h; omega
  | put i t ht hd hp h => exact inv_put v i t ht hd hp h
  | call0 i t w tr ht hd hp h hu => exact inv_call0 v i t w tr ht hd hp h hu
  | call1 i t w tr ht hd hp => exact inv_call1 v i t w tr ht hd hp
  | lock2 i t w ok ht hd hp => exact inv_lock2 v i t w ok ht hd hp
  | nm i t w ht hd hp => exact inv_nm v i t w ht hd hp
  | lock3 i t ht hd hp => exact inv_lock3 v i t ht hd hp
  | try2 i t w ht hd hp => exact inv_try2 v i t w ht hd hp
  | try3 i t w ht hd hp => exact inv_try3 v i t w ht hd hp
  | done w hw => exact inv_done v w hw
  | failed w hw => exact inv_failed v w hw
  | unlock i t w ht hd hp hw => exact inv_unlock v i t w ht hd hp hw
  | unl i t ht hd hp => exact inv_unl v i t ht hd hp
  | stop i t w ht hd hp hw _ hs => exact inv_stop v i t w ht hd hp hw hs
  | stopErr i t ht hd hp => exact inv_stopErr v i t ht hd hp
  | remove1 i t ht hd hp => exact inv_remove1 v i t ht hd hp
  | remove2 i t ht hd hp => exact inv_remove2 v i t ht hd hp
  | off i t ht hd hp => exact inv_off v i t ht hd hp
  | stop4 i t ht hd hp => exact inv_stop4 v i t ht hd hp
  | dn1 i t ht hd => exact inv_dn1 v i t ht hd
  | dn2 i t ht hd => exact inv_dn2 v i t ht hd
  | dn3 i t ht hd => exact inv_dn3 v i t ht hd

theorem inv_init : Inv init := by
  refine ⟨⟨?_, ?_, ?_, ?_, ?_, ?_⟩, ?_, ?_, ?_, ?_, ?_, ?_, ?_, ?_, ?_, ?_, ?_, ?_, ?_⟩
  all_goals first
    | rfl
    | (intro k; rfl)
    | (intro h; cases h; done)
    | (intro i t h; simp [init] at h; done)
    | (simp [init, sumT]; done)

theorem inv_run {s : St} (h : Run s) : Inv s := by
  induction h with
  | init => exact inv_init
  | step _ g ih => exact inv_step ih g

end Verif.MngtLock
